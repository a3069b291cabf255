import Verif.Spec.BmmAdd

/-!
Model of `fuse_bmm_add_pass` (`/repo/tinynn/converter/operators/optimize.py` 2569-2645) with `is_bmm_add_edge` (4067-4087): which products and additions become one FULLY_CONNECTED and what it computes.
How the graph is rebuilt is in `Model/Rebuild.lean`; that the product is read by the addition only and is its first operand is assumed here.
-/

namespace Verif.Model.BmmAdd
open Verif.Spec Verif.Spec.BmmAdd

/-- `is_bmm_add_edge` (4071-4083) and the filter of the pass (2572-2578).  Types and activations are not looked at. -/
def fusable {R : Type} [CommRing R] (k : Kind R) (x w b : Tensor R) : Prop :=
  2 ≤ x.shape.length ∧ w.shape.length = 2 ∧ b.shape.length = 1 ∧
    match k with
    | .bmm => b.shape.getD 0 0 = w.shape.getD 1 0
    | .fc _ bias _ => b.shape.getD 0 0 = w.shape.getD 0 0 ∧ (∀ b₀, bias = some b₀ → ∀ idx, InBounds b₀.shape idx → b₀.get idx = 0)

/-- The operator that replaces both (2618-2641); `rank` is the number of axes of the result of the addition. -/
def fused {R : Type} [CommRing R] [LinearOrder R] (k : Kind R) (x w b : Tensor R) (act : Act) (rank : ℕ) : Option (Tensor R) :=
  let w' := match k with
    | .bmm => transpose [1, 0] w
    | .fc _ _ _ => w
  (fullyConnected (decide (2 < rank)) x w' b).map (mapTensor act.fn)

end Verif.Model.BmmAdd
