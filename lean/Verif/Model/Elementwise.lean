import Verif.Spec.Broadcast
import Mathlib.Analysis.Real.Sqrt

/-!
Models of `remove_tile_before_binary_elementwise_ops` (optimize.py 508-557) and
`fuse_reciprocal_sqrt` (optimize.py 466-505) of `/repo/tinynn/converter/operators/optimize.py`.
-/

namespace Verif.Model
open Verif.Spec

/-- optimize.py 532-538: the tile is removed exactly when the shape of the other operand and the shape of
the tile's *input* broadcast to the operator's recorded output shape. -/
def tileRemovable (alter tileIn out : List Nat) : Bool := bcShape alter tileIn == some out

/-- A function applied to every element. -/
def mapT {α β : Type} (f : α → β) (t : Tensor α) : Tensor β := ⟨t.shape, fun idx => f (t.get idx)⟩

/-- Which operand of the division is the square root of `x`; the other operand is `y`
(`is_reciprocal_sqrt_edge`, optimize.py 4287-4295, only asks for an edge from the SQRT to the DIV). -/
inductive SqrtPos | numerator | divisor
  deriving DecidableEq, Repr

/-- The subgraph before the pass: `DIV(SQRT x, y)` or `DIV(y, SQRT x)`, without fused activation. -/
noncomputable def sqrtDiv (pos : SqrtPos) (x y : Tensor ℝ) : Option (Tensor ℝ) :=
  match pos with
  | .numerator => elementwise (fun a b => a / b) (mapT Real.sqrt x) y
  | .divisor => elementwise (fun a b => a / b) y (mapT Real.sqrt x)

/-- `fuse_reciprocal_sqrt`, optimize.py 466-505.  The SQRT becomes an RSQRT (473-474).  When `inputs[0]` of the DIV is
a constant full of 1.0 (`onesConst`; 477-481) the DIV is dropped, otherwise it becomes a MUL of the same operands
(498-502).  `inputs[0]` is `y` exactly when the square root is the divisor. -/
noncomputable def fuseRsqrt (pos : SqrtPos) (onesConst : Bool) (x y : Tensor ℝ) : Option (Tensor ℝ) :=
  let r := mapT (fun v => 1 / Real.sqrt v) x
  match pos with
  | .numerator => elementwise (fun a b => a * b) r y
  | .divisor => if onesConst then some r else elementwise (fun a b => a * b) y r

end Verif.Model
