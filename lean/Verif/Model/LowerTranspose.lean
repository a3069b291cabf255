import Verif.Model.Layout

/-! Model of `lower_transpose_dim_pass`, /repo/tinynn/converter/operators/optimize.py 2648-2743. -/

namespace Verif.Model
open Verif.Spec

/-- optimize.py 2697-2713: the loop `for d, p in zip(input_shape, perm)` after its first iteration;
returns the remaining `(new_shape, new_perm)` entries.  `p - last_perm == 1` is written `p = last + 1`. -/
def lowerGo : List (Nat × Nat) → Nat → Nat → List (Nat × Nat)
  | [], cum, last => [(cum, last)]
  | (d, p) :: r, cum, last =>
    if p = last + 1 ∨ d = 1 ∨ cum = 1 then lowerGo r (cum * d) p
    else (cum, last) :: lowerGo r d p

/-- optimize.py 2692-2713: `(new_shape[i], new_perm[i])` pairs. -/
def lowerPairs (shape perm : List Nat) : List (Nat × Nat) :=
  match shape.zip perm with
  | [] => []
  | (d, p) :: r => lowerGo r d p

/-- optimize.py 2692-2738: the emitted RESHAPE, TRANSPOSE, RESHAPE (new shape, new permutation);
`none` when the assertion on the number of dimensions fails. -/
def lowerTranspose (maxDims : Nat) (shape perm : List Nat) : Option (List Nat × List Nat) :=
  let ps := lowerPairs shape perm
  let newShape := ps.map Prod.fst
  let newPerm := npArgsort (ps.map Prod.snd)
  if newShape.length ≤ maxDims then some (newShape, newPerm) else none

/-- The three emitted operators applied to a tensor; `outShape` is the original output shape. -/
def runLowered {α : Type} (ns np outShape : List Nat) (t : Tensor α) : Tensor α :=
  reshape outShape (transpose np (reshape ns t))

end Verif.Model
