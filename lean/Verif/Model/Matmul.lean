import Verif.Spec.Matmul
import Verif.Spec.AxisOps

/-!
Model of `ATenMatmulOperator` (also used for `mm` and `bmm`), `ATenAddmmOperator`, `ATenLinearOperator`, `ATenAddbmmOperator` and `ATenBaddbmmOperator`,
`/repo/tinynn/converter/operators/torch/aten.py` 1515-1543, 1659-1676, 2251-2285, 4498-4538.  Each function gives the tensor the emitted operators compute
(`none` inside `ops` when an operator rejects its operands).  Operands of which both are constant are folded by the converter and are not part of this model.
-/

namespace Verif.Model
open Verif.Spec
variable {R : Type} [CommRing R]

/-- What a conversion leaves in the graph: an error, no operator at all, or operators with a result. -/
inductive Emitted (α : Type) where
  | error
  | nothing
  | ops (r : Option α)

/-- Lines 1515-1536. -/
def convertMatmul (x w : Tensor R) : Emitted (Tensor R) :=
  if x.shape.length ≥ 2 ∧ x.shape.length ≤ 5 then
    if w.shape.length = 2 then
      let bias : Tensor R := ⟨[w.shape.getD 1 0], fun _ => 0⟩
      let keepDims : Bool := decide (x.shape.length > 2)
      .ops (fullyConnected keepDims x (transpose [1, 0] w) bias)
    else if w.shape.length ≥ 2 ∧ w.shape.length ≤ 5 then .ops (batchMatmul x w)
    else .nothing
  else .error

/-- Lines 1659-1676; the arguments `beta` and `alpha` are not read. -/
def convertAddmm (_beta _alpha : R) (bias x w : Tensor R) : Emitted (Tensor R) :=
  if w.shape.length = 2 then .ops (fullyConnected false x (transpose [1, 0] w) bias)
  else .error

/-- Lines 2251-2285. -/
def convertLinear (x w : Tensor R) (b : Option (Tensor R)) : Emitted (Tensor R) :=
  if x.shape.length ≥ 2 ∧ x.shape.length ≤ 5 then
    if w.shape.length = 2 then
      let bias : Tensor R := match b with
        | some b => b
        | none => ⟨[w.shape.getD 0 0], fun _ => 0⟩
      .ops (fullyConnected (decide (x.shape.length > 2)) x w bias)
    else .error
  else .error

/-- Lines 4498-4520: BATCH_MATMUL, SUM over axis 0 and ADD; `beta` and `alpha` are not read. -/
def convertAddbmm (_beta _alpha : R) (input b1 b2 : Tensor R) : Emitted (Tensor R) :=
  if b1.shape.length = 3 ∧ b2.shape.length = 3 then
    .ops (do
      let bmm ← batchMatmul b1 b2
      let sum := reshape (bmm.shape.drop 1) (reduceKeep [0] List.sum bmm)
      elementwise (· + ·) input sum)
  else .error

/-- Lines 4523-4538: BATCH_MATMUL and ADD; `beta` and `alpha` are not read. -/
def convertBaddbmm (_beta _alpha : R) (input b1 b2 : Tensor R) : Emitted (Tensor R) :=
  if b1.shape.length = 3 ∧ b2.shape.length = 3 then
    .ops (do
      let bmm ← batchMatmul b1 b2
      elementwise (· + ·) input bmm)
  else .error

end Verif.Model
