import Verif.Spec.DropoutLower
import Mathlib.Analysis.SpecialFunctions.Log.Basic

/-!
Model of the conversion of dropout (`/repo/tinynn/converter/operators/torch/aten.py`):

  ATenDropoutOperator.parse         1551-1601
  ATenFeatureDropoutOperator.parse  1604-1613

Floats are real numbers.  The TFLite operator MULTINOMIAL draws, for each row of logits and each sample, the class `k` with probability
`exp l_k / (exp l_0 + exp l_1)`, independently.
-/

namespace Verif.Model.DropoutLower
open Verif.Spec.DropoutLower
open scoped BigOperators

/-- `np.log` (1578); `none` is minus infinity. -/
noncomputable def logOf (q : ℝ) : Option ℝ := if q = 0 then none else some (Real.log q)

/-- The exponential of a logit. -/
noncomputable def expOf : Option ℝ → ℝ
  | none => 0
  | some l => Real.exp l

/-- MULTINOMIAL with two classes: the probability of class 1 (`true`) and class 0 for logits `l0`, `l1`. -/
noncomputable def classProb (l0 l1 : Option ℝ) (k : Bool) : ℝ := expOf (if k then l1 else l0) / (expOf l0 + expOf l1)

/-- What the parser adds to the graph for an input: it raises, it passes the input on, or it adds operators with random results. -/
inductive Lowered where
  | raises
  | pass
  | random (rows cols : Nat) (r : (Fin rows × Fin cols → ℝ) → Random (Fin rows × Fin cols))

/-- `ATenDropoutOperator.parse`, for an input of the given shape.  The elements of an input of shape (1, rows, cols) are indexed by the
last two coordinates; the mask of shape (rows, cols) is broadcast to it (1597).  The mask is the drawn class as a float (1582-1590), times
`1.0 / (1.0 - p)` (1592-1594), which raises `ZeroDivisionError` for 1, times the input (1597). -/
noncomputable def convertDropout (train quantized : Bool) (p : ℝ) (shape : List Nat) : Lowered :=
  if train then
    if quantized then .raises
    else
      let build (rows cols : Nat) : Lowered :=
        if 1 - p = 0 then .raises
        else .random rows cols fun x =>
          ⟨fun m => ∏ i, classProb (logOf p) (logOf (1 - p)) (m i),
           fun m i => x i * ((if m i then 1 else 0) * (1 / (1 - p)))⟩
      match shape with
      | [rows, cols] => build rows cols
      | [b, rows, cols] => if b = 1 then build rows cols else .raises
      | _ => .raises
  else .pass

/-- `ATenFeatureDropoutOperator.parse`: a warning at most (1608-1610), then the input is passed on. -/
def convertFeatureDropout (_train : Bool) : Lowered := .pass

end Verif.Model.DropoutLower
