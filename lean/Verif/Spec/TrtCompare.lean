import Mathlib.Analysis.Real.Sqrt

/-! What a comparison of two backends has to establish: two lists of numbers agree within a tolerance. -/

namespace Verif.Spec.TrtCompare

/-- `numpy.allclose(a, b)` with its default tolerances: `|a - b| ≤ 1e-8 + 1e-5 * |b|` at every position. -/
def AllClose (a b : List ℝ) : Prop := List.Forall₂ (fun x y => |x - y| ≤ 1 / 10 ^ 8 + 1 / 10 ^ 5 * |y|) a b

/-- `numpy.dot`. -/
noncomputable def dot (a b : List ℝ) : ℝ := (List.zipWith (· * ·) a b).sum

/-- `numpy.linalg.norm`. -/
noncomputable def norm (a : List ℝ) : ℝ := Real.sqrt (dot a a)

/-- What an engine may be built with. -/
inductive Precision | fp16 | int8
  deriving DecidableEq

/-- The bit of TensorRT's `BuilderFlag`. -/
def Precision.bit : Precision → Nat | .fp16 => 0 | .int8 => 1

/-- The precisions a value of `config.flags` switches on. -/
def enables (flags : Nat) (p : Precision) : Prop := flags.testBit p.bit = true

instance (f : Nat) (p : Precision) : Decidable (enables f p) := by unfold enables; infer_instance

/-- The number of elements of a tensor; `-1` stands for a size that is not known. -/
def volume (shape : List Int) : Int := shape.prod

end Verif.Spec.TrtCompare
