import Verif.Model.PowLower
import Mathlib.Tactic.NormNum
import Mathlib.Tactic.Linarith

/-! C169: powers and reciprocals. -/

namespace Verif.Props
open Verif.Spec Verif.Spec.PowLower Verif.Model Verif.Model.PowLower

/-- A floating-point tensor is raised to every power PyTorch raises it to, with the same result, whatever the exponent is. -/
theorem C169_float (pw : ℚ → ℚ → ℚ) (x : ℚ) (e : Operand) : convertPow pw (.tensor .float32 (.flt x)) e = torchPow pw (.flt x) e.value := by
  cases e with
  | scalar v => cases v <;> simp [convertPow, castLike, promote, tflPow, torchPow, Operand.value, Num.isInt, Num.val]
  | tensor v => cases v <;> simp [convertPow, promote, tflPow, torchPow, Operand.value, Num.isInt, Num.val]

/-- So is a tensor of whole numbers, if the exponent is a tensor, or a Python number that is whole and not negative. -/
theorem C169_int_partial (pw : ℚ → ℚ → ℚ) (hpw : Power pw) (x : ℤ) (e : Operand) (he : (∃ v, e = .tensor v) ∨ ∃ n : ℕ, e.value.val = n) :
    convertPow pw (.tensor .int32 (.int x)) e = torchPow pw (.int x) e.value := by
  rcases he with ⟨v, rfl⟩ | ⟨n, hn⟩
  · cases v <;> simp [convertPow, promote, tflPow, torchPow, Operand.value, Num.isInt, Num.val]
  · cases e with
    | tensor v => cases v <;> simp [convertPow, promote, tflPow, torchPow, Operand.value, Num.isInt, Num.val]
    | scalar v =>
      simp only [Operand.value] at hn
      have ht : truncQ v.val = n := by
        rw [hn]
        unfold truncQ
        rw [if_pos (Nat.cast_nonneg n)]
        simp
      have h2 : convertPow pw (.tensor .int32 (.int x)) (.scalar v) = some (((x ^ n : ℤ)) : ℚ) := by
        simp [convertPow, castLike, promote, tflPow, Num.isInt, ht]
      rw [h2]
      cases v with
      | int z =>
        have hz : z = n := by
          simp only [Num.val] at hn
          exact_mod_cast hn
        simp [torchPow, Operand.value, hz]
      | flt q =>
        have hq : q = n := by simpa [Num.val] using hn
        have := hpw x n
        simp only [torchPow, Operand.value, Num.val, hq, this]
        push_cast
        rfl

/-- A fraction is cut off a Python exponent: for every exponent from 0 to below 1, for instance a square root, the result is 1 for every element. -/
theorem C169_fraction_false (pw : ℚ → ℚ → ℚ) (x : ℤ) (e : ℚ) (h0 : 0 ≤ e) (h1 : e < 1) :
    convertPow pw (.tensor .int32 (.int x)) (.scalar (.flt e)) = some 1 ∧ torchPow pw (.int x) (.flt e) = some (pw x e) := by
  have ht : truncQ e = 0 := by
    unfold truncQ
    rw [if_pos h0, Int.floor_eq_iff]
    constructor <;> push_cast <;> linarith
  refine ⟨?_, rfl⟩
  simp [convertPow, castLike, promote, tflPow, Num.isInt, Num.val, ht]

/-- In general the exponent is rounded towards zero, and an exponent of -1 or less makes the converted model fail, where PyTorch gives the power. -/
theorem C169_exponent_false (pw : ℚ → ℚ → ℚ) (x : ℤ) (e : ℚ) :
    (0 ≤ e → convertPow pw (.tensor .int32 (.int x)) (.scalar (.flt e)) = torchPow pw (.int x) (.int ⌊e⌋)) ∧
    (e ≤ -1 → convertPow pw (.tensor .int32 (.int x)) (.scalar (.flt e)) = none) := by
  constructor
  · intro h
    have ht : truncQ e = ⌊e⌋ := by unfold truncQ; rw [if_pos h]
    simp [convertPow, castLike, promote, tflPow, torchPow, Num.isInt, Num.val, ht]
  · intro h
    have ht : truncQ e < 0 := by
      unfold truncQ
      rw [if_neg (by linarith), Int.ceil_lt_iff]
      push_cast
      linarith
    simp [convertPow, castLike, promote, tflPow, Num.isInt, Num.val, ht]

/-- A Python number as base and tensors of 64 bits are refused. -/
theorem C169_refused (pw : ℚ → ℚ → ℚ) (e : Operand) : (∀ x, convertPow pw (.scalar x) e = none) ∧
    ∀ d x, d = .float64 ∨ d = .int64 → convertPow pw (.tensor d x) e = none := by
  refine ⟨fun _ => rfl, ?_⟩
  rintro d x (rfl | rfl) <;> simp [convertPow]

/-- The reciprocal of a floating-point number is PyTorch's; a tensor of whole numbers, whose reciprocals PyTorch computes, is divided by a kernel that refuses it. -/
theorem C169_reciprocal (q : ℚ) (z : ℤ) : convertReciprocal (.flt q) = some (torchBin (.div .none) (.flt 1) (.flt q)) ∧ convertReciprocal (.int z) = none :=
  ⟨rfl, rfl⟩

/-- There is a power function, and a square root of 4 becomes 1. -/
theorem pl_exists : ∃ pw, Power pw ∧ pw 4 (1/2) = 2 := by
  refine ⟨fun x e => if e = 1/2 then 2 else x ^ e.num.toNat, ?_, by norm_num⟩
  intro x n
  have h : ¬ ((n : ℚ) = 1/2) := by
    intro h
    have h2 : ((2 * n : ℕ) : ℚ) = (1 : ℕ) := by push_cast; linarith
    have := Nat.cast_injective (R := ℚ) h2
    omega
  simp only [h, if_false]
  simp

example : ∃ pw, Power pw ∧ convertPow pw (.tensor .int32 (.int 4)) (.scalar (.flt (1/2))) = some 1 ∧ torchPow pw (.int 4) (.flt (1/2)) = some 2 := by
  obtain ⟨pw, h, h2⟩ := pl_exists
  refine ⟨pw, h, (C169_fraction_false pw 4 (1/2) (by norm_num) (by norm_num)).1, ?_⟩
  rw [(C169_fraction_false pw 4 (1/2) (by norm_num) (by norm_num)).2]
  exact congrArg some (by simpa using h2)

end Verif.Props
