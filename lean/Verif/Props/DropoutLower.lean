import Verif.Model.DropoutLower
import Mathlib.Algebra.BigOperators.Ring.Finset
import Mathlib.Tactic.FieldSimp
import Mathlib.Tactic.Ring
import Mathlib.Tactic.NormNum
import Mathlib.Tactic.Linarith

/-! C146: dropout in converted models. -/

namespace Verif.Props
open Verif.Model.DropoutLower Verif.Spec.DropoutLower
open scoped BigOperators

namespace DropoutLower

theorem expOf_logOf (q : ℝ) (h : 0 ≤ q) : expOf (logOf q) = q := by
  unfold logOf
  by_cases hq : q = 0
  · simp [hq, expOf]
  · rw [if_neg hq]
    exact Real.exp_log (lt_of_le_of_ne h (Ne.symm hq))

theorem classProb_eq (p : ℝ) (h0 : 0 ≤ p) (h1 : p ≤ 1) (k : Bool) :
    classProb (logOf p) (logOf (1 - p)) k = if k then 1 - p else p := by
  unfold classProb
  rw [expOf_logOf p h0, expOf_logOf (1 - p) (by linarith)]
  have : p + (1 - p) = 1 := by ring
  rw [this, div_one]
  cases k
  · simpa using expOf_logOf p h0
  · simpa using expOf_logOf (1 - p) (by linarith)

/-- Independent samples: the mean of a function of one of them. -/
theorem sum_one {ι : Type} [Fintype ι] [DecidableEq ι] (w : Bool → ℝ) (hw : w true + w false = 1) (g : Bool → ℝ) (i : ι) :
    ∑ m : ι → Bool, (∏ j, w (m j)) * g (m i) = w true * g true + w false * g false := by
  have h1 : ∀ m : ι → Bool, (∏ j, w (m j)) * g (m i) = ∏ j, w (m j) * (if j = i then g (m j) else 1) := by
    intro m
    rw [Finset.prod_mul_distrib]
    congr 1
    rw [Finset.prod_ite_eq' Finset.univ i (fun j => g (m j))]
    simp
  simp only [h1]
  have := Finset.prod_univ_sum (fun _ : ι => (Finset.univ : Finset Bool)) (fun j b => w b * (if j = i then g b else 1))
  rw [Fintype.piFinset_univ] at this
  rw [← this]
  rw [Finset.prod_eq_single i]
  · simp
  · intro j _ hj
    simp [hj, hw]
  · intro h; exact absurd (Finset.mem_univ i) h

end DropoutLower

open DropoutLower

/-- C146 with dropout switched off: the input is passed on, whatever its shape. -/
theorem C146_eval (quantized : Bool) (p : ℝ) (shape : List Nat) : convertDropout false quantized p shape = .pass := rfl

/-- C146 with dropout switched on, for floating-point matrices and single batches of them and every `0 ≤ p < 1`: every sample is as likely
and gives the same tensor as in PyTorch.  Missing for the full property: `p = 1` (`C146_one_false`), other shapes (`C146_shape_false`)
and dropout of channels (`C146_feature_false`). -/
theorem C146_train_partial (p : ℝ) (h0 : 0 ≤ p) (h1 : p < 1) (rows cols : Nat) (shape : List Nat)
    (hs : shape = [rows, cols] ∨ shape = [1, rows, cols]) :
    ∃ r, convertDropout true false p shape = .random rows cols r ∧
      ∀ x m, (r x).prob m = (dropout p x).prob m ∧ ∀ i, (r x).out m i = (dropout p x).out m i := by
  have hne : ¬ (1 - p = 0) := by intro h; linarith
  have key : convertDropout true false p shape = .random rows cols fun x =>
      ⟨fun m => ∏ i, classProb (logOf p) (logOf (1 - p)) (m i), fun m i => x i * ((if m i then 1 else 0) * (1 / (1 - p)))⟩ := by
    rcases hs with rfl | rfl <;> simp [convertDropout, hne]
  refine ⟨_, key, fun x m => ⟨?_, fun i => ?_⟩⟩
  · simp only [dropout]
    exact Finset.prod_congr rfl fun i _ => classProb_eq p h0 h1.le (m i)
  · simp only [dropout]
    by_cases hm : m i = true
    · simp [hm]; ring
    · simp [hm]

/-- C146: the probabilities are probabilities, and on average nothing changes. -/
theorem C146_mean_partial (p : ℝ) (h0 : 0 ≤ p) (h1 : p < 1) (rows cols : Nat) (x : Fin rows × Fin cols → ℝ)
    (r : (Fin rows × Fin cols → ℝ) → Random (Fin rows × Fin cols))
    (hr : convertDropout true false p [rows, cols] = .random rows cols r) (i : Fin rows × Fin cols) :
    (∀ m, 0 ≤ (r x).prob m) ∧ ∑ m, (r x).prob m = 1 ∧ (r x).mean i = x i := by
  obtain ⟨r', e, h⟩ := C146_train_partial p h0 h1 rows cols [rows, cols] (Or.inl rfl)
  rw [hr] at e
  cases e
  refine ⟨fun m => ?_, ?_, ?_⟩
  · rw [(h x m).1]
    refine Finset.prod_nonneg fun j _ => ?_
    split
    · linarith
    · exact h0
  · have h2 := sum_one (ι := Fin rows × Fin cols) (fun b => if b then 1 - p else p) (by simp) (fun _ => 1) i
    simp only [mul_one] at h2
    simp only [(h x _).1, dropout]
    rw [h2]; simp
  · unfold Random.mean
    have h2 := sum_one (ι := Fin rows × Fin cols) (fun b => if b then 1 - p else p) (by simp)
      (fun b => if b then x i / (1 - p) else 0) i
    simp only [(h x _).1, (h x _).2 i, dropout]
    rw [h2]
    have hne : 1 - p ≠ 0 := by intro h; linarith
    simp
    field_simp

/-- C146 is false for `p = 1`: PyTorch returns zeros, the converter raises. -/
theorem C146_one_false (rows cols : Nat) : convertDropout true false 1 [rows, cols] = .raises ∧
    ∀ (x : Fin rows × Fin cols → ℝ) m i, (dropout 1 x).out m i = 0 := by
  refine ⟨by simp [convertDropout], fun x m i => ?_⟩
  simp [dropout]

/-- C146 is false for other shapes, for example batches of feature maps: the converter raises for every `p`. -/
theorem C146_shape_false (p : ℝ) (a b c d : Nat) (h : 1 < a) :
    convertDropout true false p [a, b, c, d] = .raises ∧ convertDropout true false p [a, b, c] = .raises ∧
      convertDropout true false p [a] = .raises := by
  have : a ≠ 1 := by omega
  simp [convertDropout, this]

/-- C146 is false for dropout of whole channels in training mode: the converted model passes the input on, while PyTorch's result is
random: two samples give different tensors. -/
theorem C146_feature_false : convertFeatureDropout true = .pass ∧
    ∃ (p : ℝ) (x : Fin 1 → ℝ) (m m' : Fin 1 → Bool), 0 < (dropout p x).prob m ∧ 0 < (dropout p x).prob m' ∧
      (dropout p x).out m ≠ x ∧ (dropout p x).out m ≠ (dropout p x).out m' := by
  refine ⟨rfl, 1 / 2, fun _ => 1, fun _ => false, fun _ => true, ?_, ?_, ?_, ?_⟩
  · simp [dropout]
  · simp [dropout]; norm_num
  · intro h; have := congrFun h 0; simp [dropout] at this
  · intro h; have := congrFun h 0; simp [dropout] at this; norm_num at this

/-- The hypotheses are met: half of the elements of a batch of 2 × 3 values. -/
example : ∃ r, convertDropout true false (1 / 2) [1, 2, 3] = .random 2 3 r :=
  (C146_train_partial (1 / 2) (by norm_num) (by norm_num) 2 3 _ (Or.inr rfl)).imp fun _ h => h.1

end Verif.Props
