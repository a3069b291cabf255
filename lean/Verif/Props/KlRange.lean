import Verif.Model.KlRange
import Mathlib.Algebra.BigOperators.Intervals
import Mathlib.Algebra.BigOperators.Ring.Finset
import Mathlib.Algebra.Order.BigOperators.Group.Finset
import Mathlib.Algebra.Order.Floor.Ring
import Mathlib.Tactic.Linarith
import Mathlib.Tactic.Ring
import Mathlib.Tactic.FieldSimp

/-!
C95: calibration with the KL observer: the range it returns, and the histograms it compares.
-/

namespace Verif.Props
open Verif.Spec.KlRange Verif.Model.KlRange

/-! ### Geometry of the parts -/

theorem width_one {T i : ℕ} (hT : 0 < T) (hi : T ≤ i) : 1 ≤ width T i := by
  have h1 : (0 : ℚ) < T := by exact_mod_cast hT
  have h2 : (T : ℚ) ≤ i := by exact_mod_cast hi
  unfold width
  rw [le_div_iff₀ h1]
  linarith

theorem start_nonneg (T i j : ℕ) : 0 ≤ start T i j := by
  unfold start width
  positivity

theorem leftUpper_cast (T i j : ℕ) : ((leftUpper T i j : ℕ) : ℚ) = ⌈start T i j⌉ := by
  unfold leftUpper
  have : 0 ≤ ⌈start T i j⌉ := Int.ceil_nonneg (start_nonneg T i j)
  rw [← Int.cast_natCast, Int.toNat_of_nonneg this]

theorem stop_nonneg (T i j : ℕ) : 0 ≤ stop T i j := by
  have := start_nonneg T i j
  have h : 0 ≤ width T i := by unfold width; positivity
  unfold stop
  linarith

theorem rightLower_cast (T i j : ℕ) : ((rightLower T i j : ℕ) : ℚ) = ⌊stop T i j⌋ := by
  unfold rightLower
  have : 0 ≤ ⌊stop T i j⌋ := Int.floor_nonneg.2 (stop_nonneg T i j)
  rw [← Int.cast_natCast, Int.toNat_of_nonneg this]

theorem leftUpper_ge (T i j : ℕ) : start T i j ≤ leftUpper T i j := by
  rw [leftUpper_cast]
  exact Int.le_ceil _

theorem leftUpper_lt (T i j : ℕ) : (leftUpper T i j : ℚ) < start T i j + 1 := by
  rw [leftUpper_cast]
  exact Int.ceil_lt_add_one _

theorem rightLower_le (T i j : ℕ) : (rightLower T i j : ℚ) ≤ stop T i j := by
  rw [rightLower_cast]
  exact Int.floor_le _

theorem rightLower_gt (T i j : ℕ) : stop T i j < (rightLower T i j : ℚ) + 1 := by
  rw [rightLower_cast]
  exact Int.lt_floor_add_one _

theorem left_le_right {T i : ℕ} (hT : 0 < T) (hi : T ≤ i) (j : ℕ) : leftUpper T i j ≤ rightLower T i j := by
  have h1 := leftUpper_lt T i j
  have h2 := rightLower_gt T i j
  have h3 := width_one hT hi
  have : (leftUpper T i j : ℚ) < rightLower T i j + 1 := by
    unfold stop at h2
    linarith
  have : leftUpper T i j < rightLower T i j + 1 := by exact_mod_cast this
  omega

theorem stop_eq (T i j : ℕ) : stop T i j = ((j : ℚ) + 1) * (i / T) := by
  unfold stop start width
  ring

theorem stop_le {T i j : ℕ} (hT : 0 < T) (hj : j < T) : stop T i j ≤ i := by
  rw [stop_eq]
  have h1 : (0 : ℚ) < T := by exact_mod_cast hT
  have h2 : (j : ℚ) + 1 ≤ T := by exact_mod_cast hj
  have h3 : (0 : ℚ) ≤ i := by positivity
  calc ((j : ℚ) + 1) * (i / T) ≤ T * (i / T) := mul_le_mul_of_nonneg_right h2 (by positivity)
    _ = i := by field_simp

theorem rightLower_le_i {T i j : ℕ} (hT : 0 < T) (hj : j < T) : rightLower T i j ≤ i := by
  have := le_trans (rightLower_le T i j) (stop_le hT hj)
  exact_mod_cast this

theorem overlap_eq (T i j k : ℕ) : overlap T i j k = max 0 (min (stop T i j) (k + 1) - max (start T i j) k) := by
  rw [stop_eq]
  rfl

theorem start_le_stop (T i j : ℕ) : start T i j ≤ stop T i j := by
  have h : 0 ≤ width T i := by unfold width; positivity
  unfold stop
  linarith

theorem overlap_before {T i j k : ℕ} (h : k + 1 < leftUpper T i j) : overlap T i j k = 0 := by
  rw [overlap_eq]
  apply max_eq_left
  have h1 := leftUpper_lt T i j
  have h2 : (k : ℚ) + 1 + 1 ≤ leftUpper T i j := by exact_mod_cast h
  have h3 := min_le_right (stop T i j) ((k : ℚ) + 1)
  have h4 := le_max_left (start T i j) (k : ℚ)
  linarith

theorem overlap_left {T i j k : ℕ} (hT : 0 < T) (hi : T ≤ i) (h : k + 1 = leftUpper T i j) : overlap T i j k = leftScale T i j := by
  rw [overlap_eq]
  have h1 := leftUpper_lt T i j
  have h0 := leftUpper_ge T i j
  have h2 : (k : ℚ) + 1 = leftUpper T i j := by exact_mod_cast h
  have h3 : (leftUpper T i j : ℚ) ≤ rightLower T i j := by exact_mod_cast left_le_right hT hi j
  have h4 := rightLower_le T i j
  rw [min_eq_right (by linarith), max_eq_left (a := start T i j) (by linarith), h2]
  unfold leftScale
  apply max_eq_right
  linarith

theorem overlap_whole {T i j k : ℕ} (h1 : leftUpper T i j ≤ k) (h2 : k < rightLower T i j) : overlap T i j k = 1 := by
  rw [overlap_eq]
  have h3 : (leftUpper T i j : ℚ) ≤ k := by exact_mod_cast h1
  have h4 : (k : ℚ) + 1 ≤ rightLower T i j := by exact_mod_cast h2
  have h5 := leftUpper_ge T i j
  have h6 := rightLower_le T i j
  rw [min_eq_right (by linarith), max_eq_right (a := start T i j) (by linarith)]
  norm_num

theorem overlap_right {T i j k : ℕ} (hT : 0 < T) (hi : T ≤ i) (h : k = rightLower T i j) : overlap T i j k = rightScale T i j := by
  rw [overlap_eq]
  have h1 := rightLower_gt T i j
  have h0 := rightLower_le T i j
  have h2 : (k : ℚ) = rightLower T i j := by exact_mod_cast h
  have h3 : (leftUpper T i j : ℚ) ≤ rightLower T i j := by exact_mod_cast left_le_right hT hi j
  have h4 := leftUpper_ge T i j
  rw [min_eq_left (by linarith), max_eq_right (a := start T i j) (by linarith), h2]
  unfold rightScale
  apply max_eq_right
  linarith

theorem overlap_after {T i j k : ℕ} (h : rightLower T i j < k) : overlap T i j k = 0 := by
  rw [overlap_eq]
  apply max_eq_left
  have h1 := rightLower_gt T i j
  have h2 : (rightLower T i j : ℚ) + 1 ≤ k := by exact_mod_cast h
  have h3 := min_le_left (stop T i j) ((k : ℚ) + 1)
  have h4 := le_max_right (start T i j) (k : ℚ)
  linarith

/-- The parts cover every bin exactly once. -/
theorem overlap_sum {T i k : ℕ} (hT : 0 < T) (hk : k < i) : ∑ j ∈ Finset.range T, overlap T i j k = 1 := by
  have key : ∀ j, overlap T i j k = (fun x : ℕ => min (max (start T i x) k) (k + 1)) (j + 1) - (fun x : ℕ => min (max (start T i x) k) (k + 1)) j := by
    intro j
    have e : start T i (j + 1) = stop T i j := by
      unfold stop start
      push_cast
      ring
    have h := start_le_stop T i j
    simp only [e]
    rw [overlap_eq]
    rcases le_total (start T i j) k with h1 | h1 <;> rcases le_total (stop T i j) k with h2 | h2 <;>
      rcases le_total (start T i j) (k + 1) with h3 | h3 <;> rcases le_total (stop T i j) (k + 1) with h4 | h4 <;>
      simp only [max_eq_left, max_eq_right, min_eq_left, min_eq_right, h1, h2, h3, h4] <;>
      (try rw [max_eq_right (by linarith)]) <;> (try rw [max_eq_left (by linarith)]) <;> (try rw [min_eq_left (by linarith)]) <;>
      (try rw [min_eq_left (by linarith)]) <;> (try rw [min_eq_right (by linarith)]) <;> linarith
  rw [Finset.sum_congr rfl (fun j _ => key j), Finset.sum_range_sub (fun x : ℕ => min (max (start T i x) (k : ℚ)) (k + 1))]
  have h1 : (0 : ℚ) < T := by exact_mod_cast hT
  have e1 : start T i T = i := by
    unfold start width
    field_simp
  have e0 : start T i 0 = 0 := by simp [start]
  have hk' : (k : ℚ) + 1 ≤ i := by exact_mod_cast hk
  have hk0 : (0 : ℚ) ≤ k := by positivity
  simp only [e1, e0]
  rw [max_eq_left (by linarith), min_eq_right hk', max_eq_right hk0, min_eq_left (by linarith)]
  ring

/-! ### Merging -/

theorem cumsum_eq (h : ℕ → ℚ) (k : ℕ) : cumsum h k = ∑ x ∈ Finset.range k, h x := by
  induction k with
  | zero => rfl
  | succ k ih => rw [Finset.sum_range_succ, ← ih]; rfl

theorem left_term {T i : ℕ} (hT : 0 < T) (hi : T ≤ i) (h : ℕ → ℚ) (j : ℕ) :
    ∑ k ∈ Finset.range (leftUpper T i j), overlap T i j k * h k = if leftFlag T i j then leftScale T i j * h (leftUpper T i j - 1) else 0 := by
  rcases Nat.eq_zero_or_pos (leftUpper T i j) with h0 | h0
  · have : leftFlag T i j = false := by
      have := start_nonneg T i j
      unfold leftFlag
      rw [h0]
      simpa using this
    rw [h0, this]
    rfl
  · have e : ∑ k ∈ Finset.range (leftUpper T i j), overlap T i j k * h k = overlap T i j (leftUpper T i j - 1) * h (leftUpper T i j - 1) := by
      apply Finset.sum_eq_single_of_mem
      · exact Finset.mem_range.2 (by omega)
      · intro k hk hne
        rw [overlap_before (by have := Finset.mem_range.1 hk; omega), zero_mul]
    rw [e, overlap_left hT hi (by omega)]
    split_ifs with hf
    · rfl
    · have h1 := leftUpper_ge T i j
      have h2 : ¬ ((leftUpper T i j : ℚ) > start T i j) := by simpa [leftFlag] using hf
      have : leftScale T i j = 0 := by
        unfold leftScale
        linarith
      rw [this, zero_mul]

theorem right_term {T i : ℕ} (hT : 0 < T) (hi : T ≤ i) (h : ℕ → ℚ) {j : ℕ} (hj : j < T) :
    ∑ k ∈ Finset.Ico (rightLower T i j) i, overlap T i j k * h k = if rightFlag T i j then rightScale T i j * h (rightLower T i j) else 0 := by
  have hle := rightLower_le_i (i := i) hT hj
  rcases hle.lt_or_eq with hlt | heq
  · have e : ∑ k ∈ Finset.Ico (rightLower T i j) i, overlap T i j k * h k = overlap T i j (rightLower T i j) * h (rightLower T i j) := by
      apply Finset.sum_eq_single_of_mem
      · exact Finset.mem_Ico.2 ⟨le_rfl, hlt⟩
      · intro k hk hne
        rw [overlap_after (by have := (Finset.mem_Ico.1 hk).1; omega), zero_mul]
    rw [e, overlap_right hT hi rfl]
    split_ifs with hf
    · rfl
    · have h1 := rightLower_le T i j
      have h2 : ¬ ((rightLower T i j : ℚ) < stop T i j) := by simpa [rightFlag] using hf
      have : rightScale T i j = 0 := by
        unfold rightScale
        linarith
      rw [this, zero_mul]
  · have : rightFlag T i j = false := by
      have := stop_le (i := i) hT hj
      unfold rightFlag
      rw [heq]
      simpa using this
    rw [this, heq]
    simp

theorem merged_eq {T i : ℕ} (hT : 0 < T) (hi : T ≤ i) (h : ℕ → ℚ) {j : ℕ} (hj : j < T) : merged T i h j = part T i h j := by
  unfold merged part
  have h1 := left_le_right hT hi j
  have h2 := rightLower_le_i (i := i) hT hj
  rw [← left_term hT hi, ← right_term hT hi h hj, cumsum_eq, cumsum_eq]
  have e : ∑ k ∈ Finset.Ico (leftUpper T i j) (rightLower T i j), overlap T i j k * h k =
      (∑ x ∈ Finset.range (rightLower T i j), h x) - ∑ x ∈ Finset.range (leftUpper T i j), h x := by
    rw [← Finset.sum_Ico_eq_sub _ h1]
    apply Finset.sum_congr rfl
    intro k hk
    have := Finset.mem_Ico.1 hk
    rw [overlap_whole this.1 this.2, one_mul]
  rw [← e, Finset.range_eq_Ico, Finset.range_eq_Ico, ← Finset.sum_Ico_consecutive _ (Nat.zero_le _) (h1.trans h2), ← Finset.sum_Ico_consecutive _ h1 h2]
  ring

/-- Merging loses nothing: every part has its share of the histogram, and the parts together hold the first `i` bins. -/
theorem C95_merge {T i : ℕ} (hT : 0 < T) (hi : T ≤ i) (h : ℕ → ℚ) :
    (∀ j < T, merged T i h j = part T i h j) ∧ ∑ j ∈ Finset.range T, merged T i h j = ∑ k ∈ Finset.range i, h k := by
  refine ⟨fun j hj => merged_eq hT hi h hj, ?_⟩
  rw [Finset.sum_congr rfl (fun j hj => merged_eq hT hi h (Finset.mem_range.1 hj))]
  unfold part
  rw [Finset.sum_comm]
  apply Finset.sum_congr rfl
  intro k hk
  rw [← Finset.sum_mul, overlap_sum hT (Finset.mem_range.1 hk), one_mul]

/-! ### Spreading -/

theorem overlap_nonneg (T i j k : ℕ) : 0 ≤ overlap T i j k := le_max_left _ _

theorem filled_nonneg (h : ℕ → ℚ) (k : ℕ) : 0 ≤ filled h k := by
  unfold filled
  split_ifs <;> norm_num

theorem spread_sum {T i : ℕ} (hT : 0 < T) (h : ℕ → ℚ) : ∑ k ∈ Finset.range i, spread T i h k = ∑ k ∈ Finset.range i, h k := by
  unfold spread
  rw [Finset.sum_comm]
  have e : ∀ j ∈ Finset.range T, ∑ k ∈ Finset.range i, part T i h j / part T i (filled h) j * (overlap T i j k * filled h k) = part T i h j := by
    intro j _
    rw [← Finset.mul_sum]
    show part T i h j / part T i (filled h) j * part T i (filled h) j = _
    by_cases h0 : part T i (filled h) j = 0
    · rw [h0, mul_zero]
      symm
      unfold part at h0 ⊢
      have hz := (Finset.sum_eq_zero_iff_of_nonneg (fun k _ => mul_nonneg (overlap_nonneg T i j k) (filled_nonneg h k))).1 h0
      apply Finset.sum_eq_zero
      intro k hk
      rcases mul_eq_zero.1 (hz k hk) with h1 | h1
      · rw [h1, zero_mul]
      · have : h k = 0 := by
          unfold filled at h1
          split_ifs at h1 with h2
          · exact h2
          · norm_num at h1
        rw [this, mul_zero]
    · field_simp
  rw [Finset.sum_congr rfl e]
  unfold part
  rw [Finset.sum_comm]
  apply Finset.sum_congr rfl
  intro k hk
  rw [← Finset.sum_mul, overlap_sum hT (Finset.mem_range.1 hk), one_mul]

theorem addAt_eq {T : ℕ} {sel : ℕ → Bool} {idx : ℕ → ℕ} {val a : ℕ → ℚ} (k : ℕ)
    (hinj : ∀ x < T, ∀ y < T, sel x = true → sel y = true → idx x = idx y → x = y) :
    addAt T sel idx val a k = a k + ∑ j ∈ Finset.range T, if sel j = true ∧ idx j = k then val j else 0 := by
  unfold addAt
  cases hf : (List.range T).reverse.find? fun j => sel j && decide (idx j = k) with
  | none =>
    have h := List.find?_eq_none.1 hf
    have : ∑ j ∈ Finset.range T, (if sel j = true ∧ idx j = k then val j else 0) = 0 := by
      apply Finset.sum_eq_zero
      intro j hj
      have := h j (by simpa using Finset.mem_range.1 hj)
      rw [if_neg]
      simpa using this
    rw [this, add_zero]
  | some j =>
    have h1 := List.find?_some hf
    have h2 : j < T := by simpa using List.mem_of_find?_eq_some hf
    have h3 : sel j = true ∧ idx j = k := by simpa using h1
    have : ∑ x ∈ Finset.range T, (if sel x = true ∧ idx x = k then val x else 0) = val j := by
      rw [Finset.sum_eq_single_of_mem j (Finset.mem_range.2 h2)]
      · rw [if_pos h3]
      · intro x hx hne
        rw [if_neg]
        rintro ⟨hs, hk⟩
        exact hne (hinj x (Finset.mem_range.1 hx) j h2 hs h3.1 (hk.trans h3.2.symm))
    rw [this]

theorem leftUpper_mono {T i : ℕ} (hT : 0 < T) (hi : T ≤ i) {x y : ℕ} (h : x < y) : leftUpper T i x < leftUpper T i y := by
  have h1 := leftUpper_lt T i x
  have h2 := leftUpper_ge T i y
  have h3 := width_one hT hi
  have h4 : (x : ℚ) + 1 ≤ y := by exact_mod_cast h
  have h5 : start T i x + 1 ≤ start T i y := by
    unfold start
    nlinarith
  have : (leftUpper T i x : ℚ) < leftUpper T i y := by linarith
  exact_mod_cast this

theorem rightLower_mono {T i : ℕ} (hT : 0 < T) (hi : T ≤ i) {x y : ℕ} (h : x < y) : rightLower T i x < rightLower T i y := by
  have h1 := rightLower_le T i x
  have h2 := rightLower_gt T i y
  have h3 := width_one hT hi
  have h4 : (x : ℚ) + 1 ≤ y := by exact_mod_cast h
  have h5 : stop T i x + 1 ≤ stop T i y := by
    unfold stop start
    nlinarith
  have : (rightLower T i x : ℚ) < rightLower T i y := by linarith
  exact_mod_cast this

theorem leftUpper_inj {T i : ℕ} (hT : 0 < T) (hi : T ≤ i) {x y : ℕ} (h : leftUpper T i x = leftUpper T i y) : x = y := by
  rcases lt_trichotomy x y with h1 | h1 | h1
  · have := leftUpper_mono hT hi h1; omega
  · exact h1
  · have := leftUpper_mono hT hi h1; omega

theorem rightLower_inj {T i : ℕ} (hT : 0 < T) (hi : T ≤ i) {x y : ℕ} (h : rightLower T i x = rightLower T i y) : x = y := by
  rcases lt_trichotomy x y with h1 | h1 | h1
  · have := rightLower_mono hT hi h1; omega
  · exact h1
  · have := rightLower_mono hT hi h1; omega

theorem rightLower_zero (T i : ℕ) : ((rightLower T i 0 : ℕ) : ℤ) = ⌊width T i⌋ := by
  have h := rightLower_cast T i 0
  have e : stop T i 0 = width T i := by simp [stop, start]
  rw [e] at h
  exact_mod_cast h

theorem rightLower_zero_pos {T i : ℕ} (hT : 0 < T) (hi : T ≤ i) : 1 ≤ rightLower T i 0 := by
  have h1 : (1 : ℤ) ≤ ⌊width T i⌋ := Int.le_floor.2 (by exact_mod_cast width_one hT hi)
  rw [← rightLower_zero] at h1
  exact_mod_cast h1

theorem whole_count {T i : ℕ} (hT : 0 < T) (hi : T ≤ i) (j : ℕ) :
    rightLower T i j - leftUpper T i j = rightLower T i 0 ∨ rightLower T i j - leftUpper T i j + 1 = rightLower T i 0 := by
  have h1 := leftUpper_ge T i j
  have h2 := leftUpper_lt T i j
  have h3 := rightLower_le T i j
  have h4 := rightLower_gt T i j
  have h5 := rightLower_le T i 0
  have h6 := rightLower_gt T i 0
  have e : stop T i 0 = width T i := by simp [stop, start]
  have e' : stop T i j = start T i j + width T i := rfl
  rw [e] at h5 h6
  rw [e'] at h3 h4
  have hlr := left_le_right hT hi j
  obtain ⟨d, hd⟩ := Nat.exists_eq_add_of_le hlr
  have hd' : (rightLower T i j : ℚ) = leftUpper T i j + d := by exact_mod_cast hd
  have a1 : (d : ℚ) < rightLower T i 0 + 1 := by linarith
  have a2 : (rightLower T i 0 : ℚ) < d + 2 := by linarith
  have b1 : d < rightLower T i 0 + 1 := by exact_mod_cast a1
  have b2 : rightLower T i 0 < d + 2 := by exact_mod_cast a2
  omega

theorem addWhole_eq {T i : ℕ} (hT : 0 < T) (hi : T ≤ i) (h a : ℕ → ℚ) (k : ℕ) : ∀ m,
    addWhole T i h m a k = a k + ∑ j ∈ Finset.range T, if leftUpper T i j ≤ k ∧ k < leftUpper T i j + m then toExpand T i h j * nonzero h k else 0
  | 0 => by
    have : ∑ j ∈ Finset.range T, (if leftUpper T i j ≤ k ∧ k < leftUpper T i j + 0 then toExpand T i h j * nonzero h k else 0) = 0 := by
      apply Finset.sum_eq_zero
      intro j _
      rw [if_neg (by omega)]
    rw [this, add_zero]
    rfl
  | m + 1 => by
    unfold addWhole
    rw [addAt_eq k (fun x _ y _ _ _ hxy => leftUpper_inj hT hi (by simpa using hxy)), addWhole_eq hT hi h a k m, add_assoc, ← Finset.sum_add_distrib]
    congr 1
    apply Finset.sum_congr rfl
    intro j _
    by_cases hk : leftUpper T i j + m = k
    · subst hk
      rw [if_neg (by omega), if_pos ⟨rfl, rfl⟩, if_pos (by omega), zero_add]
    · rw [if_neg (c := _ ∧ leftUpper T i j + m = k) (by tauto), add_zero]
      by_cases h2 : leftUpper T i j ≤ k ∧ k < leftUpper T i j + m
      · rw [if_pos h2, if_pos (by omega)]
      · rw [if_neg h2, if_neg (by omega)]

theorem leftFlag_pos {T i j : ℕ} (h : leftFlag T i j = true) : 1 ≤ leftUpper T i j := by
  have h1 := start_nonneg T i j
  have h2 : (leftUpper T i j : ℚ) > start T i j := by simpa [leftFlag] using h
  have : (0 : ℚ) < leftUpper T i j := by linarith
  exact_mod_cast this

/-- What the code puts into bin `k`: whole bins are filled only if they were not empty, split bins always. -/
theorem expanded_eq {T i : ℕ} (hT : 0 < T) (hi : T ≤ i) (h : ℕ → ℚ) {k : ℕ} (hk : k < i) :
    expanded T i h k = ∑ j ∈ Finset.range T,
      toExpand T i h j * (overlap T i j k * if leftUpper T i j ≤ k ∧ k < rightLower T i j then nonzero h k else 1) := by
  have hr := rightLower_zero_pos hT hi
  unfold expanded

  rw [addAt_eq k (fun x _ y _ _ _ hxy => leftUpper_inj hT hi (by omega)), addWhole_eq hT hi,
    addAt_eq k (fun x _ y _ _ _ hxy => rightLower_inj hT hi hxy),
    addAt_eq k (fun x _ y _ hx hy hxy => leftUpper_inj hT hi (by
      have h1 := leftFlag_pos (Bool.and_eq_true_iff.1 hx).2
      have h2 := leftFlag_pos (Bool.and_eq_true_iff.1 hy).2
      omega))]
  rw [zero_add, ← Finset.sum_add_distrib, ← Finset.sum_add_distrib, ← Finset.sum_add_distrib]
  apply Finset.sum_congr rfl
  intro j hj
  have hlr := left_le_right hT hi j
  have hw := whole_count hT hi j
  have hz := rightLower_zero T i
  by_cases hc : count T i h j = 0
  · have : toExpand T i h j = 0 := by simp [toExpand, hc]
    simp [this]
  have hc' : decide (count T i h j ≠ 0) = true := by simpa using hc
  simp only [hc', Bool.true_and]
  rw [← hz]
  rcases lt_trichotomy (k + 1) (leftUpper T i j) with h1 | h1 | h1
  · rw [overlap_before h1, if_neg (by omega), if_neg (by omega), if_neg (by omega), if_neg (by omega)]
    ring
  · rw [overlap_left hT hi h1, if_neg (c := leftUpper T i j ≤ k ∧ k < rightLower T i j) (by omega)]
    rw [if_neg (c := _ ∧ rightLower T i j = k) (by omega), if_neg (c := leftUpper T i j ≤ k ∧ _) (by omega), if_neg (c := _ ∧ leftUpper T i j + rightLower T i 0 - 1 = k) (by omega)]
    by_cases hf : leftFlag T i j = true
    · rw [if_pos ⟨hf, by omega⟩]
      ring
    · have h1 := leftUpper_ge T i j
      have h2 : ¬ ((leftUpper T i j : ℚ) > start T i j) := by simpa [leftFlag] using hf
      have : leftScale T i j = 0 := by
        unfold leftScale
        linarith
      rw [if_neg (by tauto), this]
      ring
  · have h1' : leftUpper T i j ≤ k := by omega
    rw [if_neg (c := leftFlag T i j = true ∧ leftUpper T i j - 1 = k) (by
      rintro ⟨hf, he⟩
      have := leftFlag_pos hf
      omega)]
    rcases lt_trichotomy k (rightLower T i j) with h2 | h2 | h2
    · rw [overlap_whole h1' h2, if_pos (c := leftUpper T i j ≤ k ∧ k < rightLower T i j) ⟨h1', h2⟩, if_neg (c := _ ∧ rightLower T i j = k) (by omega)]
      by_cases h3 : k < leftUpper T i j + (rightLower T i 0 - 1)
      · rw [if_pos ⟨h1', h3⟩, if_neg (by omega)]
        ring
      · have e : leftUpper T i j + rightLower T i 0 - 1 = k := by omega
        rw [if_neg (by omega), if_pos ⟨trivial, e⟩, e, if_pos (by omega)]
        ring
    · rw [overlap_right hT hi h2, if_neg (c := leftUpper T i j ≤ k ∧ k < rightLower T i j) (by omega)]
      rw [if_neg (c := leftUpper T i j ≤ k ∧ _) (by omega)]
      have e3 : (if True ∧ leftUpper T i j + rightLower T i 0 - 1 = k then
          toExpand T i h j * (if (rightLower T i 0 : ℤ) - ((rightLower T i j : ℤ) - leftUpper T i j) = 0 then 1 else 0) *
            nonzero h (leftUpper T i j + rightLower T i 0 - 1) else 0) = 0 := by
        split_ifs with a b
        · omega
        · ring
        · rfl
      simp only [true_and] at e3 ⊢
      rw [e3]
      by_cases hf : rightFlag T i j = true
      · rw [if_pos ⟨hf, h2.symm⟩]
        ring
      · have h1 := rightLower_le T i j
        have h2' : ¬ ((rightLower T i j : ℚ) < stop T i j) := by simpa [rightFlag] using hf
        have : rightScale T i j = 0 := by
          unfold rightScale
          linarith
        rw [if_neg (by tauto), this]
        ring
    · rw [overlap_after h2, if_neg (by omega), if_neg (by omega)]
      have e3 : (if True ∧ leftUpper T i j + rightLower T i 0 - 1 = k then
          toExpand T i h j * (if (rightLower T i 0 : ℤ) - ((rightLower T i j : ℤ) - leftUpper T i j) = 0 then 1 else 0) *
            nonzero h (leftUpper T i j + rightLower T i 0 - 1) else 0) = 0 := by
        split_ifs with a b
        · omega
        · ring
        · rfl
      simp only [true_and] at e3 ⊢
      rw [e3]
      ring

theorem nonzero_eq (h : ℕ → ℚ) : nonzero h = filled h := by
  funext k
  unfold nonzero filled
  by_cases h0 : h k = 0 <;> simp [h0]

/-- If no bin that two parts share is empty, the histogram that the divergence looks at is the merged one spread over the non-empty bins, and has the same sum.
Missing: `C95_expand_false`. -/
theorem C95_expand_partial {T i : ℕ} (hT : 0 < T) (hi : T ≤ i) (h : ℕ → ℚ)
    (hs : ∀ k < i, (∃ j < T, 0 < overlap T i j k ∧ overlap T i j k < 1) → h k ≠ 0) :
    (∀ k < i, expanded T i h k = spread T i h k) ∧ ∑ k ∈ Finset.range i, expanded T i h k = ∑ k ∈ Finset.range i, h k := by
  have key : ∀ k < i, expanded T i h k = spread T i h k := by
    intro k hk
    rw [expanded_eq hT hi h hk]
    unfold spread
    apply Finset.sum_congr rfl
    intro j hj
    have hj' := Finset.mem_range.1 hj
    have e1 : toExpand T i h j = part T i h j / part T i (filled h) j := by
      unfold toExpand count
      rw [nonzero_eq, merged_eq hT hi _ hj', merged_eq hT hi _ hj']
      split_ifs with h0
      · rfl
      · have : part T i (filled h) j = 0 := by simpa using h0
        rw [this, div_zero]
    rw [e1, nonzero_eq]
    by_cases hw : leftUpper T i j ≤ k ∧ k < rightLower T i j
    · rw [if_pos hw]
    · rw [if_neg hw]
      by_cases h0 : overlap T i j k = 0
      · rw [h0]
        ring
      · have hpos : 0 < overlap T i j k := lt_of_le_of_ne (overlap_nonneg _ _ _ _) (Ne.symm h0)
        have hlt : overlap T i j k < 1 := by
          rcases lt_trichotomy (k + 1) (leftUpper T i j) with h1 | h1 | h1
          · exact absurd (overlap_before h1) h0
          · rw [overlap_left hT hi h1]
            have := leftUpper_lt T i j
            unfold leftScale
            linarith
          · rcases lt_trichotomy k (rightLower T i j) with h2 | h2 | h2
            · omega
            · rw [overlap_right hT hi h2]
              have := rightLower_gt T i j
              unfold rightScale
              linarith
            · exact absurd (overlap_after h2) h0
        have := hs k hk ⟨j, hj', hpos, hlt⟩
        unfold filled
        rw [if_neg this]
  refine ⟨key, ?_⟩
  rw [Finset.sum_congr rfl (fun k hk => key k (Finset.mem_range.1 hk)), spread_sum hT]

/-- An empty bin that two parts share receives content: the third argument of `np.logical_and` is not a condition. -/
theorem C95_expand_false : ∃ h : ℕ → ℚ, (∀ k, 0 ≤ h k) ∧ h 1 = 0 ∧ expanded 128 192 h 1 = 1 ∧ spread 128 192 h 1 = 0 := by
  refine ⟨fun k => if k = 1 then 0 else 1, ?_, rfl, by decide +kernel, ?_⟩
  · intro k
    show (0 : ℚ) ≤ if k = 1 then 0 else 1
    split_ifs <;> norm_num
  · unfold spread filled
    simp

example : (∀ k < 192, (∃ j < 128, 0 < overlap 128 192 j k ∧ overlap 128 192 j k < 1) → (fun k : ℕ => if k % 2 = 0 then (2 : ℚ) else 1) k ≠ 0) ∧
    overlap 128 192 0 1 = 1 / 2 ∧ expanded 128 192 (fun k : ℕ => if k % 2 = 0 then (2 : ℚ) else 1) 1 = 5 / 3 := by
  refine ⟨?_, by decide +kernel, by decide +kernel⟩
  intro k _ _
  show (if k % 2 = 0 then (2 : ℚ) else 1) ≠ 0
  split_ifs <;> norm_num

/-! ### The threshold and the range -/

/-- A divergence the code can choose: a number other than 1. -/
def Usable (d : Div) (x : ℚ) : Prop := d = .num x ∧ x ≠ 1

/-- `t` is the first of the bin counts from `T` to below `i` with the smallest usable divergence, or `T` if there is none. -/
def Best (D : ℕ → Div) (T i t : ℕ) : Prop :=
  (t = T ∧ ∀ x, T ≤ x → x < i → ∀ y, ¬ Usable (D x) y) ∨
  ∃ y, T ≤ t ∧ t < i ∧ Usable (D t) y ∧ (∀ x, T ≤ x → x < i → ∀ z, Usable (D x) z → y ≤ z) ∧ ∀ x, T ≤ x → x < t → ∀ z, Usable (D x) z → y < z

theorem scan_best (kl : (ℕ → ℚ) → (ℕ → ℚ) → ℕ → Div) (T n last : ℕ) (h : ℕ → ℚ) (hT : 0 < T) (hn : last ≤ n) :
    ∀ (c i : ℕ) (after : ℚ) (best : Div) (thr : ℕ), T ≤ i → i + c = last + 1 → (i ≤ last → after = ∑ x ∈ Finset.Ico i n, h x) →
      (best = .inf ∧ thr = T ∧ (∀ x, T ≤ x → x < i → ∀ y, ¬ Usable (kl (expanded T x h) (folded n x h) x) y) ∨
        ∃ y, best = .num y ∧ T ≤ thr ∧ thr < i ∧ Usable (kl (expanded T thr h) (folded n thr h) thr) y ∧
          (∀ x, T ≤ x → x < i → ∀ z, Usable (kl (expanded T x h) (folded n x h) x) z → y ≤ z) ∧
          ∀ x, T ≤ x → x < thr → ∀ z, Usable (kl (expanded T x h) (folded n x h) x) z → y < z) →
      ∃ t, scan kl T n last h c i after best thr = some t ∧ Best (fun x => kl (expanded T x h) (folded n x h) x) T (last + 1) t
  | 0, i, after, best, thr, hTi, hc, ha, hb => by
    refine ⟨thr, rfl, ?_⟩
    have : i = last + 1 := by omega
    subst this
    rcases hb with ⟨_, h2, h3⟩ | ⟨y, _, h⟩
    · exact .inl ⟨h2, h3⟩
    · exact .inr ⟨y, h⟩
  | c + 1, i, after, best, thr, hTi, hc, ha, hb => by
    have hil : i ≤ last := by omega
    have ecand : candidate i after h = folded n i h := by
      funext k
      unfold candidate folded
      rw [ha hil]
      have : k = i - 1 ↔ k + 1 = i := by omega
      by_cases hk : k + 1 = i
      · rw [if_pos (this.2 hk), if_pos hk]
      · rw [if_neg (fun x => hk (this.1 x)), if_neg hk]
    unfold scan
    simp only
    rw [if_pos (by omega), ecand]
    generalize hcur : kl (expanded T i h) (folded n i h) i = cur
    apply scan_best kl T n last h hT hn c (i + 1)
    · omega
    · omega
    · intro hi1
      rw [if_pos (by omega), ha hil, ← Finset.sum_Ico_consecutive _ (Nat.le_succ i) (by omega : i + 1 ≤ n)]
      simp
    · -- the comparison
      by_cases hlt : (cur.lt best && decide (cur ≠ .num 1)) = true
      · rw [if_pos hlt, if_pos hlt]
        right
        rw [Bool.and_eq_true_iff] at hlt
        have hne : cur ≠ .num 1 := by simpa using hlt.2
        obtain ⟨z, rfl⟩ : ∃ z, cur = .num z := by
          cases cur with
          | num z => exact ⟨z, rfl⟩
          | inf => simp [Div.lt] at hlt
          | nan => simp [Div.lt] at hlt
        have hz : z ≠ 1 := fun e => hne (by rw [e])
        have hall : ∀ x, T ≤ x → x < i → ∀ w, Usable (kl (expanded T x h) (folded n x h) x) w → z < w := by
          intro x h1 h2 w hw
          rcases hb with ⟨_, _, h3⟩ | ⟨y, hby, _, _, _, h3, _⟩
          · exact absurd hw (h3 x h1 h2 w)
          · have := h3 x h1 h2 w hw
            rw [hby] at hlt
            have : z < y := by simpa [Div.lt] using hlt.1
            linarith
        refine ⟨z, rfl, hTi, by omega, ⟨hcur, hz⟩, ?_, hall⟩
        intro x h1 h2 w hw
        rcases Nat.lt_succ_iff_lt_or_eq.1 h2 with h3 | h3
        · exact (hall x h1 h3 w hw).le
        · subst h3
          rw [hcur] at hw
          have := hw.1
          injection this with e
          exact e.le
      · rw [if_neg hlt, if_neg hlt]
        have hno : ∀ w, Usable cur w → cur.lt best = false := by
          intro w hw
          have : decide (cur ≠ .num 1) = true := by
            rw [hw.1]
            simp only [decide_eq_true_eq, ne_eq]
            intro e
            injection e with e
            exact hw.2 e
          rw [this, Bool.and_true] at hlt
          simpa using hlt
        rcases hb with ⟨h1, h2, h3⟩ | ⟨y, h1, h2, h3, h4, h5, h6⟩
        · left
          refine ⟨h1, h2, ?_⟩
          intro x hx1 hx2 w hw
          rcases Nat.lt_succ_iff_lt_or_eq.1 hx2 with h | h
          · exact h3 x hx1 h w hw
          · subst h
            rw [hcur] at hw
            have := hno w hw
            rw [hw.1, h1] at this
            simp [Div.lt] at this
        · right
          refine ⟨y, h1, h2, by omega, h4, ?_, h6⟩
          intro x hx1 hx2 w hw
          rcases Nat.lt_succ_iff_lt_or_eq.1 hx2 with h | h
          · exact h5 x hx1 h w hw
          · subst h
            rw [hcur] at hw
            have := hno w hw
            rw [hw.1, h1] at this
            simpa [Div.lt] using this

/-- Whatever the divergence is, the threshold lies between `T` bins and the whole histogram and is the first one with the smallest divergence between the spread
histogram and the histogram whose tail is folded into its last bin. -/
theorem C95_threshold (kl : (ℕ → ℚ) → (ℕ → ℚ) → ℕ → Div) {T n last : ℕ} (h : ℕ → ℚ) (hT : 0 < T) (hl : T ≤ last) (hn : last ≤ n) :
    ∃ t, computeThreshold kl T n last h = some t ∧ T ≤ t ∧ t ≤ last ∧ Best (fun x => kl (expanded T x h) (folded n x h) x) T (last + 1) t := by
  obtain ⟨t, h1, h2⟩ := scan_best kl T n last h hT hn (last + 1 - T) T (∑ x ∈ Finset.Ico T n, h x) .inf T le_rfl (by omega) (fun _ => rfl)
    (.inl ⟨rfl, rfl, fun x h1 h2 => by omega⟩)
  refine ⟨t, h1, ?_, ?_, h2⟩
  · rcases h2 with h | ⟨y, h, _⟩
    · exact h.1.ge
    · exact h
  · rcases h2 with h | ⟨y, _, h, _⟩
    · omega
    · omega

/-- The range that calibration returns lies in the range that was observed, and spans at least `T` bins of the histogram.  Its upper end is the best cut of the
histogram, its lower end the best cut of the first `r` bins read from right to left. -/
theorem C95_range (kl : (ℕ → ℚ) → (ℕ → ℚ) → ℕ → Div) {T full n : ℕ} (h : ℕ → ℚ) (lo hi : ℚ) (hT : 0 < T) (hf : T ≤ full) (hn : full ≤ n) (hlh : lo ≤ hi) :
    ∃ a b, paramSearch kl T full n h lo hi = some (a, b) ∧ lo ≤ a ∧ a ≤ b ∧ b ≤ hi ∧ T * ((hi - lo) / n) ≤ b - a ∧
      ∃ r l : ℕ, a = lo + (hi - lo) / n * (r - l) ∧ b = lo + (hi - lo) / n * r ∧ Best (fun x => kl (expanded T x h) (folded n x h) x) T (full + 1) r ∧
        ∃ g : ℕ → ℚ, (∀ k < r, g k = h (r - 1 - k)) ∧ (∀ k, r ≤ k → g k = 0) ∧ Best (fun x => kl (expanded T x g) (folded r x g) x) T (r + 1) l := by
  obtain ⟨r, hr, h1, h2, hb⟩ := C95_threshold kl h hT hf hn
  have hm : min r n = r := by omega
  obtain ⟨l, hl, h3, h4, hb'⟩ := C95_threshold kl (fun k => if k < r then h (r - 1 - k) else 0) hT h1 (le_refl r)
  have hn0 : (0 : ℚ) < n := by exact_mod_cast (by omega : 0 < n)
  have hw : 0 ≤ (hi - lo) / n := div_nonneg (by linarith) hn0.le
  have hrn : (r : ℚ) ≤ n := by exact_mod_cast (by omega : r ≤ n)
  have hlr : (l : ℚ) ≤ r := by exact_mod_cast h4
  have hTl : (T : ℚ) ≤ l := by exact_mod_cast h3
  have hl0 : (0 : ℚ) ≤ l := by positivity
  refine ⟨lo + (hi - lo) / n * (r - l), lo + (hi - lo) / n * r, ?_, ?_, ?_, ?_, ?_,
    r, l, rfl, rfl, hb, _, fun k hk => if_pos hk, fun k hk => if_neg (by omega), hb'⟩
  · unfold paramSearch
    rw [hr]
    simp only [Option.bind_eq_bind, Option.bind_some, hm]
    rw [hl]
    rfl
  · have := mul_nonneg hw (sub_nonneg.2 hlr)
    linarith
  · have := mul_nonneg hw hl0
    linarith
  · have : (hi - lo) / n * r ≤ (hi - lo) / n * n := mul_le_mul_of_nonneg_left hrn hw
    have e : (hi - lo) / n * n = hi - lo := by field_simp
    linarith
  · have : (hi - lo) / n * T ≤ (hi - lo) / n * l := mul_le_mul_of_nonneg_left hTl hw
    linarith

example : computeThreshold (fun _ _ i => if i = 5 then .num 3 else if i = 7 then .num 2 else if i = 6 then .num 1 else .nan) 4 10 8 (fun _ => 1) = some 7 := by
  decide +kernel

/-- The search for the upper end assumes 2048 bins: an observer with fewer bins fails. -/
theorem C95_bins_false : ∀ (kl : (ℕ → ℚ) → (ℕ → ℚ) → ℕ → Div) (h : ℕ → ℚ) (lo hi : ℚ) (n : ℕ), 128 ≤ n → n < 2048 → paramSearch kl 128 2048 n h lo hi = none := by
  intro kl h lo hi n h1 h2
  have key : ∀ (c i : ℕ) (after : ℚ) (best : Div) (thr : ℕ), i ≤ n → n < i + c → scan kl 128 n 2048 h c i after best thr = none := by
    intro c
    induction c with
    | zero => intro i _ _ _ a b; omega
    | succ c ih =>
      intro i after best thr a b
      unfold scan
      simp only
      split_ifs with hc
      all_goals first
        | rfl
        | (apply ih <;> omega)
  unfold paramSearch computeThreshold
  rw [key _ _ _ _ _ h1 (by omega)]
  rfl

end Verif.Props
