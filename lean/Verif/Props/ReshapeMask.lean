import Verif.Model.ReshapeMask
import Verif.Spec.Double
import Mathlib.Data.Int.Log
import Mathlib.Algebra.Order.Round
import Mathlib.Tactic.Linarith
import Mathlib.Tactic.FieldSimp
import Mathlib.Tactic.NormNum
import Mathlib.Tactic.Positivity
import Mathlib.Tactic.Ring

/-! C30: constant shape arguments after pruning. -/

namespace Verif.Props
open Verif.Spec Verif.Model

theorem zpow2_pos (e : ℤ) : (0 : ℚ) < (2 : ℚ) ^ e := zpow_pos (by norm_num) e

/-- Relative error of one rounding. -/
theorem rounds_rel {x y : ℚ} (h : RoundsTo x y) : |y - x| ≤ x / 2 ^ 53 := by
  obtain ⟨e, m, h1, -, h3, -, rfl⟩ := h
  have he := zpow2_pos e
  have : (m : ℚ) * 2 ^ e - x = -((x / 2 ^ e - m) * 2 ^ e) := by field_simp; ring
  rw [this, abs_neg, abs_mul, abs_of_pos he]
  have h4 : |x / 2 ^ e - ↑m| * 2 ^ e ≤ 1 / 2 * 2 ^ e := mul_le_mul_of_nonneg_right h3 he.le
  rw [le_div_iff₀ (by positivity)]
  calc _ ≤ (1 / 2 * (2 : ℚ) ^ e) * 2 ^ 53 := mul_le_mul_of_nonneg_right h4 (by positivity)
    _ = 2 ^ 52 * 2 ^ e := by ring
    _ ≤ x := h1

/-- A number with a significand below 2^53 is not changed. -/
theorem rounds_exact {x y : ℚ} (h : RoundsTo x y) (a : ℤ) (k : ℤ) (ha : a < 2 ^ 53) (hx : x = a * (2 : ℚ) ^ k) : y = x := by
  obtain ⟨e, m, h1, -, h3, -, rfl⟩ := h
  have he := zpow2_pos e
  have hk := zpow2_pos k
  have hek : e ≤ k := by
    have hlt : (2 : ℚ) ^ (52 : ℕ) * 2 ^ e < 2 ^ (53 : ℕ) * 2 ^ k := by
      refine lt_of_le_of_lt (h1.trans_eq hx) (mul_lt_mul_of_pos_right ?_ hk)
      exact_mod_cast ha
    have : (2 : ℚ) ^ e < 2 ^ (k + 1) := by
      rw [zpow_add_one₀ (by norm_num)]
      nlinarith
    have := (zpow_lt_zpow_iff_right₀ (by norm_num : (1 : ℚ) < 2)).1 this
    omega
  obtain ⟨n, hn⟩ : ∃ n : ℕ, k = e + n := ⟨(k - e).toNat, by omega⟩
  have hdiv : x / 2 ^ e = ((a * 2 ^ n : ℤ) : ℚ) := by
    rw [hx, hn, zpow_add₀ (by norm_num)]
    push_cast
    rw [zpow_natCast]
    field_simp
  rw [hdiv] at h3
  have h5 : |(a * 2 ^ n - m : ℤ)| < 1 := by
    have : ((|(a * 2 ^ n - m : ℤ)| : ℤ) : ℚ) < 1 := by push_cast at h3 ⊢; linarith
    exact_mod_cast this
  have h6 : a * 2 ^ n - m = 0 := Int.abs_lt_one_iff.1 h5
  have h7 : m = a * 2 ^ n := by omega
  rw [h7, ← hdiv]
  field_simp

/-- The rounding exists. -/
theorem exists_double : ∃ fl, IsDouble fl := by
  have : ∀ x : ℚ, ∃ y, 0 < x → RoundsTo x y := by
    intro x
    by_cases hx : 0 < x
    · have h1 := Int.zpow_log_le_self (b := 2) (by norm_num) hx
      have h2 := Int.lt_zpow_succ_log_self (b := 2) (by norm_num) x
      set l := Int.log 2 x with hl
      have he := zpow2_pos (l - 52)
      have e1 : (2 : ℚ) ^ (52 : ℕ) * 2 ^ (l - 52) = 2 ^ l := by
        rw [← zpow_natCast, ← zpow_add₀ (by norm_num)]; congr 1; push_cast; ring
      have e2 : (2 : ℚ) ^ (53 : ℕ) * 2 ^ (l - 52) = 2 ^ (l + 1) := by
        rw [← zpow_natCast, ← zpow_add₀ (by norm_num)]; congr 1; push_cast; ring
      push_cast at h1 h2
      set z := x / 2 ^ (l - 52) with hz
      -- nearest, ties to even
      by_cases ht : Int.fract z = 1 / 2
      · have hz2 : z = ⌊z⌋ + 1 / 2 := by rw [← ht, Int.floor_add_fract]
        rcases Int.even_or_odd ⌊z⌋ with hev | hod
        · refine ⟨⌊z⌋ * 2 ^ (l - 52), fun _ => ⟨l - 52, ⌊z⌋, e1 ▸ h1, e2 ▸ h2, ?_, fun _ => hev, rfl⟩⟩
          rw [← hz, show z - ⌊z⌋ = 1 / 2 by linarith]; norm_num
        · refine ⟨(⌊z⌋ + 1 : ℤ) * 2 ^ (l - 52), fun _ => ⟨l - 52, ⌊z⌋ + 1, e1 ▸ h1, e2 ▸ h2, ?_, fun _ => hod.add_one, rfl⟩⟩
          rw [← hz]; push_cast
          rw [show z - (⌊z⌋ + 1) = -(1 / 2) by linarith]; norm_num
      · refine ⟨round z * 2 ^ (l - 52), fun _ => ⟨l - 52, round z, e1 ▸ h1, e2 ▸ h2, abs_sub_round z, ?_, rfl⟩⟩
        intro habs
        exfalso
        apply ht
        rw [← hz, abs_sub_round_eq_min] at habs
        rcases min_choice (Int.fract z) (1 - Int.fract z) with h | h <;> rw [h] at habs <;> linarith
    · exact ⟨0, fun h => absurd h hx⟩
  choose f hf using this
  refine ⟨fun x => if x = 0 then 0 else f x, by simp, fun x hx => ?_⟩
  simp only [hx.ne', if_false]
  exact hf x hx

/-- `n * fl(p / n)` is off by less than one, and exact for powers of two. -/
theorem intMul_spec (fl : ℚ → ℚ) (hfl : IsDouble fl) (n k p : Nat) (hn : 0 < n) (hk : 0 < k) (hp : 0 < p) (hsz : k * p < 2 ^ 50) :
    (intMul fl (k * n) (sparsity fl p n) = k * p ∨ intMul fl (k * n) (sparsity fl p n) + 1 = k * p) ∧
    ((∃ j, n = 2 ^ j) → intMul fl (k * n) (sparsity fl p n) = k * p) := by
  have hnq : (0 : ℚ) < n := by exact_mod_cast hn
  have hkq : (0 : ℚ) < k := by exact_mod_cast hk
  have hpq : (0 : ℚ) < p := by exact_mod_cast hp
  have hx : (0 : ℚ) < (p : ℚ) / n := by positivity
  have r1 := hfl.2 _ hx
  have e1 := rounds_rel r1
  unfold intMul sparsity
  set s := fl ((p : ℚ) / n) with hs
  have hs1 := abs_le.1 e1
  -- the product before rounding
  have hprod : (k : ℚ) * n * ((p : ℚ) / n) = k * p := by field_simp
  have hlo : (k : ℚ) * p * (1 - 1 / 2 ^ 53) ≤ (k * n : ℕ) * s := by
    push_cast
    have : (k : ℚ) * n * ((p : ℚ) / n * (1 - 1 / 2 ^ 53)) ≤ k * n * s := mul_le_mul_of_nonneg_left (by linarith [hs1.1]) (by positivity)
    calc _ = (k : ℚ) * n * ((p : ℚ) / n * (1 - 1 / 2 ^ 53)) := by rw [← mul_assoc, hprod]
      _ ≤ _ := this
  have hhi : (k * n : ℕ) * s ≤ (k : ℚ) * p * (1 + 1 / 2 ^ 53) := by
    push_cast
    have : (k : ℚ) * n * s ≤ k * n * ((p : ℚ) / n * (1 + 1 / 2 ^ 53)) := mul_le_mul_of_nonneg_left (by linarith [hs1.2]) (by positivity)
    calc _ ≤ _ := this
      _ = _ := by rw [← mul_assoc, hprod]
  have hkp : (0 : ℚ) < k * p := by positivity
  have hkp2 : (k : ℚ) * p ≤ 2 ^ 50 := by exact_mod_cast hsz.le
  have hy : (0 : ℚ) < (k * n : ℕ) * s := lt_of_lt_of_le (mul_pos hkp (by norm_num)) hlo
  have r2 := hfl.2 _ hy
  have e2 := abs_le.1 (rounds_rel r2)
  set y := ((k * n : ℕ) : ℚ) * s with hydef
  have f1 : ((k * p : ℕ) : ℚ) - 1 < fl y := by push_cast; nlinarith [e2.1]
  have f2 : fl y < ((k * p : ℕ) : ℚ) + 1 := by push_cast; nlinarith [e2.2]
  constructor
  · have g1 : ((k * p : ℕ) : ℤ) - 1 ≤ ⌊fl y⌋ := Int.le_floor.2 (by push_cast at f1 ⊢; linarith)
    have g2 : ⌊fl y⌋ < ((k * p : ℕ) : ℤ) + 1 := Int.floor_lt.2 (by push_cast at f2 ⊢; linarith)
    have g3 : 0 < k * p := Nat.mul_pos hk hp
    omega
  · rintro ⟨j, rfl⟩
    have hp53 : (p : ℤ) < 2 ^ 53 := by
      have : p ≤ k * p := Nat.le_mul_of_pos_left p hk
      have : p < 2 ^ 53 := by omega
      exact_mod_cast this
    have h1 : s = (p : ℚ) / (2 ^ j : ℕ) := by
      apply rounds_exact r1 (p : ℤ) (-(j : ℤ)) hp53
      rw [zpow_neg, zpow_natCast]; push_cast; rw [div_eq_mul_inv]
    have h2 : y = ((k * p : ℕ) : ℚ) := by
      rw [hydef, h1]; push_cast; field_simp
    have h3 : fl y = ((k * p : ℕ) : ℚ) := by
      rw [← h2]
      apply rounds_exact r2 ((k * p : ℕ) : ℤ) 0
      · have : k * p < 2 ^ 53 := by omega
        exact_mod_cast this
      · rw [h2]; push_cast; ring
    rw [h3, Int.floor_natCast]
    exact Int.toNat_natCast _

/-- The indices reported as pruned are exactly the input indices that depend on a pruned centre index, in ascending order without
repetition. -/
theorem C30_pruned_idx (centers : List CenterInfo) :
    (prunedIdx centers).Pairwise (· < ·) ∧
    ∀ i, i ∈ prunedIdx centers ↔ ∃ c ∈ centers, ∃ con ∈ c.constraints, ∃ S, con[i]? = some S ∧ ∃ j ∈ S, j ∈ c.pruned := by
  unfold prunedIdx
  constructor
  · have h1 := List.pairwise_insertionSort (· ≤ ·) ((centers.flatMap (fun c => c.constraints.flatMap (touched c.pruned))).dedup)
    have h2 : (((centers.flatMap (fun c => c.constraints.flatMap (touched c.pruned))).dedup).insertionSort (· ≤ ·)).Nodup :=
      (List.perm_insertionSort _ _).nodup_iff.2 (List.nodup_dedup _)
    exact (h1.and h2).imp (fun h => lt_of_le_of_ne h.1 h.2)
  · intro i
    rw [List.mem_insertionSort, List.mem_dedup]
    simp only [List.mem_flatMap, touched, List.mem_filter, List.mem_range, List.any_eq_true, List.contains_iff_mem]
    constructor
    · rintro ⟨c, hc, con, hcon, hi, j, hj, hjp⟩
      refine ⟨c, hc, con, hcon, con[i], List.getElem?_eq_getElem hi, j, ?_, hjp⟩
      simpa [List.getD, hi] using hj
    · rintro ⟨c, hc, con, hcon, S, hS, j, hj, hjp⟩
      obtain ⟨hi, rfl⟩ := List.getElem?_eq_some_iff.1 hS
      exact ⟨c, hc, con, hcon, hi, j, by simpa [List.getD, hi] using hj, hjp⟩

/-- Index 1 depends on the pruned centre channel 3. -/
example : prunedIdx [⟨[3, 9], [[[0], [1, 3], [2]], [[9], [8], [7]]]⟩] = [0, 1] := by decide

/-- C30 for `view`.  `n` channels of which `p` are removed; the axis of the output holds `k` elements of each channel (`k = 1` unless the
view flattens).  A constant argument becomes the number of remaining elements or one more, and exactly that number if `n` is a power of
two; the other arguments, and arguments that are not constant, are left alone.  Missing for the full property: the off-by-one, which
does happen (`C30_view_false`), and `reshape` (`C30_reshape_false`). -/
theorem C30_view_partial (fl : ℚ → ℚ) (hfl : IsDouble fl) (changed : List Nat) (args : List (Option Nat)) (dim n k p : Nat)
    (hn : 0 < n) (hk : 0 < k) (hp : p ≤ n) (hsz : k * n < 2 ^ 50)
    (hch : changed[dim]? = some (k * n)) :
    (∀ a, args[dim]? = some (some a) →
      ∃ r, viewArgs fl changed args dim p n = args.set dim (some r) ∧ (r = k * (n - p) ∨ r = k * (n - p) + 1) ∧
        ((∃ j, n = 2 ^ j) → r = k * (n - p))) ∧
    (args[dim]? = some none → viewArgs fl changed args dim p n = args) := by
  constructor
  · intro a ha
    have hD : args.getD dim none = some a := by simp [List.getD, ha]
    refine ⟨k * n - intMul fl (k * n) (sparsity fl p n), ?_, ?_⟩
    · unfold viewArgs
      rw [hD]
      simp [List.getD, hch]
    · rcases Nat.eq_zero_or_pos p with rfl | hp0
      · have : intMul fl (k * n) (sparsity fl 0 n) = 0 := by
          unfold intMul sparsity
          simp [hfl.1]
        rw [this]
        exact ⟨Or.inl rfl, fun _ => rfl⟩
      · have hle : k * p ≤ k * n := Nat.mul_le_mul_left k hp
        obtain ⟨h1, h2⟩ := intMul_spec fl hfl n k p hn hk hp0 (by omega)
        have hpos : 0 < k * p := Nat.mul_pos hk hp0
        rw [Nat.mul_sub]
        constructor
        · rcases h1 with h1 | h1
          · left; rw [h1]
          · right; omega
        · intro hj; rw [h2 hj]
  · intro ha
    unfold viewArgs
    have hD : args.getD dim none = none := by simp [List.getD, ha]
    rw [hD]

/-- Sixteen channels of 49 elements each, flattened by `x.view(1, 784)`, four channels pruned: the argument becomes 588. -/
example (fl : ℚ → ℚ) (hfl : IsDouble fl) :
    viewArgs fl [1, 784] [some 1, some 784] 1 4 16 = [some 1, some 588] := by
  obtain ⟨r, h1, -, h3⟩ := (C30_view_partial fl hfl [1, 784] [some 1, some 784] 1 16 49 4 (by norm_num) (by norm_num) (by norm_num)
    (by norm_num) (by simp)).1 784 (by simp)
  have := h3 ⟨4, by norm_num⟩
  rw [h1, this]; rfl

/-- The exponent of a rounding is determined by bounds. -/
theorem rounds_exponent {x y : ℚ} (h : RoundsTo x y) (e : ℤ) (h1 : (2 : ℚ) ^ (52 : ℕ) * 2 ^ e ≤ x) (h2 : x < 2 ^ (53 : ℕ) * 2 ^ e) :
    ∃ m : ℤ, |x / (2 : ℚ) ^ e - m| ≤ 1 / 2 ∧ y = m * (2 : ℚ) ^ e := by
  obtain ⟨e', m, a1, a2, a3, -, rfl⟩ := h
  have : e' = e := by
    have b1 : (2 : ℚ) ^ e' < 2 ^ (e + 1) := by
      rw [zpow_add_one₀ (by norm_num)]; nlinarith
    have b2 : (2 : ℚ) ^ e < 2 ^ (e' + 1) := by
      rw [zpow_add_one₀ (by norm_num)]; nlinarith
    have c1 := (zpow_lt_zpow_iff_right₀ (by norm_num : (1 : ℚ) < 2)).1 b1
    have c2 := (zpow_lt_zpow_iff_right₀ (by norm_num : (1 : ℚ) < 2)).1 b2
    omega
  subst this
  exact ⟨m, a3, rfl⟩

/-- C30 fails for `view` because of floating point: of 49 channels one is removed, and the argument stays 49 instead of 48. -/
theorem C30_view_false (fl : ℚ → ℚ) (hfl : IsDouble fl) :
    viewArgs fl [1, 49] [some 1, some 49] 1 1 49 = [some 1, some 49] := by
  have h58 : (2 : ℚ) ^ (-58 : ℤ) = 1 / 288230376151711744 := by rw [zpow_neg]; norm_num
  have h53 : (2 : ℚ) ^ (-53 : ℤ) = 1 / 9007199254740992 := by rw [zpow_neg]; norm_num
  obtain ⟨m, hm, hy⟩ := rounds_exponent (hfl.2 (1 / 49) (by norm_num)) (-58) (by rw [h58]; norm_num) (by rw [h58]; norm_num)
  rw [h58] at hm hy
  have hm' : m = 5882252574524729 := by
    have := abs_le.1 hm
    have a1 : (5882252574524728 : ℚ) < m := by linarith [this.2]
    have a2 : (m : ℚ) < 5882252574524730 := by linarith [this.1]
    have a1' : (5882252574524728 : ℤ) < m := by exact_mod_cast a1
    have a2' : m < (5882252574524730 : ℤ) := by exact_mod_cast a2
    omega
  subst hm'
  have hs : sparsity fl 1 49 = 5882252574524729 / 288230376151711744 := by
    unfold sparsity; push_cast; rw [hy]; push_cast; ring
  obtain ⟨m2, hm2, hy2⟩ := rounds_exponent (hfl.2 (49 * (5882252574524729 / 288230376151711744)) (by norm_num)) (-53)
    (by rw [h53]; norm_num) (by rw [h53]; norm_num)
  rw [h53] at hm2 hy2
  have hm2' : m2 = 9007199254740991 := by
    have := abs_le.1 hm2
    have a1 : (9007199254740990 : ℚ) < m2 := by linarith [this.2]
    have a2 : (m2 : ℚ) < 9007199254740992 := by linarith [this.1]
    have a1' : (9007199254740990 : ℤ) < m2 := by exact_mod_cast a1
    have a2' : m2 < (9007199254740992 : ℤ) := by exact_mod_cast a2
    omega
  subst hm2'
  have hz : intMul fl 49 (sparsity fl 1 49) = 0 := by
    unfold intMul
    rw [hs]; push_cast; rw [hy2]
    have : ⌊((9007199254740991 : ℤ) : ℚ) * (1 / 9007199254740992)⌋ = 0 := by
      rw [Int.floor_eq_iff]; norm_num
    rw [this]; rfl
  unfold viewArgs
  simp [List.getD, hz]

/-- C30 for `reshape`: the argument becomes the number of elements removed, not the number that remain (stated where the floating-point
computation is exact). -/
theorem C30_reshape_removed (fl : ℚ → ℚ) (hfl : IsDouble fl) (changed : List Nat) (args : List (Option Nat)) (dim n k p a j : Nat)
    (hn : n = 2 ^ j) (hk : 0 < k) (hp0 : 0 < p) (hp : p ≤ n) (hsz : k * n < 2 ^ 50) (ha : args[dim]? = some (some a))
    (hch : changed[dim]? = some (k * n)) :
    reshapeArgs fl changed args dim p n = (changed.set dim (k * p)).map some := by
  have hD : args.getD dim none = some a := by simp [List.getD, ha]
  have hle : k * p ≤ k * n := Nat.mul_le_mul_left k hp
  obtain ⟨-, h2⟩ := intMul_spec fl hfl n k p (by rw [hn]; positivity) hk hp0 (by omega)
  unfold reshapeArgs
  rw [hD]
  simp only [List.getD, hch, Option.getD_some]
  rw [h2 ⟨j, hn⟩]

/-- C30 fails for `reshape`: of four channels one is removed, and the argument becomes 1 instead of 3. -/
theorem C30_reshape_false (fl : ℚ → ℚ) (hfl : IsDouble fl) :
    reshapeArgs fl [1, 4] [some 1, some 4] 1 1 4 = [some 1, some 1] := by
  rw [C30_reshape_removed fl hfl [1, 4] [some 1, some 4] 1 4 1 1 4 2 (by norm_num) (by norm_num) (by norm_num) (by norm_num)
    (by norm_num) (by simp) (by simp)]
  rfl

/-- The hypothesis on `fl` in the theorems above can be met. -/
example : ∃ fl, IsDouble fl := exists_double

end Verif.Props
