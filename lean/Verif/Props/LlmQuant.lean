import Verif.Model.LlmQuant
import Mathlib.Tactic.Linarith
import Mathlib.Tactic.NormNum
import Mathlib.Tactic.FieldSimp
import Mathlib.Tactic.Ring
import Mathlib.Tactic.Positivity

/-!
C38, C39, C40: integer compression of LLM weights, 4-bit packing, and the dynamically quantized linear layer.
-/

namespace Verif.Props
open Verif.Model Verif.Spec

private theorem abs_le_absMax (row : List ℝ) : ∀ x ∈ row, |x| ≤ absMax row := by
  induction row with
  | nil => simp
  | cons a r ih =>
    intro x hx
    unfold absMax
    simp only [List.foldr_cons]
    rcases List.mem_cons.mp hx with h | h
    · rw [h]; exact le_max_left _ _
    · exact le_trans (ih x h) (le_max_right _ _)

private theorem absMax_nonneg (row : List ℝ) : 0 ≤ absMax row := by
  induction row with
  | nil => simp [absMax]
  | cons a r ih => unfold absMax; simp only [List.foldr_cons]; exact le_trans ih (le_max_right _ _)

private theorem absMax_pos (row : List ℝ) (h : ∃ x ∈ row, x ≠ 0) : 0 < absMax row := by
  obtain ⟨x, hx, h0⟩ := h
  exact lt_of_lt_of_le (abs_pos.mpr h0) (abs_le_absMax row x hx)

private theorem roundEven_near (r : ℝ) : |r - roundEven r| ≤ 1 / 2 := by
  have h0 := Int.floor_le r
  have h1 := Int.lt_floor_add_one r
  unfold roundEven
  split
  · rw [abs_le]; constructor <;> linarith
  · split
    · push_cast; rw [abs_le]; constructor <;> linarith
    · split
      · rw [abs_le]; constructor <;> linarith
      · push_cast; rw [abs_le]; constructor <;> linarith

/-- The heart: if the quotient exceeds the range by at most a half, rounding and clamping lose at most a half. -/
private theorem quantElem_err (b : Nat) (scale x : ℝ) (hs : 0 < scale) (hx : |x / scale| ≤ (qMax b : ℝ) + 1 / 2) (hq : 0 ≤ qMax b) :
    |x - scale * quantElem b scale x| ≤ scale / 2 ∧ |quantElem b scale x| ≤ qMax b := by
  have hn := abs_le.mp (roundEven_near (x / scale))
  have hr := abs_le.mp hx
  set n := roundEven (x / scale) with hndef
  have hlo : (-(qMax b) - 1 : ℝ) ≤ n := by linarith
  have hhi : (n : ℝ) ≤ qMax b + 1 := by linarith
  have hlo' : -(qMax b) - 1 ≤ n := by exact_mod_cast hlo
  have hhi' : n ≤ qMax b + 1 := by exact_mod_cast hhi
  have key : |x / scale - quantElem b scale x| ≤ 1 / 2 ∧ |quantElem b scale x| ≤ qMax b := by
    unfold quantElem clampInt
    rw [← hndef]
    rcases lt_trichotomy n (-(qMax b)) with h | h | h
    · have hn' : n = -(qMax b) - 1 := by omega
      have he : min (max n (-(qMax b))) (qMax b) = -(qMax b) := by omega
      rw [he]
      refine ⟨?_, by rw [abs_neg, abs_of_nonneg hq]⟩
      rw [hn'] at hn
      push_cast at hn ⊢
      rw [abs_le]; constructor <;> linarith
    · have he : min (max n (-(qMax b))) (qMax b) = n := by omega
      rw [he]
      exact ⟨abs_le.mpr hn, by rw [h, abs_neg, abs_of_nonneg hq]⟩
    · rcases le_or_gt n (qMax b) with h2 | h2
      · have he : min (max n (-(qMax b))) (qMax b) = n := by omega
        rw [he]
        exact ⟨abs_le.mpr hn, abs_le.mpr ⟨by omega, h2⟩⟩
      · have hn' : n = qMax b + 1 := by omega
        have he : min (max n (-(qMax b))) (qMax b) = qMax b := by omega
        rw [he]
        refine ⟨?_, by rw [abs_of_nonneg hq]⟩
        rw [hn'] at hn
        push_cast at hn ⊢
        rw [abs_le]; constructor <;> linarith
  refine ⟨?_, key.2⟩
  have : x - scale * quantElem b scale x = scale * (x / scale - quantElem b scale x) := by
    field_simp
  rw [this, abs_mul, abs_of_pos hs]
  calc scale * |x / scale - quantElem b scale x| ≤ scale * (1 / 2) := mul_le_mul_of_nonneg_left key.1 hs.le
    _ = scale / 2 := by ring

private theorem qMax_cast (b : Nat) (hb : 1 ≤ b) : (qMax b : ℝ) = 2 ^ (b - 1) - 1 ∧ (2 : ℝ) ^ b = 2 * 2 ^ (b - 1) := by
  constructor
  · unfold qMax; push_cast; rfl
  · obtain ⟨k, rfl⟩ : ∃ k, b = k + 1 := ⟨b - 1, by omega⟩
    rw [pow_succ]; simp; ring

private theorem one_le_two_pow (k : Nat) : (1 : ℝ) ≤ 2 ^ k := one_le_pow₀ (by norm_num)

private theorem channelScale_ok (b : Nat) (hb : 1 ≤ b) (row : List ℝ) (h : ∃ x ∈ row, x ≠ 0) :
    0 < channelScale b row ∧ ∀ x ∈ row, |x / channelScale b row| ≤ (qMax b : ℝ) + 1 / 2 := by
  obtain ⟨hq, h2⟩ := qMax_cast b hb
  have h1 := one_le_two_pow (b - 1)
  have hm := absMax_pos row h
  have hd : (0 : ℝ) < 2 ^ b - 1 := by rw [h2]; linarith
  have hs : 0 < channelScale b row := by unfold channelScale; positivity
  refine ⟨hs, fun x hx => ?_⟩
  rw [abs_div, abs_of_pos hs, div_le_iff₀ hs, hq]
  have : ((2 : ℝ) ^ (b - 1) - 1 + 1 / 2) * channelScale b row = absMax row := by
    unfold channelScale
    rw [show (2 : ℝ) ^ (b - 1) - 1 + 1 / 2 = (2 ^ b - 1) / 2 by rw [h2]; ring]
    field_simp
  rw [this]
  exact abs_le_absMax row x hx

private theorem tokenScale_ok (b : Nat) (hb : 2 ≤ b) (row : List ℝ) (h : ∃ x ∈ row, x ≠ 0) :
    0 < tokenScale b row ∧ ∀ x ∈ row, |x / tokenScale b row| ≤ (qMax b : ℝ) + 1 / 2 := by
  obtain ⟨hq, _⟩ := qMax_cast b (by omega)
  have hm := absMax_pos row h
  have hq1 : (0 : ℝ) < qMax b := by
    rw [hq]
    obtain ⟨k, hk⟩ : ∃ k, b - 1 = k + 1 := ⟨b - 2, by omega⟩
    rw [hk, pow_succ]
    have := one_le_two_pow k
    linarith
  have hs : 0 < tokenScale b row := by unfold tokenScale; positivity
  refine ⟨hs, fun x hx => ?_⟩
  rw [abs_div, abs_of_pos hs, div_le_iff₀ hs]
  have : (qMax b : ℝ) * tokenScale b row = absMax row := by
    unfold tokenScale; field_simp
  have h3 := abs_le_absMax row x hx
  nlinarith

private theorem qMax_nonneg (b : Nat) : 0 ≤ qMax b := by
  unfold qMax
  have : (1 : ℤ) ≤ 2 ^ (b - 1) := one_le_pow₀ (by norm_num)
  omega

/-- What a row of `b`-bit integers must satisfy: same length, every element within half a step and in the symmetric range. -/
def RowOk (b : Nat) (row : List ℝ) (scale : ℝ) (q : List ℤ) : Prop :=
  0 < scale ∧ List.Forall₂ (fun x n => |x - scale * (n : ℤ)| ≤ scale / 2 ∧ |n| ≤ 2 ^ (b - 1) - 1) row q

private theorem rowOk_map (b : Nat) (row : List ℝ) (scale : ℝ) (hs : 0 < scale) (h : ∀ x ∈ row, |x / scale| ≤ (qMax b : ℝ) + 1 / 2) :
    quantRow b scale row = some (row.map (quantElem b scale)) ∧ RowOk b row scale (row.map (quantElem b scale)) := by
  refine ⟨by simp [quantRow, hs.ne'], hs, ?_⟩
  rw [List.forall₂_map_right_iff, List.forall₂_same]
  intro x hx
  exact quantElem_err b scale x hs (h x hx) (qMax_nonneg b)

private theorem mapM_rows {α β : Type} (f : α → Option β) (P : α → β → Prop) (l : List α) (h : ∀ a ∈ l, ∃ b, f a = some b ∧ P a b) :
    ∃ r, l.mapM f = some r ∧ List.Forall₂ P l r := by
  induction l with
  | nil => exact ⟨[], rfl, .nil⟩
  | cons a l ih =>
    obtain ⟨b, h1, h2⟩ := h a (by simp)
    obtain ⟨r, h3, h4⟩ := ih (fun a' ha => h a' (by simp [ha]))
    exact ⟨b :: r, by simp [h1, h3], .cons h2 h4⟩

/-- **C38** Per-channel compression (weights) with `b ≥ 1` bits of rows that each have a non-zero element. -/
theorem C38_per_channel (b : Nat) (hb : 1 ≤ b) (data : List (List ℝ)) (h : ∀ row ∈ data, ∃ x ∈ row, x ≠ 0) :
    ∃ r, compressChannel b data = some r ∧ List.Forall₂ (fun row sq => RowOk b row sq.1 sq.2) data r := by
  refine mapM_rows _ _ data (fun row hrow => ?_)
  obtain ⟨hs, hx⟩ := channelScale_ok b hb row (h row hrow)
  obtain ⟨h1, h2⟩ := rowOk_map b row _ hs hx
  exact ⟨_, by rw [h1]; rfl, h2⟩

/-- **C38** Per-token compression with `b ≥ 2` bits. -/
theorem C38_per_token (b : Nat) (hb : 2 ≤ b) (data : List (List ℝ)) (h : ∀ row ∈ data, ∃ x ∈ row, x ≠ 0) :
    ∃ r, compressToken b data = some r ∧ List.Forall₂ (fun row sq => RowOk b row sq.1 sq.2) data r := by
  refine mapM_rows _ _ data (fun row hrow => ?_)
  obtain ⟨hs, hx⟩ := tokenScale_ok b hb row (h row hrow)
  obtain ⟨h1, h2⟩ := rowOk_map b row _ hs hx
  exact ⟨_, by rw [h1]; rfl, h2⟩

/-- **C38** Per-tensor compression with `b ≥ 2` bits of a tensor with a non-zero element. -/
theorem C38_per_tensor (b : Nat) (hb : 2 ≤ b) (data : List (List ℝ)) (h : ∃ row ∈ data, ∃ x ∈ row, x ≠ 0) :
    ∃ s q, compressTensor b data = some (s, q) ∧ List.Forall₂ (fun row r => RowOk b row s r) data q := by
  obtain ⟨row0, hr0, x0, hx0, hne⟩ := h
  obtain ⟨hs, hx⟩ := tokenScale_ok b hb data.flatten ⟨x0, List.mem_flatten.mpr ⟨row0, hr0, hx0⟩, hne⟩
  obtain ⟨r, h1, h2⟩ := mapM_rows (quantRow b (tokenScale b data.flatten)) (fun row r => RowOk b row (tokenScale b data.flatten) r) data
    (fun row hrow => ⟨_, rowOk_map b row _ hs (fun x hxr => hx x (List.mem_flatten.mpr ⟨row, hrow, hxr⟩))⟩)
  exact ⟨_, r, by rw [compressTensor, h1]; rfl, h2⟩

/-- Two rows with a non-zero element, one negative. -/
example : ∀ row ∈ [[1, -3, (0 : ℝ)], [0, 1 / 2, 0]], ∃ x ∈ row, x ≠ 0 := by
  intro row h
  simp only [List.mem_cons, List.not_mem_nil, or_false] at h
  rcases h with rfl | rfl
  · exact ⟨1, by simp, by norm_num⟩
  · exact ⟨1 / 2, by simp, by norm_num⟩

/-- A zero row of a weight (a pruned channel, say) has no defined compression. -/
theorem C38_zero_row_false : compressChannel 8 [[0, 0]] = none := by
  norm_num [compressChannel, quantRow, channelScale, absMax]

private theorem pack_unpack (a b : BitVec 4) :
    (pack4 (a.signExtend 8) (b.signExtend 8)).sshiftRight 4 = a.signExtend 8
    ∧ ((pack4 (a.signExtend 8) (b.signExtend 8)) <<< 4).sshiftRight 4 = b.signExtend 8 := by
  revert a b; decide

private theorem four_bit (a : BitVec 8) (h : -8 ≤ a.toInt ∧ a.toInt ≤ 7) : ∃ n : BitVec 4, a = n.signExtend 8 := by
  revert a; decide

/-- **C39** Packing a row of signed 4-bit weights of any even length succeeds, halves the length, and unpacking gives the row back. -/
theorem C39_round_trip (row : List (BitVec 8)) (heven : Even row.length) (hrange : ∀ a ∈ row, -8 ≤ a.toInt ∧ a.toInt ≤ 7) :
    ∃ packed, packRow row = some packed ∧ 2 * packed.length = row.length ∧ unpackRow packed = row := by
  fun_induction packRow row with
  | case1 => exact ⟨[], rfl, rfl, rfl⟩
  | case2 a => simp at heven
  | case3 a b r ih =>
    have he : Even r.length := by
      simp only [List.length_cons] at heven
      rw [show r.length + 1 + 1 = r.length + 2 by omega] at heven
      exact (Nat.even_add.mp heven).mpr (by decide)
    obtain ⟨p, h1, h2, h3⟩ := ih he (fun x hx => hrange x (by simp [hx]))
    obtain ⟨na, ha⟩ := four_bit a (hrange a (by simp))
    obtain ⟨nb, hb⟩ := four_bit b (hrange b (by simp))
    obtain ⟨k1, k2⟩ := pack_unpack na nb
    rw [← ha, ← hb] at k1 k2
    refine ⟨pack4 a b :: p, by rw [h1]; rfl, by simp only [List.length_cons]; omega, ?_⟩
    unfold unpackRow at *
    rw [List.flatMap_cons, h3, k1, k2]
    rfl

/-- A row of 4-bit values with both signs. -/
example : ∀ a ∈ [7#8, -7#8, 0#8, -1#8], -8 ≤ a.toInt ∧ a.toInt ≤ 7 := by decide

/-- Compression to four bits produces values in the range the packing needs. -/
theorem C39_range (scale x : ℝ) : -7 ≤ quantElem 4 scale x ∧ quantElem 4 scale x ≤ 7 := by
  unfold quantElem clampInt qMax
  norm_num

private theorem unpad_pad (k : Nat) (row : List ℤ) (h : row.length = k) : unpadRow k (padRow k row) = row := by
  unfold unpadRow padRow
  split
  · simp only [List.length_append, List.length_replicate]
    rw [Nat.add_sub_cancel, List.take_left' rfl]
  · rfl

private theorem dot_scale (a b : ℝ) : ∀ x w : List ℤ,
    (((x.map (fun (q : ℤ) => (q : ℝ))).zipWith (· * ·) (w.map (fun (q : ℤ) => (q : ℝ)))).sum) * (a * b)
      = ((x.map (fun (q : ℤ) => b * (q : ℝ))).zipWith (· * ·) (w.map (fun (q : ℤ) => a * (q : ℝ)))).sum
  | [], _ => by simp
  | _ :: _, [] => by simp
  | p :: x, q :: w => by
    have := dot_scale a b x w
    simp only [List.map_cons, List.zipWith_cons_cons, List.sum_cons]
    rw [add_mul, this]; ring

/-- **C40** Without a bias the layer returns the dot product of the dequantized token and the dequantized weight row, whatever the number of features;
the token is compressed within half a step.  Partial: with a bias the statement is false, see below. -/
theorem C40_no_bias_partial (k : Nat) (x : List ℝ) (hx : ∃ v ∈ x, v ≠ 0) (wq : List ℤ) (hw : wq.length = k) (ws : ℝ) :
    ∃ (s : ℝ) (xq : List ℤ), RowOk 8 x s xq ∧ dynamicForward k x (padRow k wq) ws none
      = some (linearAt (xq.map (fun (q : ℤ) => s * (q : ℝ))) (wq.map (fun (q : ℤ) => ws * (q : ℝ))) none) := by
  obtain ⟨hs, hq⟩ := tokenScale_ok 8 (by norm_num) x hx
  obtain ⟨h1, h2⟩ := rowOk_map 8 x _ hs hq
  refine ⟨_, _, h2, ?_⟩
  unfold dynamicForward
  rw [h1, unpad_pad k wq hw]
  simp only [Option.map_some, linearAt, Option.getD_none, add_zero]
  rw [dot_scale]

/-- **C40** In general the layer returns the rescaled product plus the bias *multiplied by both scales*. -/
theorem C40_bias_partial (k : Nat) (x : List ℝ) (hx : ∃ v ∈ x, v ≠ 0) (wq : List ℤ) (hw : wq.length = k) (ws b : ℝ) :
    ∃ (s : ℝ) (xq : List ℤ), RowOk 8 x s xq ∧ dynamicForward k x (padRow k wq) ws (some b)
      = some (linearAt (xq.map (fun (q : ℤ) => s * (q : ℝ))) (wq.map (fun (q : ℤ) => ws * (q : ℝ))) none + b * (ws * s)) := by
  obtain ⟨hs, hq⟩ := tokenScale_ok 8 (by norm_num) x hx
  obtain ⟨h1, h2⟩ := rowOk_map 8 x _ hs hq
  refine ⟨_, _, h2, ?_⟩
  unfold dynamicForward
  rw [h1, unpad_pad k wq hw]
  simp only [Option.map_some, linearAt, Option.getD_none, Option.getD_some, add_zero]
  rw [add_mul, dot_scale]

example : ∃ v ∈ [(0 : ℝ), 5], v ≠ 0 := ⟨5, by simp, by norm_num⟩

/-- The bias is scaled: a token 127, a weight row 0 and the bias 10 give 10 times the weight scale instead of 10. -/
theorem C40_bias_false : dynamicForward 1 [127] (padRow 1 [0]) (1 / 2) (some 10) = some 5 := by
  have habs : absMax [127] = 127 := by norm_num [absMax]
  have hs : tokenScale 8 [127] = 1 := by norm_num [tokenScale, habs, qMax]
  have hu : unpadRow 1 (padRow 1 [0]) = [0] := unpad_pad 1 [0] rfl
  unfold dynamicForward
  rw [hu, hs]
  norm_num [quantRow, linearAt]

/-- Two sequences of three tokens: the scales have six rows, the product three, and PyTorch raises an error; two sequences of one token give an output
of the wrong shape. -/
theorem C40_batch_false : dynamicShape3 2 3 8 = none ∧ dynamicShape3 2 1 8 = some (2, 2, 8) := by decide

end Verif.Props
