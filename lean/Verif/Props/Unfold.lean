import Verif.Model.Unfold
import Verif.Props.GatherNd
import Verif.Props.AvgPool

/-! C66: unfold and fold. -/

namespace Verif.Props
open Verif.Spec Verif.Model Verif.Lemmas

private theorem inB4 {a b c d i j k l : Nat} (hi : i < a) (hj : j < b) (hk : k < c) (hl : l < d) : InBounds [a, b, c, d] [i, j, k, l] :=
  .cons hi (.cons hj (.cons hk (.cons hl .nil)))

theorem fakeImage_get {s idx : List Nat} (hs : s.prod ≤ 2 ^ 24) (h : InBounds s idx) : (fakeImage s).get idx = flat s idx := by
  have hf := flat_lt h
  simp only [fakeImage, reshape, unflat]
  simp only [List.prod_nil, Nat.div_one, List.getD_cons_zero]
  unfold roundF32
  rw [if_pos (by omega)]

/-- Looking up the offset of a position gives the position. -/
theorem lookupIndices_vector {s : List Nat} {out : Tensor Nat} {idx at' : List Nat} (ha : InBounds s at') (ho : out.get idx = flat s at') (hl : idx.length = out.shape.length) :
    indexVector (lookupIndices s out) idx = at' := by
  unfold indexVector
  have e : (lookupIndices s out).shape.getD ((lookupIndices s out).shape.length - 1) 0 = s.length := by simp [lookupIndices]
  rw [e]
  have hf := flat_lt ha
  refine ext_getD (by simp [inBounds_length ha]) ?_
  intro k hk
  simp only [List.length_map, List.length_range] at hk
  rw [getD_range_map _ _ _ _ hk]
  simp only [lookupIndices, List.dropLast_concat, ho]
  rw [allIndices_getD _ _ hf, unflat_flat ha, ← hl]
  simp

theorem patch_pos_inBounds {p : Patch} {n c h w : Nat} (hp : p.Fits h w) {idx : List Nat} (hb : InBounds (p.shape n c h w) idx) : InBounds [n, c, h, w] (p.pos w idx) := by
  obtain ⟨h1, h2, h3, h4, h5, h6⟩ := hp
  obtain ⟨hl, hb⟩ := (inBounds_iff _ _).1 hb
  have b0 := hb 0 (by simp [Patch.shape])
  have b1 := hb 1 (by simp [Patch.shape])
  have b2 := hb 2 (by simp [Patch.shape])
  simp only [Patch.shape, List.getD_cons_zero, List.getD_cons_succ] at b0 b1 b2
  unfold Patch.pos
  refine inB4 b0 ?_ ?_ ?_
  · exact Nat.div_lt_of_lt_mul (by rw [Nat.mul_comm]; exact b1)
  · have hr : idx.getD 2 0 / p.cols w < p.rows h := Nat.div_lt_of_lt_mul (by rw [Nat.mul_comm]; exact b2)
    have hk : idx.getD 1 0 / p.kw % p.kh ≤ p.kh - 1 := by have := Nat.mod_lt (idx.getD 1 0 / p.kw) h1; omega
    generalize idx.getD 2 0 / p.cols w = q at hr ⊢
    generalize idx.getD 1 0 / p.kw % p.kh = i at hk ⊢
    unfold Patch.rows at hr
    have hq : q * p.sh ≤ h - (p.dh * (p.kh - 1) + 1) := by
      calc q * p.sh ≤ (h - (p.dh * (p.kh - 1) + 1)) / p.sh * p.sh := Nat.mul_le_mul_right _ (by omega)
        _ ≤ _ := Nat.div_mul_le_self _ _
    have hi : i * p.dh ≤ p.dh * (p.kh - 1) := by rw [Nat.mul_comm]; exact Nat.mul_le_mul_left _ hk
    omega
  · have hr : idx.getD 2 0 % p.cols w < p.cols w := Nat.mod_lt _ (Nat.succ_pos _)
    have hk : idx.getD 1 0 % p.kw ≤ p.kw - 1 := by have := Nat.mod_lt (idx.getD 1 0) h2; omega
    generalize idx.getD 2 0 % p.cols w = q at hr ⊢
    generalize idx.getD 1 0 % p.kw = i at hk ⊢
    unfold Patch.cols at hr
    have hq : q * p.sw ≤ w - (p.dw * (p.kw - 1) + 1) := by
      calc q * p.sw ≤ (w - (p.dw * (p.kw - 1) + 1)) / p.sw * p.sw := Nat.mul_le_mul_right _ (by omega)
        _ ≤ _ := Nat.div_mul_le_self _ _
    have hi : i * p.dw ≤ p.dw * (p.kw - 1) := by rw [Nat.mul_comm]; exact Nat.mul_le_mul_left _ hk
    omega

/-- The unpadded unfold of the image of offsets gives the offset of every patch element. -/
theorem unfold_fake {p : Patch} {n c h w : Nat} (hp : p.Fits h w) (hs : [n, c, h, w].prod ≤ 2 ^ 24) {idx : List Nat} (hb : InBounds (p.shape n c h w) idx) :
    (unfold p 0 0 (fakeImage [n, c, h, w])).get idx = flat [n, c, h, w] (p.pos w idx) := by
  have ha := patch_pos_inBounds hp hb
  have b := (inBounds_iff _ _).1 ha
  have b2 := b.2 2 (by simp)
  have b3 := b.2 3 (by simp)
  simp only [List.getD_cons_zero, List.getD_cons_succ] at b2 b3
  have e : (fakeImage [n, c, h, w]).shape = [n, c, h, w] := rfl
  simp only [unfold, e, List.getD_cons_zero, List.getD_cons_succ, Nat.mul_zero, Nat.add_zero, Nat.zero_add, Nat.sub_zero, Nat.zero_le, true_and]
  rw [if_pos ⟨b2, b3⟩]
  have : [(p.pos w idx).getD 0 0, (p.pos w idx).getD 1 0, (p.pos w idx).getD 2 0, (p.pos w idx).getD 3 0] = p.pos w idx := rfl
  rw [this]
  exact fakeImage_get hs ha

theorem unfold_table {p : Patch} {n c h w : Nat} (hp : p.Fits h w) (hs : [n, c, h, w].prod ≤ 2 ^ 24) {idx : List Nat} (hb : InBounds (p.shape n c h w) idx) :
    indexVector (lookupIndices [n, c, h, w] (unfold p 0 0 (fakeImage [n, c, h, w]))) idx = p.pos w idx :=
  lookupIndices_vector (patch_pos_inBounds hp hb) (unfold_fake hp hs hb) (by have := inBounds_length hb; simpa [unfold, Patch.shape] using this)

theorem unfold_table_shape (p : Patch) (n c h w : Nat) : (lookupIndices [n, c, h, w] (unfold p 0 0 (fakeImage [n, c, h, w]))).shape = p.shape n c h w ++ [4] := by
  simp [lookupIndices, unfold, fakeImage, reshape]

/-- C66, for equal paddings and images of at most 2^24 elements: the converted unfold gives every patch element PyTorch gives. -/
theorem C66_unfold_partial {α : Type} [Zero α] (p : Patch) (pd n c h w : Nat) (t : Tensor α) (ht : t.shape = [n, c, h, w]) (hp : p.Fits (h + 2 * pd) (w + 2 * pd))
    (hs : n * c * (h + 2 * pd) * (w + 2 * pd) ≤ 2 ^ 24) : Same (convertUnfold p pd pd t) (unfold p pd pd t) := by
  have hs' : [n, c, h + 2 * pd, w + 2 * pd].prod ≤ 2 ^ 24 := by simpa [Nat.mul_assoc] using hs
  unfold convertUnfold
  simp only [ht, List.getD_cons_zero, List.getD_cons_succ, List.length_cons, List.length_nil]
  refine ⟨by simp only [gatherNd, unfold_table_shape, List.dropLast_concat]; simp [unfold, ht], fun idx hb => ?_⟩
  simp only [gatherNd, unfold_table_shape, List.dropLast_concat] at hb
  simp only [gatherNd]
  rw [unfold_table hp hs' hb]
  have b := (inBounds_iff _ _).1 (patch_pos_inBounds hp hb)
  have b0 := b.2 0 (by simp)
  have b1 := b.2 1 (by simp)
  simp only [List.getD_cons_zero, List.getD_cons_succ] at b0 b1
  simp only [unfold, ht, List.getD_cons_zero, List.getD_cons_succ, pad]
  generalize p.pos (w + 2 * pd) idx = q at b0 b1 ⊢
  have hpads : unfoldPads (0 + 1 + 1 + 1 + 1) pd pd = [0, 0, pd, pd] := rfl
  rw [hpads]
  have hl : [n, c, h, w].length = 4 := rfl
  rw [hl]
  by_cases hc : pd ≤ q.getD 2 0 ∧ q.getD 2 0 < pd + h ∧ pd ≤ q.getD 3 0 ∧ q.getD 3 0 < pd + w
  · rw [if_pos hc, if_pos]
    · rfl
    · intro a ha
      have : a = 0 ∨ a = 1 ∨ a = 2 ∨ a = 3 := by omega
      rcases this with rfl | rfl | rfl | rfl <;> simp only [List.getD_cons_zero, List.getD_cons_succ] <;> omega
  · rw [if_neg hc, if_neg]
    intro hall
    have a2 := hall 2 (by omega)
    have a3 := hall 3 (by omega)
    simp only [List.getD_cons_zero, List.getD_cons_succ] at a2 a3
    exact hc ⟨a2.1, a2.2, a3.1, a3.2⟩

/-- A 3 by 3 window with dilation and stride 2 on a 5 by 4 image with padding 1. -/
example : (⟨3, 3, 1, 2, 2, 2⟩ : Patch).Fits (5 + 2 * 1) (4 + 2 * 1) ∧
    (convertUnfold ⟨3, 3, 1, 2, 2, 2⟩ 1 1 (⟨[1, 2, 5, 4], fun i => i.getD 1 0 * 100 + i.getD 2 0 * 10 + i.getD 3 0 + 1⟩ : Tensor Nat)).shape = [1, 18, 3] ∧
    (convertUnfold ⟨3, 3, 1, 2, 2, 2⟩ 1 1 (⟨[1, 2, 5, 4], fun i => i.getD 1 0 * 100 + i.getD 2 0 * 10 + i.getD 3 0 + 1⟩ : Tensor Nat)).get [0, 13, 2] = 142 := by
  refine ⟨by simp [Patch.Fits], rfl, by decide⟩

/-- C66 fails for different paddings: the image is padded by the height's padding along the width and by the width's along the height, so a 1 by 1 window with padding
(0, 1) on a 1 by 2 image shows 0 where PyTorch shows the first pixel. -/
theorem C66_padding_false (a b : ℤ) (ha : a ≠ 0) : ∃ t : Tensor ℤ, t.shape = [1, 1, 1, 2] ∧ (unfold ⟨1, 1, 1, 1, 1, 1⟩ 0 1 t).get [0, 0, 1] = a ∧
    (unfold ⟨1, 1, 1, 1, 1, 1⟩ 0 1 t).get [0, 0, 2] = b ∧ (convertUnfold ⟨1, 1, 1, 1, 1, 1⟩ 0 1 t).get [0, 0, 1] = 0 ∧ (0 : ℤ) ≠ a :=
  ⟨⟨[1, 1, 1, 2], fun i => if i.getD 3 0 = 0 then a else b⟩, rfl, by simp [unfold, Patch.pos, Patch.cols], by simp [unfold, Patch.pos, Patch.cols], by
    have e : indexVector (lookupIndices [1, 1, 1, 4] (unfold ⟨1, 1, 1, 1, 1, 1⟩ 0 0 (fakeImage [1, 1, 1, 4]))) [0, 0, 1] = [0, 0, 0, 1] := by decide
    simp only [convertUnfold, gatherNd]
    refine (congrArg _ e).trans ?_
    unfold pad
    dsimp only
    rw [if_neg]
    decide, ha.symm⟩

private theorem round_lt : roundF32 (2 ^ 24 + 1) = 2 ^ 24 := by decide

/-- C66 fails for images of more than 2^24 elements: offset 2^24 + 1 is rounded to 2^24 and the converted model shows the neighbouring pixel. -/
theorem C66_large_false : ∃ t : Tensor ℤ, t.shape = [1, 1, 1, 2 ^ 24 + 2] ∧ (unfold ⟨1, 1, 1, 1, 1, 1⟩ 0 0 t).get [0, 0, 2 ^ 24 + 1] = 2 ^ 24 + 1 ∧
    (convertUnfold ⟨1, 1, 1, 1, 1, 1⟩ 0 0 t).get [0, 0, 2 ^ 24 + 1] = 2 ^ 24 := by
  refine ⟨⟨[1, 1, 1, 2 ^ 24 + 2], fun i => (i.getD 3 0 : ℤ)⟩, rfl, ?_, ?_⟩
  · simp [unfold, Patch.pos, Patch.cols]
  · have e : indexVector (lookupIndices [1, 1, 1, 2 ^ 24 + 2] (unfold ⟨1, 1, 1, 1, 1, 1⟩ 0 0 (fakeImage [1, 1, 1, 2 ^ 24 + 2]))) [0, 0, 2 ^ 24 + 1] = [0, 0, 0, 2 ^ 24] := by
      refine lookupIndices_vector (by exact inB4 (by norm_num) (by norm_num) (by norm_num) (by norm_num)) ?_ rfl
      have e1 : (unfold ⟨1, 1, 1, 1, 1, 1⟩ 0 0 (fakeImage [1, 1, 1, 2 ^ 24 + 2])).get [0, 0, 2 ^ 24 + 1] = (fakeImage [1, 1, 1, 2 ^ 24 + 2]).get [0, 0, 0, 2 ^ 24 + 1] := by
        simp [unfold, Patch.pos, Patch.cols, fakeImage, reshape]
      rw [e1]
      have e2 : (fakeImage [1, 1, 1, 2 ^ 24 + 2]).get [0, 0, 0, 2 ^ 24 + 1] = roundF32 (2 ^ 24 + 1) := by
        simp [fakeImage, reshape, flat, unflat]
      rw [e2, round_lt]
      simp [flat]
    simp only [convertUnfold, gatherNd]
    rw [show [([1, 1, 1, 2 ^ 24 + 2] : List Nat).getD 0 0, ([1, 1, 1, 2 ^ 24 + 2] : List Nat).getD 1 0, ([1, 1, 1, 2 ^ 24 + 2] : List Nat).getD 2 0 + 2 * 0,
      ([1, 1, 1, 2 ^ 24 + 2] : List Nat).getD 3 0 + 2 * 0] = [1, 1, 1, 2 ^ 24 + 2] from rfl, e]
    have hp : unfoldPads 4 0 0 = [0, 0, 0, 0] := rfl
    simp only [pad, List.length_cons, List.length_nil, Nat.zero_add, Nat.reduceAdd, hp]
    rw [if_pos]
    · simp [List.range_succ]
    · intro a ha
      have : a = 0 ∨ a = 1 ∨ a = 2 ∨ a = 3 := by omega
      rcases this with rfl | rfl | rfl | rfl <;> simp

/-- C66 for fold, for images of at most 2^24 elements with their padding: every pixel is the sum PyTorch computes, for all paddings. -/
theorem C66_fold_partial {α : Type} [AddCommMonoid α] (p : Patch) (oh ow ph pw n c : Nat) (t : Tensor α) (hp : p.Fits (oh + 2 * ph) (ow + 2 * pw))
    (ht : t.shape = p.shape n c (oh + 2 * ph) (ow + 2 * pw)) (hs : n * c * (oh + 2 * ph) * (ow + 2 * pw) ≤ 2 ^ 24) :
    Same (convertFold p oh ow ph pw t) (fold p oh ow ph pw t) := by
  have hs' : [n, c, oh + 2 * ph, ow + 2 * pw].prod ≤ 2 ^ 24 := by simpa [Nat.mul_assoc] using hs
  have hk : 0 < p.kh * p.kw := Nat.mul_pos hp.1 hp.2.1
  have h0 : t.shape.getD 0 0 = n := by simp [ht, Patch.shape]
  have h1 : t.shape.getD 1 0 / (p.kh * p.kw) = c := by simp [ht, Patch.shape, Nat.mul_div_cancel _ hk]
  unfold convertFold fold
  simp only [h0, h1]
  refine ⟨by simp [gatherNd, lookupIndices], fun o hb => ?_⟩
  simp only [gatherNd, lookupIndices, List.dropLast_concat] at hb
  obtain ⟨hl, b⟩ := (inBounds_iff _ _).1 hb
  have b0 := b 0 (by simp)
  have b1 := b 1 (by simp)
  have b2 := b 2 (by simp)
  have b3 := b 3 (by simp)
  simp only [List.getD_cons_zero, List.getD_cons_succ] at b0 b1 b2 b3
  have hin : InBounds [n, c, oh + 2 * ph, ow + 2 * pw] [o.getD 0 0, o.getD 1 0, o.getD 2 0 + ph, o.getD 3 0 + pw] := inB4 b0 b1 (by omega) (by omega)
  simp only [gatherNd]
  rw [lookupIndices_vector (out := ⟨[n, c, oh, ow], fun o => (fakeImage [n, c, oh + 2 * ph, ow + 2 * pw]).get [o.getD 0 0, o.getD 1 0, o.getD 2 0 + ph, o.getD 3 0 + pw]⟩)
    (idx := o) hin (fakeImage_get hs' hin) (by simpa using hl)]
  simp only [scatterNd, unfold_table_shape, List.dropLast_concat, ← ht]
  congr 2
  refine List.filter_congr ?_
  intro idx hidx
  have hbi : InBounds (p.shape n c (oh + 2 * ph) (ow + 2 * pw)) idx := by
    rw [← ht]; exact (allIndices_mem_iff _ _).1 hidx
  rw [unfold_table hp hs' hbi]

/-- Overlapping 2 by 2 windows on a 3 by 3 image: the middle pixel is the sum of four patch elements. -/
example : (⟨2, 2, 1, 1, 1, 1⟩ : Patch).Fits 3 3 ∧ (⟨2, 2, 1, 1, 1, 1⟩ : Patch).shape 1 1 3 3 = [1, 4, 4] ∧
    (convertFold ⟨2, 2, 1, 1, 1, 1⟩ 3 3 0 0 (⟨[1, 4, 4], fun i => 10 * i.getD 1 0 + i.getD 2 0⟩ : Tensor Nat)).get [0, 0, 1, 1] = 3 + 12 + 21 + 30 := by
  refine ⟨by simp [Patch.Fits], rfl, by decide⟩

end Verif.Props
