import Verif.Model.AtenIndex
import Verif.Lemmas.Regroup
import Verif.Lemmas.Squeeze
import Verif.Props.GatherNd

/-! C64: indexing with tensors. -/

namespace Verif.Props
open Verif.Spec Verif.Model Verif.Lemmas

/-- A shape that broadcasts to `B` by repetition in row-major order: axes of size 1 followed by a suffix of `B`. -/
def FlatBroadcast (s B : List Nat) : Prop := ∃ k P tail, s = List.replicate k 1 ++ tail ∧ B = P ++ tail ∧ k ≤ P.length

theorem inBounds_split {P S idx : List Nat} (h : InBounds (P ++ S) idx) : InBounds P (idx.take P.length) ∧ InBounds S (idx.drop P.length) := by
  have hl := inBounds_length h
  rw [List.length_append] at hl
  rw [inBounds_iff] at h
  constructor
  · rw [inBounds_iff]
    refine ⟨by rw [List.length_take]; omega, fun a ha => ?_⟩
    have := h.2 a (by simp; omega)
    simp only [List.getD_eq_getElem?_getD] at *
    rw [List.getElem?_take_of_lt ha]
    rw [List.getElem?_append_left ha] at this
    exact this
  · rw [inBounds_iff]
    refine ⟨by rw [List.length_drop]; omega, fun a ha => ?_⟩
    have := h.2 (P.length + a) (by simp; omega)
    simp only [List.getD_eq_getElem?_getD] at *
    rw [List.getElem?_drop]
    rw [List.getElem?_append_right (by omega)] at this
    simpa using this

private theorem flat_ones (k : Nat) : flat (List.replicate k 1) (List.replicate k 0) = 0 := by
  induction k with
  | zero => rfl
  | succ k ih => simp [List.replicate_succ, flat, ih]

private theorem zip_rev (tail bs : List Nat) (k m : Nat) (bp : List Nat) (hb : InBounds tail bs) (hk : k ≤ bp.length) :
    (List.zipWith (fun d i => if d = 1 then 0 else i) (List.replicate k 1 ++ tail).reverse (bp ++ bs).reverse).reverse = List.replicate k 0 ++ bs := by
  have hl := inBounds_length hb
  rw [List.reverse_append, List.reverse_append, List.zipWith_append (by simp [hl]), List.reverse_append]
  congr 1
  · apply List.ext_getElem
    · simp; omega
    · intro i h1 h2
      simp
  · rw [List.zipWith_comm]
    apply List.ext_getElem
    · simp [hl]
    · intro i h1 h2
      have hi : i < tail.length := by simp [hl] at h1; omega
      have := ((inBounds_iff _ _).1 hb).2 i hi
      rw [getD_eq_getElem _ _ _ (by omega), getD_eq_getElem _ _ _ hi] at this
      simp only [List.getElem_reverse, List.getElem_zipWith, List.length_zipWith, List.length_reverse]
      have e1 : bs.length - 1 - (min bs.length tail.length - 1 - i) = i := by omega
      have e2 : tail.length - 1 - (min bs.length tail.length - 1 - i) = i := by omega
      simp only [e1, e2]
      split
      · omega
      · rfl

/-- The modulo rule reads the broadcast element. -/
theorem flatBroadcast_get {α : Type} (x : Tensor α) (B b : List Nat) (h : FlatBroadcast x.shape B) (hb : InBounds B b) :
    bcGet x b = x.get (unflat x.shape (flat B b % x.shape.prod)) := by
  obtain ⟨k, P, tail, hs, hB, hk⟩ := h
  subst hB
  obtain ⟨hP, hT⟩ := inBounds_split hb
  have hPl := inBounds_length hP
  have hbe : b = b.take P.length ++ b.drop P.length := (List.take_append_drop _ _).symm
  have hprod : x.shape.prod = tail.prod := by rw [hs]; simp
  have hlt := flat_lt hT
  unfold bcGet
  rw [hprod]
  have e1 : flat (P ++ tail) b % tail.prod = flat tail (b.drop P.length) := by
    rw [hbe, flat_append hPl, Nat.mul_comm, Nat.mul_add_mod]
    rw [← hbe, Nat.mod_eq_of_lt hlt]
  rw [e1, hs]
  have e2 := zip_rev tail (b.drop P.length) k 0 (b.take P.length) hT (by omega)
  rw [← hbe] at e2
  rw [e2]
  have hin : InBounds (List.replicate k 1 ++ tail) (List.replicate k 0 ++ b.drop P.length) := by
    unfold InBounds
    exact List.rel_append (by rw [List.forall₂_iff_get]; simp) hT
  rw [← unflat_flat hin, flat_append (by simp), flat_ones]
  simp

private theorem foldr_max_le (l : List Nat) (m : Nat) (h : ∀ x ∈ l, x ≤ m) : l.foldr max 0 ≤ m := by
  induction l with
  | nil => simp
  | cons a l ih => simp only [List.foldr_cons]; exact Nat.max_le.2 ⟨h a (by simp), ih (fun x hx => h x (by simp [hx]))⟩

private theorem le_foldr_max (l : List Nat) (x : Nat) (h : x ∈ l) : x ≤ l.foldr max 0 := by
  induction l with
  | nil => simp at h
  | cons a l ih =>
    simp only [List.foldr_cons]
    rcases List.mem_cons.1 h with rfl | h
    · exact Nat.le_max_left _ _
    · exact Nat.le_trans (ih h) (Nat.le_max_right _ _)

/-- The row of index vectors of an output element: the broadcast indices, then the coordinates of the other axes. -/
theorem indexVectors_row {α : Type} (B : List Nat) (xs : List (Tensor Int)) (t : Tensor α) (hm : xs.length ≤ t.shape.length) (hfb : ∀ x ∈ xs, FlatBroadcast x.shape B)
    (idx : List Nat) (hb : InBounds (B ++ t.shape.drop xs.length) idx) :
    rowVector t.shape.length (indexVectors t.shape xs (B ++ t.shape.drop xs.length)) idx =
      (List.range xs.length).map (fun i => bcGet (xs.getD i ⟨[], fun _ => 0⟩) (idx.take B.length)) ++ (idx.drop B.length).map (fun (v : Nat) => (v : Int)) := by
  obtain ⟨hbB, hbR⟩ := inBounds_split hb
  have hl := inBounds_length hb
  have hlR := inBounds_length hbR
  have hlB := inBounds_length hbB
  have hRlt := flat_lt hbR
  have hrow : flat (B ++ t.shape.drop xs.length) idx = flat B (idx.take B.length) * (t.shape.drop xs.length).prod + flat (t.shape.drop xs.length) (idx.drop B.length) := by
    conv_lhs => rw [← List.take_append_drop B.length idx]
    exact flat_append hlB
  set R := t.shape.drop xs.length with hR
  have hRlen : R.length = t.shape.length - xs.length := by simp [hR]
  have hdiv : flat (B ++ R) idx / R.prod = flat B (idx.take B.length) := by
    rw [hrow, Nat.mul_comm, Nat.mul_add_div (by omega), Nat.div_eq_of_lt hRlt, Nat.add_zero]
  have hmod : flat (B ++ R) idx % R.prod = flat R (idx.drop B.length) := by
    rw [hrow, Nat.mul_comm, Nat.mul_add_mod, Nat.mod_eq_of_lt hRlt]
  unfold rowVector
  apply List.ext_getElem
  · simp only [List.length_map, List.length_range, List.length_append]
    omega
  · intro k h1 h2
    have hk : k < t.shape.length := by simpa using h1
    simp only [List.getElem_map, List.getElem_range, indexVectors, List.dropLast_concat]
    have hlast : (idx ++ [k]).getD (B ++ R).length 0 = k := by rw [← hl]; simp
    rw [hlast, hdiv, hmod, unflat_flat hbR]
    by_cases hkx : k < xs.length
    · rw [if_pos hkx, List.getElem_append_left (by simpa using hkx)]
      simp only [List.getElem_map, List.getElem_range]
      rw [flatBroadcast_get _ _ _ (hfb _ _) hbB]
      rw [getD_eq_getElem _ _ _ hkx]; exact List.getElem_mem _
    · rw [if_neg hkx, List.getElem_append_right (by simpa using hkx)]
      simp only [List.getElem_map, List.length_map, List.length_range]
      rw [getD_eq_getElem _ _ _ (by omega)]

/-- C64, several index tensors, except for negative indices and for index shapes that are not repeated in row-major order: the converted indexing is accepted and reads
the elements PyTorch reads. -/
theorem C64_index_partial {α : Type} (B : List Nat) (xs : List (Tensor Int)) (t : Tensor α) (hm : xs.length ≤ t.shape.length) (hB : 0 < B.prod)
    (hfb : ∀ x ∈ xs, FlatBroadcast x.shape B) (hfull : ∃ x ∈ xs, x.shape.prod = B.prod)
    (hin : ∀ i < xs.length, ∀ b, InBounds B b → 0 ≤ bcGet (xs.getD i ⟨[], fun _ => 0⟩) b ∧ bcGet (xs.getD i ⟨[], fun _ => 0⟩) b < (t.shape.getD i 0 : Int)) :
    ∃ r, convertIndex xs (torchIndex B xs t).shape t = some r ∧ Same r (torchIndex B xs t) := by
  have hmax : (xs.map (fun x => x.shape.prod)).foldr max 0 = B.prod := by
    apply Nat.le_antisymm
    · apply foldr_max_le
      intro n hn
      obtain ⟨x, hx, rfl⟩ := List.mem_map.1 hn
      obtain ⟨k, P, tail, hs, hB', _⟩ := hfb x hx
      rw [hs, hB']
      simp only [List.prod_append, List.prod_replicate, one_pow, one_mul]
      rw [hB', List.prod_append] at hB
      exact Nat.le_mul_of_pos_left _ (Nat.pos_of_mul_pos_right hB)
    · obtain ⟨x, hx, hxe⟩ := hfull
      rw [← hxe]
      exact le_foldr_max _ _ (List.mem_map.2 ⟨x, hx, rfl⟩)
  unfold convertIndex
  have hshape : (torchIndex B xs t).shape = B ++ t.shape.drop xs.length := rfl
  simp only [hmax, hshape]
  rw [if_neg (by simp)]
  unfold tflGatherNd
  have hsh2 : (indexVectors t.shape xs (B ++ t.shape.drop xs.length)).shape.dropLast = B ++ t.shape.drop xs.length := by
    simp only [indexVectors]; exact List.dropLast_concat
  rw [hsh2, if_pos]
  · refine ⟨_, rfl, rfl, fun idx hb => ?_⟩
    change InBounds (B ++ t.shape.drop xs.length) idx at hb
    change t.get _ = _
    rw [indexVectors_row B xs t hm hfb idx hb]
    simp only [torchIndex]
    obtain ⟨hbB, _⟩ := inBounds_split hb
    congr 1
    rw [List.map_append, List.map_map, List.map_map]
    congr 1
    · apply List.map_congr_left
      intro i hi
      have hi : i < xs.length := by simpa using hi
      have := hin i hi _ hbB
      simp only [Function.comp_def, normDim]
      rw [if_neg (by omega)]
    · simp [Function.comp_def]
  · rw [List.all_eq_true]
    intro idx hmem
    have hb : InBounds (B ++ t.shape.drop xs.length) idx := by
      unfold allIndices at hmem
      obtain ⟨k, hk, rfl⟩ := List.mem_map.1 hmem
      exact unflat_inBounds (by simpa using hk)
    obtain ⟨hbB, hbR⟩ := inBounds_split hb
    have hlR := inBounds_length hbR
    rw [indexVectors_row B xs t hm hfb idx hb]
    unfold vectorOk
    rw [List.all_eq_true]
    intro a ha
    have ha : a < t.shape.length := by simpa using ha
    rw [decide_eq_true_eq]
    by_cases hax : a < xs.length
    · have : ((List.range xs.length).map (fun i => bcGet (xs.getD i ⟨[], fun _ => 0⟩) (idx.take B.length)) ++ (idx.drop B.length).map (fun (v : Nat) => (v : Int))).getD a 0 =
          bcGet (xs.getD a ⟨[], fun _ => 0⟩) (idx.take B.length) := by
        rw [getD_eq_getElem _ _ _ (by simp; omega), List.getElem_append_left (by simpa using hax)]
        simp
      rw [this]
      exact hin a hax _ hbB
    · have hR := ((inBounds_iff _ _).1 hbR).2 (a - xs.length) (by simp; omega)
      have hl2 : (idx.drop B.length).length = t.shape.length - xs.length := by rw [hlR]; simp
      have : ((List.range xs.length).map (fun i => bcGet (xs.getD i ⟨[], fun _ => 0⟩) (idx.take B.length)) ++ (idx.drop B.length).map (fun (v : Nat) => (v : Int))).getD a 0 =
          (((idx.drop B.length).getD (a - xs.length) 0 : Nat) : Int) := by
        rw [getD_eq_getElem _ _ _ (by simp at hl2 ⊢; omega), List.getElem_append_right (by simpa using hax)]
        simp only [List.getElem_map, List.length_map, List.length_range]
        rw [getD_eq_getElem _ _ _ (by omega)]
      rw [this]
      have e : (t.shape.drop xs.length).getD (a - xs.length) 0 = t.shape.getD a 0 := by
        rw [List.getD_eq_getElem?_getD, List.getElem?_drop, List.getD_eq_getElem?_getD, show xs.length + (a - xs.length) = a by omega]
      rw [e] at hR
      omega

/-- `t[i, j]` of a 3 by 4 tensor with a 2 by 2 tensor `i` and a vector `j` of 2 entries. -/
example : FlatBroadcast [2, 2] [2, 2] ∧ FlatBroadcast [2] [2, 2] ∧
    ((convertIndex [⟨[2, 2], fun i => (i.getD 0 0 + i.getD 1 0 : Int)⟩, ⟨[2], fun i => (3 - i.getD 0 0 : Int)⟩] [2, 2]
      (⟨[3, 4], fun i => i.getD 0 0 * 4 + i.getD 1 0⟩ : Tensor Nat)).map (fun r => r.get [1, 1])) = some 10 := by
  refine ⟨⟨0, [], [2, 2], rfl, rfl, by simp⟩, ⟨0, [2], [2], rfl, rfl, by simp⟩, by decide⟩

/-- C64 fails when an index is repeated along an inner axis: with `i` of shape 2 by 3 and `j` of shape 2 by 1, element `[0, 1]` of the result is read at
`t[i[0, 1], j[1, 0]]` instead of `t[i[0, 1], j[0, 0]]`. -/
theorem C64_broadcast_false :
    ∃ (i j : Tensor Int) (t : Tensor Nat), i.shape = [2, 3] ∧ j.shape = [2, 1] ∧ t.shape = [3, 4] ∧
      ∃ r, convertIndex [i, j] [2, 3] t = some r ∧ ¬ Same r (torchIndex [2, 3] [i, j] t) := by
  refine ⟨⟨[2, 3], fun i => (i.getD 1 0 : Int)⟩, ⟨[2, 1], fun i => (i.getD 0 0 : Int)⟩, ⟨[3, 4], fun i => i.getD 0 0 * 4 + i.getD 1 0⟩, rfl, rfl, rfl, _, rfl, ?_⟩
  intro h
  have := h.2 [0, 1] (by simp [InBounds, indexVectors])
  revert this
  decide

/-- C64 fails when no index has the broadcast shape: indices of shapes 2 by 1 and 1 by 3 cannot be converted. -/
theorem C64_outer_false (i j : Tensor Int) (t : Tensor Nat) (hi : i.shape = [2, 1]) (hj : j.shape = [1, 3]) (ht : t.shape = [3, 4]) : convertIndex [i, j] [2, 3] t = none := by
  simp [convertIndex, hi, hj, ht]

/-- C64 fails for negative indices when there is more than one index tensor: the interpreter rejects the converted model. -/
theorem C64_negative_false :
    ∃ (i j : Tensor Int) (t : Tensor Nat), (∀ b, InBounds [1] b → IndexIn 3 (i.get b) ∧ IndexIn 4 (j.get b)) ∧ t.shape = [3, 4] ∧ convertIndex [i, j] [1] t = none := by
  refine ⟨⟨[1], fun _ => -1⟩, ⟨[1], fun _ => 0⟩, ⟨[3, 4], fun _ => 0⟩, ?_, rfl, by decide⟩
  intro b _
  constructor <;> constructor <;> simp

/-- C64, one index tensor: a constant index may be negative, an index computed by the model must not be. -/
theorem C64_single_partial {α : Type} (dynamic : Bool) (d : Nat) (x : Tensor Int) (t : Tensor α)
    (hin : ∀ j, InBounds x.shape j → IndexIn (t.shape.getD d 0) (x.get j) ∧ (dynamic = true → 0 ≤ x.get j)) :
    ∃ r, convertIndexAt dynamic d x t = some r ∧ (d < t.shape.length → Same r (torchIndexAt d x t)) := by
  set n := t.shape.getD d 0 with hn
  set y : Tensor Int := (if dynamic then x else ⟨x.shape, fun j => x.get j + (if x.get j < 0 then 1 else 0) * (n : Int)⟩) with hy
  have hys : y.shape = x.shape := by rw [hy]; split <;> rfl
  have hyv : ∀ j, InBounds x.shape j → y.get j = (normDim n (x.get j) : Nat) ∧ 0 ≤ y.get j ∧ y.get j < n := by
    intro j hj
    obtain ⟨⟨h1, h2⟩, h3⟩ := hin j hj
    have : y.get j = if x.get j < 0 then x.get j + n else x.get j := by
      rw [hy]
      cases dynamic with
      | true =>
        simp only [if_true]
        have := h3 rfl
        rw [if_neg (by omega)]
      | false =>
        simp only [Bool.false_eq_true, if_false]
        split <;> simp
    rw [this]
    unfold normDim
    refine ⟨?_, ?_, ?_⟩ <;> split <;> omega
  unfold convertIndexAt tflGather
  rw [← hn, ← hy, if_pos]
  · refine ⟨_, rfl, fun hd => ⟨by simp [torchIndexAt, hys], fun idx hb => ?_⟩⟩
    simp only [hys] at hb ⊢
    simp only [torchIndexAt]
    obtain ⟨h1, _⟩ := inBounds_split hb
    obtain ⟨_, h2⟩ := inBounds_split h1
    rw [List.length_take, Nat.min_eq_left (by omega)] at h2
    rw [List.length_append, List.length_take, Nat.min_eq_left (by omega), ← List.take_drop] at h2
    rw [(hyv _ h2).1, ← hn]
    simp
  · rw [List.all_eq_true]
    intro j hj
    rw [hys] at hj
    have hb : InBounds x.shape j := by
      unfold allIndices at hj
      obtain ⟨k, hk, rfl⟩ := List.mem_map.1 hj
      exact unflat_inBounds (by simpa using hk)
    simpa using (hyv j hb).2

/-- `t[:, x]` with the constant index `[-1, 0]`. -/
example : ((convertIndexAt false 1 ⟨[2], fun i => (i.getD 0 0 : Int) - 1⟩ (⟨[2, 3], fun i => i.getD 0 0 * 3 + i.getD 1 0⟩ : Tensor Nat)).map (fun r => r.get [1, 0])) = some 5 := by decide

/-- C64 fails for a negative index computed by the model. -/
theorem C64_single_negative_false : convertIndexAt true 0 ⟨[1], fun _ => -1⟩ (⟨[3], fun i => i.getD 0 0⟩ : Tensor Nat) = none := by decide

end Verif.Props
