import Verif.Model.PixelShuffle
import Verif.Lemmas.Tensor
import Mathlib.Tactic.Ring

/-! C62: pixel shuffle and unshuffle. -/

namespace Verif.Props
open Verif.Spec Verif.Model Verif.Lemmas

private theorem inB3 {a b c i j k : Nat} (hi : i < a) (hj : j < b) (hk : k < c) : InBounds [a, b, c] [i, j, k] := by
  simp [InBounds, hi, hj, hk]

/-- Position `(i, j, q)` of a transposed, reshaped `npArange`. -/
theorem flatten_getD {α : Type} (t : Tensor α) (d : α) (idx : List Nat) (h : InBounds t.shape idx) : (npFlatten t).getD (flat t.shape idx) d = t.get idx := by
  unfold npFlatten allIndices
  rw [List.map_map, getD_range_map _ _ _ _ (flat_lt h)]
  simp [unflat_flat h]

theorem arange_reshape (s : List Nat) (n : Nat) (idx : List Nat) : (reshape s (npArange n)).get idx = flat s idx := by
  simp [reshape, npArange, unflat]

theorem shufflePerm_getD (o r i j q : Nat) (hr : 0 < r) (hi : i < r) (hj : j < r) (hq : q < o) :
    (shufflePerm (o * (r * r)) r).getD ((i * r + j) * o + q) 0 = q * (r * r) + i * r + j := by
  unfold shufflePerm
  rw [Nat.mul_div_cancel _ (Nat.mul_pos hr hr)]
  have h := flatten_getD (transpose [1, 2, 0] (reshape [o, r, r] (npArange (o * (r * r))))) 0 [i, j, q] (by
    simp only [transpose, reshape]; exact inB3 hi hj hq)
  have hf : flat (transpose [1, 2, 0] (reshape [o, r, r] (npArange (o * (r * r))))).shape [i, j, q] = (i * r + j) * o + q := by
    simp [transpose, reshape, flat]; ring
  rw [hf] at h
  rw [h]
  have : (transpose [1, 2, 0] (reshape [o, r, r] (npArange (o * (r * r))))).get [i, j, q] = (reshape [o, r, r] (npArange (o * (r * r)))).get [q, i, j] := by
    simp only [transpose]
    congr 1
  rw [this, arange_reshape]
  simp [flat]; ring

theorem unshufflePerm_getD (c r i j q : Nat) (hi : i < r) (hj : j < r) (hq : q < c) :
    (unshufflePerm c r).getD (q * (r * r) + i * r + j) 0 = (i * r + j) * c + q := by
  unfold unshufflePerm
  have h := flatten_getD (transpose [2, 0, 1] (reshape [r, r, c] (npArange (c * (r * r))))) 0 [q, i, j] (by
    simp only [transpose, reshape]; exact inB3 hq hi hj)
  have hf : flat (transpose [2, 0, 1] (reshape [r, r, c] (npArange (c * (r * r))))).shape [q, i, j] = q * (r * r) + i * r + j := by
    simp [transpose, reshape, flat]; ring
  rw [hf] at h
  rw [h]
  have : (transpose [2, 0, 1] (reshape [r, r, c] (npArange (c * (r * r))))).get [q, i, j] = (reshape [r, r, c] (npArange (c * (r * r)))).get [i, j, q] := by
    simp only [transpose]
    congr 1
  rw [this, arange_reshape]
  simp [flat]; ring

theorem flatten_length {α : Type} (t : Tensor α) : (npFlatten t).length = t.shape.prod := by simp [npFlatten, allIndices]

theorem shufflePerm_length (o r : Nat) (hr : 0 < r) : (shufflePerm (o * (r * r)) r).length = o * (r * r) := by
  unfold shufflePerm
  rw [flatten_length, Nat.mul_div_cancel _ (Nat.mul_pos hr hr)]
  simp [transpose, reshape]; ring

theorem unshufflePerm_length (c r : Nat) : (unshufflePerm c r).length = c * (r * r) := by
  unfold unshufflePerm
  rw [flatten_length]
  simp [transpose, reshape]

private theorem sorted_le {l : List Nat} (h : l.insertionSort (· ≤ ·) = l) {a b : Nat} (hab : a < b) (hb : b < l.length) : l.getD a 0 ≤ l.getD b 0 := by
  have hp : l.Pairwise (· ≤ ·) := by rw [← h]; exact List.pairwise_insertionSort _ _
  rw [getD_eq_getElem _ _ _ (by omega), getD_eq_getElem _ _ _ hb]
  exact List.pairwise_iff_getElem.1 hp a b (by omega) hb hab

/-- If the channels are not reordered there is nothing to reorder: one channel group or blocks of one pixel. -/
theorem shuffle_sorted (o r : Nat) (hr : 0 < r) (h : (shufflePerm (o * (r * r)) r).insertionSort (· ≤ ·) = shufflePerm (o * (r * r)) r) : o ≤ 1 ∨ r = 1 := by
  by_contra hc
  have ho : 1 < o := by omega
  have hr2 : 1 < r := by omega
  have h1 := shufflePerm_getD o r 0 0 1 hr (by omega) (by omega) ho
  have h2 := shufflePerm_getD o r 0 1 0 hr (by omega) hr2 (by omega)
  have hlen := shufflePerm_length o r hr
  have hrr : 1 < r * r := by nlinarith
  have hlt : o < (shufflePerm (o * (r * r)) r).length := by rw [hlen]; nlinarith
  have := sorted_le h ho hlt
  simp at h1 h2
  simp only [List.getD_eq_getElem?_getD] at this
  rw [h1, h2] at this
  omega

theorem unshuffle_sorted (c r : Nat) (h : (unshufflePerm c r).insertionSort (· ≤ ·) = unshufflePerm c r) : c ≤ 1 ∨ r ≤ 1 := by
  by_contra hc
  have ho : 1 < c := by omega
  have hr2 : 1 < r := by omega
  have h1 := unshufflePerm_getD c r 0 1 0 (by omega) hr2 (by omega)
  have h2 := unshufflePerm_getD c r 0 0 1 (by omega) (by omega) ho
  have hlen := unshufflePerm_length c r
  have hrr : 1 < r * r := by nlinarith
  have hlt : r * r < (unshufflePerm c r).length := by rw [hlen]; nlinarith
  have := sorted_le h hrr hlt
  simp at h1 h2
  simp only [List.getD_eq_getElem?_getD] at this
  rw [h1, h2] at this
  omega

private theorem list4 {l : List Nat} (h : l.length = 4) : ∃ a b c d, l = [a, b, c, d] := by
  match l, h with
  | [a, b, c, d], _ => exact ⟨a, b, c, d, rfl⟩

/-- C62: the converted pixel shuffle moves every element where PyTorch moves it. -/
theorem C62_pixel_shuffle {α : Type} (r : Nat) (t : Tensor α) (hr : 0 < r) (hlen : t.shape.length = 4) (hc : r * r ∣ t.shape.getD 1 0) :
    Same (convertPixelShuffle r t) (pixelShuffle r t) := by
  obtain ⟨n, c, h, w, hs⟩ := list4 hlen
  obtain ⟨o, rfl⟩ : ∃ o, c = o * (r * r) := by
    obtain ⟨o, ho⟩ := hc
    rw [hs] at ho
    exact ⟨o, by simpa [Nat.mul_comm] using ho⟩
  have hrr : 0 < r * r := Nat.mul_pos hr hr
  have hnhwc : (transpose [0, 2, 3, 1] t).shape = [n, h, w, o * (r * r)] := by simp [transpose, hs]
  have hrs : ∀ u : Tensor α, u.shape = [n, h, w, o * (r * r)] → (reorder (shufflePerm (o * (r * r)) r) u).shape = [n, h, w, o * (r * r)] := by
    intro u hu
    unfold reorder
    split
    · simp [gather, hu, shufflePerm_length o r hr]
    · exact hu
  unfold convertPixelShuffle
  have h1 : t.shape.getD 1 0 = o * (r * r) := by simp [hs]
  rw [h1]
  have hshape : (transpose [0, 3, 1, 2] (depthToSpace r (reorder (shufflePerm (o * (r * r)) r) (transpose [0, 2, 3, 1] t)))).shape = [n, o, h * r, w * r] := by
    simp only [transpose, depthToSpace, List.map_cons, List.map_nil]
    have := hrs _ hnhwc
    simp only [transpose, List.map_cons, List.map_nil] at this
    rw [this]
    simp [Nat.mul_div_cancel _ hrr]
  refine ⟨by rw [hshape]; simp [pixelShuffle, hs, Nat.mul_div_cancel _ hrr], fun idx hb => ?_⟩
  rw [hshape] at hb
  obtain ⟨b, q, y, x, rfl⟩ := list4 (inBounds_length hb)
  have hb' := (inBounds_iff _ _).1 hb
  have hq : q < o := by simpa using hb'.2 1 (by simp)
  have step1 : ∀ u : Tensor α, u.shape.length = 4 → (transpose [0, 3, 1, 2] u).get [b, q, y, x] = u.get [b, y, x, q] := by
    intro u hu
    simp only [transpose, hu]; congr 1
  have step2 : ∀ u : Tensor α, u.shape = [n, h, w, o * (r * r)] →
      (depthToSpace r (reorder (shufflePerm (o * (r * r)) r) u)).get [b, y, x, q] = u.get [b, y / r, x / r, q * (r * r) + y % r * r + x % r] := by
    intro u hu
    have hsh := hrs u hu
    simp only [depthToSpace, hsh]
    simp only [List.getD_cons_zero, List.getD_cons_succ, Nat.mul_div_cancel _ hrr]
    have hy := Nat.mod_lt y hr
    have hx := Nat.mod_lt x hr
    have hp := shufflePerm_getD o r (y % r) (x % r) q hr hy hx hq
    unfold reorder
    split
    · simp only [gather, List.getD_cons_zero, List.getD_cons_succ, List.set_cons_succ, List.set_cons_zero]
      rw [hp]
    · next hnot =>
      congr 4
      rcases shuffle_sorted o r hr (by simpa using hnot) with ho | ho
      · have ho1 : o = 1 := by omega
        subst ho1
        have : q = 0 := by omega
        subst this; ring
      · subst ho
        simp [Nat.mod_one]
  have step3 : ∀ (a b c d : Nat), (transpose [0, 2, 3, 1] t).get [a, b, c, d] = t.get [a, d, b, c] := by
    intro a b c d
    simp only [transpose, hlen]; congr 1
  rw [step1 _ (by simp [depthToSpace]), step2 _ hnhwc, step3]
  simp [pixelShuffle]

/-- 8 channels, blocks of 2 by 2: the channels are really reordered. -/
example : shufflePerm 8 2 = [0, 4, 1, 5, 2, 6, 3, 7] := by decide

/-- C62: the converted pixel unshuffle moves every element where PyTorch moves it. -/
theorem C62_pixel_unshuffle {α : Type} (r : Nat) (t : Tensor α) (hr : 0 < r) (hlen : t.shape.length = 4) :
    Same (convertPixelUnshuffle r t) (pixelUnshuffle r t) := by
  obtain ⟨n, c, h, w, hs⟩ := list4 hlen
  have hrr : 0 < r * r := Nat.mul_pos hr hr
  have hstd : (spaceToDepth r (transpose [0, 2, 3, 1] t)).shape = [n, h / r, w / r, c * (r * r)] := by simp [spaceToDepth, transpose, hs]
  have hrs : ∀ u : Tensor α, u.shape = [n, h / r, w / r, c * (r * r)] → (reorder (unshufflePerm c r) u).shape = [n, h / r, w / r, c * (r * r)] := by
    intro u hu
    unfold reorder
    split
    · simp [gather, hu, unshufflePerm_length c r]
    · exact hu
  unfold convertPixelUnshuffle
  have h1 : t.shape.getD 1 0 = c := by simp [hs]
  rw [h1]
  have hshape : (transpose [0, 3, 1, 2] (reorder (unshufflePerm c r) (spaceToDepth r (transpose [0, 2, 3, 1] t)))).shape = [n, c * (r * r), h / r, w / r] := by
    have := hrs _ hstd
    generalize reorder (unshufflePerm c r) (spaceToDepth r (transpose [0, 2, 3, 1] t)) = u at *
    simp [transpose, this]
  refine ⟨by rw [hshape]; simp [pixelUnshuffle, hs], fun idx hb => ?_⟩
  rw [hshape] at hb
  obtain ⟨b, m, y, x, rfl⟩ := list4 (inBounds_length hb)
  have hb' := (inBounds_iff _ _).1 hb
  have hm : m < c * (r * r) := by simpa using hb'.2 1 (by simp)
  have step1 : ∀ u : Tensor α, u.shape.length = 4 → (transpose [0, 3, 1, 2] u).get [b, m, y, x] = u.get [b, y, x, m] := by
    intro u hu
    simp only [transpose, hu]; congr 1
  obtain ⟨q, hq⟩ : ∃ q, q = m / (r * r) := ⟨_, rfl⟩
  obtain ⟨i, hi⟩ : ∃ i, i = m % (r * r) / r := ⟨_, rfl⟩
  obtain ⟨j, hj⟩ : ∃ j, j = m % r := ⟨_, rfl⟩
  have hjm : m % (r * r) % r = j := by rw [hj]; exact Nat.mod_mul_right_mod m r r
  have hmeq : m = q * (r * r) + i * r + j := by
    have e1 := Nat.div_add_mod m (r * r)
    have e2 := Nat.div_add_mod (m % (r * r)) r
    rw [hjm] at e2
    rw [← hq] at e1
    rw [← hi] at e2
    nlinarith
  have hqc : q < c := hq ▸ Nat.div_lt_of_lt_mul (by rw [Nat.mul_comm]; exact hm)
  have hir : i < r := hi ▸ Nat.div_lt_of_lt_mul (Nat.mod_lt _ hrr)
  have hjr : j < r := hj ▸ Nat.mod_lt _ hr
  have step2 : ∀ u : Tensor α, (reorder (unshufflePerm c r) u).get [b, y, x, m] = u.get [b, y, x, (i * r + j) * c + q] := by
    intro u
    have hp := unshufflePerm_getD c r i j q hir hjr hqc
    rw [← hmeq] at hp
    unfold reorder
    split
    · simp only [gather, List.getD_cons_zero, List.getD_cons_succ, List.set_cons_succ, List.set_cons_zero]
      rw [hp]
    · next hnot =>
      congr 4
      rw [hmeq]
      rcases unshuffle_sorted c r (by simpa using hnot) with ho | ho
      · have ho1 : c = 1 := by omega
        have : q = 0 := by omega
        rw [this, ho1]; ring
      · have h1 : r = 1 := by omega
        have hi0 : i = 0 := by omega
        have hj0 : j = 0 := by omega
        rw [hi0, hj0, h1]; ring
  have step3 : ∀ (a b c d : Nat), (transpose [0, 2, 3, 1] t).get [a, b, c, d] = t.get [a, d, b, c] := by
    intro a b c d
    simp only [transpose, hlen]; congr 1
  rw [step1 _ (by rw [hrs _ hstd]; rfl), step2]
  have hc3 : (transpose [0, 2, 3, 1] t).shape.getD 3 0 = c := by simp [transpose, hs]
  simp only [spaceToDepth, List.getD_cons_zero, List.getD_cons_succ, hc3]
  have hc0 : 0 < c := by omega
  have e1 : ((i * r + j) * c + q) / c = i * r + j := by
    rw [Nat.add_comm, Nat.add_mul_div_right _ _ hc0, Nat.div_eq_of_lt hqc, Nat.zero_add]
  have e2 : ((i * r + j) * c + q) % c = q := by rw [Nat.add_comm, Nat.add_mul_mod_self_right, Nat.mod_eq_of_lt hqc]
  have e3 : (i * r + j) / r = i := by rw [Nat.add_comm, Nat.add_mul_div_right _ _ hr, Nat.div_eq_of_lt hjr, Nat.zero_add]
  have e4 : (i * r + j) % r = j := by rw [Nat.add_comm, Nat.add_mul_mod_self_right, Nat.mod_eq_of_lt hjr]
  rw [e1, e2, e3, e4, step3]
  simp [pixelUnshuffle, hq, hi, hj]

example : unshufflePerm 2 2 = [0, 2, 4, 6, 1, 3, 5, 7] := by decide

end Verif.Props
