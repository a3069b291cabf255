import Verif.Model.AtenExpand
import Verif.Props.AtenMove

/-! C71: expanding and repeating. -/

namespace Verif.Props
open Verif.Spec Verif.Model Verif.Lemmas

private theorem flat_ones (k : Nat) (s r : List Nat) : flat (List.replicate k 1 ++ s) (List.replicate k 0 ++ r) = flat s r := by
  induction k with
  | zero => simp
  | succ k ih => simp [List.replicate_succ, flat, ih]

private theorem leadingOnes_shape {α : Type} (n : Nat) (t : Tensor α) : (leadingOnes n t).shape = List.replicate (n - t.shape.length) 1 ++ t.shape := by
  unfold leadingOnes
  split
  · rfl
  · next h => rw [show n - t.shape.length = 0 by omega]; rfl

private theorem leadingOnes_get {α : Type} (n : Nat) (t : Tensor α) (r : List Nat) (hr : InBounds t.shape r) :
    (leadingOnes n t).get (List.replicate (n - t.shape.length) 0 ++ r) = t.get r := by
  unfold leadingOnes
  split
  · simp only [reshape]
    rw [flat_ones, unflat_flat hr]
  · next h => rw [show n - t.shape.length = 0 by omega]; rfl

private theorem zip_mod (k : Nat) (a b s : List Nat) (ha : a.length = k) :
    List.zipWith (fun i d => i % d) (a ++ b) (List.replicate k 1 ++ s) = List.replicate k 0 ++ List.zipWith (· % ·) b s := by
  induction k generalizing a with
  | zero => cases a with
    | nil => rfl
    | cons _ _ => simp at ha
  | succ k ih => cases a with
    | nil => simp at ha
    | cons x a => simp [List.replicate_succ, ih a (by simpa using ha), Nat.mod_one]

private theorem mod_inBounds {b s : List Nat} (h : List.Forall₂ (fun _ d => 0 < d) b s) : InBounds s (List.zipWith (· % ·) b s) := by
  induction h with
  | nil => exact .nil
  | cons hd _ ih => exact .cons (Nat.mod_lt _ hd) ih

/-- C71 for repeat: the converted operators give the shape and the elements of `t.repeat(m)`. -/
theorem C71_repeat {α : Type} (m : List Nat) (t : Tensor α) (hm : t.shape.length ≤ m.length) : Same (convertRepeat m t) (torchRepeat m t) := by
  have hsh : (convertRepeat m t).shape = (torchRepeat m t).shape := by simp [convertRepeat, tile, torchRepeat, leadingOnes_shape]
  refine ⟨hsh, fun idx hb => ?_⟩
  rw [hsh] at hb
  simp only [torchRepeat] at hb
  have hlen := inBounds_length hb
  simp only [List.length_zipWith, List.length_append, List.length_replicate] at hlen
  have hlen' : idx.length = m.length := by omega
  obtain ⟨k, hk⟩ : ∃ k, k = m.length - t.shape.length := ⟨_, rfl⟩
  have hpos : List.Forall₂ (fun _ d => 0 < d) (idx.drop k) t.shape := by
    refine List.forall₂_iff_get.2 ⟨by simp; omega, ?_⟩
    intro i h1 h2
    have hi := ((inBounds_iff _ _).1 hb).2 (k + i) (by simp; omega)
    by_contra h0
    have hz : t.shape.getD i 0 = 0 := by
      rw [getD_eq_getElem _ _ _ h2]
      simp only [List.get_eq_getElem] at h0
      omega
    rw [getD_eq_getElem _ _ _ h2] at hz
    have hm : k + i < (List.zipWith (· * ·) (List.replicate k 1 ++ t.shape) m).length := by
      simp only [List.length_zipWith, List.length_append, List.length_replicate]; omega
    rw [← hk, getD_eq_getElem (List.zipWith (· * ·) (List.replicate k 1 ++ t.shape) m) _ _ hm, List.getElem_zipWith, List.getElem_append_right (by simp)] at hi
    simp only [List.length_replicate, Nat.add_sub_cancel_left, hz, Nat.zero_mul] at hi
    omega
  simp only [convertRepeat, tile, torchRepeat, leadingOnes_shape, ← hk]
  have hsplit : idx = idx.take k ++ idx.drop k := (List.take_append_drop k idx).symm
  conv => lhs; rw [hsplit]
  rw [zip_mod k _ _ _ (by simp; omega), hk]
  rw [leadingOnes_get _ _ _ (mod_inBounds (by rw [← hk]; exact hpos))]

/-- A 2 by 3 tensor repeated (2, 1, 2) times. -/
example : (convertRepeat [2, 1, 2] (⟨[2, 3], fun i => i.getD 0 0 * 10 + i.getD 1 0⟩ : Tensor Nat)).shape = [2, 2, 6] ∧
    (convertRepeat [2, 1, 2] (⟨[2, 3], fun i => i.getD 0 0 * 10 + i.getD 1 0⟩ : Tensor Nat)).get [1, 1, 4] = 11 := by decide

private theorem zip_rev (s idx : List Nat) (f : Nat → Nat → Nat) (h : s.length ≤ idx.length) :
    (List.zipWith f s.reverse idx.reverse).reverse = List.zipWith f s (idx.drop (idx.length - s.length)) := by
  obtain ⟨a, b, rfl, hb⟩ : ∃ a b, idx = a ++ b ∧ b.length = s.length := ⟨idx.take (idx.length - s.length), idx.drop (idx.length - s.length), (List.take_append_drop _ _).symm, by simp; omega⟩
  have e : (a ++ b).length - s.length = a.length := by simp; omega
  rw [e, List.drop_left, List.reverse_append]
  have : List.zipWith f s.reverse (b.reverse ++ a.reverse) = List.zipWith f s.reverse b.reverse := by
    have := List.zipWith_append (f := f) (l₁ := s.reverse) (l₁' := []) (l₂ := b.reverse) (l₂' := a.reverse) (by simp [hb])
    simpa using this
  rw [this, ← List.reverse_zipWith hb.symm, List.reverse_reverse]

private theorem expand_shape (s o : List Nat) (h : List.Forall₂ (fun d o => d = o ∨ d = 1) s o) : List.zipWith (· * ·) s (expandCounts s o) = o := by
  induction h with
  | nil => rfl
  | @cons d o s os hd _ ih =>
    simp only [expandCounts, List.zipWith_cons_cons] at ih ⊢
    rw [ih]
    congr 1
    rcases hd with rfl | rfl
    · simp
    · split
      · simp
      · next h => push Not at h; simp [← h]

private theorem ones_ok (k : Nat) (s out : List Nat) (hk : k + s.length = out.length) (h : List.Forall₂ (fun d o => d = o ∨ d = 1) s (out.drop k)) :
    List.Forall₂ (fun d o => d = o ∨ d = 1) (List.replicate k 1 ++ s) out := by
  induction k generalizing out with
  | zero => simpa using h
  | succ k ih =>
    cases out with
    | nil => simp at hk
    | cons o out => exact .cons (Or.inr rfl) (ih out (by simp at hk; omega) (by simpa using h))

private theorem expand_pos {s o b : List Nat} (h : List.Forall₂ (fun d o => d = o ∨ d = 1) s o) (hb : InBounds o b) :
    List.Forall₂ (fun _ d => 0 < d) b s ∧ List.zipWith (· % ·) b s = List.zipWith (fun d i => if d = 1 then 0 else i) s b := by
  induction h generalizing b with
  | nil => cases hb; exact ⟨.nil, rfl⟩
  | @cons d o s os hd _ ih =>
    cases hb with
    | @cons i _ b _ hi hb =>
      obtain ⟨h1, h2⟩ := ih hb
      refine ⟨.cons (by rcases hd with rfl | rfl <;> omega) h1, ?_⟩
      simp only [List.zipWith_cons_cons, h2]
      congr 1
      split
      · next h => rw [h, Nat.mod_one]
      · next h =>
        rcases hd with rfl | rfl
        · exact Nat.mod_eq_of_lt hi
        · exact absurd rfl h

/-- C71 for expand and expand_as: the converted operators give the shape and the elements of `t.expand(out)`. -/
theorem C71_expand {α : Type} (out : List Nat) (t : Tensor α) (h : ExpandOk t.shape out) : Same (convertExpand out t) (torchExpand out t) := by
  obtain ⟨hle, hf⟩ := h
  obtain ⟨k, hk⟩ : ∃ k, k = out.length - t.shape.length := ⟨_, rfl⟩
  have hkk : k + t.shape.length = out.length := by omega
  have hb2 : ∀ idx, InBounds out idx → bcGet t idx = t.get (List.zipWith (· % ·) (idx.drop k) t.shape) ∧ InBounds t.shape (List.zipWith (· % ·) (idx.drop k) t.shape) := by
    intro idx hb
    have hlen := inBounds_length hb
    rw [← hk] at hf
    have hd : InBounds (out.drop k) (idx.drop k) := by
      unfold InBounds at hb ⊢
      exact List.forall₂_drop k hb
    obtain ⟨h1, h2⟩ := expand_pos hf hd
    refine ⟨?_, mod_inBounds h1⟩
    unfold bcGet
    rw [zip_rev _ _ _ (by omega), show idx.length - t.shape.length = k by omega, h2]
  unfold convertExpand
  split
  · next he =>
    refine ⟨he.symm, fun idx hb => ?_⟩
    have := hb2 idx (by rw [he]; exact hb)
    simp only [torchExpand]
    rw [this.1]
    have hk0 : k = 0 := by rw [he] at hk; omega
    have hpos := (expand_pos (s := t.shape) (o := out) (by rw [hk0] at hk; rw [← hk] at hf; simpa using hf) (by rw [he]; exact hb)).2
    have hid : List.zipWith (· % ·) (idx.drop k) t.shape = idx := by
      rw [hk0, List.drop_zero]
      clear this hpos hb2 hf hkk hk hle he
      unfold InBounds at hb
      generalize t.shape = s at hb
      induction hb with
      | nil => rfl
      | cons h _ ih => simp only [List.zipWith_cons_cons, Nat.mod_eq_of_lt h, ih]
    rw [hid]
  · next he =>
    have hsh : (tile (expandCounts (leadingOnes out.length t).shape out) (leadingOnes out.length t)).shape = out := by
      simp only [tile]
      rw [leadingOnes_shape, ← hk]
      exact expand_shape _ _ (ones_ok k _ _ hkk (by rw [hk]; exact hf))
    refine ⟨hsh, fun idx hb => ?_⟩
    simp only at hb
    rw [hsh] at hb
    have hlen := inBounds_length hb
    obtain ⟨h1, h2⟩ := hb2 idx hb
    simp only [torchExpand]
    rw [h1]
    simp only [tile]
    rw [leadingOnes_shape, ← hk]
    have hsplit : idx = idx.take k ++ idx.drop k := (List.take_append_drop k idx).symm
    conv => lhs; rw [hsplit]
    rw [zip_mod k _ _ _ (by simp; omega), hk]
    rw [hk] at h2
    exact leadingOnes_get _ _ _ h2

/-- A 3 by 1 tensor expanded to 2 by 3 by 4. -/
example : ExpandOk [3, 1] [2, 3, 4] ∧ (convertExpand [2, 3, 4] (⟨[3, 1], fun i => i.getD 0 0 * 10 + i.getD 1 0⟩ : Tensor Nat)).get [1, 2, 3] = 20 :=
  ⟨⟨by decide, .cons (Or.inl rfl) (.cons (Or.inr rfl) .nil)⟩, by decide⟩

theorem interleaveIndices_length (k : Nat) (rs : List Nat) : (interleaveIndices k rs).length = rs.sum := by
  induction rs generalizing k with
  | nil => rfl
  | cons r rs ih => simp [interleaveIndices, ih]

theorem interleaveIndices_getD (rs : List Nat) (k j p : Nat) (hj : j < rs.length) (h1 : (rs.take j).sum ≤ p) (h2 : p < (rs.take (j + 1)).sum) :
    (interleaveIndices k rs).getD p 0 = k + j := by
  induction rs generalizing k j p with
  | nil => simp at hj
  | cons r rs ih =>
    unfold interleaveIndices
    cases j with
    | zero =>
      simp at h2
      rw [getD_eq_getElem _ _ _ (by simp; omega), List.getElem_append_left (by simpa using h2)]
      simp
    | succ j =>
      simp only [List.take_succ_cons, List.sum_cons] at h1 h2
      have := ih (k + 1) j (p - r) (by simpa using hj) (by omega) (by omega)
      have hlen : p < (List.replicate r k ++ interleaveIndices (k + 1) rs).length := by
        simp only [List.length_append, List.length_replicate, interleaveIndices_length]
        have : (rs.take (j + 1)).sum + (rs.drop (j + 1)).sum = rs.sum := by rw [← List.sum_append, List.take_append_drop]
        omega
      rw [getD_eq_getElem _ _ _ hlen, List.getElem_append_right (by simp; omega)]
      simp only [List.length_replicate]
      rw [← getD_eq_getElem _ _ 0, this]
      omega

/-- The counts PyTorch uses for an axis of size `n`: one number, or a tensor with one element, applies to every position; otherwise there is one count per position. -/
def TorchCounts (repeats : RepeatsArg) (n : Nat) (counts : List Nat) : Prop :=
  match repeats with
  | .int r => counts = List.replicate n r
  | .tensor l => (∃ r, l = [r] ∧ counts = List.replicate n r) ∨ (l.length = n ∧ counts = l)

theorem counts_eq {repeats : RepeatsArg} {n : Nat} {counts : List Nat} (h : TorchCounts repeats n counts) : repeats.counts n = counts := by
  cases repeats with
  | int r => exact h.symm
  | tensor l =>
    rcases h with ⟨r, rfl, rfl⟩ | ⟨h1, rfl⟩
    · rfl
    · unfold RepeatsArg.counts
      dsimp only
      split_ifs with h
      · rw [← h1, h]
        obtain ⟨r, rfl⟩ := List.length_eq_one_iff.1 h
        rfl
      · rfl

/-- C71 for repeat_interleave along a dimension, negative ones included. -/
theorem C71_interleave {α : Type} (repeats : RepeatsArg) (d : Int) (t : Tensor α) (counts : List Nat)
    (hc : TorchCounts repeats (t.shape.getD (normDim t.shape.length d) 0) counts) :
    IsInterleave counts (normDim t.shape.length d) t (convertInterleave repeats (some d) t) := by
  rw [← counts_eq hc]
  have e : fixDim t.shape.length d = normDim t.shape.length d := rfl
  simp only [convertInterleave]
  rw [e]
  refine ⟨by simp [gather, interleaveIndices_length], ?_⟩
  intro idx j hb hj h1 h2
  simp only [gather]
  rw [interleaveIndices_getD _ 0 j _ hj h1 h2, Nat.zero_add]

/-- C71 for repeat_interleave of the flattened tensor. -/
theorem C71_interleave_flat {α : Type} (repeats : RepeatsArg) (t : Tensor α) (hne : t.shape ≠ []) (counts : List Nat)
    (hc : TorchCounts repeats t.shape.prod counts) :
    IsInterleave counts 0 (reshape [t.shape.prod] t) (convertInterleave repeats none t) := by
  rw [← counts_eq hc]
  unfold convertInterleave
  dsimp only
  split
  · refine ⟨by simp [gather, interleaveIndices_length], ?_⟩
    intro idx j hb hj h1 h2
    simp only [gather]
    rw [interleaveIndices_getD _ 0 j _ hj h1 h2, Nat.zero_add]
  · next h =>
    obtain ⟨n, hn⟩ : ∃ n, t.shape = [n] := by
      rcases hs : t.shape with _ | ⟨n, _ | ⟨m, l⟩⟩
      · exact absurd hs hne
      · exact ⟨n, rfl⟩
      · rw [hs] at h; simp at h
    refine ⟨by simp [gather, interleaveIndices_length, reshape, hn], ?_⟩
    intro idx j hb hj h1 h2
    have hl := inBounds_length hb
    simp only [gather, hn, List.set_cons_zero, List.length_singleton] at hl
    obtain ⟨x, rfl⟩ : ∃ x, idx = [x] := List.length_eq_one_iff.1 hl
    simp only [gather]
    rw [interleaveIndices_getD _ 0 j _ hj h1 h2, Nat.zero_add]
    simp [reshape, flat, unflat, hn]

/-- Rows 0 and 1 of a 2 by 2 tensor repeated 2 and 1 times; the conditions of the specification single out one source row for every output row. -/
example : (convertInterleave (.tensor [2, 1]) (some (-2)) (⟨[2, 2], fun i => i.getD 0 0 * 10 + i.getD 1 0⟩ : Tensor Nat)).shape = [3, 2] ∧
    (convertInterleave (.tensor [2, 1]) (some (-2)) (⟨[2, 2], fun i => i.getD 0 0 * 10 + i.getD 1 0⟩ : Tensor Nat)).get [2, 1] = 11 ∧ TorchCounts (.tensor [2, 1]) 2 [2, 1] :=
  ⟨rfl, rfl, Or.inr ⟨rfl, rfl⟩⟩

/-- The specification determines every element: each position belongs to some source position. -/
theorem interleave_total (rs : List Nat) (p : Nat) (hp : p < rs.sum) : ∃ j < rs.length, (rs.take j).sum ≤ p ∧ p < (rs.take (j + 1)).sum := by
  induction rs generalizing p with
  | nil => simp at hp
  | cons r rs ih =>
    by_cases h : p < r
    · exact ⟨0, by simp, by simp, by simpa using h⟩
    · simp at hp
      obtain ⟨j, hj, h1, h2⟩ := ih (p - r) (by omega)
      exact ⟨j + 1, by simpa using hj, by simp; omega, by simp only [List.take_succ_cons, List.sum_cons] at h2 ⊢; omega⟩

/-- C71 fails for `torch.repeat_interleave(repeats)`: the result holds the counts instead of the positions. -/
theorem C71_interleave_self_false : ¬ ∀ rs, IsInterleaveIndices rs (convertInterleaveSelf rs) := by
  intro h
  have := (h [2, 1]).2 0 0 (by decide) (by decide) (by decide) (by decide)
  revert this
  decide

/-- What is computed instead: the counts themselves, each repeated as often as it says. -/
theorem C71_interleave_self (rs : List Nat) : IsInterleave rs 0 ⟨[rs.length], fun idx => rs.getD (idx.getD 0 0) 0⟩ (convertInterleaveSelf rs) := by
  refine ⟨by simp [convertInterleaveSelf, gather, interleaveIndices_length], ?_⟩
  intro idx j hb hj h1 h2
  simp only [convertInterleaveSelf, gather]
  rw [interleaveIndices_getD _ 0 j _ hj h1 h2, Nat.zero_add]

end Verif.Props
