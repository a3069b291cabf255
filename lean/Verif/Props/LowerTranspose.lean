import Verif.Model.LowerTranspose
import Verif.Lemmas.Regroup
import Verif.Props.Layout

/-! C04: lowering the rank of a transpose. -/

namespace Verif.Props
open Verif.Model Verif.Spec Verif.Lemmas

/-- The runs of consecutive axes that the loop merges when no axis has size 1. -/
def blocksGo : List Nat → Nat → List Nat → Nat → List (List Nat)
  | [], _, cur, _ => [cur]
  | p :: r, k, cur, last =>
    if p = last + 1 then blocksGo r (k + 1) (cur ++ [k]) p else cur :: blocksGo r (k + 1) [k] p

theorem blocksGo_flatten (r : List Nat) (k : Nat) (cur : List Nat) (last : Nat) :
    (blocksGo r k cur last).flatten = cur ++ List.range' k r.length := by
  induction r generalizing k cur last with
  | nil => simp [blocksGo]
  | cons p r ih =>
    unfold blocksGo
    split
    · rw [ih]; simp [List.range'_succ]
    · simp [ih, List.range'_succ]

/-- Invariant of the blocks: non-empty, mapped by `p` to a run of consecutive numbers ending in the
value recorded as `last_perm`. -/
def GoodBlock (p : List Nat) (b : List Nat) (last : Nat) : Prop :=
  b ≠ [] ∧ ∃ v, b.map (fun k => p.getD k 0) = List.range' v b.length ∧ v + b.length = last + 1

theorem goodBlock_last {p b : List Nat} {last : Nat} (h : GoodBlock p b last) : p.getD (b.getLastD 0) 0 = last := by
  obtain ⟨hne, v, hv, hlast⟩ := h
  have hb := List.dropLast_append_getLast hne
  have : b.getLastD 0 = b.getLast hne := by
    cases b with
    | nil => exact absurd rfl hne
    | cons a t => simp [List.getLastD]
  rw [this]
  have hpos : 0 < b.length := List.length_pos_of_ne_nil hne
  have h2 := congrArg (fun l => l.getD (b.length - 1) 0) hv
  rw [getD_map_lt _ _ _ _ 0 (by omega), getD_eq_getElem (List.range' v b.length) _ _ (by simp; omega)] at h2
  rw [getD_eq_getElem b _ _ (by omega)] at h2
  rw [List.getLast_eq_getElem, h2]
  simp; omega

theorem goodBlock_extend {p b : List Nat} {last k : Nat} (h : GoodBlock p b last)
    (hk : p.getD k 0 = last + 1) : GoodBlock p (b ++ [k]) (last + 1) := by
  obtain ⟨hne, v, hv, hlast⟩ := h
  refine ⟨by simp, v, ?_, by simp; omega⟩
  rw [List.map_append, hv, List.length_append, List.length_singleton, List.range'_concat]
  simp only [List.map_cons, List.map_nil, hk]
  congr 2; omega

theorem goodBlock_single (p : List Nat) (k : Nat) : GoodBlock p [k] (p.getD k 0) :=
  ⟨by simp, p.getD k 0, by simp, by simp⟩

theorem prod_ne_one {a b : Nat} (ha : a ≠ 1) : a * b ≠ 1 := by
  intro h; exact ha (Nat.eq_one_of_mul_eq_one_right h)

theorem lowerGo_blocks (s p : List Nat) (hl : s.length = p.length) (h1 : ∀ d ∈ s, d ≠ 1) :
    ∀ (m k : Nat) (cur : List Nat) (last cum : Nat), m + k = p.length →
      GoodBlock p cur last → cum = (cur.map (fun k => s.getD k 0)).prod → cum ≠ 1 →
      (∀ b ∈ blocksGo (p.drop k) k cur last, ∃ l, GoodBlock p b l) ∧
      lowerGo ((s.drop k).zip (p.drop k)) cum last =
        (blocksGo (p.drop k) k cur last).map (fun b =>
          ((b.map (fun k => s.getD k 0)).prod, p.getD (b.getLastD 0) 0)) := by
  intro m
  induction m with
  | zero =>
    intro k cur last cum hk hg hc hcum
    have hd : p.drop k = [] := List.drop_eq_nil_of_le (by omega)
    have hd' : s.drop k = [] := List.drop_eq_nil_of_le (by omega)
    rw [hd, hd']
    simp only [blocksGo, List.zip_nil_right, lowerGo, List.map_cons, List.map_nil, List.mem_singleton]
    refine ⟨fun b hb => ⟨last, hb ▸ hg⟩, ?_⟩
    rw [goodBlock_last hg, hc]
  | succ m ih =>
    intro k cur last cum hk hg hc hcum
    have hkp : k < p.length := by omega
    have hks : k < s.length := by omega
    rw [List.drop_eq_getElem_cons hkp, List.drop_eq_getElem_cons hks]
    simp only [List.zip_cons_cons, lowerGo, blocksGo]
    have hsk : s[k] = s.getD k 0 := (getD_eq_getElem _ _ _ hks).symm
    have hpk : p[k] = p.getD k 0 := (getD_eq_getElem _ _ _ hkp).symm
    have hne : s[k] ≠ 1 := h1 _ (List.getElem_mem hks)
    by_cases hm : p[k] = last + 1
    · rw [if_pos (Or.inl hm), if_pos hm]
      apply ih (k + 1) (cur ++ [k]) p[k] (cum * s[k]) (by omega)
      · rw [hm]; exact goodBlock_extend hg (by rw [← hpk, hm])
      · rw [hc, hsk]; simp
      · exact prod_ne_one hcum
    · have : ¬ (p[k] = last + 1 ∨ s[k] = 1 ∨ cum = 1) := by
        rintro (h | h | h)
        · exact hm h
        · exact hne h
        · exact hcum h
      rw [if_neg this, if_neg hm]
      obtain ⟨i1, i2⟩ := ih (k + 1) [k] p[k] s[k] (by omega) (by rw [hpk]; exact goodBlock_single p k)
        (by rw [hsk]; simp) hne
      refine ⟨?_, ?_⟩
      · intro b hb
        rcases List.mem_cons.1 hb with rfl | hb
        · exact ⟨last, hg⟩
        · exact i1 b hb
      · rw [List.map_cons, i2, goodBlock_last hg, hc]

/-- With no axis of size 1, the emitted operators move the blocks according to the *inverse* of the
given permutation. -/
theorem lowerPairs_blocks (s p : List Nat) (hp : IsPerm s.length p) (h1 : ∀ d ∈ s, d ≠ 1) (h0 : s ≠ []) :
    ∃ B : List (List Nat), B.flatten = List.range s.length ∧
      lowerPairs s p = B.map (fun b => ((b.map (fun k => s.getD k 0)).prod, p.getD (b.getLastD 0) 0)) ∧
      ((npArgsort ((lowerPairs s p).map Prod.snd)).map (fun k => B.getD k [])).flatten.map (fun k => p.getD k 0)
        = List.range s.length := by
  have hl := IsPerm.length hp
  have hpos : 0 < s.length := List.length_pos_of_ne_nil h0
  have hp0 : 0 < p.length := by omega
  have hg : GoodBlock p [0] (p.getD 0 0) := goodBlock_single p 0
  have hs0 : s.getD 0 0 ≠ 1 := by
    rw [getD_eq_getElem _ _ _ hpos]; exact h1 _ (List.getElem_mem hpos)
  obtain ⟨i1, i2⟩ := lowerGo_blocks s p hl.symm h1 (p.length - 1) 1 [0] (p.getD 0 0) (s.getD 0 0)
    (by omega) hg (by simp) hs0
  have hpairs : lowerPairs s p = lowerGo ((s.drop 1).zip (p.drop 1)) (s.getD 0 0) (p.getD 0 0) := by
    cases s with
    | nil => exact absurd rfl h0
    | cons a s => cases p with
      | nil => simp at hp0
      | cons b p => simp [lowerPairs]
  rw [i2] at hpairs
  set B := blocksGo (p.drop 1) 1 [0] (p.getD 0 0) with hB
  have hflat : B.flatten = List.range s.length := by
    rw [hB, blocksGo_flatten, List.length_drop, ← hl, List.range_eq_range']
    conv_rhs => rw [show p.length = (p.length - 1) + 1 by omega, List.range'_succ]
    simp
  refine ⟨B, hflat, hpairs, ?_⟩
  set np := (lowerPairs s p).map Prod.snd with hnp
  have hnpl : np.length = B.length := by simp [hnp, hpairs]
  have hnpk : ∀ k < B.length, np.getD k 0 = p.getD ((B.getD k []).getLastD 0) 0 := by
    intro k hk
    rw [hnp, hpairs, List.map_map, getD_map_lt _ _ _ _ [] hk]
    rfl
  have ho : IsPerm B.length (npArgsort np) := argsort_isPerm hnpl
  set o := npArgsort np with hoo
  have hgood : ∀ k < B.length, GoodBlock p (B.getD k []) (np.getD k 0) := by
    intro k hk
    have hm : B.getD k [] ∈ B := by rw [getD_eq_getElem _ _ _ hk]; exact List.getElem_mem hk
    obtain ⟨l, hg⟩ := i1 _ hm
    rw [hnpk k hk, goodBlock_last hg]; exact hg
  have hqperm : IsPerm s.length ((o.map (fun k => B.getD k [])).flatten) := by
    have := flatten_perm_of_isPerm ho B rfl
    rw [hflat] at this; exact this
  have hcomp : IsPerm s.length (((o.map (fun k => B.getD k [])).flatten).map (fun k => p.getD k 0)) :=
    IsPerm.comp hp hqperm
  apply List.Perm.eq_of_pairwise (fun a b _ _ h1 h2 => le_antisymm h1 h2) _ List.pairwise_le_range hcomp
  -- sortedness
  have hsorted : o.Pairwise (fun a b => np.getD a 0 ≤ np.getD b 0) := by
    haveI : Std.Total (fun a b => np.getD a 0 ≤ np.getD b 0) := ⟨fun a b => le_total _ _⟩
    haveI : IsTrans Nat (fun a b => np.getD a 0 ≤ np.getD b 0) := ⟨fun a b c => le_trans⟩
    rw [hoo]
    exact List.pairwise_insertionSort _ _
  have hnodup := IsPerm.nodup ho
  have hflatnd : (B.flatten).Nodup := by rw [hflat]; exact List.nodup_range
  have hdisj := (List.nodup_flatten.1 hflatnd).2
  have memrun : ∀ k < B.length, ∀ x, (x ∈ (B.getD k []).map (fun k => p.getD k 0) ↔
      np.getD k 0 < x + (B.getD k []).length ∧ x ≤ np.getD k 0) := by
    intro k hk x
    obtain ⟨hne, v, hv, hlast⟩ := hgood k hk
    rw [hv, List.mem_range'_1]
    omega
  have hrun : ∀ k < B.length, ((B.getD k []).map (fun k => p.getD k 0)).Pairwise (· ≤ ·) := by
    intro k hk
    obtain ⟨hne, v, hv, hlast⟩ := hgood k hk
    rw [hv]
    exact (List.pairwise_lt_range' (s := v) (n := (B.getD k []).length)).imp (fun h => Nat.le_of_lt h)
  have hinj : ∀ a < B.length, ∀ b < B.length, a ≠ b → ∀ x,
      x ∈ (B.getD a []).map (fun k => p.getD k 0) → x ∉ (B.getD b []).map (fun k => p.getD k 0) := by
    intro a ha b hb hab x hxa hxb
    obtain ⟨i, hi, hie⟩ := List.mem_map.1 hxa
    obtain ⟨j, hj, hje⟩ := List.mem_map.1 hxb
    have hmem : ∀ c < B.length, ∀ i ∈ B.getD c [], i < s.length := by
      intro c hc i hi
      have hm : B.getD c [] ∈ B := by rw [getD_eq_getElem _ _ _ hc]; exact List.getElem_mem hc
      have : i ∈ B.flatten := List.mem_flatten.2 ⟨_, hm, hi⟩
      rw [hflat] at this; simpa using this
    have hij : i = j := by
      rw [← IsPerm.idxOf_get hp (hmem a ha i hi), ← IsPerm.idxOf_get hp (hmem b hb j hj), hie, hje]
    subst hij
    rcases Nat.lt_or_gt_of_ne hab with h | h
    · have := List.pairwise_iff_getElem.1 hdisj a b ha hb h
      rw [getD_eq_getElem _ _ _ ha] at hi
      rw [getD_eq_getElem _ _ _ hb] at hj
      exact this hi hj
    · have := List.pairwise_iff_getElem.1 hdisj b a hb ha h
      rw [getD_eq_getElem _ _ _ ha] at hi
      rw [getD_eq_getElem _ _ _ hb] at hj
      exact this hj hi
  have hmap : ((o.map (fun k => B.getD k [])).flatten).map (fun k => p.getD k 0) =
      (o.map (fun k => (B.getD k []).map (fun k => p.getD k 0))).flatten := by
    rw [List.map_flatten, List.map_map]; rfl
  rw [hmap, List.pairwise_flatten]
  constructor
  · intro l hl'
    obtain ⟨k, hk, rfl⟩ := List.mem_map.1 hl'
    exact hrun k ((IsPerm.mem ho k).1 hk)
  · rw [List.pairwise_map]
    have := hsorted.and hnodup
    refine this.imp_of_mem ?_
    rintro a b ha hb ⟨hle, hab⟩ x hx y hy
    have ha := (IsPerm.mem ho a).1 ha
    have hb := (IsPerm.mem ho b).1 hb
    by_contra hxy
    have hx' := (memrun a ha x).1 hx
    have hy' := (memrun b hb y).1 hy
    have hxb : x ∈ (B.getD b []).map (fun k => p.getD k 0) := (memrun b hb x).2 ⟨by omega, by omega⟩
    exact hinj a ha b hb hab x hx hxb

/-- What the pass really computes when no axis has size 1: the data of the transpose by the inverse
permutation, given the shape of the transpose by `perm`. -/
theorem C04_lowering_uses_inverse {α : Type} (t : Tensor α) (perm : List Nat) (maxDims : Nat)
    (ns np : List Nat) (hp : IsPerm t.shape.length perm) (h1 : ∀ d ∈ t.shape, d ≠ 1)
    (h : lowerTranspose maxDims t.shape perm = some (ns, np)) (hne : t.shape ≠ []) :
    ∃ q, IsPerm t.shape.length q ∧ q.map (fun k => perm.getD k 0) = List.range t.shape.length ∧
      Same (runLowered ns np (transpose q t).shape t) (transpose q t) := by
  obtain ⟨B, hB, hpairs, hq⟩ := lowerPairs_blocks t.shape perm hp h1 hne
  unfold lowerTranspose at h
  simp only at h
  split at h
  swap
  · simp at h
  simp only [Option.some.injEq, Prod.mk.injEq] at h
  obtain ⟨hns, hnp⟩ := h
  have ho : IsPerm B.length np := by
    rw [← hnp]; apply argsort_isPerm; simp [hpairs]
  obtain ⟨r1, r2⟩ := regroup t B np hB ho
  refine ⟨_, r1, ?_, ?_⟩
  · rw [← hnp]; exact hq
  · unfold runLowered
    have : ns = B.map (fun b => (b.map (fun k => t.shape.getD k 0)).prod) := by
      rw [← hns, hpairs, List.map_map]; rfl
    rw [this]
    exact r2

/-- C04, the part that holds: for self-inverse permutations (swaps of axis blocks) of tensors without
size-1 axes the rewritten operators give the original transpose.
Missing: other permutations and size-1 axes, for which the claim is false (see below). -/
theorem C04_lower_transpose_partial {α : Type} (t : Tensor α) (perm : List Nat) (maxDims : Nat)
    (ns np : List Nat) (hp : IsPerm t.shape.length perm) (hne : t.shape ≠ [])
    (h1 : ∀ d ∈ t.shape, d ≠ 1)
    (hinv : perm.map (fun k => perm.getD k 0) = List.range t.shape.length)
    (h : lowerTranspose maxDims t.shape perm = some (ns, np)) :
    np.length ≤ maxDims ∧ Same (runLowered ns np (transpose perm t).shape t) (transpose perm t) := by
  constructor
  · unfold lowerTranspose at h
    simp only at h
    split at h
    · rename_i hle
      simp only [Option.some.injEq, Prod.mk.injEq] at h
      rw [← h.2]
      have := IsPerm.length (argsort_isPerm (p := (lowerPairs t.shape perm).map Prod.snd) rfl)
      rw [this]; simpa using hle
    · simp at h
  · obtain ⟨q, hq, hqp, hsame⟩ := C04_lowering_uses_inverse t perm maxDims ns np hp h1 h hne
    have hqe : q = perm := by
      apply ext_getD (by rw [IsPerm.length hq, IsPerm.length hp])
      intro i hi
      rw [IsPerm.length hq] at hi
      have e1 := congrArg (fun l => l.getD i 0) (hqp.trans hinv.symm)
      rw [getD_map_lt _ _ _ _ 0 (by rw [IsPerm.length hq]; exact hi),
        getD_map_lt _ _ _ _ 0 (by rw [IsPerm.length hp]; exact hi)] at e1
      rw [← IsPerm.idxOf_get hp (IsPerm.get_lt hq hi), e1, IsPerm.idxOf_get hp (IsPerm.get_lt hp hi)]
    subst hqe
    exact hsame

example : lowerTranspose 3 [2, 3, 4, 5, 6] [0, 3, 4, 1, 2] = some ([2, 12, 30], [0, 2, 1]) ∧
    ([0, 3, 4, 1, 2] : List Nat).map (fun k => ([0, 3, 4, 1, 2] : List Nat).getD k 0) = List.range 5 ∧
    IsPerm 5 [0, 3, 4, 1, 2] := by
  refine ⟨by decide, by decide, ?_⟩
  unfold IsPerm; decide

/-- C04 is false in general: the code accepts a cyclic permutation (here of a (2,3,4) tensor) and the
emitted operators give a different tensor. -/
theorem C04_lower_transpose_false : ∃ (t : Tensor Nat) (perm ns np : List Nat),
    IsPerm t.shape.length perm ∧ lowerTranspose 2 t.shape perm = some (ns, np) ∧
    ¬ Same (runLowered ns np (transpose perm t).shape t) (transpose perm t) := by
  refine ⟨arange [2, 3, 4], [1, 2, 0], [6, 4], [1, 0], ?_, by decide, ?_⟩
  · unfold IsPerm; decide
  · intro h
    have := h.2 [0, 0, 1] ?_
    · revert this; decide
    · rw [inBounds_iff]; decide

/-- The same failure for the permutation of a PixelShuffle, (0,1,4,2,5,3), with 5 as the limit. -/
theorem C04_pixel_shuffle_false : ∃ (t : Tensor Nat) (ns np : List Nat),
    lowerTranspose 5 t.shape [0, 1, 4, 2, 5, 3] = some (ns, np) ∧
    ¬ Same (runLowered ns np (transpose [0, 1, 4, 2, 5, 3] t).shape t) (transpose [0, 1, 4, 2, 5, 3] t) := by
  refine ⟨arange [2, 2, 2, 2, 2, 2], [4, 2, 2, 2, 2], [0, 2, 4, 1, 3], by decide, ?_⟩
  intro h
  have := h.2 [0, 0, 0, 0, 0, 1] ?_
  · revert this; decide
  · rw [inBounds_iff]; decide

/-- The same failure for a swap with a size-1 axis: shape (2,1,3), permutation (0,2,1). -/
theorem C04_size_one_false : ∃ (t : Tensor Nat) (ns np : List Nat),
    lowerTranspose 2 t.shape [0, 2, 1] = some (ns, np) ∧
    ¬ Same (runLowered ns np (transpose [0, 2, 1] t).shape t) (transpose [0, 2, 1] t) := by
  refine ⟨arange [2, 1, 3], [2, 3], [1, 0], by decide, ?_⟩
  intro h
  have := h.2 [0, 1, 0] ?_
  · revert this; decide
  · rw [inBounds_iff]; decide

end Verif.Props
