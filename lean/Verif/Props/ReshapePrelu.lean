import Verif.Model.ReshapePrelu
import Verif.Props.ReshapePass

/-! C74: the axis an operator works along is found, and PRELU. -/

namespace Verif.Props
open Verif.Spec Verif.Lemmas
open Verif.Model.ReshapePass

theorem onlyOne_iff (v : List Int) (d : Nat) : onlyOne v = some d ↔ d < v.length ∧ v.getD d 0 ≠ 0 ∧ ∀ j < v.length, j ≠ d → v.getD j 0 = 0 := by
  have hmem : ∀ j, j ∈ nonzeroIdx v ↔ j < v.length ∧ v.getD j 0 ≠ 0 := by
    intro j
    unfold nonzeroIdx
    rw [List.mem_filter, List.mem_range, decide_eq_true_iff]
  have hnd : (nonzeroIdx v).Nodup := List.Nodup.filter _ List.nodup_range
  unfold onlyOne
  constructor
  · intro h
    have hl : nonzeroIdx v = [d] := by
      revert h
      cases hh : nonzeroIdx v with
      | nil => intro h; cases h
      | cons e t =>
        cases t with
        | nil => intro h; rw [Option.some.inj h]
        | cons e' t' => intro h; cases h
    rw [hl] at hmem
    refine ⟨((hmem d).mp (by simp)).1, ((hmem d).mp (by simp)).2, ?_⟩
    intro j hj hjd
    by_contra hne
    have := (hmem j).mpr ⟨hj, hne⟩
    exact hjd (by simpa using this)
  · rintro ⟨h1, h2, h3⟩
    have hd : d ∈ nonzeroIdx v := (hmem d).mpr ⟨h1, h2⟩
    have hall : ∀ j ∈ nonzeroIdx v, j = d := by
      intro j hj
      by_contra hne
      exact ((hmem j).mp hj).2 (h3 j ((hmem j).mp hj).1 hne)
    cases hh : nonzeroIdx v with
    | nil => rw [hh] at hd; simp at hd
    | cons e t =>
      rw [hh] at hall hnd hd
      cases t with
      | nil => rw [hall e (by simp)]
      | cons e' t' =>
        have h1 := hall e (by simp)
        have h2 := hall e' (by simp)
        rw [h1, h2] at hnd
        simp at hnd

theorem zipWith_getD' (f : Nat → Nat → Int) (h0 : f 0 0 = 0) : ∀ (a b : List Nat) (j : Nat), a.length = b.length → (List.zipWith f a b).getD j 0 = f (a.getD j 0) (b.getD j 0)
  | [], [], j, _ => by simp [h0]
  | x :: a, y :: b, 0, _ => rfl
  | x :: a, y :: b, j + 1, h => by
    have := zipWith_getD' f h0 a b j (by simpa using h)
    simpa using this

/-- **C74**.  The axis found for a padding is the only one that is padded. -/
theorem C74_axis_pad (lo hi : List Nat) (b : Nat) (hl : lo.length = hi.length) : padAxis lo hi = some b ↔
    b < lo.length ∧ (lo.getD b 0 ≠ 0 ∨ hi.getD b 0 ≠ 0) ∧ ∀ j < lo.length, j ≠ b → lo.getD j 0 = 0 ∧ hi.getD j 0 = 0 := by
  unfold padAxis
  rw [onlyOne_iff]
  have hlen : (List.zipWith (fun (a b : Nat) => (a : Int) + b) lo hi).length = lo.length := by simp [hl]
  have hget := fun j => zipWith_getD' (fun (a b : Nat) => (a : Int) + b) (by simp) lo hi j hl
  simp only [hget, hlen]
  constructor
  · rintro ⟨h1, h2, h3⟩
    exact ⟨h1, by omega, fun j hj hjb => by have := h3 j hj hjb; omega⟩
  · rintro ⟨h1, h2, h3⟩
    exact ⟨h1, by omega, fun j hj hjb => by have := h3 j hj hjb; omega⟩

/-- **C74**.  The axis found for SLICE, STRIDED_SLICE and TILE is the only one whose size changes. -/
theorem C74_axis_size (before after : List Nat) (b : Nat) (hl : before.length = after.length) : sizeAxis before after = some b ↔
    b < before.length ∧ after.getD b 0 ≠ before.getD b 0 ∧ ∀ j < before.length, j ≠ b → after.getD j 0 = before.getD j 0 := by
  unfold sizeAxis
  rw [onlyOne_iff]
  have hlen : (List.zipWith (fun (a b : Nat) => (b : Int) - a) before after).length = before.length := by simp [hl]
  have hget := fun j => zipWith_getD' (fun (a b : Nat) => (b : Int) - a) (by simp) before after j hl
  simp only [hget, hlen]
  constructor
  · rintro ⟨h1, h2, h3⟩
    exact ⟨h1, by omega, fun j hj hjb => by have := h3 j hj hjb; omega⟩
  · rintro ⟨h1, h2, h3⟩
    exact ⟨h1, by omega, fun j hj hjb => by have := h3 j hj hjb; omega⟩

/-- **C74**.  Slopes with one axis of their own. -/
theorem C74_axis_prelu (s : List Nat) (b : Nat) (h : preluAxis s = some b) : ∃ c d, b = c + 1 ∧ c < s.length ∧ d ≠ 1 ∧ s = (List.replicate s.length 1).set c d := by
  unfold preluAxis at h
  rw [Option.map_eq_some_iff] at h
  obtain ⟨c, hc, rfl⟩ := h
  rw [onlyOne_iff] at hc
  have hget : ∀ j < s.length, (s.map fun (d : Nat) => (d : Int) - 1).getD j 0 = (s.getD j 0 : Int) - 1 := by
    intro j hj
    rw [getD_map_lt (fun (d : Nat) => (d : Int) - 1) s j 0 0 hj]
  rw [List.length_map] at hc
  obtain ⟨h1, h2, h3⟩ := hc
  rw [hget c h1] at h2
  refine ⟨c, s.getD c 0, rfl, h1, by omega, ?_⟩
  refine ext_getD (by simp) fun j hj => ?_
  rw [filled_getD _ _ _ _ _ h1 hj]
  by_cases hjc : j = c
  · rw [if_pos hjc, hjc]
  · rw [if_neg hjc]
    have := h3 j hj hjc
    rw [hget j hj] at this
    omega

theorem flat_zeroIdx : ∀ (s : List Nat) (k : Nat), flat s (List.replicate k 0) = 0
  | [], k => by cases k <;> rfl
  | d :: s, 0 => rfl
  | d :: s, k + 1 => by
    rw [List.replicate_succ, flat, flat_zeroIdx s k]
    simp

theorem flat_hot : ∀ (k j d i : Nat), j < k → flat ((List.replicate k 1).set j d) ((List.replicate k 0).set j i) = i
  | 0, j, _, _, h => absurd h (Nat.not_lt_zero j)
  | k + 1, 0, d, i, _ => by
    rw [List.replicate_succ, List.replicate_succ, List.set_cons_zero, List.set_cons_zero, flat, flat_zeroIdx]
    simp
  | k + 1, j + 1, d, i, h => by
    rw [List.replicate_succ, List.replicate_succ, List.set_cons_succ, List.set_cons_succ, flat, flat_hot k j d i (by omega)]
    simp

theorem prod_hot : ∀ (k j d : Nat), j < k → ((List.replicate k 1).set j d).prod = d
  | 0, j, _, h => absurd h (Nat.not_lt_zero j)
  | k + 1, 0, d, _ => by
    rw [List.replicate_succ, List.set_cons_zero, List.prod_cons]
    simp
  | k + 1, j + 1, d, h => by
    rw [List.replicate_succ, List.set_cons_succ, List.prod_cons, prod_hot k j d (by omega)]
    simp

theorem inBounds_hot (k j d i : Nat) (hj : j < k) (hi : i < d) : InBounds ((List.replicate k 1).set j d) ((List.replicate k 0).set j i) := by
  rw [inBounds_iff]
  refine ⟨by simp, fun t ht => ?_⟩
  simp only [List.length_set, List.length_replicate] at ht
  rw [filled_getD _ _ _ _ _ hj ht, filled_getD _ _ _ _ _ hj ht]
  by_cases htj : t = j
  · rw [if_pos htj, if_pos htj]
    exact hi
  · rw [if_neg htj, if_neg htj]
    omega

/-- What slopes with one axis of their own are at an index. -/
theorem bcGet_hot {β : Type} (w : Tensor β) (idx : List Nat) (c d : Nat) (hn : 0 < idx.length) (hc : c + 1 < idx.length) (hd : d ≠ 1) (hw : w.shape = (List.replicate (idx.length - 1) 1).set c d) :
    bcGet w idx = w.get ((List.replicate (idx.length - 1) 0).set c (idx.getD (c + 1) 0)) := by
  have hl : w.shape.length = idx.length - 1 := by rw [hw]; simp
  rw [bcGet_eq w idx (by omega)]
  congr 1
  refine ext_getD (by simp [hl]; omega) fun j hj => ?_
  have hj' : j < idx.length - 1 := by
    rw [List.length_zipWith, List.length_drop] at hj
    omega
  rw [filled_getD _ _ _ _ _ (by omega) hj', getD_eq_getElem _ _ _ hj, List.getElem_zipWith, List.getElem_drop]
  have h1 : w.shape[j]'(by omega) = if j = c then d else 1 := by
    rw [← getD_eq_getElem w.shape j 0 (by omega), hw, filled_getD _ _ _ _ _ (by omega) hj']
  rw [h1]
  by_cases hjc : j = c
  · subst hjc
    rw [if_pos rfl, if_neg hd, if_pos rfl, getD_eq_getElem _ _ _ hc]
    congr 1
    omega
  · rw [if_neg hjc, if_pos rfl, if_neg hjc]

theorem expandOk_hot (s : List Nat) (c d : Nat) (hc : c + 1 < s.length) (hd : s.getD (c + 1) 0 = d) : ExpandOk ((List.replicate (s.length - 1) 1).set c d) s := by
  refine ⟨by simp, ?_⟩
  rw [List.forall₂_iff_get]
  refine ⟨by simp; omega, ?_⟩
  intro j h1 h2
  simp only [List.length_set, List.length_replicate] at h1
  have h3 : ((List.replicate (s.length - 1) 1).set c d)[j]'(by simpa using h1) = if j = c then d else 1 := by
    rw [← getD_eq_getElem _ j 0 (by simpa using h1), filled_getD _ _ _ _ _ (by omega) h1]
  rw [List.get_eq_getElem, List.get_eq_getElem]
  show ((List.replicate (s.length - 1) 1).set c d)[j]'(by simpa using h1) = _ ∨ ((List.replicate (s.length - 1) 1).set c d)[j]'(by simpa using h1) = 1
  rw [h3]
  by_cases hjc : j = c
  · left
    subst hjc
    rw [if_pos rfl, List.getElem_drop]
    rw [getD_eq_getElem _ _ _ hc] at hd
    refine hd.symm.trans ?_
    congr 1
    simp
    omega
  · right
    rw [if_neg hjc]

/-- PRELU in terms of lines. -/
theorem prelu_line {α β γ : Type} (f : α → β → γ) (s : List Nat) (c d : Nat) (hc : c + 1 < s.length) (hd : d ≠ 1) (x : Tensor α) (hx : x.shape = s.set (c + 1) d) (w : Tensor β)
    (hw : w.shape = (List.replicate (s.length - 1) 1).set c d) : ∃ z, elementwise f x w = some z ∧ z.shape = x.shape ∧
    Same z (lineOp (c + 1) (s.set (c + 1) d) (fun G i => f (G 0 i) (w.get ((List.replicate (s.length - 1) 0).set c i))) (fun _ => x)) := by
  have hlen : x.shape.length = s.length := by rw [hx]; simp
  have hex : ExpandOk w.shape x.shape := by
    rw [hw, ← hlen]
    exact expandOk_hot x.shape c d (by omega) (by rw [hx]; exact set_getD_self _ _ _ _ hc)
  obtain ⟨z, h1, h2, h3⟩ := elementwise_left f x w hex
  refine ⟨z, h1, h2, ?_, ?_⟩
  · rw [h2, hx]
    rfl
  · intro idx hidx
    rw [h2] at hidx
    have hil := inBounds_length hidx
    rw [h3 idx hidx, bcGet_hot w idx c d (by omega) (by omega) hd (by rw [hil, hlen]; exact hw)]
    show f (x.get idx) _ = f (x.get (idx.set (c + 1) (idx.getD (c + 1) 0))) _
    rw [hil, hlen]
    congr 2
    refine (List.ext_getElem (by simp) fun j h1 h2 => ?_).symm
    rw [List.getElem_set]
    by_cases hj : c + 1 = j
    · subst hj
      rw [if_pos rfl, getD_eq_getElem _ _ _ h2]
    · rw [if_neg hj]

/-- **C74**.  PRELU whose slopes have at least two axes and belong to one axis that is not the first on either side of the reshape: the result is what it was. -/
theorem C74_prelu_partial {α β γ : Type} {src dst : List Nat} {b : Nat} {prev next : List Int} (h : PickedAt src dst b prev next) (f : α → β → γ) (x : Tensor α) (w : Tensor β) (d : Nat)
    (hx : x.shape = dst.set b d) (hd : 1 < d) (hb : preluAxis w.shape = some b) (hwl : w.shape.length = dst.length - 1) (hw : w.shape.getD (b - 1) 0 = d) (hr : 2 ≤ w.shape.length)
    (ha : holeIdx prev ≠ some 0) : ∃ y z, passPrelu prev next f x w = some y ∧ elementwise f x w = some z ∧ Same y z := by
  obtain ⟨a, st, hp⟩ := h.picked
  obtain ⟨hla, hlb, -⟩ := hp.fits.lt hp.at'
  obtain ⟨c, e, rfl, hc, he, hs⟩ := C74_axis_prelu _ _ hb
  have hed : e = d := by
    rw [hs] at hw
    rw [show c + 1 - 1 = c by omega, set_getD_self _ _ _ _ (by simpa using hc)] at hw
    exact hw
  subst hed
  rw [hwl] at hs
  have hha : holeIdx prev = some a := by rw [hp.hprev]; exact holeIdx_hole _ _ hla
  have hhb : holeIdx next = some (c + 1) := by rw [hp.hnext]; exact holeIdx_hole _ _ hlb
  have ha0 : a ≠ 0 := by
    rintro rfl
    exact ha hha
  obtain ⟨a, rfl⟩ : ∃ a', a = a' + 1 := ⟨a - 1, by omega⟩
  have hpl : prev.length = src.length := by rw [hp.hprev]; simp [ints]
  have hss : slopeShape prev (a + 1) (w.shape.getD (c + 1 - 1) 0) = some ((List.replicate (src.length - 1) 1).set a e) := by
    unfold slopeShape
    rw [if_neg (by omega), hpl, hw]
    rfl
  have hprod : ((List.replicate (src.length - 1) 1).set a e).prod = w.shape.prod := by
    rw [prod_hot _ _ _ (by omega), hs, prod_hot _ _ _ (by omega)]
  obtain ⟨z1, hz1, hz1s, hz1l⟩ := prelu_line f src a e hla (by omega) (reshape (src.set (a + 1) e) x) rfl (reshape ((List.replicate (src.length - 1) 1).set a e) w) rfl
  obtain ⟨z2, hz2, hz2s, hz2l⟩ := prelu_line f dst c e hlb (by omega) x hx w hs
  have hpass : passPrelu prev next f x w = moveOut prev x.shape z1 := by
    unfold passPrelu
    rw [moveIn_axis hp h.2.1 h.2.2 (by omega) x hx]
    simp only [Option.bind_eq_bind, Option.bind_some]
    rw [if_neg (by omega), hha, hhb]
    simp only [Option.bind_some, hss, if_pos hprod, hz1]
  have hz1l' : Same z1 (lineOp (a + 1) (src.set (a + 1) e) (fun G i => f (G 0 i) (w.get ((List.replicate (dst.length - 1) 0).set c i))) (fun _ => reshape (src.set (a + 1) e) x)) := by
    refine hz1l.trans ⟨rfl, fun idx hidx => ?_⟩
    have hia : idx.getD (a + 1) 0 < e := by
      have hidx' : InBounds (src.set (a + 1) e) idx := hidx
      rw [inBounds_iff] at hidx'
      have := hidx'.2 (a + 1) (by simpa using hla)
      rwa [set_getD_self _ _ _ _ hla] at this
    show f _ ((reshape ((List.replicate (src.length - 1) 1).set a e) w).get ((List.replicate (src.length - 1) 0).set a (idx.getD (a + 1) 0))) = f _ (w.get ((List.replicate (dst.length - 1) 0).set c (idx.getD (a + 1) 0)))
    congr 1
    show w.get (unflat w.shape (flat ((List.replicate (src.length - 1) 1).set a e) ((List.replicate (src.length - 1) 0).set a (idx.getD (a + 1) 0)))) = _
    rw [flat_hot _ _ _ _ (by omega)]
    congr 1
    have h1 := unflat_flat (inBounds_hot (dst.length - 1) c e (idx.getD (a + 1) 0) (by omega) hia)
    rw [flat_hot _ _ _ _ (by omega)] at h1
    rw [hs]
    exact h1
  obtain ⟨y, hy, hys⟩ := line_pass hp h.2.1 (fun G i => f (G 0 i) (w.get ((List.replicate (dst.length - 1) 0).set c i))) (by
    intro G G' i hG hi
    show f _ _ = f _ _
    rw [hG 0 i hi]) x hx z1 hz1l' z2 hz2l
  rw [hz2s] at hy
  exact ⟨y, z2, by rw [hpass]; exact hy, hz2, hys⟩

/-- **C74**.  The whole way for a padding: the axis the code finds, the picked reshape, and the moved operator. -/
theorem C74_pad_found {α : Type} {src dst : List Nat} {b : Nat} {prev next : List Int} (lo hi : List Nat) (hb : padAxis lo hi = some b) (hl : lo.length = dst.length) (hl' : hi.length = dst.length)
    (h : PickedAt src dst b prev next) (v : α) (x : Tensor α) (d : Nat) (hx : x.shape = dst.set b d) (hd : 0 < d) :
    ∃ y, passPad prev next lo hi v x = some y ∧ Same y (pad lo hi v x) :=
  C74_pad h lo hi v x d hx hd fun j hj hjb => ((C74_axis_pad lo hi b (by omega)).mp hb).2.2 j (by omega) hjb

/-- **C74**.  The whole way for a slice. -/
theorem C74_slice_found {α : Type} {src dst : List Nat} {b : Nat} {prev next : List Int} (start size : List Nat) (x : Tensor α)
    (hb : sizeAxis x.shape (SliceOp.run (.slice start size) x).shape = some b) (hl : x.shape.length = (SliceOp.run (.slice start size) x).shape.length)
    (h : PickedAt src dst b prev next) (d : Nat) (hx : x.shape = dst.set b d) (hd : 0 < d) (hv : (SliceOp.slice start size).Valid x.shape) :
    ∃ y, passSlice prev next start size x = some y ∧ Same y (SliceOp.run (.slice start size) x) :=
  C74_slice h start size x d hx hd hv fun j hj hjb => ((C74_axis_size _ _ b hl).mp hb).2.2 j (by rw [hx]; simpa using hj) hjb

/-- **C74**.  The whole way for TILE. -/
theorem C74_tile_found {α : Type} {src dst : List Nat} {b : Nat} {prev next : List Int} (m : List Nat) (x : Tensor α) (hb : sizeAxis x.shape (tile m x).shape = some b) (hm : m.length = dst.length)
    (h : PickedAt src dst b prev next) (d : Nat) (hx : x.shape = dst.set b d) (hd : 0 < d) : ∃ y, passTile prev next m x = some y ∧ Same y (tile m x) :=
  C74_tile h m x d hx hd hm fun j hj hjb => ((C74_axis_size _ _ b (by simp [tile, hx, hm])).mp hb).2.2 j (by rw [hx]; simpa using hj) hjb

example := C74_pad_found (α := Nat) (src := [2, 3]) (dst := [2, 1, 3]) [0, 0, 1] [0, 0, 2] (b := 2) (by decide) rfl rfl picked_example 7 (ramp [2, 1, 6]) 6 rfl (by norm_num)

example := C74_tile_found (α := Nat) (src := [2, 3]) (dst := [2, 1, 3]) [1, 1, 2] (ramp [2, 1, 6]) (b := 2) (by decide) rfl picked_example 6 rfl (by norm_num)

/-- Slopes of shape `[1, 3]` for operands `[2, 1, 3]` that were reshaped from `[2, 3]`; on that side they have one axis only. -/
theorem picked_prelu_example : PickedAt [1, 2, 3] [2, 1, 3] 2 [1, 2, -1] [2, 1, -1] := by
  refine ⟨Or.inl ?_, by simp, by simp⟩
  simp [candPrev, isSimple, ints, Model.ReshapePass.simpleGo, holes]

example := C74_prelu_partial picked_prelu_example (fun a b : Nat => a * b) (ramp [2, 1, 3]) (ramp [1, 3]) 3 rfl (by norm_num) (by decide) rfl rfl (by decide) (by decide)

/-- **C74** fails: the slopes of a two-dimensional PRELU have one axis, and are not adapted when it is moved in front of the RESHAPE that dropped a trailing axis of one element. -/
theorem C74_prelu_vector_false : ¬ ∀ (src dst : List Nat) (b : Nat) (prev next : List Int) (x w : Tensor Nat), candPrev src dst (some b) = some (prev, next) → x.shape = dst → preluAxis w.shape = some b →
    w.shape.length = dst.length - 1 → w.shape.getD (b - 1) 0 = dst.getD b 0 → ∃ y z, passPrelu prev next (· * ·) x w = some y ∧ elementwise (· * ·) x w = some z ∧ Same y z := by
  intro h
  obtain ⟨y, z, h1, h2, h3, h4⟩ := h [2, 3, 1] [2, 3] 1 [2, -1, 1] [2, -1] (ramp [2, 3]) (ramp [3]) (by simp [candPrev, isSimple, ints, Model.ReshapePass.simpleGo, holes]) rfl (by decide) rfl rfl
  have hs : isSimple [2, -1, 1] [2, -1] = (true, [(0, 0), (1, 1)]) := by simp [isSimple, Model.ReshapePass.simpleGo]
  have hm : moveIn [2, -1, 1] [2, -1] (ramp [2, 3]) = some (reshape [2, 3, 1] (ramp [2, 3])) := by
    unfold moveIn aligned
    rw [if_neg (by simp [ramp]), hs]
    rfl
  unfold passPrelu at h1
  rw [hm] at h1
  revert h1
  exact fun h1 => absurd h1 (by rintro ⟨⟩)

/-- **C74** fails: a padding by nothing has no axis, and the pass raises an exception for it. -/
theorem C74_no_axis_false : ¬ ∀ (src dst : List Nat) (prev next : List Int) (lo hi : List Nat) (x : Tensor Nat), candPrev src dst (padAxis lo hi) = some (prev, next) → x.shape = dst →
    lo.length = dst.length → hi.length = dst.length → passPad prev next lo hi 0 x ≠ none := by
  intro h
  refine h [2, 3] [2, 1, 3] [2, 3] [2, 1, 3] [0, 0, 0] [0, 0, 0] (ramp [2, 1, 3]) ?_ rfl rfl rfl ?_
  · have : padAxis [0, 0, 0] [0, 0, 0] = none := by decide
    rw [this]
    simp [candPrev, isSimple, ints, Model.ReshapePass.simpleGo]
  · have h1 : movedPad [2, 3] [2, 1, 3] [0, 0, 0] 0 = none := by decide
    unfold passPad
    rw [h1]
    cases moveIn [2, 3] [2, 1, 3] (ramp [2, 1, 3]) <;> rfl

end Verif.Props
