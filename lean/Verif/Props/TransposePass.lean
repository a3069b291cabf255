import Verif.Model.TransposePass
import Verif.Lemmas.Tensor
import Verif.Props.Layout

/-!
C47: moving a transpose across an operator keeps the result.
-/

namespace Verif.Props
open Verif.Model Verif.Spec Verif.Lemmas

/-! ### tools -/

/-- Enough to show that the renamed operator commutes with the transpose of its inputs. -/
theorem pass_of_commute' {α : Type} {n : Nat} {p : List Nat} (hp : IsPerm n p) (X Y : Tensor α) (hY : Y.shape.length = n)
    (h : Same X (transpose (passInv p) Y)) : Same (transpose p X) Y := by
  have hq : IsPerm n (passInv p) := argsort_isPerm (IsPerm.length hp)
  have hXl : X.shape.length = n := by rw [h.1]; exact transpose_shape_length hq Y
  refine (transpose_congr hp hXl h).trans ?_
  refine wrap_cancel hq hp ?_ Y hY
  -- the inverse on the other side
  have hi := argsort_inv hp
  have hq' := IsPerm.length hq
  apply ext_getD (by simp [IsPerm.length hp])
  intro i hilt
  have hin : i < n := by simpa [IsPerm.length hp] using hilt
  rw [getD_map_lt _ _ _ _ 0 (by rw [IsPerm.length hp]; exact hin)]
  have hpi : p.getD i 0 < n := IsPerm.get_lt hp hin
  -- q[p[i]] = i since p[q[j]] = j
  have h1 : ∀ j < n, p.getD ((passInv p).getD j 0) 0 = j := by
    intro j hj
    have := congrArg (fun l => l.getD j 0) hi
    unfold passInv
    rw [getD_map_lt _ _ _ _ 0 (by unfold passInv at hq'; rw [hq']; exact hj)] at this
    rw [this]; simp [List.getD, hj]
  have h2 := h1 (p.getD i 0) hpi
  have h3 := IsPerm.idxOf_get hp (IsPerm.get_lt hq hpi)
  rw [h2, IsPerm.idxOf_get hp hin] at h3
  rw [← h3]; simp [List.getD, hin]

/-- The source index read by a transpose. -/
private def src (q : List Nat) (n : Nat) (idx : List Nat) : List Nat := (List.range n).map (fun j => idx.getD (q.idxOf j) 0)

private theorem src_getD {q : List Nat} {n : Nat} {idx : List Nat} {j : Nat} (hj : j < n) : (src q n idx).getD j 0 = idx.getD (q.idxOf j) 0 := by
  unfold src; rw [getD_range_map _ _ _ _ hj]

/-- Operators that read, at each output position, one position of each axis, or give a constant. -/
private def pindex {α : Type} (g : Nat → Nat → Option Nat) (s : List Nat) (v : α) (t : Tensor α) : Tensor α :=
  ⟨s, fun idx => if ∀ a < t.shape.length, (g a (idx.getD a 0)).isSome = true then
    t.get ((List.range t.shape.length).map (fun a => (g a (idx.getD a 0)).getD 0)) else v⟩

private theorem pindex_transpose {α : Type} {n : Nat} {q : List Nat} (hq : IsPerm n q) (g : Nat → Nat → Option Nat) (s : List Nat) (v : α) (t : Tensor α)
    (ht : t.shape.length = n) (hs : s.length = n) :
    Same (pindex (fun i => g (q.getD i 0)) (q.map (fun k => s.getD k 0)) v (transpose q t)) (transpose q (pindex g s v t)) := by
  refine ⟨rfl, ?_⟩
  intro idx hidx
  have hl : idx.length = n := by have := inBounds_length hidx; simpa [pindex, IsPerm.length hq] using this
  have hlen : (transpose q t).shape.length = n := transpose_shape_length hq t
  simp only [pindex, hlen]
  simp only [transpose, hs]
  rw [show (List.range n).map (fun j => idx.getD (q.idxOf j) 0) = src q n idx from rfl]
  have hcond : (∀ a < n, (g (q.getD a 0) (idx.getD a 0)).isSome = true) ↔ (∀ a < t.shape.length, (g a ((src q n idx).getD a 0)).isSome = true) := by
    rw [ht]
    constructor
    · intro h a ha
      rw [src_getD ha]
      have := h (q.idxOf a) (IsPerm.idxOf_lt hq ha)
      rwa [IsPerm.get_idxOf hq ha] at this
    · intro h a ha
      have := h (q.getD a 0) (IsPerm.get_lt hq ha)
      rwa [src_getD (IsPerm.get_lt hq ha), IsPerm.idxOf_get hq ha] at this
  by_cases hc : ∀ a < n, (g (q.getD a 0) (idx.getD a 0)).isSome = true
  · rw [if_pos hc, if_pos (hcond.mp hc)]
    congr 1
    rw [ht]
    apply List.map_congr_left
    intro j hj
    have hj' : j < n := by simpa using hj
    have hk := IsPerm.idxOf_lt hq hj'
    rw [getD_range_map _ _ _ _ hk, src_getD hj', IsPerm.get_idxOf hq hj']
  · rw [if_neg hc, if_neg (fun h => hc (hcond.mpr h))]

/-- `pindex` depends only on in-range axes and positions. -/
private theorem pindex_congr {α : Type} (g g' : Nat → Nat → Option Nat) (s s' : List Nat) (v : α) (t : Tensor α) (hs : s = s') (hl : s.length = t.shape.length)
    (h : ∀ a < t.shape.length, ∀ x < s.getD a 0, g a x = g' a x) : Same (pindex g s v t) (pindex g' s' v t) := by
  subst hs
  refine ⟨rfl, ?_⟩
  intro idx hidx
  have hb : ∀ a < t.shape.length, idx.getD a 0 < s.getD a 0 := by
    intro a ha
    exact ((inBounds_iff _ _).mp hidx).2 a (by simpa [pindex, hl] using ha)
  have e : ∀ a < t.shape.length, g a (idx.getD a 0) = g' a (idx.getD a 0) := fun a ha => h a ha _ (hb a ha)
  simp only [pindex]
  have hcond : (∀ a < t.shape.length, (g a (idx.getD a 0)).isSome = true) ↔ (∀ a < t.shape.length, (g' a (idx.getD a 0)).isSome = true) := by
    constructor <;> intro h a ha
    · rw [← e a ha]; exact h a ha
    · rw [e a ha]; exact h a ha
  have hmap : (List.range t.shape.length).map (fun a => (g a (idx.getD a 0)).getD 0) = (List.range t.shape.length).map (fun a => (g' a (idx.getD a 0)).getD 0) := by
    apply List.map_congr_left
    intro a ha
    rw [e a (by simpa using ha)]
  rw [hmap]
  by_cases hc : ∀ a < t.shape.length, (g a (idx.getD a 0)).isSome = true
  · rw [if_pos hc, if_pos (hcond.mp hc)]
  · rw [if_neg hc, if_neg (fun h => hc (hcond.mpr h))]

private theorem set_eq_map {idx : List Nat} {n a v : Nat} (hl : idx.length = n) :
    idx.set a v = (List.range n).map (fun b => if b = a then v else idx.getD b 0) := by
  apply ext_getD (by simp [hl])
  intro i hi
  have hi' : i < n := by simpa [hl] using hi
  rw [getD_range_map _ _ _ _ hi']
  by_cases h : i = a
  · subst h; simp [List.getD, hl, hi']
  · have : ¬ a = i := fun e => h e.symm
    simp [List.getD, h, this]

/-- Operators that change one axis. -/
private theorem oneAxis_eq {α : Type} (g : Nat → Nat) (a m : Nat) (t : Tensor α) (v : α) :
    Same (⟨t.shape.set a m, fun idx => t.get (idx.set a (g (idx.getD a 0)))⟩ : Tensor α)
      (pindex (fun b x => some (if b = a then g x else x)) (t.shape.set a m) v t) := by
  refine ⟨rfl, ?_⟩
  intro idx hidx
  have hl : idx.length = t.shape.length := by have := inBounds_length hidx; simpa using this
  simp only [pindex, Option.isSome_some, implies_true, if_true, Option.getD_some]
  rw [set_eq_map hl]
  congr 1
  apply List.map_congr_left
  intro b _
  by_cases h : b = a
  · subst h; simp
  · simp [h]

private theorem set_perm {n : Nat} {q : List Nat} (hq : IsPerm n q) (s : List Nat) (hs : s.length = n) (a m : Nat) (ha : a < n) :
    (q.map (fun k => s.getD k 0)).set (q.idxOf a) m = q.map (fun k => (s.set a m).getD k 0) := by
  apply ext_getD (by simp)
  intro i hi
  have hi' : i < n := by simpa [IsPerm.length hq] using hi
  rw [getD_map_lt _ _ _ _ 0 (by rw [IsPerm.length hq]; exact hi')]
  have hlt : i < (q.map (fun k => s.getD k 0)).length := by simpa [IsPerm.length hq] using hi'
  by_cases h : i = q.idxOf a
  · have h2 : q.getD i 0 = a := by rw [h]; exact IsPerm.get_idxOf hq ha
    rw [h2, h]
    have h3 : q.idxOf a < n := IsPerm.idxOf_lt hq ha
    simp [List.getD, IsPerm.length hq, h3, hs, ha]
  · have h2 : q.getD i 0 ≠ a := by
      intro e; apply h; rw [← e, IsPerm.idxOf_get hq hi']
    have e1 : ((q.map (fun k => s.getD k 0)).set (q.idxOf a) m).getD i 0 = (q.map (fun k => s.getD k 0)).getD i 0 := by
      have : ¬ q.idxOf a = i := fun e => h e.symm
      simp [List.getD, this]
    have e2 : (s.set a m).getD (q.getD i 0) 0 = s.getD (q.getD i 0) 0 := by
      have : ¬ a = q.getD i 0 := fun e => h2 e.symm
      simp only [List.getD] at this ⊢
      simp [this]
    rw [e1, e2, getD_map_lt _ _ _ _ 0 (by rw [IsPerm.length hq]; exact hi')]

private theorem passAxis_some {n : Nat} {p : List Nat} (hp : IsPerm n p) {a : Nat} (ha : a < n) : passAxis (passInv p) a = some ((passInv p).idxOf a) := by
  have hq : IsPerm n (passInv p) := argsort_isPerm (IsPerm.length hp)
  unfold passAxis
  rw [if_pos ((IsPerm.mem hq a).mpr ha)]

/-- One-axis operators commute with a transpose, the axis being renamed. -/
private theorem oneAxis_pass {α : Type} {n : Nat} {p : List Nat} (hp : IsPerm n p) (g : Nat → Nat) (a m : Nat) (ha : a < n) (t : Tensor α) (ht : t.shape.length = n) :
    Same (transpose p (⟨(transpose (passInv p) t).shape.set ((passInv p).idxOf a) m,
        fun idx => (transpose (passInv p) t).get (idx.set ((passInv p).idxOf a) (g (idx.getD ((passInv p).idxOf a) 0)))⟩ : Tensor α))
      (⟨t.shape.set a m, fun idx => t.get (idx.set a (g (idx.getD a 0)))⟩ : Tensor α) := by
  have hq : IsPerm n (passInv p) := argsort_isPerm (IsPerm.length hp)
  have hlen := transpose_shape_length hq t
  have hk := IsPerm.idxOf_lt hq ha
  refine pass_of_commute' hp _ _ (by simpa using ht) ?_
  -- the constant is never used
  have v : Tensor α → α := fun t => t.get []
  refine (oneAxis_eq g _ m _ (v t)).trans ?_
  refine Same.trans ?_ (transpose_congr hq (by simpa [pindex] using ht) (oneAxis_eq g a m t (v t)).symm)
  refine Same.trans ?_ (pindex_transpose hq _ _ (v t) t ht (by simpa using ht))
  refine pindex_congr _ _ _ _ _ _ (set_perm hq t.shape ht a m ha) (by simp) ?_
  intro b hb x _
  rw [hlen] at hb
  by_cases h : b = (passInv p).idxOf a
  · rw [if_pos h, if_pos (by rw [h]; exact IsPerm.get_idxOf hq ha)]
  · rw [if_neg h, if_neg (by intro e; apply h; rw [← e, IsPerm.idxOf_get hq hb])]

/-! ### the operators -/

/-- **C47** elementwise operators with one input. -/
theorem C47_elementwise {α β : Type} (f : α → β) (t : Tensor α) (p : List Nat) (hp : IsPerm t.shape.length p) :
    Same (transpose p (mapTensor f (transpose (passInv p) t))) (mapTensor f t) := by
  refine pass_of_commute' hp _ _ rfl ⟨rfl, fun _ _ => rfl⟩

/-- **C47** GATHER with a vector of indices. -/
theorem C47_gather {α : Type} (t : Tensor α) (p : List Nat) (hp : IsPerm t.shape.length p) (axis : Nat) (ha : axis < t.shape.length) (ix : List Nat) :
    ∃ axis', passAxis (passInv p) axis = some axis' ∧ Same (transpose p (gather axis' ix (transpose (passInv p) t))) (gather axis ix t) :=
  ⟨_, passAxis_some hp ha, oneAxis_pass hp (fun x => ix.getD x 0) axis ix.length ha t rfl⟩

/-- **C47** SPLIT and SPLIT_V, each output. -/
theorem C47_split {α : Type} (t : Tensor α) (p : List Nat) (hp : IsPerm t.shape.length p) (axis : Nat) (ha : axis < t.shape.length) (off size : Nat) :
    ∃ axis', passAxis (passInv p) axis = some axis'
      ∧ Same (transpose p (splitPart axis' off size (transpose (passInv p) t))) (splitPart axis off size t) :=
  ⟨_, passAxis_some hp ha, oneAxis_pass hp (fun x => off + x) axis size ha t rfl⟩

private theorem passArg_getD {β : Type} (d : β) {n : Nat} {q : List Nat} (hq : IsPerm n q) (arg : List β) {i : Nat} (hi : i < n) :
    (passArg d q arg).getD i d = arg.getD (q.getD i 0) d := by
  unfold passArg
  rw [getD_map_lt _ _ _ _ 0 (by rw [IsPerm.length hq]; exact hi)]

private theorem range_map_perm {n : Nat} {q : List Nat} (hq : IsPerm n q) (f : Nat → Nat) :
    (List.range n).map (fun i => f (q.getD i 0)) = q.map (fun k => ((List.range n).map f).getD k 0) := by
  apply ext_getD (by simp [IsPerm.length hq])
  intro i hi
  have hi' : i < n := by simpa using hi
  rw [getD_range_map _ _ _ _ hi', getD_map_lt _ _ _ _ 0 (by rw [IsPerm.length hq]; exact hi'), getD_range_map _ _ _ _ (IsPerm.get_lt hq hi')]

private theorem transpose_shape_getD {α : Type} {n : Nat} {q : List Nat} (hq : IsPerm n q) (t : Tensor α) {i : Nat} (hi : i < n) :
    (transpose q t).shape.getD i 0 = t.shape.getD (q.getD i 0) 0 := by
  simp only [transpose]
  rw [getD_map_lt _ _ _ _ 0 (by rw [IsPerm.length hq]; exact hi)]

private theorem pad_eq {α : Type} (lo hi : List Nat) (v : α) (t : Tensor α) :
    Same (pad lo hi v t) (pindex (fun a x => if lo.getD a 0 ≤ x ∧ x < lo.getD a 0 + t.shape.getD a 0 then some (x - lo.getD a 0) else none)
      ((List.range t.shape.length).map (fun a => lo.getD a 0 + t.shape.getD a 0 + hi.getD a 0)) v t) := by
  refine ⟨rfl, ?_⟩
  intro idx _
  simp only [pad, pindex]
  have hcond : (∀ a < t.shape.length, lo.getD a 0 ≤ idx.getD a 0 ∧ idx.getD a 0 < lo.getD a 0 + t.shape.getD a 0) ↔
      (∀ a < t.shape.length, (if lo.getD a 0 ≤ idx.getD a 0 ∧ idx.getD a 0 < lo.getD a 0 + t.shape.getD a 0 then some (idx.getD a 0 - lo.getD a 0) else none).isSome = true) := by
    constructor
    · intro h a ha; rw [if_pos (h a ha)]; rfl
    · intro h a ha
      have := h a ha
      by_contra hc
      rw [if_neg hc] at this; simp at this
  by_cases hc : ∀ a < t.shape.length, lo.getD a 0 ≤ idx.getD a 0 ∧ idx.getD a 0 < lo.getD a 0 + t.shape.getD a 0
  · rw [if_pos hc, if_pos (hcond.mp hc)]
    congr 1
    apply List.map_congr_left
    intro a ha
    rw [if_pos (hc a (by simpa using ha))]; rfl
  · rw [if_neg hc, if_neg (fun h => hc (hcond.mpr h))]

/-- **C47** PAD and PADV2. -/
theorem C47_pad {α : Type} (t : Tensor α) (p : List Nat) (hp : IsPerm t.shape.length p) (lo hi : List Nat) (v : α) :
    Same (transpose p (pad (passArg 0 (passInv p) lo) (passArg 0 (passInv p) hi) v (transpose (passInv p) t))) (pad lo hi v t) := by
  have hq : IsPerm t.shape.length (passInv p) := argsort_isPerm (IsPerm.length hp)
  have hlen := transpose_shape_length hq t
  refine pass_of_commute' hp _ _ (by simp [pad]) ?_
  refine (pad_eq _ _ v _).trans ?_
  refine Same.trans ?_ (transpose_congr hq (by simp [pindex]) (pad_eq lo hi v t).symm)
  refine Same.trans ?_ (pindex_transpose hq _ _ v t rfl (by simp))
  refine pindex_congr _ _ _ _ _ _ ?_ (by simp) ?_
  · rw [hlen, ← range_map_perm hq (fun a => lo.getD a 0 + t.shape.getD a 0 + hi.getD a 0)]
    apply List.map_congr_left
    intro i hi'
    have hi'' : i < t.shape.length := by simpa using hi'
    rw [passArg_getD 0 hq lo hi'', passArg_getD 0 hq hi hi'', transpose_shape_getD hq t hi'']
  · intro a ha x _
    rw [hlen] at ha
    rw [passArg_getD 0 hq lo ha, transpose_shape_getD hq t ha]

private theorem map_eq_pindex {α : Type} (g : Nat → Nat → Nat) (s : List Nat) (v : α) (t : Tensor α) :
    Same (⟨s, fun idx => t.get ((List.range t.shape.length).map (fun a => g a (idx.getD a 0)))⟩ : Tensor α) (pindex (fun a x => some (g a x)) s v t) := by
  refine ⟨rfl, ?_⟩
  intro idx _
  simp [pindex]

/-- **C47** MIRROR_PAD. -/
theorem C47_mirror_pad {α : Type} (t : Tensor α) (p : List Nat) (hp : IsPerm t.shape.length p) (lo hi : List Nat) :
    Same (transpose p (mirrorPad (passArg 0 (passInv p) lo) (passArg 0 (passInv p) hi) (transpose (passInv p) t))) (mirrorPad lo hi t) := by
  have hq : IsPerm t.shape.length (passInv p) := argsort_isPerm (IsPerm.length hp)
  have hlen := transpose_shape_length hq t
  have v : Tensor α → α := fun t => t.get []
  refine pass_of_commute' hp _ _ (by simp [mirrorPad]) ?_
  refine (map_eq_pindex (fun a x => if x < (passArg 0 (passInv p) lo).getD a 0 then (passArg 0 (passInv p) lo).getD a 0 - x
    else if x < (passArg 0 (passInv p) lo).getD a 0 + (transpose (passInv p) t).shape.getD a 0 then x - (passArg 0 (passInv p) lo).getD a 0
    else 2 * ((transpose (passInv p) t).shape.getD a 0 - 1) - (x - (passArg 0 (passInv p) lo).getD a 0)) _ (v t) (transpose (passInv p) t)).trans ?_
  refine Same.trans ?_ (transpose_congr hq (by simp [pindex]) (map_eq_pindex (fun a x => if x < lo.getD a 0 then lo.getD a 0 - x
    else if x < lo.getD a 0 + t.shape.getD a 0 then x - lo.getD a 0
    else 2 * (t.shape.getD a 0 - 1) - (x - lo.getD a 0)) _ (v t) t).symm)
  refine Same.trans ?_ (pindex_transpose hq _ _ (v t) t rfl (by simp))
  refine pindex_congr _ _ _ _ _ _ ?_ (by simp) ?_
  · rw [hlen, ← range_map_perm hq (fun a => lo.getD a 0 + t.shape.getD a 0 + hi.getD a 0)]
    apply List.map_congr_left
    intro i hi'
    have hi'' : i < t.shape.length := by simpa using hi'
    rw [passArg_getD 0 hq lo hi'', passArg_getD 0 hq hi hi'', transpose_shape_getD hq t hi'']
  · intro a ha x _
    rw [hlen] at ha
    rw [passArg_getD 0 hq lo ha, transpose_shape_getD hq t ha]

private theorem zipWith_eq_map {n : Nat} (f : Nat → Nat → Nat) (a b : List Nat) (ha : a.length = n) (hb : b.length = n) :
    List.zipWith f a b = (List.range n).map (fun i => f (a.getD i 0) (b.getD i 0)) := by
  apply ext_getD (by simp [ha, hb])
  intro i hi
  have hi' : i < n := by simpa [ha, hb] using hi
  rw [getD_range_map _ _ _ _ hi']
  simp [List.getD, ha, hb, hi']

/-- **C47** TILE. -/
theorem C47_tile {α : Type} (t : Tensor α) (p : List Nat) (hp : IsPerm t.shape.length p) (m : List Nat) (hm : m.length = t.shape.length) :
    Same (transpose p (tile (passArg 0 (passInv p) m) (transpose (passInv p) t))) (tile m t) := by
  have hq : IsPerm t.shape.length (passInv p) := argsort_isPerm (IsPerm.length hp)
  have hlen := transpose_shape_length hq t
  have hml : (passArg 0 (passInv p) m).length = t.shape.length := by simp [passArg, IsPerm.length hq]
  have v : Tensor α → α := fun t => t.get []
  have key : ∀ (m : List Nat) (u : Tensor α), m.length = u.shape.length → Same (tile m u)
      (pindex (fun a x => some (x % u.shape.getD a 0)) ((List.range u.shape.length).map (fun a => u.shape.getD a 0 * m.getD a 0)) (v t) u) := by
    intro m u hm
    have hs : List.zipWith (· * ·) u.shape m = (List.range u.shape.length).map (fun a => u.shape.getD a 0 * m.getD a 0) := zipWith_eq_map _ _ _ rfl hm
    refine ⟨hs, ?_⟩
    intro idx hidx
    have hl : idx.length = u.shape.length := by have := inBounds_length hidx; simpa [tile, hm] using this
    simp only [tile, pindex, Option.isSome_some, implies_true, if_true, Option.getD_some]
    rw [zipWith_eq_map _ _ _ hl rfl]
  refine pass_of_commute' hp _ _ (by simp [tile, hm]) ?_
  refine (key _ _ (by rw [hml, hlen])).trans ?_
  refine Same.trans ?_ (transpose_congr hq (by simp [pindex]) (key m t hm).symm)
  refine Same.trans ?_ (pindex_transpose hq _ _ (v t) t rfl (by simp))
  refine pindex_congr _ _ _ _ _ _ ?_ (by simp) ?_
  · rw [hlen, ← range_map_perm hq (fun a => t.shape.getD a 0 * m.getD a 0)]
    apply List.map_congr_left
    intro i hi'
    have hi'' : i < t.shape.length := by simpa using hi'
    rw [passArg_getD 0 hq m hi'', transpose_shape_getD hq t hi'']
  · intro a ha x _
    rw [hlen] at ha
    rw [transpose_shape_getD hq t ha]

/-- **C47** SLICE with constant arguments. -/
theorem C47_slice {α : Type} (t : Tensor α) (p : List Nat) (hp : IsPerm t.shape.length p) (start size : List Nat) (h2 : size.length = t.shape.length) :
    Same (transpose p ((SliceOp.slice (passArg 0 (passInv p) start) (passArg 0 (passInv p) size)).run (transpose (passInv p) t)))
      ((SliceOp.slice start size).run t) := by
  have hq : IsPerm t.shape.length (passInv p) := argsort_isPerm (IsPerm.length hp)
  have hlen := transpose_shape_length hq t
  have v : Tensor α → α := fun t => t.get []
  refine pass_of_commute' hp _ _ (by simp [SliceOp.run, h2]) ?_
  refine (map_eq_pindex (fun a x => (passArg 0 (passInv p) start).getD a 0 + x) _ (v t) (transpose (passInv p) t)).trans ?_
  refine Same.trans ?_ (transpose_congr hq (by simp [pindex, h2]) (map_eq_pindex (fun a x => start.getD a 0 + x) _ (v t) t).symm)
  refine Same.trans ?_ (pindex_transpose hq _ _ (v t) t rfl h2)
  refine pindex_congr _ _ _ _ _ _ rfl (by simp [passArg, hlen, IsPerm.length hq]) ?_
  intro a ha x _
  rw [hlen] at ha
  rw [passArg_getD 0 hq start ha]

/-- **C47** STRIDED_SLICE with constant arguments. -/
theorem C47_strided_slice {α : Type} (t : Tensor α) (p : List Nat) (hp : IsPerm t.shape.length p) (start stop stride : List Nat) :
    Same (transpose p ((SliceOp.strided (passArg 0 (passInv p) start) (passArg 0 (passInv p) stop) (passArg 0 (passInv p) stride)).run (transpose (passInv p) t)))
      ((SliceOp.strided start stop stride).run t) := by
  have hq : IsPerm t.shape.length (passInv p) := argsort_isPerm (IsPerm.length hp)
  have hlen := transpose_shape_length hq t
  have v : Tensor α → α := fun t => t.get []
  refine pass_of_commute' hp _ _ (by simp [SliceOp.run]) ?_
  refine (map_eq_pindex (fun a x => (passArg 0 (passInv p) start).getD a 0 + x * (passArg 0 (passInv p) stride).getD a 0) _ (v t) (transpose (passInv p) t)).trans ?_
  refine Same.trans ?_ (transpose_congr hq (by simp [pindex]) (map_eq_pindex (fun a x => start.getD a 0 + x * stride.getD a 0) _ (v t) t).symm)
  refine Same.trans ?_ (pindex_transpose hq _ _ (v t) t rfl (by simp))
  refine pindex_congr _ _ _ _ _ _ ?_ (by simp) ?_
  · rw [hlen, ← range_map_perm hq (fun a => (stop.getD a 0 - start.getD a 0 + stride.getD a 0 - 1) / stride.getD a 0)]
    apply List.map_congr_left
    intro i hi'
    have hi'' : i < t.shape.length := by simpa using hi'
    rw [passArg_getD 0 hq start hi'', passArg_getD 0 hq stop hi'', passArg_getD 0 hq stride hi'']
  · intro a ha x _
    rw [hlen] at ha
    rw [passArg_getD 0 hq start ha, passArg_getD 0 hq stride ha]

/-- **C47** CONCATENATION: all inputs are transposed. -/
theorem C47_concat {α : Type} [Inhabited α] (ts : List (Tensor α)) (n : Nat) (hne : ts ≠ []) (hts : ∀ t ∈ ts, t.shape.length = n) (p : List Nat)
    (hp : IsPerm n p) (axis : Nat) (ha : axis < n) :
    ∃ axis', passAxis (passInv p) axis = some axis'
      ∧ Same (transpose p (concat axis' (ts.map (transpose (passInv p))))) (concat axis ts) := by
  have hq : IsPerm n (passInv p) := argsort_isPerm (IsPerm.length hp)
  refine ⟨_, passAxis_some hp ha, ?_⟩
  have hk := IsPerm.idxOf_lt hq ha
  have hsz : ∀ t ∈ ts, (transpose (passInv p) t).size ((passInv p).idxOf axis) = t.size axis := by
    intro t _
    unfold Tensor.size
    rw [transpose_shape_getD hq t hk, IsPerm.get_idxOf hq ha]
  have hcl : (concat axis ts).shape.length = n := by
    match ts, hne, hts with
    | t :: _, _, hts => simp [concat, hts t (by simp)]
  refine pass_of_commute' hp _ _ hcl ?_
  constructor
  · match ts, hne, hts, hsz with
    | t :: r, _, hts, hsz =>
      have ht := hts t (by simp)
      have : ((t :: r).map (transpose (passInv p))).map (fun u => u.size ((passInv p).idxOf axis)) = (t :: r).map (fun u => u.size axis) := by
        rw [List.map_map]
        apply List.map_congr_left
        intro u hu
        exact hsz u hu
      simp only [concat, List.map_cons] at this ⊢
      rw [this]
      simp only [transpose]
      exact set_perm hq t.shape ht axis _ ha
  · intro idx hidx
    have hil : idx.length = n := by
      have := inBounds_length hidx
      rw [this]
      match ts, hne, hts with
      | t :: _, _, hts => simp [concat, transpose, IsPerm.length hq]
    simp only [concat]
    have e : (transpose (passInv p) (concat axis ts)).get idx = concatGet axis ts ((src (passInv p) n idx).getD axis 0) (src (passInv p) n idx) := by
      simp only [transpose, hcl]; rfl
    change _ = (transpose (passInv p) (concat axis ts)).get idx
    rw [e, src_getD ha]
    generalize idx.getD ((passInv p).idxOf axis) 0 = x
    clear e hidx hcl hne
    induction ts generalizing x with
    | nil => rfl
    | cons t r ih =>
      simp only [List.map_cons, concatGet]
      rw [hsz t (by simp)]
      split
      · simp only [transpose]
        congr 1
        rw [hts t (by simp)]
        have hsl : (src (passInv p) n idx).length = n := by simp [src]
        rw [set_eq_map hsl]
        apply List.map_congr_left
        intro j hj
        have hj' : j < n := by simpa using hj
        rw [src_getD hj']
        have hkj := IsPerm.idxOf_lt hq hj'
        by_cases h : j = axis
        · subst h
          simp [List.getD, hil, hkj]
        · have hne' : ¬ (passInv p).idxOf axis = (passInv p).idxOf j := by
            intro e'
            apply h
            rw [← IsPerm.get_idxOf hq hj', ← e', IsPerm.get_idxOf hq ha]
          simp [List.getD, h, hne']
      · exact ih (fun u hu => hts u (by simp [hu])) (fun u hu => hsz u (by simp [hu])) _

end Verif.Props
