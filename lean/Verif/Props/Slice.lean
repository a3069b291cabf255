import Verif.Model.Slice
import Verif.Model.Layout
import Verif.Lemmas.Tensor
import Mathlib.Tactic.Common
import Mathlib.Tactic.Ring
import Mathlib.Tactic.Linarith
import Mathlib.Order.Basic

/-! C08 (slice fusion) and C09 (gather fusion). -/

namespace Verif.Props
open Verif.Model Verif.Spec Verif.Lemmas

/-! ### C08 -/

theorem lt_count_iff {s e d k : Nat} (hd : 0 < d) : k < (e - s + d - 1) / d ↔ s + k * d < e := by
  rw [Nat.lt_div_iff_mul_lt hd]
  constructor <;> intro h <;> omega

theorem getD_zipWith (f : Nat → Nat → Nat) (l m : List Nat) (a : Nat) (hl : a < l.length) (hm : a < m.length) :
    (List.zipWith f l m).getD a 0 = f (l.getD a 0) (m.getD a 0) := by
  rw [getD_eq_getElem (List.zipWith f l m) _ _ (by simp; omega), getD_eq_getElem _ _ _ hl, getD_eq_getElem _ _ _ hm]
  simp

theorem getD_map_const (l : List Nat) (c a : Nat) (hl : a < l.length) : (l.map (fun _ => c)).getD a 0 = c := by
  rw [getD_map_lt _ _ _ _ 0 hl]

/-- The accumulator describes the tensor `u` obtained so far from `t`. -/
structure SliceInv {α : Type} (t : Tensor α) (acc : SliceAcc) (u : Tensor α) : Prop where
  l1 : acc.start.length = t.shape.length
  l2 : acc.stop.length = t.shape.length
  l3 : acc.strides.length = t.shape.length
  lu : u.shape.length = t.shape.length
  pos : ∀ a < t.shape.length, 0 < acc.strides.getD a 0 ∧ acc.stop.getD a 0 ≤ t.shape.getD a 0
  le1 : ∀ a < t.shape.length, acc.strides.getD a 0 = 1 → acc.start.getD a 0 ≤ acc.stop.getD a 0
  shp : ∀ a < t.shape.length, ∀ k, k < u.shape.getD a 0 ↔
      acc.start.getD a 0 + k * acc.strides.getD a 0 < acc.stop.getD a 0
  get : ∀ idx, InBounds u.shape idx → u.get idx =
      t.get ((List.range t.shape.length).map (fun a => acc.start.getD a 0 + idx.getD a 0 * acc.strides.getD a 0))

/-- The three attribute vectors of an operator. -/
theorem sliceOp_facts {shape : List Nat} {op : SliceOp} (hv : op.Valid shape) :
    (sliceStart op).length = shape.length ∧ (sliceEnd op).length = shape.length ∧
    (sliceStrides op).length = shape.length ∧
    (∀ a < shape.length, (sliceStart op).getD a 0 ≤ (sliceEnd op).getD a 0 ∧
      (sliceEnd op).getD a 0 ≤ shape.getD a 0 ∧ 0 < (sliceStrides op).getD a 0) := by
  cases op with
  | slice s z =>
    obtain ⟨h1, h2, h3⟩ := hv
    refine ⟨h1, by simp [sliceEnd, h1, h2], by simp [sliceStrides, h1], ?_⟩
    intro a ha
    have := h3 a ha
    simp only [sliceStart, sliceEnd, sliceStrides]
    rw [getD_zipWith _ _ _ _ (by omega) (by omega), getD_map_const _ _ _ (by omega)]
    omega
  | strided s e d =>
    obtain ⟨h1, h2, h3, h4⟩ := hv
    exact ⟨h1, h2, h3, h4⟩

/-- One operator, described by its attribute vectors. -/
theorem sliceOp_run {α : Type} (u : Tensor α) (op : SliceOp) (hv : op.Valid u.shape) :
    (op.run u).shape.length = u.shape.length ∧
    (∀ a < u.shape.length, ∀ k, k < (op.run u).shape.getD a 0 ↔
      (sliceStart op).getD a 0 + k * (sliceStrides op).getD a 0 < (sliceEnd op).getD a 0) ∧
    (∀ idx, (op.run u).get idx = u.get ((List.range u.shape.length).map
      (fun a => (sliceStart op).getD a 0 + idx.getD a 0 * (sliceStrides op).getD a 0))) := by
  cases op with
  | slice s z =>
    obtain ⟨h1, h2, h3⟩ := hv
    refine ⟨h2, ?_, ?_⟩
    · intro a ha k
      simp only [SliceOp.run, sliceStart, sliceEnd, sliceStrides]
      rw [getD_zipWith _ _ _ _ (by omega) (by omega), getD_map_const _ _ _ (by omega)]
      omega
    · intro idx
      simp only [SliceOp.run, sliceStart, sliceStrides]
      congr 1
      apply List.map_congr_left
      intro a ha
      have ha : a < u.shape.length := by simpa using ha
      rw [getD_map_const _ _ _ (by omega), Nat.mul_one]
  | strided s e d =>
    obtain ⟨h1, h2, h3, h4⟩ := hv
    refine ⟨by simp [SliceOp.run], ?_, fun _ => rfl⟩
    intro a ha k
    simp only [SliceOp.run, sliceStart, sliceEnd, sliceStrides]
    rw [getD_range_map _ _ _ _ ha]
    exact lt_count_iff (h4 a ha).2.2

theorem sliceFirst_inv {α : Type} (t : Tensor α) (op : SliceOp) (hv : op.Valid t.shape) :
    SliceInv t (sliceFirst op) (op.run t) := by
  obtain ⟨h1, h2, h3, h4⟩ := sliceOp_facts hv
  obtain ⟨r1, r2, r3⟩ := sliceOp_run t op hv
  have hstop : ∀ a < t.shape.length, (sliceFirst op).stop.getD a 0 = (sliceEnd op).getD a 0 := by
    intro a ha
    simp only [sliceFirst]
    rw [getD_zipWith _ _ _ _ (by simp; omega) (by simp; omega), getD_zipWith _ _ _ _ (by omega) (by simp; omega),
      getD_map_const _ _ _ (by omega), getD_map_const _ _ _ (by omega)]
    omega
  refine ⟨h1, by simp [sliceFirst, h1, h2], h3, r1, ?_, ?_, ?_, fun idx _ => r3 idx⟩
  · intro a ha
    rw [hstop a ha]
    exact ⟨(h4 a ha).2.2, (h4 a ha).2.1⟩
  · intro a ha _
    rw [hstop a ha]
    exact (h4 a ha).1
  · intro a ha k
    rw [hstop a ha]
    exact r2 a ha k

theorem sliceNext_inv {α : Type} (t u : Tensor α) (acc : SliceAcc) (op : SliceOp) (inv : SliceInv t acc u)
    (hv : op.Valid u.shape) : SliceInv t (sliceNext acc op) (op.run u) := by
  obtain ⟨h1, h2, h3, h4⟩ := sliceOp_facts hv
  obtain ⟨r1, r2, r3⟩ := sliceOp_run u op hv
  have lu := inv.lu
  have l1 := inv.l1
  have l2 := inv.l2
  have l3 := inv.l3
  have e1 : ∀ a < t.shape.length, (sliceNext acc op).start.getD a 0 =
      acc.start.getD a 0 + (sliceStart op).getD a 0 * acc.strides.getD a 0 := by
    intro a ha
    simp only [sliceNext]
    rw [getD_zipWith _ _ _ _ (by omega) (by simp; omega), getD_zipWith _ _ _ _ (by omega) (by omega)]
  have e2 : ∀ a < t.shape.length, (sliceNext acc op).stop.getD a 0 =
      min (acc.stop.getD a 0) (acc.start.getD a 0 + (sliceEnd op).getD a 0 * acc.strides.getD a 0) := by
    intro a ha
    simp only [sliceNext]
    rw [getD_zipWith _ _ _ _ (by omega) (by simp; omega), getD_zipWith _ _ _ _ (by omega) (by simp; omega),
      getD_zipWith _ _ _ _ (by omega) (by omega)]
  have e3 : ∀ a < t.shape.length, (sliceNext acc op).strides.getD a 0 =
      acc.strides.getD a 0 * (sliceStrides op).getD a 0 := by
    intro a ha
    simp only [sliceNext]
    rw [getD_zipWith _ _ _ _ (by omega) (by omega)]
  refine ⟨by simp [sliceNext]; omega, by simp [sliceNext]; omega, by simp [sliceNext]; omega, by omega, ?_, ?_, ?_, ?_⟩
  · intro a ha
    rw [e3 a ha, e2 a ha]
    have := inv.pos a ha
    exact ⟨Nat.mul_pos this.1 (h4 a (by omega)).2.2, le_trans (min_le_left _ _) this.2⟩
  · intro a ha h
    rw [e3 a ha] at h
    rw [e1 a ha, e2 a ha]
    have hd : acc.strides.getD a 0 = 1 := Nat.eq_one_of_mul_eq_one_right h
    have hle := inv.le1 a ha hd
    have hf := h4 a (by omega)
    have hs := inv.shp a ha
    rw [hd] at hs ⊢
    have hlen : acc.start.getD a 0 + u.shape.getD a 0 ≤ acc.stop.getD a 0 := by
      by_contra hc
      have hpos : 0 < u.shape.getD a 0 := by
        by_contra h0
        have : u.shape.getD a 0 = 0 := by omega
        omega
      have := (hs (u.shape.getD a 0 - 1)).1 (by omega)
      omega
    simp only [Nat.mul_one]
    apply le_min <;> omega
  · intro a ha k
    rw [r2 a (by omega) k, e1 a ha, e2 a ha, e3 a ha, lt_min_iff]
    set d1 := acc.strides.getD a 0 with hd1
    set d2 := (sliceStrides op).getD a 0
    set s1 := acc.start.getD a 0
    set s2 := (sliceStart op).getD a 0
    set E2 := (sliceEnd op).getD a 0
    have hpos := (inv.pos a ha).1
    have key : s1 + s2 * d1 + k * (d1 * d2) = s1 + (s2 + k * d2) * d1 := by ring
    rw [key]
    constructor
    · intro h
      refine ⟨?_, ?_⟩
      · apply (inv.shp a ha (s2 + k * d2)).1
        exact lt_of_lt_of_le h (h4 a (by omega)).2.1
      · exact Nat.add_lt_add_left (Nat.mul_lt_mul_of_pos_right h hpos) s1
    · rintro ⟨_, h⟩
      have : (s2 + k * d2) * d1 < E2 * d1 := Nat.lt_of_add_lt_add_left h
      exact Nat.lt_of_mul_lt_mul_right this
  · intro idx hb
    rw [r3 idx, inv.get]
    · congr 1
      apply List.map_congr_left
      intro a ha
      have ha : a < t.shape.length := by simpa using ha
      rw [getD_range_map _ _ _ _ (by omega), e1 a ha, e3 a ha]
      ring
    · rw [inBounds_iff] at hb ⊢
      refine ⟨by simp, ?_⟩
      intro a ha
      rw [getD_range_map _ _ _ _ ha]
      have := (r2 a ha (idx.getD a 0)).1 (hb.2 a (by omega))
      exact lt_of_lt_of_le this (h4 a ha).2.1

theorem slice_foldl_inv {α : Type} (t : Tensor α) (ops : List SliceOp) (acc : SliceAcc) (u : Tensor α)
    (inv : SliceInv t acc u) (hv : ChainValid ops u) :
    SliceInv t (ops.foldl sliceNext acc) (runSlices ops u) := by
  induction ops generalizing acc u with
  | nil => exact inv
  | cons op ops ih => exact ih _ _ (sliceNext_inv t u acc op inv hv.1) hv.2

theorem all_one_iff (l : List Nat) : l.all (· == 1) = true ↔ ∀ a < l.length, l.getD a 0 = 1 := by
  rw [List.all_eq_true]
  constructor
  · intro h a ha
    rw [getD_eq_getElem _ _ _ ha]
    simpa using h _ (List.getElem_mem ha)
  · intro h x hx
    obtain ⟨a, ha, rfl⟩ := List.mem_iff_getElem.1 hx
    have := h a ha
    rw [getD_eq_getElem _ _ _ ha] at this
    simpa using this

/-- C08.  For every chain of in-range SLICE / STRIDED_SLICE operators, of any length and rank, the single
operator that replaces it selects exactly the same elements in the same order; when it is a SLICE, it is
in range. -/
theorem C08_slice_chain {α : Type} (t : Tensor α) (op : SliceOp) (rest : List SliceOp)
    (hv : ChainValid (op :: rest) t) :
    Same ((emitSlice (fuseSlices op rest)).run t) (runSlices (op :: rest) t) ∧
    (∀ s z, emitSlice (fuseSlices op rest) = .slice s z → (SliceOp.slice s z).Valid t.shape) := by
  have inv : SliceInv t (fuseSlices op rest) (runSlices (op :: rest) t) :=
    slice_foldl_inv t rest _ _ (sliceFirst_inv t op hv.1) hv.2
  set acc := fuseSlices op rest
  set u := runSlices (op :: rest) t
  have l1 := inv.l1
  have l2 := inv.l2
  have l3 := inv.l3
  have lu := inv.lu
  by_cases hall : acc.strides.all (· == 1) = true
  · have hE : emitSlice acc = .slice acc.start (List.zipWith (· - ·) acc.stop acc.start) := by
      unfold emitSlice; rw [if_pos hall]
    rw [all_one_iff] at hall
    rw [hE]
    have hshape : List.zipWith (· - ·) acc.stop acc.start = u.shape := by
      apply ext_getD (by simp; omega)
      intro a ha
      have ha : a < t.shape.length := by simp at ha; omega
      rw [getD_zipWith _ _ _ _ (by omega) (by omega)]
      apply eq_of_forall_lt_iff
      intro k
      rw [inv.shp a ha k, hall a (by omega)]
      omega
    refine ⟨⟨?_, ?_⟩, ?_⟩
    · simp only [SliceOp.run]; exact hshape
    · intro idx hb
      simp only [SliceOp.run] at hb ⊢
      rw [hshape] at hb
      rw [inv.get idx hb]
      congr 1
      apply List.map_congr_left
      intro a ha
      have ha : a < t.shape.length := by simpa using ha
      rw [hall a (by omega), Nat.mul_one]
    · rintro s z h
      simp only [SliceOp.slice.injEq] at h
      obtain ⟨rfl, rfl⟩ := h
      refine ⟨l1, by simp; omega, ?_⟩
      intro a ha
      rw [getD_zipWith _ _ _ _ (by omega) (by omega)]
      have h1 := inv.le1 a ha (hall a (by omega))
      have h2 := (inv.pos a ha).2
      omega
  · have hE : emitSlice acc = .strided acc.start acc.stop acc.strides := by
      unfold emitSlice; rw [if_neg hall]
    rw [hE]
    have hshape : (List.range t.shape.length).map
        (fun a => (acc.stop.getD a 0 - acc.start.getD a 0 + acc.strides.getD a 0 - 1) / acc.strides.getD a 0) = u.shape := by
      apply ext_getD (by simp; omega)
      intro a ha
      have ha : a < t.shape.length := by simpa using ha
      rw [getD_range_map _ _ _ _ ha]
      apply eq_of_forall_lt_iff
      intro k
      rw [inv.shp a ha k, lt_count_iff (inv.pos a ha).1]
    refine ⟨⟨hshape, ?_⟩, by intro s z h; simp at h⟩
    intro idx hb
    simp only [SliceOp.run] at hb ⊢
    rw [hshape] at hb
    rw [inv.get idx hb]

/-- A non-trivial chain: every third element from 1, of those the 2nd to 4th, of those every second. -/
example (f : List Nat → Int) :
    ChainValid [.strided [1, 0] [20, 4] [3, 1], .slice [1, 0] [3, 4], .strided [0, 1] [3, 4] [2, 3]]
      (⟨[20, 4], f⟩ : Tensor Int) ∧
    emitSlice (fuseSlices (.strided [1, 0] [20, 4] [3, 1]) [.slice [1, 0] [3, 4], .strided [0, 1] [3, 4] [2, 3]])
      = .strided [4, 1] [13, 4] [6, 3] := by
  refine ⟨?_, by decide⟩
  simp only [ChainValid, SliceOp.Valid, SliceOp.run]
  decide

/-! ### C09 -/

theorem set_getD_self (idx : List Nat) (a v : Nat) (h : a < idx.length) : (idx.set a v).getD a 0 = v := by
  rw [getD_eq_getElem _ _ _ (by simpa using h)]; simp

theorem gather_gather {α : Type} (a : Nat) (p q : List Nat) (t : Tensor α) (ha : a < t.shape.length)
    (hq : ∀ k ∈ q, k < p.length) :
    Same (gather a q (gather a p t)) (gather a (npTake p q) t) := by
  constructor
  · simp [gather, npTake]
  · intro idx hb
    have hl := inBounds_length hb
    simp only [gather, List.length_set] at hl
    simp only [gather, npTake]
    rw [set_getD_self _ _ _ (by omega), List.set_set]
    congr 2
    have h2 := ((inBounds_iff _ _).1 hb).2 a (by simpa [gather] using ha)
    simp only [gather, List.set_set] at h2
    rw [set_getD_self _ _ _ ha] at h2
    rw [getD_map_lt _ _ _ _ 0 h2]

theorem gather_congr {α : Type} (a : Nat) (p : List Nat) (t u : Tensor α) (ha : a < t.shape.length)
    (hp : ∀ k ∈ p, k < t.shape.getD a 0) (h : Same t u) : Same (gather a p t) (gather a p u) := by
  constructor
  · simp [gather, h.1]
  · intro idx hb
    simp only [gather] at hb ⊢
    apply h.2
    rw [inBounds_iff] at hb ⊢
    obtain ⟨h1, h2⟩ := hb
    simp only [List.length_set] at h1 h2
    refine ⟨by simpa using h1, ?_⟩
    intro i hi
    by_cases hia : i = a
    · subst hia
      rw [set_getD_self _ _ _ (by omega)]
      have := h2 i hi
      rw [set_getD_self _ _ _ ha] at this
      rw [getD_eq_getElem _ _ _ this]
      exact hp _ (List.getElem_mem this)
    · have := h2 i hi
      simp only [List.getD, List.getElem?_set_ne (Ne.symm hia)] at this ⊢
      exact this

theorem fuseGather_spec {α : Type} (a : Nat) (t : Tensor α) (ha : a < t.shape.length) :
    ∀ (rest : List (List Nat)) (cur : List Nat), (∀ k ∈ cur, k < t.shape.getD a 0) →
      GathersValid cur.length rest → ∀ u, Same u (gather a cur t) →
      ∃ p, fusePermsLoop (some cur) rest = some p ∧ (∀ k ∈ p, k < t.shape.getD a 0) ∧
        Same (runGathers a rest u) (gather a p t) := by
  intro rest
  induction rest with
  | nil => intro cur hc _ u hu; exact ⟨cur, rfl, hc, hu⟩
  | cons q rest ih =>
    intro cur hc hv u hu
    obtain ⟨hq, hv'⟩ := hv
    have hlen : (npTake cur q).length = q.length := by simp [npTake]
    have hc' : ∀ k ∈ npTake cur q, k < t.shape.getD a 0 := by
      intro k hk
      obtain ⟨x, hx, rfl⟩ := List.mem_map.1 hk
      have := hq x hx
      rw [getD_eq_getElem _ _ _ this]
      exact hc _ (List.getElem_mem this)
    have hu' : Same (gather a q u) (gather a (npTake cur q) t) := by
      have h1 := gather_congr a q u (gather a cur t) (by rw [hu.1]; simpa [gather] using ha)
        (by intro k hk; rw [hu.1]; simp only [gather]; rw [set_getD_self _ _ _ ha]; exact hq k hk) hu
      exact h1.trans (gather_gather a cur q t ha hq)
    obtain ⟨p, h1, h2, h3⟩ := ih (npTake cur q) hc' (by rw [hlen]; exact hv') _ hu'
    exact ⟨p, by simpa [fusePermsLoop] using h1, h2, h3⟩

/-- C09, partial.  A chain of gathers on one axis that is replaced by a single gather is replaced by an
equivalent one; a chain that is removed altogether is a no-op provided the fused index vector is a
permutation of the axis.  Missing: removal for index vectors that are sorted but not the identity —
there the code is wrong, see `C09_gather_removed_false`. -/
theorem C09_gather_chain_partial {α : Type} (a : Nat) (t : Tensor α) (ha : a < t.shape.length)
    (ixs : List (List Nat)) (hne : ixs ≠ []) (hv : GathersValid (t.shape.getD a 0) ixs) :
    ∃ p, fuseTransposePerms ixs = some p ∧ Same (runGathers a ixs t) (gather a p t) ∧
      (isSortedPerm p = true → IsPerm (t.shape.getD a 0) p → Same (runGathers a ixs t) t) := by
  cases ixs with
  | nil => exact absurd rfl hne
  | cons q rest =>
    obtain ⟨p, h1, h2, h3⟩ := fuseGather_spec a t ha rest q hv.1 hv.2 (gather a q t) (Same.refl _)
    refine ⟨p, by simpa [fuseTransposePerms, fusePermsLoop] using h1, h3, ?_⟩
    intro hs hp
    refine Same.trans h3 ?_
    have hpr : p = List.range (t.shape.getD a 0) := by
      have hs' : p = p.insertionSort (· ≤ ·) := by simpa [isSortedPerm] using hs
      have h1 : p.Pairwise (· ≤ ·) := by rw [hs']; exact List.pairwise_insertionSort _ _
      exact List.Perm.eq_of_pairwise (fun a b _ _ h1 h2 => le_antisymm h1 h2) h1
        (List.pairwise_lt_range.imp (fun h => le_of_lt h)) hp
    subst hpr
    constructor
    · simp only [gather, List.length_range]
      apply ext_getD (by simp)
      intro i hi
      by_cases hia : i = a
      · subst hia; rw [set_getD_self _ _ _ ha]
      · simp only [List.getD, List.getElem?_set_ne (Ne.symm hia)]
    · intro idx hb
      simp only [gather] at hb ⊢
      have hl := inBounds_length hb
      simp only [List.length_set] at hl
      have h2 := ((inBounds_iff _ _).1 hb).2 a (by simpa using ha)
      rw [set_getD_self _ _ _ ha, List.length_range] at h2
      congr 1
      have e : (List.range (t.shape.getD a 0)).getD (idx.getD a 0) 0 = idx.getD a 0 := by
        rw [getD_eq_getElem _ _ _ (by simpa using h2)]; simp
      rw [e]
      apply ext_getD (by simp)
      intro i hi
      by_cases hia : i = a
      · subst hia; rw [set_getD_self _ _ _ (by omega)]
      · simp only [List.getD, List.getElem?_set_ne (Ne.symm hia)]

example : GathersValid 4 [[3, 1, 0], [2, 1]] ∧ fuseTransposePerms [[3, 1, 0], [2, 1]] = some [0, 1] := by
  refine ⟨?_, by decide⟩
  simp only [GathersValid]; decide

/-- C09 is false in general: the chain `[3,1,0]` then `[2,1]` on an axis of size 4 selects the elements
0 and 1, but its fused index vector is sorted, so the pass removes both gathers and all four elements
remain. -/
theorem C09_gather_removed_false : ∃ (t : Tensor Nat) (ixs : List (List Nat)) (p : List Nat),
    GathersValid (t.shape.getD 0 0) ixs ∧ fuseTransposePerms ixs = some p ∧ isSortedPerm p = true ∧
    ¬ Same (runGathers 0 ixs t) t := by
  refine ⟨⟨[4], fun i => i.getD 0 0⟩, [[3, 1, 0], [2, 1]], [0, 1], ?_, by decide, by decide, ?_⟩
  · simp only [GathersValid]; decide
  · rintro ⟨h, _⟩
    simp [runGathers, gather] at h

/-- The removal also changes values when the shape happens to survive: selecting `[0,0]` from two
elements. -/
theorem C09_gather_repeated_false : ∃ (t : Tensor Nat) (ixs : List (List Nat)) (p : List Nat),
    GathersValid (t.shape.getD 0 0) ixs ∧ fuseTransposePerms ixs = some p ∧ isSortedPerm p = true ∧
    (runGathers 0 ixs t).shape = t.shape ∧ ¬ Same (runGathers 0 ixs t) t := by
  refine ⟨⟨[2], fun i => i.getD 0 0⟩, [[1, 0], [1, 1]], [0, 0], ?_, by decide, by decide, rfl, ?_⟩
  · simp only [GathersValid]; decide
  · rintro ⟨_, h⟩
    have := h [1] (by simp [runGathers, gather, InBounds])
    simp [runGathers, gather] at this

end Verif.Props
