import Verif.Spec.Tensor
import Mathlib.Tactic.Common
import Mathlib.Tactic.Ring
import Mathlib.Tactic.Linarith
import Mathlib.Data.List.Nodup
import Mathlib.Data.List.Range
import Mathlib.Algebra.Order.BigOperators.Group.List

namespace Verif.Lemmas
open Verif.Spec

/-! ### indices -/

theorem inBounds_length {s idx : List Nat} (h : InBounds s idx) : idx.length = s.length :=
  List.Forall₂.length_eq h

theorem inBounds_iff (s idx : List Nat) :
    InBounds s idx ↔ idx.length = s.length ∧ ∀ i < s.length, idx.getD i 0 < s.getD i 0 := by
  constructor
  · intro h
    refine ⟨inBounds_length h, ?_⟩
    induction h with
    | nil => simp
    | cons h _ ih =>
      intro i hi
      cases i with
      | zero => simpa using h
      | succ i => simpa using ih i (by simpa using hi)
  · rintro ⟨hl, h⟩
    induction s generalizing idx with
    | nil => cases idx with
      | nil => exact List.Forall₂.nil
      | cons a b => simp at hl
    | cons d s ih =>
      cases idx with
      | nil => simp at hl
      | cons a b =>
        refine List.Forall₂.cons ?_ (ih b (by simpa using hl) ?_)
        · simpa using h 0 (by simp)
        · intro i hi; simpa using h (i + 1) (by simpa using hi)

theorem getD_eq_getElem {α : Type} (l : List α) (i : Nat) (d : α) (h : i < l.length) : l.getD i d = l[i] := by
  simp [List.getD, List.getElem?_eq_getElem h]

theorem getD_map_lt {α β : Type} (f : α → β) (l : List α) (i : Nat) (d : β) (e : α) (h : i < l.length) :
    (l.map f).getD i d = f (l.getD i e) := by
  simp [List.getD, List.getElem?_eq_getElem h]

theorem ext_getD {l m : List Nat} (hl : l.length = m.length) (h : ∀ i < l.length, l.getD i 0 = m.getD i 0) :
    l = m := by
  apply List.ext_getElem hl
  intro i h1 h2
  have := h i h1
  rwa [getD_eq_getElem _ _ _ h1, getD_eq_getElem _ _ _ h2] at this

theorem getD_range_map {α : Type} (f : Nat → α) (n i : Nat) (d : α) (h : i < n) :
    ((List.range n).map f).getD i d = f i := by
  simp [List.getD, h]

/-! ### permutations -/

end Verif.Lemmas

namespace Verif.Spec.IsPerm
open Verif.Lemmas

variable {n : Nat} {p : List Nat}

theorem length (h : IsPerm n p) : p.length = n := by simpa using h.length_eq
theorem nodup (h : IsPerm n p) : p.Nodup := h.nodup_iff.2 List.nodup_range
theorem mem (h : IsPerm n p) (j : Nat) : j ∈ p ↔ j < n := by rw [h.mem_iff]; simp
theorem get_lt (h : IsPerm n p) {i : Nat} (hi : i < n) : p.getD i 0 < n := by
  have hi' : i < p.length := by rw [h.length]; exact hi
  rw [getD_eq_getElem _ _ _ hi']
  exact (h.mem _).1 (List.getElem_mem hi')
theorem idxOf_lt (h : IsPerm n p) {j : Nat} (hj : j < n) : p.idxOf j < n := by
  rw [← h.length]; exact List.idxOf_lt_length_iff.2 ((h.mem j).2 hj)
theorem get_idxOf (h : IsPerm n p) {j : Nat} (hj : j < n) : p.getD (p.idxOf j) 0 = j := by
  have hl : p.idxOf j < p.length := List.idxOf_lt_length_iff.2 ((h.mem j).2 hj)
  rw [getD_eq_getElem _ _ _ hl]; exact List.getElem_idxOf hl
theorem idxOf_get (h : IsPerm n p) {i : Nat} (hi : i < n) : p.idxOf (p.getD i 0) = i := by
  have hi' : i < p.length := by rw [h.length]; exact hi
  rw [getD_eq_getElem _ _ _ hi']
  exact h.nodup.idxOf_getElem i hi'

end Verif.Spec.IsPerm

namespace Verif.Lemmas
open Verif.Spec

/-- A duplicate-free list of `n` numbers below `n` is a permutation. -/
theorem isPerm_of_nodup {n : Nat} {p : List Nat} (hl : p.length = n) (hn : p.Nodup) (hb : ∀ x ∈ p, x < n) :
    IsPerm n p := by
  have hs : p ⊆ List.range n := fun x hx => List.mem_range.2 (hb x hx)
  have hsp : p.Subperm (List.range n) := List.subperm_of_subset hn hs
  exact hsp.perm_of_length_le (by simp [hl])

theorem _root_.Verif.Spec.IsPerm.comp {n : Nat} {p q : List Nat} (hp : IsPerm n p) (hq : IsPerm n q) :
    IsPerm n (q.map (fun k => p.getD k 0)) := by
  apply isPerm_of_nodup
  · simp [IsPerm.length hq]
  · apply List.Nodup.map_on _ (IsPerm.nodup hq)
    intro x hx y hy h
    have h1 := (IsPerm.mem hq x).1 hx
    have h2 := (IsPerm.mem hq y).1 hy
    rw [← IsPerm.idxOf_get hp h1, ← IsPerm.idxOf_get hp h2, h]
  · intro x hx
    obtain ⟨k, hk, rfl⟩ := List.mem_map.1 hx
    exact IsPerm.get_lt hp ((IsPerm.mem hq k).1 hk)

theorem idxOf_comp {n : Nat} {p q : List Nat} (hp : IsPerm n p) (hq : IsPerm n q) {j : Nat} (hj : j < n) :
    (q.map (fun k => p.getD k 0)).idxOf j = q.idxOf (p.idxOf j) := by
  have hc := IsPerm.comp hp hq
  have h1 : p.idxOf j < n := IsPerm.idxOf_lt hp hj
  have h2 : q.idxOf (p.idxOf j) < n := IsPerm.idxOf_lt hq h1
  have h3 : (q.map (fun k => p.getD k 0)).getD (q.idxOf (p.idxOf j)) 0 = j := by
    rw [getD_map_lt _ _ _ _ 0 (by rw [IsPerm.length hq]; exact h2), IsPerm.get_idxOf hq h1,
      IsPerm.get_idxOf hp hj]
  have := IsPerm.idxOf_get hc h2
  rwa [h3] at this

/-! ### equality of tensors -/

theorem _root_.Verif.Spec.Same.refl {α : Type} (a : Tensor α) : Same a a := ⟨rfl, fun _ _ => rfl⟩
theorem _root_.Verif.Spec.Same.symm {α : Type} {a b : Tensor α} (h : Same a b) : Same b a :=
  ⟨h.1.symm, fun idx hi => (h.2 idx (h.1 ▸ hi)).symm⟩
theorem _root_.Verif.Spec.Same.trans {α : Type} {a b c : Tensor α} (h : Same a b) (h' : Same b c) : Same a c :=
  ⟨h.1.trans h'.1, fun idx hi => (h.2 idx hi).trans (h'.2 idx (h.1 ▸ hi))⟩

/-! ### transpose -/

theorem transpose_shape_length {α : Type} {n : Nat} {p : List Nat} (hp : IsPerm n p) (t : Tensor α) :
    (transpose p t).shape.length = n := by simp [transpose, IsPerm.length hp]

/-- The source index of an in-bounds output index is in bounds. -/
theorem transpose_src_inBounds {n : Nat} {p s idx : List Nat} (hp : IsPerm n p) (hs : s.length = n)
    (h : InBounds (p.map (fun k => s.getD k 0)) idx) :
    InBounds s ((List.range s.length).map (fun j => idx.getD (p.idxOf j) 0)) := by
  rw [inBounds_iff] at h ⊢
  refine ⟨by simp, ?_⟩
  intro j hj
  rw [getD_range_map _ _ _ _ hj]
  rw [hs] at hj
  have hk := IsPerm.idxOf_lt hp hj
  have := h.2 (p.idxOf j) (by simp [IsPerm.length hp, hk])
  rwa [getD_map_lt _ _ _ _ 0 (by rw [IsPerm.length hp]; exact hk), IsPerm.get_idxOf hp hj] at this

theorem transpose_congr {α : Type} {n : Nat} {p : List Nat} (hp : IsPerm n p) {a b : Tensor α}
    (hs : a.shape.length = n) (h : Same a b) : Same (transpose p a) (transpose p b) := by
  refine ⟨by simp [transpose, h.1], ?_⟩
  intro idx hi
  simp only [transpose]
  rw [← h.1]
  exact h.2 _ (transpose_src_inBounds hp hs hi)

theorem transpose_transpose {α : Type} {n : Nat} {p q : List Nat} (hp : IsPerm n p) (hq : IsPerm n q)
    (t : Tensor α) (hs : t.shape.length = n) :
    Same (transpose q (transpose p t)) (transpose (q.map (fun k => p.getD k 0)) t) := by
  constructor
  · simp only [transpose, List.map_map]
    apply List.map_congr_left
    intro k hk
    have hk' := (IsPerm.mem hq k).1 hk
    simp only [Function.comp]
    rw [getD_map_lt _ _ _ _ 0 (by rw [IsPerm.length hp]; exact hk')]
  · intro idx _
    simp only [transpose, List.length_map]
    congr 1
    apply List.map_congr_left
    intro j hj
    have hj' : j < n := by rw [← hs]; simpa using hj
    have h1 : p.idxOf j < n := IsPerm.idxOf_lt hp hj'
    rw [getD_range_map _ _ _ _ (by rw [IsPerm.length hp]; exact h1), idxOf_comp hp hq hj']

theorem idxOf_range {n j : Nat} (h : j < n) : (List.range n).idxOf j = j := by
  have hp : IsPerm n (List.range n) := List.Perm.refl _
  have := IsPerm.idxOf_get hp h
  have e : (List.range n).getD j 0 = j := by simp [List.getD, h]
  rwa [e] at this

theorem transpose_id {α : Type} (t : Tensor α) : Same (transpose (List.range t.shape.length) t) t := by
  constructor
  · simp only [transpose]
    apply ext_getD (by simp)
    intro i hi
    rw [getD_range_map _ _ _ _ (by simpa using hi)]
  · intro idx hi
    simp only [transpose]
    have hl := inBounds_length hi
    simp only [transpose, List.length_map, List.length_range] at hl
    congr 1
    apply ext_getD (by simp [hl])
    intro i h
    have h' : i < t.shape.length := by simpa using h
    rw [getD_range_map _ _ _ _ h', idxOf_range h']

/-- `out[i ∘ p] = in[i]`, the other way to say what a transpose does. -/
theorem transpose_get {α : Type} {n : Nat} {p : List Nat} (hp : IsPerm n p) (t : Tensor α)
    (hs : t.shape.length = n) (i : List Nat) (hi : InBounds t.shape i) :
    (transpose p t).get (p.map (fun k => i.getD k 0)) = t.get i := by
  simp only [transpose]
  congr 1
  have hl := inBounds_length hi
  apply ext_getD (by simp [hl])
  intro j hj
  have hj' : j < n := by rw [← hs]; simpa using hj
  rw [getD_range_map _ _ _ _ (by rw [hs]; exact hj'),
    getD_map_lt _ _ _ _ 0 (by rw [IsPerm.length hp]; exact IsPerm.idxOf_lt hp hj'),
    IsPerm.get_idxOf hp hj']

/-- A slice-wise operator commutes with a transpose, its axis being renamed. -/
theorem alongAxis_transpose {α : Type} {n : Nat} {p : List Nat} (hp : IsPerm n p) (t : Tensor α)
    (hs : t.shape.length = n) (a : Nat) (ha : a < n) (f : List α → Nat → α) :
    Same (alongAxis a f (transpose p t)) (transpose p (alongAxis (p.getD a 0) f t)) := by
  refine ⟨rfl, ?_⟩
  intro idx hi
  have hl : idx.length = n := by
    have := inBounds_length hi
    simpa [alongAxis, transpose, IsPerm.length hp] using this
  have hpa : p.getD a 0 < n := IsPerm.get_lt hp ha
  simp only [alongAxis, transpose]
  rw [getD_map_lt _ _ _ _ 0 (by rw [IsPerm.length hp]; exact ha),
    getD_range_map _ _ _ _ (by rw [hs]; exact hpa), IsPerm.idxOf_get hp ha]
  congr 1
  apply List.map_congr_left
  intro k _
  congr 1
  apply ext_getD (by simp)
  intro j hj
  have hj' : j < n := by rw [← hs]; simpa using hj
  rw [getD_range_map _ _ _ _ (by rw [hs]; exact hj')]
  by_cases h : j = p.getD a 0
  · subst h
    rw [IsPerm.idxOf_get hp ha]
    simp only [List.getD, List.getElem?_set]
    simp [hl, ha, hs, hpa]
    have : (p[a]?.getD 0) < n := by simpa [List.getD] using hpa
    simp [this]
  · have h2 : ¬ a = p.idxOf j := by
      intro e; apply h; rw [e, IsPerm.get_idxOf hp hj']
    have e1 : (idx.set a k).getD (p.idxOf j) 0 = idx.getD (p.idxOf j) 0 := by
      simp only [List.getD, List.getElem?_set, h2, if_false]
    have e2 : (((List.range t.shape.length).map (fun j => idx.getD (p.idxOf j) 0)).set (p.getD a 0) k).getD j 0
        = ((List.range t.shape.length).map (fun j => idx.getD (p.idxOf j) 0)).getD j 0 := by
      have : ¬ p.getD a 0 = j := fun e => h e.symm
      simp only [List.getD] at this ⊢
      simp only [List.getElem?_set, this, if_false]
    rw [e1, e2, getD_range_map _ _ _ _ (by rw [hs]; exact hj')]

/-! ### row-major offsets -/

theorem flat_lt {s idx : List Nat} (h : InBounds s idx) : flat s idx < s.prod := by
  induction h with
  | nil => simp [flat]
  | @cons i d idx s hid _ ih =>
    simp only [flat, List.prod_cons]
    calc i * s.prod + flat s idx < i * s.prod + s.prod := by omega
      _ = (i + 1) * s.prod := by ring
      _ ≤ d * s.prod := Nat.mul_le_mul_right _ hid

theorem unflat_flat {s idx : List Nat} (h : InBounds s idx) : unflat s (flat s idx) = idx := by
  induction h with
  | nil => rfl
  | @cons i d idx s hid hs ih =>
    have hlt := flat_lt hs
    simp only [flat, unflat]
    have h1 : (i * s.prod + flat s idx) / s.prod = i := by
      rw [Nat.mul_comm, Nat.mul_add_div (by omega), Nat.div_eq_of_lt hlt]; omega
    have h2 : (i * s.prod + flat s idx) % s.prod = flat s idx := by
      rw [Nat.mul_comm, Nat.mul_add_mod, Nat.mod_eq_of_lt hlt]
    rw [h1, h2, ih]

theorem unflat_inBounds {s : List Nat} {k : Nat} (h : k < s.prod) : InBounds s (unflat s k) := by
  induction s generalizing k with
  | nil => exact List.Forall₂.nil
  | cons d s ih =>
    simp only [List.prod_cons] at h
    have hp : 0 < s.prod := by
      rcases Nat.eq_zero_or_pos s.prod with h0 | h0
      · rw [h0] at h; simp at h
      · exact h0
    refine List.Forall₂.cons ?_ (ih (Nat.mod_lt _ hp))
    rw [Nat.div_lt_iff_lt_mul hp]; exact h

theorem flat_unflat {s : List Nat} {k : Nat} (h : k < s.prod) : flat s (unflat s k) = k := by
  induction s generalizing k with
  | nil => simp at h; simp [flat, h]
  | cons d s ih =>
    simp only [List.prod_cons] at h
    have hp : 0 < s.prod := by
      rcases Nat.eq_zero_or_pos s.prod with h0 | h0
      · rw [h0] at h; simp at h
      · exact h0
    simp only [unflat, flat, ih (Nat.mod_lt _ hp)]
    rw [Nat.mul_comm]; exact Nat.div_add_mod k s.prod

theorem unflat_length (s : List Nat) (k : Nat) : (unflat s k).length = s.length := by
  induction s generalizing k with
  | nil => rfl
  | cons d s ih => simp [unflat, ih]

theorem reshape_congr {α : Type} {s : List Nat} {a b : Tensor α} (h : Same a b)
    (hp : s.prod = a.shape.prod) : Same (reshape s a) (reshape s b) := by
  refine ⟨rfl, ?_⟩
  intro idx hi
  simp only [reshape]
  rw [← h.1]
  apply h.2
  apply unflat_inBounds
  rw [← hp]; exact flat_lt hi

theorem reshape_reshape {α : Type} (s u : List Nat) (t : Tensor α) (h : u.prod = s.prod) :
    Same (reshape u (reshape s t)) (reshape u t) := by
  refine ⟨rfl, ?_⟩
  intro idx hi
  simp only [reshape]
  rw [flat_unflat (by rw [← h]; exact flat_lt hi)]

theorem reshape_self {α : Type} (t : Tensor α) : Same (reshape t.shape t) t := by
  refine ⟨rfl, ?_⟩
  intro idx hi
  have hi' : InBounds t.shape idx := hi
  simp only [reshape]
  rw [unflat_flat hi']

end Verif.Lemmas
