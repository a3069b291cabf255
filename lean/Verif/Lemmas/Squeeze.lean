import Verif.Lemmas.Tensor
import Mathlib.Algebra.BigOperators.Group.List.Basic

/-! Axes of size 1 do not change row-major offsets; lists with one entry replaced, inserted or removed. -/

namespace Verif.Lemmas
open Verif.Spec

theorem set_getD_self {α : Type} (l : List α) (i : Nat) (v d : α) (h : i < l.length) : (l.set i v).getD i d = v := by
  rw [getD_eq_getElem _ _ _ (by simpa using h)]; simp

theorem set_getD_ne {α : Type} (l : List α) (i j : Nat) (v d : α) (h : j ≠ i) : (l.set i v).getD j d = l.getD j d := by
  simp [List.getD_eq_getElem?_getD, List.getElem?_set_ne (Ne.symm h)]

theorem set_getD {l : List Nat} {a v j : Nat} (ha : a < l.length) : (l.set a v).getD j 0 = if j = a then v else l.getD j 0 := by
  split
  · next h => subst h; exact set_getD_self _ _ _ _ ha
  · next h => exact set_getD_ne _ _ _ _ _ h

theorem insert_getD {l : List Nat} {a v j : Nat} (ha : a ≤ l.length) :
    (l.insertIdx a v).getD j 0 = if j < a then l.getD j 0 else if j = a then v else l.getD (j - 1) 0 := by
  simp only [List.getD_eq_getElem?_getD]
  split
  · next h => rw [List.getElem?_insertIdx_of_lt h]
  · split
    · next h1 h => subst h; rw [List.getElem?_insertIdx_self]; simp [ha]
    · next h1 h2 => rw [List.getElem?_insertIdx_of_gt (by omega)]

theorem erase_getD {l : List Nat} {a j : Nat} : (l.eraseIdx a).getD j 0 = if j < a then l.getD j 0 else l.getD (j + 1) 0 := by
  simp only [List.getD_eq_getElem?_getD]
  split
  · next h => rw [List.getElem?_eraseIdx_of_lt h]
  · next h => rw [List.getElem?_eraseIdx_of_ge (by omega)]

theorem prod_insert_one (s : List Nat) (a : Nat) : (s.insertIdx a 1).prod = s.prod := by
  induction s generalizing a with
  | nil => cases a <;> simp
  | cons d s ih => cases a <;> simp [ih]

theorem flat_insert_one (s idx : List Nat) (a : Nat) (hl : idx.length = s.length) : flat (s.insertIdx a 1) (idx.insertIdx a 0) = flat s idx := by
  induction s generalizing a idx with
  | nil => cases a <;> cases idx <;> simp_all [flat]
  | cons d s ih =>
    cases idx with
    | nil => simp at hl
    | cons i idx =>
      cases a with
      | zero => simp [flat]
      | succ a => simp [flat, prod_insert_one, ih idx a (by simpa using hl)]

theorem insert_erase (s : List Nat) (a : Nat) (h : a < s.length) (v : Nat) : (s.eraseIdx a).insertIdx a v = s.set a v := by
  induction s generalizing a with
  | nil => simp at h
  | cons d s ih =>
    cases a with
    | zero => simp
    | succ a => simp [ih a (by simpa using h)]

theorem inBounds_insert {s idx : List Nat} (a d i : Nat) (ha : a ≤ s.length) (h : InBounds s idx) (hi : i < d) : InBounds (s.insertIdx a d) (idx.insertIdx a i) := by
  rw [inBounds_iff] at *
  obtain ⟨hl, hb⟩ := h
  have h1 : (idx.insertIdx a i).length = idx.length + 1 := by rw [List.length_insertIdx_of_le_length (by omega)]
  have h2 : (s.insertIdx a d).length = s.length + 1 := by rw [List.length_insertIdx_of_le_length (by omega)]
  refine ⟨by omega, fun j hj => ?_⟩
  rw [insert_getD (by omega), insert_getD ha]
  by_cases h3 : j < a
  · simp only [h3, if_true]; exact hb j (by omega)
  · by_cases h4 : j = a
    · simp [h4, hi]
    · simp only [h3, h4, if_false]; exact hb _ (by omega)

end Verif.Lemmas
