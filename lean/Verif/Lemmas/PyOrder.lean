import Verif.Model.PyOrder
import Mathlib.Data.List.Basic
import Mathlib.Data.List.Perm.Basic
import Mathlib.Tactic.Ring

/-! The iteration order of a set is a permutation of what was added. -/

namespace Verif.Model

theorem getD_lt {t : PyTable} {i : Nat} (h : i < t.length) : t.getD i none = t[i] := by simp [List.getD, h]

theorem scanSlots_free (t : PyTable) (p i j : Nat) (hi : i + p < t.length) (h : scanSlots t i p = some j) :
    j < t.length ∧ t[j]? = some none := by
  induction p generalizing i with
  | zero =>
    simp only [scanSlots] at h
    split at h
    · rename_i hn
      have hi' : i < t.length := by omega
      rw [← Option.some.inj h]
      rw [getD_lt hi'] at hn
      exact ⟨hi', by rw [List.getElem?_eq_getElem hi', hn]⟩
    · cases h
  | succ p ih =>
    simp only [scanSlots] at h
    split at h
    · rename_i hn
      have hi' : i < t.length := by omega
      rw [← Option.some.inj h]
      rw [getD_lt hi'] at hn
      exact ⟨hi', by rw [List.getElem?_eq_getElem hi', hn]⟩
    · exact ih (i + 1) (by omega) h

theorem findSlot_free (t : PyTable) (f i p j : Nat) (hi : i < t.length) (h : findSlot t f i p = some j) :
    j < t.length ∧ t[j]? = some none := by
  induction f generalizing i p with
  | zero => simp [findSlot] at h
  | succ f ih =>
    unfold findSlot at h
    simp only at h
    cases hs : scanSlots t i (if i + 9 ≤ t.length - 1 then 9 else 0) with
    | some j' =>
      rw [hs] at h
      simp only [Option.some.injEq] at h
      subst h
      refine scanSlots_free t _ i j' ?_ hs
      split <;> omega
    | none =>
      rw [hs] at h
      exact ih _ _ (Nat.mod_lt _ (by omega)) h

theorem set_perm (t : PyTable) (j v : Nat) (h : t[j]? = some none) :
    ((t.set j (some v)).filterMap id).Perm (v :: t.filterMap id) := by
  induction t generalizing j with
  | nil => simp at h
  | cons a r ih =>
    cases j with
    | zero =>
      simp only [List.getElem?_cons_zero, Option.some.injEq] at h
      subst h
      simp
    | succ j =>
      simp only [List.getElem?_cons_succ] at h
      have := ih j h
      rw [List.set_cons_succ]
      cases a with
      | none => simpa using this
      | some w =>
        simp only [List.filterMap_cons_some (f := id) (a := some w) (b := w) rfl]
        exact (this.cons w).trans (List.Perm.swap v w _)

theorem length_pyInsert (t : PyTable) (v : Nat) : (pyInsert t v).length = t.length := by
  unfold pyInsert; split <;> simp

theorem exists_free (t : PyTable) (h : pyUsed t < t.length) : none ∈ t := by
  by_contra hc
  have : ∀ l : PyTable, none ∉ l → (l.filterMap id).length = l.length := by
    intro l hl
    induction l with
    | nil => rfl
    | cons a r ih =>
      rw [List.mem_cons, not_or] at hl
      cases a with
      | none => exact absurd rfl hl.1
      | some w =>
        rw [List.filterMap_cons_some (f := id) (a := some w) (b := w) rfl, List.length_cons, List.length_cons, ih hl.2]
  have := this t hc
  unfold pyUsed at h
  omega

theorem pyInsert_perm (t : PyTable) (v : Nat) (h : pyUsed t < t.length) :
    ((pyInsert t v).filterMap id).Perm (v :: t.filterMap id) := by
  unfold pyInsert
  have hpos : 0 < t.length := by omega
  split
  · rename_i j hj
    exact set_perm t j v (findSlot_free t _ _ _ j (Nat.mod_lt _ hpos) hj).2
  · have hm := exists_free t h
    have hl : t.idxOf none < t.length := List.idxOf_lt_length_iff.2 hm
    apply set_perm
    rw [List.getElem?_eq_getElem hl, List.getElem_idxOf hl]

theorem used_pyInsert (t : PyTable) (v : Nat) (h : pyUsed t < t.length) : pyUsed (pyInsert t v) = pyUsed t + 1 := by
  unfold pyUsed
  rw [(pyInsert_perm t v h).length_eq]; simp

theorem foldl_pyInsert (l : List Nat) (t : PyTable) (h : pyUsed t + l.length ≤ t.length) :
    ((l.foldl pyInsert t).filterMap id).Perm (l ++ t.filterMap id) ∧ (l.foldl pyInsert t).length = t.length := by
  induction l generalizing t with
  | nil => exact ⟨List.Perm.refl _, rfl⟩
  | cons a r ih =>
    rw [List.length_cons] at h
    have hu := used_pyInsert t a (by omega)
    have := ih (pyInsert t a) (by rw [hu, length_pyInsert]; omega)
    rw [List.foldl_cons]
    refine ⟨this.1.trans ?_, this.2.trans (length_pyInsert _ _)⟩
    exact ((pyInsert_perm t a (by omega)).append_left r).trans List.perm_middle

theorem newSize_gt (f s m : Nat) (h : m < s * 2 ^ f) : m < newSize f s m := by
  induction f generalizing s with
  | zero => simpa [newSize] using h
  | succ f ih =>
    unfold newSize
    split
    · exact ih _ (by rw [pow_succ] at h; calc m < s * (2 ^ f * 2) := h
                     _ = 2 * s * 2 ^ f := by ring)
    · omega

theorem tableSize_gt (used : Nat) : used < tableSize used ∨ used = 0 := by
  unfold tableSize
  simp only
  have : ∀ m, m < newSize m 8 m := fun m => newSize_gt m 8 m (by have := Nat.lt_two_pow_self (n := m); omega)
  split
  · have := this (used * 2); omega
  · have := this (used * 4); omega

theorem used_replicate (n : Nat) : (List.replicate n (none : Option Nat)).filterMap id = [] := by
  simp

theorem pyAdd_perm (t : PyTable) (v : Nat) (h : pyUsed t < t.length) :
    ((pyAdd t v).filterMap id).Perm (v :: t.filterMap id) ∧ pyUsed (pyAdd t v) < (pyAdd t v).length := by
  have hp := pyInsert_perm t v h
  have hu := used_pyInsert t v h
  unfold pyAdd
  simp only
  split
  · exact ⟨hp, by rw [length_pyInsert]; omega⟩
  · set u := pyUsed (pyInsert t v) with hu'
    have hlt : u < tableSize u := by rcases tableSize_gt u with h | h <;> omega
    have := foldl_pyInsert ((pyInsert t v).filterMap id) (List.replicate (tableSize u) none) (by
      simp only [pyUsed, used_replicate, List.length_replicate, List.length_nil]
      have : ((pyInsert t v).filterMap id).length = u := rfl
      omega)
    rw [used_replicate, List.append_nil, List.length_replicate] at this
    refine ⟨this.1.trans hp, ?_⟩
    rw [this.2]
    unfold pyUsed
    rw [this.1.length_eq]
    exact hlt

/-- Iterating a set visits exactly the elements added. -/
theorem pyOrder_perm (l : List Nat) : (pyOrder l).Perm l := by
  have : ∀ (l : List Nat) (t : PyTable), pyUsed t < t.length →
      ((l.foldl pyAdd t).filterMap id).Perm (l ++ t.filterMap id) := by
    intro l
    induction l with
    | nil => intro t _; exact List.Perm.refl _
    | cons a r ih =>
      intro t ht
      obtain ⟨h1, h2⟩ := pyAdd_perm t a ht
      rw [List.foldl_cons]
      exact (ih _ h2).trans ((h1.append_left r).trans List.perm_middle)
  have h := this l (List.replicate 8 none) (by simp [pyUsed])
  rw [used_replicate, List.append_nil] at h
  exact h

theorem complementaryList_perm (n : Nat) (rm : List Nat) :
    (complementaryList n rm).Perm ((List.range n).filter (fun i => !rm.contains i)) := by
  unfold complementaryList
  simp only
  split
  · exact List.Perm.refl _
  · exact pyOrder_perm _

end Verif.Model
