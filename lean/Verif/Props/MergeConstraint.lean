import Verif.Lemmas.MergeConstraint
import Mathlib.Data.List.Sort

/-!
C25.  `merge_constraint` computes exactly the connected components of the given family of sets
(after dropping the first `{-1}` and the empty sets): the result is a partition of the covered
channel indices, and two indices are in the same block iff a chain of overlapping input sets links
them.
-/

namespace Verif.Props
open Verif.Model Verif.Spec Verif.Lemmas

/-- C25.  `out` is the result on the family `c`; `c'` is the family without the first `{-1}`. -/
theorem C25_merge_constraint (c : List (List Int)) :
    let out := mergeConstraint c
    let c' := removeMinusOne c
    (∀ B ∈ out, B ≠ []) ∧
    out.Pairwise DisjointSets ∧
    (∀ x, Covered out x ↔ Covered c' x) ∧
    (∀ B ∈ out, ∀ x ∈ B, ∀ y, y ∈ B ↔ Linked c' x y) := by
  intro out c'
  have hne := removeEmpty_ne c'
  obtain ⟨inv, hshare⟩ := merge_final (removeEmpty c') hne
  set d := removeEmpty c' with hd
  set st := (buildMap d 0 []).foldl mergeValue (mergeInit d) with hst
  have hout : out = (((List.range d.length).map st.reidx).dedup.insertionSort (· ≤ ·)).map st.cons := rfl
  set valid := ((List.range d.length).map st.reidx).dedup.insertionSort (· ≤ ·) with hvalid
  have hvm : ∀ r, r ∈ valid ↔ ∃ i < d.length, st.reidx i = r := by
    intro r; rw [hvalid, List.mem_insertionSort, List.mem_dedup]; simp
  have hvr : ∀ r ∈ valid, r < d.length ∧ st.reidx r = r := by
    intro r hr; obtain ⟨i, hi, rfl⟩ := (hvm r).1 hr; exact inv.root i hi
  have hnd : valid.Nodup := by
    rw [hvalid, (List.perm_insertionSort _ _).nodup_iff]; exact List.nodup_dedup _
  have cov : ∀ j < d.length, ∀ x ∈ d.getD j [], x ∈ st.cons (st.reidx j) := by
    intro j hj x hx
    have := inv.root j hj
    exact (inv.cons _ this.1 this.2 x).2 ⟨j, hj, rfl, hx⟩
  have idx : ∀ s ∈ d, ∃ j < d.length, d.getD j [] = s := by
    intro s hs
    obtain ⟨j, hj, h⟩ := List.getElem_of_mem hs
    exact ⟨j, hj, by simp [List.getD, List.getElem?_eq_getElem hj, h]⟩
  -- linked elements have equal representatives
  have hlink : ∀ x y, Linked d x y → ∀ i < d.length, ∀ j < d.length, x ∈ d.getD i [] → y ∈ d.getD j [] →
      st.reidx i = st.reidx j := by
    intro x y h
    induction h with
    | @same s x y hs hx hy =>
      intro i hi j hj hxi hyj
      obtain ⟨k, hk, rfl⟩ := idx s hs
      exact (hshare i hi k hk x hxi hx).trans (hshare k hk j hj y hy hyj)
    | @trans x y z h1 h2 ih1 ih2 =>
      intro i hi j hj hxi hzj
      have hy : ∃ k < d.length, y ∈ d.getD k [] := by
        clear ih1 ih2 h2 hxi hzj
        generalize hy : y = y' at h1
        induction h1 with
        | same hs hx hy' =>
          obtain ⟨k, hk, rfl⟩ := idx _ hs
          exact ⟨k, hk, hy ▸ hy'⟩
        | trans _ _ _ ih => exact ih hy
      obtain ⟨k, hk, hyk⟩ := hy
      exact (ih1 i hi k hk hxi hyk).trans (ih2 k hk j hj hyk hzj)
  refine ⟨?_, ?_, ?_, ?_⟩
  · intro B hB
    rw [hout] at hB
    obtain ⟨r, hr, rfl⟩ := List.mem_map.1 hB
    have h := hvr r hr
    obtain ⟨x, hx⟩ := List.exists_mem_of_ne_nil _ (hne r h.1)
    have := cov r h.1 x hx
    rw [h.2] at this
    exact List.ne_nil_of_mem this
  · rw [hout, List.pairwise_map]
    refine hnd.imp_of_mem ?_
    intro a b ha hb hab x hxa hxb
    have h1 := hvr a ha
    have h2 := hvr b hb
    obtain ⟨i, hi, hia, hxi⟩ := (inv.cons a h1.1 h1.2 x).1 hxa
    obtain ⟨j, hj, hjb, hxj⟩ := (inv.cons b h2.1 h2.2 x).1 hxb
    exact hab (by rw [← hia, ← hjb]; exact hshare i hi j hj x hxi hxj)
  · intro x
    constructor
    · rintro ⟨B, hB, hx⟩
      rw [hout] at hB
      obtain ⟨r, hr, rfl⟩ := List.mem_map.1 hB
      have h := hvr r hr
      obtain ⟨j, hj, _, hxj⟩ := (inv.cons r h.1 h.2 x).1 hx
      exact ⟨_, ((mem_removeEmpty _ _).1 (getD_mem hj)).1, hxj⟩
    · rintro ⟨s, hs, hx⟩
      have hs' : s ∈ d := (mem_removeEmpty _ _).2 ⟨hs, List.ne_nil_of_mem hx⟩
      obtain ⟨j, hj, rfl⟩ := idx s hs'
      refine ⟨st.cons (st.reidx j), ?_, cov j hj x hx⟩
      rw [hout]
      exact List.mem_map.2 ⟨_, (hvm _).2 ⟨j, hj, rfl⟩, rfl⟩
  · intro B hB x hx y
    rw [hout] at hB
    obtain ⟨r, hr, rfl⟩ := List.mem_map.1 hB
    have h := hvr r hr
    obtain ⟨i, hi, hir, hxi⟩ := (inv.cons r h.1 h.2 x).1 hx
    rw [← linked_removeEmpty, ← hd]
    constructor
    · intro hy
      obtain ⟨j, hj, hjr, hyj⟩ := (inv.cons r h.1 h.2 y).1 hy
      exact inv.link i hi j hj (hir.trans hjr.symm) x hxi y hyj
    · intro hl
      have hy : ∃ k < d.length, y ∈ d.getD k [] := by
        clear hx hxi
        generalize hy : y = y' at hl
        induction hl with
        | same hs hx hy' =>
          obtain ⟨k, hk, rfl⟩ := idx _ hs
          exact ⟨k, hk, hy ▸ hy'⟩
        | trans _ _ _ ih => exact ih hy
      obtain ⟨k, hk, hyk⟩ := hy
      rw [inv.cons r h.1 h.2 y]
      exact ⟨k, hk, (hlink x y hl i hi k hk hxi hyk).symm.trans hir, hyk⟩

/-- A non-trivial instance: three chained sets, a separate one, an empty one and the `{-1}` marker. -/
example : mergeConstraint [[1, 2], [-1], [], [5], [2, 3], [3, 4]] = [[1, 2, 3, 4], [5]] := by decide

/-- C25, second half: only the first `{-1}` marker is dropped, so `removeMinusOne` is what the
statement above ranges over; here is what it does in set terms. -/
theorem C25_minus_one (c : List (List Int)) :
    (∀ s ∈ c, ¬ SameSet s [-1]) → removeMinusOne c = c := by
  intro h
  induction c with
  | nil => rfl
  | cons s r ih =>
    have hs : pySetEq s [-1] = false := by
      rw [Bool.eq_false_iff]; intro hh
      exact h s List.mem_cons_self ((pySetEq_iff _ _).1 hh)
    simp [removeMinusOne, hs, ih (fun t ht => h t (List.mem_cons_of_mem _ ht))]

theorem C25_minus_one_first (a b : List (List Int)) (m : List Int) (hm : SameSet m [-1])
    (h : ∀ s ∈ a, ¬ SameSet s [-1]) : removeMinusOne (a ++ m :: b) = a ++ b := by
  induction a with
  | nil => simp [removeMinusOne, (pySetEq_iff _ _).2 hm]
  | cons s r ih =>
    have hs : pySetEq s [-1] = false := by
      rw [Bool.eq_false_iff]; intro hh
      exact h s List.mem_cons_self ((pySetEq_iff _ _).1 hh)
    simp [removeMinusOne, hs, ih (fun t ht => h t (List.mem_cons_of_mem _ ht))]

example : removeMinusOne [[3], [-1, -1], [-1]] = [[3], [-1]] := by decide

end Verif.Props
