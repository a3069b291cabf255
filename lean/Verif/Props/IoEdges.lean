import Verif.Model.IoLayout
import Mathlib.Data.List.Nodup
import Mathlib.Tactic.Common

/-!
C105: the edges of the graph after the pass for the outputs.
-/

namespace Verif.Props
open Verif.Model.IoLayout

section IoEdges

/-- What comes first in a list has the lower number. -/
theorem idxOf_lt_of_sublist {l : List Edge} (hn : l.Nodup) {x y : Edge} (h : [x, y].Sublist l) : l.idxOf x < l.idxOf y := by
  induction l with
  | nil => simp at h
  | cons a l ih =>
    obtain ⟨ha, hn'⟩ := List.nodup_cons.1 hn
    by_cases hxa : a = x
    · subst hxa
      have hya : a ≠ y := by
        have := List.Sublist.nodup h hn
        simp at this
        exact this
      simp [List.idxOf_cons, hya]
    · rw [List.sublist_cons_iff] at h
      rcases h with h | ⟨r, hr, _⟩
      · have hya : a ≠ y := fun e => ha (e ▸ h.subset (by simp))
        have := ih hn' h
        rw [List.idxOf_cons_ne _ hxa, List.idxOf_cons_ne _ hya]
        omega
      · simp only [List.cons.injEq] at hr
        exact absurd hr.1.symm hxa

theorem mem_deleteIds {l C : List Edge} (hn : l.Nodup) (e : Edge) : e ∈ deleteIds (C.map l.idxOf) l ↔ e ∈ l ∧ ∀ c ∈ C, c ∈ l → c ≠ e := by
  simp only [deleteIds, List.mem_map, List.mem_filter, decide_eq_true_eq, List.mem_zipIdx_iff_getElem?, Prod.exists, exists_and_right, exists_eq_right]
  constructor
  · rintro ⟨i, hi, hc⟩
    refine ⟨List.mem_of_getElem? hi, ?_⟩
    rintro c hcC hcl rfl
    obtain ⟨hlt, he⟩ := List.getElem?_eq_some_iff.1 hi
    exact hc ⟨c, hcC, by rw [← he]; exact hn.idxOf_getElem i hlt⟩
  · rintro ⟨hm, hc⟩
    refine ⟨l.idxOf e, ?_, ?_⟩
    · rw [List.getElem?_eq_getElem (List.idxOf_lt_length_of_mem hm), List.getElem_idxOf]
    · rintro ⟨c, hcC, hci⟩
      have hlt : l.idxOf c < l.length := by rw [hci]; exact List.idxOf_lt_length_of_mem hm
      have hcl : c ∈ l := List.idxOf_lt_length_iff.1 hlt
      exact hc c hcC hcl ((List.idxOf_inj hcl).1 hci)

theorem actions_spec (as : List Action) : ∀ (es C : List Edge), (es ++ as.map Action.new).Nodup → (∀ c ∈ C, c ∈ es) → (∀ a ∈ as, a.old ∈ es) → (C ++ as.map Action.old).Nodup →
    (∀ c ∈ C, ∀ b ∈ as, b.later = false → [c, b.old].Sublist es) → as.Pairwise (fun a b => a.later = true → b.later = false → [a.old, b.old].Sublist es) →
    ∀ e, e ∈ deleteIds (actions as es (C.map es.idxOf)).2 (actions as es (C.map es.idxOf)).1 ↔ (e ∈ es ∧ e ∉ C ∧ e ∉ as.map Action.old) ∨ e ∈ as.map Action.new := by
  induction as with
  | nil =>
    intro es C hn hC _ _ _ _ e
    simp only [actions]
    rw [mem_deleteIds (by simpa using hn)]
    simp only [List.map_nil, List.not_mem_nil, not_false_eq_true, and_true, or_false]
    exact and_congr_right fun _ => ⟨fun h hc => h e hc (hC e hc) rfl, fun h c hc _ hce => h (hce ▸ hc)⟩
  | cons a as ih =>
    intro es C hn hC hold hdis hord hpw e
    have hao : a.old ∈ es := hold a (by simp)
    rw [List.map_cons] at hn hdis
    have hne : es.Nodup := (List.nodup_append.1 hn).1
    have hnew : a.new ∉ es := fun h => (List.nodup_append.1 hn).2.2 _ h _ (by simp) rfl
    rw [List.pairwise_cons] at hpw
    by_cases hl : a.later = true
    · have e1 : actions (a :: as) es (C.map es.idxOf) = actions as (es ++ [a.new]) ((C ++ [a.old]).map (es ++ [a.new]).idxOf) := by
        rw [actions, if_pos hl, if_pos hao]
        congr 1
        rw [List.map_append, List.map_singleton, List.idxOf_append_of_mem hao]
        congr 1
        exact List.map_congr_left fun c hc => (List.idxOf_append_of_mem (hC c hc)).symm
      rw [e1, ih]
      · have : e = a.new → e ∉ C ∧ e ≠ a.old ∧ e ∉ as.map Action.old := by
          rintro rfl
          refine ⟨fun h => hnew (hC _ h), fun h => hnew (h ▸ hao), fun h => ?_⟩
          obtain ⟨b, hb, hbe⟩ := List.mem_map.1 h
          exact hnew (hbe ▸ hold b (by simp [hb]))
        simp only [List.mem_append, List.mem_singleton, List.map_cons, List.mem_cons, not_or]
        tauto
      · simpa using hn
      · intro c hc
        simp only [List.mem_append, List.mem_singleton] at hc ⊢
        rcases hc with hc | rfl
        · exact Or.inl (hC c hc)
        · exact Or.inl hao
      · intro b hb
        exact List.mem_append_left _ (hold b (by simp [hb]))
      · simpa using hdis
      · intro c hc b hb hbl
        refine List.Sublist.trans ?_ (List.sublist_append_left es [a.new])
        simp only [List.mem_append, List.mem_singleton] at hc
        rcases hc with hc | rfl
        · exact hord c hc b (by simp [hb]) hbl
        · exact hpw.1 b hb hl hbl
      · exact hpw.2.imp fun h h1 h2 => (h h1 h2).trans (List.sublist_append_left es [a.new])
    · have hl' : a.later = false := by simpa using hl
      have hCa : ∀ c ∈ C, c ≠ a.old := fun c hc h => (List.nodup_append.1 hdis).2.2 c hc a.old (by simp) h
      have hasa : ∀ b ∈ as, b.old ≠ a.old := by
        intro b hb h
        have := (List.nodup_cons.1 (List.nodup_append.1 hdis).2.1).1
        exact this (List.mem_map.2 ⟨b, hb, h⟩)
      have her : es.eraseIdx (es.idxOf a.old) = es.erase a.old := (List.erase_eq_eraseIdx_of_idxOf rfl).symm
      have hidx : ∀ c ∈ C, (es.erase a.old).idxOf c = es.idxOf c := by
        intro c hc
        have hlt := idxOf_lt_of_sublist hne (hord c hc a (by simp) hl')
        have hcm := hC c hc
        have hce : c ∈ es.erase a.old := (List.mem_erase_of_ne (hCa c hc)).2 hcm
        have hnE : (es.erase a.old).Nodup := hne.erase _
        have h1 : (es.erase a.old)[es.idxOf c]? = some c := by
          rw [← her, List.getElem?_eraseIdx_of_lt hlt, List.getElem?_eq_getElem (List.idxOf_lt_length_of_mem hcm), List.getElem_idxOf]
        obtain ⟨hlt', he⟩ := List.getElem?_eq_some_iff.1 h1
        conv_lhs => rw [← he]
        exact hnE.idxOf_getElem _ hlt'
      have hsub : ∀ c b : Edge, c ≠ a.old → b ≠ a.old → [c, b].Sublist es → [c, b].Sublist (es.erase a.old ++ [a.new]) := by
        intro c b hc hb h
        refine List.Sublist.trans ?_ (List.sublist_append_left _ _)
        rw [hne.erase_eq_filter]
        have := h.filter (fun x => x != a.old)
        simpa [hc, hb] using this
      have e1 : actions (a :: as) es (C.map es.idxOf) = actions as (es.erase a.old ++ [a.new]) (C.map (es.erase a.old ++ [a.new]).idxOf) := by
        rw [actions, if_neg hl, her]
        congr 1
        refine List.map_congr_left fun c hc => ?_
        rw [List.idxOf_append_of_mem ((List.mem_erase_of_ne (hCa c hc)).2 (hC c hc)), hidx c hc]
      rw [e1, ih]
      · have h1 : e = a.new → e ∉ C ∧ e ≠ a.old ∧ e ∉ as.map Action.old := by
          rintro rfl
          refine ⟨fun h => hnew (hC _ h), fun h => hnew (h ▸ hao), fun h => ?_⟩
          obtain ⟨b, hb, hbe⟩ := List.mem_map.1 h
          exact hnew (hbe ▸ hold b (by simp [hb]))
        simp only [List.mem_append, List.mem_singleton, List.map_cons, List.mem_cons, not_or, hne.mem_erase_iff]
        tauto
      · rw [List.append_assoc]
        rw [List.nodup_append] at hn ⊢
        refine ⟨hne.erase _, by simpa using hn.2.1, fun x hx y hy => hn.2.2 x (List.mem_of_mem_erase hx) y (by simpa using hy)⟩
      · intro c hc
        exact List.mem_append_left _ ((List.mem_erase_of_ne (hCa c hc)).2 (hC c hc))
      · intro b hb
        exact List.mem_append_left _ ((List.mem_erase_of_ne (hasa b hb)).2 (hold b (by simp [hb])))
      · refine hdis.sublist ?_
        exact List.Sublist.append_left (List.sublist_cons_self _ _) _
      · intro c hc b hb hbl
        exact hsub c b.old (hCa c hc) (hasa b hb) (hord c hc b (by simp [hb]) hbl)
      · refine hpw.2.imp_of_mem fun {b c} hb hc h h1 h2 => ?_
        exact hsub _ _ (hasa b hb) (hasa c hc) (h h1 h2)

/-- C105, in part: the edges after the pass are those for the new operands, if no edge deleted at once stands before one collected earlier. -/
theorem C105_edges_partial (as : List Action) (es : List Edge) (hn : (es ++ as.map Action.new).Nodup) (ho : ∀ a ∈ as, a.old ∈ es) (hd : (as.map Action.old).Nodup)
    (hord : as.Pairwise fun a b => a.later = true → b.later = false → [a.old, b.old].Sublist es) (e : Edge) :
    e ∈ finalEdges as es ↔ (e ∈ es ∧ ∀ a ∈ as, a.old ≠ e) ∨ ∃ a ∈ as, a.new = e := by
  have := actions_spec as es [] hn (by simp) ho (by simpa using hd) (by simp) hord e
  simp only [List.map_nil] at this
  simp only [finalEdges, this]
  simp

/-- Edges of a model with the outputs of two DEQUANTIZE: 1 → 2 (DEQUANTIZE) → 3 (another operator) and 4 → 5 (DEQUANTIZE) → 6 (the output); 12 and 15 are the new transposes and 13 the transpose back. -/
def ioEdges : List Edge := [⟨1, 101, 2⟩, ⟨2, 102, 3⟩, ⟨4, 104, 5⟩, ⟨5, 105, 6⟩]

/-- The outputs in the order of the operators. -/
def ioInOrder : List Action := [⟨⟨1, 101, 2⟩, ⟨12, 112, 2⟩, true⟩, ⟨⟨2, 102, 3⟩, ⟨13, 113, 3⟩, false⟩, ⟨⟨4, 104, 5⟩, ⟨15, 115, 5⟩, true⟩]

/-- The outputs in the other order. -/
def ioReversed : List Action := [⟨⟨4, 104, 5⟩, ⟨15, 115, 5⟩, true⟩, ⟨⟨1, 101, 2⟩, ⟨12, 112, 2⟩, true⟩, ⟨⟨2, 102, 3⟩, ⟨13, 113, 3⟩, false⟩]

example : ∀ e, e ∈ finalEdges ioInOrder ioEdges ↔ (e ∈ ioEdges ∧ ∀ a ∈ ioInOrder, a.old ≠ e) ∨ ∃ a ∈ ioInOrder, a.new = e :=
  C105_edges_partial ioInOrder ioEdges (by decide) (by decide) (by decide) (by decide)

/-- C105 is false for the edges: with the outputs in the other order the edge to the output is deleted, and an edge for an operand that was replaced stays. -/
theorem C105_edges_false : (∀ a ∈ ioReversed, a.old ∈ ioEdges) ∧ (⟨5, 105, 6⟩ : Edge) ∉ finalEdges ioReversed ioEdges ∧ (⟨4, 104, 5⟩ : Edge) ∈ finalEdges ioReversed ioEdges := by decide

end IoEdges

end Verif.Props
