import Verif.Model.MergeGroup
import Verif.Lemmas.MergeConstraint

namespace Verif.Lemmas
open Verif.Model Verif.Spec

theorem mem_pyInter (a b : PySet) (x : Int) : x ∈ pyInter a b ↔ x ∈ a ∧ x ∈ b := by
  simp [pyInter]

theorem mem_pyDiff (a b : PySet) (x : Int) : x ∈ pyDiff a b ↔ x ∈ a ∧ x ∉ b := by
  simp [pyDiff]

theorem mem_of_removeEq {b s : PySet} {l : List PySet} (h : s ∈ removeEq b l) : s ∈ l := by
  induction l with
  | nil => simp [removeEq] at h
  | cons a t ih =>
    unfold removeEq at h
    by_cases hb : pySetEq a b
    · rw [if_pos hb] at h; exact List.mem_cons_of_mem _ h
    · rw [if_neg hb] at h
      rcases List.mem_cons.1 h with rfl | h
      · exact List.mem_cons_self
      · exact List.mem_cons_of_mem _ (ih h)

theorem removeEq_or {b s : PySet} {l : List PySet} (h : s ∈ l) : s ∈ removeEq b l ∨ SameSet s b := by
  induction l with
  | nil => simp at h
  | cons a t ih =>
    unfold removeEq
    by_cases hb : pySetEq a b
    · rw [if_pos hb]
      rcases List.mem_cons.1 h with rfl | h
      · exact Or.inr ((pySetEq_iff _ _).1 hb)
      · exact Or.inl h
    · rw [if_neg hb]
      rcases List.mem_cons.1 h with rfl | h
      · exact Or.inl List.mem_cons_self
      · rcases ih h with h | h
        · exact Or.inl (List.mem_cons_of_mem _ h)
        · exact Or.inr h

theorem removeEq_sublist (b : PySet) (l : List PySet) : (removeEq b l).Sublist l := by
  induction l with
  | nil => simp [removeEq]
  | cons a t ih =>
    unfold removeEq
    by_cases hb : pySetEq a b
    · rw [if_pos hb]; exact List.sublist_cons_self _ _
    · rw [if_neg hb]; exact ih.cons_cons _

/-- Total number of elements. -/
def msum (l : List PySet) : Nat := (l.map List.length).sum

theorem msum_cons (a : PySet) (l : List PySet) : msum (a :: l) = a.length + msum l := by simp [msum]
theorem msum_append (a b : List PySet) : msum (a ++ b) = msum a + msum b := by simp [msum]
theorem msum_filter (l : List PySet) : msum (l.filter (fun s => !s.isEmpty)) = msum l := by
  induction l with
  | nil => rfl
  | cons a t ih =>
    cases a with
    | nil => simp [msum_cons, ih]
    | cons x y => simp [msum_cons, ih]

/-- `find?` returns an element no earlier element of which is set-equal to it, so that
`removeEq b` removes `b` itself. -/
theorem removeEq_find {a b : PySet} {l : List PySet}
    (h : l.find? (fun b => !(pyInter a b).isEmpty) = some b) :
    msum (removeEq b l) + b.length = msum l ∧ (removeEq b l).length + 1 = l.length := by
  induction l with
  | nil => simp at h
  | cons s t ih =>
    rw [List.find?_cons] at h
    by_cases hs : (!(pyInter a s).isEmpty) = true
    · rw [hs] at h
      simp only [Option.some.injEq] at h
      subst h
      have : pySetEq s s = true := (pySetEq_iff _ _).2 (fun _ => Iff.rfl)
      simp only [removeEq, this, if_true, msum_cons, List.length_cons]
      exact ⟨by omega, trivial⟩
    · have hs' : (!(pyInter a s).isEmpty) = false := by simpa using hs
      rw [hs'] at h
      have hb := List.find?_some h
      have hne : ¬ pySetEq s b = true := by
        intro he
        have he := (pySetEq_iff _ _).1 he
        have hse : pyInter a s = [] := by simpa using hs'
        have hbe : pyInter a b ≠ [] := by simpa using hb
        obtain ⟨x, hx⟩ := List.exists_mem_of_ne_nil _ hbe
        have hx' := (mem_pyInter _ _ _).1 hx
        have : x ∈ pyInter a s := (mem_pyInter _ _ _).2 ⟨hx'.1, (he x).2 hx'.2⟩
        rw [hse] at this; simp at this
      obtain ⟨h1, h2⟩ := ih h
      have hr : removeEq b (s :: t) = s :: removeEq b t := by
        rw [removeEq]; rw [if_neg hne]
      rw [hr]
      simp only [msum_cons, List.length_cons]
      omega

theorem filter_lt_of_mem {l : PySet} {p : Int → Bool} {x : Int} (hx : x ∈ l) (hp : p x = false) :
    (l.filter p).length < l.length := by
  rw [List.length_filter_lt_length_iff_exists]
  exact ⟨x, hx, by simp [hp]⟩

theorem split_len (a b : PySet) (h : pyInter a b ≠ []) :
    (pyDiff a (pyInter a b)).length + (pyDiff b (pyInter a b)).length + (pyInter a b).length + 1
      ≤ a.length + b.length := by
  obtain ⟨x, hx⟩ := List.exists_mem_of_ne_nil _ h
  have hx' := (mem_pyInter _ _ _).1 hx
  have h1 : (pyDiff b (pyInter a b)).length < b.length :=
    filter_lt_of_mem (x := x) hx'.2 (by simp [hx])
  have h2 : (pyDiff a (pyInter a b)).length + (pyInter a b).length = a.length := by
    have e : pyDiff a (pyInter a b) = a.filter (fun x => !b.contains x) := by
      unfold pyDiff
      apply List.filter_congr
      intro y hy
      by_cases hb : y ∈ b <;> simp [pyInter, hy, hb]
    rw [e]
    have := List.length_eq_length_filter_add (l := a) (fun x => b.contains x)
    unfold pyInter
    omega
  omega

/-- The loop invariant of lines 160-178 relative to the original family `g`. -/
structure MGInv (g cur acc : List PySet) : Prop where
  disj : acc.Pairwise DisjointSets
  disj2 : ∀ s ∈ acc, ∀ t ∈ cur, DisjointSets s t
  cov : ∀ x, (Covered cur x ∨ Covered acc x) ↔ Covered g x
  refine_ : ∀ s ∈ g, ∀ x ∈ s, ∃ t, (t ∈ cur ∨ t ∈ acc) ∧ x ∈ t ∧ ∀ y ∈ t, y ∈ s
  coarse : ∀ x y, (∀ s ∈ g, x ∈ s ↔ y ∈ s) → ∀ t, t ∈ cur ∨ t ∈ acc → (x ∈ t ↔ y ∈ t)

theorem mgLoop_spec (g : List PySet) : ∀ (fuel : Nat) (cur acc : List PySet),
    2 * msum cur + cur.length < fuel → MGInv g cur acc →
    ∃ out, mgLoop fuel cur acc = some out ∧ MGInv g [] out := by
  intro fuel
  induction fuel with
  | zero => intro cur acc h; omega
  | succ f ih =>
    intro cur acc hf inv
    cases cur with
    | nil => exact ⟨acc, rfl, inv⟩
    | cons a rest =>
      unfold mgLoop
      cases hfind : rest.find? (fun b => !(pyInter a b).isEmpty) with
      | none =>
        simp only
        apply ih
        · simp only [msum_cons, List.length_cons] at hf; omega
        · have hno : ∀ b ∈ rest, DisjointSets a b := by
            intro b hb x hxa hxb
            have := List.find?_eq_none.1 hfind b hb
            have hse : pyInter a b = [] := by simpa using this
            have : x ∈ pyInter a b := (mem_pyInter _ _ _).2 ⟨hxa, hxb⟩
            rw [hse] at this; simp at this
          constructor
          · rw [List.pairwise_append]
            refine ⟨inv.disj, by simp, ?_⟩
            intro s hs t ht
            simp at ht; subst ht
            exact inv.disj2 s hs t List.mem_cons_self
          · intro s hs t ht
            rcases List.mem_append.1 hs with hs | hs
            · exact inv.disj2 s hs t (List.mem_cons_of_mem _ ht)
            · simp at hs; subst hs; exact hno t ht
          · intro x
            rw [← inv.cov x]
            constructor
            · rintro (⟨s, hs, hx⟩ | ⟨s, hs, hx⟩)
              · exact Or.inl ⟨s, List.mem_cons_of_mem _ hs, hx⟩
              · rcases List.mem_append.1 hs with hs | hs
                · exact Or.inr ⟨s, hs, hx⟩
                · simp at hs; subst hs; exact Or.inl ⟨s, List.mem_cons_self, hx⟩
            · rintro (⟨s, hs, hx⟩ | ⟨s, hs, hx⟩)
              · rcases List.mem_cons.1 hs with rfl | hs
                · exact Or.inr ⟨s, by simp, hx⟩
                · exact Or.inl ⟨s, hs, hx⟩
              · exact Or.inr ⟨s, by simp [hs], hx⟩
          · intro s hs x hx
            obtain ⟨t, ht, h1, h2⟩ := inv.refine_ s hs x hx
            refine ⟨t, ?_, h1, h2⟩
            rcases ht with ht | ht
            · rcases List.mem_cons.1 ht with rfl | ht
              · right; simp
              · exact Or.inl ht
            · right; simp [ht]
          · intro x y h t ht
            apply inv.coarse x y h t
            rcases ht with ht | ht
            · exact Or.inl (List.mem_cons_of_mem _ ht)
            · rcases List.mem_append.1 ht with ht | ht
              · exact Or.inr ht
              · simp at ht; subst ht; exact Or.inl List.mem_cons_self
      | some b =>
        simp only
        have hbmem : b ∈ rest := List.mem_of_find?_eq_some hfind
        have hbne : pyInter a b ≠ [] := by simpa using List.find?_some hfind
        obtain ⟨hs1, hs2⟩ := removeEq_find hfind
        have hsl := split_len a b hbne
        set k := pyInter a b with hk
        set m := pyDiff a k with hm
        set n := pyDiff b k with hn
        have memF : ∀ t, t ∈ [m, n, k].filter (fun s => !s.isEmpty) ↔ (t = m ∨ t = n ∨ t = k) ∧ t ≠ [] := by
          intro t; simp
        apply ih
        · have hlen : ([m, n, k].filter (fun s => !s.isEmpty)).length ≤ 3 := by
            simpa using List.length_filter_le (fun s => !s.isEmpty) [m, n, k]
          have h3 : msum ([m, n, k].filter (fun s => !s.isEmpty)) = m.length + n.length + k.length := by
            rw [msum_filter]; simp [msum]; omega
          simp only [msum_append, List.length_append, h3]
          simp only [msum_cons, List.length_cons] at hf
          omega
        · have hsub : ∀ t, t = m ∨ t = n ∨ t = k → (∀ x ∈ t, x ∈ a) ∨ (∀ x ∈ t, x ∈ b) := by
            rintro t (rfl | rfl | rfl)
            · left; intro x hx; exact ((mem_pyDiff _ _ _).1 hx).1
            · right; intro x hx; exact ((mem_pyDiff _ _ _).1 hx).1
            · left; intro x hx; exact ((mem_pyInter _ _ _).1 hx).1
          have cova : ∀ x ∈ a, ∃ t, t ∈ [m, n, k].filter (fun s => !s.isEmpty) ∧ x ∈ t ∧ ∀ y ∈ t, y ∈ a := by
            intro x hx
            by_cases hxk : x ∈ k
            · exact ⟨k, (memF k).2 ⟨by simp, List.ne_nil_of_mem hxk⟩, hxk,
                fun y hy => ((mem_pyInter _ _ _).1 hy).1⟩
            · have : x ∈ m := (mem_pyDiff _ _ _).2 ⟨hx, hxk⟩
              exact ⟨m, (memF m).2 ⟨by simp, List.ne_nil_of_mem this⟩, this,
                fun y hy => ((mem_pyDiff _ _ _).1 hy).1⟩
          have covb : ∀ x ∈ b, ∃ t, t ∈ [m, n, k].filter (fun s => !s.isEmpty) ∧ x ∈ t ∧ ∀ y ∈ t, y ∈ b := by
            intro x hx
            by_cases hxk : x ∈ k
            · exact ⟨k, (memF k).2 ⟨by simp, List.ne_nil_of_mem hxk⟩, hxk,
                fun y hy => ((mem_pyInter _ _ _).1 hy).2⟩
            · have : x ∈ n := (mem_pyDiff _ _ _).2 ⟨hx, hxk⟩
              exact ⟨n, (memF n).2 ⟨by simp, List.ne_nil_of_mem this⟩, this,
                fun y hy => ((mem_pyDiff _ _ _).1 hy).1⟩
          have repl : ∀ s ∈ a :: rest, ∀ x ∈ s, ∃ t,
              t ∈ removeEq b rest ++ [m, n, k].filter (fun s => !s.isEmpty) ∧ x ∈ t ∧ ∀ y ∈ t, y ∈ s := by
            intro s hs x hx
            rcases List.mem_cons.1 hs with rfl | hs
            · obtain ⟨t, ht, h⟩ := cova x hx
              exact ⟨t, List.mem_append_right _ ht, h⟩
            · rcases removeEq_or (b := b) hs with h | h
              · exact ⟨s, List.mem_append_left _ h, hx, fun _ h => h⟩
              · obtain ⟨t, ht, h1, h2⟩ := covb x ((h x).1 hx)
                exact ⟨t, List.mem_append_right _ ht, h1, fun y hy => (h y).2 (h2 y hy)⟩
          constructor
          · exact inv.disj
          · intro s hs t ht
            rcases List.mem_append.1 ht with ht | ht
            · exact inv.disj2 s hs t (List.mem_cons_of_mem _ (mem_of_removeEq ht))
            · rcases hsub t ((memF t).1 ht).1 with h | h
              · intro x hx hxt; exact inv.disj2 s hs a List.mem_cons_self x hx (h x hxt)
              · intro x hx hxt
                exact inv.disj2 s hs b (List.mem_cons_of_mem _ hbmem) x hx (h x hxt)
          · intro x
            rw [← inv.cov x]
            apply or_congr_left
            constructor
            · rintro ⟨t, ht, hx⟩
              rcases List.mem_append.1 ht with ht | ht
              · exact ⟨t, List.mem_cons_of_mem _ (mem_of_removeEq ht), hx⟩
              · rcases hsub t ((memF t).1 ht).1 with h | h
                · exact ⟨a, List.mem_cons_self, h x hx⟩
                · exact ⟨b, List.mem_cons_of_mem _ hbmem, h x hx⟩
            · rintro ⟨s, hs, hx⟩
              obtain ⟨t, ht, h1, _⟩ := repl s hs x hx
              exact ⟨t, ht, h1⟩
          · intro s hs x hx
            obtain ⟨t, ht, h1, h2⟩ := inv.refine_ s hs x hx
            rcases ht with ht | ht
            · obtain ⟨u, hu, h3, h4⟩ := repl t ht x h1
              exact ⟨u, Or.inl hu, h3, fun y hy => h2 y (h4 y hy)⟩
            · exact ⟨t, Or.inr ht, h1, h2⟩
          · intro x y h t ht
            have ha := inv.coarse x y h a (Or.inl List.mem_cons_self)
            have hb := inv.coarse x y h b (Or.inl (List.mem_cons_of_mem _ hbmem))
            have hkk : x ∈ k ↔ y ∈ k := by rw [hk, mem_pyInter, mem_pyInter, ha, hb]
            rcases ht with ht | ht
            · rcases List.mem_append.1 ht with ht | ht
              · exact inv.coarse x y h t (Or.inl (List.mem_cons_of_mem _ (mem_of_removeEq ht)))
              · rcases ((memF t).1 ht).1 with rfl | rfl | rfl
                · rw [hm, mem_pyDiff, mem_pyDiff, ha, hkk]
                · rw [hn, mem_pyDiff, mem_pyDiff, hb, hkk]
                · exact hkk
            · exact inv.coarse x y h t (Or.inr ht)

theorem mgInv_init (g : List PySet) : MGInv g g [] where
  disj := List.Pairwise.nil
  disj2 := by simp
  cov := by intro x; simp [Covered]
  refine_ := fun s hs x hx => ⟨s, Or.inl hs, hx, fun _ h => h⟩
  coarse := by
    intro x y h t ht
    rcases ht with ht | ht
    · exact h t ht
    · simp at ht

/-- Dropping duplicates keeps a sublist. -/
theorem mgDedup_sublist (l out : List PySet) : (mgDedup l out).Sublist out := by
  induction l generalizing out with
  | nil => exact List.Sublist.refl _
  | cons a t ih =>
    unfold mgDedup
    refine (ih _).trans ?_
    split
    · exact removeEq_sublist _ _
    · exact List.Sublist.refl _

theorem mgDedup_mem (l out : List PySet) (hl : l.Pairwise DisjointSets) (s : PySet) (hs : s ≠ [])
    (h : s ∈ out) : s ∈ mgDedup l out := by
  induction l generalizing out with
  | nil => exact h
  | cons a t ih =>
    unfold mgDedup
    rw [List.pairwise_cons] at hl
    apply ih _ hl.2
    split
    · rename_i hany
      obtain ⟨gj, hgj, heq⟩ := List.any_eq_true.1 hany
      have heq := (pySetEq_iff _ _).1 heq
      have hdis := hl.1 gj hgj
      have hae : ∀ x, x ∉ a := fun x hx => hdis x hx ((heq x).1 hx)
      rcases removeEq_or (b := a) h with h' | h'
      · exact h'
      · obtain ⟨x, hx⟩ := List.exists_mem_of_ne_nil _ hs
        exact absurd ((h' x).1 hx) (hae x)
    · exact h

/-- Insertion sort by a key is stable: equal keys stay in index order. -/
theorem insertionSort_stable {α : Type} [LinearOrder α] (l : List (Nat × α))
    (h : l.Pairwise (fun a b => a.1 < b.1)) :
    (l.insertionSort (fun a b => a.2 ≤ b.2)).Pairwise
      (fun a b => a.2 < b.2 ∨ (a.2 = b.2 ∧ a.1 < b.1)) := by
  have ins : ∀ (a : Nat × α) (m : List (Nat × α)), (∀ b ∈ m, a.1 < b.1) →
      m.Pairwise (fun a b => a.2 < b.2 ∨ (a.2 = b.2 ∧ a.1 < b.1)) →
      (m.orderedInsert (fun a b => a.2 ≤ b.2) a).Pairwise
        (fun a b => a.2 < b.2 ∨ (a.2 = b.2 ∧ a.1 < b.1)) := by
    intro a m
    induction m with
    | nil => intro _ _; simp
    | cons b t ih =>
      intro hlt hm
      rw [List.orderedInsert_cons]
      split
      · rename_i hab
        rw [List.pairwise_cons]
        refine ⟨?_, hm⟩
        intro c hc
        have hbc : b.2 ≤ c.2 := by
          rcases List.mem_cons.1 hc with rfl | hc
          · exact le_refl _
          · rcases (List.pairwise_cons.1 hm).1 c hc with h | h
            · exact le_of_lt h
            · exact le_of_eq h.1
        rcases lt_or_eq_of_le (le_trans hab hbc) with h | h
        · exact Or.inl h
        · exact Or.inr ⟨h, hlt c hc⟩
      · rename_i hab
        rw [List.pairwise_cons] at hm ⊢
        refine ⟨?_, ih (fun c hc => hlt c (List.mem_cons_of_mem _ hc)) hm.2⟩
        intro c hc
        rw [List.mem_orderedInsert] at hc
        rcases hc with rfl | hc
        · exact Or.inl (lt_of_not_ge hab)
        · exact hm.1 c hc
  induction l with
  | nil => simp
  | cons a t ih =>
    rw [List.pairwise_cons] at h
    rw [List.insertionSort_cons]
    apply ins _ _ _ (ih h.2)
    intro b hb
    rw [List.mem_insertionSort] at hb
    exact h.1 b hb

end Verif.Lemmas
