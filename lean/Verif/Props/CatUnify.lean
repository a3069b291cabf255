import Verif.Model.CatUnify
import Mathlib.Algebra.BigOperators.Group.Finset.Basic
import Mathlib.Algebra.Order.BigOperators.Group.Finset
import Mathlib.Tactic.Linarith

/-! C110: the operands and the result of a concatenation have one quantization. -/

namespace Verif.Props
open Verif.Spec.CatUnify Verif.Model.CatUnify

/-- What holds of every traced model: a concatenation has an observer of its own, places belong to one operation, and both ends know of a connection. -/
structure CatGraph.Wf (g : Graph) : Prop where
  cat : ∀ n, (g n).isCat = true → (∃ σ, (g n).site = some σ) ∧ (g n).isStub = false ∧ (g n).isSize = false
  inj : ∀ n n' σ, (g n).site = some σ → (g n').site = some σ → n = n'
  edges : ∀ m n, m ∈ (g n).prevs ↔ n ∈ (g m).nexts

/-- A tensor that is passed on by an operation without observer is used once. -/
def CatGraph.Single (g : Graph) : Prop := ∀ n, (g n).Through → (g n).nexts.length ≤ 1

namespace CatUnify

variable {g : Graph} {prior : List ℕ} {s : St}

/-- Seen by the search. -/
def Seen (g : Graph) (s : St) (n : ℕ) : Prop := (g n).isSize = true ∨ n ∈ s.centers ∨ s.level n ≤ 1

/-- Seen without an observer in between. -/
def Near (g : Graph) (s : St) (n : ℕ) : Prop := (g n).isSize = true ∨ n ∈ s.centers ∨ s.level n = 0

/-- Found in this search. -/
def Found (g : Graph) (prior : List ℕ) (s : St) (n : ℕ) : Prop := (n ∈ s.centers ∧ n ∉ prior) ∨ s.level n = 0

/-- What holds during a search. -/
structure Inv (g : Graph) (prior : List ℕ) (s : St) : Prop where
  sub : ∀ n ∈ prior, n ∈ s.centers
  cats : ∀ n ∈ s.centers, (g n).isCat = true
  le : ∀ n, s.level n ≤ 2
  catLevel : ∀ n, (g n).isCat = true → s.level n = 2
  up : ∀ n f, (n, .up, f) ∈ s.queue → f ≤ 1 ∧ ∃ n', Seen g s n' ∧ n ∈ (g n').prevs
  upNear : ∀ n, (n, .up, 0) ∈ s.queue → (g n).isSize = false → ∃ c, c ∈ s.centers ∧ c ∉ prior ∧ Feeds g n c
  down : ∀ n f, (n, .down, f) ∈ s.queue → f = 1
  both : ∀ n f, (n, .both, f) ∈ s.queue → (g n).isCat = true ∧ f = 0
  nexts : ∀ n, (Found g prior s n ∨ (s.level n ≤ 1 ∧ (g n).Through)) → ∀ n' ∈ (g n).nexts, Seen g s n' ∨ ∃ m f, (n', m, f) ∈ s.queue
  prevs : ∀ n, ((n ∈ s.centers ∧ n ∉ prior) ∨ (s.level n = 0 ∧ (g n).Through)) → ∀ m ∈ (g n).prevs, Near g s m ∨ (m, .up, 0) ∈ s.queue
  feeds : ∀ n, s.level n = 0 → ∃ c, c ∈ s.centers ∧ c ∉ prior ∧ Feeds g n c
  found : ∀ n σ, (g n).site = some σ → Found g prior s n → σ ∈ s.sites
  sites : ∀ σ ∈ s.sites, ∃ n, (g n).site = some σ ∧ Found g prior s n

theorem start_inv (hc : (g c).isCat = true) (hp : ∀ n ∈ prior, (g n).isCat = true) : Inv g prior (start prior c) where
  sub := fun _ h => h
  cats := hp
  le := fun _ => le_refl _
  catLevel := fun _ _ => rfl
  up := by simp [start]
  upNear := by simp [start]
  down := by simp [start]
  both := by simp [start, hc]
  nexts := by
    intro n h
    simp [start, Found] at h
  prevs := by
    intro n h
    simp [start] at h
  feeds := by simp [start]
  found := by
    intro n σ _ h
    simp [start, Found] at h
  sites := by simp [start]

/-- An element that is not considered. -/
theorem visit_skip (h : Inv g prior s) {n : ℕ} {mode : Mode} {fq : ℕ} {rest : List (ℕ × Mode × ℕ)} (hq : s.queue = (n, mode, fq) :: rest)
    (hs : (g n).isSize = true ∨ n ∈ s.centers ∨ s.level n ≤ fq) : Inv g prior { s with queue := rest } := by
  have hfq : fq ≤ 1 := by
    cases mode with
    | both => have := (h.both n fq (by rw [hq]; simp)).2; omega
    | up => exact (h.up n fq (by rw [hq]; simp)).1
    | down => have := h.down n fq (by rw [hq]; simp); omega
  have hmem : ∀ x, x ∈ rest → x ∈ s.queue := fun x hx => by rw [hq]; exact List.mem_cons_of_mem _ hx
  refine ⟨h.sub, h.cats, h.le, h.catLevel, fun a f ha => h.up a f (hmem _ ha), fun a ha => h.upNear a (hmem _ ha), fun a f ha => h.down a f (hmem _ ha), fun a f ha => h.both a f (hmem _ ha),
    fun a ha n' hn' => ?_, fun a ha m hm => ?_, h.feeds, h.found, h.sites⟩
  · rcases h.nexts a ha n' hn' with h1 | ⟨m, f, h1⟩
    · exact Or.inl h1
    · rw [hq] at h1
      rcases List.mem_cons.1 h1 with h1 | h1
      · cases h1
        left
        rcases hs with h2 | h2 | h2
        · exact Or.inl h2
        · exact Or.inr (Or.inl h2)
        · exact Or.inr (Or.inr (show s.level n ≤ 1 by omega))
      · exact Or.inr ⟨m, f, h1⟩
  · rcases h.prevs a ha m hm with h1 | h1
    · exact Or.inl h1
    · rw [hq] at h1
      rcases List.mem_cons.1 h1 with h1 | h1
      · cases h1
        left
        rcases hs with h2 | h2 | h2
        · exact Or.inl h2
        · exact Or.inr (Or.inl h2)
        · exact Or.inr (Or.inr (show s.level n = 0 by omega))
      · exact Or.inr h1

/-- A concatenation. -/
theorem visit_cat (hw : CatGraph.Wf g) (h : Inv g prior s) {n : ℕ} {mode : Mode} {fq : ℕ} {rest : List (ℕ × Mode × ℕ)} (hq : s.queue = (n, mode, fq) :: rest)
    (hs : ¬ ((g n).isSize = true ∨ n ∈ s.centers ∨ s.level n ≤ fq)) (hcat : (g n).isCat = true) : Inv g prior (visit g s n mode fq rest) := by
  obtain ⟨⟨σ, hσ⟩, hstub, hsize⟩ := hw.cat n hcat
  have hv : visit g s n mode fq rest = ⟨rest ++ ((g n).prevs.map (fun m => (m, .up, 0)) ++ (g n).nexts.map fun m => (m, .down, 1)), n :: s.centers, s.level, s.sites ++ [σ]⟩ := by
    unfold visit
    rw [if_neg hs]
    simp [hcat, hσ, pushes, newCount, hstub]
  rw [hv]
  have hmem : ∀ x, x ∈ rest → x ∈ s.queue := fun x hx => by rw [hq]; exact List.mem_cons_of_mem _ hx
  have hnp : n ∉ prior := fun hp => hs (Or.inr (Or.inl (h.sub n hp)))
  have seen_mono : ∀ a, Seen g s a → Seen g ⟨rest ++ ((g n).prevs.map (fun m => (m, .up, 0)) ++ (g n).nexts.map fun m => (m, .down, 1)), n :: s.centers, s.level, s.sites ++ [σ]⟩ a := by
    rintro a (h1 | h1 | h1)
    · exact Or.inl h1
    · exact Or.inr (Or.inl (List.mem_cons_of_mem _ h1))
    · exact Or.inr (Or.inr h1)
  refine ⟨fun a ha => List.mem_cons_of_mem _ (h.sub a ha), fun a ha => ?_, h.le, h.catLevel, fun a f ha => ?_, fun a ha hsz => ?_, fun a f ha => ?_, fun a f ha => ?_, fun a ha n' hn' => ?_,
    fun a ha m hm => ?_, fun a ha => ?_, fun a τ hτ ha => ?_, fun τ hτ => ?_⟩
  · rcases List.mem_cons.1 ha with rfl | ha
    · exact hcat
    · exact h.cats a ha
  · simp only [List.mem_append, List.mem_map] at ha
    rcases ha with ha | ⟨m, hm, he⟩ | ⟨m, hm, he⟩
    · obtain ⟨h1, n', h2, h3⟩ := h.up a f (hmem _ ha)
      exact ⟨h1, n', seen_mono n' h2, h3⟩
    · cases he
      exact ⟨by omega, n, Or.inr (Or.inl (by simp)), hm⟩
    · cases he
  · simp only [List.mem_append, List.mem_map] at ha
    rcases ha with ha | ⟨m, hm, he⟩ | ⟨m, hm, he⟩
    · obtain ⟨c, h1, h2, h3⟩ := h.upNear a (hmem _ ha) hsz
      exact ⟨c, List.mem_cons_of_mem _ h1, h2, h3⟩
    · cases he
      exact ⟨n, by simp, hnp, .direct hm hsz⟩
    · cases he
  · simp only [List.mem_append, List.mem_map] at ha
    rcases ha with ha | ⟨m, hm, he⟩ | ⟨m, hm, he⟩
    · exact h.down a f (hmem _ ha)
    · cases he
    · cases he; rfl
  · simp only [List.mem_append, List.mem_map] at ha
    rcases ha with ha | ⟨m, hm, he⟩ | ⟨m, hm, he⟩
    · exact h.both a f (hmem _ ha)
    · cases he
    · cases he
  · by_cases hnn : n' = n
    · subst hnn
      exact Or.inl (Or.inr (Or.inl (by simp)))
    by_cases han : a = n
    · subst han
      exact Or.inr ⟨.down, 1, by simp [hn']⟩
    · have ha' : Found g prior s a ∨ (s.level a ≤ 1 ∧ (g a).Through) := by
        rcases ha with (⟨h1, h2⟩ | h1) | h1
        · exact Or.inl (Or.inl ⟨(List.mem_cons.1 h1).resolve_left han, h2⟩)
        · exact Or.inl (Or.inr h1)
        · exact Or.inr h1
      rcases h.nexts a ha' n' hn' with h1 | ⟨m, f, h1⟩
      · exact Or.inl (seen_mono _ h1)
      · rw [hq] at h1
        rcases List.mem_cons.1 h1 with h1 | h1
        · cases h1; exact absurd rfl hnn
        · exact Or.inr ⟨m, f, List.mem_append_left _ h1⟩
  · by_cases hmn : m = n
    · subst hmn
      exact Or.inl (Or.inr (Or.inl (by simp)))
    by_cases han : a = n
    · subst han
      exact Or.inr (by simp [hm])
    · have ha' : (a ∈ s.centers ∧ a ∉ prior) ∨ (s.level a = 0 ∧ (g a).Through) := by
        rcases ha with ⟨h1, h2⟩ | h1
        · exact Or.inl ⟨(List.mem_cons.1 h1).resolve_left han, h2⟩
        · exact Or.inr h1
      rcases h.prevs a ha' m hm with (h1 | h1 | h1) | h1
      · exact Or.inl (Or.inl h1)
      · exact Or.inl (Or.inr (Or.inl (List.mem_cons_of_mem _ h1)))
      · exact Or.inl (Or.inr (Or.inr h1))
      · rw [hq] at h1
        rcases List.mem_cons.1 h1 with h1 | h1
        · cases h1; exact absurd rfl hmn
        · exact Or.inr (List.mem_append_left _ h1)
  · obtain ⟨c, h1, h2⟩ := h.feeds a ha
    exact ⟨c, List.mem_cons_of_mem _ h1, h2⟩
  · simp only [List.mem_append, List.mem_singleton]
    by_cases han : a = n
    · subst han
      rw [hσ] at hτ
      cases hτ
      exact Or.inr rfl
    · refine Or.inl (h.found a τ hτ ?_)
      rcases ha with ⟨h1, h2⟩ | h1
      · exact Or.inl ⟨(List.mem_cons.1 h1).resolve_left han, h2⟩
      · exact Or.inr h1
  · rcases List.mem_append.1 hτ with hτ | hτ
    · obtain ⟨a, h1, h2 | h2⟩ := h.sites τ hτ
      · exact ⟨a, h1, Or.inl ⟨List.mem_cons_of_mem _ h2.1, h2.2⟩⟩
      · exact ⟨a, h1, Or.inr h2⟩
    · rw [List.mem_singleton] at hτ
      subst hτ
      exact ⟨n, hσ, Or.inl ⟨by simp, hnp⟩⟩

theorem mem_pushes_up {nd : Node} {fq : ℕ} {x : ℕ × Mode × ℕ} : x ∈ pushes nd .up fq ↔
    (newCount nd fq < 2 ∧ ∃ m ∈ nd.prevs, x = (m, .up, newCount nd fq)) ∨ (nd.nexts.length > 1 ∧ fq + 1 < 2 ∧ ∃ m ∈ nd.nexts, x = (m, .down, fq + 1)) := by
  by_cases hw : nd.nexts.length > 1 <;> by_cases h1 : newCount nd fq < 2 <;> by_cases h2 : fq + 1 < 2 <;> simp [pushes, hw, h1, h2, eq_comm]
  all_goals (intros; omega)

theorem mem_pushes_down {nd : Node} {fq : ℕ} {x : ℕ × Mode × ℕ} : x ∈ pushes nd .down fq ↔ newCount nd fq < 2 ∧ ∃ m ∈ nd.nexts, x = (m, .down, newCount nd fq) := by
  by_cases h1 : newCount nd fq < 2 <;> simp [pushes, h1, eq_comm]

theorem newCount_through {nd : Node} (h : nd.Through) (fq : ℕ) : newCount nd fq = fq := by
  simp [newCount, h.2.1, h.2.2.1]

theorem through_of_newCount {nd : Node} (hc : nd.isCat = false) (hz : nd.isSize = false) (h : newCount nd 0 = 0) : nd.Through := by
  unfold newCount at h
  refine ⟨hc, ?_, ?_, hz⟩
  · split at h
    · omega
    · split at h
      · omega
      · simpa using ‹¬ nd.site.isSome = true›
  · split at h
    · omega
    · simpa using ‹¬ nd.isStub = true›

theorem newCount_ge (nd : Node) (fq : ℕ) (h : fq ≤ 2) : fq ≤ newCount nd fq := by
  unfold newCount
  split
  · exact h
  · split <;> omega

/-- An operation that is not a concatenation. -/
theorem visit_other (hw : CatGraph.Wf g) (h1' : CatGraph.Single g) (h : Inv g prior s) {n : ℕ} {mode : Mode} {fq : ℕ} {rest : List (ℕ × Mode × ℕ)} (hq : s.queue = (n, mode, fq) :: rest)
    (hs : ¬ ((g n).isSize = true ∨ n ∈ s.centers ∨ s.level n ≤ fq)) (hcat : (g n).isCat = false) : Inv g prior (visit g s n mode fq rest) := by
  have hlev : fq < s.level n := by
    by_contra hc
    exact hs (Or.inr (Or.inr (by omega)))
  have hsz : (g n).isSize = false := by
    cases hz : (g n).isSize
    · rfl
    · exact absurd (Or.inl hz) hs
  have hncen : n ∉ s.centers := fun hc => hs (Or.inr (Or.inl hc))
  have hmode : mode ≠ .both := by
    rintro rfl
    have := (h.both n fq (by rw [hq]; simp)).1
    rw [hcat] at this
    cases this
  have hfq : fq ≤ 1 := by
    cases mode with
    | both => exact absurd rfl hmode
    | up => exact (h.up n fq (by rw [hq]; simp)).1
    | down => have := h.down n fq (by rw [hq]; simp); omega
  -- the state after
  obtain ⟨S, hS1, hS2⟩ : ∃ S : List ℕ, (visit g s n mode fq rest) = ⟨rest ++ pushes (g n) mode fq, s.centers, Function.update s.level n fq, S⟩ ∧
      ∀ τ, τ ∈ S ↔ τ ∈ s.sites ∨ ((g n).site = some τ ∧ fq = 0) := by
    unfold visit
    rw [if_neg hs]
    simp only [hcat, Bool.false_eq_true, if_false]
    refine ⟨_, rfl, fun τ => ?_⟩
    cases hσ : (g n).site with
    | none => simp
    | some σ =>
      by_cases h0 : fq = 0
      · simp [h0, eq_comm]
      · simp [h0]
  rw [hS1]
  have hmem : ∀ x, x ∈ rest → x ∈ s.queue := fun x hx => by rw [hq]; exact List.mem_cons_of_mem _ hx
  have lev_le : ∀ a, Function.update s.level n fq a ≤ s.level a := by
    intro a
    by_cases han : a = n
    · subst han; rw [Function.update_self]; omega
    · rw [Function.update_of_ne han]
  have lev_n : Function.update s.level n fq n = fq := Function.update_self ..
  have lev_ne : ∀ a, a ≠ n → Function.update s.level n fq a = s.level a := fun a ha => Function.update_of_ne ha ..
  have seen_mono : ∀ a, Seen g s a → Seen g ⟨rest ++ pushes (g n) mode fq, s.centers, Function.update s.level n fq, S⟩ a := by
    rintro a (h1 | h1 | h1)
    · exact Or.inl h1
    · exact Or.inr (Or.inl h1)
    · exact Or.inr (Or.inr (le_trans (lev_le a) h1))
  have seen_n : Seen g ⟨rest ++ pushes (g n) mode fq, s.centers, Function.update s.level n fq, S⟩ n := Or.inr (Or.inr (lev_n.trans_le hfq))
  -- the element of the queue at level 0
  have hup0 : fq = 0 → mode = .up ∧ ∃ c, c ∈ s.centers ∧ c ∉ prior ∧ Feeds g n c := by
    intro h0
    cases mode with
    | both => exact absurd rfl hmode
    | up => exact ⟨rfl, h.upNear n (by rw [hq, h0]; simp) hsz⟩
    | down => have := h.down n fq (by rw [hq]; simp); omega
  refine ⟨h.sub, h.cats, fun a => le_trans (lev_le a) (h.le a), fun a ha => ?_, fun a f ha => ?_, fun a ha haz => ?_, fun a f ha => ?_, fun a f ha => ?_, fun a ha n' hn' => ?_,
    fun a ha m hm => ?_, fun a ha => ?_, fun a τ hτ ha => ?_, fun τ hτ => ?_⟩
  · have han : a ≠ n := by
      rintro rfl
      rw [hcat] at ha
      cases ha
    exact (lev_ne a han).trans (h.catLevel a ha)
  · rcases List.mem_append.1 ha with ha | ha
    · obtain ⟨h1, n', h2, h3⟩ := h.up a f (hmem _ ha)
      exact ⟨h1, n', seen_mono n' h2, h3⟩
    · cases mode with
      | both => exact absurd rfl hmode
      | up =>
        rcases mem_pushes_up.1 ha with ⟨h1, m, hm, he⟩ | ⟨_, _, m, hm, he⟩
        · cases he
          exact ⟨by omega, n, seen_n, hm⟩
        · cases he
      | down =>
        obtain ⟨_, m, _, he⟩ := mem_pushes_down.1 ha
        cases he
  · rcases List.mem_append.1 ha with ha | ha
    · exact h.upNear a (hmem _ ha) haz
    · cases mode with
      | both => exact absurd rfl hmode
      | up =>
        rcases mem_pushes_up.1 ha with ⟨_, m, hm, he⟩ | ⟨_, _, m, hm, he⟩
        · simp only [Prod.mk.injEq, true_and] at he
          obtain ⟨rfl, he⟩ := he
          have h0 : fq = 0 := by have := newCount_ge (g n) fq (by omega); omega
          obtain ⟨_, c, h1, h2, h3⟩ := hup0 h0
          subst h0
          exact ⟨c, h1, h2, .through h3 (through_of_newCount hcat hsz he.symm) hm haz⟩
        · cases he
      | down =>
        obtain ⟨_, m, _, he⟩ := mem_pushes_down.1 ha
        cases he
  · rcases List.mem_append.1 ha with ha | ha
    · exact h.down a f (hmem _ ha)
    · cases mode with
      | both => exact absurd rfl hmode
      | up =>
        rcases mem_pushes_up.1 ha with ⟨_, m, hm, he⟩ | ⟨_, h2, m, hm, he⟩
        · cases he
        · simp only [Prod.mk.injEq, true_and] at he
          omega
      | down =>
        obtain ⟨h2, m, _, he⟩ := mem_pushes_down.1 ha
        simp only [Prod.mk.injEq, true_and] at he
        have h3 := h.down n fq (by rw [hq]; simp)
        have := newCount_ge (g n) fq (by omega)
        omega
  · rcases List.mem_append.1 ha with ha | ha
    · exact h.both a f (hmem _ ha)
    · cases mode with
      | both => exact absurd rfl hmode
      | up =>
        rcases mem_pushes_up.1 ha with ⟨_, m, hm, he⟩ | ⟨_, h2, m, hm, he⟩ <;> cases he
      | down =>
        obtain ⟨h2, m, _, he⟩ := mem_pushes_down.1 ha
        cases he
  · by_cases hnn : n' = n
    · exact Or.inl (hnn ▸ seen_n)
    by_cases han : a = n
    · subst han
      cases mode with
      | both => exact absurd rfl hmode
      | up =>
        by_cases hlen : (g a).nexts.length > 1
        · have h0 : fq = 0 := by
            rcases ha with (⟨hc, _⟩ | h0) | ⟨_, ht⟩
            · exact absurd hc hncen
            · exact lev_n.symm.trans h0
            · have := h1' a ht
              omega
          exact Or.inr ⟨.down, fq + 1, List.mem_append_right _ (mem_pushes_up.2 (Or.inr ⟨hlen, by omega, n', hn', rfl⟩))⟩
        · obtain ⟨_, v, hv1, hv2⟩ := h.up a fq (by rw [hq]; simp)
          have hv3 := (hw.edges a v).1 hv2
          have : n' = v := by
            match hl : (g a).nexts, hlen with
            | [], _ => rw [hl] at hn'; cases hn'
            | [w], _ =>
              rw [hl, List.mem_singleton] at hn' hv3
              rw [hn', hv3]
            | _ :: _ :: _, hlen => simp [hl] at hlen
          exact Or.inl (this ▸ seen_mono v hv1)
      | down =>
        have h3 := h.down a fq (by rw [hq]; simp)
        have ht : (g a).Through := by
          rcases ha with (⟨hc, _⟩ | h0) | ⟨_, ht⟩
          · exact absurd hc hncen
          · have := lev_n.symm.trans h0
            omega
          · exact ht
        exact Or.inr ⟨.down, fq, List.mem_append_right _ (mem_pushes_down.2 ⟨by rw [newCount_through ht]; omega, n', hn', by rw [newCount_through ht]⟩)⟩
    · have ha' : Found g prior s a ∨ (s.level a ≤ 1 ∧ (g a).Through) := by
        rcases ha with (h1 | h1) | h1
        · exact Or.inl (Or.inl h1)
        · exact Or.inl (Or.inr ((lev_ne a han).symm.trans h1))
        · exact Or.inr ⟨(lev_ne a han) ▸ h1.1, h1.2⟩
      rcases h.nexts a ha' n' hn' with h1 | ⟨m, f, h1⟩
      · exact Or.inl (seen_mono _ h1)
      · rw [hq] at h1
        rcases List.mem_cons.1 h1 with h1 | h1
        · cases h1; exact absurd rfl hnn
        · exact Or.inr ⟨m, f, List.mem_append_left _ h1⟩
  · by_cases han : a = n
    · subst han
      obtain ⟨h0, ht⟩ := ha.resolve_left (fun hc => hncen hc.1)
      obtain ⟨rfl, _⟩ := hup0 (lev_n.symm.trans h0)
      refine Or.inr (List.mem_append_right _ (mem_pushes_up.2 (Or.inl ⟨by rw [newCount_through ht]; omega, m, hm, by rw [newCount_through ht]; exact congrArg (fun x => (m, Mode.up, x)) (lev_n.symm.trans h0).symm⟩)))
    · have ha' : (a ∈ s.centers ∧ a ∉ prior) ∨ (s.level a = 0 ∧ (g a).Through) := by
        rcases ha with h1 | h1
        · exact Or.inl h1
        · exact Or.inr ⟨(lev_ne a han).symm.trans h1.1, h1.2⟩
      have near : ∀ b, Near g s b → Near g ⟨rest ++ pushes (g n) mode fq, s.centers, Function.update s.level n fq, S⟩ b := by
        rintro b (h1 | h1 | h1)
        · exact Or.inl h1
        · exact Or.inr (Or.inl h1)
        · exact Or.inr (Or.inr (by have := lev_le b; show Function.update s.level n fq b = 0; omega))
      rcases h.prevs a ha' m hm with h1 | h1
      · exact Or.inl (near m h1)
      · rw [hq] at h1
        rcases List.mem_cons.1 h1 with h1 | h1
        · cases h1
          exact Or.inl (Or.inr (Or.inr lev_n))
        · exact Or.inr (List.mem_append_left _ h1)
  · by_cases han : a = n
    · subst han
      exact (hup0 (lev_n.symm.trans ha)).2
    · exact h.feeds a ((lev_ne a han).symm.trans ha)
  · rw [hS2]
    by_cases han : a = n
    · subst han
      rcases ha with ⟨hc, _⟩ | h0
      · exact absurd hc hncen
      · exact Or.inr ⟨hτ, lev_n.symm.trans h0⟩
    · refine Or.inl (h.found a τ hτ ?_)
      rcases ha with h1 | h1
      · exact Or.inl h1
      · exact Or.inr ((lev_ne a han).symm.trans h1)
  · rcases (hS2 τ).1 hτ with hτ | ⟨hτ, h0⟩
    · obtain ⟨a, h1, h2 | h2⟩ := h.sites τ hτ
      · exact ⟨a, h1, Or.inl h2⟩
      · exact ⟨a, h1, Or.inr (by have := lev_le a; show Function.update s.level n fq a = 0; omega)⟩
    · exact ⟨n, hτ, Or.inr (lev_n.trans h0)⟩

theorem visit_inv (hw : CatGraph.Wf g) (h1 : CatGraph.Single g) (h : Inv g prior s) {n : ℕ} {mode : Mode} {fq : ℕ} {rest : List (ℕ × Mode × ℕ)} (hq : s.queue = (n, mode, fq) :: rest) :
    Inv g prior (visit g s n mode fq rest) := by
  by_cases hs : (g n).isSize = true ∨ n ∈ s.centers ∨ s.level n ≤ fq
  · unfold visit
    rw [if_pos hs]
    exact visit_skip h hq hs
  · cases hcat : (g n).isCat
    · exact visit_other hw h1 h hq hs hcat
    · exact visit_cat hw h hq hs hcat

theorem search_inv (hw : CatGraph.Wf g) (h1 : CatGraph.Single g) : ∀ (fuel : ℕ) (s s' : St), Inv g prior s → search g fuel s = some s' → Inv g prior s' ∧ s'.queue = [] := by
  intro fuel
  induction fuel with
  | zero =>
    rintro ⟨_ | ⟨x, rest⟩, C, L, S⟩ s' h hs
    · simp only [search, Option.some.injEq] at hs
      subst hs
      exact ⟨h, rfl⟩
    · simp [search] at hs
  | succ fuel ih =>
    rintro ⟨_ | ⟨⟨n, mode, fq⟩, rest⟩, C, L, S⟩ s' h hs
    · simp only [search, Option.some.injEq] at hs
      subst hs
      exact ⟨h, rfl⟩
    · simp only [search] at hs
      exact ih _ _ (visit_inv hw h1 h rfl) hs

/-- From what was found the search goes on to every concatenation it feeds. -/
theorem reaches (hw : CatGraph.Wf g) (h : Inv g prior s) (hq : s.queue = []) {n c : ℕ} (hf : Feeds g n c) (hc : (g c).isCat = true)
    (hn : Found g prior s n ∨ (s.level n ≤ 1 ∧ (g n).Through)) : c ∈ s.centers := by
  have hseen : ∀ n, (Found g prior s n ∨ (s.level n ≤ 1 ∧ (g n).Through)) → ∀ n' ∈ (g n).nexts, Seen g s n' := by
    intro n hn n' hn'
    rcases h.nexts n hn n' hn' with h1 | ⟨m, f, h1⟩
    · exact h1
    · rw [hq] at h1; cases h1
  induction hf with
  | direct hm _ =>
    rcases hseen _ hn _ ((hw.edges _ _).1 hm) with h1 | h1 | h1
    · rw [(hw.cat _ hc).2.2] at h1; cases h1
    · exact h1
    · rw [h.catLevel _ hc] at h1; omega
  | through hv ht hm _ ih =>
    refine ih hc ?_
    rcases hseen _ hn _ ((hw.edges _ _).1 hm) with h1 | h1 | h1
    · rw [ht.2.2.2] at h1; cases h1
    · have := h.cats _ h1
      rw [ht.1] at this; cases this
    · exact Or.inr ⟨h1, ht⟩

/-- What feeds a concatenation found in this search was seen. -/
theorem near_of_feeds (h : Inv g prior s) (hq : s.queue = []) {m c : ℕ} (hf : Feeds g m c) (hc : c ∈ s.centers) (hp : c ∉ prior) : m ∈ s.centers ∨ s.level m = 0 := by
  have hnear : ∀ n, ((n ∈ s.centers ∧ n ∉ prior) ∨ (s.level n = 0 ∧ (g n).Through)) → ∀ m ∈ (g n).prevs, Near g s m := by
    intro n hn m hm
    rcases h.prevs n hn m hm with h1 | h1
    · exact h1
    · rw [hq] at h1; cases h1
  induction hf with
  | direct hm hz =>
    rcases hnear _ (Or.inl ⟨hc, hp⟩) _ hm with h1 | h1
    · rw [hz] at h1; cases h1
    · exact h1
  | @through m v c hv ht hm hz ih =>
    have h0 : s.level v = 0 := by
      rcases ih hc hp with h1 | h1
      · have := h.cats _ h1
        rw [ht.1] at this; cases this
      · exact h1
    rcases hnear _ (Or.inr ⟨h0, ht⟩) _ hm with h1 | h1
    · rw [hz] at h1; cases h1
    · exact h1

/-- The concatenations considered are all that share an operand. -/
def Closed (g : Graph) (prior : List ℕ) : Prop :=
  ∀ c ∈ prior, (∀ c', Feeds g c c' → (g c').isCat = true → c' ∈ prior) ∧
    ∀ m, Feeds g m c → ((g m).isCat = true → m ∈ prior) ∧ ∀ c', (g c').isCat = true → Feeds g m c' → c' ∈ prior

def Settled (g : Graph) (prior : List ℕ) (obs : ℕ → ℕ) : Prop :=
  ∀ c ∈ prior, ∀ m, Feeds g m c → ∀ σ τ, (g m).site = some σ → (g c).site = some τ → obs σ = obs τ

theorem found_of_feeds (h : Inv g prior s) (hq : s.queue = []) (hcl : Closed g prior) {m c : ℕ} (hf : Feeds g m c) (hc : c ∈ s.centers) (hp : c ∉ prior) : Found g prior s m := by
  rcases near_of_feeds h hq hf hc hp with h1 | h1
  · by_cases hm : m ∈ prior
    · exact absurd ((hcl m hm).1 c hf (h.cats c hc)) hp
    · exact Or.inl ⟨h1, hm⟩
  · exact Or.inr h1

theorem closed_after (hw : CatGraph.Wf g) (h : Inv g prior s) (hq : s.queue = []) (hcl : Closed g prior) : Closed g s.centers := by
  intro c hc
  by_cases hp : c ∈ prior
  · obtain ⟨h1, h2⟩ := hcl c hp
    exact ⟨fun c' hf hc' => h.sub _ (h1 c' hf hc'), fun m hf => ⟨fun hm => h.sub _ ((h2 m hf).1 hm), fun c' hc' hf' => h.sub _ ((h2 m hf).2 c' hc' hf')⟩⟩
  · refine ⟨fun c' hf hc' => reaches hw h hq hf hc' (Or.inl (Or.inl ⟨hc, hp⟩)), fun m hf => ⟨fun hm => ?_, fun c' hc' hf' => ?_⟩⟩
    · rcases near_of_feeds h hq hf hc hp with h1 | h1
      · exact h1
      · rw [h.catLevel m hm] at h1; cases h1
    · exact reaches hw h hq hf' hc' (Or.inl (found_of_feeds h hq hcl hf hc hp))

theorem unify_mem {obs : ℕ → ℕ} {S : List ℕ} {σ τ : ℕ} (h1 : σ ∈ S) (h2 : τ ∈ S) : unify obs S σ = unify obs S τ := by
  match S with
  | [] => cases h1
  | [a] =>
    rw [List.mem_singleton] at h1 h2
    rw [h1, h2]
  | a :: b :: l =>
    have : ∀ ρ ∈ a :: b :: l, unify obs (a :: b :: l) ρ = obs a := by
      intro ρ hρ
      simp only [unify, List.length_cons, gt_iff_lt, show 1 < l.length + 1 + 1 from by omega, if_true, List.tail_cons, List.headD_cons]
      rcases List.mem_cons.1 hρ with rfl | h
      · exact ite_self _
      · exact if_pos h
    rw [this σ h1, this τ h2]

theorem unify_not_mem {obs : ℕ → ℕ} {S : List ℕ} {σ : ℕ} (h : σ ∉ S) : unify obs S σ = obs σ := by
  unfold unify
  split
  · exact if_neg fun hc => h (List.mem_of_mem_tail hc)
  · rfl

theorem settled_after (hw : CatGraph.Wf g) (h : Inv g prior s) (hq : s.queue = []) (hcl : Closed g prior) {obs : ℕ → ℕ} (hs : Settled g prior obs) (hpc : ∀ n ∈ prior, (g n).isCat = true) :
    Settled g s.centers (unify obs s.sites) := by
  intro c hc m hf σ τ hσ hτ
  by_cases hp : c ∈ prior
  · have h1 : σ ∉ s.sites := by
      intro hm
      obtain ⟨n, hn, hfn⟩ := h.sites σ hm
      have := hw.inj n m σ hn hσ
      subst this
      obtain ⟨hc1, hc2⟩ := (hcl c hp).2 n hf
      rcases hfn with ⟨h1, h2⟩ | h1
      · exact h2 (hc1 (h.cats n h1))
      · obtain ⟨c', h3, h4, h5⟩ := h.feeds n h1
        exact h4 (hc2 c' (h.cats c' h3) h5)
    have h2 : τ ∉ s.sites := by
      intro hm
      obtain ⟨n, hn, hfn⟩ := h.sites τ hm
      have := hw.inj n c τ hn hτ
      subst this
      rcases hfn with ⟨_, h2⟩ | h1
      · exact h2 hp
      · rw [h.catLevel n (hpc n hp)] at h1; cases h1
    rw [unify_not_mem h1, unify_not_mem h2]
    exact hs c hp m hf σ τ hσ hτ
  · exact unify_mem (h.found m σ hσ (found_of_feeds h hq hcl hf hc hp)) (h.found c τ hτ (Or.inl ⟨hc, hp⟩))

theorem visit_centers {n : ℕ} {mode : Mode} {fq : ℕ} {rest : List (ℕ × Mode × ℕ)} {a : ℕ} (h : a ∈ s.centers) : a ∈ (visit g s n mode fq rest).centers := by
  unfold visit
  split
  · exact h
  · simp only
    split
    · exact List.mem_cons_of_mem _ h
    · exact h

theorem search_centers : ∀ (fuel : ℕ) (s s' : St), search g fuel s = some s' → ∀ a ∈ s.centers, a ∈ s'.centers := by
  intro fuel
  induction fuel with
  | zero =>
    rintro ⟨_ | ⟨x, rest⟩, C, L, S⟩ s' hs a ha
    · simp only [search, Option.some.injEq] at hs
      subst hs
      exact ha
    · simp [search] at hs
  | succ fuel ih =>
    rintro ⟨_ | ⟨⟨n, mode, fq⟩, rest⟩, C, L, S⟩ s' hs a ha
    · simp only [search, Option.some.injEq] at hs
      subst hs
      exact ha
    · simp only [search] at hs
      exact ih _ _ hs a (visit_centers ha)

theorem search_start (hw : CatGraph.Wf g) {c : ℕ} (hc : (g c).isCat = true) {fuel : ℕ} {s' : St} (hs : search g fuel (start prior c) = some s') : c ∈ s'.centers := by
  cases fuel with
  | zero => simp [search, start] at hs
  | succ fuel =>
    simp only [search, start] at hs
    refine search_centers _ _ _ hs c ?_
    unfold visit
    split
    · rename_i h
      rcases h with h | h | h
      · rw [(hw.cat c hc).2.2] at h; cases h
      · exact h
      · simp at h
    · simp [hc]

theorem pass_settled (hw : CatGraph.Wf g) (h1 : CatGraph.Single g) (fuel : ℕ) :
    ∀ (cs prior : List ℕ) (obs obs' : ℕ → ℕ), (∀ c ∈ cs, (g c).isCat = true) → (∀ c ∈ prior, (g c).isCat = true) → Closed g prior → Settled g prior obs → pass g fuel cs prior obs = some obs' →
      ∃ after : List ℕ, (∀ c ∈ cs, c ∈ after) ∧ (∀ c ∈ prior, c ∈ after) ∧ Settled g after obs' := by
  intro cs
  induction cs with
  | nil =>
    intro prior obs obs' _ _ _ hs hp
    simp only [pass, Option.some.injEq] at hp
    subst hp
    exact ⟨prior, by simp, fun _ h => h, hs⟩
  | cons c cs ih =>
    intro prior obs obs' hcs hpc hcl hs hp
    simp only [pass, Option.bind_eq_some_iff] at hp
    obtain ⟨s, hs1, hs2⟩ := hp
    have hc := hcs c (by simp)
    obtain ⟨hi, hq⟩ := search_inv hw h1 fuel _ s (start_inv hc hpc) hs1
    obtain ⟨after, h2, h3, h4⟩ := ih s.centers _ obs' (fun a ha => hcs a (List.mem_cons_of_mem _ ha)) hi.cats (closed_after hw hi hq hcl) (settled_after hw hi hq hcl hs hpc) hs2
    refine ⟨after, fun a ha => ?_, fun a ha => h3 a (hi.sub a ha), h4⟩
    rcases List.mem_cons.1 ha with rfl | ha
    · exact h3 _ (search_start hw hc hs1)
    · exact h2 a ha

/-- Only what is or feeds a concatenation is changed. -/
theorem pass_only (hw : CatGraph.Wf g) (h1 : CatGraph.Single g) (fuel : ℕ) (σ : ℕ) :
    ∀ (cs prior : List ℕ) (obs obs' : ℕ → ℕ), (∀ c ∈ cs, (g c).isCat = true) → (∀ c ∈ prior, (g c).isCat = true) → pass g fuel cs prior obs = some obs' → obs' σ ≠ obs σ →
      ∃ n, (g n).site = some σ ∧ ((g n).isCat = true ∨ ∃ c, (g c).isCat = true ∧ Feeds g n c) := by
  intro cs
  induction cs with
  | nil =>
    intro prior obs obs' _ _ hp hne
    simp only [pass, Option.some.injEq] at hp
    subst hp
    exact absurd rfl hne
  | cons c cs ih =>
    intro prior obs obs' hcs hpc hp hne
    simp only [pass, Option.bind_eq_some_iff] at hp
    obtain ⟨s, hs1, hs2⟩ := hp
    obtain ⟨hi, hq⟩ := search_inv hw h1 fuel _ s (start_inv (hcs c (by simp)) hpc) hs1
    by_cases hm : σ ∈ s.sites
    · obtain ⟨n, hn, hf⟩ := hi.sites σ hm
      refine ⟨n, hn, ?_⟩
      rcases hf with ⟨h2, _⟩ | h2
      · exact Or.inl (hi.cats n h2)
      · obtain ⟨c', h3, _, h4⟩ := hi.feeds n h2
        exact Or.inr ⟨c', hi.cats c' h3, h4⟩
    · exact ih s.centers _ obs' (fun a ha => hcs a (List.mem_cons_of_mem _ ha)) hi.cats hs2 (by rw [unify_not_mem hm]; exact hne)

/-! The search ends. -/

def weight (g : Graph) (s : St) (n : ℕ) : ℕ := if (g n).isCat = true then (if n ∈ s.centers then 0 else 1) else s.level n

theorem weight_le {n : ℕ} {mode : Mode} {fq : ℕ} {rest : List (ℕ × Mode × ℕ)} (a : ℕ) : weight g (visit g s n mode fq rest) a ≤ weight g s a := by
  unfold visit
  split
  · exact le_refl _
  · rename_i hs
    have hlev : fq < s.level n := by
      by_contra hc
      exact hs (Or.inr (Or.inr (by omega)))
    unfold weight
    by_cases hn : (g n).isCat = true
    · by_cases ha : (g a).isCat = true
      · simp only [ha, hn, if_true, List.mem_cons]
        by_cases h1 : a ∈ s.centers <;> by_cases h2 : a = n <;> simp [h1, h2]
      · simp [ha, hn]
    · by_cases ha : (g a).isCat = true
      · simp [ha, hn]
      · simp only [ha, hn, if_false, Bool.false_eq_true]
        by_cases han : a = n
        · subst han; rw [Function.update_self]; omega
        · rw [Function.update_of_ne han]

theorem weight_lt {n : ℕ} {mode : Mode} {fq : ℕ} {rest : List (ℕ × Mode × ℕ)} (hs : ¬ ((g n).isSize = true ∨ n ∈ s.centers ∨ s.level n ≤ fq)) :
    weight g (visit g s n mode fq rest) n < weight g s n := by
  have hlev : fq < s.level n := by
    by_contra hc
    exact hs (Or.inr (Or.inr (by omega)))
  have hncen : n ∉ s.centers := fun hc => hs (Or.inr (Or.inl hc))
  unfold visit
  rw [if_neg hs]
  unfold weight
  by_cases hn : (g n).isCat = true
  · simp [hn, hncen]
  · simp [hn, hlev]

/-- The operations are numbered below `N`. -/
def Below (g : Graph) (N : ℕ) : Prop := ∀ n, (∀ m ∈ (g n).prevs, m < N) ∧ ∀ m ∈ (g n).nexts, m < N

theorem mem_ite_map {α β : Type} {p : Prop} [Decidable p] {f : α → β} {l : List α} {x : β} (h : x ∈ if p then l.map f else []) : ∃ m ∈ l, x = f m := by
  split at h
  · obtain ⟨m, hm, rfl⟩ := List.mem_map.1 h
    exact ⟨m, hm, rfl⟩
  · cases h

theorem pushes_below {N : ℕ} (hb : Below g N) (n : ℕ) (mode : Mode) (fq : ℕ) : ∀ x ∈ pushes (g n) mode fq, x.1 < N := by
  intro x hx
  unfold pushes at hx
  rcases List.mem_append.1 hx with hx | hx
  · obtain ⟨m, hm, rfl⟩ := mem_ite_map hx
    exact (hb n).1 m hm
  · obtain ⟨m, hm, rfl⟩ := mem_ite_map hx
    exact (hb n).2 m hm

theorem search_ends {N : ℕ} (hb : Below g N) : ∀ (w : ℕ) (s : St), (∑ n ∈ Finset.range N, weight g s n) = w → (∀ x ∈ s.queue, x.1 < N) → ∃ fuel, (search g fuel s).isSome = true := by
  intro w
  induction w using Nat.strong_induction_on with
  | _ w ihw =>
    rintro ⟨q, C, L, S⟩
    induction q generalizing C L S with
    | nil => exact fun _ _ => ⟨0, rfl⟩
    | cons x rest ihq =>
      intro hsum hlt
      obtain ⟨n, mode, fq⟩ := x
      have hn : n < N := hlt (n, mode, fq) (by simp)
      have hrest : ∀ x ∈ rest, x.1 < N := fun x hx => hlt x (List.mem_cons_of_mem _ hx)
      by_cases hs : (g n).isSize = true ∨ n ∈ C ∨ L n ≤ fq
      · have hv : visit g ⟨(n, mode, fq) :: rest, C, L, S⟩ n mode fq rest = ⟨rest, C, L, S⟩ := by
          unfold visit
          rw [if_pos hs]
        obtain ⟨fuel, hf⟩ := ihq C L S hsum hrest
        exact ⟨fuel + 1, by rw [search, hv]; exact hf⟩
      · have hlt' : (∑ a ∈ Finset.range N, weight g (visit g ⟨(n, mode, fq) :: rest, C, L, S⟩ n mode fq rest) a) < w := by
          rw [← hsum]
          exact Finset.sum_lt_sum (fun a _ => weight_le a) ⟨n, Finset.mem_range.2 hn, weight_lt hs⟩
        obtain ⟨fuel, hf⟩ := ihw _ hlt' _ rfl (by
          unfold visit
          rw [if_neg hs]
          intro x hx
          rcases List.mem_append.1 hx with hx | hx
          · exact hrest x hx
          · exact pushes_below hb n _ _ x hx)
        exact ⟨fuel + 1, by rw [search]; exact hf⟩

theorem search_more : ∀ (fuel k : ℕ) (s s' : St), search g fuel s = some s' → search g (fuel + k) s = some s' := by
  intro fuel
  induction fuel with
  | zero =>
    rintro k ⟨_ | ⟨x, rest⟩, C, L, S⟩ s' hs
    · cases h : (0 + k) <;> simpa [search] using hs
    · simp [search] at hs
  | succ fuel ih =>
    rintro k ⟨_ | ⟨⟨n, mode, fq⟩, rest⟩, C, L, S⟩ s' hs
    · cases h : (fuel + 1 + k) <;> simpa [search] using hs
    · rw [show fuel + 1 + k = fuel + k + 1 from by omega]
      simp only [search] at hs ⊢
      exact ih k _ _ hs

theorem pass_more (k : ℕ) : ∀ (cs : List ℕ) (fuel : ℕ) (prior : List ℕ) (obs obs' : ℕ → ℕ), pass g fuel cs prior obs = some obs' → pass g (fuel + k) cs prior obs = some obs' := by
  intro cs
  induction cs with
  | nil => exact fun _ _ _ _ h => h
  | cons c cs ih =>
    intro fuel prior obs obs' h
    simp only [pass, Option.bind_eq_some_iff] at h ⊢
    obtain ⟨s, h1, h2⟩ := h
    exact ⟨s, search_more fuel k _ _ h1, ih _ _ _ _ h2⟩

theorem pass_ends {N : ℕ} (hb : Below g N) : ∀ (cs prior : List ℕ) (obs : ℕ → ℕ), (∀ c ∈ cs, c < N) → ∃ fuel obs', pass g fuel cs prior obs = some obs' := by
  intro cs
  induction cs with
  | nil => exact fun prior obs _ => ⟨0, obs, rfl⟩
  | cons c cs ih =>
    intro prior obs hlt
    obtain ⟨f1, h1⟩ := search_ends hb _ (start prior c) rfl (by
      intro x hx
      simp only [start, List.mem_singleton] at hx
      subst hx
      exact hlt c (by simp))
    obtain ⟨s, h1⟩ := Option.isSome_iff_exists.1 h1
    obtain ⟨f2, obs', h2⟩ := ih s.centers (unify obs s.sites) fun a ha => hlt a (List.mem_cons_of_mem _ ha)
    refine ⟨f1 + f2, obs', ?_⟩
    simp only [pass, Option.bind_eq_some_iff]
    exact ⟨s, search_more f1 f2 _ _ h1, by rw [Nat.add_comm]; exact pass_more f1 cs f2 _ _ _ h2⟩

end CatUnify

open CatUnify

/-- C110, in part: afterwards the operands and the result of every quantized concatenation have one observer.  Missing: operations without observer whose result is used more than once
(`C110_shared_false`). -/
theorem C110_partial (g : Graph) (hw : CatGraph.Wf g) (h1 : CatGraph.Single g) (cats : List ℕ) (hc : ∀ c ∈ cats, (g c).isCat = true) (fuel : ℕ) (obs obs' : ℕ → ℕ)
    (hp : pass g fuel cats [] obs = some obs') (c : ℕ) (hcc : c ∈ cats) (m σ τ : ℕ) (hf : Feeds g m c) (hσ : (g m).site = some σ) (hτ : (g c).site = some τ) : obs' σ = obs' τ := by
  obtain ⟨after, h2, _, h3⟩ := pass_settled hw h1 fuel cats [] obs obs' hc (by simp) (fun _ h => by cases h) (fun _ h => by cases h) hp
  exact h3 c (h2 c hcc) m hf σ τ hσ hτ

/-- C110: nothing else gets another observer. -/
theorem C110_only (g : Graph) (hw : CatGraph.Wf g) (h1 : CatGraph.Single g) (cats : List ℕ) (hc : ∀ c ∈ cats, (g c).isCat = true) (fuel : ℕ) (obs obs' : ℕ → ℕ)
    (hp : pass g fuel cats [] obs = some obs') (σ : ℕ) (hne : obs' σ ≠ obs σ) : ∃ n, (g n).site = some σ ∧ ((g n).isCat = true ∨ ∃ c, (g c).isCat = true ∧ Feeds g n c) :=
  pass_only hw h1 fuel σ cats [] obs obs' hc (by simp) hp hne

/-- C110: the pass ends on every finite graph, whatever its connections. -/
theorem C110_ends (g : Graph) (N : ℕ) (hN : ∀ n, (∀ m ∈ (g n).prevs, m < N) ∧ ∀ m ∈ (g n).nexts, m < N) (cats : List ℕ) (hc : ∀ c ∈ cats, c < N) (obs : ℕ → ℕ) :
    ∃ fuel obs', pass g fuel cats [] obs = some obs' :=
  pass_ends hN cats [] obs hc

/-- A convolution, a pooling without observer, and a concatenation of its result with that of another convolution; then a second concatenation with the first and one operand of it. -/
def joined : Graph
  | 0 => ⟨false, false, false, some 10, [], [1]⟩
  | 1 => ⟨false, false, false, none, [0], [3]⟩
  | 2 => ⟨false, false, false, some 12, [], [3, 4]⟩
  | 3 => ⟨true, false, false, some 13, [1, 2], [4]⟩
  | 4 => ⟨true, false, false, some 14, [2, 3], []⟩
  | _ => ⟨false, false, false, none, [], []⟩

theorem joined_wf : CatGraph.Wf joined ∧ CatGraph.Single joined := by
  refine ⟨⟨fun n => ?_, fun n n' σ => ?_, fun m n => ?_⟩, fun n => ?_⟩
  · rcases n with _ | _ | _ | _ | _ | n <;> simp [joined]
  · rcases n with _ | _ | _ | _ | _ | n <;> rcases n' with _ | _ | _ | _ | _ | n' <;> simp [joined] <;> omega
  · rcases n with _ | _ | _ | _ | _ | n <;> rcases m with _ | _ | _ | _ | _ | m <;> simp [joined]
  · rcases n with _ | _ | _ | _ | _ | n <;> simp [joined, Node.Through]

example : Feeds joined 0 3 ∧ Feeds joined 2 3 ∧ Feeds joined 3 4 ∧ ((pass joined 20 [3, 4] [] id).map fun o => (o 10, o 12, o 13, o 14)) = some (13, 13, 13, 13) :=
  ⟨.through (v := 1) (.direct (by simp [joined]) rfl) ⟨rfl, rfl, rfl, rfl⟩ (by simp [joined]) rfl, .direct (by simp [joined]) rfl, .direct (by simp [joined]) rfl, by decide +kernel⟩

example : (∀ n, (∀ m ∈ (joined n).prevs, m < 5) ∧ ∀ m ∈ (joined n).nexts, m < 5) := by
  intro n
  rcases n with _ | _ | _ | _ | _ | n <;> simp [joined]

/-- A convolution whose result goes through a pooling to a second convolution; the first concatenation joins both convolutions, the second takes the result of the pooling. -/
def twoCats : Graph
  | 0 => ⟨false, false, false, some 10, [], [1, 3]⟩
  | 1 => ⟨false, false, false, none, [0], [2, 5]⟩
  | 2 => ⟨false, false, false, some 12, [1], [3]⟩
  | 3 => ⟨true, false, false, some 13, [2, 0], []⟩
  | 4 => ⟨false, false, false, some 14, [], [5]⟩
  | 5 => ⟨true, false, false, some 15, [1, 4], []⟩
  | _ => ⟨false, false, false, none, [], []⟩

theorem twoCats_wf : CatGraph.Wf twoCats := by
  refine ⟨fun n => ?_, fun n n' σ => ?_, fun m n => ?_⟩
  · rcases n with _ | _ | _ | _ | _ | _ | n <;> simp [twoCats]
  · rcases n with _ | _ | _ | _ | _ | _ | n <;> rcases n' with _ | _ | _ | _ | _ | _ | n' <;> simp [twoCats] <;> omega
  · rcases n with _ | _ | _ | _ | _ | _ | n <;> rcases m with _ | _ | _ | _ | _ | _ | m <;> simp [twoCats]

/-- C110 fails when an operation without observer feeds two others: the operand and the result of the first concatenation end with different observers. -/
theorem C110_shared_false : ∃ (g : Graph) (cats : List ℕ) (fuel : ℕ) (obs obs' : ℕ → ℕ), CatGraph.Wf g ∧ (∀ c ∈ cats, (g c).isCat = true) ∧ pass g fuel cats [] obs = some obs' ∧
    ∃ c ∈ cats, ∃ m σ τ, Feeds g m c ∧ (g m).site = some σ ∧ (g c).site = some τ ∧ obs' σ ≠ obs' τ := by
  have h : (pass twoCats 20 [3, 5] [] id).map (fun o => (o 10, o 13)) = some (15, 13) := by decide +kernel
  obtain ⟨o, h1, h2⟩ := Option.map_eq_some_iff.1 h
  rw [Prod.mk.injEq] at h2
  refine ⟨twoCats, [3, 5], 20, id, o, twoCats_wf, by simp [twoCats], h1, 3, by simp, 0, 10, 13, .direct (by simp [twoCats]) rfl, rfl, rfl, ?_⟩
  rw [h2.1, h2.2]
  decide

end Verif.Props
