import Verif.Model.TrtStubs
import Mathlib.Data.List.Basic
import Mathlib.Data.List.Nodup
import Mathlib.Tactic.Common

/-!
C147: preparing a model for TensorRT.
-/

namespace Verif.Props
open Verif.Spec.Trt Verif.Model.Trt

namespace Trt

/-- A tensor of a connected node gets one stub, whose number stands for it from then on. -/
theorem stepTensor_ok (stubs : List Place) (r : Reader) (t : Place) (h : Src.node t.1 ∈ r.nodes) (hn : stubs.Nodup) :
    ∃ k more, stepTensor (stubs, r) t = some (stubs ++ more, redirect t k r) ∧ (stubs ++ more)[k]? = some t ∧ (stubs ++ more).Nodup ∧
      ∀ u, u ∈ stubs ++ more ↔ u ∈ stubs ∨ u = t := by
  unfold stepTensor
  dsimp only
  cases hk : stubs.idxOf? t with
  | some k =>
    obtain ⟨hlt, he, -⟩ := List.findIdx?_eq_some_iff_getElem.1 hk
    have he : stubs[k] = t := by simpa using he
    refine ⟨k, [], by simp, by simp [List.getElem?_eq_getElem hlt, he], by simpa using hn, ?_⟩
    intro u
    simp only [List.append_nil]
    constructor
    · exact Or.inl
    · rintro (hu | rfl)
      · exact hu
      · exact he ▸ List.getElem_mem hlt
  | none =>
    have hnot : t ∉ stubs := by
      intro hm
      have := List.findIdx?_eq_none_iff.1 hk t hm
      simp at this
    rw [if_pos h]
    refine ⟨stubs.length, [t], rfl, by simp, ?_, by simp⟩
    rw [List.nodup_append]
    refine ⟨hn, by simp, ?_⟩
    intro a ha b hb
    simp only [List.mem_singleton] at hb
    subst hb
    rintro rfl
    exact hnot ha

theorem mapIdx_all {α β : Type} (f : α → β) (g : Nat → α → β) (l : List α) (h : ∀ j a, j < l.length → g j a = f a) : l.mapIdx g = l.map f := by
  apply List.ext_getElem
  · simp
  · intro j h1 h2
    simp only [List.getElem_mapIdx, List.getElem_map]
    exact h _ _ (by simpa using h1)

/-- A reader of which the nodes in `D` have been visited. -/
def at_ (skip : Nat → Bool) (op : Op) (D : List Nat) (g : Nat → Nat) : Reader :=
  ⟨op.observed, op.slots.map (fun t => if t.1 ∈ D ∧ skip t.1 = false then .stub (g t.1) else .node t.1),
    op.slots.map (fun t => if t.1 ∈ D ∧ skip t.1 = false then .stub (g t.1) else .place t), op.slots.map (fun t => if t.1 ∈ D ∧ skip t.1 = false then none else t.2)⟩

theorem nodup_eraseDups {α : Type} [BEq α] [LawfulBEq α] (n : Nat) : ∀ l : List α, l.length ≤ n → l.eraseDups.Nodup := by
  induction n with
  | zero =>
    intro l hl
    rw [List.length_eq_zero_iff.1 (Nat.le_zero.1 hl)]
    simp
  | succ n ih =>
    intro l hl
    cases l with
    | nil => simp
    | cons a t =>
      rw [List.eraseDups_cons, List.nodup_cons]
      refine ⟨?_, ih _ ?_⟩
      · rw [List.mem_eraseDups]
        simp
      · have := List.length_filter_le (fun b => !b == a) t
        simp only [List.length_cons] at hl
        omega

theorem eraseDups_all {α : Type} [BEq α] [LawfulBEq α] (l : List α) (a : α) (h : ∀ b ∈ l, b = a) (hne : l ≠ []) : l.eraseDups = [a] := by
  cases l with
  | nil => exact absurd rfl hne
  | cons b t =>
    rw [List.eraseDups_cons]
    have hb := h b (by simp)
    subst hb
    have : t.filter (fun c => !c == b) = [] := by
      rw [List.filter_eq_nil_iff]
      intro c hc
      simp [h c (by simp [hc])]
    rw [this]
    rfl

theorem places_at (skip : Nat → Bool) (op : Op) (D : List Nat) (g : Nat → Nat) (ho : OnePlace op) (t : Place) (ht : t ∈ op.slots) (hD : t.1 ∉ D) :
    places t.1 (at_ skip op D g) = [t] := by
  unfold places
  apply eraseDups_all
  · intro b hb
    simp only [at_, List.filterMap_map, List.mem_filterMap, Function.comp] at hb
    obtain ⟨s, hs, h⟩ := hb
    by_cases hc : s.1 ∈ D ∧ skip s.1 = false
    · rw [if_pos hc] at h
      cases h
    · rw [if_neg hc] at h
      dsimp only at h
      by_cases hp : s.1 = t.1
      · rw [if_pos hp] at h
        cases h
        exact ho _ hs _ ht hp
      · rw [if_neg hp] at h
        cases h
  · intro h
    have : t ∈ ([] : List Place) := by
      rw [← h]
      simp only [at_, List.filterMap_map, List.mem_filterMap, Function.comp]
      refine ⟨t, ht, ?_⟩
      rw [if_neg (fun hc => hD hc.1)]
      simp
    cases this

theorem remaining_at (skip : Nat → Bool) (op : Op) (D : List Nat) (g : Nat → Nat) (ho : OnePlace op) (t : Place) (ht : t ∈ op.slots) : remaining t (at_ skip op D g) = 0 := by
  unfold remaining
  rw [List.length_eq_zero_iff, List.filter_eq_nil_iff]
  intro u hu
  simp only [at_, List.mem_map] at hu
  obtain ⟨s, hs, rfl⟩ := hu
  by_cases hc : s.1 ∈ D ∧ skip s.1 = false
  · rw [if_pos hc]
    simp
  · rw [if_neg hc]
    by_cases hp : s.1 = t.1
    · simp [ho _ hs _ ht hp]
    · simp [hp]

theorem redirect_at (skip : Nat → Bool) (op : Op) (D : List Nat) (g : Nat → Nat) (ho : OnePlace op) (t : Place) (ht : t ∈ op.slots) (hD : t.1 ∉ D) (hs : skip t.1 = false) (k : Nat) :
    redirect t k (at_ skip op D g) = at_ skip op (D ++ [t.1]) (fun p => if p = t.1 then k else g p) := by
  unfold redirect
  rw [remaining_at skip op D g ho t ht]
  have e1 : (at_ skip op D g).nodes.mapIdx (fun j s => if j < (at_ skip op D g).nodes.length - 0 ∧ s = .node t.1 then Src.stub k else s) =
      (at_ skip op D g).nodes.map (fun s => if s = .node t.1 then Src.stub k else s) := by
    apply mapIdx_all
    intro j a hj
    simp [hj]
  rw [e1]
  simp only [at_, List.map_map, Reader.mk.injEq, true_and]
  refine ⟨?_, ?_, ?_⟩
  · apply List.map_congr_left
    intro s hsl
    simp only [Function.comp, List.mem_append, List.mem_singleton]
    by_cases hp : s.1 = t.1
    · rw [hp]; simp [hD, hs]
    · by_cases hc : s.1 ∈ D ∧ skip s.1 = false
      · simp [hc, hp]
      · rw [if_neg hc, if_neg (by simpa using hp), if_neg (by tauto)]
  · apply List.map_congr_left
    intro s hsl
    simp only [Function.comp, List.mem_append, List.mem_singleton]
    by_cases hp : s.1 = t.1
    · have := ho _ hsl _ ht hp
      subst this
      simp [hD, hs]
    · by_cases hc : s.1 ∈ D ∧ skip s.1 = false
      · simp [hc, hp]
      · rw [if_neg hc, if_neg (by rintro ⟨⟩; exact hp rfl), if_neg (by tauto)]
  · rw [List.zipWith_map, List.zipWith_self]
    apply List.map_congr_left
    intro s hsl
    simp only [List.mem_append, List.mem_singleton]
    by_cases hp : s.1 = t.1
    · have := ho _ hsl _ ht hp
      subst this
      simp [hD, hs]
    · by_cases hc : s.1 ∈ D ∧ skip s.1 = false
      · simp [hc, hp]
      · rw [if_neg hc, if_neg (by rintro ⟨⟩; exact hp rfl)]
        have : ¬ ((s.1 ∈ D ∨ s.1 = t.1) ∧ skip s.1 = false) := by tauto
        simp [hc, this]

theorem at_skip (skip : Nat → Bool) (op : Op) (D : List Nat) (g : Nat → Nat) (p : Nat) (hs : skip p = true) : at_ skip op D g = at_ skip op (D ++ [p]) g := by
  have e : ∀ t : Place, (t.1 ∈ D ∧ skip t.1 = false) ↔ (t.1 ∈ D ++ [p] ∧ skip t.1 = false) := by
    intro t
    simp only [List.mem_append, List.mem_singleton]
    constructor
    · rintro ⟨a, b⟩; exact ⟨Or.inl a, b⟩
    · rintro ⟨a | a, b⟩
      · exact ⟨a, b⟩
      · rw [a, hs] at b; cases b
  unfold at_
  simp only [e]

theorem nodes_loop (skip : Nat → Bool) (op : Op) (ho : OnePlace op) (L : List Nat) : ∀ (D : List Nat) (g : Nat → Nat) (stubs : List Place), stubs.Nodup → (D ++ L).Nodup →
    (∀ p ∈ L, ∃ t ∈ op.slots, t.1 = p) → (∀ t ∈ op.slots, t.1 ∈ D → skip t.1 = false → stubs[g t.1]? = some t) →
    ∃ g' more, L.foldlM (stepNode skip) (stubs, at_ skip op D g) = some (stubs ++ more, at_ skip op (D ++ L) g') ∧ (stubs ++ more).Nodup ∧
      (∀ t ∈ op.slots, t.1 ∈ D ++ L → skip t.1 = false → (stubs ++ more)[g' t.1]? = some t) ∧
      ∀ u, u ∈ stubs ++ more ↔ u ∈ stubs ∨ (u ∈ op.slots ∧ u.1 ∈ L ∧ skip u.1 = false) := by
  induction L with
  | nil =>
    intro D g stubs hn _ _ hg
    exact ⟨g, [], by simp, by simpa using hn, by simpa using hg, by simp⟩
  | cons p L ih =>
    intro D g stubs hn hd hL hg
    obtain ⟨t, ht, rfl⟩ := hL p (by simp)
    have hD : t.1 ∉ D := by
      intro h
      exact (List.nodup_append.1 hd).2.2 _ h _ (by simp) rfl
    have hd' : ((D ++ [t.1]) ++ L).Nodup := by simpa using hd
    by_cases hs : skip t.1 = true
    · obtain ⟨g', more, h1, h2, h3, h4⟩ := ih (D ++ [t.1]) g stubs hn hd' (fun q hq => hL q (by simp [hq])) (by
        intro u hu hmem hsk
        simp only [List.mem_append, List.mem_singleton] at hmem
        rcases hmem with hmem | hmem
        · exact hg u hu hmem hsk
        · rw [hmem, hs] at hsk; cases hsk)
      refine ⟨g', more, ?_, h2, by simpa using h3, ?_⟩
      · rw [List.foldlM_cons]
        simp only [stepNode, hs, if_true]
        show List.foldlM (stepNode skip) (stubs, at_ skip op D g) L = _
        rw [at_skip skip op D g t.1 hs, h1]
        simp
      · intro u
        rw [h4]
        constructor
        · rintro (h | ⟨a, b, c⟩)
          · exact Or.inl h
          · exact Or.inr ⟨a, by simp [b], c⟩
        · rintro (h | ⟨a, b, c⟩)
          · exact Or.inl h
          · rcases List.mem_cons.1 b with b | b
            · rw [b, hs] at c; cases c
            · exact Or.inr ⟨a, b, c⟩
    · have hs : skip t.1 = false := by simpa using hs
      have hmem : Src.node t.1 ∈ (at_ skip op D g).nodes := by
        simp only [at_, List.mem_map]
        exact ⟨t, ht, by rw [if_neg (fun h => hD h.1)]⟩
      obtain ⟨k, m1, e1, e2, e3, e4⟩ := stepTensor_ok stubs (at_ skip op D g) t hmem hn
      obtain ⟨g', more, h1, h2, h3, h4⟩ := ih (D ++ [t.1]) (fun p => if p = t.1 then k else g p) (stubs ++ m1) e3 hd' (fun q hq => hL q (by simp [hq])) (by
        intro u hu hm hsk
        by_cases hp : u.1 = t.1
        · rw [if_pos hp, e2, ho _ hu _ ht hp]
        · rw [if_neg hp]
          have hm : u.1 ∈ D := by
            simp only [List.mem_append, List.mem_singleton] at hm
            tauto
          have := hg u hu hm hsk
          have hlt : g u.1 < stubs.length := by
            rcases Nat.lt_or_ge (g u.1) stubs.length with h | h
            · exact h
            · rw [List.getElem?_eq_none h] at this; cases this
          rw [List.getElem?_append_left hlt]
          exact this)
      refine ⟨g', m1 ++ more, ?_, by rw [← List.append_assoc]; exact h2, ?_, ?_⟩
      · rw [List.foldlM_cons]
        simp only [stepNode]
        rw [if_neg (by simp [hs]), places_at skip op D g ho t ht hD]
        simp only [List.foldlM_cons, List.foldlM_nil, e1, redirect_at skip op D g ho t ht hD hs k]
        show List.foldlM (stepNode skip) (stubs ++ m1, _) L = _
        rw [h1]
        simp
      · intro u hu hm hsk
        rw [← List.append_assoc]
        exact h3 u hu (by simpa using hm) hsk
      · intro u
        rw [← List.append_assoc, h4, e4]
        constructor
        · rintro ((h | rfl) | ⟨a, b, c⟩)
          · exact Or.inl h
          · exact Or.inr ⟨ht, by simp, hs⟩
          · exact Or.inr ⟨a, by simp [b], c⟩
        · rintro (h | ⟨a, b, c⟩)
          · exact Or.inl (Or.inl h)
          · rcases List.mem_cons.1 b with b | b
            · exact Or.inl (Or.inr (ho _ a _ ht b))
            · exact Or.inr ⟨a, b, c⟩

theorem traced_at (skip : Nat → Bool) (op : Op) : traced op = at_ skip op [] (fun _ => 0) := by
  simp [traced, at_]

theorem mem_producers (op : Op) (p : Nat) : p ∈ producers (traced op) ↔ ∃ t ∈ op.slots, t.1 = p := by
  unfold producers traced
  rw [List.mem_eraseDups]
  simp [List.filterMap_map, Function.comp]

/-- One operator. -/
theorem reader_ok (skip : Nat → Bool) (op : Op) (ho : OnePlace op) (stubs : List Place) (hn : stubs.Nodup) :
    ∃ r more, stepReader skip stubs (traced op) = some (stubs ++ more, r) ∧ (∀ rest, reads (stubs ++ more ++ rest) r = expected skip op) ∧ (stubs ++ more).Nodup ∧
      ∀ u, u ∈ stubs ++ more ↔ u ∈ stubs ∨ (op.observed = true ∧ u ∈ op.slots ∧ skip u.1 = false) := by
  unfold stepReader
  by_cases hob : op.observed = true
  · rw [if_pos (show (traced op).observed = true from hob)]
    have hnd : ([] ++ producers (traced op)).Nodup := by
      simp only [List.nil_append, producers]
      exact nodup_eraseDups _ _ (Nat.le_refl _)
    obtain ⟨g, more, h1, h2, h3, h4⟩ := nodes_loop skip op ho (producers (traced op)) [] (fun _ => 0) stubs hn hnd (fun p hp => (mem_producers op p).1 hp) (by simp)
    rw [← traced_at] at h1
    refine ⟨_, more, h1, ?_, h2, ?_⟩
    · intro rest
      unfold reads expected at_
      dsimp only
      rw [List.zipWith_map, List.zipWith_self]
      apply List.map_congr_left
      intro t ht
      have hm : t.1 ∈ [] ++ producers (traced op) := by
        simp only [List.nil_append]
        exact (mem_producers op t.1).2 ⟨t, ht, rfl⟩
      by_cases hs : skip t.1 = false
      · have := h3 t ht hm hs
        have hlt : g t.1 < (stubs ++ more).length := by
          rcases Nat.lt_or_ge (g t.1) (stubs ++ more).length with h | h
          · exact h
          · rw [List.getElem?_eq_none h] at this; cases this
        rw [if_pos ⟨hm, hs⟩, if_pos ⟨hm, hs⟩, if_pos ⟨hob, hs⟩]
        simp only [handed]
        rw [List.getElem?_append_left hlt, this]
      · rw [if_neg (fun h => hs h.2), if_neg (fun h => hs h.2), if_neg (fun h => hs h.2)]
        rfl
    · intro u
      rw [h4]
      constructor
      · rintro (h | ⟨a, b, c⟩)
        · exact Or.inl h
        · exact Or.inr ⟨hob, a, c⟩
      · rintro (h | ⟨a, b, c⟩)
        · exact Or.inl h
        · exact Or.inr ⟨b, (mem_producers op u.1).2 ⟨u, b, rfl⟩, c⟩
  · rw [if_neg (show ¬ (traced op).observed = true from hob)]
    refine ⟨traced op, [], by simp, ?_, by simpa using hn, by simp [hob]⟩
    intro rest
    unfold reads expected traced
    dsimp only
    rw [List.zipWith_map, List.zipWith_self]
    apply List.map_congr_left
    intro t ht
    rw [if_neg (fun h => hob h.1)]
    rfl

theorem prepare_ok (skip : Nat → Bool) (ops : List Op) (ho : ∀ op ∈ ops, op.observed = true → OnePlace op) : ∀ (stubs : List Place), stubs.Nodup →
    ∃ rs more, prepare skip stubs (ops.map traced) = some (stubs ++ more, rs) ∧ (∀ rest, rs.map (reads (stubs ++ more ++ rest)) = ops.map (expected skip)) ∧ (stubs ++ more).Nodup ∧
      ∀ u, u ∈ stubs ++ more ↔ u ∈ stubs ∨ ∃ op ∈ ops, op.observed = true ∧ u ∈ op.slots ∧ skip u.1 = false := by
  induction ops with
  | nil =>
    intro stubs hn
    exact ⟨[], [], by simp [prepare], by simp, by simpa using hn, by simp⟩
  | cons op ops ih =>
    intro stubs hn
    have one : ∃ r more, stepReader skip stubs (traced op) = some (stubs ++ more, r) ∧ (∀ rest, reads (stubs ++ more ++ rest) r = expected skip op) ∧ (stubs ++ more).Nodup ∧
        ∀ u, u ∈ stubs ++ more ↔ u ∈ stubs ∨ (op.observed = true ∧ u ∈ op.slots ∧ skip u.1 = false) := by
      by_cases hob : op.observed = true
      · exact reader_ok skip op (ho op (by simp) hob) stubs hn
      · refine ⟨traced op, [], ?_, ?_, by simpa using hn, by simp [hob]⟩
        · unfold stepReader
          rw [if_neg (show ¬ (traced op).observed = true from hob)]
          simp
        · intro rest
          unfold reads expected traced
          dsimp only
          rw [List.zipWith_map, List.zipWith_self]
          apply List.map_congr_left
          intro t ht
          rw [if_neg (fun h => hob h.1)]
          rfl
    obtain ⟨r, m1, h1, h2, h3, h4⟩ := one
    obtain ⟨rs, m2, k1, k2, k3, k4⟩ := ih (fun o ho' => ho o (by simp [ho'])) (stubs ++ m1) h3
    refine ⟨r :: rs, m1 ++ m2, ?_, ?_, by rw [← List.append_assoc]; exact k3, ?_⟩
    · simp only [List.map_cons, prepare, h1]
      show (prepare skip (stubs ++ m1) (ops.map traced)).bind _ = _
      rw [k1]
      simp
    · intro rest
      simp only [List.map_cons]
      rw [← List.append_assoc, k2]
      congr 1
      rw [List.append_assoc]
      exact h2 _
    · intro u
      rw [← List.append_assoc, k4, h4]
      simp only [List.mem_cons, exists_eq_or_imp]
      tauto

end Trt

/-- **C147** (for operators that read at most one tensor of each operator before them): in the prepared model the operators TensorRT runs on integers are handed exactly their tensors,
each through a quantizer, all other operators are handed what they were handed before, and every tensor has at most one quantizer, which it has only if such an operator reads it. -/
theorem C147_reads_partial (skip : Nat → Bool) (ops : List Op) (ho : ∀ op ∈ ops, op.observed = true → OnePlace op) :
    ∃ rs stubs, prepare skip [] (ops.map traced) = some (stubs, rs) ∧ rs.map (reads stubs) = ops.map (expected skip) ∧ stubs.Nodup ∧
      ∀ t, t ∈ stubs ↔ ∃ op ∈ ops, op.observed = true ∧ t ∈ op.slots ∧ skip t.1 = false := by
  obtain ⟨rs, more, h1, h2, h3, h4⟩ := Trt.prepare_ok skip ops ho [] List.nodup_nil
  refine ⟨rs, more, by simpa using h1, ?_, by simpa using h3, ?_⟩
  · have := h2 []
    simpa using this
  · intro t
    have := h4 t
    simpa using this

/-- A residual block: two convolutions read tensor 0, an addition reads both results, a pooling layer reads the sum; three quantizers. -/
example : ∃ rs, prepare (fun _ => false) [] ([⟨true, [(0, none)]⟩, ⟨true, [(0, none)]⟩, ⟨false, [(1, none), (2, none)]⟩, ⟨true, [(3, none)]⟩].map traced) = some ([(0, none), (3, none)], rs) ∧
    rs.map (reads [(0, none), (3, none)]) =
      [[.quantized (0, none)], [.quantized (0, none)], [.raw (1, none), .raw (2, none)], [.quantized (3, none)]] := ⟨_, rfl, by decide⟩

/-- A cell that is handed its two states by one operator before it, after an input from elsewhere, is also handed its tensors in order, each through a quantizer of its own. -/
theorem C147_cell (x p : Nat) (i j k : Option Nat) (hxp : x ≠ p) (hij : i ≠ j) :
    ∃ r stubs, stepReader (fun _ => false) [] (traced ⟨true, [(x, k), (p, i), (p, j)]⟩) = some (stubs, r) ∧ reads stubs r = [.quantized (x, k), .quantized (p, i), .quantized (p, j)] ∧
      stubs = [(x, k), (p, i), (p, j)] := by
  have hpx : p ≠ x := Ne.symm hxp
  have hji : j ≠ i := Ne.symm hij
  refine ⟨⟨true, [.stub 0, .stub 1, .stub 2], [.stub 0, .stub 1, .stub 2], [none, none, none]⟩, [(x, k), (p, i), (p, j)], ?_, by simp [reads, handed], rfl⟩
  have hp : producers (traced ⟨true, [(x, k), (p, i), (p, j)]⟩) = [x, p] := by
    simp [producers, traced, List.eraseDups_cons, hpx]
  have e1 : stepNode (fun _ => false) ([], traced ⟨true, [(x, k), (p, i), (p, j)]⟩) x =
      some ([(x, k)], ⟨true, [.stub 0, .node p, .node p], [.stub 0, .place (p, i), .place (p, j)], [none, i, j]⟩) := by
    simp [stepNode, places, traced, List.eraseDups_cons, hpx, stepTensor, redirect, remaining]
  have e2 : stepNode (fun _ => false) ([(x, k)], ⟨true, [.stub 0, .node p, .node p], [.stub 0, .place (p, i), .place (p, j)], [none, i, j]⟩) p =
      some ([(x, k), (p, i), (p, j)], ⟨true, [.stub 0, .stub 1, .stub 2], [.stub 0, .stub 1, .stub 2], [none, none, none]⟩) := by
    simp [stepNode, places, List.eraseDups_cons, stepTensor, redirect, remaining, hij, hji, hxp, List.idxOf?, List.findIdx?_cons]
  unfold stepReader
  rw [if_pos (show (traced ⟨true, [(x, k), (p, i), (p, j)]⟩).observed = true from rfl), hp, List.foldlM_cons, e1]
  simp only [Option.bind_eq_bind, Option.bind_some, List.foldlM_cons, List.foldlM_nil, e2]
  rfl

/-- The full claim is false: a cell whose input and first state come from one operator and whose second state comes from another makes preparing fail an assertion (1). If the first state
has a quantizer already, the cell silently gets its input as its first state (2). -/
theorem C147_order_false :
    prepare (fun _ => false) [] ([⟨true, [(0, some 0), (0, some 1), (1, none)]⟩].map traced) = none ∧
    (prepare (fun _ => false) [] ([⟨true, [(0, some 1)]⟩, ⟨true, [(0, some 0), (0, some 1), (1, none)]⟩].map traced)).map (fun x => x.2.map (reads x.1)) =
      some [[.quantized (0, some 1)], [.quantized (0, some 0), .quantized (0, some 0), .quantized (1, none)]] := by
  decide +kernel

/-- The quantizers of a prepared model that work: those of the stubs; not those of the results of other modules, whose weights are quantized. Modules inside a module with a quantizer of
its own are left alone; everything above is as it was. -/
theorem C147_switches (m : Mod) :
    (m.stub = true → (switches m).act = m.act.map (fun _ => Switch.on) ∧ (switches m).children = m.children) ∧
    (m.stub = false → m.act.isSome → (switches m).act = some Switch.off ∧ (switches m).weight = m.weight.map (fun _ => Switch.on) ∧ (switches m).children = m.children) ∧
    (m.stub = false → m.act = none → (switches m).act = none ∧ (switches m).weight = m.weight ∧ (switches m).children = m.children.map switches) ∧ (switches m).stub = m.stub := by
  cases m with
  | mk s a w cs =>
    rw [switches]
    simp only [Mod.stub, Mod.act, Mod.weight, Mod.children]
    refine ⟨?_, ?_, ?_, ?_⟩
    · intro h
      rw [if_pos h]
      exact ⟨rfl, rfl⟩
    · intro h ha
      rw [if_neg (by simp [h]), if_pos ha]
      obtain ⟨v, rfl⟩ := Option.isSome_iff_exists.1 ha
      exact ⟨rfl, rfl, rfl⟩
    · rintro h rfl
      rw [if_neg (by simp [h]), if_neg (by simp)]
      refine ⟨rfl, rfl, ?_⟩
      simp
    · by_cases h : s = true
      · rw [if_pos h]
      · rw [if_neg h]
        by_cases ha : a.isSome
        · rw [if_pos ha]
        · rw [if_neg ha]

/-- In a model whose modules with quantizers have no children with quantizers: everywhere, the quantizer of a result works exactly if the module is a stub. -/
theorem C147_everywhere (m : Mod) (hleaf : ∀ d, Inside m d → d.act.isSome ∨ d.stub = true → d.children = []) :
    ∀ d, Inside (switches m) d → ∀ v, d.act = some v → v = if d.stub = true then Switch.on else Switch.off := by
  suffices ∀ (n : Nat) (m : Mod), sizeOf m ≤ n → (∀ d, Inside m d → d.act.isSome ∨ d.stub = true → d.children = []) →
      ∀ d, Inside (switches m) d → ∀ v, d.act = some v → v = if d.stub = true then Switch.on else Switch.off from this _ m (Nat.le_refl _) hleaf
  intro n
  induction n with
  | zero =>
    intro m hm
    cases m
    simp at hm
  | succ n ih =>
    intro m hm hl d hd v hv
    obtain ⟨c1, c2, c3, c4⟩ := C147_switches m
    by_cases hs : m.stub = true
    · have hc : (switches m).children = [] := by rw [(c1 hs).2, hl m (.self m) (Or.inr hs)]
      cases hd with
      | self =>
        rw [c4, if_pos hs]
        rw [(c1 hs).1] at hv
        cases ha : m.act with
        | none => rw [ha] at hv; cases hv
        | some w => rw [ha] at hv; cases hv; rfl
      | child hmem _ => rw [hc] at hmem; cases hmem
    · have hs : m.stub = false := by simpa using hs
      by_cases ha : m.act.isSome
      · obtain ⟨a1, a2, a3⟩ := c2 hs ha
        have hc : (switches m).children = [] := by rw [a3, hl m (.self m) (Or.inl ha)]
        cases hd with
        | self =>
          rw [a1] at hv
          cases hv
          rw [c4, hs]
          rfl
        | child hmem _ => rw [hc] at hmem; cases hmem
      · obtain ⟨a1, a2, a3⟩ := c3 hs (by simpa using ha)
        cases hd with
        | self => rw [a1] at hv; cases hv
        | child hmem hin =>
          rw [a3] at hmem
          obtain ⟨c, hc, rfl⟩ := List.mem_map.1 hmem
          refine ih c ?_ (fun e he => hl e (.child hc he)) d hin v hv
          cases m with
          | mk s a w cs =>
            have := List.sizeOf_lt_of_mem (show c ∈ cs from hc)
            simp at hm
            omega

/-- A model with a stub, a convolution with a weight quantizer and a pooling layer. -/
example : switches (.mk false none none [.mk true (some Switch.off) none [], .mk false (some Switch.on) (some Switch.off) [], .mk false (some Switch.on) none []]) =
    .mk false none none [.mk true (some Switch.on) none [], .mk false (some Switch.off) (some Switch.on) [], .mk false (some Switch.off) none []] := by
  simp [switches, Switch.on, Switch.off]

end Verif.Props
