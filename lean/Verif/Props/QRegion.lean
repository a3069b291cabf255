import Verif.Model.QRegion
import Mathlib.Data.Finset.Basic
import Mathlib.Algebra.BigOperators.Group.Finset.Basic

/-!
C94: between quantized and unquantized nodes the right stubs are placed, and the search for quantized nodes finds exactly the nodes that read quantized tensors.
-/

namespace Verif.Props
open Verif.Spec.QRegion Verif.Model.QRegion

theorem cancel_form (m : Model) {u slot v : ℕ} (hs : m.role u = .source → m.disabled u = false) (hv : m.role v ≠ .prop) (hd : m.dt u slot = .float)
    (hu : m.role u ≠ .prop) (h0 : m.role u = .source → slot = 0) :
    applyStubs (inserted m u slot v) (m.made u slot) = some (m.needs v) ∧ applyStubs (cancel (inserted m u slot v)) (m.made u slot) = some (m.needs v) := by
  by_cases h1 : m.role u = .source
  · have e := h0 h1
    subst e
    have h2 := hs h1
    have hq : innerQuant m u v = [] := by simp [innerQuant, h2]
    have hsrc : sourceStub m u = [.q] := by simp [sourceStub, h1, hd]
    have hm : m.made u 0 = .float := by simp [Model.made, hd, h1]
    unfold inserted
    rw [hq, hsrc, hm]
    by_cases h3 : m.role v = .float <;> by_cases h4 : m.disabled v = true <;>
      simp [sinkStub, innerDequant, Model.needs, h3, h4, hd, h1, applyStubs, Stub.apply, cancel]
  · have hsrc : sourceStub m u = [] := by simp [sourceStub, h1]
    unfold inserted
    rw [hsrc]
    by_cases h2 : m.disabled u = true <;> by_cases h3 : m.role v = .float <;> by_cases h4 : m.disabled v = true <;>
      simp [innerQuant, sinkStub, innerDequant, Model.needs, Model.made, h1, h2, h3, h4, hd, hu, hv, applyStubs, Stub.apply, cancel]

/-- Every node receives its float tensors in the form it needs and its int32 and int64 tensors untouched, whichever pairs of stubs are kept.
Missing from the full statement: see `C94_disabled_creation_false`, `C94_bool_input_false`, `C94_int_output_false` and `C94_int_operand_false`. -/
theorem C94_fed_partial (m : Model) (nodes : List ℕ) (keep : ℕ → ℕ → Bool)
    (hslot : ∀ v, ∀ a ∈ m.args v, m.role a.1 = .source → a.2 = 0) (hprop : ∀ v, ∀ a ∈ m.args v, m.dt a.1 a.2 = .float → m.role a.1 ≠ .prop)
    (hcreate : ∀ u, m.role u = .source → m.disabled u = false)
    (hint : ∀ v, ∀ a ∈ m.args v, m.dt a.1 a.2 ≠ .float → m.dt a.1 a.2 = .int ∧ m.disabled a.1 = false ∧ m.disabled v = false ∧ m.multi v = false) :
    Fed m nodes (finalChain m nodes keep) := by
  intro v _ hv a ha
  obtain ⟨u, slot⟩ := a
  by_cases hd : m.dt u slot = .float
  · have := cancel_form m (hcreate u) hv hd (hprop v _ ha hd) (hslot v _ ha)
    simp only
    rw [if_pos hd]
    unfold finalChain
    split_ifs
    · exact this.2
    · exact this.1
  · obtain ⟨h1, h2, h3, h4⟩ := hint v _ ha hd
    simp only at h1 h2
    have e : inserted m u slot v = [] := by
      have hs : sourceStub m u = [] := by
        unfold sourceStub
        split_ifs with h
        · have := hslot v _ ha h.1
          simp only at this
          subst this
          exact absurd h1 h.2
        · rfl
      unfold inserted
      rw [hs]
      simp [innerQuant, sinkStub, innerDequant, h1, h2, h3, h4]
    simp only
    rw [if_neg hd]
    unfold finalChain
    rw [e]
    simp [cancel, applyStubs, Model.made, hd]

/-- Stubs are only taken out where no reader needs the quantized tensor: a node with a quantized form keeps its QuantStub. -/
theorem C94_removal (m : Model) (nodes : List ℕ) (keep : ℕ → ℕ → Bool) (u slot v : ℕ) (hv : v ∈ nodes) (ha : (u, slot) ∈ m.args v) (hr : m.role v = .op)
    (hd : m.disabled v = false) (w : ℕ) : finalChain m nodes keep u slot w = inserted m u slot w := by
  have : removable m nodes u slot = false := by
    rw [Bool.eq_false_iff]
    intro h
    have := List.all_eq_true.1 h v (List.mem_filter.2 ⟨hv, by simpa using ha⟩)
    simp [sinkStub, innerDequant, hr, hd] at this
  unfold finalChain
  rw [this]
  rfl

/-- A model with an input (0), a convolution (1), a softmax without quantized form (2) and an output (3); the output also reads the convolution. -/
def regionModel : Model where
  role := fun i => if i = 0 then .source else if i = 3 then .float else .op
  disabled := fun i => i = 2
  multi := fun _ => false
  args := fun i => if i = 1 then [(0, 0)] else if i = 2 then [(1, 0)] else if i = 3 then [(2, 0), (1, 0)] else []
  dt := fun _ _ => .float

example : Fed regionModel [1, 2, 3] (finalChain regionModel [1, 2, 3] fun _ _ => false) ∧
    finalChain regionModel [1, 2, 3] (fun _ _ => false) 0 0 1 = [.q] ∧ finalChain regionModel [1, 2, 3] (fun _ _ => false) 1 0 2 = [.dq] ∧
    finalChain regionModel [1, 2, 3] (fun _ _ => false) 2 0 3 = [] ∧ inserted regionModel 2 0 3 = [.q, .dq] := by
  refine ⟨C94_fed_partial _ _ _ ?_ ?_ ?_ ?_, by decide, by decide, by decide, by decide⟩
  · intro v a ha hr
    simp only [regionModel] at ha
    split_ifs at ha <;> simp at ha
    · rw [ha]
    · rw [ha]
    · rcases ha with rfl | rfl <;> rfl
  · intro v a _ _
    simp only [regionModel]
    split_ifs <;> decide
  · intro u hu
    simp only [regionModel] at hu ⊢
    split_ifs at hu with h
    subst h
    decide
  · intro v a _ h
    exact absurd rfl h

/-- If quantization of a creation function is switched off, it gets two QuantStub nodes in a row, and its reader, also switched off, receives a quantized
tensor. -/
theorem C94_disabled_creation_false : ∃ (m : Model), (∀ u slot, m.dt u slot = .float) ∧ m.role 0 = .source ∧ m.disabled 0 = true ∧ m.disabled 1 = true ∧
    m.args 1 = [(0, 0)] ∧ finalChain m [1] (fun _ _ => false) 0 0 1 = [.q] ∧ m.needs 1 = .float ∧ ¬ Fed m [1] (finalChain m [1] fun _ _ => false) := by
  refine ⟨⟨fun i => if i = 0 then .source else .op, fun _ => true, fun _ => false, fun i => if i = 1 then [(0, 0)] else [], fun _ _ => .float⟩, fun _ _ => rfl, rfl, rfl, rfl, rfl,
    by decide, by decide, ?_⟩
  intro h
  have := h 1 (by decide) (by decide) (0, 0) (by decide)
  revert this
  decide

/-- A bool input, such as a mask, gets a QuantStub. -/
theorem C94_bool_input_false : ∃ (m : Model), m.role 0 = .source ∧ m.dt 0 0 = .other ∧ (∀ u, m.disabled u = false) ∧ m.args 1 = [(0, 0)] ∧
    finalChain m [1] (fun _ _ => false) 0 0 1 = [.q] ∧ ¬ Fed m [1] (finalChain m [1] fun _ _ => false) := by
  refine ⟨⟨fun i => if i = 0 then .source else .op, fun _ => false, fun _ => false, fun i => if i = 1 then [(0, 0)] else [], fun _ _ => .other⟩, rfl, rfl, fun _ => rfl, rfl,
    by decide, ?_⟩
  intro h
  have := h 1 (by decide) (by decide) (0, 0) (by decide)
  revert this
  decide

/-- An operation without quantized form gets stubs on its int64 tensors as well. -/
theorem C94_int_operand_false : ∃ (m : Model), m.dt 0 0 = .int ∧ m.disabled 1 = true ∧ m.args 1 = [(0, 0)] ∧
    finalChain m [1] (fun _ _ => false) 0 0 1 = [.dq] ∧ ¬ Fed m [1] (finalChain m [1] fun _ _ => false) := by
  refine ⟨⟨fun i => if i = 0 then .source else .op, fun i => i = 1, fun _ => false, fun i => if i = 1 then [(0, 0)] else [], fun _ _ => .int⟩, rfl, rfl, rfl, by decide, ?_⟩
  intro h
  have := h 1 (by decide) (by decide) (0, 0) (by decide)
  revert this
  decide

/-- An int64 tensor in a result with several tensors passes through a DeQuantStub. -/
theorem C94_int_output_false : ∃ (m : Model), m.dt 0 0 = .int ∧ (∀ u, m.disabled u = false) ∧ m.role 1 = .float ∧ m.multi 1 = true ∧ m.args 1 = [(0, 0)] ∧
    finalChain m [1] (fun _ _ => false) 0 0 1 = [.dq] ∧ ¬ Fed m [1] (finalChain m [1] fun _ _ => false) := by
  refine ⟨⟨fun i => if i = 1 then .float else .op, fun _ => false, fun _ => true, fun i => if i = 1 then [(0, 0)] else [], fun _ _ => .int⟩, rfl, fun _ => rfl, rfl,
    rfl, rfl, by decide, ?_⟩
  intro h
  have := h 1 (by decide) (by decide) (0, 0) (by decide)
  revert this
  decide

/-! ### The search -/

/-- What holds at every step of the search. -/
structure SearchInv (g : Graph) (starts : List (ℕ × Bool)) (d : ℕ → Bool) (queue : List (ℕ × Bool)) (visited : List (ℕ × Option Bool)) : Prop where
  queued : ∀ e ∈ queue, Reach (starts.map Prod.fst) (followed g) g.output e.1 ∧ e.2 = d e.1
  seen : ∀ e ∈ visited, Reach (starts.map Prod.fst) (followed g) g.output e.1 ∧ e.2 = if g.output e.1 then none else some (mark g e.1 (d e.1))
  begun : ∀ s ∈ starts.map Prod.fst, s ∈ queue.map Prod.fst ∨ s ∈ visited.map Prod.fst
  next : ∀ u ∈ visited.map Prod.fst, g.output u = false → ∀ v ∈ followed g u, v ∈ queue.map Prod.fst ∨ v ∈ visited.map Prod.fst

/-- The steps still to come. -/
def stepsLeft (g : Graph) (nodes : Finset ℕ) (queue : List (ℕ × Bool)) (visited : List (ℕ × Option Bool)) : ℕ :=
  queue.length + ∑ u ∈ nodes.filter (fun u => u ∉ visited.map Prod.fst), (followed g u).length

theorem stepsLeft_visit (g : Graph) (nodes : Finset ℕ) (queue : List (ℕ × Bool)) (visited : List (ℕ × Option Bool)) {u : ℕ} (hu : u ∈ nodes)
    (hv : u ∉ visited.map Prod.fst) (r : Option Bool) :
    (∑ w ∈ nodes.filter (fun w => w ∉ ((u, r) :: visited).map Prod.fst), (followed g w).length) + (followed g u).length =
      ∑ w ∈ nodes.filter (fun w => w ∉ visited.map Prod.fst), (followed g w).length := by
  have h1 : u ∈ nodes.filter (fun w => w ∉ visited.map Prod.fst) := Finset.mem_filter.2 ⟨hu, hv⟩
  rw [← Finset.sum_erase_add _ _ h1]
  congr 1
  apply Finset.sum_congr
  · ext w
    simp only [Finset.mem_filter, Finset.mem_erase, List.map_cons, List.mem_cons, not_or]
    tauto
  · intros
    rfl

theorem search_inv (g : Graph) (starts : List (ℕ × Bool)) (d : ℕ → Bool) (nodes : Finset ℕ)
    (hn : ∀ v, Reach (starts.map Prod.fst) (followed g) g.output v → v ∈ nodes)
    (hedge : ∀ u v, Reach (starts.map Prod.fst) (followed g) g.output u → g.output u = false → v ∈ followed g u → d v = passes g u (d u)) :
    ∀ (n : ℕ) (queue : List (ℕ × Bool)) (visited : List (ℕ × Option Bool)), SearchInv g starts d queue visited → stepsLeft g nodes queue visited ≤ n →
      SearchInv g starts d [] (search g n queue visited)
  | 0, queue, visited, hi, hle => by
    have : queue = [] := List.eq_nil_of_length_eq_zero (by unfold stepsLeft at hle; omega)
    subst this
    exact hi
  | n + 1, [], visited, hi, _ => hi
  | n + 1, (u, q) :: queue, visited, hi, hle => by
    obtain ⟨hr, hq⟩ := hi.queued _ List.mem_cons_self
    simp only at hr hq
    unfold search
    by_cases h1 : (visited.map Prod.fst).contains u = true
    · rw [if_pos h1]
      have hm : u ∈ visited.map Prod.fst := by simpa using h1
      apply search_inv g starts d nodes hn hedge n queue visited
      · refine ⟨fun e he => hi.queued e (List.mem_cons_of_mem _ he), hi.seen, ?_, ?_⟩
        · intro s hs
          rcases hi.begun s hs with h | h
          · rcases List.mem_cons.1 h with h | h
            · exact .inr (h ▸ hm)
            · exact .inl h
          · exact .inr h
        · intro w hw ho v hv
          rcases hi.next w hw ho v hv with h | h
          · rcases List.mem_cons.1 h with h | h
            · exact .inr (h ▸ hm)
            · exact .inl h
          · exact .inr h
      · unfold stepsLeft at hle ⊢
        simp only [List.length_cons] at hle
        omega
    · rw [if_neg h1]
      have hm : u ∉ visited.map Prod.fst := by simpa using h1
      have hsum := fun r => stepsLeft_visit g nodes queue visited (hn u hr) hm r
      by_cases h2 : g.output u = true
      · rw [if_pos h2]
        apply search_inv g starts d nodes hn hedge n
        · refine ⟨fun e he => hi.queued e (List.mem_cons_of_mem _ he), ?_, ?_, ?_⟩
          · intro e he
            rcases List.mem_cons.1 he with rfl | he
            · exact ⟨hr, by simp [h2]⟩
            · exact hi.seen e he
          · intro s hs
            rcases hi.begun s hs with h | h
            · rcases List.mem_cons.1 h with h | h
              · exact .inr (by simp [h])
              · exact .inl h
            · exact .inr (List.mem_cons_of_mem _ h)
          · intro w hw ho v hv
            rcases List.mem_cons.1 hw with h | hw
            · simp only at h
              rw [h, h2] at ho
              cases ho
            · rcases hi.next w hw ho v hv with h | h
              · rcases List.mem_cons.1 h with h | h
                · exact .inr (by simp [h])
                · exact .inl h
              · exact .inr (List.mem_cons_of_mem _ h)
        · have := hsum none
          unfold stepsLeft at hle ⊢
          simp only [List.length_cons] at hle
          omega
      · rw [if_neg h2]
        have h2' : g.output u = false := by simpa using h2
        apply search_inv g starts d nodes hn hedge n
        · refine ⟨?_, ?_, ?_, ?_⟩
          · intro e he
            rcases List.mem_append.1 he with he | he
            · exact hi.queued e (List.mem_cons_of_mem _ he)
            · obtain ⟨v, hv, rfl⟩ := List.mem_map.1 he
              exact ⟨.step u v hr h2' hv, by simp only; rw [hedge u v hr h2' hv, hq]⟩
          · intro e he
            rcases List.mem_cons.1 he with rfl | he
            · exact ⟨hr, by simp [h2', hq]⟩
            · exact hi.seen e he
          · intro s hs
            rcases hi.begun s hs with h | h
            · rcases List.mem_cons.1 h with h | h
              · exact .inr (by simp [h])
              · exact .inl (by rw [List.map_append]; exact List.mem_append_left _ h)
            · exact .inr (List.mem_cons_of_mem _ h)
          · intro w hw ho v hv
            rcases List.mem_cons.1 hw with h | hw
            · simp only at h
              subst h
              left
              rw [List.map_append]
              apply List.mem_append_right
              rw [List.map_map]
              exact List.mem_map.2 ⟨v, hv, rfl⟩
            · rcases hi.next w hw ho v hv with h | h
              · rcases List.mem_cons.1 h with h | h
                · exact .inr (by simp [h])
                · exact .inl (by rw [List.map_append]; exact List.mem_append_left _ h)
              · exact .inr (List.mem_cons_of_mem _ h)
        · have := hsum (some (mark g u q))
          unfold stepsLeft at hle ⊢
          simp only [List.length_cons, List.length_append, List.length_map] at hle ⊢
          omega

theorem search_recorded (g : Graph) (starts : List (ℕ × Bool)) (d : ℕ → Bool) (nodes : Finset ℕ) (n : ℕ)
    (hn : ∀ v, Reach (starts.map Prod.fst) (followed g) g.output v → v ∈ nodes) (hs : ∀ s ∈ starts, s.2 = d s.1)
    (hedge : ∀ u v, Reach (starts.map Prod.fst) (followed g) g.output u → g.output u = false → v ∈ followed g u →
      d v = (match g.stub u with | some .q => true | some .dq => false | none => d u))
    (hle : starts.length + ∑ u ∈ nodes, (followed g u).length ≤ n) (v : ℕ) :
    (Reach (starts.map Prod.fst) (followed g) g.output v → g.output v = false →
      recorded (search g n starts []) v = some ((g.stub v).isSome || d v)) ∧
    (¬ Reach (starts.map Prod.fst) (followed g) g.output v → recorded (search g n starts []) v = none) := by
  have hi : SearchInv g starts d starts [] :=
    ⟨fun e he => ⟨.start _ (List.mem_map_of_mem he), hs e he⟩, fun e he => (by cases he), fun s h => .inl h, fun u h => (by cases h)⟩
  have hf := search_inv g starts d nodes hn hedge n starts [] hi (by
    unfold stepsLeft
    simpa using hle)
  generalize search g n starts [] = vis at hf
  have hall : ∀ w, Reach (starts.map Prod.fst) (followed g) g.output w → w ∈ vis.map Prod.fst := by
    intro w hw
    induction hw with
    | start w h => simpa using hf.begun w h
    | step u w _ ho hv ih => simpa using hf.next u ih ho w hv
  constructor
  · intro hr ho
    obtain ⟨e, he, hev⟩ := List.mem_map.1 (hall v hr)
    unfold recorded
    cases hfind : vis.find? fun p => p.1 = v with
    | none =>
      have := List.find?_eq_none.1 hfind e he
      simp [hev] at this
    | some p =>
      have h1 := List.find?_some hfind
      have h2 := (hf.seen p (List.mem_of_find?_eq_some hfind)).2
      have h3 : p.1 = v := by simpa using h1
      rw [h3, ho] at h2
      simp [h2, mark]
  · intro hr
    unfold recorded
    have : vis.find? (fun p => p.1 = v) = none := by
      apply List.find?_eq_none.2
      intro p hp h
      have h3 : p.1 = v := by simpa using h
      exact hr (h3 ▸ (hf.seen p hp).1)
    rw [this]
    rfl

/-- The nodes that read a tensor of this node, without those that only look at a shape or type. -/
def successors (g : Graph) (u : ℕ) : List ℕ := (g.next u).filter fun v => !g.prop v

theorem followed_eq (g : Graph) (hx : ∀ u, g.expandAs u = false) (u : ℕ) : followed g u = successors g u := by
  unfold followed successors
  simp only [hx, Bool.false_and, Bool.or_false]
  generalize 0 = k
  induction g.next u generalizing k with
  | nil => rfl
  | cons a l ih =>
    rw [List.zipIdx_cons, List.filterMap_cons, List.filter_cons, ih]
    cases h : g.prop a <;> simp [h]

/-- If every node is fed by tensors of one kind only (`d`), the search ends after as many steps as there are starting nodes and edges, and records for every node
it can reach, apart from the outputs, exactly that kind, and `true` for the stubs themselves.  The order of the inputs and of the readers of a node does not
matter.  Missing from the full statement: see `C94_mixed_false` and `C94_expand_as_false`. -/
theorem C94_search_partial (g : Graph) (starts : List (ℕ × Bool)) (d : ℕ → Bool) (nodes : Finset ℕ) (n : ℕ) (hx : ∀ u, g.expandAs u = false)
    (hn : ∀ v, Reach (starts.map Prod.fst) (successors g) g.output v → v ∈ nodes) (hs : ∀ s ∈ starts, s.2 = d s.1)
    (hedge : ∀ u v, Reach (starts.map Prod.fst) (successors g) g.output u → g.output u = false → v ∈ successors g u →
      d v = (match g.stub u with | some .q => true | some .dq => false | none => d u))
    (hle : starts.length + ∑ u ∈ nodes, (successors g u).length ≤ n) (v : ℕ) :
    (Reach (starts.map Prod.fst) (successors g) g.output v → g.output v = false →
      recorded (search g n starts []) v = some ((g.stub v).isSome || d v)) ∧
    (¬ Reach (starts.map Prod.fst) (successors g) g.output v → recorded (search g n starts []) v = none) := by
  have e : successors g = followed g := by
    funext u
    exact (followed_eq g hx u).symm
  simp only [e] at hn hedge hle ⊢
  exact search_recorded g starts d nodes n hn hs hedge hle v

/-- Input 0, QuantStub 1, convolution 2, DeQuantStub 3, softmax 4, output 5, in a row. -/
def regionGraph : Graph where
  stub := fun i => if i = 1 then some .q else if i = 3 then some .dq else none
  output := fun i => i = 5
  prop := fun _ => false
  expandAs := fun _ => false
  next := fun i => if i = 5 then [] else if i < 5 then [i + 1] else []

example : (recorded (search regionGraph 10 [(0, false)] []) 2 = some true) ∧ (recorded (search regionGraph 10 [(0, false)] []) 4 = some false) ∧
    (recorded (search regionGraph 10 [(0, false)] []) 5 = none) := by decide

theorem regionGraph_reach : ∀ v, Reach [0] (successors regionGraph) regionGraph.output v → v ∈ Finset.range 6 := by
  intro v h
  induction h with
  | start v h =>
    simp only [List.mem_singleton] at h
    subst h
    decide
  | step u v _ ho hv ih =>
    have : ∀ u ∈ Finset.range 6, ∀ v ∈ successors regionGraph u, v ∈ Finset.range 6 := by decide
    exact this u ih v hv

example : (∀ u v, Reach [0] (successors regionGraph) regionGraph.output u → regionGraph.output u = false → v ∈ successors regionGraph u →
      decide (v = 2 ∨ v = 3) = (match regionGraph.stub u with | some .q => true | some .dq => false | none => decide (u = 2 ∨ u = 3))) ∧
    1 + ∑ u ∈ Finset.range 6, (successors regionGraph u).length ≤ 10 := by
  refine ⟨?_, by decide⟩
  intro u v hu _ hv
  have : ∀ u ∈ Finset.range 6, ∀ v ∈ successors regionGraph u,
      decide (v = 2 ∨ v = 3) = (match regionGraph.stub u with | some .q => true | some .dq => false | none => decide (u = 2 ∨ u = 3)) := by decide
  exact this u (regionGraph_reach u hu) v hv

/-- A node that reads a quantized and an unquantized tensor is recorded by whichever comes first: the order in which the inputs are listed decides. -/
theorem C94_mixed_false : ∃ (g : Graph), (∀ u, g.stub u = none ∧ g.prop u = false ∧ g.expandAs u = false) ∧ g.next 0 = [2] ∧ g.next 1 = [2] ∧
    recorded (search g 10 [(0, true), (1, false)] []) 2 = some true ∧ recorded (search g 10 [(1, false), (0, true)] []) 2 = some false := by
  refine ⟨⟨fun _ => none, fun i => i = 3, fun _ => false, fun _ => false, fun i => if i = 0 ∨ i = 1 then [2] else if i = 2 then [3] else []⟩,
    fun _ => ⟨rfl, rfl, rfl⟩, by decide, by decide, by decide, by decide⟩

/-- `a.expand_as(b)`, with `a` quantized: if `a` is read by another node before, `expand_as` is not reached from `a`, and everything behind it is taken for
unquantized. -/
theorem C94_expand_as_false : ∃ (g : Graph), g.stub 1 = some .q ∧ g.next 0 = [1] ∧ g.next 1 = [2, 3] ∧ g.expandAs 3 = true ∧ g.next 3 = [4] ∧
    recorded (search g 20 [(0, false)] []) 2 = some true ∧ recorded (search g 20 [(0, false)] []) 3 = none ∧ recorded (search g 20 [(0, false)] []) 4 = none := by
  refine ⟨⟨fun i => if i = 1 then some .q else none, fun i => i = 5, fun _ => false, fun i => i = 3,
    fun i => if i = 0 then [1] else if i = 1 then [2, 3] else if i = 2 ∨ i = 4 then [5] else if i = 3 then [4] else []⟩, rfl, rfl, rfl, rfl, rfl, by decide, by decide, by decide⟩

end Verif.Props
