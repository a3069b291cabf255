import Verif.Model.UnusedOutputs
import Verif.Spec.UnusedOutputs
import Verif.Props.TensorBuffers

/-! C143: outputs of operators that nobody reads. -/

namespace Verif.Props
open Verif.Model Verif.Model.UnusedOutputs Verif.Spec.UnusedOutputs

namespace UnusedOutputs
variable {α : Type} [DecidableEq α]

theorem fold_es (names : List α) (g : G α) :
    ∃ new : List (Edge α), (names.foldl addUnused g).es = g.es ++ new ∧ new.map (·.label) = names ∧
      (∀ e ∈ new, g.vs.length ≤ e.tgt) := by
  induction names generalizing g with
  | nil => exact ⟨[], by simp, rfl, by simp⟩
  | cons x xs ih =>
    obtain ⟨new, h1, h2, h3⟩ := ih (addUnused g x)
    refine ⟨⟨g.vs.findIdx (fun v => v.outputs.contains x), g.vs.length, x⟩ :: new, ?_, ?_, ?_⟩
    · rw [List.foldl_cons, h1]; simp [addUnused]
    · simp [h2]
    · intro e he
      rcases List.mem_cons.mp he with rfl | he
      · exact Nat.le_refl _
      · have := h3 e he
        simp [addUnused] at this; omega

theorem fold_vs (names : List α) (g : G α) :
    (names.foldl addUnused g).vs = g.vs ++ List.replicate names.length ⟨.special, []⟩ := by
  induction names generalizing g with
  | nil => simp
  | cons x xs ih => rw [List.foldl_cons, ih]; simp [addUnused, List.replicate_succ]

theorem fold_src (names : List α) (g : G α) (hn : ∀ x ∈ names, ∃ v ∈ g.vs, x ∈ v.outputs) :
    ∀ e ∈ (names.foldl addUnused g).es, e ∈ g.es ∨ ∃ v, g.vs[e.src]? = some v ∧ e.label ∈ v.outputs := by
  induction names generalizing g with
  | nil => intro e he; exact Or.inl he
  | cons x xs ih =>
    intro e he
    rw [List.foldl_cons] at he
    obtain ⟨v0, hv0, hx0⟩ := hn x (by simp)
    have hlt : g.vs.findIdx (fun v => v.outputs.contains x) < g.vs.length :=
      List.findIdx_lt_length_of_exists ⟨v0, hv0, by simpa using hx0⟩
    have hx : x ∈ (g.vs[g.vs.findIdx (fun v => v.outputs.contains x)]).outputs := by
      have := List.findIdx_getElem (p := fun v : Vertex α => v.outputs.contains x) (xs := g.vs) (w := hlt)
      simpa using this
    rcases ih (addUnused g x) (fun y hy => by
      obtain ⟨v, hv, hy⟩ := hn y (by simp [hy]); exact ⟨v, by simp [addUnused, hv], hy⟩) e he with h | ⟨v, h1, h2⟩
    · simp only [addUnused, List.mem_append, List.mem_singleton] at h
      rcases h with h | rfl
      · exact Or.inl h
      · exact Or.inr ⟨_, List.getElem?_eq_getElem hlt, hx⟩
    · right
      refine ⟨v, ?_, h2⟩
      simp only [addUnused] at h1
      by_cases hs : e.src < g.vs.length
      · rw [List.getElem?_append_left hs] at h1; exact h1
      · exfalso
        rw [List.getElem?_append_right (by omega)] at h1
        have : v = ⟨.special, []⟩ := by
          have := List.mem_of_getElem? h1
          simpa using this
        subst this; cases h2

theorem mem_labels_connect (g : G α) (x : α) : x ∈ (connect g).labels ↔ x ∈ g.labels ∨ x ∈ g.unusedNames := by
  obtain ⟨new, h1, h2, _⟩ := fold_es g.unusedNames g
  unfold connect G.labels
  rw [h1, List.map_append, h2, List.mem_append]

theorem mem_unusedNames (g : G α) (x : α) : x ∈ g.unusedNames ↔
    ∃ (i : Nat) (v : Vertex α), g.vs[i]? = some v ∧ g.multi i v = true ∧ x ∈ g.candidates i v ∧ x ∉ g.labels := by
  unfold G.unusedNames
  constructor
  · intro h
    obtain ⟨⟨v, i⟩, hv, hx⟩ := List.mem_flatMap.mp h
    have hi := List.mem_zipIdx_iff_getElem?.mp hv
    by_cases hm : g.multi i v = true
    · simp only [hm, if_true, List.mem_filter] at hx
      exact ⟨i, v, by simpa using hi, hm, hx.1, by simpa using hx.2⟩
    · simp [hm] at hx
  · rintro ⟨i, v, hi, hm, hx, hl⟩
    refine List.mem_flatMap.mpr ⟨(v, i), List.mem_zipIdx_iff_getElem?.mpr (by simpa using hi), ?_⟩
    simp only [hm, if_true, List.mem_filter]
    exact ⟨hx, by simpa using hl⟩

/-- A candidate is an output of a vertex. -/
theorem candidates_output (g : G α) (i : Nat) (v : Vertex α) (hv : g.vs[i]? = some v) (x : α) (hx : x ∈ g.candidates i v) :
    ∃ w ∈ g.vs, x ∈ w.outputs := by
  unfold G.candidates at hx
  by_cases h : v.outputs.any (fun x => g.listed.contains x) = true
  · rw [if_pos h] at hx
    obtain ⟨e, _, hxe⟩ := List.mem_flatMap.mp hx
    unfold G.unpacked at hxe
    cases ht : g.vs[e.tgt]? with
    | none => simp [ht] at hxe
    | some t =>
      simp only [ht] at hxe
      by_cases hk : t.kind = .reshape
      · rw [if_pos hk] at hxe
        exact ⟨t, List.mem_of_getElem? ht, List.mem_of_mem_take hxe⟩
      · simp [hk] at hxe
  · rw [if_neg h] at hx
    exact ⟨v, List.mem_of_getElem? hv, hx⟩

theorem idx_label (info : α → TensorInfo) (ins outs : List α) (st : CTB α) (l x : α) (h : x ≠ l) :
    (ctbLabel info ins outs st l).idx x = st.idx x := by
  unfold ctbLabel
  dsimp only
  split_ifs <;> simp [setAt, h]

theorem idx_labels (info : α → TensorInfo) (ins outs ls : List α) (st : CTB α) (x : α) (h : x ∉ ls) :
    (ls.foldl (ctbLabel info ins outs) st).idx x = st.idx x := by
  induction ls generalizing st with
  | nil => rfl
  | cons l ls ih =>
    rw [List.foldl_cons, ih _ (fun hx => h (by simp [hx])), idx_label _ _ _ _ _ _ (fun e => h (by simp [e]))]

theorem idx_missing (ins ms : List α) (st : CTB α) (x : α) (h : x ∉ ms) :
    (ms.foldl (ctbMissing ins) st).idx x = st.idx x := by
  induction ms generalizing st with
  | nil => rfl
  | cons m ms ih =>
    rw [List.foldl_cons, ih _ (fun hx => h (by simp [hx]))]
    have : x ≠ m := fun e => h (by simp [e])
    simp [ctbMissing, setAt, this]

/-- A tensor that labels no edge and is no input keeps the index 0 of the constructor, which is the index of another tensor. -/
theorem unlabelled (info : α → TensorInfo) (optional : α → Bool) (bufIdx : α → Nat) (order ins outs : List α) (hl : order.Nodup)
    (hin : ins.Nodup) (hinr : ∀ x ∈ ins, optional x = false) (hout : ∀ x ∈ outs, x ∈ order ∧ optional x = false)
    (hne : outs ≠ []) (x : α) (hx : optional x = false) (hxl : x ∉ order) (hxi : x ∉ ins) :
    ∃ st, collectTensorBuffers info (index0 optional) bufIdx order ins outs = some st ∧
      Overwrites st.tensors (st.idx x) x := by
  have h0 : ∀ y, optional y = false → index0 optional y ≠ -1 := by
    intro y hy; simp [index0, hy]
  obtain ⟨st, h1, h2, h3, _⟩ := C18_tensor_buffers info (index0 optional) bufIdx order ins outs hl hin
    (fun y hy => h0 y (hinr y hy)) (fun y hy => ⟨(hout y hy).1, h0 y (hout y hy).2⟩)
  refine ⟨st, h1, fun hm => ?_, ?_⟩
  · rcases (h3 x).mp hm with ⟨h, _⟩ | h
    · exact hxl h
    · exact hxi h
  · have hidx : st.idx x = 0 := by
      unfold collectTensorBuffers at h1
      dsimp only at h1
      by_cases hc : (((outs.zip (order.foldl (ctbLabel info ins outs) (ctbInit (index0 optional) bufIdx ins outs)).outputIdx).filter
          (fun x => decide (x.2 < 0))).map Prod.fst).isEmpty = true
      · rw [if_pos hc] at h1
        rw [← Option.some.inj h1, idx_missing _ _ _ _ ?_, idx_labels _ _ _ _ _ _ hxl]
        · simp [ctbInit, index0, hx]
        · intro hm
          obtain ⟨⟨y, z⟩, hy, rfl⟩ := List.mem_map.mp hm
          exact hxi (List.of_mem_zip (List.mem_filter.mp hy).1).1
      · rw [if_neg hc] at h1; cases h1
    obtain ⟨o, ho⟩ := List.exists_mem_of_ne_nil _ hne
    have hpos : 0 < st.tensors.length :=
      List.length_pos_of_mem ((h3 o).mpr (Or.inl ⟨(hout o ho).1, h0 o (hout o ho).2⟩))
    refine ⟨0, st.tensors[0], by simpa using hidx, List.getElem?_eq_getElem hpos, ?_⟩
    intro e
    have : x ∈ st.tensors := e ▸ List.getElem_mem hpos
    rcases (h3 x).mp this with ⟨h, _⟩ | h
    · exact hxl h
    · exact hxi h

end UnusedOutputs

open UnusedOutputs

variable {α : Type} [DecidableEq α]

/-- C143: what the pass does to the graph.  For every graph: the vertices are kept and the new ones are no operators; the edges are
kept, and every new edge leads from the vertex that computes its tensor to a new vertex, for a tensor that labelled no edge before. -/
theorem C143_only (g : G α) :
    (∃ k, (connect g).vs = g.vs ++ List.replicate k ⟨.special, []⟩) ∧
    ∃ new, (connect g).es = g.es ++ new ∧ ∀ e ∈ new, e.label ∉ g.labels ∧ g.vs.length ≤ e.tgt ∧
      ∃ v, g.vs[e.src]? = some v ∧ e.label ∈ v.outputs := by
  refine ⟨⟨_, fold_vs _ _⟩, ?_⟩
  obtain ⟨new, h1, h2, h3⟩ := fold_es g.unusedNames g
  refine ⟨new, h1, fun e he => ?_⟩
  have hl : e.label ∈ g.unusedNames := h2 ▸ List.mem_map.mpr ⟨e, he, rfl⟩
  obtain ⟨i, v, _, _, _, hnl⟩ := (mem_unusedNames g _).mp hl
  refine ⟨hnl, h3 e he, ?_⟩
  rcases fold_src g.unusedNames g (fun x hx => by
    obtain ⟨i, v, hv, _, hc, _⟩ := (mem_unusedNames g x).mp hx
    exact candidates_output g i v hv x hc) e (by rw [h1]; simp [he]) with h | h
  · exact absurd (List.mem_map.mpr ⟨e, h, rfl⟩) hnl
  · exact h

/-- C143 for operators whose outputs are in no list of the model.  For every graph, every operator with several outputs of which one
is read, every order in which Python runs through the set of tensors: each of its outputs, read or not, has its own tensor in the
file.  Missing for the full property: operators with an output that is in a list (`C143_list_false`) and operators of which no output
is read (`C143_dead_false`). -/
theorem C143_own_partial (info : α → TensorInfo) (optional : α → Bool) (bufIdx : α → Nat) (g : G α) (ins outs order : List α)
    (hin : ins.Nodup) (hinr : ∀ x ∈ ins, optional x = false) (hout : ∀ x ∈ outs, x ∈ g.labels ∧ optional x = false)
    (ho : Enumerates order (connect g).labels)
    (i : Nat) (v : Vertex α) (hv : g.vs[i]? = some v) (hop : v.kind.isOp = true) (hmany : 1 < v.outputs.length)
    (hread : ∃ e ∈ g.es, e.src = i) (hreal : ∀ x ∈ v.outputs, optional x = false)
    (hlist : ∀ x ∈ v.outputs, ∀ l ∈ g.lists, x ∉ l.2) :
    ∃ st, collectTensorBuffers info (index0 optional) bufIdx order ins outs = some st ∧
      List.Forall₂ (Own st.tensors) (operandIdx st v.outputs) v.outputs := by
  have h0 : ∀ y, optional y = false → index0 optional y ≠ -1 := by
    intro y hy; simp [index0, hy]
  obtain ⟨st, h1, h2, h3, _, h5, _⟩ := C18_tensor_buffers info (index0 optional) bufIdx order ins outs ho.1 hin
    (fun y hy => h0 y (hinr y hy))
    (fun y hy => ⟨(ho.2 y).mpr ((mem_labels_connect g y).mpr (Or.inl (hout y hy).1)), h0 y (hout y hy).2⟩)
  refine ⟨st, h1, ?_⟩
  have hm : g.multi i v = true := by
    obtain ⟨e, he, hs⟩ := hread
    have : g.outEdges i ≠ [] := by
      intro hnil
      have : e ∈ g.outEdges i := List.mem_filter.mpr ⟨he, by simpa using hs⟩
      rw [hnil] at this; cases this
    unfold G.multi
    simp [hop, hmany, this]
  have hcand : g.candidates i v = v.outputs := by
    unfold G.candidates
    rw [if_neg]
    intro h
    obtain ⟨x, hx, hc⟩ := List.any_eq_true.mp h
    rw [List.contains_iff_mem] at hc
    obtain ⟨l, hl, hxl⟩ := List.mem_flatMap.mp hc
    exact hlist x hx l hl hxl
  have hall : ∀ x ∈ v.outputs, x ∈ order := by
    intro x hx
    rw [ho.2, mem_labels_connect]
    by_cases hxl : x ∈ g.labels
    · exact Or.inl hxl
    · exact Or.inr ((mem_unusedNames g x).mpr ⟨i, v, hv, hm, hcand ▸ hx, hxl⟩)
  have := h5 v.outputs hall
  unfold operandIdx at this ⊢
  rw [List.forall₂_map_left_iff] at this ⊢
  rw [List.forall₂_same] at this ⊢
  intro x hx
  have := this x hx
  rw [if_neg (h0 x (hreal x hx))] at this
  exact this

/-- C143 for lists that are taken apart.  An operator that returns a list (SPLIT) whose elements are all unpacked, each by a RESHAPE
(`prim::ListUnpack`): every element and every unpacked value, read or not, has its own tensor. -/
theorem C143_unpack_partial (info : α → TensorInfo) (optional : α → Bool) (bufIdx : α → Nat) (g : G α) (ins outs order : List α)
    (hin : ins.Nodup) (hinr : ∀ x ∈ ins, optional x = false) (hout : ∀ x ∈ outs, x ∈ g.labels ∧ optional x = false)
    (ho : Enumerates order (connect g).labels)
    (i : Nat) (v : Vertex α) (hv : g.vs[i]? = some v) (hop : v.kind.isOp = true) (hmany : 1 < v.outputs.length)
    (hlist : ∃ x ∈ v.outputs, ∃ l ∈ g.lists, x ∈ l.2)
    (unpack : α → α) (hreal : ∀ x ∈ v.outputs, optional x = false ∧ optional (unpack x) = false)
    (hunp : ∀ x ∈ v.outputs, ∃ e ∈ g.es, e.src = i ∧ e.label = x ∧ g.vs[e.tgt]? = some ⟨.reshape, [unpack x]⟩) :
    ∃ st, collectTensorBuffers info (index0 optional) bufIdx order ins outs = some st ∧
      List.Forall₂ (Own st.tensors) (operandIdx st v.outputs) v.outputs ∧
      ∀ x ∈ v.outputs, Own st.tensors (st.idx (unpack x)) (unpack x) := by
  have h0 : ∀ y, optional y = false → index0 optional y ≠ -1 := by
    intro y hy; simp [index0, hy]
  obtain ⟨st, h1, h2, h3, h4, _⟩ := C18_tensor_buffers info (index0 optional) bufIdx order ins outs ho.1 hin
    (fun y hy => h0 y (hinr y hy))
    (fun y hy => ⟨(ho.2 y).mpr ((mem_labels_connect g y).mpr (Or.inl (hout y hy).1)), h0 y (hout y hy).2⟩)
  have hown : ∀ y, optional y = false → y ∈ (connect g).labels → Own st.tensors (st.idx y) y := fun y hy hl =>
    h4 y ((h3 y).mpr (Or.inl ⟨(ho.2 y).mpr hl, h0 y hy⟩))
  refine ⟨st, h1, ?_, ?_⟩
  · unfold operandIdx
    rw [List.forall₂_map_left_iff, List.forall₂_same]
    intro x hx
    obtain ⟨e, he, _, hl, _⟩ := hunp x hx
    exact hown x (hreal x hx).1 ((mem_labels_connect g x).mpr (Or.inl (List.mem_map.mpr ⟨e, he, hl⟩)))
  · intro x hx
    refine hown _ (hreal x hx).2 ((mem_labels_connect g _).mpr ?_)
    by_cases hxl : unpack x ∈ g.labels
    · exact Or.inl hxl
    · obtain ⟨e, he, hs, _, ht⟩ := hunp x hx
      have heo : e ∈ g.outEdges i := List.mem_filter.mpr ⟨he, by simpa using hs⟩
      refine Or.inr ((mem_unusedNames g _).mpr ⟨i, v, hv, ?_, ?_, hxl⟩)
      · have : g.outEdges i ≠ [] := by intro hnil; rw [hnil] at heo; cases heo
        unfold G.multi
        simp [hop, hmany, this]
      · obtain ⟨y, hy, l, hl, hyl⟩ := hlist
        unfold G.candidates
        rw [if_pos (List.any_eq_true.mpr ⟨y, hy, by
          rw [List.contains_iff_mem]; exact List.mem_flatMap.mpr ⟨l, hl, hyl⟩⟩)]
        refine List.mem_flatMap.mpr ⟨e, heo, ?_⟩
        simp [G.unpacked, ht]

/-- `a, b = x.chunk(2); return a + y` (names: 0 x, 1 y, 2 axis, 3 a, 4 b, 5 the result). -/
def chunkAdd : G Nat :=
  { vs := [⟨.special, [0]⟩, ⟨.special, [1]⟩, ⟨.special, [2]⟩, ⟨.op, [3, 4]⟩, ⟨.op, [5]⟩, ⟨.special, []⟩],
    es := [⟨2, 3, 2⟩, ⟨0, 3, 0⟩, ⟨3, 4, 3⟩, ⟨1, 4, 1⟩, ⟨4, 5, 5⟩], lists := [] }

/-- `a, b = x.chunk(2); return torch.cat([a, y])`: the same graph, with the list 6 of `a` and `y`. -/
def chunkCat : G Nat := { chunkAdd with lists := [(6, [3, 1])] }

/-- `a, b = x.split(2); return a + y` with `split` returning the list 6 of 7 and 8, unpacked by RESHAPEs (9 is the shape). -/
def splitAdd : G Nat :=
  { vs := [⟨.special, [0]⟩, ⟨.special, [1]⟩, ⟨.special, [2]⟩, ⟨.op, [7, 8]⟩, ⟨.reshape, [3]⟩, ⟨.reshape, [4]⟩, ⟨.op, [5]⟩,
      ⟨.special, []⟩, ⟨.special, [9]⟩],
    es := [⟨2, 3, 2⟩, ⟨0, 3, 0⟩, ⟨3, 4, 7⟩, ⟨8, 4, 9⟩, ⟨3, 5, 8⟩, ⟨8, 5, 9⟩, ⟨4, 6, 3⟩, ⟨1, 6, 1⟩, ⟨6, 7, 5⟩], lists := [(6, [7, 8])] }

/-- C143 is false when an output is put into a list.  `a, b = x.chunk(2); return torch.cat([a, y])`: whatever the order of the tensors
in the file, the index of the second output of SPLIT is the index of another tensor. -/
theorem C143_list_false : ∃ (g : G Nat) (ins outs : List Nat) (i : Nat) (v : Vertex Nat) (x : Nat),
    g.vs[i]? = some v ∧ v.kind = .op ∧ (∃ e ∈ g.es, e.src = i) ∧ x ∈ v.outputs ∧
    ∀ (info : Nat → TensorInfo) (bufIdx : Nat → Nat) (order : List Nat), Enumerates order (connect g).labels →
      ∃ st, collectTensorBuffers info (index0 fun _ => false) bufIdx order ins outs = some st ∧
        Overwrites st.tensors (st.idx x) x := by
  refine ⟨chunkCat, [0, 1], [5], 3, ⟨.op, [3, 4]⟩, 4, rfl, rfl, by decide, by decide, fun info bufIdx order ho => ?_⟩
  have hl : (connect chunkCat).labels = [2, 0, 3, 1, 5] := by decide
  exact unlabelled info _ bufIdx order [0, 1] [5] ho.1 (by decide) (by simp)
    (fun x hx => ⟨(ho.2 x).mpr (by rw [hl]; simp at hx; simp [hx]), rfl⟩) (by simp) 4 rfl
    (fun h => by have := (ho.2 4).mp h; rw [hl] at this; simp at this) (by simp)

/-- `relu(x); return neg(x)` (names: 0 x, 1 the unread result, 2 the result). -/
def deadRelu : G Nat :=
  { vs := [⟨.special, [0]⟩, ⟨.op, [1]⟩, ⟨.op, [2]⟩, ⟨.special, []⟩], es := [⟨0, 1, 0⟩, ⟨0, 2, 0⟩, ⟨2, 3, 2⟩], lists := [] }

/-- C143 is false for operators of which no output is read.  Such an operator stays in the file when the graph is weakly connected
(`C24_connected_false`), and its output has the index of another tensor.  The graph: `relu(x); return neg(x)`. -/
theorem C143_dead_false : ∃ (g : G Nat) (ins outs : List Nat) (i : Nat) (v : Vertex Nat) (x : Nat),
    g.vs[i]? = some v ∧ v.kind = .op ∧ (∃ e ∈ g.es, e.tgt = i) ∧ x ∈ v.outputs ∧
    ∀ (info : Nat → TensorInfo) (bufIdx : Nat → Nat) (order : List Nat), Enumerates order (connect g).labels →
      ∃ st, collectTensorBuffers info (index0 fun _ => false) bufIdx order ins outs = some st ∧
        Overwrites st.tensors (st.idx x) x := by
  refine ⟨deadRelu, [0], [2], 1, ⟨.op, [1]⟩, 1, rfl, rfl, by decide, by decide, fun info bufIdx order ho => ?_⟩
  have hl : (connect deadRelu).labels = [0, 0, 2] := by decide
  exact unlabelled info _ bufIdx order [0] [2] ho.1 (by decide) (by simp)
    (fun x hx => ⟨(ho.2 x).mpr (by rw [hl]; simp at hx; simp [hx]), rfl⟩) (by simp) 1 rfl
    (fun h => by have := (ho.2 1).mp h; rw [hl] at this; simp at this) (by simp)

/-- With `a + y` in place of `cat([a, y])` the second output of SPLIT is a tensor of the file. -/
example : ∃ st, collectTensorBuffers (fun _ => ⟨false, false⟩) (index0 fun _ => false) (fun _ => 0) [0, 1, 2, 3, 4, 5] [0, 1] [5]
      = some st ∧ List.Forall₂ (Own st.tensors) (operandIdx st [3, 4]) [3, 4] :=
  C143_own_partial _ _ _ chunkAdd [0, 1] [5] [0, 1, 2, 3, 4, 5] (by decide) (by simp) (by decide)
    ⟨by decide, fun x => ⟨(by decide : ∀ y ∈ [0, 1, 2, 3, 4, 5], y ∈ (connect chunkAdd).labels) x,
      (by decide : ∀ y ∈ (connect chunkAdd).labels, y ∈ [0, 1, 2, 3, 4, 5]) x⟩⟩ 3 ⟨.op, [3, 4]⟩ rfl rfl (by decide) (by decide) (by simp) (by simp [chunkAdd])

/-- The unread element of a list that is unpacked: both 8 and the unpacked 4 are tensors of the file. -/
example : ∃ st, collectTensorBuffers (fun _ => ⟨false, false⟩) (index0 fun _ => false) (fun _ => 0) [0, 1, 2, 3, 4, 5, 7, 8, 9] [0, 1] [5]
      = some st ∧ List.Forall₂ (Own st.tensors) (operandIdx st [7, 8]) [7, 8] ∧
      ∀ x ∈ [7, 8], Own st.tensors (st.idx (x - 4)) (x - 4) :=
  C143_unpack_partial _ _ _ splitAdd [0, 1] [5] [0, 1, 2, 3, 4, 5, 7, 8, 9] (by decide) (by simp) (by decide)
    ⟨by decide, fun x => ⟨(by decide : ∀ y ∈ [0, 1, 2, 3, 4, 5, 7, 8, 9], y ∈ (connect splitAdd).labels) x,
      (by decide : ∀ y ∈ (connect splitAdd).labels, y ∈ [0, 1, 2, 3, 4, 5, 7, 8, 9]) x⟩⟩ 3 ⟨.op, [7, 8]⟩ rfl rfl (by decide) (by decide) (fun x => x - 4) (by simp) (by decide)

end Verif.Props
