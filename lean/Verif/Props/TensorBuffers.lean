import Verif.Model.TensorBuffers
import Mathlib.Data.List.Nodup
import Mathlib.Data.List.Infix

/-! C18: indices of tensors, buffers, inputs and outputs of the exported model. -/

namespace Verif.Props
open Verif.Model

variable {α : Type} [DecidableEq α]

theorem idxOf_snoc_of_mem {l : List α} {x y : α} (h : x ∈ l) : (l ++ [y]).idxOf x = l.idxOf x :=
  List.idxOf_append_of_mem h

theorem idxOf_snoc_self {l : List α} {y : α} (h : y ∉ l) : (l ++ [y]).idxOf y = l.length := by
  rw [List.idxOf_append_of_notMem h]; simp

/-- The tensors that are numbered: everything but the optional placeholder. -/
def real (idx : α → Int) (l : List α) : List α := l.filter (fun x => decide (idx x ≠ -1))

/-- The tensors that own a buffer of the model. -/
def owners (info : α → TensorInfo) (idx : α → Int) (l : List α) : List α :=
  l.filter (fun x => decide (idx x ≠ -1) && ((info x).hasBuffer && !(info x).isVariable))

/-- Closed form of the state after the labels `done`. -/
structure Closed (info : α → TensorInfo) (idx : α → Int) (bufIdx : α → Nat) (inputs outputs done : List α)
    (st : CTB α) : Prop where
  c_tensors : st.tensors = real idx done
  c_tensorIdx : st.tensorIdx = (real idx done).length
  c_buffers : st.buffers = none :: (owners info idx done).map some
  c_bufferIdx : st.bufferIdx = (owners info idx done).length + 1
  c_idx : ∀ x, st.idx x = if x ∈ real idx done then ((real idx done).idxOf x : Int) else idx x
  c_bufIdx : ∀ x, st.bufIdx x = if x ∈ owners info idx done then (owners info idx done).idxOf x + 1
    else if x ∈ real idx done ∧ (info x).isVariable = true then 0 else bufIdx x
  c_inputIdx : st.inputIdx = inputs.map (fun x => if x ∈ done then st.idx x else -1)
  c_outputIdx : st.outputIdx = outputs.map (fun x => if x ∈ done then st.idx x else -1)

theorem fillIdx_map (names : List α) (f : α → Int) (label : α) (v : Int) :
    fillIdx names (names.map f) label v = names.map (fun x => if x = label then v else f x) := by
  unfold fillIdx
  induction names with
  | nil => rfl
  | cons a l ih => simp only [List.map_cons, List.zipWith_cons_cons, ih]

theorem closed_step (info : α → TensorInfo) (idx : α → Int) (bufIdx : α → Nat) (inputs outputs done : List α)
    (st : CTB α) (h : Closed info idx bufIdx inputs outputs done st) (label : α) (hl : label ∉ done) :
    Closed info idx bufIdx inputs outputs (done ++ [label]) (ctbLabel info inputs outputs st label) := by
  obtain ⟨h1, h2, h3, h4, h5, h6, h7, h8⟩ := h
  have hnr : label ∉ real idx done := fun h => hl (List.mem_filter.1 h).1
  have hno : label ∉ owners info idx done := fun h => hl (List.mem_filter.1 h).1
  have hidx : st.idx label = idx label := by rw [h5, if_neg hnr]
  have hor : ∀ x, x ∈ owners info idx done → x ∈ real idx done := by
    intro x hx
    unfold owners at hx; unfold real
    rw [List.mem_filter] at hx ⊢
    simp only [Bool.and_eq_true] at hx
    exact ⟨hx.1, hx.2.1⟩
  have hvar : ∀ x, x ∈ owners info idx done → (info x).isVariable = false := by
    intro x hx
    unfold owners at hx
    rw [List.mem_filter] at hx
    simp only [Bool.and_eq_true, Bool.not_eq_true'] at hx
    exact hx.2.2.2
  -- the core update, before the input and output tables
  let st1 : CTB α := if st.idx label ≠ -1 then
      let st := if (info label).isVariable then { st with bufIdx := setAt st.bufIdx label 0 } else st
      let st := { st with idx := setAt st.idx label st.tensorIdx, tensorIdx := st.tensorIdx + 1,
                          tensors := st.tensors ++ [label] }
      if (info label).hasBuffer && !(info label).isVariable then
        { st with bufIdx := setAt st.bufIdx label st.bufferIdx, bufferIdx := st.bufferIdx + 1,
                  buffers := st.buffers ++ [some label] }
      else st
    else st
  have core : st1.tensors = real idx (done ++ [label]) ∧ st1.tensorIdx = (real idx (done ++ [label])).length ∧
      st1.buffers = none :: (owners info idx (done ++ [label])).map some ∧
      st1.bufferIdx = (owners info idx (done ++ [label])).length + 1 ∧
      (∀ x, st1.idx x = if x ∈ real idx (done ++ [label]) then ((real idx (done ++ [label])).idxOf x : Int) else idx x) ∧
      (∀ x, st1.bufIdx x = if x ∈ owners info idx (done ++ [label]) then (owners info idx (done ++ [label])).idxOf x + 1
        else if x ∈ real idx (done ++ [label]) ∧ (info x).isVariable = true then 0 else bufIdx x) ∧
      st1.inputIdx = st.inputIdx ∧ st1.outputIdx = st.outputIdx ∧ (∀ x, x ≠ label → st1.idx x = st.idx x) := by
    by_cases ho : idx label = -1
    · have hst1 : st1 = st := by simp [st1, hidx, ho]
      have e1 : real idx (done ++ [label]) = real idx done := by simp [real, ho]
      have e2 : owners info idx (done ++ [label]) = owners info idx done := by simp [owners, ho]
      rw [hst1, e1, e2]
      exact ⟨h1, h2, h3, h4, h5, h6, rfl, rfl, fun _ _ => rfl⟩
    · have e1 : real idx (done ++ [label]) = real idx done ++ [label] := by simp [real, ho]
      have hi : ∀ x, setAt st.idx label (st.tensorIdx : Int) x =
          if x ∈ real idx done ++ [label] then ((real idx done ++ [label]).idxOf x : Int) else idx x := by
        intro x
        unfold setAt
        by_cases hx : x = label
        · subst hx
          simp only [if_true, List.mem_append, List.mem_singleton, or_true]
          rw [idxOf_snoc_self hnr, h2]
        · simp only [hx, if_false, List.mem_append, List.mem_singleton, or_false]
          rw [h5]
          by_cases hm : x ∈ real idx done
          · simp only [hm, if_true]; rw [idxOf_snoc_of_mem hm]
          · simp only [hm, if_false]
      by_cases hv : (info label).isVariable = true
      · have e2 : owners info idx (done ++ [label]) = owners info idx done := by simp [owners, hv]
        have hst1 : st1 = { st with bufIdx := setAt st.bufIdx label 0, idx := setAt st.idx label st.tensorIdx,
                                    tensorIdx := st.tensorIdx + 1, tensors := st.tensors ++ [label] } := by
          simp [st1, hidx, ho, hv]
        rw [hst1, e1, e2]
        refine ⟨by rw [h1], by rw [h2]; simp, h3, h4, hi, ?_, rfl, rfl, fun x hx => by simp [setAt, hx]⟩
        intro x
        simp only [setAt]
        by_cases hx : x = label
        · subst hx; simp [hno, hv]
        · simp only [hx, if_false, List.mem_append, List.mem_singleton, or_false]; exact h6 x
      · rw [Bool.not_eq_true] at hv
        by_cases hb : (info label).hasBuffer = true
        · have e2 : owners info idx (done ++ [label]) = owners info idx done ++ [label] := by simp [owners, ho, hv, hb]
          have hst1 : st1 = { st with idx := setAt st.idx label st.tensorIdx,
                                      tensorIdx := st.tensorIdx + 1, tensors := st.tensors ++ [label],
                                      bufIdx := setAt st.bufIdx label st.bufferIdx, bufferIdx := st.bufferIdx + 1,
                                      buffers := st.buffers ++ [some label] } := by
            simp [st1, hidx, ho, hv, hb]
          rw [hst1, e1, e2]
          refine ⟨by rw [h1], by rw [h2]; simp, by rw [h3]; simp, by rw [h4]; simp, hi, ?_, rfl, rfl,
            fun x hx => by simp [setAt, hx]⟩
          intro x
          simp only [setAt]
          by_cases hx : x = label
          · subst hx
            simp only [if_true, List.mem_append, List.mem_singleton, or_true]
            rw [idxOf_snoc_self hno, h4]
          · simp only [hx, if_false, List.mem_append, List.mem_singleton, or_false]
            rw [h6 x]
            by_cases hm : x ∈ owners info idx done
            · simp only [hm, if_true]; rw [idxOf_snoc_of_mem hm]
            · simp only [hm, if_false]
        · rw [Bool.not_eq_true] at hb
          have e2 : owners info idx (done ++ [label]) = owners info idx done := by simp [owners, hb]
          have hst1 : st1 = { st with idx := setAt st.idx label st.tensorIdx,
                                      tensorIdx := st.tensorIdx + 1, tensors := st.tensors ++ [label] } := by
            simp [st1, hidx, ho, hv, hb]
          rw [hst1, e1, e2]
          refine ⟨by rw [h1], by rw [h2]; simp, h3, h4, hi, ?_, rfl, rfl, fun x hx => by simp [setAt, hx]⟩
          intro x
          rw [h6 x]
          by_cases hx : x = label
          · subst hx; simp [hno, hv]
          · simp only [List.mem_append, List.mem_singleton, hx, or_false]
  obtain ⟨c1, c2, c3, c4, c5, c6, c7, c8, c9⟩ := core
  have tab : ∀ (names : List α) (tbl : List Int), tbl = names.map (fun x => if x ∈ done then st.idx x else -1) →
      (if names.contains label = true then fillIdx names tbl label (st1.idx label) else tbl) =
        names.map (fun x => if x ∈ done ++ [label] then st1.idx x else -1) := by
    intro names tbl ht
    subst ht
    have base : names.map (fun x => if x = label then st1.idx label else if x ∈ done then st.idx x else -1) =
        names.map (fun x => if x ∈ done ++ [label] then st1.idx x else -1) := by
      apply List.map_congr_left
      intro x _
      by_cases hx : x = label
      · subst hx; simp
      · simp only [hx, if_false, List.mem_append, List.mem_singleton, or_false, c9 x hx]
    split
    · rw [fillIdx_map]; exact base
    · rename_i hc
      rw [← base]
      apply List.map_congr_left
      intro x hx
      have : x ≠ label := fun h => hc (by simpa using h ▸ hx)
      simp [this]
  have hfin : ctbLabel info inputs outputs st label =
      { st1 with inputIdx := if inputs.contains label = true then fillIdx inputs st1.inputIdx label (st1.idx label) else st1.inputIdx,
                 outputIdx := if outputs.contains label = true then fillIdx outputs st1.outputIdx label (st1.idx label) else st1.outputIdx } := by
    unfold ctbLabel
    simp only [st1]
    by_cases hi : inputs.contains label = true <;> by_cases ho : outputs.contains label = true <;> simp only [hi, ho, if_true, if_false] <;> rfl
  rw [hfin]
  refine ⟨c1, c2, c3, c4, c5, c6, ?_, ?_⟩
  · show (if inputs.contains label = true then _ else _) = _
    rw [c7]; exact tab inputs _ h7
  · show (if outputs.contains label = true then _ else _) = _
    rw [c8]; exact tab outputs _ h8

theorem closed_fold (info : α → TensorInfo) (idx : α → Int) (bufIdx : α → Nat) (inputs outputs labels : List α)
    (hl : labels.Nodup) : Closed info idx bufIdx inputs outputs labels
      (labels.foldl (ctbLabel info inputs outputs) (ctbInit idx bufIdx inputs outputs)) := by
  induction labels using List.reverseRecOn with
  | nil =>
    refine ⟨rfl, rfl, rfl, rfl, by simp [real, ctbInit], by simp [real, owners, ctbInit], ?_, ?_⟩ <;>
    · simp [ctbInit]
  | append_singleton l a ih =>
    rw [List.foldl_append]
    rw [List.nodup_append] at hl
    exact closed_step _ _ _ _ _ _ _ (ih hl.1) a (fun h => (hl.2.2 a h a (by simp)) rfl)

/-- Closed form of the state after adding the missing inputs `ms`. -/
theorem missing_fold (inputs : List α) (ms : List α) (hms : ms.Nodup) (st : CTB α) (hd : ∀ m ∈ ms, m ∉ st.tensors)
    (hlen : st.tensorIdx = st.tensors.length) (hil : st.inputIdx.length = inputs.length) (hin : inputs.Nodup)
    (hmi : ∀ m ∈ ms, m ∈ inputs) :
    let st' := ms.foldl (ctbMissing inputs) st
    st'.tensors = st.tensors ++ ms ∧ st'.buffers = st.buffers ∧ st'.bufIdx = st.bufIdx ∧ st'.outputIdx = st.outputIdx ∧
    (∀ x, st'.idx x = if x ∈ ms then ((st.tensors ++ ms).idxOf x : Int) else st.idx x) ∧
    st'.inputIdx.length = inputs.length ∧
    (∀ i (h : i < inputs.length), st'.inputIdx.getD i 0 = if inputs[i] ∈ ms then st'.idx inputs[i] else st.inputIdx.getD i 0) := by
  induction ms generalizing st with
  | nil => simp [hil]
  | cons m ms ih =>
    rw [List.nodup_cons] at hms
    have hm := hd m (by simp)
    have := ih hms.2 (ctbMissing inputs st m)
      (by
        intro x hx
        simp only [ctbMissing, List.mem_append, List.mem_singleton, not_or]
        exact ⟨hd x (by simp [hx]), fun h => hms.1 (h ▸ hx)⟩)
      (by simp [ctbMissing, hlen]) (by simp [ctbMissing, hil]) (fun x hx => hmi x (by simp [hx]))
    simp only [List.foldl_cons]
    obtain ⟨g1, g2, g3, g4, g5, g6, g7⟩ := this
    have hidx : ∀ x, (ms.foldl (ctbMissing inputs) (ctbMissing inputs st m)).idx x =
        if x ∈ m :: ms then ((st.tensors ++ m :: ms).idxOf x : Int) else st.idx x := by
      intro x
      rw [g5 x]
      by_cases hx : x ∈ ms
      · simp only [hx, if_true, List.mem_cons, or_true]
        simp [ctbMissing]
      · simp only [hx, if_false, List.mem_cons, or_false]
        simp only [ctbMissing, setAt]
        by_cases hxm : x = m
        · subst hxm
          simp only [if_true]
          rw [List.idxOf_append_of_notMem hm, hlen]
          simp
        · simp [hxm]
    refine ⟨by rw [g1]; simp [ctbMissing], g2, g3, g4, hidx, g6, ?_⟩
    intro i h
    rw [g7 i h]
    by_cases hx : inputs[i] ∈ ms
    · simp [hx]
    · simp only [hx, if_false, List.mem_cons, or_false]
      have e0 : (ctbMissing inputs st m).inputIdx = st.inputIdx.set (inputs.idxOf m) st.tensorIdx := rfl
      rw [e0]
      by_cases hxm : inputs[i] = m
      · subst hxm
        have e : inputs.idxOf inputs[i] = i := List.Nodup.idxOf_getElem hin i h
        simp only [if_true]
        rw [e, hidx]
        simp only [List.mem_cons, true_or, if_true]
        rw [List.idxOf_append_of_notMem hm]
        simp [List.getD, hil, h, hlen]
      · have e : inputs.idxOf m ≠ i := by
          intro h2
          apply hxm
          have hm2 := hmi m (by simp)
          subst h2
          exact List.getElem_idxOf (List.idxOf_lt_length_iff.2 hm2)
        simp only [hxm, if_false]
        simp only [List.getD]
        rw [List.getElem?_set_ne e]

/-- The integer `i` stored in the model refers to the tensor called `name`. -/
def RefersTo (tensors : List α) (i : Int) (name : α) : Prop := ∃ k : Nat, i = k ∧ tensors[k]? = some name

/-- `l` is a constant of the model: it has data and is not a variable. -/
def IsConst (info : α → TensorInfo) (l : α) : Prop := (info l).hasBuffer = true ∧ (info l).isVariable = false

theorem filter_zip_map (names : List α) (f : α → Int) :
    ((names.zip (names.map f)).filter (fun x => decide (x.2 < 0))).map Prod.fst = names.filter (fun x => decide (f x < 0)) := by
  induction names with
  | nil => rfl
  | cons a l ih =>
    simp only [List.map_cons, List.zip_cons_cons, List.filter_cons]
    split <;> simp [ih]

theorem filter_neg (idx : α → Int) (labels names : List α) (st : CTB α)
    (hidx : ∀ x, st.idx x = if x ∈ real idx labels then ((real idx labels).idxOf x : Int) else idx x)
    (hn : ∀ x ∈ names, x ∈ labels → idx x ≠ -1) :
    names.filter (fun x => decide ((if x ∈ labels then st.idx x else -1) < 0)) = names.filter (fun x => decide (x ∉ labels)) := by
  apply List.filter_congr
  intro x hx
  by_cases hl : x ∈ labels
  · have : x ∈ real idx labels := by simp [real, hl, hn x hx hl]
    simp only [hl, if_true, hidx x, this]
    simp
  · simp [hl]

/-- C18: the index tables of the exported model.  `labels` are the tensor names used in the graph, in any order; the
placeholder for an omitted optional operand is the tensor whose index is -1. -/
theorem C18_tensor_buffers (info : α → TensorInfo) (idx : α → Int) (bufIdx : α → Nat) (labels inputs outputs : List α)
    (hl : labels.Nodup) (hin : inputs.Nodup) (hinr : ∀ x ∈ inputs, idx x ≠ -1)
    (hout : ∀ x ∈ outputs, x ∈ labels ∧ idx x ≠ -1) :
    ∃ st, collectTensorBuffers info idx bufIdx labels inputs outputs = some st ∧
      -- every tensor used, and every declared input, is listed exactly once, and its index is its position
      st.tensors.Nodup ∧ (∀ l, l ∈ st.tensors ↔ (l ∈ labels ∧ idx l ≠ -1) ∨ l ∈ inputs) ∧
      (∀ l ∈ st.tensors, RefersTo st.tensors (st.idx l) l) ∧
      -- operands: -1 for the placeholder, otherwise the index of the named tensor
      (∀ names : List α, (∀ x ∈ names, x ∈ labels) →
        List.Forall₂ (fun i x => if idx x = -1 then i = -1 else RefersTo st.tensors i x) (operandIdx st names) names) ∧
      -- buffer 0 is empty, every constant owns one buffer, nothing else owns any
      st.buffers[0]? = some none ∧ st.buffers.Nodup ∧
      (∀ l ∈ labels, idx l ≠ -1 → IsConst info l → st.buffers[exportedBuffer info st l]? = some (some l)) ∧
      (∀ l ∈ labels, idx l ≠ -1 → ¬ IsConst info l → exportedBuffer info st l = 0) ∧
      (∀ l, some l ∈ st.buffers → IsConst info l ∧ l ∈ labels) ∧
      -- model inputs and outputs, in the declared order
      List.Forall₂ (RefersTo st.tensors) st.inputIdx inputs ∧ List.Forall₂ (RefersTo st.tensors) st.outputIdx outputs := by
  have cl := closed_fold info idx bufIdx inputs outputs labels hl
  set st0 := labels.foldl (ctbLabel info inputs outputs) (ctbInit idx bufIdx inputs outputs) with hst0
  obtain ⟨h1, h2, h3, h4, h5, h6, h7, h8⟩ := cl
  set ms := inputs.filter (fun x => decide (x ∉ labels)) with hms
  have hmo : ((outputs.zip st0.outputIdx).filter (fun x => decide (x.2 < 0))).map Prod.fst = [] := by
    rw [h8, filter_zip_map, filter_neg idx labels outputs st0 h5 (fun x hx _ => (hout x hx).2)]
    rw [List.filter_eq_nil_iff]
    intro x hx; simp [(hout x hx).1]
  have hmi : ((inputs.zip st0.inputIdx).filter (fun x => decide (x.2 < 0))).map Prod.fst = ms := by
    rw [h7, filter_zip_map, filter_neg idx labels inputs st0 h5 (fun x hx _ => hinr x hx)]
  have hmsm : ∀ x, x ∈ ms ↔ x ∈ inputs ∧ x ∉ labels := by intro x; simp [hms]
  have hrealm : ∀ x, x ∈ real idx labels ↔ x ∈ labels ∧ idx x ≠ -1 := by intro x; simp [real]
  have hown : ∀ x, x ∈ owners info idx labels ↔ x ∈ labels ∧ idx x ≠ -1 ∧ IsConst info x := by
    intro x; simp [owners, IsConst]
  have hrn : (real idx labels).Nodup := hl.filter _
  obtain ⟨g1, g2, g3, g4, g5, g6, g7⟩ := missing_fold inputs ms (hin.filter _) st0
    (by intro m hm; rw [h1, hrealm]; exact fun h => ((hmsm m).1 hm).2 h.1) (by rw [h1, h2]) (by rw [h7]; simp) hin
    (fun m hm => ((hmsm m).1 hm).1)
  set st := ms.foldl (ctbMissing inputs) st0 with hst
  have htens : st.tensors = real idx labels ++ ms := by rw [g1, h1]
  have hnd : st.tensors.Nodup := by
    rw [htens, List.nodup_append]
    refine ⟨hrn, hin.filter _, ?_⟩
    intro a ha b hb e
    subst e
    exact ((hmsm a).1 hb).2 ((hrealm a).1 ha).1
  have hmem : ∀ l, l ∈ st.tensors ↔ (l ∈ labels ∧ idx l ≠ -1) ∨ l ∈ inputs := by
    intro l
    rw [htens, List.mem_append, hrealm, hmsm]
    constructor
    · rintro (h | h)
      · exact Or.inl h
      · exact Or.inr h.1
    · rintro (h | h)
      · exact Or.inl h
      · by_cases hll : l ∈ labels
        · exact Or.inl ⟨hll, hinr l h⟩
        · exact Or.inr ⟨h, hll⟩
  have href : ∀ l ∈ st.tensors, RefersTo st.tensors (st.idx l) l := by
    intro l hlt
    refine ⟨st.tensors.idxOf l, ?_, ?_⟩
    · rw [g5 l, g1]
      by_cases hm : l ∈ ms
      · simp [hm]
      · have : l ∈ real idx labels := by
          rw [htens, List.mem_append] at hlt
          exact hlt.resolve_right hm
        rw [if_neg hm, h5 l, if_pos this, h1, List.idxOf_append_of_mem this]
    · rw [List.getElem?_eq_getElem (List.idxOf_lt_length_iff.2 hlt), List.getElem_idxOf]
  have hopt : ∀ l ∈ labels, idx l = -1 → st.idx l = -1 := by
    intro l hll he
    have : l ∉ ms := fun h => ((hmsm l).1 h).2 hll
    rw [g5 l, if_neg this, h5 l, if_neg (by rw [hrealm]; exact fun h => h.2 he), he]
  have hbuf : st.bufIdx = st0.bufIdx := g3
  refine ⟨st, ?_, hnd, hmem, href, ?_, ?_, ?_, ?_, ?_, ?_, ?_, ?_⟩
  · unfold collectTensorBuffers
    rw [← hst0]
    simp only [hmo, hmi]
    rfl
  · intro names hnames
    unfold operandIdx
    rw [List.forall₂_map_left_iff]
    rw [List.forall₂_same]
    intro x hx
    by_cases he : idx x = -1
    · simp [he, hopt x (hnames x hx) he]
    · simp only [he, if_false]
      exact href x ((hmem x).2 (Or.inl ⟨hnames x hx, he⟩))
  · rw [g2, h3]; rfl
  · rw [g2, h3, List.nodup_cons]
    refine ⟨by simp, (hl.filter _).map (fun a b h => by simpa using h)⟩
  · intro l hll hr hc
    have ho : l ∈ owners info idx labels := (hown l).2 ⟨hll, hr, hc⟩
    unfold exportedBuffer
    rw [if_pos hc.1, hbuf, h6 l, if_pos ho, g2, h3]
    simp [List.idxOf_lt_length_iff.2 ho]
  · intro l hll hr hc
    unfold exportedBuffer
    split
    · rename_i hb
      have hv : (info l).isVariable = true := by
        by_contra hv
        exact hc ⟨hb, by simpa using hv⟩
      have ho : l ∉ owners info idx labels := fun h => hc ((hown l).1 h).2.2
      rw [hbuf, h6 l, if_neg ho, if_pos ⟨(hrealm l).2 ⟨hll, hr⟩, hv⟩]
    · rfl
  · intro l hlb
    rw [g2, h3] at hlb
    simp only [List.mem_cons, reduceCtorEq, List.mem_map, Option.some.injEq, exists_eq_right, false_or] at hlb
    exact ⟨((hown l).1 hlb).2.2, ((hown l).1 hlb).1⟩
  · rw [List.forall₂_iff_get]
    refine ⟨by rw [g6], ?_⟩
    intro i hi1 hi2
    have e := g7 i hi2
    simp only [List.get_eq_getElem]
    have hx : inputs[i] ∈ inputs := List.getElem_mem hi2
    have e2 : st.inputIdx[i] = st.idx inputs[i] := by
      have e3 : st.inputIdx.getD i 0 = st.inputIdx[i] := by simp [List.getD, hi1]
      rw [e3] at e
      rw [e]
      split
      · rfl
      · rename_i hm
        have hll : inputs[i] ∈ labels := by
          by_contra h
          exact hm ((hmsm _).2 ⟨hx, h⟩)
        rw [h7]
        simp only [List.getD, List.getElem?_map, List.getElem?_eq_getElem hi2, Option.map_some, Option.getD_some, hll, if_true]
        rw [g5, if_neg hm]
    rw [e2]
    exact href _ ((hmem _).2 (Or.inr hx))
  · rw [g4, h8, List.forall₂_map_left_iff, List.forall₂_same]
    intro x hx
    have hll := (hout x hx).1
    have hm : x ∉ ms := fun h => ((hmsm x).1 h).2 hll
    simp only [hll, if_true]
    have := href x ((hmem x).2 (Or.inl (hout x hx)))
    rwa [g5 x, if_neg hm] at this

/-- C18, rejection: an output that is not a tensor of the graph makes the export fail. -/
theorem C18_missing_output (info : α → TensorInfo) (idx : α → Int) (bufIdx : α → Nat) (labels inputs outputs : List α)
    (hl : labels.Nodup) (x : α) (hx : x ∈ outputs) (hxl : x ∉ labels) :
    collectTensorBuffers info idx bufIdx labels inputs outputs = none := by
  have cl := closed_fold info idx bufIdx inputs outputs labels hl
  unfold collectTensorBuffers
  simp only [cl.c_outputIdx, filter_zip_map]
  rw [if_neg]
  intro h
  rw [List.isEmpty_iff, List.filter_eq_nil_iff] at h
  have := h x hx
  simp [hxl] at this

/-- Names: 0 input, 1 weight, 2 placeholder, 3 variable, 4 output, 5 an input no operator reads. -/
example : (collectTensorBuffers (fun x => { hasBuffer := x == 1 || x == 3, isVariable := x == 3 })
    (fun x => if x = 2 then -1 else 0) (fun _ => 0) [4, 1, 2, 3, 0] [5, 0] [4, 4]).map
    (fun st => (st.tensors, st.buffers, st.inputIdx, st.outputIdx, operandIdx st [0, 1, 2, 3])) =
  some ([4, 1, 3, 0, 5], [none, some 1], [4, 3], [0, 0], [3, 1, -1, 2]) := by decide

end Verif.Props
