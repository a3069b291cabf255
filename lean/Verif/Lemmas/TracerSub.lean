import Verif.Model.TracerSub
import Verif.Spec.TraceSub
import Verif.Lemmas.TracerElim

/-! The graph after `reset_input_output_for_graph` (used by C84). -/

namespace Verif.Lemmas.Tracer
open Verif.Spec.Trace Verif.Model.Tracer

variable {F M K T : Type}

/-! ### New inputs -/

def inNode (F M K : Type) (t : Nat) : TNode F M K := ⟨fnName "input" t, .input, [], [], [], false⟩

/-- The counters after `m` new inputs and `o` new outputs. -/
structure Fresh (st : State F M K) (m o : Nat) : Prop where
  gi : st.gf "input" = if m = 0 then none else some (m - 1)
  go : st.gf "output" = if o = 0 then none else some (o - 1)
  gn : ∀ x N, st.gn x = some N → (∃ t, t < m ∧ x = fnName "input" t) ∨ ∃ t, t < o ∧ x = fnName "output" t

theorem bump_count (st : State F M K) (kind : String) (m : Nat) (h : st.gf kind = if m = 0 then none else some (m - 1)) : (bump st kind).1 = m := by
  unfold bump
  rw [h]
  by_cases hm : m = 0
  · simp [hm]
  · obtain ⟨m, rfl⟩ := Nat.exists_eq_succ_of_ne_zero hm
    rfl

theorem newInput_eq {st : State F M K} {m o : Nat} (h : Fresh st m o) :
    (newInput st).nodes = st.nodes ++ [inNode F M K m] ∧ (newInput st).inputs = st.inputs ++ [st.nodes.length] ∧ (newInput st).forward = st.forward ∧
      (newInput st).outputs = st.outputs ∧ (newInput st).consts = st.consts ∧ Fresh (newInput st) (m + 1) o := by
  have hb := bump_count st "input" m h.gi
  have hg : (bump st "input").2.gn (fnName "input" m) = none := by
    cases hx : (bump st "input").2.gn (fnName "input" m) with
    | none => rfl
    | some N =>
      rcases h.gn _ N hx with ⟨t, ht, he⟩ | ⟨t, ht, he⟩
      · have := (fnName_inj he).2; omega
      · have := (fnName_inj he).1; simp at this
  have hn : number (bump st "input").2 (fnName "input" m) =
      (fnName "input" m, { (bump st "input").2 with gn := upd (bump st "input").2.gn (fnName "input" m) (some 0) }) := by
    unfold number
    rw [hg]
  unfold newInput
  dsimp only
  rw [hb]
  simp only [hn, push, inNode]
  refine ⟨rfl, rfl, rfl, rfl, rfl, ?_, ?_, ?_⟩
  · simp only [bump, upd]
    rw [h.gi]
    by_cases hm : m = 0
    · simp [hm]
    · obtain ⟨m, rfl⟩ := Nat.exists_eq_succ_of_ne_zero hm
      rfl
  · simp only [bump, upd]
    simpa using h.go
  · intro x N hx
    simp only [upd] at hx
    split_ifs at hx with hx'
    · exact Or.inl ⟨m, by omega, hx'⟩
    · rcases h.gn x N hx with ⟨t, ht, he⟩ | he
      · exact Or.inl ⟨t, by omega, he⟩
      · exact Or.inr he

theorem newInputs_eq {α : Type} (l : List α) : ∀ {st : State F M K} {m o : Nat}, Fresh st m o →
    (l.foldl (fun st _ => newInput st) st).nodes = st.nodes ++ (List.range' m l.length).map (inNode F M K) ∧
      (l.foldl (fun st _ => newInput st) st).inputs = st.inputs ++ List.range' st.nodes.length l.length ∧
      (l.foldl (fun st _ => newInput st) st).forward = st.forward ∧ (l.foldl (fun st _ => newInput st) st).outputs = st.outputs ∧
      (l.foldl (fun st _ => newInput st) st).consts = st.consts ∧ Fresh (l.foldl (fun st _ => newInput st) st) (m + l.length) o := by
  induction l with
  | nil => intro st m o h; simpa using h
  | cons a l ih =>
    intro st m o h
    obtain ⟨e1, e2, e3, e4, e5, e6⟩ := newInput_eq h
    obtain ⟨i1, i2, i3, i4, i5, i6⟩ := ih e6
    rw [List.foldl_cons]
    refine ⟨?_, ?_, by rw [i3, e3], by rw [i4, e4], by rw [i5, e5], ?_⟩
    · rw [i1, e1, List.length_cons, List.range'_succ]
      simp
    · rw [i2, e2, e1, List.length_cons, List.range'_succ]
      simp
    · have : m + 1 + l.length = m + (a :: l).length := by simp; omega
      rw [← this]; exact i6

/-! ### Cutting the input nodes off -/

structure Cut (st : State F M K) (given : Nat → List T) (done : List Nat) (a : State F M K × Redirect) : Prop where
  len : a.1.nodes.length = st.nodes.length + (done.map given).flatten.length
  old : ∀ i, i < st.nodes.length → i ∉ done → a.1.nodes[i]? = st.nodes[i]?
  cut : ∀ i ∈ done, ∃ (n : TNode F M K) (l : List Nat), st.nodes[i]? = some n ∧ a.1.nodes[i]? = some { n with prev := l } ∧
    List.Forall₂ (fun j v => ∃ t, j = st.nodes.length + t ∧ (done.map given).flatten[t]? = some v) l (given i)
  new : ∀ t, t < (done.map given).flatten.length → a.1.nodes[st.nodes.length + t]? = some (inNode F M K t)
  inputs : a.1.inputs = List.range' st.nodes.length (done.map given).flatten.length
  blocks : a.1.inputs = (done.map (prevs a.1)).flatten
  forward : a.1.forward = st.forward
  outputs : a.1.outputs = []
  consts : a.1.consts = st.consts
  fresh : Fresh a.1 (done.map given).flatten.length 0
  rd : ∀ e ∈ a.2, ∃ i ∈ done, ∃ n : TNode F M K, st.nodes[i]? = some n ∧ e.1 ∈ n.prev.zip n.idx

theorem cut_init (st : State F M K) (given : Nat → List T) : Cut st given [] (clearIO st, []) := by
  refine ⟨by simp [clearIO], fun i _ _ => rfl, by simp, by simp, by simp [clearIO], by simp [clearIO], rfl, rfl, rfl, ⟨rfl, rfl, ?_⟩, by simp⟩
  intro x N h
  cases h

theorem cut_step {st : State F M K} {given : Nat → List T} {done : List Nat} {a : State F M K × Redirect} (h : Cut st given done a) {i : Nat}
    (hi : i ∉ done) {n : TNode F M K} (hn : st.nodes[i]? = some n) (hg : (given i).length = n.prev.length) : Cut st given (done ++ [i]) (cutNode a i) := by
  have hlt : i < st.nodes.length := (List.getElem?_eq_some_iff.1 hn).1
  have hai : a.1.nodes[i]? = some n := by rw [h.old i hlt hi, hn]
  obtain ⟨e1, e2, e3, e4, e5, e6⟩ := newInputs_eq n.prev h.fresh
  have hfl : ((done ++ [i]).map given).flatten = (done.map given).flatten ++ given i := by simp
  unfold cutNode
  rw [hai]
  dsimp only
  set m := (done.map given).flatten.length with hm
  set N := st.nodes.length with hN
  set st1 := n.prev.foldl (fun st _ => newInput st) a.1 with hst1
  have hlen1 : st1.nodes.length = N + m + n.prev.length := by
    rw [e1, List.length_append, h.len, List.length_map, List.length_range']
  have hget : ∀ j, j < N + m → st1.nodes[j]? = a.1.nodes[j]? := by
    intro j hj
    rw [e1, List.getElem?_append_left (by rw [h.len]; exact hj)]
  have hset : ∀ j, j ≠ i → (st1.nodes.set i { n with prev := List.range' a.1.nodes.length n.prev.length })[j]? = st1.nodes[j]? := by
    intro j hj
    rw [List.getElem?_set_ne (Ne.symm hj)]
  have hseti : (st1.nodes.set i { n with prev := List.range' a.1.nodes.length n.prev.length })[i]? =
      some { n with prev := List.range' a.1.nodes.length n.prev.length } := by
    rw [List.getElem?_set_self (by omega)]
  refine ⟨?_, ?_, ?_, ?_, ?_, ?_, by rw [← h.forward]; exact e3, by rw [← h.outputs]; exact e4, by rw [← h.consts]; exact e5, ?_, ?_⟩
  · rw [hfl, List.length_set, hlen1, List.length_append, hg]; omega
  · intro j hj hjd
    simp only [List.mem_append, List.mem_singleton, not_or] at hjd
    dsimp only
    rw [hset j hjd.2, hget j (by omega), h.old j hj hjd.1]
  · intro j hj
    rw [hfl]
    rcases List.mem_append.1 hj with hj | hj
    · obtain ⟨n', l, n1, n2, n3⟩ := h.cut j hj
      have hjN : j < N := (List.getElem?_eq_some_iff.1 n1).1
      refine ⟨n', l, n1, ?_, n3.imp ?_⟩
      · dsimp only
        rw [hset j (fun hji => hi (hji ▸ hj)), hget j (by omega), n2]
      · rintro j v ⟨t, ht, hv⟩
        exact ⟨t, ht, getElem?_append_some hv⟩
    · rw [List.mem_singleton.1 hj]
      refine ⟨n, _, hn, hseti, ?_⟩
      rw [List.forall₂_iff_get]
      refine ⟨by simp [hg], ?_⟩
      intro t h1 h2
      refine ⟨m + t, ?_, ?_⟩
      · have hl := h.len
        rw [← hm, ← hN] at hl
        rw [List.get_eq_getElem, List.getElem_range']
        dsimp only
        omega
      · rw [List.getElem?_append_right (by rw [← hm]; exact Nat.le_add_right _ _), ← hm, Nat.add_sub_cancel_left]
        simp at h2 ⊢
  · intro t ht
    rw [hfl, List.length_append, ← hm] at ht
    dsimp only
    rw [hset _ (by omega)]
    by_cases htm : t < m
    · rw [hget _ (by omega), h.new t htm]
    · rw [e1, List.getElem?_append_right (by rw [h.len]; omega), h.len, ← hm]
      rw [List.getElem?_map, List.getElem?_range' (by omega)]
      simp
      congr 1; omega
  · dsimp only
    rw [e2, h.inputs, hfl, List.length_append, ← hm, h.len, ← hm, hg, List.range'_append_1]
  · have hb : ∀ j ∈ done, prevs { st1 with nodes := st1.nodes.set i { n with prev := List.range' a.1.nodes.length n.prev.length } } j = prevs a.1 j := by
      intro j hj
      obtain ⟨n', l, n1, n2, n3⟩ := h.cut j hj
      have hjN : j < N := (List.getElem?_eq_some_iff.1 n1).1
      unfold prevs
      dsimp only
      rw [hset j (by rintro rfl; exact hi hj), hget j (by omega)]
    rw [List.map_append, List.flatten_append, List.map_congr_left hb, ← h.blocks]
    dsimp only
    rw [e2]
    simp [prevs, hseti]
  · rw [hfl, List.length_append, ← hm, hg]
    exact ⟨e6.gi, e6.go, e6.gn⟩
  · intro e he
    rcases List.mem_append.1 he with he | he
    · refine ⟨i, by simp, n, hn, ?_⟩
      have := List.of_mem_zip (List.mem_reverse.1 he)
      exact this.1
    · obtain ⟨i', h1, h2⟩ := h.rd e he
      exact ⟨i', by simp [h1], h2⟩

theorem cut_all {st : State F M K} {given : Nat → List T} (ins : List Nat) : ∀ {done : List Nat} {a : State F M K × Redirect}, Cut st given done a →
    (done ++ ins).Nodup → (∀ i ∈ ins, ∃ n : TNode F M K, st.nodes[i]? = some n ∧ (given i).length = n.prev.length) →
    Cut st given (done ++ ins) (ins.foldl cutNode a) := by
  induction ins with
  | nil => intro done a h _ _; simpa using h
  | cons i ins ih =>
    intro done a h hd hi
    obtain ⟨n, hn, hg⟩ := hi i (by simp)
    have hni : i ∉ done := fun hh => (List.nodup_append.1 hd).2.2 i hh i (by simp) rfl
    have := ih (cut_step h hni hn hg) (by simpa using hd) (fun j hj => hi j (by simp [hj]))
    simpa using this

/-! ### New outputs -/

def outNode (rd : Redirect) (t : Nat) (e : Nat × (List Path × Bool)) : TNode F M K := ⟨fnName "output" t, .output, e.2.1.map (source rd e.1), e.2.1, [], e.2.2⟩

theorem newOutput_eq {st : State F M K} {m o : Nat} (h : Fresh st m o) (rd : Redirect) (e : Nat × (List Path × Bool)) :
    (newOutput rd e.1 st e.2).nodes = st.nodes ++ [outNode rd o e] ∧ (newOutput rd e.1 st e.2).outputs = st.outputs ++ [st.nodes.length] ∧
      (newOutput rd e.1 st e.2).forward = st.forward ∧ (newOutput rd e.1 st e.2).inputs = st.inputs ∧ (newOutput rd e.1 st e.2).consts = st.consts ∧
      Fresh (newOutput rd e.1 st e.2) m (o + 1) := by
  have hb := bump_count st "output" o h.go
  have hg : (bump st "output").2.gn (fnName "output" o) = none := by
    cases hx : (bump st "output").2.gn (fnName "output" o) with
    | none => rfl
    | some N =>
      rcases h.gn _ N hx with ⟨t, ht, he⟩ | ⟨t, ht, he⟩
      · have := (fnName_inj he).1; simp at this
      · have := (fnName_inj he).2; omega
  have hn : number (bump st "output").2 (fnName "output" o) =
      (fnName "output" o, { (bump st "output").2 with gn := upd (bump st "output").2.gn (fnName "output" o) (some 0) }) := by
    unfold number
    rw [hg]
  unfold newOutput
  dsimp only
  rw [hb]
  simp only [hn, push, outNode]
  refine ⟨rfl, rfl, rfl, rfl, rfl, ?_, ?_, ?_⟩
  · simp only [bump, upd]
    simpa using h.gi
  · simp only [bump, upd]
    rw [h.go]
    by_cases hm : o = 0
    · simp [hm]
    · obtain ⟨m, rfl⟩ := Nat.exists_eq_succ_of_ne_zero hm
      rfl
  · intro x N hx
    simp only [upd] at hx
    split_ifs at hx with hx'
    · exact Or.inr ⟨o, by omega, hx'⟩
    · rcases h.gn x N hx with he | ⟨t, ht, he⟩
      · exact Or.inl he
      · exact Or.inr ⟨t, by omega, he⟩

theorem newOutputs_eq (rd : Redirect) (l : List (Nat × (List Path × Bool))) : ∀ {st : State F M K} {m o : Nat}, Fresh st m o →
    (l.foldl (fun st e => newOutput rd e.1 st e.2) st).nodes = st.nodes ++ l.mapIdx (fun t e => outNode rd (o + t) e) ∧
      (l.foldl (fun st e => newOutput rd e.1 st e.2) st).outputs = st.outputs ++ List.range' st.nodes.length l.length ∧
      (l.foldl (fun st e => newOutput rd e.1 st e.2) st).forward = st.forward ∧ (l.foldl (fun st e => newOutput rd e.1 st e.2) st).inputs = st.inputs ∧
      (l.foldl (fun st e => newOutput rd e.1 st e.2) st).consts = st.consts := by
  induction l with
  | nil => intro st m o h; simp
  | cons a l ih =>
    intro st m o h
    obtain ⟨e1, e2, e3, e4, e5, e6⟩ := newOutput_eq h rd a
    obtain ⟨i1, i2, i3, i4, i5⟩ := ih e6
    rw [List.foldl_cons]
    refine ⟨?_, ?_, by rw [i3, e3], by rw [i4, e4], by rw [i5, e5]⟩
    · rw [i1, e1, List.mapIdx_cons]
      simp [Nat.add_assoc, Nat.add_comm 1]
    · rw [i2, e2, e1, List.length_cons, List.range'_succ]
      simp

theorem outputs_flat (rd : Redirect) (shape : Nat → Out Unit) (outs : List Nat) : ∀ st : State F M K,
    outs.foldl (fun st o => (outputItems (shape o)).foldl (newOutput rd o) st) st =
      (outs.flatMap (fun o => (outputItems (shape o)).map (fun e => (o, e)))).foldl (fun st e => newOutput rd e.1 st e.2) st := by
  induction outs with
  | nil => intro st; rfl
  | cons o outs ih =>
    intro st
    rw [List.foldl_cons, ih, List.flatMap_cons, List.foldl_append, List.foldl_map]

/-! ### The nodes in between -/

theorem prevs_between {st : State F M K} {ins outs : List Nat} (i j : Nat) (hj : j ∈ (if i ∈ ins then [] else prevs st i)) (h : Between st ins outs i) :
    Between st ins outs j := by
  split_ifs at hj with hi
  · cases hj
  · unfold prevs at hj
    cases hn : st.nodes[i]? with
    | none => rw [hn] at hj; cases hj
    | some n =>
      rw [hn] at hj
      exact .read hn hi hj h

theorem mem_visited {st : State F M K} {ins outs : List Nat} (i : Nat) : i ∈ visited st ins outs ↔ Between st ins outs i := by
  have hN : ∀ i, st.nodes.length ≤ i → (if i ∈ ins then [] else prevs st i) = [] := by
    intro i hi
    rw [prevs_none i hi]; simp
  obtain ⟨-, a2, a3, a4⟩ := detect_spec hN (Between st ins outs) prevs_between (fuel st + outs.length) outs [] (by
    have := todo_le (st := st) (fun i => if i ∈ ins then [] else prevs st i) (fun i => by split_ifs <;> simp) []
    omega) (by simp)
  refine ⟨a4 (by simp) (fun i hi => .out hi) i, fun h => ?_⟩
  induction h with
  | out h => exact a2 _ h
  | @read i j n hn hi hj _ ih =>
    refine a3 i ih j ?_
    rw [if_neg hi]
    unfold prevs
    rw [hn]; exact hj

theorem mem_next {st : State F M K} {i j : Nat} {n : TNode F M K} (hn : st.nodes[i]? = some n) (hi : i ∈ order st) (hj : j ∈ n.prev) : i ∈ nextNodes st j := by
  unfold nextNodes
  rw [List.mem_filter]
  refine ⟨hi, ?_⟩
  rw [hn]
  simpa using hj

variable {s : Sem F M K T} {st : State F M K} {vals ins0 rets : List (Out T)}

theorem kind_forward (h : Traced s st vals ins0 rets) {i : Nat} {n : TNode F M K} (hn : st.nodes[i]? = some n) (hi : i ∈ st.forward) :
    (∃ f, n.kind = .func f) ∨ ∃ m, n.kind = .module m := by
  obtain ⟨n', h1, h2⟩ := h.lists.fwd i hi
  rw [hn] at h1
  cases h1
  exact h2

/-- With no input missing, everything in between is a call. -/
theorem between_forward (h : Traced s st vals ins0 rets) {ins outs : List Nat} (hi : ∀ i ∈ ins, i ∈ st.forward) (ho : ∀ i ∈ outs, i ∈ st.forward)
    (hm : missing st ins outs = []) : ∀ i, Between st ins outs i → i ∈ st.forward := by
  intro i hb
  induction hb with
  | out h => exact ho _ h
  | @read i j n hn hii hj hb ih =>
    have hbj : Between st ins outs j := .read hn hii hj hb
    have hnext : nextNodes st j ≠ [] := by
      intro he
      have := mem_next hn (by simp [order, ih]) hj
      rw [he] at this
      cases this
    have hkey : prevs st j = [] → j ∈ ins := by
      intro hp
      by_contra hji
      have : j ∈ missing st ins outs := List.mem_filter.2 ⟨(mem_visited j).2 hbj, by simp [hji, hp, hnext]⟩
      rw [hm] at this
      cases this
    rcases h.prev hn (Or.inl ih) j hj with hc | ⟨hj' | hj', -⟩
    · obtain ⟨m, k, hm', hk⟩ := h.lists.con j hc
      have hno := h.node j m hm'
      unfold NodeOk at hno
      rw [hk] at hno
      exact hi j (hkey (by unfold prevs; rw [hm']; exact hno.2))
    · obtain ⟨m, hm', hk⟩ := h.lists.inp j hj'
      have hno := h.node j m hm'
      unfold NodeOk at hno
      rw [hk] at hno
      exact hi j (hkey (by unfold prevs; rw [hm']; exact hno))
    · exact hj'

end Verif.Lemmas.Tracer
