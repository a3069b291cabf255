import Verif.Lemmas.TracerSub

/-! The generated code of an extracted subgraph (used by C84). -/

namespace Verif.Lemmas.Tracer
open Verif.Spec.Trace Verif.Model.Tracer

variable {F M K T : Type}

/-- The call of a node that does not use recorded argument names: a submodule, or a method without further tensors; its arguments are not items of lists. -/
def Direct (nm : Naming F M K) (n : TNode F M K) : Prop :=
  (∀ p ∈ n.idx, p = []) ∧ ∀ f, n.kind = .func f → nm.isClass f = true ∧ n.prev.length = 1

/-- The graph with its new inputs and outputs, before dead nodes are removed. -/
structure SubG (st : State F M K) (ins : List Nat) (given : Nat → List T) (items : List (Nat × (List Path × Bool)))
    (st2 : State F M K) (news : List T) : Prop where
  newsEq : news = (ins.map given).flatten
  len : st2.nodes.length = st.nodes.length + news.length + items.length
  old : ∀ i, i < st.nodes.length → i ∉ ins → st2.nodes[i]? = st.nodes[i]?
  cut : ∀ i ∈ ins, ∃ (n : TNode F M K) (l : List Nat), st.nodes[i]? = some n ∧ st2.nodes[i]? = some { n with prev := l } ∧
    List.Forall₂ (fun j v => ∃ t, j = st.nodes.length + t ∧ news[t]? = some v) l (given i)
  new : ∀ t, t < news.length → st2.nodes[st.nodes.length + t]? = some (inNode F M K t)
  out : ∀ t e, items[t]? = some e → st2.nodes[st.nodes.length + news.length + t]? = some ⟨fnName "output" t, .output, e.2.1.map (fun _ => e.1), e.2.1, [], e.2.2⟩
  inputs : st2.inputs = List.range' st.nodes.length news.length
  blocks : st2.inputs = (ins.map (prevs st2)).flatten
  forward : st2.forward = st.forward
  outputs : st2.outputs = List.range' (st.nodes.length + news.length) items.length

theorem source_self {rd : Redirect} {o : Nat} {p : Path} (h : ∀ e ∈ rd, e.1 ≠ (o, p)) : source rd o p = o := by
  unfold source
  rw [List.find?_eq_none.2 (fun e he => by simpa using h e he)]
  rfl

theorem sub_of_cut {st : State F M K} {ins outs : List Nat} {given : Nat → List T} (shape : Nat → Out Unit)
    {a : State F M K × Redirect} (h : Cut st given ins a) (hsep : ∀ o ∈ outs, ∀ i ∈ ins, ∀ n : TNode F M K, st.nodes[i]? = some n → o ∉ n.prev) :
    SubG st ins given (outs.flatMap (fun o => (outputItems (shape o)).map (fun e => (o, e))))
      (outs.foldl (fun st o => (outputItems (shape o)).foldl (newOutput a.2 o) st) a.1) (ins.map given).flatten := by
  rw [outputs_flat]
  set items := outs.flatMap (fun o => (outputItems (shape o)).map (fun e => (o, e))) with hitems
  obtain ⟨e1, e2, e3, e4, e5⟩ := newOutputs_eq a.2 items h.fresh
  set st2 := items.foldl (fun st e => newOutput a.2 e.1 st e.2) a.1
  have hget : ∀ j, j < a.1.nodes.length → st2.nodes[j]? = a.1.nodes[j]? := by
    intro j hj
    rw [e1, List.getElem?_append_left hj]
  have hl := h.len
  refine ⟨rfl, ?_, ?_, ?_, ?_, ?_, by rw [e4, h.inputs], ?_, by rw [e3, h.forward], by rw [e2, h.outputs, h.len]; rfl⟩
  · rw [e1, List.length_append, h.len]; simp
  · intro i hi hii
    rw [hget i (by omega), h.old i hi hii]
  · intro i hi
    obtain ⟨n, l, n1, n2, n3⟩ := h.cut i hi
    have hlt := (List.getElem?_eq_some_iff.1 n1).1
    exact ⟨n, l, n1, by rw [hget i (by omega), n2], n3⟩
  · intro t ht
    rw [hget _ (by omega), h.new t ht]
  · intro t e he
    rw [e1, ← h.len, List.getElem?_append_right (by omega), Nat.add_sub_cancel_left, List.getElem?_mapIdx, he]
    simp only [Option.map_some, outNode, Nat.zero_add, Option.some.injEq, TNode.mk.injEq, and_true, true_and]
    apply List.map_congr_left
    intro p _
    apply source_self
    rintro r hr hre
    obtain ⟨i, hi, n, hn, hz⟩ := h.rd r hr
    rw [hre] at hz
    have he' := List.mem_of_getElem? he
    rw [hitems, List.mem_flatMap] at he'
    obtain ⟨o, ho, hoe⟩ := he'
    obtain ⟨_, _, rfl⟩ := List.mem_map.1 hoe
    exact hsep o ho i hi n hn (List.of_mem_zip hz).1
  · rw [e4, h.blocks]
    congr 1
    apply List.map_congr_left
    intro i hi
    obtain ⟨n, l, n1, n2, n3⟩ := h.cut i hi
    have hlt := (List.getElem?_eq_some_iff.1 n1).1
    unfold prevs
    rw [hget i (by omega)]

section
variable {s : Sem F M K T} {st : State F M K} {vals0 ins0 rets0 : List (Out T)} {ins outs : List Nat} {given : Nat → List T} {vals : Nat → Out T}
  {items : List (Nat × (List Path × Bool))} {st2 : State F M K} {news : List T}

/-- What a node that an output depends on can be. -/
def Live (st : State F M K) (ins outs : List Nat) (st2 : State F M K) (news : List T) (i : Nat) : Prop :=
  (st.nodes.length + news.length ≤ i) ∨ (i < st.nodes.length ∧ Between st ins outs i) ∨
    (st.nodes.length ≤ i ∧ i < st.nodes.length + news.length ∧ ∃ r ∈ ins, Between st ins outs r ∧ i ∈ prevs st2 r)

theorem live_of_needed (h : SubG st ins given items st2 news) (hit : ∀ e ∈ items, e.1 ∈ outs)
    (hlt : ∀ i, Between st ins outs i → i < st.nodes.length) {i : Nat} (hn : Needed st2 i) : Live st ins outs st2 news i := by
  induction hn with
  | out ho =>
    rw [h.outputs, List.mem_range'_1] at ho
    exact Or.inl ho.1
  | @read i j n hn hj _ ih =>
    rcases ih with hi | ⟨hi, hb⟩ | ⟨h1, h2, -⟩
    · have hil := (List.getElem?_eq_some_iff.1 hn).1
      rw [h.len] at hil
      obtain ⟨t, rfl⟩ : ∃ t, i = st.nodes.length + news.length + t := ⟨i - (st.nodes.length + news.length), by omega⟩
      have ht : t < items.length := by omega
      rw [h.out t items[t] (List.getElem?_eq_getElem ht)] at hn
      cases hn
      obtain ⟨p, _, rfl⟩ := List.mem_map.1 hj
      have hb : Between st ins outs items[t].1 := .out (hit _ (List.getElem_mem ht))
      exact Or.inr (Or.inl ⟨hlt _ hb, hb⟩)
    · by_cases hii : i ∈ ins
      · obtain ⟨n', l, n1, n2, n3⟩ := h.cut i hii
        rw [n2] at hn
        cases hn
        obtain ⟨v, _, t, ht, hv⟩ := forall₂_mem n3 hj
        have := (List.getElem?_eq_some_iff.1 hv).1
        exact Or.inr (Or.inr ⟨by omega, by omega, i, hii, hb, by unfold prevs; rw [n2]; exact hj⟩)
      · rw [h.old i hi hii] at hn
        have hb' : Between st ins outs j := .read hn hii hj hb
        exact Or.inr (Or.inl ⟨hlt _ hb', hb'⟩)
    · obtain ⟨t, rfl⟩ : ∃ t, i = st.nodes.length + t := ⟨i - st.nodes.length, by omega⟩
      rw [h.new t (by omega)] at hn
      cases hn
      cases hj

theorem needed_of_between (h : SubG st ins given items st2 news) (hlt : ∀ i, Between st ins outs i → i < st.nodes.length)
    (hout : ∀ o ∈ outs, ∃ e ∈ items, e.1 = o ∧ e.2.1 ≠ []) {i : Nat} (hb : Between st ins outs i) : Needed st2 i := by
  induction hb with
  | @out i ho =>
    obtain ⟨e, he, rfl, hne⟩ := hout _ ho
    obtain ⟨t, ht⟩ := List.mem_iff_getElem?.1 he
    have htl := (List.getElem?_eq_some_iff.1 ht).1
    refine .read (h.out t e ht) ?_ (.out (by rw [h.outputs, List.mem_range'_1]; omega))
    obtain ⟨p, hp⟩ := List.exists_mem_of_ne_nil _ hne
    exact List.mem_map.2 ⟨p, hp, rfl⟩
  | @read i j n hn hi hj hb ih =>
    exact .read (by rw [h.old i (hlt i hb) hi]; exact hn) hj ih

end

theorem pairwise_mem {α : Type} {R : α → α → Prop} {l : List α} (h : l.Pairwise R) {a b : α} (ha : a ∈ l) (hb : b ∈ l) (hne : a ≠ b) : R a b ∨ R b a := by
  induction h with
  | nil => cases ha
  | @cons x l h1 _ ih =>
    rcases List.mem_cons.1 ha with ha' | ha' <;> rcases List.mem_cons.1 hb with hb' | hb'
    · exact absurd (ha'.trans hb'.symm) hne
    · rw [ha']; exact Or.inl (h1 b hb')
    · rw [hb']; exact Or.inr (h1 a ha')
    · exact ih ha' hb'

theorem blocks_filter {R : Nat → Out T → Prop} (P : Nat → Prop) [DecidablePred P] (q : Nat → Bool) (block : Nat → List Nat) (given : Nat → List T) (L : List Nat)
    (hR : ∀ i ∈ L, List.Forall₂ R (block i) ((given i).map .one)) (hq : ∀ i ∈ L, ∀ j ∈ block i, q j = decide (P i)) :
    List.Forall₂ R ((L.map block).flatten.filter q) (((L.filter (fun i => decide (P i))).map given).flatten.map .one) := by
  induction L with
  | nil => exact .nil
  | cons i L ih =>
    have ih' := ih (fun j hj => hR j (by simp [hj])) (fun j hj => hq j (by simp [hj]))
    rw [List.map_cons, List.flatten_cons, List.filter_append]
    by_cases hp : P i
    · rw [List.filter_cons_of_pos (by simpa using hp), List.map_cons, List.flatten_cons, List.map_append]
      rw [List.filter_eq_self.2 (fun j hj => by rw [hq i (by simp) j hj]; simpa using hp)]
      exact List.rel_append (hR i (by simp)) ih'
    · rw [List.filter_cons_of_neg (by simpa using hp)]
      rw [List.filter_eq_nil_iff.2 (fun j hj => by rw [hq i (by simp) j hj]; simpa using hp)]
      exact ih'

/-- The value of a result at its places, one output at a time. -/
theorem results_items (w : Out T) : List.Forall₂ (fun (e : List Path × Bool) r => ∃ as, List.Forall₂ (fun p a => w.get p = some a) e.1 as ∧
      ((e.2 = true ∧ r = .seq (as.map .leaf)) ∨ (e.2 = false ∧ ∃ a, as = [a] ∧ r = .one a))) (outputItems (form w)) (results w) := by
  cases w with
  | one a => exact .cons ⟨[a], .cons rfl .nil, Or.inr ⟨rfl, a, rfl, rfl⟩⟩ .nil
  | seq xs =>
    simp only [form, outputItems, results]
    rw [List.forall₂_iff_get]
    refine ⟨by simp, ?_⟩
    intro i h1 h2
    simp only [List.length_mapIdx, List.length_map] at h1
    simp only [List.get_eq_getElem, List.getElem_mapIdx, List.getElem_map]
    have hx : xs[i]? = some xs[i] := List.getElem?_eq_getElem h1
    cases hc : xs[i] with
    | leaf a =>
      rw [hc] at hx
      exact ⟨[a], .cons (by simp [Out.get, hx]) .nil, Or.inr ⟨rfl, a, rfl, rfl⟩⟩
    | tup as =>
      rw [hc] at hx
      refine ⟨as, ?_, Or.inl ⟨rfl, rfl⟩⟩
      rw [List.forall₂_iff_get]
      refine ⟨by simp, ?_⟩
      intro j h3 h4
      simp [Out.get, hx, h4]

section
variable {s : Sem F M K T} {st : State F M K} {vals0 ins0 rets0 : List (Out T)} {ins outs : List Nat} {given : Nat → List T} {vals : Nat → Out T}
  {items : List (Nat × (List Path × Bool))} {st2 : State F M K} {news : List T}

theorem sub_node (h : SubG st ins given items st2 news) {i : Nat} {n : TNode F M K} (hn : st.nodes[i]? = some n) :
    ∃ l, st2.nodes[i]? = some { n with prev := l } := by
  have hlt := (List.getElem?_eq_some_iff.1 hn).1
  by_cases hi : i ∈ ins
  · obtain ⟨n', l, n1, n2, n3⟩ := h.cut i hi
    rw [hn] at n1
    cases n1
    exact ⟨l, n2⟩
  · exact ⟨n.prev, by rw [h.old i hlt hi, hn]⟩

theorem sub_refOf (h : SubG st ins given items st2 news) {j : Nat} {n : TNode F M K} (hn : st.nodes[j]? = some n) (p : Path) :
    refOf st2.nodes j p = refOf st.nodes j p := by
  obtain ⟨l, hl⟩ := sub_node h hn
  unfold refOf
  rw [hl, hn]

theorem calls_kindOf {n : TNode F M K} {c : Callee F M} (h : n.kind = kindOf c) : calls n c := by
  cases c <;> exact h

theorem reads_of_forall₂ {nodes : List (TNode F M K)} {vs : List (Out T)} : ∀ {prev : List Nat} {idx : List Path} {args : List T}, prev.length = idx.length →
    List.Forall₂ (fun (r : Nat × Path) a => (∃ w, vs[r.1]? = some w ∧ w.get r.2 = some a) ∧ ∃ n : TNode F M K, nodes[r.1]? = some n ∧ isOut n.kind = false)
      (prev.zip idx) args → Reads nodes vs prev idx args := by
  intro prev
  induction prev with
  | nil =>
    intro idx args hl h
    cases idx with
    | nil => cases h; exact .nil
    | cons a l => simp at hl
  | cons j prev ih =>
    intro idx args hl h
    cases idx with
    | nil => simp at hl
    | cons p idx =>
      rw [List.zip_cons_cons] at h
      cases h with
      | cons h1 h2 =>
        obtain ⟨⟨w, w1, w2⟩, n, n1, n2⟩ := h1
        exact .cons n w n1 n2 w1 w2 (ih (by simpa using hl) h2)

open Classical in
theorem sub_final [DecidableEq M] [DecidableEq K] {nm : Naming F M K} (h : Traced s st vals0 ins0 rets0) (hs : SubG st ins given items st2 news)
    (hc : Computes s st ins outs given vals) (hb : ∀ i, Between st ins outs i → i ∈ st.forward)
    (hd : ∀ i ∈ ins, ∀ n : TNode F M K, st.nodes[i]? = some n → Direct nm n)
    (hnames : ∀ i ∈ st.forward, ∀ n : TNode F M K, st.nodes[i]? = some n → ∀ t, n.name ≠ fnName "input" t ∧ n.name ≠ fnName "output" t)
    (hitems : items = outs.flatMap (fun o => (outputItems (form (vals o))).map (fun e => (o, e)))) (hnz : ∀ o ∈ outs, ∃ p, ((vals o).get p).isSome) :
    Final nm s (eliminate st2) ((List.range st.nodes.length).map vals ++ news.map .one)
      (((ins.filter (fun i => decide (Between st ins outs i))).map given).flatten.map .one) (outs.flatMap (fun o => results (vals o))) := by
  set N := st.nodes.length with hN
  have hlt : ∀ i, Between st ins outs i → i < N := by
    intro i hi
    obtain ⟨n, hn, -⟩ := h.lists.fwd i (hb i hi)
    exact (List.getElem?_eq_some_iff.1 hn).1
  have hit : ∀ e ∈ items, e.1 ∈ outs := by
    intro e he
    rw [hitems, List.mem_flatMap] at he
    obtain ⟨o, ho, he⟩ := he
    obtain ⟨e', _, rfl⟩ := List.mem_map.1 he
    exact ho
  have hlive : ∀ {i}, i ∈ active st2 → Live st ins outs st2 news i := fun {i} hi => live_of_needed hs hit hlt ((mem_active i).1 hi)
  have hout : ∀ o ∈ outs, ∃ e ∈ items, e.1 = o ∧ e.2.1 ≠ [] := by
    intro o ho
    obtain ⟨p, hp⟩ := hnz o ho
    have hres := results_items (vals o)
    have : ∃ e ∈ outputItems (form (vals o)), e.1 ≠ [] := by
      cases hv : vals o with
      | one a => exact ⟨([[]], false), by simp [form, outputItems], by simp⟩
      | seq xs =>
        rw [hv] at hp
        rcases p with _ | ⟨i, _ | ⟨j, _ | ⟨k, p⟩⟩⟩
        · simp [Out.get] at hp
        · simp only [Out.get] at hp
          rcases hx : xs[i]? with _ | (a | as) <;> rw [hx] at hp <;> simp at hp
          refine ⟨([[i]], false), ?_, by simp⟩
          simp only [form, outputItems, List.mem_mapIdx]
          obtain ⟨hi, hx'⟩ := List.getElem?_eq_some_iff.1 hx
          exact ⟨i, by simpa using hi, by simp [hx']⟩
        · simp only [Out.get] at hp
          rcases hx : xs[i]? with _ | (a | as) <;> rw [hx] at hp <;> simp at hp
          refine ⟨((as.map (fun _ => ())).mapIdx (fun j _ => [i, j]), true), ?_, ?_⟩
          · simp only [form, outputItems, List.mem_mapIdx]
            obtain ⟨hi, hx'⟩ := List.getElem?_eq_some_iff.1 hx
            exact ⟨i, by simpa using hi, by simp [hx']⟩
          · cases as with
            | nil => simp at hp
            | cons a as => simp
        · simp [Out.get] at hp
    obtain ⟨e, he, hne⟩ := this
    exact ⟨(o, e), by rw [hitems, List.mem_flatMap]; exact ⟨o, ho, List.mem_map.2 ⟨e, he, rfl⟩⟩, rfl, hne⟩
  obtain ⟨a1, a2, a3⟩ := active_spec (st := st2)
  have hact : ∀ {i}, Between st ins outs i → i ∈ active st2 := fun {i} hi => (mem_active i).2 (needed_of_between hs hlt hout hi)
  have hfwd : ∀ {i}, i ∈ (eliminate st2).forward → i ∈ st.forward ∧ Between st ins outs i := by
    intro i hi
    obtain ⟨h1, h2⟩ := List.mem_filter.1 hi
    rw [hs.forward] at h1
    obtain ⟨n, hn, -⟩ := h.lists.fwd i h1
    have hl := (List.getElem?_eq_some_iff.1 hn).1
    rcases hlive (by simpa using h2) with h3 | ⟨_, h3⟩ | ⟨h3, _⟩
    · omega
    · exact ⟨h1, h3⟩
    · omega
  have hinp : ∀ {i}, i ∈ (eliminate st2).inputs → ∃ t, t < news.length ∧ i = N + t := by
    intro i hi
    have h1 := (List.mem_filter.1 hi).1
    rw [hs.inputs, List.mem_range'_1] at h1
    exact ⟨i - N, by omega, by omega⟩
  have houtp : ∀ {i}, i ∈ st2.outputs → ∃ t e, items[t]? = some e ∧ i = N + news.length + t := by
    intro i hi
    rw [hs.outputs, List.mem_range'_1] at hi
    exact ⟨i - (N + news.length), items[i - (N + news.length)]'(by omega), List.getElem?_eq_getElem _, by omega⟩
  have hnoconst : ∀ {j}, j ∈ active st2 → isConstAt st2 j = false := by
    intro j hj
    unfold isConstAt
    rcases hlive hj with h1 | ⟨h1, h2⟩ | ⟨h1, h2, -⟩
    · by_cases hjl : j < st2.nodes.length
      · rw [hs.len] at hjl
        obtain ⟨t, rfl⟩ : ∃ t, j = N + news.length + t := ⟨j - (N + news.length), by omega⟩
        rw [hs.out t (items[t]'(by omega)) (List.getElem?_eq_getElem (by omega))]
        rfl
      · rw [List.getElem?_eq_none (by omega)]; rfl
    · obtain ⟨n, hn, hk⟩ := h.lists.fwd j (hb j h2)
      obtain ⟨l, hl⟩ := sub_node hs hn
      rw [hl]
      rcases hk with ⟨f, hk⟩ | ⟨m, hk⟩ <;> simp [hk, isConst]
    · obtain ⟨t, rfl⟩ : ∃ t, j = N + t := ⟨j - N, by omega⟩
      rw [hs.new t (by omega)]
      rfl
  have hconsts : (eliminate st2).consts = [] := by
    simp only [eliminate]
    rw [List.filter_eq_nil_iff.2]
    · rfl
    · intro j hj
      obtain ⟨l, hl, hj⟩ := List.mem_flatten.1 hj
      obtain ⟨i, hi, rfl⟩ := List.mem_map.1 hl
      have hia := (List.mem_filter.1 hi).2
      rw [hnoconst (a2 i (by simpa using hia) j hj)]
      simp
  have hvold : ∀ {j}, j < N → ((List.range N).map vals ++ news.map .one)[j]? = some (vals j) := by
    intro j hj
    rw [List.getElem?_append_left (by simpa using hj)]
    simp [hj]
  have hvnew : ∀ {t : Nat} {v : T}, news[t]? = some v → ((List.range N).map vals ++ news.map .one)[N + t]? = some (.one v) := by
    intro t v hv
    rw [List.getElem?_append_right (by simp)]
    simp [hv]
  have hreads_in : ∀ i ∈ ins, ∀ (n : TNode F M K) (l : List Nat), st.nodes[i]? = some n → st2.nodes[i]? = some { n with prev := l } → n.prev.length = n.idx.length →
      Reads st2.nodes ((List.range N).map vals ++ news.map .one) l n.idx (given i) := by
    intro i hi n l hn hl hlen
    obtain ⟨n', l', n1, n2, n3⟩ := hs.cut i hi
    rw [hn] at n1
    cases n1
    rw [n2] at hl
    simp only [Option.some.injEq, TNode.mk.injEq, true_and, and_true] at hl
    subst hl
    have hidx := (hd i hi n hn).1
    have hll : l'.length = n.idx.length := by rw [n3.length_eq, hc.arity i hi n hn, hlen]
    refine reads_of_forall₂ hll ?_
    rw [List.forall₂_iff_get] at n3 ⊢
    refine ⟨by simp [n3.1, hll.symm.trans n3.1], ?_⟩
    intro t h1 h2
    simp only [List.length_zip] at h1
    obtain ⟨t', ht', hv'⟩ := n3.2 t (by omega) h2
    have hp : n.idx[t]'(by omega) = [] := hidx _ (List.getElem_mem _)
    simp only [List.get_eq_getElem, List.getElem_zip] at ht' hv' ⊢
    rw [ht', hp]
    refine ⟨⟨_, hvnew hv', rfl⟩, _, hs.new t' (List.getElem?_eq_some_iff.1 hv').1, rfl⟩
  refine ⟨?_, ?_, by rw [hconsts]; exact List.nodup_nil, ?_, ?_, by rw [hconsts]; simp, ?_, ?_, ?_⟩
  · have key : ∀ i ∈ order (eliminate st2) ++ (eliminate st2).consts, ∀ n : TNode F M K, st2.nodes[i]? = some n →
        (∃ t, i = N + t ∧ n.name = fnName "input" t) ∨ (∃ t, i = N + news.length + t ∧ n.name = fnName "output" t) ∨
          (∃ m : TNode F M K, st.nodes[i]? = some m ∧ m.name = n.name ∧ ∀ t, n.name ≠ fnName "input" t ∧ n.name ≠ fnName "output" t) := by
      intro i hi n hn
      rw [hconsts, List.append_nil] at hi
      simp only [order, List.mem_append] at hi
      rcases hi with (hi | hi) | hi
      · obtain ⟨t, ht, rfl⟩ := hinp hi
        rw [hs.new t ht] at hn
        cases hn
        exact Or.inl ⟨t, rfl, rfl⟩
      · obtain ⟨h1, -⟩ := hfwd hi
        obtain ⟨m, hm, -⟩ := h.lists.fwd i h1
        obtain ⟨l, hl⟩ := sub_node hs hm
        rw [hl] at hn
        cases hn
        exact Or.inr (Or.inr ⟨m, hm, rfl, hnames i h1 m hm⟩)
      · obtain ⟨t, e, he, rfl⟩ := houtp hi
        rw [hs.out t e he] at hn
        cases hn
        exact Or.inr (Or.inl ⟨t, rfl, rfl⟩)
    intro i hi j hj n m hn hm hnm
    rcases key i hi n hn with ⟨t, rfl, e1⟩ | ⟨t, rfl, e1⟩ | ⟨n0, n1, n2, n3⟩ <;> rcases key j hj m hm with ⟨t', rfl, e2⟩ | ⟨t', rfl, e2⟩ | ⟨m0, m1, m2, m3⟩
    · rw [e1, e2] at hnm
      rw [(fnName_inj hnm).2]
    · rw [e1, e2] at hnm
      have := (fnName_inj hnm).1
      simp at this
    · exact absurd (hnm.symm.trans e1) (m3 t).1
    · rw [e1, e2] at hnm
      have := (fnName_inj hnm).1
      simp at this
    · rw [e1, e2] at hnm
      rw [(fnName_inj hnm).2]
    · exact absurd (hnm.symm.trans e1) (m3 t).2
    · exact absurd (hnm.trans e2) (n3 t').1
    · exact absurd (hnm.trans e2) (n3 t').2
    · exact h.uniq i j n0 m0 n1 m1 (by rw [n2, m2, hnm])
  · have hso := h.lists.sorted
    simp only [order] at hso
    have hf : (eliminate st2).forward.Nodup := by
      have : st.forward.Nodup := ((List.pairwise_append.1 (List.pairwise_append.1 hso).1).2.1).imp Nat.ne_of_lt
      rw [← hs.forward] at this
      exact this.filter _
    have hi : (eliminate st2).inputs.Nodup := by
      have : st2.inputs.Nodup := by rw [hs.inputs]; exact List.nodup_range'
      exact this.filter _
    have ho : st2.outputs.Nodup := by rw [hs.outputs]; exact List.nodup_range'
    simp only [order]
    rw [List.nodup_append, List.nodup_append]
    refine ⟨⟨hi, hf, ?_⟩, ho, ?_⟩
    · rintro a ha b hb' rfl
      obtain ⟨t, _, rfl⟩ := hinp ha
      have := hlt _ (hfwd hb').2
      omega
    · rintro a ha b hb' rfl
      obtain ⟨t', e, he, rfl⟩ := houtp hb'
      rcases List.mem_append.1 ha with ha | ha
      · obtain ⟨t, _, ht⟩ := hinp ha
        omega
      · have := hlt _ (hfwd ha).2
        omega
  · intro i hi
    obtain ⟨t, ht, rfl⟩ := hinp hi
    exact ⟨_, hs.new t ht, rfl⟩
  · intro i hi
    obtain ⟨h1, h2⟩ := hfwd hi
    obtain ⟨n, c, args0, n1, n2, n3, n4, n5, n6⟩ := h.fwd (nm := nm) h1
    have hlen := n3.length
    have hlen' : n.prev.length = n.idx.length := hlen.1.trans hlen.2.symm
    have hNi := hlt i h2
    by_cases hii : i ∈ ins
    · obtain ⟨l, hl⟩ := sub_node hs n1
      have hrd := hreads_in i hii n l n1 hl hlen'
      refine ⟨_, c, given i, hl, n2, hrd, ?_, ?_⟩
      · rw [hvold hNi, hc.input i hii h2 n c n1 (calls_kindOf n2)]
      · intro f hf
        subst hf
        obtain ⟨d1, d2⟩ := (hd i hii n n1).2 f n2
        have hll : l.length = 1 := by rw [hrd.length.1, hc.arity i hii n n1, d2]
        have hil : n.idx.length = 1 := by omega
        obtain ⟨j, rfl⟩ := List.length_eq_one_iff.1 hll
        obtain ⟨p, hp⟩ := List.length_eq_one_iff.1 hil
        have hnm : n.names = List.zipWith (refOf st.nodes) n.prev n.idx := by
          have hno := h.node i n n1
          unfold NodeOk at hno
          rw [show n.kind = .func f from n2] at hno
          obtain ⟨_, _, _, hno, _⟩ := hno
          exact hno
        have hnl : n.names.length = 1 := by rw [hnm]; simp [d2, hil]
        obtain ⟨a, ha⟩ := List.length_eq_one_iff.1 hnl
        simp only [funcArgs, ha, d1, if_true, hp, List.zipWith_cons_cons, List.zipWith_nil_left]
        simp only [prevName, List.getElem?_cons_zero, refOf]
        cases hx : st2.nodes[j]? <;> simp [eliminate, hx]
    · have hl : st2.nodes[i]? = some n := by rw [hs.old i hNi hii, n1]
      obtain ⟨args, r1, r2⟩ := hc.inner i hii h2 n c n1 (calls_kindOf n2)
      refine ⟨n, c, args, hl, n2, ?_, ?_, ?_⟩
      · refine reads_of_forall₂ hlen' ?_
        rw [List.forall₂_iff_get] at r1 ⊢
        refine ⟨r1.1, fun t t1 t2 => ?_⟩
        have hr := r1.2 t t1 t2
        have hmem : ((n.prev.zip n.idx).get ⟨t, t1⟩).1 ∈ n.prev := (List.of_mem_zip (List.get_mem (n.prev.zip n.idx) ⟨t, t1⟩)).1
        have hbj : Between st ins outs ((n.prev.zip n.idx).get ⟨t, t1⟩).1 := .read n1 hii hmem h2
        refine ⟨⟨_, hvold (hlt _ hbj), hr⟩, ?_⟩
        obtain ⟨m, hm, hk⟩ := h.lists.fwd _ (hb _ hbj)
        obtain ⟨l, hl'⟩ := sub_node hs hm
        refine ⟨_, hl', ?_⟩
        rcases hk with ⟨f, hk⟩ | ⟨m', hk⟩ <;> simp [hk, isOut]
      · rw [hvold hNi, r2]
      · intro f hf
        subst hf
        apply funcArgs_eq
        have hno := h.node i n n1
        unfold NodeOk at hno
        rw [show n.kind = .func f from n2] at hno
        obtain ⟨_, hra, _, hno, _⟩ := hno
        rw [hno]
        have : ∀ (ps : List Nat) (ix : List Path), (∀ j ∈ ps, ∃ m : TNode F M K, st.nodes[j]? = some m) →
            List.zipWith (refOf st.nodes) ps ix = List.zipWith (refOf st2.nodes) ps ix := by
          intro ps
          induction ps with
          | nil => intro ix _; simp
          | cons j ps ih =>
            intro ix hps
            cases ix with
            | nil => simp
            | cons p ix =>
              obtain ⟨m, hm⟩ := hps j (by simp)
              rw [List.zipWith_cons_cons, List.zipWith_cons_cons, sub_refOf hs hm, ih ix (fun j' hj' => hps j' (by simp [hj']))]
        exact this _ _ (fun j hj => by obtain ⟨m, hm, -⟩ := hra.mem j hj; exact ⟨m, hm⟩)
  · intro A i B hord hii n hn j hj
    change st2.nodes[i]? = some n at hn
    right
    have hio : i ∈ (eliminate st2).forward ∨ i ∈ st2.outputs := by
      have : i ∈ order (eliminate st2) := by rw [hord]; simp
      simp only [order, List.mem_append] at this
      rcases this with (h1 | h1) | h1
      · exact absurd h1 hii
      · exact Or.inl h1
      · exact Or.inr h1
    have hnotout : ∀ j, j < N + news.length → j ∉ st2.outputs := by
      intro j hj ho
      obtain ⟨t, e, _, rfl⟩ := houtp ho
      omega
    have hina : ∀ (X Y : List Nat), order (eliminate st2) = X ++ Y → j ∈ X → i ∈ Y → (order (eliminate st2)).Nodup → j ∈ A := by
      intro X Y hxy hjx hiy hnd
      rw [hord] at hxy hnd
      have hnA : i ∉ A := fun hiA => (List.nodup_append.1 hnd).2.2 i hiA i (by simp) rfl
      rcases List.append_eq_append_iff.1 hxy with ⟨as, e1, e2⟩ | ⟨as, e1, e2⟩
      · cases as with
        | nil => simp at e1; rw [← e1]; exact hjx
        | cons x as =>
          exfalso
          rw [List.cons_append, List.cons.injEq] at e2
          have hx : i ∈ X := by rw [e1, e2.1]; simp
          rw [hxy] at hnd
          exact (List.nodup_append.1 hnd).2.2 i hx i hiy rfl
      · rw [e1]; simp [hjx]
    have hnodup : (order (eliminate st2)).Nodup := by
      have hso := h.lists.sorted
      simp only [order] at hso
      have hf : (eliminate st2).forward.Nodup := by
        have : st.forward.Nodup := ((List.pairwise_append.1 (List.pairwise_append.1 hso).1).2.1).imp Nat.ne_of_lt
        rw [← hs.forward] at this
        exact this.filter _
      have hi : (eliminate st2).inputs.Nodup := by
        have : st2.inputs.Nodup := by rw [hs.inputs]; exact List.nodup_range'
        exact this.filter _
      have ho : st2.outputs.Nodup := by rw [hs.outputs]; exact List.nodup_range'
      simp only [order]
      rw [List.nodup_append, List.nodup_append]
      refine ⟨⟨hi, hf, ?_⟩, ho, ?_⟩
      · rintro a ha b hb' rfl
        obtain ⟨t, _, rfl⟩ := hinp ha
        have := hlt _ (hfwd hb').2
        omega
      · rintro a ha b hb' rfl
        obtain ⟨t', e, he, rfl⟩ := houtp hb'
        rcases List.mem_append.1 ha with ha | ha
        · obtain ⟨t, _, ht⟩ := hinp ha
          omega
        · have := hlt _ (hfwd ha).2
          omega
    rcases hio with hio | hio
    · obtain ⟨h1, h2⟩ := hfwd hio
      by_cases hins : i ∈ ins
      · obtain ⟨n', l, n1, n2, n3⟩ := hs.cut i hins
        rw [n2] at hn
        cases hn
        obtain ⟨v, _, t, ht, hv⟩ := forall₂_mem n3 hj
        have htl := (List.getElem?_eq_some_iff.1 hv).1
        refine ⟨hina (eliminate st2).inputs ((eliminate st2).forward ++ st2.outputs) (by simp [order, eliminate]) ?_ (by simp [hio]) hnodup, hnotout j (by omega)⟩
        refine List.mem_filter.2 ⟨by rw [hs.inputs, List.mem_range'_1]; omega, ?_⟩
        simpa using a2 i (hact h2) j (by unfold prevs; rw [n2]; exact hj)
      · rw [hs.old i (hlt i h2) hins] at hn
        have hbj : Between st ins outs j := .read hn hins hj h2
        have hjf := hb j hbj
        have hji : j < i := by
          rcases h.prev hn (Or.inl h1) j hj with hcj | ⟨-, hji⟩
          · obtain ⟨m, k, m1, m2⟩ := h.lists.con j hcj
            obtain ⟨m', m3, m4⟩ := h.lists.fwd j hjf
            rw [m1] at m3
            cases m3
            rw [m2] at m4
            rcases m4 with ⟨_, m4⟩ | ⟨_, m4⟩ <;> cases m4
          · exact hji
        have hNj := hlt j hbj
        refine ⟨?_, hnotout j (by omega)⟩
        have hjf' : j ∈ (eliminate st2).forward := List.mem_filter.2 ⟨by rw [hs.forward]; exact hjf, by simpa using hact hbj⟩
        obtain ⟨X, Y, hXY⟩ := List.append_of_mem hjf'
        have hso := h.lists.sorted
        simp only [order] at hso
        have hsf : (eliminate st2).forward.Pairwise (· < ·) := by
          have := (List.pairwise_append.1 (List.pairwise_append.1 hso).1).2.1
          rw [← hs.forward] at this
          exact this.filter _
        have hiY : i ∈ Y := by
          rw [hXY] at hsf hio
          rcases List.mem_append.1 hio with hx | hy
          · have := (List.pairwise_append.1 hsf).2.2 i hx j (by simp)
            omega
          · rcases List.mem_cons.1 hy with rfl | hy
            · omega
            · exact hy
        exact hina ((eliminate st2).inputs ++ X ++ [j]) (Y ++ st2.outputs) (by simp [order, hXY]; rfl) (by simp) (by simp [hiY]) hnodup
    · obtain ⟨t, e, he, rfl⟩ := houtp hio
      rw [hs.out t e he] at hn
      cases hn
      obtain ⟨p, _, rfl⟩ := List.mem_map.1 hj
      have hbj : Between st ins outs e.1 := .out (hit e (List.mem_of_getElem? he))
      have hNj := hlt _ hbj
      refine ⟨hina ((eliminate st2).inputs ++ (eliminate st2).forward) st2.outputs (by simp [order, eliminate]) ?_ hio hnodup, hnotout _ (by omega)⟩
      exact List.mem_append_right _ (List.mem_filter.2 ⟨by rw [hs.forward]; exact hb _ hbj, by simpa using hact hbj⟩)
  · have hnd : st2.inputs.Nodup := by rw [hs.inputs]; exact List.nodup_range'
    show List.Forall₂ _ (st2.inputs.filter _) _
    rw [hs.blocks]
    refine blocks_filter (Between st ins outs) _ (prevs st2) given ins ?_ ?_
    · intro i hi
      obtain ⟨n, l, n1, n2, n3⟩ := hs.cut i hi
      rw [List.forall₂_map_right_iff]
      have : prevs st2 i = l := by unfold prevs; rw [n2]; rfl
      rw [this]
      refine n3.imp ?_
      rintro j v ⟨t, rfl, hv⟩
      exact hvnew hv
    · intro i hi j hj
      rw [decide_eq_decide]
      constructor
      · intro hja
        obtain ⟨n, l, n1, n2, n3⟩ := hs.cut i hi
        have hpl : prevs st2 i = l := by unfold prevs; rw [n2]; rfl
        rw [hpl] at hj
        obtain ⟨v, _, t, ht, hv⟩ := forall₂_mem n3 hj
        have htl := (List.getElem?_eq_some_iff.1 hv).1
        rcases hlive hja with h1 | ⟨h1, _⟩ | ⟨_, _, r, hr, hbr, hjr⟩
        · omega
        · omega
        · rw [hs.blocks, List.nodup_flatten, List.pairwise_map] at hnd
          by_contra hnb
          have hne : i ≠ r := by rintro rfl; exact hnb hbr
          rcases pairwise_mem hnd.2 hi hr hne with hdis | hdis
          · exact hdis (by rw [hpl]; exact hj) hjr
          · exact hdis hjr (by rw [hpl]; exact hj)
      · intro hbi
        exact a2 i (hact hbi) j hj
  · show List.Forall₂ _ st2.outputs _
    have hres : List.Forall₂ (fun (e : Nat × (List Path × Bool)) r => e.1 ∈ outs ∧ ∃ as, List.Forall₂ (fun p a => (vals e.1).get p = some a) e.2.1 as ∧
        ((e.2.2 = true ∧ r = .seq (as.map .leaf)) ∨ (e.2.2 = false ∧ ∃ a, as = [a] ∧ r = .one a))) items (outs.flatMap (fun o => results (vals o))) := by
      rw [hitems]
      have : ∀ os : List Nat, (∀ o ∈ os, o ∈ outs) → List.Forall₂ (fun (e : Nat × (List Path × Bool)) r => e.1 ∈ outs ∧
          ∃ as, List.Forall₂ (fun p a => (vals e.1).get p = some a) e.2.1 as ∧
          ((e.2.2 = true ∧ r = .seq (as.map .leaf)) ∨ (e.2.2 = false ∧ ∃ a, as = [a] ∧ r = .one a)))
          (os.flatMap (fun o => (outputItems (form (vals o))).map (fun e => (o, e)))) (os.flatMap (fun o => results (vals o))) := by
        intro os
        induction os with
        | nil => intro _; exact .nil
        | cons o os ih =>
          intro hos
          rw [List.flatMap_cons, List.flatMap_cons]
          refine List.rel_append ?_ (ih (fun o' ho' => hos o' (by simp [ho'])))
          rw [List.forall₂_map_left_iff]
          exact (results_items (vals o)).imp (fun e r he => ⟨hos o (by simp), he⟩)
      exact this outs (fun o ho => ho)
    rw [hs.outputs]
    rw [List.forall₂_iff_get] at hres ⊢
    refine ⟨by rw [List.length_range']; exact hres.1, fun t h1 h2 => ?_⟩
    rw [List.length_range'] at h1
    obtain ⟨r1, as, r2, r3⟩ := hres.2 t h1 h2
    simp only [List.get_eq_getElem, List.getElem_range'] at r1 r2 r3 ⊢
    refine ⟨_, as, by rw [Nat.one_mul]; exact hs.out t items[t] (List.getElem?_eq_getElem h1), rfl, ?_, r3⟩
    have hbj : Between st ins outs items[t].1 := .out r1
    refine reads_of_forall₂ (by simp) ?_
    dsimp only
    have hz : ∀ (ps : List Path) (as : List T), List.Forall₂ (fun p a => (vals items[t].1).get p = some a) ps as →
        List.Forall₂ (fun (r : Nat × Path) a => (∃ w, ((List.range N).map vals ++ news.map .one)[r.1]? = some w ∧ w.get r.2 = some a) ∧
          ∃ n : TNode F M K, st2.nodes[r.1]? = some n ∧ isOut n.kind = false) ((ps.map (fun _ => items[t].1)).zip ps) as := by
      intro ps as hps
      induction hps with
      | nil => exact .nil
      | @cons p a ps as hp _ ih =>
        refine .cons ⟨⟨_, hvold (hlt _ hbj), hp⟩, ?_⟩ ih
        obtain ⟨m, hm, hk⟩ := h.lists.fwd _ (hb _ hbj)
        obtain ⟨l, hl'⟩ := sub_node hs hm
        refine ⟨_, hl', ?_⟩
        rcases hk with ⟨f, hk⟩ | ⟨m', hk⟩ <;> simp [hk, isOut]
    exact hz _ _ r2

end

end Verif.Lemmas.Tracer
