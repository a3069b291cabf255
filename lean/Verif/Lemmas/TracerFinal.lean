import Verif.Lemmas.TracerGen

/-! A finished trace meets what the generated code relies on (used by C81, C83). -/

namespace Verif.Lemmas.Tracer
open Verif.Spec.Trace Verif.Model.Tracer

variable {F M K T : Type} [DecidableEq M] [DecidableEq K]

/-- A finished trace. -/
structure Traced (s : Sem F M K T) (st : State F M K) (vals ins rets : List (Out T)) : Prop where
  uniq : ∀ (i j : Nat) (n m : TNode F M K), st.nodes[i]? = some n → st.nodes[j]? = some m → n.name = m.name → i = j
  node : ∀ i n, st.nodes[i]? = some n → NodeOk s st.nodes vals i n
  lists : Lists st
  ins : List.Forall₂ (fun i v => vals[i]? = some v) st.inputs ins
  outs : List.Forall₂ (OutNode st vals) st.outputs rets

variable {nm : Naming F M K} {s : Sem F M K T} {st : State F M K} {vals ins rets : List (Out T)}

theorem forall₂_mem {α β : Type} {R : α → β → Prop} {as : List α} {bs : List β} (h : List.Forall₂ R as bs) {a : α} (ha : a ∈ as) : ∃ b ∈ bs, R a b := by
  induction h with
  | nil => cases ha
  | @cons x y as bs h1 _ ih =>
    rcases List.mem_cons.1 ha with rfl | ha
    · exact ⟨y, by simp, h1⟩
    · obtain ⟨b, hb, hr⟩ := ih ha
      exact ⟨b, by simp [hb], hr⟩

omit [DecidableEq M] [DecidableEq K] in
theorem Reads.mem {nodes : List (TNode F M K)} {prev : List Nat} {idx : List Path} {args : List T} (hr : Reads nodes vals prev idx args) :
    ∀ j ∈ prev, ∃ n : TNode F M K, nodes[j]? = some n ∧ isOut n.kind = false := by
  induction hr with
  | nil => simp
  | cons n w h1 h2 h3 h4 _ ih =>
    intro j hj
    rcases List.mem_cons.1 hj with rfl | hj
    · exact ⟨n, h1, h2⟩
    · exact ih j hj

omit [DecidableEq M] [DecidableEq K] in
theorem funcArgs_eq {n : TNode F M K} {f : F} (h : n.names = List.zipWith (refOf st.nodes) n.prev n.idx) :
    funcArgs nm st n f = List.zipWith (refOf st.nodes) n.prev n.idx := by
  rw [← h]
  unfold funcArgs
  cases hnames : n.names with
  | nil => rfl
  | cons a as =>
    dsimp only
    have hp : prevName st n 0 = a := by
      rw [h] at hnames
      cases hprev : n.prev with
      | nil => rw [hprev] at hnames; simp at hnames
      | cons j prev =>
        cases hidx : n.idx with
        | nil => rw [hidx] at hnames; simp at hnames
        | cons p idx =>
          rw [hprev, hidx] at hnames
          simp only [List.zipWith_cons_cons, List.cons.injEq] at hnames
          rw [← hnames.1]
          simp only [prevName, hprev, hidx, refOf, List.getElem?_cons_zero]
          cases st.nodes[j]? <;> rfl
    rw [hp]
    simp

/-- A function or module node of a trace. -/
def FwdNode (nm : Naming F M K) (s : Sem F M K T) (st : State F M K) (vals : List (Out T)) (i : Nat) : Prop :=
  ∃ (n : TNode F M K) (c : Callee F M) (args : List T), st.nodes[i]? = some n ∧ n.kind = kindOf c ∧
    Reads st.nodes vals n.prev n.idx args ∧ vals[i]? = some (s.call c args) ∧
    (∀ f, c = .func f → funcArgs nm st n f = List.zipWith (refOf st.nodes) n.prev n.idx) ∧ ∀ j ∈ n.prev, j < i

omit [DecidableEq M] [DecidableEq K] in
theorem Traced.fwd (h : Traced s st vals ins rets) {i : Nat} (hi : i ∈ st.forward) : FwdNode nm s st vals i := by
  obtain ⟨n, hn, hk⟩ := h.lists.fwd i hi
  have hno := h.node i n hn
  unfold NodeOk at hno
  rcases hk with ⟨f, hk⟩ | ⟨m, hk⟩
  · rw [hk] at hno
    obtain ⟨args, r1, r2, r3, r4⟩ := hno
    exact ⟨n, .func f, args, hn, hk, r1, r2, fun f' _ => funcArgs_eq r3, r4⟩
  · rw [hk] at hno
    obtain ⟨args, r1, r2, r4⟩ := hno
    exact ⟨n, .module m, args, hn, hk, r1, r2, ⟨fun f' hf => (by cases hf), r4⟩⟩

omit [DecidableEq M] [DecidableEq K] in
/-- What a call or an output reads is an input, an earlier call or a constant. -/
theorem Traced.prev (h : Traced s st vals ins rets) {i : Nat} {n : TNode F M K} (hn : st.nodes[i]? = some n) (hi : i ∈ st.forward ∨ i ∈ st.outputs) :
    ∀ j ∈ n.prev, j ∈ st.consts ∨ ((j ∈ st.inputs ∨ j ∈ st.forward) ∧ j < i) := by
  intro j hj
  have key : (∃ m : TNode F M K, st.nodes[j]? = some m ∧ isOut m.kind = false) ∧ (i ∈ st.forward → j < i) := by
    rcases hi with hi | hi
    · obtain ⟨n', c, args, h1, h2, h3, h4, h5, h6⟩ := h.fwd (nm := ⟨fun _ => "", fun _ => false, fun _ => "", fun _ => none⟩) hi
      rw [hn] at h1
      cases h1
      exact ⟨h3.mem j hj, fun _ => h6 j hj⟩
    · obtain ⟨r, _, hr⟩ := forall₂_mem h.outs hi
      obtain ⟨n', as, h1, h2, h3, h4⟩ := hr
      rw [hn] at h1
      cases h1
      refine ⟨h3.mem j hj, fun hf => ?_⟩
      obtain ⟨n', hn', hk⟩ := h.lists.fwd i hf
      rw [hn] at hn'
      cases hn'
      rw [h2] at hk
      rcases hk with ⟨_, hk⟩ | ⟨_, hk⟩ <;> cases hk
  obtain ⟨⟨m, hm, ho⟩, hlt⟩ := key
  have hs := h.lists.sorted
  simp only [order] at hs
  have hlt' : j ∈ st.inputs ∨ j ∈ st.forward → j < i := by
    intro hj'
    rcases hi with hi | hi
    · exact hlt hi
    · exact (List.pairwise_append.1 hs).2.2 j (by simpa using hj') i hi
  have hp := h.lists.cls j m hm
  cases hk : m.kind <;> rw [hk] at hp ho
  · exact Or.inr ⟨Or.inl hp, hlt' (Or.inl hp)⟩
  · cases ho
  · exact Or.inl hp
  · exact Or.inr ⟨Or.inr hp, hlt' (Or.inr hp)⟩
  · exact Or.inr ⟨Or.inr hp, hlt' (Or.inr hp)⟩

omit [DecidableEq M] [DecidableEq K] in
theorem Traced.final (h : Traced s st vals ins rets) : Final nm s st vals ins rets := by
  refine ⟨fun i _ j _ n m => h.uniq i j n m, h.lists.sorted.imp Nat.ne_of_lt, h.lists.csorted.imp Nat.ne_of_lt, h.lists.inp, ?_, ?_, ?_, h.ins, h.outs⟩
  · intro i hi
    obtain ⟨n, c, args, h1, h2, h3, h4, h5, h6⟩ := h.fwd (nm := nm) hi
    exact ⟨n, c, args, h1, h2, h3, h4, h5⟩
  · intro i hi
    obtain ⟨n, k, hn, hk⟩ := h.lists.con i hi
    have hno := h.node i n hn
    unfold NodeOk at hno
    rw [hk] at hno
    exact ⟨n, k, hn, hk, hno.1⟩
  · intro A i B hord hi n hn j hj
    have hs := h.lists.sorted
    have hio : i ∈ st.forward ∨ i ∈ st.outputs := by
      have : i ∈ order st := by rw [hord]; simp
      simp only [order, List.mem_append] at this
      tauto
    rcases h.prev hn hio j hj with hc | ⟨hj', hlt⟩
    · exact Or.inl hc
    · right
      constructor
      · have : j ∈ order st := by simp only [order, List.mem_append]; tauto
        rw [hord] at this hs
        rcases List.mem_append.1 this with ha | hb
        · exact ha
        · exfalso
          rcases List.mem_cons.1 hb with rfl | hb
          · omega
          · have := (List.pairwise_cons.1 (List.pairwise_append.1 hs).2.1).1 j hb
            omega
      · intro ho
        simp only [order] at hs
        have := (List.pairwise_append.1 hs).2.2 j (by simpa using hj') j ho
        omega

end Verif.Lemmas.Tracer
