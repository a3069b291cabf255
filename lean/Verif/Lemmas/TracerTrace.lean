import Mathlib.Data.List.Induction
import Mathlib.Data.List.Forall2
import Verif.Lemmas.TracerStep

/-! Inputs and outputs of a trace (used by C81). -/

namespace Verif.Lemmas.Tracer
open Verif.Spec.Trace Verif.Model.Tracer

variable {F M K T : Type} [DecidableEq K]

theorem init_inv (U : String → Prop) (s : Sem F M K T) : Inv U s (init F M K) [] [] :=
  ⟨⟨⟨by simp [init], by simp [init], by simp [init]⟩, rfl, by simp [init], by simp [init]⟩, ⟨by simp [init], by simp [init], by simp [init]⟩,
    ⟨by simp [init, order], by simp [init], by simp [init, order], by simp [init], by simp [init], by simp [init], by simp [init]⟩⟩

theorem addInput_inv {U : String → Prop} (hU : NamesOk U) {s : Sem F M K T} {st : State F M K} {vals defs : List (Out T)} (h : Inv U s st vals defs)
    (hfwd : st.forward = []) (hout : st.outputs = []) (v : T) :
    Inv U s (addInput st (.one (.tmp defs.length []))) (vals ++ [.one v]) (defs ++ [.one v]) ∧
      (addInput st (.one (.tmp defs.length []))).forward = [] ∧ (addInput st (.one (.tmp defs.length []))).outputs = [] ∧
      (addInput st (.one (.tmp defs.length []))).inputs = st.inputs ++ [st.nodes.length] ∧
      (∀ o, (st.preNode o).isSome → ((addInput st (.one (.tmp defs.length []))).preNode o).isSome) ∧
      ((addInput st (.one (.tmp defs.length []))).preNode (.tmp defs.length [])).isSome := by
  have hb := bump_Inv h "input"
  obtain ⟨bf1, bf2, bf3, bf4⟩ := bump_frame st "input"
  have hbu := bump_unused hU h.core.names "input"
  have husable : Usable U (bump st "input").2 (fnName "input" (bump st "input").1) := Or.inr ⟨hbu, Or.inl ⟨_, _, _, rfl, bf2, Nat.le_refl _⟩⟩
  have hnf := number_fresh hU hb.core.names husable
  obtain ⟨f1, f2, f3, f4, f5, f6, f7, f8, f9⟩ := number_frame (bump st "input").2 (fnName "input" (bump st "input").1)
  have hni := number_Inv hb husable
  have hiss := (number_issued (bump st "input").2 (fnName "input" (bump st "input").1)).1
  have hnodes := not_issued_nodes hb.core.names hnf
  have e : addInput st (.one (.tmp defs.length [])) =
      (let nn := number (bump st "input").2 (fnName "input" (bump st "input").1)
       let st1 : State F M K := { nn.2 with preNode := upd nn.2.preNode (.tmp defs.length []) (some nn.1) }
       let st2 := push st1 ⟨nn.1, .input, [], [], [], false⟩
       { st2 with inputs := st2.inputs ++ [st1.nodes.length] }) := rfl
  rw [e]
  set nn := number (bump st "input").2 (fnName "input" (bump st "input").1) with hnn
  dsimp only
  have g1 : nn.2.nodes = st.nodes := f1
  have g2 : nn.2.inputs = st.inputs := f2
  have g3 : nn.2.forward = [] := f3.trans hfwd
  have g4 : nn.2.outputs = [] := f4.trans hout
  have g7 : nn.2.preNode = st.preNode := f7
  set n : TNode F M K := ⟨nn.1, .input, [], [], [], false⟩ with hnd
  have hn2 : ∀ m ∈ nn.2.nodes, m.name ≠ n.name := by rw [f1]; exact hnodes
  have hcore : Core U s (push nn.2 n) (vals ++ [.one v]) := hni.core.push hiss hn2 rfl
  have hmn : nn.2.nodesMap n.name = none := nodesMap_none hni.core hn2
  have hvlen := hni.core.len
  have hgetv : (vals ++ [Out.one v])[nn.2.nodes.length]? = some (.one v) := by rw [← hvlen]; simp
  have hfree : nn.2.preNode (.tmp defs.length []) = none := by
    cases hc : nn.2.preNode (.tmp defs.length []) with
    | none => rfl
    | some x =>
      have := hni.track.fresh defs.length [] (by rw [hc]; rfl)
      omega
  have hidx := hni.track.clean _ hfree
  refine ⟨⟨⟨⟨hcore.names.big, hcore.names.src, hcore.names.nodes⟩, hcore.len, hcore.map, hcore.node⟩, ⟨?_, ?_, ?_⟩, ?_⟩, g3, g4, ?_, ?_, ?_⟩
  · intro o x ho
    by_cases hoo : o = .tmp defs.length []
    · subst hoo
      have hx : nn.1 = x := by simpa [upd, push] using ho
      subst hx
      refine ⟨nn.2.nodes.length, n, .one v, v, ?_, ?_, rfl, hgetv, ?_, ?_⟩
      · simp [push, upd, hnd]
      · simp [push]
      · show (Out.one v).get (nn.2.preIdx _) = _
        rw [hidx]; rfl
      · simp [toRef, Sem.ref, Out.get]
    · have ho' : nn.2.preNode o = some x := by simpa [upd, push, hoo] using ho
      obtain ⟨i, m, w, u, p1, p2, p3, p4, p5, p6⟩ := hni.track.pre o x ho'
      refine ⟨i, m, w, u, ?_, ?_, p3, getElem?_append_some p4, p5, ref_mono p6 _⟩
      · have hxn : x ≠ n.name := by
          rintro rfl
          rw [hmn] at p1; cases p1
        simp only [push, upd]
        rw [if_neg hxn]; exact p1
      · simp only [push]
        exact getElem?_append_some p2
  · intro d p hd
    rw [List.length_append, List.length_singleton]
    by_cases hoo : (.tmp d p : Obj K) = .tmp defs.length []
    · cases hoo; omega
    · have : (nn.2.preNode (.tmp d p)).isSome := by simpa only [upd, push, if_neg hoo] using hd
      have := hni.track.fresh d p this
      omega
  · intro o ho
    by_cases hoo : o = .tmp defs.length []
    · subst hoo; exact hidx
    · exact hni.track.clean o (by simpa only [upd, push, if_neg hoo] using ho)
  · have hl := hni.lists
    have hord : order nn.2 = nn.2.inputs := by simp [order, g3, g4]
    refine ⟨?_, hl.csorted, ?_, ?_, ?_, ?_, ?_⟩
    · simp only [order, push, g3, g4, List.append_nil]
      refine List.pairwise_append.2 ⟨by rw [← hord]; exact hl.sorted, by simp, ?_⟩
      intro a ha b hb'
      rw [List.mem_singleton.1 hb']
      exact hl.bound a (by rw [hord]; exact ha)
    · simp only [order, push, g3, g4, List.append_nil]
      intro i hi
      rcases List.mem_append.1 hi with hi | hi
      · have := hl.bound i (by rw [hord]; exact hi)
        simp; omega
      · rw [List.mem_singleton.1 hi]; simp
    · intro i m hm'
      simp only [push] at hm'
      rcases (getElem?_snoc _ _ _ _).1 hm' with hm' | ⟨rfl, rfl⟩
      · have := hl.cls i m hm'
        revert this
        cases m.kind <;> simp only [Placed, push, List.mem_append] <;> tauto
      · simp [Placed, hnd, push]
    · intro i hi
      simp only [push] at hi
      rcases List.mem_append.1 hi with hi | hi
      · obtain ⟨m, m1, m2⟩ := hl.inp i hi
        exact ⟨m, by simp only [push]; exact getElem?_append_some m1, m2⟩
      · rw [List.mem_singleton.1 hi]
        exact ⟨n, by simp [push], rfl⟩
    · intro i hi
      simp only [push, g3] at hi
      cases hi
    · intro i hi
      simp only [push] at hi
      obtain ⟨m, k, m1, m2⟩ := hl.con i hi
      exact ⟨m, k, by simp only [push]; exact getElem?_append_some m1, m2⟩
  · simp only [push, g1, g2]
  · intro o ho
    show (upd nn.2.preNode (.tmp defs.length []) (some nn.1) o).isSome
    unfold upd
    split
    · rfl
    · rw [g7]; exact ho
  · show (upd nn.2.preNode (.tmp defs.length []) (some nn.1) _).isSome
    simp [upd]

/-- All arguments are tensors. -/
def inputObjs_plain (n : Nat) : inputObjs (K := K) (List.replicate n (.one ())) = (List.range n).map (fun d => .one (.tmp d [])) := by
  apply List.ext_getElem?
  intro i
  simp only [inputObjs, List.getElem?_mapIdx, List.getElem?_map]
  by_cases h : i < n
  · simp [h, mapPath]
  · simp [Nat.not_lt.1 h]

theorem inputs_inv {U : String → Prop} (hU : NamesOk U) (s : Sem F M K T) (vs : List T) :
    ∃ st, ((List.range vs.length).map (fun d => (.one (.tmp d []) : Out (Obj K)))).foldl addInput (init F M K) = st ∧
      Inv U s st (vs.map .one) (vs.map .one) ∧ st.forward = [] ∧ st.outputs = [] ∧ st.inputs = List.range vs.length ∧
      ∀ d < vs.length, (st.preNode (.tmp d [])).isSome := by
  induction vs using List.reverseRecOn with
  | nil => exact ⟨_, rfl, init_inv U s, rfl, rfl, rfl, by simp⟩
  | append_singleton vs v ih =>
    obtain ⟨st, e, h1, h2, h3, h4, h5⟩ := ih
    have hl : (vs.map (Out.one (α := T))).length = vs.length := List.length_map _
    have := addInput_inv hU h1 h2 h3 v
    rw [hl] at this
    obtain ⟨a1, a2, a3, a4, a5, a6⟩ := this
    refine ⟨addInput st (.one (.tmp vs.length [])), ?_, ?_, a2, a3, ?_, ?_⟩
    · rw [List.length_append, List.length_singleton, List.range_succ, List.map_append, List.foldl_append, e]
      rfl
    · simpa using a1
    · rw [a4, h4, List.length_append, List.length_singleton, List.range_succ, ← h1.core.len, hl]
    · intro d hd
      rw [List.length_append, List.length_singleton] at hd
      rcases Nat.lt_succ_iff_lt_or_eq.1 hd with hd | rfl
      · exact a5 _ (h5 d hd)
      · exact a6

/-! ### Outputs -/

/-- What the recorded output node `i` returns. -/
def OutNode (st : State F M K) (vals : List (Out T)) (i : Nat) (r : Out T) : Prop :=
  ∃ (n : TNode F M K) (as : List T), st.nodes[i]? = some n ∧ n.kind = .output ∧ Reads st.nodes vals n.prev n.idx as ∧
    ((n.rev = true ∧ r = .seq (as.map .leaf)) ∨ (n.rev = false ∧ ∃ a, as = [a] ∧ r = .one a))

theorem readOut_inv {s : Sem F M K T} {st : State F M K} {vals defs : List (Out T)} (h : Track s st vals defs) :
    ∀ {os : List (Obj K)} {ps : List (Nat × Path)}, os.mapM (readOut st) = some ps →
      ∃ as, os.mapM (fun o => s.ref defs (toRef o)) = some as ∧ Reads st.nodes vals (ps.map (·.1)) (ps.map (·.2)) as := by
  intro os
  induction os with
  | nil => intro ps e; simp at e; subst e; exact ⟨[], rfl, .nil⟩
  | cons o os ih =>
    intro ps e
    simp only [List.mapM_cons, Option.bind_eq_bind, Option.bind_eq_some_iff, Option.pure_def, Option.some.injEq] at e
    obtain ⟨b, e1, bs, e2, rfl⟩ := e
    simp only [readOut, Option.bind_eq_bind, Option.bind_eq_some_iff, Option.some.injEq] at e1
    obtain ⟨x, x1, i, x2, rfl⟩ := e1
    obtain ⟨as, a1, a2⟩ := ih e2
    obtain ⟨i', n, w, v, p1, p2, p3, p4, p5, p6⟩ := h.pre o x x1
    rw [x2] at p1
    cases p1
    refine ⟨v :: as, ?_, .cons n w p2 p3 p4 p5 a2⟩
    simp [List.mapM_cons, p6, a1]

theorem ObjsOk.frame {s : Sem F M K T} {st st' : State F M K} {objs : List (Out (Obj K))} {defs : List (Out T)} (h : ObjsOk s st objs defs)
    (e : st'.preNode = st.preNode) : ObjsOk s st' objs defs := ⟨h.len, by rw [e]; exact h.known, h.same⟩

theorem addOutput_inv {U : String → Prop} (hU : NamesOk U) {s : Sem F M K T} {st st' : State F M K} {vals defs : List (Out T)}
    {objs : List (Out (Obj K))} (h : Inv U s st vals defs) (ho : ObjsOk s st objs defs) {r : OutRef K} (e : addOutput st objs r = some st') :
    ∃ v, s.outRef defs r = some v ∧ Inv U s st' (vals ++ [.seq []]) defs ∧ st'.preNode = st.preNode ∧ st'.inputs = st.inputs ∧
      st'.outputs = st.outputs ++ [st.nodes.length] ∧ (∃ l, st'.nodes = st.nodes ++ l) ∧ OutNode st' (vals ++ [.seq []]) st.nodes.length v := by
  have hb := bump_Inv h "output"
  obtain ⟨bf1, bf2, bf3, bf4⟩ := bump_frame st "output"
  have hbu := bump_unused hU h.core.names "output"
  have husable : Usable U (bump st "output").2 (fnName "output" (bump st "output").1) := Or.inr ⟨hbu, Or.inl ⟨_, _, _, rfl, bf2, Nat.le_refl _⟩⟩
  have hnf := number_fresh hU hb.core.names husable
  obtain ⟨f1, f2, f3, f4, f5, f6, f7, f8, f9⟩ := number_frame (bump st "output").2 (fnName "output" (bump st "output").1)
  have hni := number_Inv hb husable
  have hiss := (number_issued (bump st "output").2 (fnName "output" (bump st "output").1)).1
  have hnodes := not_issued_nodes hb.core.names hnf
  simp only [addOutput, Option.bind_eq_bind, Option.bind_eq_some_iff] at e
  obtain ⟨os, e1, ps, e2, e3⟩ := e
  set nn := number (bump st "output").2 (fnName "output" (bump st "output").1) with hnn
  simp only [Option.some.injEq] at e3
  have g1 : nn.2.nodes = st.nodes := f1
  have g2 : nn.2.inputs = st.inputs := f2
  have g4 : nn.2.outputs = st.outputs := f4
  have g7 : nn.2.preNode = st.preNode := f7
  obtain ⟨as, a1, a2⟩ := readOut_inv hni.track e2
  set n : TNode F M K := ⟨nn.1, .output, ps.map (·.1), ps.map (·.2), [], outRev r⟩ with hnd
  have hn2 : ∀ m ∈ nn.2.nodes, m.name ≠ n.name := by rw [f1]; exact hnodes
  have hcore : Core U s (push nn.2 n) (vals ++ [.seq []]) := hni.core.push hiss hn2 trivial
  have hmn : nn.2.nodesMap n.name = none := nodesMap_none hni.core hn2
  have htr := hni.track.push (n := n) (.seq []) hmn
  have hrs := resolve_refs ho e1
  rw [a1] at hrs
  have hv : ∃ v, s.outRef defs r = some v ∧ ((n.rev = true ∧ v = .seq (as.map .leaf)) ∨ (n.rev = false ∧ ∃ a, as = [a] ∧ v = .one a)) := by
    cases r with
    | one r =>
      simp only [outRefs, List.mapM_cons, List.mapM_nil, Option.bind_eq_bind, Option.bind_eq_some_iff, Option.pure_def, Option.some.injEq] at hrs
      obtain ⟨a, q1, _, rfl, rfl⟩ := hrs
      exact ⟨.one a, by simp [Sem.outRef, q1], Or.inr ⟨rfl, a, rfl, rfl⟩⟩
    | list rs =>
      simp only [outRefs] at hrs
      exact ⟨.seq (as.map .leaf), by simp [Sem.outRef, hrs], Or.inl ⟨rfl, rfl⟩⟩
  obtain ⟨v, hv1, hv2⟩ := hv
  subst e3
  refine ⟨v, hv1, ⟨⟨⟨hcore.names.big, hcore.names.src, hcore.names.nodes⟩, hcore.len, hcore.map, hcore.node⟩,
    ⟨htr.pre, htr.fresh, htr.clean⟩, ?_⟩, g7, g2, ?_, ?_, ?_⟩
  · have hl := hni.lists
    have eord : ∀ st4 : State F M K, st4 = { push nn.2 n with outputs := (push nn.2 n).outputs ++ [st.nodes.length] } →
        order st4 = order nn.2 ++ [nn.2.nodes.length] := by
      rintro st4 rfl
      simp [order, push, g1]
    refine ⟨?_, hl.csorted, ?_, ?_, ?_, ?_, ?_⟩
    · rw [eord _ rfl]
      refine List.pairwise_append.2 ⟨hl.sorted, by simp, ?_⟩
      intro a ha b hb'
      rw [List.mem_singleton.1 hb']
      exact hl.bound a ha
    · rw [eord _ rfl]
      intro i hi
      simp only [push]
      rcases List.mem_append.1 hi with hi | hi
      · have := hl.bound i hi
        simp; omega
      · rw [List.mem_singleton.1 hi]; simp
    · intro i m hm'
      simp only [push] at hm'
      rcases (getElem?_snoc _ _ _ _).1 hm' with hm' | ⟨rfl, rfl⟩
      · have := hl.cls i m hm'
        revert this
        cases m.kind <;> simp only [Placed, push, List.mem_append] <;> tauto
      · simp [Placed, hnd, push, g1]
    · intro i hi
      obtain ⟨m, m1, m2⟩ := hl.inp i hi
      exact ⟨m, by simp only [push]; exact getElem?_append_some m1, m2⟩
    · intro i hi
      obtain ⟨m, m1, m2⟩ := hl.fwd i hi
      exact ⟨m, by simp only [push]; exact getElem?_append_some m1, m2⟩
    · intro i hi
      obtain ⟨m, k, m1, m2⟩ := hl.con i hi
      exact ⟨m, k, by simp only [push]; exact getElem?_append_some m1, m2⟩
  · simp only [push, g4]
  · exact ⟨[n], by simp only [push, g1]⟩
  · exact ⟨n, as, by simp [push, g1], rfl, a2.mono _ _, hv2⟩

theorem OutNode.mono {st st' : State F M K} {vals : List (Out T)} {i : Nat} {r : Out T} (h : OutNode st vals i r)
    (e : ∃ l, st'.nodes = st.nodes ++ l) (l' : List (Out T)) : OutNode st' (vals ++ l') i r := by
  obtain ⟨n, as, h1, h2, h3, h4⟩ := h
  obtain ⟨l, e⟩ := e
  exact ⟨n, as, by rw [e]; exact getElem?_append_some h1, h2, by rw [e]; exact h3.mono _ _, h4⟩

theorem addOutputs_inv {U : String → Prop} (hU : NamesOk U) {s : Sem F M K T} {objs : List (Out (Obj K))} {defs : List (Out T)} (rs : List (OutRef K)) :
    ∀ {st st' : State F M K} {vals : List (Out T)} {done : List (Out T)}, Inv U s st vals defs → ObjsOk s st objs defs →
      List.Forall₂ (OutNode st vals) st.outputs done → rs.foldlM (fun st o => addOutput st objs o) st = some st' →
      ∃ vals' vs, rs.mapM (s.outRef defs) = some vs ∧ Inv U s st' vals' defs ∧ List.Forall₂ (OutNode st' vals') st'.outputs (done ++ vs) ∧
        st'.inputs = st.inputs ∧ ∃ l, vals' = vals ++ l := by
  induction rs with
  | nil =>
    intro st st' vals done h ho hd e
    simp only [List.foldlM_nil, Option.pure_def, Option.some.injEq] at e
    subst e
    exact ⟨vals, [], rfl, h, by simpa using hd, rfl, [], by simp⟩
  | cons r rs ih =>
    intro st st' vals done h ho hd e
    simp only [List.foldlM_cons, Option.bind_eq_bind, Option.bind_eq_some_iff] at e
    obtain ⟨st1, e1, e2⟩ := e
    obtain ⟨v, a1, a2, a3, a4, a5, a6, a7⟩ := addOutput_inv hU h ho e1
    have hd' : List.Forall₂ (OutNode st1 (vals ++ [.seq []])) st1.outputs (done ++ [v]) := by
      rw [a5]
      exact List.rel_append (hd.imp (fun i r hr => hr.mono a6 _)) (.cons a7 .nil)
    obtain ⟨vals', vs, b1, b2, b3, b4, l, b5⟩ := ih a2 (ho.frame a3) hd' e2
    refine ⟨vals', v :: vs, ?_, b2, ?_, by rw [b4, a4], [.seq []] ++ l, by rw [b5, List.append_assoc]⟩
    · simp [List.mapM_cons, a1, b1]
    · simpa using b3

end Verif.Lemmas.Tracer
