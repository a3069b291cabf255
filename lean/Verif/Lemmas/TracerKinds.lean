import Verif.Lemmas.TracerSubFinal

/-! Names of calls never look like names of inputs and outputs (used by C84). -/

namespace Verif.Lemmas.Tracer
open Verif.Spec.Trace Verif.Model.Tracer

variable {F M K : Type} [DecidableEq M] [DecidableEq K] {nm : Naming F M K}

/-- The name of a call comes from the function or the submodule. -/
def Named (nm : Naming F M K) (n : TNode F M K) : Prop :=
  (∀ f, n.kind = .func f → ∃ k j, n.name = num (fnName (nm.kind f) k) j) ∧ ∀ m, n.kind = .module m → ∃ j, n.name = num (nm.mod m) j

def AllNamed (nm : Naming F M K) (st : State F M K) : Prop := ∀ n ∈ st.nodes, Named nm n

omit [DecidableEq M] [DecidableEq K] in
theorem AllNamed.bump {st : State F M K} (h : AllNamed nm st) (k : String) : AllNamed nm (bump st k).2 := h

omit [DecidableEq M] [DecidableEq K] in
theorem AllNamed.number {st : State F M K} (h : AllNamed nm st) (b : String) : AllNamed nm (number st b).2 := by
  intro n hn
  rw [(number_frame st b).1] at hn
  exact h n hn

omit [DecidableEq M] [DecidableEq K] in
theorem AllNamed.push {st : State F M K} (h : AllNamed nm st) {n : TNode F M K} (hn : Named nm n) : AllNamed nm (push st n) := by
  intro m hm
  rcases List.mem_append.1 hm with hm | hm
  · exact h m hm
  · rw [List.mem_singleton.1 hm]; exact hn

omit [DecidableEq M] in
theorem constantHandler_named {st : State F M K} (h : AllNamed nm st) {o : Obj K} {r} (e : constantHandler nm st o = some r) : AllNamed nm r.1 := by
  unfold constantHandler at e
  split_ifs at e
  · cases e; exact h
  · cases o with
    | const k =>
      cases e
      intro n hn
      refine ((h.bump "tensor").number _).push ?_ n hn
      exact ⟨fun f hf => (by cases hf), fun f hf => by cases hf⟩
    | tmp d p => cases e

omit [DecidableEq M] in
theorem parseArgs_named (os : List (Obj K)) : ∀ {st : State F M K} {r}, AllNamed nm st → parseArgs nm st os = some r → AllNamed nm r.1 := by
  induction os with
  | nil => intro st r h e; cases e; exact h
  | cons o os ih =>
    intro st r h e
    simp only [parseArgs, Option.bind_eq_bind, Option.bind_eq_some_iff] at e
    obtain ⟨r1, e1, r2, e2, e3⟩ := e
    cases e3
    refine ih (r := r2) ?_ e2
    simp only [tensorName, Option.bind_eq_bind, Option.bind_eq_some_iff] at e1
    obtain ⟨c, c1, x, c2, c3⟩ := e1
    have := constantHandler_named h c1
    split_ifs at c3
    · cases c3; exact this
    · simp only [Option.bind_eq_some_iff] at c3
      obtain ⟨_, _, _, _, c3⟩ := c3
      cases c3; exact this

omit [DecidableEq M] in
theorem readArgs_named (os : List (Obj K)) : ∀ {st : State F M K} {r}, AllNamed nm st → readArgs nm st os = some r → AllNamed nm r.1 := by
  induction os with
  | nil => intro st r h e; cases e; exact h
  | cons o os ih =>
    intro st r h e
    simp only [readArgs, Option.bind_eq_bind, Option.bind_eq_some_iff] at e
    obtain ⟨r1, e1, _, _, _, _, r2, e2, e3⟩ := e
    cases e3
    exact ih (r := r2) (constantHandler_named h e1) e2

omit [DecidableEq M] in
theorem setOuts_nodes (name : String) (ls : List (Path × Obj K)) : ∀ st : State F M K, (setOuts st name ls).nodes = st.nodes := by
  induction ls with
  | nil => intro st; rfl
  | cons l ls ih =>
    intro st
    unfold setOuts
    rw [List.foldl_cons]
    exact ih _

omit [DecidableEq M] in
theorem addForward_named {st st' : State F M K} {name : String} {kind : Kind F M K} {names : List NameRef} {args : List (Obj K)} {outs : Out (Obj K)} (h : AllNamed nm st)
    (hn : ∀ prev idx names rev, Named nm ⟨name, kind, prev, idx, names, rev⟩) (e : addForward nm st name kind names args outs = some st') : AllNamed nm st' := by
  simp only [addForward, Option.bind_eq_bind, Option.bind_eq_some_iff] at e
  obtain ⟨r, e1, e2⟩ := e
  cases e2
  have h1 := readArgs_named args h e1
  have h2 : AllNamed nm (setOuts r.1 name (leaves outs)) := by
    intro n hn'
    rw [setOuts_nodes] at hn'
    exact h1 n hn'
  exact h2.push (hn _ _ _ _)

omit [DecidableEq M] in
theorem step_named {st : State F M K} {objs : List (Out (Obj K))} {c : Call F M K} {r} (h : AllNamed nm st) (e : step nm st objs c = some r) : AllNamed nm r.1 := by
  simp only [step, Option.bind_eq_bind, Option.bind_eq_some_iff] at e
  obtain ⟨args, e1, e2⟩ := e
  cases hc : c.callee with
  | func f =>
    rw [hc] at e2
    simp only [Option.bind_eq_some_iff] at e2
    obtain ⟨r1, e3, st1, e4, e5⟩ := e2
    cases e5
    refine addForward_named ((parseArgs_named _ (h.bump _) e3).number _) ?_ e4
    intro prev idx names rev
    obtain ⟨N, hN, -⟩ := number_name r1.1 (fnName (nm.kind f) (bump st (nm.kind f)).1)
    refine ⟨fun f' hf => ?_, fun m hm => by cases hm⟩
    cases hf
    exact ⟨_, N, hN⟩
  | module m =>
    rw [hc] at e2
    simp only [Option.bind_eq_some_iff] at e2
    obtain ⟨st1, e4, e5⟩ := e2
    cases e5
    refine addForward_named (h.number _) ?_ e4
    intro prev idx names rev
    obtain ⟨N, hN, -⟩ := number_name st (nm.mod m)
    refine ⟨fun f' hf => (by cases hf), fun m' hm => ?_⟩
    cases hm
    exact ⟨N, hN⟩

omit [DecidableEq M] in
theorem steps_named (cs : List (Call F M K)) : ∀ {st : State F M K} {objs : List (Out (Obj K))} {r}, AllNamed nm st → steps nm st objs cs = some r → AllNamed nm r.1 := by
  induction cs with
  | nil => intro st objs r h e; cases e; exact h
  | cons c cs ih =>
    intro st objs r h e
    simp only [steps, Option.bind_eq_some_iff] at e
    obtain ⟨r1, e1, e2⟩ := e
    exact ih (step_named h e1) e2

omit [DecidableEq M] in
theorem addInput_named {st : State F M K} (h : AllNamed nm st) (os : Out (Obj K)) : AllNamed nm (addInput st os) := by
  have hfold : ∀ (ls : List (Path × Obj K)) (name : String) (st : State F M K),
      (ls.foldl (fun st l => { st with preNode := upd st.preNode l.2 (some name) }) st).nodes = st.nodes := by
    intro ls name
    induction ls with
    | nil => intro st; rfl
    | cons l ls ih => intro st; rw [List.foldl_cons]; exact ih _
  unfold addInput
  dsimp only
  intro n hn
  refine AllNamed.push (st := (leaves os).foldl _ _) ?_ ⟨fun f hf => ?_, fun f hf => ?_⟩ n hn
  · intro m hm
    rw [hfold] at hm
    exact ((h.bump "input").number _) m hm
  · cases hf
  · cases hf

omit [DecidableEq M] in
theorem trace_named {p : Prog F M K} {st : State F M K} (e : trace nm p = some st) : AllNamed nm st := by
  simp only [trace, Option.bind_eq_bind, Option.bind_eq_some_iff] at e
  obtain ⟨r, e1, e2⟩ := e
  have h0 : AllNamed nm ((inputObjs p.inputs).foldl addInput (init F M K)) := by
    have : ∀ (l : List (Out (Obj K))) (st : State F M K), AllNamed nm st → AllNamed nm (l.foldl addInput st) := by
      intro l
      induction l with
      | nil => intro st h; exact h
      | cons o l ih => intro st h; exact ih _ (addInput_named h o)
    exact this _ _ (fun n hn => by cases hn)
  have h1 := steps_named _ h0 e1
  have h2 : ∀ (outs : List (OutRef K)) (st st' : State F M K), AllNamed nm st → outs.foldlM (fun st o => addOutput st r.2 o) st = some st' → AllNamed nm st' := by
    intro outs
    induction outs with
    | nil => intro st st' h e; cases e; exact h
    | cons o outs ih =>
      intro st st' h e
      simp only [List.foldlM_cons, Option.bind_eq_bind, Option.bind_eq_some_iff] at e
      obtain ⟨st1, e1, e2⟩ := e
      refine ih st1 st' ?_ e2
      simp only [addOutput, Option.bind_eq_bind, Option.bind_eq_some_iff] at e1
      obtain ⟨_, _, _, _, e1⟩ := e1
      cases e1
      exact ((h.bump "output").number _).push ⟨fun f hf => (by cases hf), fun f hf => by cases hf⟩
  exact h2 _ _ _ h1 e2

omit [DecidableEq M] in
theorem not_io_name (hU : NamesOk nm.user) (hk : ∀ f, nm.kind f ≠ "input" ∧ nm.kind f ≠ "output") {p : Prog F M K} {st : State F M K} (e : trace nm p = some st)
    {n : TNode F M K} (hn : n ∈ st.nodes) (hc : (∃ f, n.kind = .func f) ∨ ∃ m, n.kind = .module m) (t : Nat) :
    n.name ≠ fnName "input" t ∧ n.name ≠ fnName "output" t := by
  have hnum : ∀ (b x : String) (j : Nat), num b j = x ++ "_f" → j = 0 := by
    intro b x j hj
    by_contra hne
    unfold num at hj
    rw [if_neg hne] at hj
    exact f_ne_numbered hj.symm
  have h0 : ∀ b : String, num b 0 = b := fun b => rfl
  have key : ∀ kind, kind = "input" ∨ kind = "output" → n.name ≠ fnName kind t := by
    intro kind hkind hname
    rcases hc with ⟨f, hf⟩ | ⟨m, hm⟩
    · obtain ⟨k, j, hj⟩ := (trace_named e n hn).1 f hf
      rw [hname] at hj
      have hj0 := hnum _ _ _ hj.symm
      subst hj0
      have := (fnName_inj hj).1
      rcases hkind with rfl | rfl
      · exact (hk f).1 this.symm
      · exact (hk f).2 this.symm
    · obtain ⟨j, hj⟩ := (trace_named e n hn).2 m hm
      rw [hname] at hj
      have hj0 := hnum _ _ _ hj.symm
      subst hj0
      exact hU.2.1 (nm.mod m) _ (Or.inl ⟨m, rfl⟩) hj.symm
  exact ⟨key _ (Or.inl rfl), key _ (Or.inr rfl)⟩

end Verif.Lemmas.Tracer
