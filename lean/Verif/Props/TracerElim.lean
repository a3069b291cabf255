import Verif.Props.Tracer
import Verif.Lemmas.TracerElim

/-!
C83: tracing with `eliminate_dead_graph` (or calling `eliminate_dead_graph_pass`) removes exactly the calls, inputs and constants that no output depends on, and the code generated
afterwards computes the same outputs from the inputs that remain.
-/

namespace Verif.Props
open Verif.Spec.Trace Verif.Model.Tracer Verif.Lemmas.Tracer

section
variable {F M K T : Type} [DecidableEq M] [DecidableEq K]

/-- A call or an input stays if and only if an output depends on it. -/
theorem C83_kept_iff_needed (st : State F M K) (i : Nat) :
    (i ∈ (eliminate st).forward ↔ i ∈ st.forward ∧ Needed st i) ∧ (i ∈ (eliminate st).inputs ↔ i ∈ st.inputs ∧ Needed st i) := by
  constructor <;> simp only [eliminate, List.mem_filter, decide_eq_true_eq, mem_active]

theorem mem_prevs {st : State F M K} {i j : Nat} : j ∈ prevs st i ↔ ∃ n : TNode F M K, st.nodes[i]? = some n ∧ j ∈ n.prev := by
  unfold prevs
  cases st.nodes[i]? <;> simp

/-- A constant stays if and only if an output depends on it. -/
theorem C83_constants_kept_iff_needed {nm : Naming F M K} (hU : NamesOk nm.user) {s : Sem F M K T} {p : Prog F M K} (hf : s.Faithful p) (vs : List T)
    (hin : p.inputs = List.replicate vs.length (.one ())) {st : State F M K} (ht : trace nm p = some st) (j : Nat) :
    j ∈ (eliminate st).consts ↔ j ∈ st.consts ∧ Needed st j := by
  obtain ⟨vals, rets, h, -⟩ := C81_traced hU hf vs hin ht
  have hconst : isConstAt st j = true ↔ j ∈ st.consts := by
    unfold isConstAt
    constructor
    · intro hc
      cases hn : st.nodes[j]? with
      | none => rw [hn] at hc; cases hc
      | some n =>
        rw [hn] at hc
        have hp := h.lists.cls j n hn
        cases hk : n.kind <;> rw [hk] at hp <;> simp only [Option.elim_some, hk, isConst, Bool.false_eq_true] at hc
        exact hp
    · intro hc
      obtain ⟨m, k, hm, hk⟩ := h.lists.con j hc
      rw [hm]
      simp [hk, isConst]
  rw [(elim_consts h).2 j, hconst, and_comm]
  refine and_congr_right (fun hjc => ?_)
  constructor
  · rintro ⟨i, -, hi, hj⟩
    obtain ⟨n, hn, hj⟩ := mem_prevs.1 hj
    exact .read hn hj ((mem_active i).1 hi)
  · intro hneed
    obtain ⟨m, k, hm, hk⟩ := h.lists.con j hjc
    cases hneed with
    | out ho =>
      obtain ⟨r, _, n, as, h1, h2, -⟩ := forall₂_mem h.outs ho
      rw [hm] at h1
      cases h1
      rw [hk] at h2
      cases h2
    | @read i _ n hn hj hi =>
      refine ⟨i, ?_, (mem_active i).2 hi, mem_prevs.2 ⟨n, hn, hj⟩⟩
      have hp := h.lists.cls i n hn
      have hno := h.node i n hn
      unfold NodeOk at hno
      cases hk' : n.kind <;> rw [hk'] at hp hno
      · dsimp only at hno; rw [hno] at hj; cases hj
      · exact Or.inr hp
      · rw [hno.2] at hj; cases hj
      · exact Or.inl hp
      · exact Or.inl hp

/-- The generated code, run on the inputs that are left, computes what the model computes on all of them. -/
theorem C83_generated_code_partial {nm : Naming F M K} (hU : NamesOk nm.user) {s : Sem F M K T} {p : Prog F M K} (hf : s.Faithful p) [Inhabited T] (k : Nat)
    (hin : p.inputs = List.replicate k (.one ())) {st : State F M K} (ht : trace nm p = some st) :
    ∃ keep : List Nat, keep.Sublist (List.range k) ∧ (generate nm (eliminate st)).params = keep.map (fun i => (generate nm st).params.getD i "") ∧
      ∀ (vs : List T) (hv : vs.length = k) (ins : List T), List.Forall₂ (fun i v => vs[i]? = some v) keep ins →
        ∃ rets, s.forward p (vs.map .one) = some rets ∧ exec s (generate nm (eliminate st)) (ins.map .one) = some rets := by
  have hrange : st.inputs = List.range k := by
    obtain ⟨_, _, _, h, _⟩ := C81_traced hU hf (List.replicate k default) (by simpa using hin) ht
    simpa using h
  refine ⟨(eliminate st).inputs, by rw [← hrange]; exact List.filter_sublist, ?_, ?_⟩
  · simp only [generate, eliminate]
    apply List.map_congr_left
    intro i hi
    have hi' := (List.mem_filter.1 hi).1
    rw [hrange] at hi' ⊢
    simp only [List.mem_range] at hi'
    simp [List.getD_eq_getElem?_getD, hi']
  · rintro vs rfl ins hins
    obtain ⟨vals, rets, h, -, h2⟩ := C81_traced hU hf vs hin ht
    refine ⟨rets, h2, exec_generate (elim_final h ?_)⟩
    rw [List.forall₂_map_right_iff]
    have hsub : ∀ i ∈ (eliminate st).inputs, i ∈ st.inputs := fun i hi => (List.mem_filter.1 hi).1
    have hv := h.ins
    rw [hrange] at hv
    generalize (eliminate st).inputs = keep at hins hsub
    induction hins with
    | nil => exact .nil
    | @cons i v keep ins h1 _ ih =>
      refine .cons ?_ (ih (fun j hj => hsub j (by simp [hj])))
      obtain ⟨w, -, hw⟩ := forall₂_mem h.ins (hsub i (by simp))
      obtain ⟨hl, hv'⟩ := List.forall₂_iff_get.1 hv
      obtain ⟨hi, rfl⟩ := List.getElem?_eq_some_iff.1 h1
      have := hv' i (by simpa using hi) (by simpa using hi)
      simpa using this

/-- The inputs that are removed do not influence the results of the model. -/
theorem C83_removed_inputs_unused {nm : Naming F M K} (hU : NamesOk nm.user) {s : Sem F M K T} {p : Prog F M K} (hf : s.Faithful p) (k : Nat)
    (hin : p.inputs = List.replicate k (.one ())) {st : State F M K} (ht : trace nm p = some st) (vs ws : List T) (hv : vs.length = k) (hw : ws.length = k)
    (heq : ∀ i ∈ (eliminate st).inputs, vs[i]? = ws[i]?) : s.forward p (vs.map .one) = s.forward p (ws.map .one) := by
  subst hv
  cases vs with
  | nil => rw [List.length_eq_zero_iff.1 hw]
  | cons v0 vs' =>
    set vs := v0 :: vs' with hvs
    haveI : Inhabited T := ⟨v0⟩
    have e1 := C81_traced hU hf vs hin ht
    have e2 := C81_traced hU hf ws (by rw [hw]; exact hin) ht
    obtain ⟨vals1, r1, t1, i1, f1⟩ := e1
    obtain ⟨vals2, r2, t2, i2, f2⟩ := e2
    have hlt : ∀ i ∈ (eliminate st).inputs, i < vs.length := by
      intro i hi
      have := (List.mem_filter.1 hi).1
      rw [i1] at this
      simpa using this
    have key : ∀ (us : List T) (vals : List (Out T)) (r : List (Out T)), us.length = vs.length → Traced s st vals (us.map .one) r →
        exec s (generate nm (eliminate st)) ((eliminate st).inputs.map (fun i => .one (us.getD i default))) = some r := by
      intro us vals r hus t
      refine exec_generate (elim_final t ?_)
      rw [List.forall₂_map_right_iff, List.forall₂_same]
      intro i hi
      have hv' := (List.forall₂_iff_get.1 t.ins).2
      have hl := hlt i hi
      have := hv' i (by rw [i1]; simpa using hl) (by simpa [hus] using hl)
      simp only [i1, List.get_eq_getElem, List.getElem_range, List.getElem_map] at this
      rw [this, List.getD_eq_getElem?_getD, List.getElem?_eq_getElem (by omega)]
      rfl
    have k1 := key vs vals1 r1 rfl t1
    have k2 := key ws vals2 r2 hw t2
    have : (eliminate st).inputs.map (fun i => (Out.one (vs.getD i default) : Out T)) = (eliminate st).inputs.map (fun i => .one (ws.getD i default)) := by
      apply List.map_congr_left
      intro i hi
      rw [List.getD_eq_getElem?_getD, List.getD_eq_getElem?_getD, heq i hi]
    rw [this, k2] at k1
    rw [f1, f2, k1]

end

/-! ### Examples -/

/-- Two inputs; `conv(y)` and a split are not used, the second call of `bn` is. -/
def deadProg : Prog Fs Bool Unit :=
  ⟨[.one (), .one ()], [⟨.module true, [.res 1 []], .one none⟩, ⟨.module false, [.res 0 []], .one none⟩, ⟨.func .split, [.res 2 []], .seq [.leaf none, .leaf none]⟩,
    ⟨.func .add, [.res 3 [], .const ()], .one none⟩], [.one (.res 5 [])]⟩

theorem dead_faithful : demoSem.Faithful deadProg := by
  intro c hc args hl
  simp only [deadProg, List.mem_cons, List.not_mem_nil, or_false] at hc
  have hone : ∀ v : Nat, Fits (.one none) args (.one v) := by
    intro v
    refine ⟨fun p => by cases p <;> rfl, fun p j h => ?_⟩
    cases p <;> simp [Out.get] at h
  rcases hc with rfl | rfl | rfl | rfl
  · exact hone _
  · exact hone _
  · refine ⟨fun p => ?_, fun p j h => ?_⟩
    · rcases p with _ | ⟨_ | _ | i, _ | ⟨j, _ | ⟨k, p⟩⟩⟩ <;> simp [demoSem, Sem.call, Out.get]
    · rcases p with _ | ⟨_ | _ | i, _ | ⟨j', _ | ⟨k, p⟩⟩⟩ <;> simp [Out.get] at h
  · exact hone _

example : ∃ st, trace demoNames deadProg = some st ∧ ∃ keep : List Nat, ∀ (x y : Nat) (ins : List Nat),
    List.Forall₂ (fun i v => [x, y][i]? = some v) keep ins → exec demoSem (generate demoNames (eliminate st)) (ins.map .one) = some [.one (x * 10 + 7)] := by
  have hrun : (demoSem.forward deadProg ([1, 2].map .one)).isSome := rfl
  obtain ⟨st, ht⟩ := C81_trace_succeeds_partial demo_namesOk dead_faithful [1, 2] rfl hrun (by
    intro o _ k _
    exact ⟨⟨.func .add, [.res 3 [], .const ()], .one none⟩, by simp [deadProg], by simp⟩)
  obtain ⟨keep, -, -, h⟩ := C83_generated_code_partial demo_namesOk dead_faithful 2 rfl ht
  refine ⟨st, ht, keep, fun x y ins hins => ?_⟩
  obtain ⟨rets, h1, h2⟩ := h [x, y] rfl ins hins
  rw [h2, ← h1]
  simp [Sem.forward, deadProg, Sem.run, Sem.ref, Sem.outRef, demoSem, Sem.call, Out.get]

/-- The two dead calls and the second parameter are gone. -/
example : (trace demoNames deadProg).map (fun st => ((generate demoNames st).params, (generate demoNames st).attrs.map (·.1), st.forward.length)) =
      some (["input_0_f", "input_1_f"], ["weight", "conv", "bn"], 4) ∧
    (trace demoNames deadProg).map (fun st => ((generate demoNames (eliminate st)).params, (generate demoNames (eliminate st)).attrs.map (·.1), (eliminate st).forward.length)) =
      some (["input_0_f"], ["weight", "bn"], 2) := by
  decide +kernel

/-- An input that is not used disappears from the signature: the generated model cannot be called with the arguments of the original one. -/
theorem C83_signature_false : demoSem.forward deadProg [.one 5, .one 6] = some [.one 57] ∧
    (trace demoNames deadProg).map (fun st => exec demoSem (generate demoNames (eliminate st)) [.one 5, .one 6]) = some none ∧
    (trace demoNames deadProg).map (fun st => exec demoSem (generate demoNames (eliminate st)) [.one 5]) = some (some [.one 57]) := by
  decide +kernel

end Verif.Props
