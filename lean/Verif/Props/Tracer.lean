import Verif.Lemmas.TracerSome
import Verif.Lemmas.TracerFinal

/-!
C81: tracing a model with `model_tracer`/`trace` and generating code from the trace gives a model that computes the same outputs as the original one, for every input.
-/

namespace Verif.Props
open Verif.Spec.Trace Verif.Model.Tracer Verif.Lemmas.Tracer

section
variable {F M K T : Type} [DecidableEq M] [DecidableEq K]

theorem C81_traced {nm : Naming F M K} (hU : NamesOk nm.user) {s : Sem F M K T} {p : Prog F M K} (hf : s.Faithful p) (vs : List T)
    (hin : p.inputs = List.replicate vs.length (.one ())) {st : State F M K} (ht : trace nm p = some st) :
    ∃ vals rets, Traced s st vals (vs.map .one) rets ∧ st.inputs = List.range vs.length ∧ s.forward p (vs.map .one) = some rets := by
  have hc : ConstsOk nm.user nm := fun k x h => Or.inr ⟨k, h⟩
  have hm : ModsOk nm.user nm := fun m => Or.inl ⟨m, rfl⟩
  simp only [trace, Option.bind_eq_bind, Option.bind_eq_some_iff] at ht
  obtain ⟨⟨st1, objs1⟩, e1, e2⟩ := ht
  rw [hin, inputObjs_plain] at e1
  obtain ⟨st0, e0, i1, i2, i3, i4, i5⟩ := inputs_inv hU s vs (F := F) (M := M) (K := K)
  rw [e0] at e1
  have ho : ObjsOk s st0 ((List.range vs.length).map (fun d => (.one (.tmp d []) : Out (Obj K)))) (vs.map .one) := by
    refine ⟨by simp, ?_, ?_⟩
    · intro d w q o hd hq
      simp only [List.getElem?_map, Option.map_eq_some_iff] at hd
      obtain ⟨d', hd', rfl⟩ := hd
      obtain ⟨hlt, hdd⟩ := List.getElem?_eq_some_iff.1 hd'
      simp only [List.length_range] at hlt
      simp only [List.getElem_range] at hdd
      subst hdd
      cases q with
      | nil =>
        simp only [Out.get, Option.some.injEq] at hq
        subst hq
        exact ⟨i5 d hlt, rfl⟩
      | cons a q => simp [Out.get] at hq
    · intro d w v q hd hv
      simp only [List.getElem?_map, Option.map_eq_some_iff] at hd hv
      obtain ⟨_, _, rfl⟩ := hd
      obtain ⟨_, _, rfl⟩ := hv
      cases q <;> simp [Out.get]
  obtain ⟨vals1, defs1, b1, b2, b3, b4, b5, ⟨l1, b6⟩, b7, b8⟩ := steps_inv hU hc hm p.calls hf i1 i3 ho e1
  obtain ⟨vals2, rets, c1, c2, c3, c4, l2, c5⟩ := addOutputs_inv hU p.outs (done := []) b2 b4 (by rw [b3]; exact .nil) e2
  refine ⟨vals2, rets, ⟨?_, c2.core.node, c2.lists, ?_, by simpa using c3⟩, by rw [c4, b5, i4], ?_⟩
  · intro i j n m hn hm' hnm
    have h1 := (c2.core.map n.name i).2 ⟨n, hn, rfl⟩
    have h2 := (c2.core.map n.name j).2 ⟨m, hm', hnm.symm⟩
    rw [h1] at h2
    exact Option.some.inj h2
  · rw [c4, b5, i4]
    refine List.forall₂_iff_get.2 ⟨by simp, ?_⟩
    intro i h1 h2
    simp only [List.get_eq_getElem, List.getElem_range, List.getElem_map]
    rw [c5, b6]
    apply getElem?_append_some
    apply getElem?_append_some
    simp at h2
    simp [h2]
  · simp only [Sem.forward, b1, Option.bind_some]
    exact c1

/-- The generated code computes what the model computes: for all models (straight-line programs of functions, shared or unshared submodules, parameters and literals whose
calls may return tensors, lists, nested lists or their own arguments), and all inputs. -/
theorem C81_generated_code_partial {nm : Naming F M K} (hU : NamesOk nm.user) {s : Sem F M K T} {p : Prog F M K} (hf : s.Faithful p) (vs : List T)
    (hin : p.inputs = List.replicate vs.length (.one ())) {st : State F M K} (ht : trace nm p = some st) :
    ∃ rets, s.forward p (vs.map .one) = some rets ∧ exec s (generate nm st) (vs.map .one) = some rets := by
  obtain ⟨vals, rets, h1, -, h2⟩ := C81_traced hU hf vs hin ht
  exact ⟨rets, h2, exec_generate h1.final⟩

/-- Tracing succeeds for every model that runs, provided every parameter or literal it returns has also been used by a call. -/
theorem C81_trace_succeeds_partial {nm : Naming F M K} (hU : NamesOk nm.user) {s : Sem F M K T} {p : Prog F M K} (hf : s.Faithful p) (vs : List T)
    (hin : p.inputs = List.replicate vs.length (.one ())) (hrun : (s.forward p (vs.map .one)).isSome)
    (hret : ∀ o ∈ p.outs, ∀ k, (o = .one (.const k) ∨ ∃ rs, o = .list rs ∧ Ref.const k ∈ rs) → ∃ c ∈ p.calls, Ref.const k ∈ c.args) :
    ∃ st, trace nm p = some st := by
  have hc : ConstsOk nm.user nm := fun k x h => Or.inr ⟨k, h⟩
  have hm : ModsOk nm.user nm := fun m => Or.inl ⟨m, rfl⟩
  obtain ⟨st0, e0, i1, i2, i3, i4, i5⟩ := inputs_inv hU s vs (F := F) (M := M) (K := K)
  have ho : ObjsOk s st0 ((List.range vs.length).map (fun d => (.one (.tmp d []) : Out (Obj K)))) (vs.map .one) := by
    refine ⟨by simp, ?_, ?_⟩
    · intro d w q o hd hq
      simp only [List.getElem?_map, Option.map_eq_some_iff] at hd
      obtain ⟨d', hd', rfl⟩ := hd
      obtain ⟨hlt, hdd⟩ := List.getElem?_eq_some_iff.1 hd'
      simp only [List.length_range] at hlt
      simp only [List.getElem_range] at hdd
      subst hdd
      cases q with
      | nil =>
        simp only [Out.get, Option.some.injEq] at hq
        subst hq
        exact ⟨i5 d hlt, rfl⟩
      | cons a q => simp [Out.get] at hq
    · intro d w v q hd hv
      simp only [List.getElem?_map, Option.map_eq_some_iff] at hd hv
      obtain ⟨_, _, rfl⟩ := hd
      obtain ⟨_, _, rfl⟩ := hv
      cases q <;> simp [Out.get]
  simp only [Sem.forward] at hrun
  cases hr : s.run p.calls (vs.map .one) with
  | none => rw [hr] at hrun; cases hrun
  | some defs =>
    rw [hr] at hrun
    simp only [Option.bind_some] at hrun
    obtain ⟨⟨st1, objs1⟩, e1⟩ := steps_some hU hc hm p.calls hf i1 i3 ho (by rw [hr]; rfl)
    obtain ⟨vals1, defs1, b1, b2, b3, b4, b5, -, b7, b8⟩ := steps_inv hU hc hm p.calls hf i1 i3 ho e1
    rw [hr] at b1
    cases b1
    obtain ⟨rets, hrets⟩ := Option.isSome_iff_exists.1 hrun
    obtain ⟨st', e2⟩ := addOutputs_some hU p.outs b2 b4 (mapM_isSome hrets) (by
      intro r hr' k hk
      obtain ⟨c, hc', hk'⟩ := hret r hr' k (by
        cases r with
        | one r => simp only [outRefs, List.mem_singleton] at hk; exact Or.inl (by rw [hk])
        | list rs => exact Or.inr ⟨rs, rfl, hk⟩)
      exact b8 c hc' k hk')
    refine ⟨st', ?_⟩
    simp only [trace, hin, inputObjs_plain, e0, Option.bind_eq_bind, e1, Option.bind_some]
    exact e2

/-- No two nodes of a trace have the same name. -/
theorem C81_node_names_distinct {nm : Naming F M K} (hU : NamesOk nm.user) {s : Sem F M K T} {p : Prog F M K} (hf : s.Faithful p) (vs : List T)
    (hin : p.inputs = List.replicate vs.length (.one ())) {st : State F M K} (ht : trace nm p = some st) :
    (st.nodes.map (·.name)).Nodup := by
  obtain ⟨vals, rets, h1, -⟩ := C81_traced hU hf vs hin ht
  rw [List.nodup_iff_getElem?_ne_getElem?]
  intro i j hij hj he
  simp only [List.length_map] at hj
  simp only [List.getElem?_map] at he
  have hi : i < st.nodes.length := by omega
  rw [List.getElem?_eq_getElem hi, List.getElem?_eq_getElem hj] at he
  simp only [Option.map_some, Option.some.injEq] at he
  have := h1.uniq i j _ _ (List.getElem?_eq_getElem hi) (List.getElem?_eq_getElem hj) he
  omega

end

/-! ### A model -/

/-- Functions of the examples: addition of two tensors, and splitting in two. -/
inductive Fs where
  | add
  | split
deriving DecidableEq

def demoSem : Sem Fs Bool Unit Nat where
  fn
    | .add, as => .one (as.foldl (· + ·) 0)
    | .split, as => .seq [.leaf (as.headD 0 / 2), .leaf (as.headD 0 - as.headD 0 / 2)]
  mod
    | true, as => .one (as.headD 0 + 1)
    | false, as => .one (as.headD 0 * 10)
  konst _ := 7

def fsKind : Fs → String
  | .add => "add"
  | .split => "split"

/-- `conv` is used twice, the two parts of a split are added to a parameter. -/
def demoProg : Prog Fs Bool Unit :=
  ⟨[.one ()], [⟨.module true, [.res 0 []], .one none⟩, ⟨.module true, [.res 1 []], .one none⟩, ⟨.func .split, [.res 2 []], .seq [.leaf none, .leaf none]⟩,
    ⟨.func .add, [.res 3 [0], .const ()], .one none⟩, ⟨.func .add, [.res 4 [], .res 3 [1]], .one none⟩], [.one (.res 5 []), .list [.res 2 [], .const ()]]⟩

def demoNames : Naming Fs Bool Unit := ⟨fsKind, fun _ => false, fun b => if b then "conv" else "bn", fun _ => some "weight"⟩

theorem demo_namesOk : NamesOk demoNames.user := by
  have hu : ∀ a, demoNames.user a → a = "conv" ∨ a = "bn" ∨ a = "weight" := by
    rintro a (⟨m, rfl⟩ | ⟨k, hk⟩)
    · cases m <;> simp [demoNames]
    · simp only [demoNames, Option.some.injEq] at hk; simp [← hk]
  have hnum : ∀ (a b : String) (k : Nat), a = b ++ "_" ++ toString k → '_' ∈ a.toList := by
    rintro a b k rfl
    simp [String.toList_append]
  refine ⟨?_, ?_, ?_⟩
  · intro a b k ha _ h
    have := hnum a b _ h
    rcases hu a ha with rfl | rfl | rfl <;> simp at this
  · rintro a s ha rfl
    have : '_' ∈ (s ++ "_f").toList := by simp [String.toList_append]
    rcases hu _ ha with h | h | h <;> rw [h] at this <;> simp at this
  · intro a ha
    refine ⟨?_, ?_⟩
    · rintro rfl
      rcases hu _ ha with h | h | h <;> simp at h
    · rintro n rfl
      have : '_' ∈ ("tensor_" ++ toString n).toList := by simp [String.toList_append]
      rcases hu _ ha with h | h | h <;> rw [h] at this <;> simp at this

theorem demo_faithful : demoSem.Faithful demoProg := by
  intro c hc args hl
  simp only [demoProg, List.mem_cons, List.not_mem_nil, or_false] at hc
  have hone : ∀ v : Nat, Fits (.one none) args (.one v) := by
    intro v
    refine ⟨fun p => by cases p <;> rfl, fun p j h => ?_⟩
    cases p <;> simp [Out.get] at h
  have hseq : ∀ v w : Nat, Fits (.seq [.leaf none, .leaf none]) args (.seq [.leaf v, .leaf w]) := by
    intro v w
    refine ⟨fun p => ?_, fun p j h => ?_⟩
    · rcases p with _ | ⟨_ | _ | i, _ | ⟨j, _ | ⟨k, p⟩⟩⟩ <;> simp [Out.get]
    · rcases p with _ | ⟨_ | _ | i, _ | ⟨j', _ | ⟨k, p⟩⟩⟩ <;> simp [Out.get] at h
  rcases hc with rfl | rfl | rfl | rfl | rfl
  · exact hone _
  · exact hone _
  · exact hseq _ _
  · exact hone _
  · exact hone _

example (x : Nat) : ∃ st, trace demoNames demoProg = some st ∧ exec demoSem (generate demoNames st) [.one x] = demoSem.forward demoProg [.one x] := by
  have hrun : (demoSem.forward demoProg ([x].map .one)).isSome := rfl
  obtain ⟨st, ht⟩ := C81_trace_succeeds_partial demo_namesOk demo_faithful [x] rfl hrun (by
    intro o _ k _
    exact ⟨⟨.func .add, [.res 3 [0], .const ()], .one none⟩, by simp [demoProg], by simp⟩)
  obtain ⟨rets, h1, h2⟩ := C81_generated_code_partial demo_namesOk demo_faithful [x] rfl ht
  exact ⟨st, ht, h2.trans h1.symm⟩


/-! ### What fails -/

/-- `self.conv` called twice in a model that also has a submodule `conv_1`. -/
def clashNames : Naming Fs Bool Unit := ⟨fsKind, fun _ => false, fun b => if b then "conv" else "conv_1", fun _ => some "weight"⟩

def clashProg : Prog Fs Bool Unit :=
  ⟨[.one ()], [⟨.module true, [.res 0 []], .one none⟩, ⟨.module true, [.res 1 []], .one none⟩, ⟨.module false, [.res 0 []], .one none⟩,
    ⟨.func .add, [.res 2 [], .res 3 []], .one none⟩], [.one (.res 4 [])]⟩

/-- The generated name of the second call of `conv` is the name of the submodule `conv_1`: the sum of their results becomes twice the second. -/
theorem C81_name_clash_false : demoSem.forward clashProg [.one 5] = some [.one 57] ∧
    (trace clashNames clashProg).bind (fun st => exec demoSem (generate clashNames st) [.one 5]) = some [.one 100] := by
  decide +kernel

/-- `forward(self, xs)` adding the two tensors of its argument. -/
def listProg : Prog Fs Bool Unit :=
  ⟨[.seq [.leaf (), .leaf ()]], [⟨.func .add, [.res 0 [0], .res 0 [1]], .one none⟩], [.one (.res 1 [])]⟩

/-- With a list argument the generated code reads the whole list in place of its tensors and fails. -/
theorem C81_list_argument_false : demoSem.forward listProg [.seq [.leaf 3, .leaf 4]] = some [.one 7] ∧
    (trace demoNames listProg).map (fun st => exec demoSem (generate demoNames st) [.seq [.leaf 3, .leaf 4]]) = some none := by
  decide +kernel

/-- A model that returns a parameter it has not used before cannot be traced. -/
theorem C81_returned_parameter_false :
    (trace demoNames ⟨[.one ()], [⟨.module true, [.res 0 []], .one none⟩], [.one (.res 1 []), .one (.const ())]⟩).isNone ∧
      demoSem.forward ⟨[.one ()], [⟨.module true, [.res 0 []], .one none⟩], [.one (.res 1 []), .one (.const ())]⟩ [.one 3] = some [.one 4, .one 7] := by
  decide +kernel

end Verif.Props
