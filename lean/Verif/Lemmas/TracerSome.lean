import Verif.Lemmas.TracerGen

/-! Tracing succeeds (used by C81). -/

namespace Verif.Lemmas.Tracer
open Verif.Spec.Trace Verif.Model.Tracer

variable {F M K T : Type} [DecidableEq K]

/-- An object the tracer can deal with. -/
def Known (st : State F M K) (o : Obj K) : Prop := (∃ k, o = .const k) ∨ (st.preNode o).isSome

theorem constantHandler_some (nm : Naming F M K) {st : State F M K} {o : Obj K} (h : Known st o) : ∃ r, constantHandler nm st o = some r := by
  unfold constantHandler
  split
  · exact ⟨_, rfl⟩
  · next hn =>
    rcases h with ⟨k, rfl⟩ | h
    · exact ⟨_, rfl⟩
    · exact absurd h hn

theorem tensorName_some {U : String → Prop} (hU : NamesOk U) {nm : Naming F M K} (hnm : ConstsOk U nm) {s : Sem F M K T} {st : State F M K}
    {vals defs : List (Out T)} (h : Inv U s st vals defs) {o : Obj K} (hk : Known st o) :
    ∃ r vals', tensorName nm st o = some r ∧ Inv U s r.1 vals' defs ∧ Ext st r.1 vals vals' := by
  obtain ⟨⟨st1, b⟩, e⟩ := constantHandler_some nm hk
  obtain ⟨vals1, h1, x1, t1, -⟩ := constantHandler_inv hU hnm h e
  obtain ⟨name, hname⟩ := Option.isSome_iff_exists.1 t1
  obtain ⟨i, n, w, v, p1, p2, -⟩ := h1.track.pre o name hname
  refine ⟨(st1, if b then ⟨true, name, st1.preIdx o⟩ else ⟨isConst n.kind, name, st1.preIdx o⟩), vals1, ?_, h1, x1⟩
  unfold tensorName
  cases b <;> simp [e, hname, p1, p2]

omit [DecidableEq K] in
theorem Known.ext {st st' : State F M K} {vals vals' : List (Out T)} (hx : Ext st st' vals vals') {o : Obj K} (h : Known st o) : Known st' o := by
  rcases h with h | h
  · exact Or.inl h
  · exact Or.inr (by rw [hx.pre o h]; exact h)

theorem parseArgs_some {U : String → Prop} (hU : NamesOk U) {nm : Naming F M K} (hnm : ConstsOk U nm) {s : Sem F M K T} (args : List (Obj K)) :
    ∀ {st : State F M K} {vals defs : List (Out T)}, Inv U s st vals defs → (∀ o ∈ args, Known st o) → ∃ r, parseArgs nm st args = some r := by
  induction args with
  | nil => intro st vals defs _ _; exact ⟨_, rfl⟩
  | cons o os ih =>
    intro st vals defs h hk
    obtain ⟨r, vals1, e, h1, x1⟩ := tensorName_some hU hnm h (hk o (by simp))
    obtain ⟨rs, e2⟩ := ih h1 (fun o ho => (hk o (by simp [ho])).ext x1)
    exact ⟨_, by simp [parseArgs, e, e2]; rfl⟩

theorem readArgs_some {U : String → Prop} (hU : NamesOk U) {nm : Naming F M K} (hnm : ConstsOk U nm) {s : Sem F M K T} (args : List (Obj K)) :
    ∀ {st : State F M K} {vals defs : List (Out T)}, Inv U s st vals defs → (∀ o ∈ args, Known st o) → ∃ r, readArgs nm st args = some r := by
  induction args with
  | nil => intro st vals defs _ _; exact ⟨_, rfl⟩
  | cons o os ih =>
    intro st vals defs h hk
    obtain ⟨⟨st1, b⟩, e⟩ := constantHandler_some nm (hk o (by simp))
    obtain ⟨vals1, h1, x1, t1, -⟩ := constantHandler_inv hU hnm h e
    obtain ⟨name, hname⟩ := Option.isSome_iff_exists.1 t1
    obtain ⟨i, n, w, v, p1, p2, -⟩ := h1.track.pre o name hname
    obtain ⟨rs, e2⟩ := ih h1 (fun o ho => (hk o (by simp [ho])).ext x1)
    exact ⟨_, by simp [readArgs, e, hname, p1, e2]; rfl⟩

theorem mapM_some {α β : Type} {f : α → Option β} {l : List α} (h : ∀ a ∈ l, (f a).isSome) : ∃ r, l.mapM f = some r := by
  induction l with
  | nil => exact ⟨_, rfl⟩
  | cons a l ih =>
    obtain ⟨r, hr⟩ := ih (fun a ha => h a (by simp [ha]))
    obtain ⟨b, hb⟩ := Option.isSome_iff_exists.1 (h a (by simp))
    exact ⟨b :: r, by simp [List.mapM_cons, hb, hr]⟩

theorem mapM_isSome {α β : Type} {f : α → Option β} {l : List α} {r : List β} (h : l.mapM f = some r) : ∀ a ∈ l, (f a).isSome := by
  intro a ha
  obtain ⟨j, hj⟩ := List.mem_iff_getElem?.1 ha
  obtain ⟨b, -, hb⟩ := (mapM_get h).2 j a hj
  rw [hb]; rfl

omit [DecidableEq K] in
theorem resolve_some {s : Sem F M K T} {st : State F M K} {objs : List (Out (Obj K))} {defs : List (Out T)} (ho : ObjsOk s st objs defs) {r : Ref K}
    (h : (s.ref defs r).isSome) : (resolve objs r).isSome := by
  cases r with
  | const c => rfl
  | res d p =>
    simp only [Sem.ref] at h
    cases hd : defs[d]? with
    | none => rw [hd] at h; cases h
    | some v =>
      rw [hd] at h
      have hlt : d < objs.length := by rw [ho.len]; exact (List.getElem?_eq_some_iff.1 hd).1
      have hw := List.getElem?_eq_getElem hlt
      have := ho.same d _ v p hw hd
      simp only [resolve, hw, Option.bind_some, this]
      exact h

omit [DecidableEq K] in
theorem resolve_known {s : Sem F M K T} {st : State F M K} {objs : List (Out (Obj K))} {defs : List (Out T)} (ho : ObjsOk s st objs defs)
    {rs : List (Ref K)} {os : List (Obj K)} (e : rs.mapM (resolve objs) = some os) :
    ∀ o ∈ os, (st.preNode o).isSome ∨ ∃ k, o = .const k ∧ Ref.const k ∈ rs := by
  induction rs generalizing os with
  | nil => simp at e; subst e; simp
  | cons r rs ih =>
    simp only [List.mapM_cons, Option.bind_eq_bind, Option.bind_eq_some_iff, Option.pure_def, Option.some.injEq] at e
    obtain ⟨o, e1, os', e2, rfl⟩ := e
    intro o' ho'
    rcases List.mem_cons.1 ho' with rfl | ho'
    · cases r with
      | const c =>
        simp only [resolve, Option.some.injEq] at e1
        exact Or.inr ⟨c, e1.symm, by simp⟩
      | res d p =>
        simp only [resolve, Option.bind_eq_some_iff] at e1
        obtain ⟨w, w1, w2⟩ := e1
        exact Or.inl (ho.known d w p _ w1 w2).1
    · rcases ih e2 o' ho' with h | ⟨k, h1, h2⟩
      · exact Or.inl h
      · exact Or.inr ⟨k, h1, by simp [h2]⟩

theorem step_some {U : String → Prop} (hU : NamesOk U) {nm : Naming F M K} (hnm : ConstsOk U nm) (hmod : ModsOk U nm) {s : Sem F M K T}
    {st : State F M K} {vals defs : List (Out T)} {objs : List (Out (Obj K))} (h : Inv U s st vals defs)
    (ho : ObjsOk s st objs defs) {c : Call F M K} (hargs : (c.args.mapM (s.ref defs)).isSome) : ∃ r, step nm st objs c = some r := by
  obtain ⟨as, has⟩ := Option.isSome_iff_exists.1 hargs
  obtain ⟨args, ea⟩ := mapM_some (fun a ha => resolve_some ho (mapM_isSome has a ha))
  have hk : ∀ o ∈ args, Known st o := by
    intro o hoo
    rcases resolve_known ho ea o hoo with h | ⟨k, h, -⟩
    · exact Or.inr h
    · exact Or.inl ⟨k, h⟩
  obtain ⟨callee, cargs, co⟩ := c
  dsimp only at ea
  cases callee with
  | func f =>
    have hb := bump_Inv h (nm.kind f)
    obtain ⟨bf1, bf2, bf3, bf4⟩ := bump_frame st (nm.kind f)
    have hbu := bump_unused hU h.core.names (nm.kind f)
    obtain ⟨⟨st1, names⟩, e1⟩ := parseArgs_some hU hnm args hb hk
    obtain ⟨vals1, h1, hx, hk1, hf⟩ := parseArgs_inv hU hnm args hb e1
    have hgn : st1.gn (fnName (nm.kind f) (bump st (nm.kind f)).1) = none := by rw [hx.gnfn]; exact hbu
    obtain ⟨G, hg1, hg2⟩ := hx.gf _ _ bf2
    have husable : Usable U st1 (fnName (nm.kind f) (bump st (nm.kind f)).1) := Or.inr ⟨hgn, Or.inl ⟨_, _, G, rfl, hg1, hg2⟩⟩
    have hni := number_Inv h1 husable
    obtain ⟨-, -, -, -, -, -, f7, -⟩ := number_frame st1 (fnName (nm.kind f) (bump st (nm.kind f)).1)
    obtain ⟨r, e2⟩ := readArgs_some hU hnm args hni (fun o hoo => Or.inr (by rw [f7]; exact hk1 o hoo))
    exact ⟨_, by simp [step, ea, e1, addForward, e2]; rfl⟩
  | module m =>
    have hni := number_Inv h (b := nm.mod m) (Or.inl (hmod m))
    obtain ⟨-, -, -, -, -, -, f7, -⟩ := number_frame st (nm.mod m)
    obtain ⟨r, e2⟩ := readArgs_some hU hnm args hni (fun o hoo => (hk o hoo).imp id (fun h => by rw [f7]; exact h))
    exact ⟨_, by simp [step, ea, addForward, e2]; rfl⟩

theorem steps_some {U : String → Prop} (hU : NamesOk U) {nm : Naming F M K} (hnm : ConstsOk U nm) (hmod : ModsOk U nm) {s : Sem F M K T}
    (cs : List (Call F M K)) (hfits : ∀ c ∈ cs, ∀ as : List T, as.length = c.args.length → Fits c.out as (s.call c.callee as)) :
    ∀ {st : State F M K} {vals defs : List (Out T)} {objs : List (Out (Obj K))}, Inv U s st vals defs → st.outputs = [] →
      ObjsOk s st objs defs → (s.run cs defs).isSome → ∃ r, steps nm st objs cs = some r := by
  induction cs with
  | nil => intro st vals defs objs _ _ _ _; exact ⟨_, rfl⟩
  | cons c cs ih =>
    intro st vals defs objs h hout ho hr
    simp only [Sem.run] at hr
    cases ha : c.args.mapM (s.ref defs) with
    | none => rw [ha] at hr; cases hr
    | some as =>
      rw [ha] at hr
      simp only [Option.bind_some] at hr
      obtain ⟨⟨st1, objs1⟩, e1⟩ := step_some hU hnm hmod h ho (c := c) (by rw [ha]; rfl)
      obtain ⟨vals1, as', a1, a2, a3, a4, -⟩ := step_inv hU hnm hmod h hout ho (hfits c (by simp)) e1
      rw [ha] at a1
      cases a1
      obtain ⟨r, e2⟩ := ih (fun c hc => hfits c (by simp [hc])) a2 a3 a4 hr
      exact ⟨r, by simp [steps, e1, e2]⟩

theorem addOutput_some {U : String → Prop} (hU : NamesOk U) {s : Sem F M K T} {st : State F M K} {vals defs : List (Out T)}
    {objs : List (Out (Obj K))} (h : Inv U s st vals defs) (ho : ObjsOk s st objs defs) {r : OutRef K} (hr : (s.outRef defs r).isSome)
    (hc : ∀ k, Ref.const k ∈ outRefs r → (st.preNode (.const k)).isSome) : ∃ st', addOutput st objs r = some st' := by
  have hrefs : ∀ a ∈ outRefs r, (s.ref defs a).isSome := by
    cases r with
    | one r =>
      intro a ha
      simp only [outRefs, List.mem_singleton] at ha
      subst ha
      simpa [Sem.outRef] using hr
    | list rs =>
      simp only [Sem.outRef, Option.isSome_map] at hr
      obtain ⟨_, hx⟩ := Option.isSome_iff_exists.1 hr
      exact mapM_isSome hx
  obtain ⟨os, e1⟩ := mapM_some (fun a ha => resolve_some ho (hrefs a ha))
  have hb := bump_Inv h "output"
  obtain ⟨bf1, bf2, bf3, bf4⟩ := bump_frame st "output"
  have hbu := bump_unused hU h.core.names "output"
  have husable : Usable U (bump st "output").2 (fnName "output" (bump st "output").1) := Or.inr ⟨hbu, Or.inl ⟨_, _, _, rfl, bf2, Nat.le_refl _⟩⟩
  obtain ⟨-, -, -, -, -, -, f7, -⟩ := number_frame (bump st "output").2 (fnName "output" (bump st "output").1)
  have hni := number_Inv hb husable
  obtain ⟨ps, e2⟩ := mapM_some (f := readOut (number (bump st "output").2 (fnName "output" (bump st "output").1)).2) (l := os) (by
    intro o hoo
    have hk : (st.preNode o).isSome := by
      rcases resolve_known ho e1 o hoo with h | ⟨k, rfl, hk⟩
      · exact h
      · exact hc k hk
    have hk' : ((number (bump st "output").2 (fnName "output" (bump st "output").1)).2.preNode o).isSome := by rw [f7]; exact hk
    obtain ⟨x, hx⟩ := Option.isSome_iff_exists.1 hk'
    obtain ⟨i, n, w, v, p1, -⟩ := hni.track.pre o x hx
    simp [readOut, hx, p1])
  exact ⟨_, by simp [addOutput, e1, e2]; rfl⟩

theorem addOutputs_some {U : String → Prop} (hU : NamesOk U) {s : Sem F M K T} {objs : List (Out (Obj K))} {defs : List (Out T)} (rs : List (OutRef K)) :
    ∀ {st : State F M K} {vals : List (Out T)}, Inv U s st vals defs → ObjsOk s st objs defs → (∀ r ∈ rs, (s.outRef defs r).isSome) →
      (∀ r ∈ rs, ∀ k, Ref.const k ∈ outRefs r → (st.preNode (.const k)).isSome) →
      ∃ st', rs.foldlM (fun st o => addOutput st objs o) st = some st' := by
  induction rs with
  | nil => intro st vals _ _ _ _; exact ⟨_, rfl⟩
  | cons r rs ih =>
    intro st vals h ho hr hc
    obtain ⟨st1, e1⟩ := addOutput_some hU h ho (hr r (by simp)) (hc r (by simp))
    obtain ⟨v, a1, a2, a3, a4, a5, a6, a7⟩ := addOutput_inv hU h ho e1
    obtain ⟨st', e2⟩ := ih a2 (ho.frame a3) (fun r hr' => hr r (by simp [hr'])) (fun r hr' => by rw [a3]; exact hc r (by simp [hr']))
    exact ⟨st', by simp [List.foldlM_cons, e1, e2]⟩

end Verif.Lemmas.Tracer
