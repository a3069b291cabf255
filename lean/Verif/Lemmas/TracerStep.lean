import Verif.Lemmas.TracerInv

/-! One step of tracing (used by C81). -/

namespace Verif.Lemmas.Tracer
open Verif.Spec.Trace Verif.Model.Tracer

variable {F M K T : Type} [DecidableEq K]

theorem setOuts_frame (st : State F M K) (name : String) (ls : List (Path × Obj K)) :
    (setOuts st name ls).nodes = st.nodes ∧ (setOuts st name ls).inputs = st.inputs ∧ (setOuts st name ls).forward = st.forward ∧
      (setOuts st name ls).outputs = st.outputs ∧ (setOuts st name ls).consts = st.consts ∧ (setOuts st name ls).nodesMap = st.nodesMap ∧
      (setOuts st name ls).gf = st.gf ∧ (setOuts st name ls).gn = st.gn := by
  induction ls generalizing st with
  | nil => simp [setOuts]
  | cons l ls ih =>
    have := ih { st with preNode := upd st.preNode l.2 (some name), preIdx := if l.1 = [] then st.preIdx else upd st.preIdx l.2 l.1 }
    simpa [setOuts] using this

theorem setOuts_seq (name : String) (ls : List (Path × Obj K)) (hne : ∀ l ∈ ls, l.1 ≠ []) (st : State F M K) :
    (∀ o, (∃ p, (p, o) ∈ ls) → (setOuts st name ls).preNode o = some name ∧ ((setOuts st name ls).preIdx o, o) ∈ ls) ∧
      (∀ o, (∀ p, (p, o) ∉ ls) → (setOuts st name ls).preNode o = st.preNode o ∧ (setOuts st name ls).preIdx o = st.preIdx o) := by
  induction ls generalizing st with
  | nil => simp [setOuts]
  | cons l ls ih =>
    obtain ⟨h1, h2⟩ := ih (fun l' hl' => hne l' (by simp [hl']))
      { st with preNode := upd st.preNode l.2 (some name), preIdx := if l.1 = [] then st.preIdx else upd st.preIdx l.2 l.1 }
    have e : setOuts st name (l :: ls) =
        setOuts { st with preNode := upd st.preNode l.2 (some name), preIdx := if l.1 = [] then st.preIdx else upd st.preIdx l.2 l.1 } name ls := rfl
    rw [e]
    constructor
    · rintro o ⟨p, hp⟩
      by_cases hex : ∃ p, (p, o) ∈ ls
      · obtain ⟨a1, a2⟩ := h1 o hex
        exact ⟨a1, List.mem_cons_of_mem _ a2⟩
      · have hno : ∀ p, (p, o) ∉ ls := fun p hp => hex ⟨p, hp⟩
        obtain ⟨a1, a2⟩ := h2 o hno
        rcases List.mem_cons.1 hp with hp | hp
        · subst hp
          rw [a1, a2]
          refine ⟨by simp [upd], ?_⟩
          dsimp only
          rw [if_neg (show ¬ p = [] from hne (p, o) (by simp))]
          simp [upd]
        · exact absurd hp (hno p)
    · intro o ho
      obtain ⟨a1, a2⟩ := h2 o (fun p hp => ho p (List.mem_cons_of_mem _ hp))
      have hol : o ≠ l.2 := by
        rintro rfl
        exact ho l.1 (by simp)
      rw [a1, a2]
      refine ⟨by simp [upd, hol], ?_⟩
      dsimp only
      split
      · rfl
      · simp [upd, hol]

theorem setOuts_spec (st : State F M K) (name : String) (outs : Out (Obj K)) (hclean : ∀ o, outs = .one o → st.preIdx o = []) :
    (∀ p o, outs.get p = some o → (setOuts st name (leaves outs)).preNode o = some name ∧
      outs.get ((setOuts st name (leaves outs)).preIdx o) = some o) ∧
      (∀ o, (∀ p, outs.get p ≠ some o) → (setOuts st name (leaves outs)).preNode o = st.preNode o ∧
        (setOuts st name (leaves outs)).preIdx o = st.preIdx o) := by
  cases outs with
  | one a =>
    constructor
    · intro p o h
      have hp : p = [] ∧ o = a := by
        cases p <;> simp [Out.get] at h
        exact ⟨rfl, h.symm⟩
      obtain ⟨rfl, rfl⟩ := hp
      simp [leaves, setOuts, upd, hclean o rfl, Out.get]
    · intro o h
      have ho : o ≠ a := by
        rintro rfl
        exact h [] rfl
      simp [leaves, setOuts, upd, ho]
  | seq xs =>
    obtain ⟨h1, h2⟩ := setOuts_seq name (leaves (.seq xs)) (by
      rintro ⟨p, o⟩ hl rfl
      have := (mem_leaves _ _ _).1 hl
      simp [Out.get] at this) st
    constructor
    · intro p o h
      obtain ⟨a1, a2⟩ := h1 o ⟨p, (mem_leaves _ _ _).2 h⟩
      exact ⟨a1, (mem_leaves _ _ _).1 a2⟩
    · intro o h
      exact h2 o (fun p hp => h p ((mem_leaves _ _ _).1 hp))

omit [DecidableEq K] in
theorem ref_mono {s : Sem F M K T} {defs : List (Out T)} {r : Ref K} {v : T} (h : s.ref defs r = some v) (l : List (Out T)) :
    s.ref (defs ++ l) r = some v := by
  cases r with
  | const c => exact h
  | res d p =>
    simp only [Sem.ref, Option.bind_eq_some_iff] at h ⊢
    obtain ⟨o, h1, h2⟩ := h
    exact ⟨o, getElem?_append_some h1, h2⟩

omit [DecidableEq K] in
theorem mapM_get {α β : Type} {f : α → Option β} : ∀ {l : List α} {r : List β}, l.mapM f = some r →
    r.length = l.length ∧ ∀ (j : Nat) (a : α), l[j]? = some a → ∃ b, r[j]? = some b ∧ f a = some b := by
  intro l
  induction l with
  | nil => intro r h; simp at h; subst h; simp
  | cons a l ih =>
    intro r h
    simp only [List.mapM_cons, Option.bind_eq_bind, Option.bind_eq_some_iff, Option.pure_def, Option.some.injEq] at h
    obtain ⟨b, h1, bs, h2, rfl⟩ := h
    obtain ⟨l1, l2⟩ := ih h2
    refine ⟨by simp [l1], ?_⟩
    intro j a' hj
    cases j with
    | zero => simp at hj; subst hj; exact ⟨b, by simp, h1⟩
    | succ j => simpa using l2 j a' (by simpa using hj)

theorem names_zip {st : State F M K} {args : List (Obj K)} {names : List NameRef} {prev : List Nat}
    (hf : List.Forall₂ (fun o r => ∀ i, (st.preNode o).bind st.nodesMap = some i → r = refOf st.nodes i (st.preIdx o)) args names)
    (k1 : List.Forall₂ (fun o i => (st.preNode o).bind st.nodesMap = some i) args prev) :
    names = List.zipWith (refOf st.nodes) prev (args.map st.preIdx) := by
  induction hf generalizing prev with
  | nil => cases k1; rfl
  | cons hh _ ih =>
    cases k1 with
    | cons q1 q2 =>
      simp only [List.map_cons, List.zipWith_cons_cons, List.cons.injEq]
      exact ⟨hh _ q1, ih q2⟩

/-- The node kind of a call. -/
def kindOf : Callee F M → Kind F M K
  | .func f => .func f
  | .module m => .module m

theorem addForward_inv {U : String → Prop} (hU : NamesOk U) {nm : Naming F M K} (hnm : ConstsOk U nm) {s : Sem F M K T} {st st' : State F M K}
    {vals defs : List (Out T)} (h : Inv U s st vals defs) (hout : st.outputs = []) {name : String} (pend : Issued st.gn name)
    (hn : ∀ m ∈ st.nodes, m.name ≠ name) (c : Callee F M) {names : List NameRef} {args : List (Obj K)} {outs : Out (Obj K)}
    {co : Out (Option Nat)}
    (hnames : ∀ f, c = .func f → (∀ o ∈ args, (st.preNode o).isSome) ∧
      List.Forall₂ (fun o r => ∀ i, (st.preNode o).bind st.nodesMap = some i → r = refOf st.nodes i (st.preIdx o)) args names)
    (ha : ∀ p o, outs.get p = some o → o = .tmp defs.length p ∨ ∃ j, co.get p = some (some j) ∧ args[j]? = some o)
    (hs : ∀ p, (outs.get p).isSome = (co.get p).isSome)
    (hclean : ∀ o, outs = .one o → st.preIdx o = [])
    (hfits : ∀ as : List T, as.length = args.length → Fits co as (s.call c as))
    (e : addForward nm st name (kindOf c) names args outs = some st') :
    ∃ vals' as, args.mapM (fun o => s.ref defs (toRef o)) = some as ∧ Inv U s st' vals' (defs ++ [s.call c as]) ∧ st'.outputs = [] ∧
      (∀ o, (st.preNode o).isSome → (st'.preNode o).isSome) ∧
      (∀ p o, outs.get p = some o → (st'.preNode o).isSome ∧ s.ref (defs ++ [s.call c as]) (toRef o) = (s.call c as).get p) ∧
      st'.inputs = st.inputs ∧ (∃ l, vals' = vals ++ l) ∧ ∀ o ∈ args, (st'.preNode o).isSome := by
  simp only [addForward, Option.bind_eq_bind, Option.bind_eq_some_iff, Option.some.injEq] at e
  obtain ⟨⟨st1, prev, idx⟩, e1, e2⟩ := e
  dsimp only at e2
  obtain ⟨vals1, as, hinv, hx, hm, hr, ht⟩ := readArgs_inv hU hnm args h e1
  set val := s.call c as with hval
  obtain ⟨hlen, hget⟩ := mapM_get hm
  have hfit := hfits as hlen
  set st2 := setOuts st1 name (leaves outs) with hst2
  obtain ⟨g1, g2, g3, g4, g5, g6, g7, g8⟩ := setOuts_frame st1 name (leaves outs)
  rw [← hst2] at g1 g2 g3 g4 g5 g6 g7 g8
  obtain ⟨sp1, sp2⟩ := setOuts_spec st1 name outs (by rw [hx.idx]; exact hclean)
  rw [← hst2] at sp1 sp2
  set n : TNode F M K := ⟨name, kindOf c, prev, idx, names, false⟩ with hnd
  obtain ⟨pend1, hn1⟩ := hx.pend name pend hn
  have hvlen : vals1.length = st2.nodes.length := by rw [g1]; exact hinv.core.len
  have hgetv : (vals1 ++ [val])[st2.nodes.length]? = some val := by rw [← hvlen]; simp
  have hcore2 : Core U s st2 vals1 :=
    ⟨⟨by rw [g8]; exact hinv.core.names.big, by rw [g8, g7]; exact hinv.core.names.src, by rw [g8, g1]; exact hinv.core.names.nodes⟩, hvlen,
      by rw [g6, g1]; exact hinv.core.map, by rw [g1]; exact hinv.core.node⟩
  have hcore : Core U s (push st2 n) (vals1 ++ [val]) := by
    refine hcore2.push (by rw [g8]; exact pend1) (by rw [g1]; exact hn1) ?_
    rw [g1] at hgetv ⊢
    cases c with
    | module m => exact ⟨as, hr.mono _ _, hgetv, hr.lt⟩
    | func f =>
      refine ⟨as, hr.mono _ _, hgetv, ?_, hr.lt⟩
      rw [hr.refOf_mono]
      obtain ⟨hk, hf⟩ := hnames f rfl
      obtain ⟨rfl, k1, k2⟩ := readArgs_known args hk e1
      show names = _
      rw [k2]
      exact names_zip hf k1
  have hisout : isOut n.kind = false := by cases c <;> rfl
  have hmn : st2.nodesMap n.name = none := by rw [g6]; exact nodesMap_none hinv.core hn1
  have hrefout : ∀ p o, outs.get p = some o → s.ref (defs ++ [val]) (toRef o) = val.get p := by
    intro p o hp
    rcases ha p o hp with rfl | ⟨j, hj1, hj2⟩
    · simp [toRef, Sem.ref]
    · obtain ⟨b, hb1, hb2⟩ := hget j o hj2
      rw [ref_mono hb2, hfit.2 p j hj1, hb1]
  have hvget : ∀ p o, outs.get p = some o → ∃ v, val.get p = some v := by
    intro p o hp
    have h1 := hfit.1 p
    rw [← hs p, hp] at h1
    exact Option.isSome_iff_exists.1 h1.symm
  have hkn : ∀ o, (st1.preNode o).isSome → (st2.preNode o).isSome := by
    intro o ho
    by_cases hex : ∃ p', outs.get p' = some o
    · obtain ⟨p', hp'⟩ := hex
      rw [(sp1 p' o hp').1]; rfl
    · rw [(sp2 o (fun p' hp' => hex ⟨p', hp'⟩)).1]; exact ho
  refine ⟨vals1 ++ [val], as, hm, ?_, ?_, ?_, ?_, ?_, ?_, ?_⟩
  · subst e2
    refine ⟨⟨⟨hcore.names.big, hcore.names.src, hcore.names.nodes⟩, hcore.len, hcore.map, hcore.node⟩, ⟨?_, ?_, ?_⟩, ?_⟩
    · intro o x ho
      have ho' : st2.preNode o = some x := ho
      by_cases hex : ∃ p, outs.get p = some o
      · obtain ⟨p, hp⟩ := hex
        obtain ⟨a1, a2⟩ := sp1 p o hp
        rw [a1] at ho'
        cases ho'
        obtain ⟨v, hv⟩ := hvget _ o a2
        refine ⟨st2.nodes.length, n, val, v, ?_, ?_, hisout, hgetv, ?_, ?_⟩
        · simp [push, upd, hnd]
        · simp [push]
        · exact hv
        · rw [hrefout _ o a2]; exact hv
      · have hno : ∀ p, outs.get p ≠ some o := fun p hp => hex ⟨p, hp⟩
        obtain ⟨a1, a2⟩ := sp2 o hno
        rw [a1] at ho'
        obtain ⟨i, m, w, v, p1, p2, p3, p4, p5, p6⟩ := hinv.track.pre o x ho'
        refine ⟨i, m, w, v, ?_, ?_, p3, getElem?_append_some p4, ?_, ref_mono p6 _⟩
        · have hxn : x ≠ n.name := by
            rintro rfl
            rw [g6] at hmn
            rw [hmn] at p1; cases p1
          simp only [push, upd, g6]
          rw [if_neg hxn]; exact p1
        · simp only [push, g1]
          exact getElem?_append_some p2
        · show w.get (st2.preIdx o) = _
          rw [a2]; exact p5
    · intro d p hd
      have hd' : (st2.preNode (.tmp d p)).isSome := hd
      rw [List.length_append, List.length_singleton]
      by_cases hex : ∃ p', outs.get p' = some (.tmp d p)
      · obtain ⟨p', hp'⟩ := hex
        rcases ha p' _ hp' with he | ⟨j, hj1, hj2⟩
        · cases he; omega
        · obtain ⟨b, hb1, hb2⟩ := hget j _ hj2
          simp only [toRef, Sem.ref, Option.bind_eq_some_iff] at hb2
          obtain ⟨o', ho', -⟩ := hb2
          have := (List.getElem?_eq_some_iff.1 ho').1
          omega
      · rw [(sp2 _ (fun p' hp' => hex ⟨p', hp'⟩)).1] at hd'
        have := hinv.track.fresh d p hd'
        omega
    · intro o ho
      have ho' : st2.preNode o = none := ho
      show st2.preIdx o = []
      by_cases hex : ∃ p', outs.get p' = some o
      · obtain ⟨p', hp'⟩ := hex
        rw [(sp1 p' o hp').1] at ho'; cases ho'
      · obtain ⟨a1, a2⟩ := sp2 o (fun p' hp' => hex ⟨p', hp'⟩)
        rw [a2]
        rw [a1] at ho'
        exact hinv.track.clean o ho'
    · have hl := hinv.lists
      have ho1 : st1.outputs = [] := by rw [hx.outputs]; exact hout
      have hord1 : order st1 = st1.inputs ++ st1.forward := by simp [order, ho1]
      have eord : ∀ st4 : State F M K, st4 = { push st2 n with forward := (push st2 n).forward ++ [st2.nodes.length] } →
          order st4 = order st1 ++ [st1.nodes.length] := by
        rintro st4 rfl
        simp [order, push, g2, g3, g4, ho1, g1]
      refine ⟨?_, ?_, ?_, ?_, ?_, ?_, ?_⟩
      · rw [eord _ rfl]
        refine List.pairwise_append.2 ⟨hl.sorted, by simp, ?_⟩
        intro a ha' b hb'
        rw [List.mem_singleton.1 hb']
        exact hl.bound a ha'
      · simp only [push, g5]; exact hl.csorted
      · rw [eord _ rfl]
        intro i hi
        simp only [push, g1]
        rcases List.mem_append.1 hi with hi | hi
        · have := hl.bound i hi
          simp; omega
        · rw [List.mem_singleton.1 hi]; simp
      · intro i m hm'
        simp only [push, g1] at hm'
        rcases (getElem?_snoc _ _ _ _).1 hm' with hm' | ⟨rfl, rfl⟩
        · have := hl.cls i m hm'
          revert this
          cases m.kind <;> simp only [Placed, push, g2, g3, g4, g5, List.mem_append] <;> tauto
        · cases c <;> simp [Placed, hnd, kindOf, push, g1]
      · intro i hi
        simp only [push, g2] at hi
        obtain ⟨m, m1, m2⟩ := hl.inp i hi
        exact ⟨m, by simp only [push, g1]; exact getElem?_append_some m1, m2⟩
      · intro i hi
        simp only [push, g3, g1] at hi
        rcases List.mem_append.1 hi with hi | hi
        · obtain ⟨m, m1, m2⟩ := hl.fwd i hi
          exact ⟨m, by simp only [push, g1]; exact getElem?_append_some m1, m2⟩
        · rw [List.mem_singleton.1 hi]
          refine ⟨n, by simp [push, g1], ?_⟩
          cases c with
          | func f => exact Or.inl ⟨f, rfl⟩
          | module m => exact Or.inr ⟨m, rfl⟩
      · intro i hi
        simp only [push, g5] at hi
        obtain ⟨m, k, m1, m2⟩ := hl.con i hi
        exact ⟨m, k, by simp only [push, g1]; exact getElem?_append_some m1, m2⟩
  · subst e2
    show st2.outputs = []
    rw [g4, hx.outputs, hout]
  · subst e2
    intro o ho
    show (st2.preNode o).isSome
    by_cases hex : ∃ p', outs.get p' = some o
    · obtain ⟨p', hp'⟩ := hex
      rw [(sp1 p' o hp').1]; rfl
    · rw [(sp2 o (fun p' hp' => hex ⟨p', hp'⟩)).1, hx.pre o ho]; exact ho
  · subst e2
    intro p o hp
    exact ⟨by show (st2.preNode o).isSome; rw [(sp1 p o hp).1]; rfl, hrefout p o hp⟩
  · subst e2
    show st2.inputs = _
    rw [g2, hx.inputs]
  · obtain ⟨l, hl⟩ := hx.vals
    exact ⟨l ++ [val], by rw [hl]; simp⟩
  · subst e2
    exact fun o ho => hkn o (ht o ho)

/-! ### Steps -/

/-- The objects of the program and their values. -/
structure ObjsOk (s : Sem F M K T) (st : State F M K) (objs : List (Out (Obj K))) (defs : List (Out T)) : Prop where
  len : objs.length = defs.length
  known : ∀ (d : Nat) (w : Out (Obj K)) (p : Path) (o : Obj K), objs[d]? = some w → w.get p = some o → (st.preNode o).isSome ∧ s.ref defs (toRef o) = s.ref defs (.res d p)
  same : ∀ (d : Nat) (w : Out (Obj K)) (v : Out T) (p : Path), objs[d]? = some w → defs[d]? = some v → (w.get p).isSome = (v.get p).isSome

theorem resolve_ref {s : Sem F M K T} {st : State F M K} {objs : List (Out (Obj K))} {defs : List (Out T)} (h : ObjsOk s st objs defs) {r : Ref K}
    {o : Obj K} (e : resolve objs r = some o) : s.ref defs r = s.ref defs (toRef o) := by
  cases r with
  | const c =>
    simp only [resolve, Option.some.injEq] at e
    subst e; rfl
  | res d p =>
    simp only [resolve, Option.bind_eq_some_iff] at e
    obtain ⟨w, e1, e2⟩ := e
    exact (h.known d w p o e1 e2).2.symm

theorem resolve_refs {s : Sem F M K T} {st : State F M K} {objs : List (Out (Obj K))} {defs : List (Out T)} (h : ObjsOk s st objs defs) :
    ∀ {rs : List (Ref K)} {os : List (Obj K)}, rs.mapM (resolve objs) = some os →
      rs.mapM (s.ref defs) = os.mapM (fun o => s.ref defs (toRef o)) := by
  intro rs
  induction rs with
  | nil => intro os e; simp at e; subst e; rfl
  | cons r rs ih =>
    intro os e
    simp only [List.mapM_cons, Option.bind_eq_bind, Option.bind_eq_some_iff, Option.pure_def, Option.some.injEq] at e
    obtain ⟨o, e1, os', e2, rfl⟩ := e
    simp only [List.mapM_cons, resolve_ref h e1, ih e2]

theorem bump_Inv {U : String → Prop} {s : Sem F M K T} {st : State F M K} {vals defs : List (Out T)} (h : Inv U s st vals defs) (kind : String) :
    Inv U s (bump st kind).2 vals defs :=
  ⟨⟨bump_inv h.core.names kind, h.core.len, h.core.map, h.core.node⟩, ⟨h.track.pre, h.track.fresh, h.track.clean⟩,
    ⟨h.lists.sorted, h.lists.csorted, h.lists.bound, h.lists.cls, h.lists.inp, h.lists.fwd, h.lists.con⟩⟩

theorem number_Inv {U : String → Prop} {s : Sem F M K T} {st : State F M K} {vals defs : List (Out T)} (h : Inv U s st vals defs) {b : String}
    (hb : Usable U st b) : Inv U s (number st b).2 vals defs := by
  have hi := number_inv h.core.names hb
  obtain ⟨f1, f2, f3, f4, f5, f6, f7, f8, f9⟩ := number_frame st b
  generalize (number st b).2 = st' at hi f1 f2 f3 f4 f5 f6 f7 f8 f9
  obtain ⟨n1, n2, n3, n4, n5, n6, n7, n8, n9, n10⟩ := st'
  dsimp only at f1 f2 f3 f4 f5 f6 f7 f8 f9
  subst f1 f2 f3 f4 f5 f6 f7 f8 f9
  exact ⟨⟨hi, h.core.len, h.core.map, h.core.node⟩, ⟨h.track.pre, h.track.fresh, h.track.clean⟩,
    ⟨h.lists.sorted, h.lists.csorted, h.lists.bound, h.lists.cls, h.lists.inp, h.lists.fwd, h.lists.con⟩⟩

theorem outs_ok {st : State F M K} (d : Nat) (args : List (Obj K)) (co : Out (Option Nat)) :
    (∀ p o, (noopHandler st d (rawOuts d args co)).get p = some o → o = .tmp d p ∨ ∃ j, co.get p = some (some j) ∧ args[j]? = some o) ∧
      (∀ p, ((noopHandler st d (rawOuts d args co)).get p).isSome = (co.get p).isSome) ∧
      (∀ o, noopHandler st d (rawOuts d args co) = .one o → o = .tmp d [] ∨ st.preNode o = none) := by
  have key : ∀ p, (noopHandler st d (rawOuts d args co)).get p = ((co.get p).map (fun l => match l with
    | some j => args.getD j (.tmp d p)
    | none => .tmp d p)).map (fun o => if p.length < 2 ∧ (st.preNode o).isSome then .tmp d p else o) := by
    intro p
    simp only [noopHandler, rawOuts, mapPath_get]
    rfl
  have raw : ∀ (l : Option Nat) (p : Path) (o : Obj K), (match l with
    | some j => args.getD j (.tmp d p)
    | none => .tmp d p) = o → o = .tmp d p ∨ ∃ j, l = some j ∧ args[j]? = some o := by
    rintro (_ | j) p o rfl
    · exact Or.inl rfl
    · dsimp only
      rw [List.getD_eq_getElem?_getD]
      cases hj : args[j]? with
      | none => left; rfl
      | some a => right; exact ⟨j, rfl, by simpa using hj⟩
  refine ⟨?_, ?_, ?_⟩
  · intro p o h
    rw [key] at h
    cases hc : co.get p with
    | none => rw [hc] at h; simp at h
    | some l =>
      rw [hc] at h
      simp only [Option.map_some, Option.some.injEq] at h
      split_ifs at h
      · exact Or.inl h.symm
      · rcases raw l p o h with h | ⟨j, rfl, hj⟩
        · exact Or.inl h
        · exact Or.inr ⟨j, rfl, hj⟩
  · intro p
    rw [key]
    cases co.get p <;> simp
  · intro o h
    have h1 := key []
    rw [h, show (Out.one o).get [] = some o from rfl] at h1
    cases hc : co.get [] with
    | none => rw [hc] at h1; simp at h1
    | some l =>
      rw [hc] at h1
      simp only [Option.map_some, Option.some.injEq, List.length_nil, Nat.zero_lt_two, true_and] at h1
      split_ifs at h1
      · exact Or.inl h1
      · rename_i hh
        right
        rw [h1]
        exact Option.not_isSome_iff_eq_none.1 hh

/-- The names used by the model are in `U`. -/
def ModsOk (U : String → Prop) (nm : Naming F M K) : Prop := ∀ m, U (nm.mod m)

theorem step_inv {U : String → Prop} (hU : NamesOk U) {nm : Naming F M K} (hnm : ConstsOk U nm) (hmod : ModsOk U nm) {s : Sem F M K T}
    {st st' : State F M K} {vals defs : List (Out T)} {objs objs' : List (Out (Obj K))} (h : Inv U s st vals defs) (hout : st.outputs = [])
    (ho : ObjsOk s st objs defs) {c : Call F M K} (hfits : ∀ as : List T, as.length = c.args.length → Fits c.out as (s.call c.callee as))
    (e : step nm st objs c = some (st', objs')) :
    ∃ vals' as, c.args.mapM (s.ref defs) = some as ∧ Inv U s st' vals' (defs ++ [s.call c.callee as]) ∧ st'.outputs = [] ∧
      ObjsOk s st' objs' (defs ++ [s.call c.callee as]) ∧ st'.inputs = st.inputs ∧ (∃ l, vals' = vals ++ l) ∧
      (∀ o, (st.preNode o).isSome → (st'.preNode o).isSome) ∧ ∀ k, Ref.const k ∈ c.args → (st'.preNode (.const k)).isSome := by
  obtain ⟨callee, cargs, co⟩ := c
  dsimp only at hfits
  simp only [step, Option.bind_eq_bind, Option.bind_eq_some_iff] at e
  obtain ⟨args, ea, e⟩ := e
  have hlen := (mapM_get ea).1
  have fin : ∀ (st1 : State F M K) (vals1 : List (Out T)) (outs : Out (Obj K)), (∀ o, (st.preNode o).isSome → (st1.preNode o).isSome) →
      st1.inputs = st.inputs → (∃ l, vals1 = vals ++ l) →
      (∀ p, (outs.get p).isSome = (co.get p).isSome) → objs' = objs ++ [outs] →
      (∃ vals' as, args.mapM (fun o => s.ref defs (toRef o)) = some as ∧ Inv U s st' vals' (defs ++ [s.call callee as]) ∧ st'.outputs = [] ∧
      (∀ o, (st1.preNode o).isSome → (st'.preNode o).isSome) ∧
      (∀ p o, outs.get p = some o → (st'.preNode o).isSome ∧ s.ref (defs ++ [s.call callee as]) (toRef o) = (s.call callee as).get p) ∧
      st'.inputs = st1.inputs ∧ (∃ l, vals' = vals1 ++ l) ∧ ∀ o ∈ args, (st'.preNode o).isSome) →
      ∃ vals' as, cargs.mapM (s.ref defs) = some as ∧ Inv U s st' vals' (defs ++ [s.call callee as]) ∧ st'.outputs = [] ∧
      ObjsOk s st' objs' (defs ++ [s.call callee as]) ∧ st'.inputs = st.inputs ∧ (∃ l, vals' = vals ++ l) ∧
      (∀ o, (st.preNode o).isSome → (st'.preNode o).isSome) ∧ ∀ k, Ref.const k ∈ cargs → (st'.preNode (.const k)).isSome := by
    rintro st1 vals1 outs hk hin ⟨lv, hlv⟩ hsame rfl ⟨vals', as, h1, h2, h3, h4, h5, h6, ⟨l, h7⟩, h8⟩
    refine ⟨vals', as, by rw [resolve_refs ho ea]; exact h1, h2, h3, ⟨by simp [ho.len], ?_, ?_⟩, by rw [h6, hin],
      ⟨lv ++ l, by rw [h7, hlv, List.append_assoc]⟩, fun o hko => h4 o (hk o hko), ?_⟩
    · intro d w p o hd hp
      rcases (getElem?_snoc _ _ _ _).1 hd with hd | ⟨rfl, rfl⟩
      · obtain ⟨q1, q2⟩ := ho.known d w p o hd hp
        refine ⟨h4 o (hk o q1), ?_⟩
        have hlt : d < defs.length := by rw [← ho.len]; exact (List.getElem?_eq_some_iff.1 hd).1
        have hdv : defs[d]? = some defs[d] := List.getElem?_eq_getElem hlt
        have hs' := ho.same d w _ p hd hdv
        rw [hp] at hs'
        obtain ⟨v, hv⟩ := Option.isSome_iff_exists.1 hs'.symm
        have hr : s.ref defs (.res d p) = some v := by simp only [Sem.ref, hdv, Option.bind_some, hv]
        rw [ref_mono hr, ref_mono (q2.trans hr)]
      · obtain ⟨q1, q2⟩ := h5 p o hp
        refine ⟨q1, ?_⟩
        rw [q2]
        simp [Sem.ref, ho.len]
    · intro d w v p hd hv
      rcases (getElem?_snoc _ _ _ _).1 hd with hd | ⟨rfl, rfl⟩
      · have hlt : d < defs.length := by rw [← ho.len]; exact (List.getElem?_eq_some_iff.1 hd).1
        rw [List.getElem?_append_left hlt] at hv
        exact ho.same d w v p hd hv
      · rw [ho.len] at hv
        simp only [List.getElem?_concat_length, Option.some.injEq] at hv
        subst hv
        rw [hsame]
        exact (hfits as ((mapM_get h1).1.trans hlen)).1 p
    · intro k hk'
      obtain ⟨j, hj⟩ := List.mem_iff_getElem?.1 hk'
      obtain ⟨b, hb1, hb2⟩ := (mapM_get ea).2 j _ hj
      simp only [resolve, Option.some.injEq] at hb2
      subst hb2
      exact h8 _ (List.mem_of_getElem? hb1)
  cases callee with
  | func f =>
    simp only [Option.bind_eq_some_iff, Option.some.injEq, Prod.mk.injEq] at e
    obtain ⟨⟨st1, names⟩, e1, st2, e2, rfl, rfl⟩ := e
    dsimp only at e2
    have hb := bump_Inv h (nm.kind f)
    obtain ⟨bf1, bf2, bf3, bf4⟩ := bump_frame st (nm.kind f)
    have hbu := bump_unused hU h.core.names (nm.kind f)
    obtain ⟨vals1, h1, hx, hk, hf⟩ := parseArgs_inv hU hnm args hb e1
    have hgn : st1.gn (fnName (nm.kind f) (bump st (nm.kind f)).1) = none := by rw [hx.gnfn]; exact hbu
    obtain ⟨G, hg1, hg2⟩ := hx.gf _ _ bf2
    have husable : Usable U st1 (fnName (nm.kind f) (bump st (nm.kind f)).1) := Or.inr ⟨hgn, Or.inl ⟨_, _, G, rfl, hg1, hg2⟩⟩
    have hnf := number_fresh hU h1.core.names husable
    obtain ⟨f1, f2, f3, f4, f5, f6, f7, f8, f9⟩ := number_frame st1 (fnName (nm.kind f) (bump st (nm.kind f)).1)
    have hni := number_Inv h1 husable
    have hiss := (number_issued st1 (fnName (nm.kind f) (bump st (nm.kind f)).1)).1
    set nn := number st1 (fnName (nm.kind f) (bump st (nm.kind f)).1) with hnn
    obtain ⟨o1, o2, o3⟩ := outs_ok (st := nn.2) objs.length args co
    rw [ho.len] at o1 o3
    refine fin nn.2 vals1 (noopHandler nn.2 objs.length (rawOuts objs.length args co)) ?_ (by rw [f2, hx.inputs]; rfl) hx.vals o2 rfl ?_
    · intro o hk'
      rw [f7, hx.pre o hk']; exact hk'
    · refine addForward_inv hU hnm hni ?_ hiss ?_ (.func f) ?_ (by rw [ho.len]; exact o1) o2 ?_ (fun as hl => hfits as (hl.trans hlen)) e2
      · rw [f4, hx.outputs]; exact hout
      · rw [f1]; exact not_issued_nodes h1.core.names hnf
      · intro f' _
        rw [f7, f8, f6, f1]
        exact ⟨hk, hf⟩
      · intro o hoo
        rw [ho.len] at hoo
        rcases o3 o hoo with rfl | hnone
        · refine hni.track.clean _ ?_
          cases hc : nn.2.preNode (.tmp defs.length []) with
          | none => rfl
          | some x =>
            have := hni.track.fresh defs.length [] (by rw [hc]; rfl)
            omega
        · exact hni.track.clean o hnone
  | module m =>
    simp only [Option.bind_eq_some_iff, Option.some.injEq, Prod.mk.injEq] at e
    obtain ⟨st2, e2, rfl, rfl⟩ := e
    have husable : Usable U st (nm.mod m) := Or.inl (hmod m)
    have hnf := number_fresh hU h.core.names husable
    obtain ⟨f1, f2, f3, f4, f5, f6, f7, f8, f9⟩ := number_frame st (nm.mod m)
    have hni := number_Inv h husable
    have hiss := (number_issued st (nm.mod m)).1
    set nn := number st (nm.mod m) with hnn
    obtain ⟨o1, o2, o3⟩ := outs_ok (st := nn.2) objs.length args co
    rw [ho.len] at o1 o3
    refine fin nn.2 vals (noopHandler nn.2 objs.length (rawOuts objs.length args co)) ?_ f2 ⟨[], by simp⟩ o2 rfl ?_
    · intro o hk'
      rw [f7]; exact hk'
    · refine addForward_inv hU hnm hni ?_ hiss ?_ (.module m) ?_ (by rw [ho.len]; exact o1) o2 ?_ (fun as hl => hfits as (hl.trans hlen)) e2
      · rw [f4]; exact hout
      · rw [f1]; exact not_issued_nodes h.core.names hnf
      · intro f' hf'; cases hf'
      · intro o hoo
        rw [ho.len] at hoo
        rcases o3 o hoo with rfl | hnone
        · refine hni.track.clean _ ?_
          cases hc : nn.2.preNode (.tmp defs.length []) with
          | none => rfl
          | some x =>
            have := hni.track.fresh defs.length [] (by rw [hc]; rfl)
            omega
        · exact hni.track.clean o hnone

theorem steps_inv {U : String → Prop} (hU : NamesOk U) {nm : Naming F M K} (hnm : ConstsOk U nm) (hmod : ModsOk U nm) {s : Sem F M K T}
    (cs : List (Call F M K)) (hfits : ∀ c ∈ cs, ∀ as : List T, as.length = c.args.length → Fits c.out as (s.call c.callee as)) :
    ∀ {st st' : State F M K} {vals defs : List (Out T)} {objs objs' : List (Out (Obj K))}, Inv U s st vals defs → st.outputs = [] →
      ObjsOk s st objs defs → steps nm st objs cs = some (st', objs') →
      ∃ vals' defs', s.run cs defs = some defs' ∧ Inv U s st' vals' defs' ∧ st'.outputs = [] ∧ ObjsOk s st' objs' defs' ∧
        st'.inputs = st.inputs ∧ (∃ l, vals' = vals ++ l) ∧ (∀ o, (st.preNode o).isSome → (st'.preNode o).isSome) ∧
        ∀ c ∈ cs, ∀ k, Ref.const k ∈ c.args → (st'.preNode (.const k)).isSome := by
  induction cs with
  | nil =>
    intro st st' vals defs objs objs' h hout ho e
    simp only [steps, Option.some.injEq, Prod.mk.injEq] at e
    obtain ⟨rfl, rfl⟩ := e
    exact ⟨vals, defs, rfl, h, hout, ho, rfl, ⟨[], by simp⟩, fun _ h => h, by simp⟩
  | cons c cs ih =>
    intro st st' vals defs objs objs' h hout ho e
    simp only [steps, Option.bind_eq_some_iff] at e
    obtain ⟨⟨st1, objs1⟩, e1, e2⟩ := e
    obtain ⟨vals1, as, a1, a2, a3, a4, a5, ⟨l1, a6⟩, a7, a8⟩ := step_inv hU hnm hmod h hout ho (hfits c (by simp)) e1
    obtain ⟨vals2, defs2, b1, b2, b3, b4, b5, ⟨l2, b6⟩, b7, b8⟩ := ih (fun c hc => hfits c (by simp [hc])) a2 a3 a4 e2
    refine ⟨vals2, defs2, ?_, b2, b3, b4, by rw [b5, a5], ⟨l1 ++ l2, by rw [b6, a6, List.append_assoc]⟩, fun o hk => b7 o (a7 o hk), ?_⟩
    · simp only [Sem.run, a1, Option.bind_some]
      exact b1
    · intro c' hc' k hk
      rcases List.mem_cons.1 hc' with rfl | hc'
      · exact b7 _ (a8 k hk)
      · exact b8 c' hc' k hk

end Verif.Lemmas.Tracer
