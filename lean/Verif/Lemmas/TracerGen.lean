import Mathlib.Data.List.Nodup
import Verif.Lemmas.TracerTrace

/-! Running the code generated from a trace (used by C81). -/

namespace Verif.Lemmas.Tracer
open Verif.Spec.Trace Verif.Model.Tracer

variable {F M K T : Type} [DecidableEq M] [DecidableEq K]

/-- Everything the generated code relies on. -/
structure Final (nm : Naming F M K) (s : Sem F M K T) (st : State F M K) (vals ins rets : List (Out T)) : Prop where
  uniq : ∀ i ∈ order st ++ st.consts, ∀ j ∈ order st ++ st.consts, ∀ n m : TNode F M K, st.nodes[i]? = some n → st.nodes[j]? = some m →
    n.name = m.name → i = j
  nodup : (order st).Nodup
  cnodup : st.consts.Nodup
  inp : ∀ i ∈ st.inputs, ∃ n : TNode F M K, st.nodes[i]? = some n ∧ n.kind = .input
  fwd : ∀ i ∈ st.forward, ∃ (n : TNode F M K) (c : Callee F M) (args : List T), st.nodes[i]? = some n ∧ n.kind = kindOf c ∧
    Reads st.nodes vals n.prev n.idx args ∧ vals[i]? = some (s.call c args) ∧
    ∀ f, c = .func f → funcArgs nm st n f = List.zipWith (refOf st.nodes) n.prev n.idx
  con : ∀ i ∈ st.consts, ∃ (n : TNode F M K) (k : K), st.nodes[i]? = some n ∧ n.kind = .const k ∧ vals[i]? = some (.one (s.konst k))
  before : ∀ A i B, order st = A ++ i :: B → i ∉ st.inputs → ∀ n : TNode F M K, st.nodes[i]? = some n → ∀ j ∈ n.prev, j ∈ st.consts ∨ (j ∈ A ∧ j ∉ st.outputs)
  ins : List.Forall₂ (fun i v => vals[i]? = some v) st.inputs ins
  outs : List.Forall₂ (OutNode st vals) st.outputs rets

/-! ### Attributes -/

/-- One round of the loop of `genInit`. -/
def initStep (st : State F M K) (acc : List String × List M × List (String × (K ⊕ M))) (i : Nat) : List String × List M × List (String × (K ⊕ M)) :=
    match st.nodes[i]? with
    | none => acc
    | some n =>
      if n.name ∈ acc.1 then acc else
      match n.kind with
      | .module m => if m ∈ acc.2.1 then acc else (acc.1 ++ [n.name], acc.2.1 ++ [m], acc.2.2 ++ [(n.name, .inr m)])
      | .const k => (acc.1 ++ [n.name], acc.2.1, acc.2.2 ++ [(n.name, .inl k)])
      | _ => (acc.1 ++ [n.name], acc.2.1, acc.2.2)

omit [DecidableEq K] in
theorem genInit_eq (st : State F M K) : genInit st = ((st.consts ++ st.forward).foldl (initStep st) ([], [], [])).2.2 := rfl

structure InitInv (st : State F M K) (l : List Nat) (acc : List String × List M × List (String × (K ⊕ M))) : Prop where
  names : ∀ x ∈ acc.1, ∃ i ∈ l, ∃ n : TNode F M K, st.nodes[i]? = some n ∧ n.name = x
  seen : ∀ m, m ∈ acc.2.1 ↔ ∃ i ∈ l, ∃ n : TNode F M K, st.nodes[i]? = some n ∧ n.kind = .module m
  src : ∀ x v, (x, v) ∈ acc.2.2 → ∃ i ∈ l, ∃ n : TNode F M K, st.nodes[i]? = some n ∧ n.name = x ∧
    ((∃ k, v = .inl k ∧ n.kind = .const k) ∨ ∃ m, v = .inr m ∧ n.kind = .module m)
  consts : ∀ i ∈ l, ∀ (n : TNode F M K) (k : K), st.nodes[i]? = some n → n.kind = .const k → (n.name, .inl k) ∈ acc.2.2
  mods : ∀ (m : M) (n : TNode F M K), (l.filterMap (fun i => st.nodes[i]?)).find? (isMod m) = some n → (n.name, .inr m) ∈ acc.2.2

omit [DecidableEq K] in
theorem init_loop {st : State F M K} (l : List Nat) (hu : ∀ i ∈ l, ∀ j ∈ l, ∀ n m : TNode F M K, st.nodes[i]? = some n → st.nodes[j]? = some m → n.name = m.name → i = j)
     (hl : l.Nodup) : InitInv st l (l.foldl (initStep st) ([], [], [])) := by
  induction l using List.reverseRecOn with
  | nil => exact ⟨by simp, by simp, by simp, by simp, by simp⟩
  | append_singleton l i ih =>
    obtain ⟨hl1, -, hl3⟩ := List.nodup_append.1 hl
    have hni : i ∉ l := fun h => hl3 i h i (by simp) rfl
    obtain ⟨a1, a2, a3', a4, a5⟩ := ih (fun i hi j hj => hu i (by simp [hi]) j (by simp [hj])) hl1
    rw [List.foldl_append, List.foldl_cons, List.foldl_nil]
    generalize l.foldl (initStep st) ([], [], []) = acc at a1 a2 a3' a4 a5
    have a3 : ∀ x v, (x, v) ∈ acc.2.2 → ∃ j ∈ l ++ [i], ∃ n : TNode F M K, st.nodes[j]? = some n ∧ n.name = x ∧
        ((∃ k, v = .inl k ∧ n.kind = .const k) ∨ ∃ m, v = .inr m ∧ n.kind = .module m) := by
      intro x v hxv
      obtain ⟨j, hj, h⟩ := a3' x v hxv
      exact ⟨j, by simp [hj], h⟩
    unfold initStep
    cases hn : st.nodes[i]? with
    | none =>
      refine ⟨?_, ?_, a3, ?_, ?_⟩
      · intro x hx
        obtain ⟨j, hj, h⟩ := a1 x hx
        exact ⟨j, by simp [hj], h⟩
      · intro m
        rw [a2]
        constructor
        · rintro ⟨j, hj, h⟩
          exact ⟨j, by simp [hj], h⟩
        · rintro ⟨j, hj, n, h1, h2⟩
          rcases List.mem_append.1 hj with hj | hj
          · exact ⟨j, hj, n, h1, h2⟩
          · rw [List.mem_singleton.1 hj, hn] at h1; cases h1
      · intro j hj n k h1 h2
        rcases List.mem_append.1 hj with hj | hj
        · exact a4 j hj n k h1 h2
        · rw [List.mem_singleton.1 hj, hn] at h1; cases h1
      · intro m n h
        rw [List.filterMap_append] at h
        simp only [List.filterMap_cons, hn, List.filterMap_nil, List.append_nil] at h
        exact a5 m n h
    | some n =>
      dsimp only
      have hfresh : n.name ∉ acc.1 := by
        intro hx
        obtain ⟨j, hj, m, h1, h2⟩ := a1 _ hx
        rw [hu j (by simp [hj]) i (by simp) m n h1 hn h2] at hj
        exact hni hj
      rw [if_neg hfresh]
      have hnames : ∀ x ∈ acc.1 ++ [n.name], ∃ j ∈ l ++ [i], ∃ n : TNode F M K, st.nodes[j]? = some n ∧ n.name = x := by
        intro x hx
        rcases List.mem_append.1 hx with hx | hx
        · obtain ⟨j, hj, h⟩ := a1 x hx
          exact ⟨j, by simp [hj], h⟩
        · exact ⟨i, by simp, n, hn, (List.mem_singleton.1 hx).symm⟩
      have hfm : (l ++ [i]).filterMap (fun i => st.nodes[i]?) = l.filterMap (fun i => st.nodes[i]?) ++ [n] := by
        rw [List.filterMap_append]
        simp [hn]
      cases hk : n.kind with
      | module m =>
        dsimp only
        by_cases hm : m ∈ acc.2.1
        · rw [if_pos hm]
          obtain ⟨j0, hj0, n0, hn0, hk0⟩ := (a2 m).1 hm
          refine ⟨?_, ?_, a3, ?_, ?_⟩
          · exact fun x hx => hnames x (by simp [hx])
          · intro m'
            rw [a2]
            constructor
            · rintro ⟨j, hj, h⟩
              exact ⟨j, by simp [hj], h⟩
            · rintro ⟨j, hj, n', h1, h2⟩
              rcases List.mem_append.1 hj with hj | hj
              · exact ⟨j, hj, n', h1, h2⟩
              · rw [List.mem_singleton.1 hj, hn] at h1
                cases h1
                rw [hk] at h2
                cases h2
                exact ⟨j0, hj0, n0, hn0, hk0⟩
          · intro j hj n' k h1 h2
            rcases List.mem_append.1 hj with hj | hj
            · exact a4 j hj n' k h1 h2
            · rw [List.mem_singleton.1 hj, hn] at h1
              cases h1
              rw [hk] at h2; cases h2
          · intro m' n' h
            rw [hfm, List.find?_append] at h
            cases hf : (l.filterMap (fun i => st.nodes[i]?)).find? (isMod m') with
            | some n'' =>
              rw [hf] at h
              simp only [Option.some_or, Option.some.injEq] at h
              subst h
              exact a5 m' _ hf
            | none =>
              rw [hf] at h
              simp only [Option.none_or, List.find?_cons, List.find?_nil] at h
              have hmm : m = m' := by
                by_contra hne
                have : isMod m' n = false := by simp [isMod, hk, hne]
                rw [this] at h; cases h
              subst hmm
              have := List.find?_eq_none.1 hf n0 (List.mem_filterMap.2 ⟨j0, hj0, hn0⟩)
              simp [isMod, hk0] at this
        · rw [if_neg hm]
          refine ⟨hnames, ?_, ?_, ?_, ?_⟩
          · intro m'
            simp only [List.mem_append, List.mem_singleton, a2]
            constructor
            · rintro (⟨j, hj, h⟩ | rfl)
              · exact ⟨j, Or.inl hj, h⟩
              · exact ⟨i, Or.inr rfl, n, hn, hk⟩
            · rintro ⟨j, hj | rfl, n', h1, h2⟩
              · exact Or.inl ⟨j, hj, n', h1, h2⟩
              · rw [hn] at h1
                cases h1
                rw [hk] at h2
                cases h2
                exact Or.inr rfl
          · intro x v hxv
            simp only [List.mem_append, List.mem_singleton, Prod.mk.injEq] at hxv
            rcases hxv with hxv | ⟨rfl, rfl⟩
            · exact a3 x v hxv
            · exact ⟨i, by simp, n, hn, rfl, Or.inr ⟨m, rfl, hk⟩⟩
          · intro j hj n' k h1 h2
            simp only [List.mem_append]
            rcases List.mem_append.1 hj with hj | hj
            · exact Or.inl (a4 j hj n' k h1 h2)
            · rw [List.mem_singleton.1 hj, hn] at h1
              cases h1
              rw [hk] at h2; cases h2
          · intro m' n' h
            rw [hfm, List.find?_append] at h
            simp only [List.mem_append, List.mem_singleton]
            cases hf : (l.filterMap (fun i => st.nodes[i]?)).find? (isMod m') with
            | some n'' =>
              rw [hf] at h
              simp only [Option.some_or, Option.some.injEq] at h
              subst h
              exact Or.inl (a5 m' _ hf)
            | none =>
              rw [hf] at h
              simp only [Option.none_or, List.find?_cons, List.find?_nil] at h
              have hmm : m = m' := by
                by_contra hne
                have : isMod m' n = false := by simp [isMod, hk, hne]
                rw [this] at h; cases h
              subst hmm
              have ht : isMod m n = true := by simp [isMod, hk]
              rw [ht] at h
              simp only [Option.some.injEq] at h
              subst h
              exact Or.inr rfl
      | const k =>
        dsimp only
        refine ⟨hnames, ?_, ?_, ?_, ?_⟩
        · intro m'
          rw [a2]
          constructor
          · rintro ⟨j, hj, h⟩
            exact ⟨j, by simp [hj], h⟩
          · rintro ⟨j, hj, n', h1, h2⟩
            rcases List.mem_append.1 hj with hj | hj
            · exact ⟨j, hj, n', h1, h2⟩
            · rw [List.mem_singleton.1 hj, hn] at h1
              cases h1
              rw [hk] at h2; cases h2
        · intro x v hxv
          simp only [List.mem_append, List.mem_singleton, Prod.mk.injEq] at hxv
          rcases hxv with hxv | ⟨rfl, rfl⟩
          · exact a3 x v hxv
          · exact ⟨i, by simp, n, hn, rfl, Or.inl ⟨k, rfl, hk⟩⟩
        · intro j hj n' k' h1 h2
          simp only [List.mem_append, List.mem_singleton]
          rcases List.mem_append.1 hj with hj | hj
          · exact Or.inl (a4 j hj n' k' h1 h2)
          · rw [List.mem_singleton.1 hj, hn] at h1
            cases h1
            rw [hk] at h2
            cases h2
            exact Or.inr rfl
        · intro m' n' h
          rw [hfm, List.find?_append] at h
          simp only [List.mem_append]
          cases hf : (l.filterMap (fun i => st.nodes[i]?)).find? (isMod m') with
          | some n'' =>
            rw [hf] at h
            simp only [Option.some_or, Option.some.injEq] at h
            subst h
            exact Or.inl (a5 m' _ hf)
          | none =>
            rw [hf] at h
            simp [List.find?_cons, isMod, hk] at h
      | input | output | func f =>
        dsimp only
        refine ⟨hnames, ?_, a3, ?_, ?_⟩
        · intro m'
          rw [a2]
          constructor
          · rintro ⟨j, hj, h⟩
            exact ⟨j, by simp [hj], h⟩
          · rintro ⟨j, hj, n', h1, h2⟩
            rcases List.mem_append.1 hj with hj | hj
            · exact ⟨j, hj, n', h1, h2⟩
            · rw [List.mem_singleton.1 hj, hn] at h1
              cases h1
              rw [hk] at h2; cases h2
        · intro j hj n' k' h1 h2
          rcases List.mem_append.1 hj with hj | hj
          · exact a4 j hj n' k' h1 h2
          · rw [List.mem_singleton.1 hj, hn] at h1
            cases h1
            rw [hk] at h2; cases h2
        · intro m' n' h
          rw [hfm, List.find?_append] at h
          cases hf : (l.filterMap (fun i => st.nodes[i]?)).find? (isMod m') with
          | some n'' =>
            rw [hf] at h
            simp only [Option.some_or, Option.some.injEq] at h
            subst h
            exact a5 m' _ hf
          | none =>
            rw [hf] at h
            simp [List.find?_cons, isMod, hk] at h

variable {nm : Naming F M K} {s : Sem F M K T} {st : State F M K} {vals ins rets : List (Out T)}

omit [DecidableEq M] [DecidableEq K] in
theorem Final.nodup' (h : Final nm s st vals ins rets) : (st.consts ++ st.forward).Nodup := by
  have h1 := h.nodup
  simp only [order] at h1
  refine List.nodup_append.2 ⟨h.cnodup, (List.nodup_append.1 (List.nodup_append.1 h1).1).2.1, ?_⟩
  rintro a ha b hb rfl
  obtain ⟨n, k, n1, n2, -⟩ := h.con a ha
  obtain ⟨m, c, _, m1, m2, -⟩ := h.fwd a hb
  rw [n1] at m1
  cases m1
  rw [n2] at m2
  cases c <;> cases m2

omit [DecidableEq K] in
theorem Final.initInv (h : Final nm s st vals ins rets) :
    InitInv st (st.consts ++ st.forward) ((st.consts ++ st.forward).foldl (initStep st) ([], [], [])) := by
  have hsub : ∀ i ∈ st.consts ++ st.forward, i ∈ order st ++ st.consts := by
    intro i hi
    simp only [order, List.mem_append] at hi ⊢
    tauto
  exact init_loop _ (fun i hi j hj => h.uniq i (hsub i hi) j (hsub j hj)) h.nodup'

omit [DecidableEq K] in
theorem attr_of_mem (h : Final nm s st vals ins rets) {x : String} {v : K ⊕ M} (hm : (x, v) ∈ genInit st) : attr (genInit st) x = some v := by
  have hi := h.initInv
  unfold attr
  cases hf : (genInit st).find? (fun a => a.1 = x) with
  | none =>
    have := List.find?_eq_none.1 hf _ hm
    simp at this
  | some e =>
    obtain ⟨y, w⟩ := e
    have hy : y = x := by simpa using List.find?_some hf
    subst hy
    have hw := List.mem_of_find?_eq_some hf
    obtain ⟨i, hil, n, n1, n2, n3⟩ := hi.src _ _ (genInit_eq st ▸ hm)
    obtain ⟨j, hjl, m, m1, m2, m3⟩ := hi.src _ _ (genInit_eq st ▸ hw)
    have hsub : ∀ i ∈ st.consts ++ st.forward, i ∈ order st ++ st.consts := by
      intro i hi
      simp only [order, List.mem_append] at hi ⊢
      tauto
    have hij := h.uniq i (hsub i hil) j (hsub j hjl) n m n1 m1 (n2.trans m2.symm)
    subst hij
    rw [n1] at m1
    cases m1
    rcases n3 with ⟨k, rfl, hk⟩ | ⟨k, rfl, hk⟩ <;> rcases m3 with ⟨k', rfl, hk'⟩ | ⟨k', rfl, hk'⟩ <;> rw [hk] at hk' <;> cases hk' <;> rfl

omit [DecidableEq K] in
theorem attr_const (h : Final nm s st vals ins rets) {i : Nat} {n : TNode F M K} {k : K} (hp : i ∈ st.consts) (hn : st.nodes[i]? = some n) (hk : n.kind = .const k) :
    attr (genInit st) n.name = some (.inl k) := by
  refine attr_of_mem h ?_
  have hi := h.initInv
  rw [genInit_eq]
  exact hi.consts i (List.mem_append_left _ hp) n k hn hk

omit [DecidableEq K] in
theorem attr_mod (h : Final nm s st vals ins rets) {i : Nat} {n : TNode F M K} {m : M} (hp : i ∈ st.forward) (hn : st.nodes[i]? = some n) (hk : n.kind = .module m) :
    attr (genInit st) (modName st m) = some (.inr m) := by
  refine attr_of_mem h ?_
  have hi := h.initInv
  rw [genInit_eq]
  have hfind : ∃ n', (st.forward.filterMap (fun i => st.nodes[i]?)).find? (isMod m) = some n' := by
    cases hf : (st.forward.filterMap (fun i => st.nodes[i]?)).find? (isMod m) with
    | some n' => exact ⟨n', rfl⟩
    | none =>
      have := List.find?_eq_none.1 hf n (List.mem_filterMap.2 ⟨i, hp, hn⟩)
      simp [isMod, hk] at this
  obtain ⟨n', hn'⟩ := hfind
  have hname : modName st m = n'.name := by
    unfold modName
    rw [hn']; rfl
  rw [hname]
  refine hi.mods m n' ?_
  rw [List.filterMap_append, List.find?_append]
  have hnone : (st.consts.filterMap (fun i => st.nodes[i]?)).find? (isMod m) = none := by
    refine List.find?_eq_none.2 ?_
    intro c hc
    obtain ⟨j, hj, hjc⟩ := List.mem_filterMap.1 hc
    obtain ⟨c', k, c1, c2, -⟩ := h.con j hj
    rw [hjc] at c1
    cases c1
    simp [isMod, c2]
  rw [hnone, hn']
  rfl

/-! ### Running -/

/-- The results of the nodes `done` that the nodes `rest` still read are there. -/
def EnvOk (st : State F M K) (vals : List (Out T)) (done rest : List Nat) (env : Env T) : Prop :=
  ∀ j ∈ done, ∀ r ∈ rest, ∀ n m : TNode F M K, st.nodes[j]? = some n → st.nodes[r]? = some m → j ∈ m.prev → env n.name = vals[j]?

theorem readNames (h : Final nm s st vals ins rets) {code : Code F M K} (hc : code.attrs = genInit st) {env : Env T} {prev : List Nat} {idx : List Path}
    {args : List T} (hr : Reads st.nodes vals prev idx args)
    (henv : ∀ j ∈ prev, j ∈ st.consts ∨ ∀ n : TNode F M K, st.nodes[j]? = some n → isConst n.kind = false ∧ env n.name = vals[j]?) :
    (List.zipWith (refOf st.nodes) prev idx).mapM (readName s code env) = some args := by
  induction hr with
  | nil => rfl
  | @cons j p a prev idx args n w h1 h2 h3 h4 _ ih =>
    have hhead : readName s code env (refOf st.nodes j p) = some a := by
      simp only [refOf, h1]
      rcases henv j (by simp) with hj | hj
      · obtain ⟨n', k, k1, k2, k3⟩ := h.con j hj
        rw [h1] at k1
        cases k1
        rw [h3] at k3
        cases k3
        simp only [k2, isConst, readName, hc, attr_const h hj h1 k2]
        simpa using h4
      · obtain ⟨e1, e2⟩ := hj n h1
        simp only [readName, e1]
        rw [e2, h3]
        simpa using h4
    simp only [List.zipWith_cons_cons, List.mapM_cons, hhead, ih (fun j' hj' => henv j' (by simp [hj']))]
    rfl

omit [DecidableEq M] [DecidableEq K] in
theorem Reads.length {nodes : List (TNode F M K)} {prev : List Nat} {idx : List Path} {args : List T} (hr : Reads nodes vals prev idx args) :
    prev.length = args.length ∧ idx.length = args.length := by
  induction hr with
  | nil => simp
  | cons n w h1 h2 h3 h4 _ ih => simp [ih.1, ih.2]

omit [DecidableEq M] [DecidableEq K] in
theorem prevName_eq {n : TNode F M K} (hl : n.prev.length = n.idx.length) :
    (List.range n.prev.length).map (prevName st n) = List.zipWith (refOf st.nodes) n.prev n.idx := by
  apply List.ext_getElem
  · simp [hl]
  · intro i h1 h2
    simp at h1
    have h3 : i < n.idx.length := by omega
    simp only [List.getElem_map, List.getElem_range, List.getElem_zipWith, prevName, List.getElem?_eq_getElem h1, List.getElem?_eq_getElem h3, refOf]
    cases st.nodes[n.prev[i]]? <;> rfl

omit [DecidableEq M] [DecidableEq K] in
theorem idxOf_before {A B : List Nat} {i r : Nat} (h : (A ++ i :: B).Nodup) (hr : r ∈ B) : (A ++ i :: B).idxOf i < (A ++ i :: B).idxOf r := by
  obtain ⟨h1, h2, h3⟩ := List.nodup_append.1 h
  obtain ⟨h4, h5⟩ := List.nodup_cons.1 h2
  have hi : i ∉ A := fun hi => h3 i hi i (by simp) rfl
  have hrA : r ∉ A := fun hrA => h3 r hrA r (by simp [hr]) rfl
  have hne : i ≠ r := by rintro rfl; exact h4 hr
  rw [List.idxOf_append_of_notMem hi, List.idxOf_append_of_notMem hrA, List.idxOf_cons_self, List.idxOf_cons_ne _ hne]
  omega

theorem le_foldl_max (l : List Nat) : ∀ b : Nat, b ≤ l.foldl max b ∧ ∀ a ∈ l, a ≤ l.foldl max b := by
  induction l with
  | nil => intro b; simp
  | cons c l ih =>
    intro b
    obtain ⟨h1, h2⟩ := ih (max b c)
    refine ⟨?_, ?_⟩
    · simp only [List.foldl_cons]; omega
    · intro a ha
      simp only [List.foldl_cons]
      rcases List.mem_cons.1 ha with rfl | ha
      · omega
      · exact h2 a ha

omit [DecidableEq M] [DecidableEq K] in
theorem mem_distinctPrev {prev : List Nat} {j : Nat} (hj : j ∈ distinctPrev st prev) : j ∈ prev := by
  have key : ∀ (l acc : List Nat), (∀ a ∈ acc, a ∈ prev) → (∀ a ∈ l, a ∈ prev) → ∀ j ∈ l.foldl (fun acc i =>
      let nm := fun j => (st.nodes[j]?).map (·.name)
      if acc.any (fun j => decide (nm j = nm i)) then acc.map (fun j => if nm j = nm i then i else j) else acc ++ [i]) acc, j ∈ prev := by
    intro l
    induction l with
    | nil => intro acc h _ j hj; exact h j hj
    | cons i l ih =>
      intro acc h1 h2 j hj
      refine ih _ ?_ (fun a ha => h2 a (by simp [ha])) j hj
      intro a ha
      dsimp only at ha
      split_ifs at ha
      · obtain ⟨b, hb, rfl⟩ := List.mem_map.1 ha
        split_ifs
        · exact h2 i (by simp)
        · exact h1 b hb
      · rcases List.mem_append.1 ha with ha | ha
        · exact h1 a ha
        · rw [List.mem_singleton.1 ha]; exact h2 i (by simp)
  exact key prev [] (by simp) (fun a ha => ha) j hj

omit [DecidableEq M] [DecidableEq K] in
/-- A name that is dropped after node `i` is not read afterwards. -/
theorem free_last {A B : List Nat} {i : Nat} (hord : order st = A ++ i :: B) (hs : (order st).Nodup) {n : TNode F M K} {x : String}
    (hx : Line.free x ∈ frees st i n) : ∃ j ∈ n.prev, ∃ pn : TNode F M K, st.nodes[j]? = some pn ∧ pn.name = x ∧
      ∀ r ∈ B, ∀ m : TNode F M K, st.nodes[r]? = some m → j ∉ m.prev := by
  simp only [frees, List.mem_filterMap] at hx
  obtain ⟨j, hjp, hj⟩ := hx
  cases hn : st.nodes[j]? with
  | none => rw [hn] at hj; simp at hj
  | some pn =>
    rw [hn] at hj
    dsimp only at hj
    split_ifs at hj with hc
    simp only [Option.some.injEq, Line.free.injEq] at hj
    refine ⟨j, mem_distinctPrev hjp, pn, hn, hj, ?_⟩
    intro r hr m hm hjm
    have hmem : r ∈ nextNodes st j := by
      simp only [nextNodes, List.mem_filter]
      refine ⟨by rw [hord]; simp [hr], ?_⟩
      rw [hm]
      simpa using hjm
    have h1 := (le_foldl_max ((nextNodes st j).map (forwardOrder st)) 0).2 _ (List.mem_map.2 ⟨r, hmem, rfl⟩)
    rw [← hc.1] at h1
    have h2 : forwardOrder st i < forwardOrder st r := by
      simp only [forwardOrder]
      rw [hord] at hs ⊢
      exact idxOf_before hs hr
    omega

omit [DecidableEq K] in
theorem frees_all {i : Nat} {n : TNode F M K} {l : Line F} (h : l ∈ frees st i n) : ∃ x, l = .free x := by
  simp only [frees, List.mem_filterMap] at h
  obtain ⟨j, -, hj⟩ := h
  split at hj
  · cases hj
  · split_ifs at hj
    simp only [Option.some.injEq] at hj
    exact ⟨_, hj.symm⟩

theorem exec_frees (h : Final nm s st vals ins rets) (code : Code F M K) {done B : List Nat} (ls : List (Line F))
    (hd : ∀ j ∈ done, j ∈ order st)
    (hls : ∀ l ∈ ls, ∃ x, l = .free x ∧ ∃ j ∈ order st ++ st.consts, ∃ pn : TNode F M K, st.nodes[j]? = some pn ∧ pn.name = x ∧
      ∀ r ∈ B, ∀ m : TNode F M K, st.nodes[r]? = some m → j ∉ m.prev) :
    ∀ {env : Env T}, EnvOk st vals done B env → ∃ env', ls.foldlM (execLine s code) env = some env' ∧ EnvOk st vals done B env' := by
  induction ls with
  | nil => intro env he; exact ⟨env, rfl, he⟩
  | cons l ls ih =>
    intro env he
    obtain ⟨x, rfl, j, pj, pn, p1, p2, p3⟩ := hls l (by simp)
    have he' : EnvOk st vals done B (upd env x none) := by
      intro j' hj' r hr n m hn hm hjm
      unfold upd
      rw [if_neg]
      · exact he j' hj' r hr n m hn hm hjm
      · intro hx
        have := h.uniq j' (List.mem_append_left _ (hd j' hj')) j pj n pn hn p1 (hx.trans p2.symm)
        subst this
        exact p3 r hr m hm hjm
    obtain ⟨env', e1, e2⟩ := ih (fun l hl => hls l (by simp [hl])) he'
    exact ⟨env', by simpa [List.foldlM_cons, execLine] using e1, e2⟩

theorem exec_node (h : Final nm s st vals ins rets) {code : Code F M K} (hc : code.attrs = genInit st) {A B : List Nat} {i : Nat}
    (hord : order st = A ++ i :: B) (hi : i ∈ st.forward) {env : Env T} (he : EnvOk st vals A (i :: B) env) :
    ∃ env', (genNode nm st i).foldlM (execLine s code) env = some env' ∧ EnvOk st vals (A ++ [i]) B env' := by
  have hs := h.nodup
  have hsorted := hs
  rw [hord] at hsorted
  obtain ⟨hA, hiB, hAB⟩ := List.nodup_append.1 hsorted
  obtain ⟨n, c, args, hn, hk, hr, hv, hfa⟩ := h.fwd i hi
  have hii : i ∉ st.inputs := by
    intro hin
    obtain ⟨n', n1, n2⟩ := h.inp i hin
    rw [hn] at n1
    cases n1
    rw [hk] at n2
    cases c <;> cases n2
  have hAord : ∀ j ∈ A, j ∈ order st := fun j hj => by rw [hord]; simp [hj]
  have hbef := h.before A i B hord hii n hn
  have hnc : ∀ j, j ∈ order st → ∀ m : TNode F M K, st.nodes[j]? = some m → isConst m.kind = false ∨ j ∈ st.outputs := by
    intro j hj m hm
    simp only [order, List.mem_append] at hj
    rcases hj with (hj | hj) | hj
    · obtain ⟨m', m1, m2⟩ := h.inp j hj
      rw [hm] at m1
      cases m1
      rw [m2]; exact Or.inl rfl
    · obtain ⟨m', c', _, m1, m2, -⟩ := h.fwd j hj
      rw [hm] at m1
      cases m1
      rw [m2]; left; cases c' <;> rfl
    · exact Or.inr hj
  have hreads : (List.zipWith (refOf st.nodes) n.prev n.idx).mapM (readName s code env) = some args := by
    refine readNames h hc hr ?_
    intro j hj
    rcases hbef j hj with hjc | ⟨hja, hjo⟩
    · exact Or.inl hjc
    · refine Or.inr fun m hm => ⟨?_, he j hja i (by simp) m n hm hn hj⟩
      rcases hnc j (hAord j hja) m hm with h1 | h1
      · exact h1
      · exact absurd h1 hjo
  have hstep : EnvOk st vals (A ++ [i]) B (upd env n.name (some (s.call c args))) := by
    intro j hj r hr m m' hm hm' hjm
    unfold upd
    rcases List.mem_append.1 hj with hj | hj
    · rw [if_neg]
      · exact he j hj r (by simp [hr]) m m' hm hm' hjm
      · intro hname
        have := h.uniq j (List.mem_append_left _ (hAord j hj)) i (List.mem_append_left _ (by rw [hord]; simp)) m n hm hn hname
        exact hAB j hj i (by simp) this
    · have hji := List.mem_singleton.1 hj
      subst hji
      rw [hn] at hm
      cases hm
      rw [if_pos rfl, hv]
  have hfrees : ∀ l ∈ frees st i n, ∃ x, l = .free x ∧ ∃ j ∈ order st ++ st.consts, ∃ pn : TNode F M K, st.nodes[j]? = some pn ∧ pn.name = x ∧
      ∀ r ∈ B, ∀ m : TNode F M K, st.nodes[r]? = some m → j ∉ m.prev := by
    intro l hl
    obtain ⟨x, rfl⟩ := frees_all hl
    obtain ⟨j, hj, hrest⟩ := free_last hord hs hl
    refine ⟨x, rfl, j, ?_, hrest⟩
    rcases hbef j hj with hjc | ⟨hja, -⟩
    · exact List.mem_append_right _ hjc
    · exact List.mem_append_left _ (hAord j hja)
  obtain ⟨env', e1, e2⟩ := exec_frees h code _ (by
    intro j hj
    rw [hord]
    rcases List.mem_append.1 hj with hj | hj
    · simp [hj]
    · rw [List.mem_singleton.1 hj]; simp) hfrees hstep
  refine ⟨env', ?_, e2⟩
  cases c with
  | func f =>
    have hk' : n.kind = .func f := hk
    simp only [genNode, hn, hk']
    rw [hfa f rfl, List.foldlM_append]
    simp only [List.foldlM_cons, List.foldlM_nil, execLine, hreads, callFn]
    exact e1
  | module m =>
    have hk' : n.kind = .module m := hk
    have hl := hr.length
    simp only [genNode, hn, hk']
    rw [prevName_eq (hl.1.trans hl.2.symm), List.foldlM_append]
    simp only [List.foldlM_cons, List.foldlM_nil, execLine, hreads, callFn, hc, attr_mod h hi hn hk']
    exact e1

theorem exec_nodes (h : Final nm s st vals ins rets) {code : Code F M K} (hc : code.attrs = genInit st) :
    ∀ (rest pre : List Nat), st.forward = pre ++ rest → ∀ {env : Env T}, EnvOk st vals (st.inputs ++ pre) (rest ++ st.outputs) env →
      ∃ env', ((rest.map (genNode nm st)).flatten).foldlM (execLine s code) env = some env' ∧ EnvOk st vals (st.inputs ++ st.forward) st.outputs env' := by
  intro rest
  induction rest with
  | nil =>
    intro pre e env he
    refine ⟨env, rfl, ?_⟩
    rw [e]
    simpa using he
  | cons i rest ih =>
    intro pre e env he
    obtain ⟨env1, e1, e2⟩ := exec_node h hc (A := st.inputs ++ pre) (B := rest ++ st.outputs) (i := i) (by simp [order, e]) (by simp [e]) he
    obtain ⟨env2, e3, e4⟩ := ih (pre ++ [i]) (by simp [e]) (by simpa using e2)
    refine ⟨env2, ?_, e4⟩
    rw [List.map_cons, List.flatten_cons, List.foldlM_append, e1]
    exact e3

theorem bind_params {L : List Nat} (h : ∀ i ∈ L, ∀ j ∈ L, ∀ n m : TNode F M K, st.nodes[i]? = some n → st.nodes[j]? = some m → n.name = m.name → i = j)
    {is : List Nat} {vs : List (Out T)} (hL : ∀ i ∈ is, i ∈ L) (hf : List.Forall₂ (fun i v => vals[i]? = some v) is vs) (hnd : is.Nodup)
    (hex : ∀ i ∈ is, ∃ n : TNode F M K, st.nodes[i]? = some n) :
    ∀ (env : Env T), (∀ j ∈ is, ∀ n : TNode F M K, st.nodes[j]? = some n →
        ((is.map (fun i => (st.nodes[i]?).elim "" (·.name))).zip vs).foldl (fun env a => upd env a.1 (some a.2)) env n.name = vals[j]?) ∧
      (∀ j ∈ L, j ∉ is → ∀ n : TNode F M K, st.nodes[j]? = some n →
        ((is.map (fun i => (st.nodes[i]?).elim "" (·.name))).zip vs).foldl (fun env a => upd env a.1 (some a.2)) env n.name = env n.name) := by
  induction hf with
  | nil => intro env; simp
  | @cons i v is vs hv _ ih =>
    intro env
    obtain ⟨h1, h2⟩ := List.nodup_cons.1 hnd
    obtain ⟨ni, hni⟩ := hex i (by simp)
    obtain ⟨a1, a2⟩ := ih (fun i hi => hL i (by simp [hi])) h2 (fun i hi => hex i (by simp [hi])) (upd env ((st.nodes[i]?).elim "" (·.name)) (some v))
    refine ⟨?_, ?_⟩
    · intro j hj n hn
      rw [List.map_cons, List.zip_cons_cons, List.foldl_cons]
      rcases List.mem_cons.1 hj with rfl | hj
      · rw [a2 j (hL j (by simp)) h1 n hn]
        simp [upd, hn, hv]
      · exact a1 j hj n hn
    · intro j hjL hj n hn
      rw [List.map_cons, List.zip_cons_cons, List.foldl_cons]
      rw [a2 j hjL (fun hh => hj (by simp [hh])) n hn]
      unfold upd
      rw [if_neg]
      intro hname
      rw [hni] at hname
      have := h j hjL i (hL i (by simp)) n ni hn hni hname
      subst this
      exact hj (by simp)

theorem exec_rets (h : Final nm s st vals ins rets) {env' : Env T} {os : List Nat} {rs : List (Out T)} (hos : ∀ i ∈ os, i ∈ st.outputs)
    (houts : List.Forall₂ (OutNode st vals) os rs) (e2 : EnvOk st vals (st.inputs ++ st.forward) os env') :
    (os.map (genRet st)).mapM (execRet s (generate nm st) env') = some rs := by
  induction houts with
  | nil => rfl
  | @cons i r os rs hr _ ih =>
    have ih' := ih (fun i hi => hos i (by simp [hi])) (by
      intro j hj r' hr' n m hn hm hjm
      exact e2 j hj r' (by simp [hr']) n m hn hm hjm)
    obtain ⟨n, as, n1, n2, n3, n4⟩ := hr
    have hread : (List.zipWith (refOf st.nodes) n.prev n.idx).mapM (readName s (generate nm st) env') = some as := by
      refine readNames h rfl n3 ?_
      intro j hj
      have hio := hos i (by simp)
      obtain ⟨A', B', hAB⟩ := List.append_of_mem hio
      have hord : order st = (st.inputs ++ st.forward ++ A') ++ i :: B' := by simp [order, hAB]
      have hii : i ∉ st.inputs := by
        intro hin
        obtain ⟨n', q1, q2⟩ := h.inp i hin
        rw [n1] at q1
        cases q1
        rw [n2] at q2
        cases q2
      rcases h.before _ i B' hord hii n n1 j hj with hjc | ⟨hja, hjo⟩
      · exact Or.inl hjc
      · right
        intro m hm
        have hjo' : j ∈ st.inputs ++ st.forward := by
          rcases List.mem_append.1 hja with hja | hja
          · exact hja
          · exact absurd (by rw [hAB]; simp [hja]) hjo
        refine ⟨?_, e2 j hjo' i (by simp) m n hm n1 hj⟩
        rcases List.mem_append.1 hjo' with hj' | hj'
        · obtain ⟨m', m1, m2⟩ := h.inp j hj'
          rw [hm] at m1
          cases m1
          rw [m2]; rfl
        · obtain ⟨m', c', _, m1, m2, -⟩ := h.fwd j hj'
          rw [hm] at m1
          cases m1
          rw [m2]; cases c' <;> rfl
    have hl := n3.length
    have hhead : execRet s (generate nm st) env' (genRet st i) = some r := by
      simp only [genRet, n1]
      rcases n4 with ⟨q1, rfl⟩ | ⟨q1, a, rfl, rfl⟩
      · rw [if_pos q1, prevName_eq (hl.1.trans hl.2.symm)]
        simp [execRet, hread]
      · rw [if_neg (by simp [q1])]
        rw [← prevName_eq (hl.1.trans hl.2.symm), hl.1] at hread
        simp only [List.length_singleton, List.range_one, List.map_cons, List.map_nil, List.mapM_cons, List.mapM_nil, Option.pure_def,
          Option.bind_eq_bind, Option.bind_eq_some_iff, Option.some.injEq] at hread
        obtain ⟨b, hb, _, rfl, hbb⟩ := hread
        cases hbb
        simp [execRet, hb]
    rw [List.map_cons, List.mapM_cons, hhead]
    simp [ih']

theorem exec_generate (h : Final nm s st vals ins rets) : exec s (generate nm st) ins = some rets := by
  have hsi : st.inputs.Nodup := by
    have hs := h.nodup
    simp only [order] at hs
    exact (List.nodup_append.1 (List.nodup_append.1 hs).1).1
  have hlen : ins.length = (generate nm st).params.length := by simp [generate, h.ins.length_eq]
  unfold exec
  rw [if_pos hlen]
  obtain ⟨b1, -⟩ := bind_params h.uniq (is := st.inputs) (fun i hi => by simp [order, hi]) h.ins hsi
    (fun i hi => by obtain ⟨n, hn, -⟩ := h.inp i hi; exact ⟨n, hn⟩) (fun _ => none)
  have he : EnvOk st vals (st.inputs ++ []) (st.forward ++ st.outputs)
      (((generate nm st).params.zip ins).foldl (fun env a => upd env a.1 (some a.2)) (fun _ => none)) := by
    intro j hj r _ n m hn _ _
    exact b1 j (by simpa using hj) n hn
  obtain ⟨env', e1, e2⟩ := exec_nodes h (code := generate nm st) rfl st.forward [] (by simp) he
  have hbody : (generate nm st).body = (st.forward.map (genNode nm st)).flatten := rfl
  simp only [hbody, Option.bind_eq_bind]
  rw [e1]
  simp only [Option.bind_some]
  have hret : (generate nm st).ret = st.outputs.map (genRet st) := rfl
  rw [hret]
  exact exec_rets h (fun i hi => hi) h.outs e2

end Verif.Lemmas.Tracer
