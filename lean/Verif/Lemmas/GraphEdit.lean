import Verif.Spec.GraphEdit
import Verif.Lemmas.TracerFinal

/-! Lemmas for C86. -/

namespace Verif.Lemmas.Tracer
open Verif.Spec.Trace Verif.Model.Tracer

section
variable {F M K T : Type}

theorem refAt_eq (nodes : List (TNode F M K)) : refAt nodes = refOf nodes := rfl
theorem kindFor_eq (c : Callee F M) : (kindFor c : Kind F M K) = kindOf c := by cases c <;> rfl

theorem calleeOf_kind (c : Callee F M) : calleeOf (kindFor c : Kind F M K) = some c := by cases c <;> rfl

theorem isOut_kindFor (c : Callee F M) : isOut (kindFor c : Kind F M K) = false := by cases c <;> rfl
theorem isConst_kindFor (c : Callee F M) : isConst (kindFor c : Kind F M K) = false := by cases c <;> rfl

/-- What is read exists and is not an output. -/
theorem _root_.Verif.Spec.Trace.WellFormed.source {st : State F M K} (g : WellFormed st) {i : Nat} (hi : i ∈ st.forward ++ st.outputs) {n : TNode F M K} (hn : st.nodes[i]? = some n) {j : Nat} (hj : j ∈ n.prev) :
    ∃ m : TNode F M K, st.nodes[j]? = some m ∧ isOut m.kind = false := by
  rcases g.before i hi n hn j hj with h | h | ⟨h, -⟩
  · obtain ⟨m, k, h1, h2⟩ := g.con j h
    exact ⟨m, h1, by rw [h2]; rfl⟩
  · obtain ⟨m, h1, h2⟩ := g.inp j h
    exact ⟨m, h1, by rw [h2]; rfl⟩
  · obtain ⟨m, c, h1, h2⟩ := g.fwd j h
    exact ⟨m, h1, by rw [h2, isOut_kindFor]⟩

theorem reads_of_finds {nodes : List (TNode F M K)} {vals : Nat → Out T} : ∀ {prev : List Nat} {idx : List Path} {as : List T}, prev.length = idx.length →
    (∀ j ∈ prev, ∃ m : TNode F M K, nodes[j]? = some m ∧ isOut m.kind = false) →
    List.Forall₂ (fun (r : Nat × Path) a => (vals r.1).get r.2 = some a) (prev.zip idx) as →
    Reads nodes ((List.range nodes.length).map vals) prev idx as := by
  intro prev
  induction prev with
  | nil =>
    intro idx as hl _ h
    cases idx with
    | nil => cases h; exact .nil
    | cons => cases hl
  | cons j prev ih =>
    intro idx as hl hm h
    cases idx with
    | nil => cases hl
    | cons p idx =>
      cases h with
      | cons h1 h2 =>
        obtain ⟨m, hm1, hm2⟩ := hm j (by simp)
        have hj : j < nodes.length := (List.getElem?_eq_some_iff.1 hm1).1
        exact .cons m (vals j) hm1 hm2 (by simp [hj]) h1 (ih (by simpa using hl) (fun k hk => hm k (by simp [hk])) h2)

/-- A well-formed graph and a run of it are all the generated code relies on. -/
theorem final_of [DecidableEq M] [DecidableEq K] {nm : Naming F M K} {s : Sem F M K T} {st : State F M K} (g : WellFormed st) {args rets : List (Out T)} {vals : Nat → Out T}
    (r : RunsTo s st args rets vals) : Final nm s st ((List.range st.nodes.length).map vals) args rets := by
  refine ⟨g.uniq, g.nodup, g.cnodup, g.inp, ?_, ?_, ?_, ?_, ?_⟩
  · intro i hi
    obtain ⟨n, c, hn, hk⟩ := g.fwd i hi
    have hw : whatOf st i = some c := by simp [whatOf, hn, hk, calleeOf_kind]
    obtain ⟨as, h1, h2⟩ := r.calls i hi n c hn hw
    obtain ⟨w1, w2⟩ := g.wires i (by simp [hi]) n hn
    refine ⟨n, c, as, hn, by rw [hk, kindFor_eq], reads_of_finds w1 (fun j hj => g.source (by simp [hi]) hn hj) h1, ?_, ?_⟩
    · have : i < st.nodes.length := (List.getElem?_eq_some_iff.1 hn).1
      simp [this, h2]
    · rintro f rfl
      exact funcArgs_eq (w2 f hk)
  · intro i hi
    obtain ⟨n, k, hn, hk⟩ := g.con i hi
    have : i < st.nodes.length := (List.getElem?_eq_some_iff.1 hn).1
    exact ⟨n, k, hn, hk, by simp [this, r.consts i hi n k hn hk]⟩
  · intro A i B hord hi n hn j hj
    have hnd := g.nodup
    have hio : i ∈ st.forward ++ st.outputs := by
      have : i ∈ order st := by rw [hord]; simp
      simp only [order, List.mem_append] at this ⊢
      tauto
    -- membership in A from coming before i
    have key : ∀ k, [k, i].Sublist (order st) → k ∈ A := by
      intro k hk
      rw [hord] at hk hnd
      obtain ⟨l1, l2, he, h1, h2⟩ := List.sublist_append_iff.1 hk
      rcases l1 with _ | ⟨a, l1⟩
      · exfalso
        simp only [List.nil_append] at he
        subst he
        have h2' : [i].Sublist B := by
          cases h2 with
          | cons _ h => exact (List.sublist_cons_self k [i]).trans h
          | cons_cons _ h => exact h
        have := (List.nodup_cons.1 (List.nodup_append.1 hnd).2.1).1
        exact this (List.singleton_sublist.1 h2')
      · simp only [List.cons_append, List.cons.injEq] at he
        rw [he.1]
        exact h1.subset (by simp)
    have hsub : ∀ k, k ∈ st.inputs ∨ (k ∈ st.forward ∧ i ∈ st.outputs) → [k, i].Sublist (order st) := by
      intro k hk
      rcases hk with hk | ⟨hk, ho⟩
      · have : [k, i] = [k] ++ [i] := rfl
        rw [this, order, List.append_assoc]
        exact (List.singleton_sublist.2 hk).append (List.singleton_sublist.2 hio)
      · have : [k, i] = [k] ++ [i] := rfl
        rw [this, order]
        exact (List.singleton_sublist.2 (by simp [hk])).append (List.singleton_sublist.2 ho)
    rcases g.before i hio n hn j hj with hc | hin | ⟨hf, hs⟩
    · exact Or.inl hc
    · refine Or.inr ⟨key j (hsub j (Or.inl hin)), fun ho => ?_⟩
      simp only [order] at hnd
      exact (List.nodup_append.1 hnd).2.2 j (by simp [hin]) j ho rfl
    · refine Or.inr ⟨?_, fun ho => ?_⟩
      · rcases List.mem_append.1 hio with hif | hio'
        · refine key j ((hs hif).trans ?_)
          rw [order, List.append_assoc]
          exact (List.sublist_append_left _ _).trans (List.sublist_append_right _ _)
        · exact key j (hsub j (Or.inr ⟨hf, hio'⟩))
      · simp only [order] at hnd
        exact (List.nodup_append.1 hnd).2.2 j (by simp [hf]) j ho rfl
  · have := r.inputs
    refine List.forall₂_iff_get.2 ⟨this.length_eq, fun k h1 h2 => ?_⟩
    have hv := (List.forall₂_iff_get.1 this).2 k h1 h2
    obtain ⟨n, hn, -⟩ := g.inp _ (List.get_mem st.inputs ⟨k, h1⟩)
    have : st.inputs.get ⟨k, h1⟩ < st.nodes.length := (List.getElem?_eq_some_iff.1 hn).1
    rw [List.getElem?_map, List.getElem?_range this, Option.map_some, hv]
  · have hout := r.outs
    have hmem : ∀ i ∈ st.outputs, i ∈ st.outputs := fun i hi => hi
    generalize hL : st.outputs = L at hout
    rw [hL] at hmem
    have hL' : ∀ i ∈ L, i ∈ st.outputs := by rw [hL]; exact hmem
    clear hmem hL r
    induction hout with
    | nil => exact .nil
    | @cons i v L rs h1 h2 ih =>
      refine .cons ?_ (ih (fun i hi => hL' i (List.mem_cons_of_mem _ hi)))
      obtain ⟨n, as, hn, hf, hr⟩ := h1
      have hi := hL' i (by simp)
      obtain ⟨n', hn', hk⟩ := g.out i hi
      rw [hn] at hn'
      cases hn'
      exact ⟨n, as, hn, hk, reads_of_finds (g.wires i (by simp [hi]) n hn).1 (fun j hj => g.source (by simp [hi]) hn hj) hf, hr⟩

/-! ### Renaming -/

/-- The replacements applied to one name. -/
def subName (rs : List (NameRef × NameRef)) (a : NameRef) : NameRef := rs.foldl (fun a r => if a = r.1 then r.2 else a) a

theorem replaceNames_eq (rs : List (NameRef × NameRef)) : ∀ names : List NameRef, replaceNames rs names = names.map (subName rs) := by
  induction rs with
  | nil =>
    intro names
    have : subName [] = id := rfl
    simp [replaceNames, this]
  | cons r rs ih =>
    intro names
    have : replaceNames (r :: rs) names = replaceNames rs (replaceName r.1 r.2 names) := rfl
    rw [this, ih, replaceName, List.map_map]
    rfl

theorem subName_other {rs : List (NameRef × NameRef)} {a : NameRef} (h : ∀ r ∈ rs, r.1 ≠ a) : subName rs a = a := by
  induction rs with
  | nil => rfl
  | cons r rs ih =>
    have hr : a ≠ r.1 := fun e => h r (by simp) e.symm
    have : subName (r :: rs) a = subName rs a := by simp [subName, hr]
    rw [this]
    exact ih (fun r' hr' => h r' (by simp [hr']))

theorem subName_fix {rs : List (NameRef × NameRef)} {b : NameRef} (h : ∀ r ∈ rs, r.1 = b → r.2 = b) : subName rs b = b := by
  induction rs with
  | nil => rfl
  | cons r rs ih =>
    have : subName (r :: rs) b = subName rs (if b = r.1 then r.2 else b) := rfl
    rw [this]
    split_ifs with hr
    · rw [h r (by simp) hr.symm]
      exact ih (fun r' hr' => h r' (by simp [hr']))
    · exact ih (fun r' hr' => h r' (by simp [hr']))

theorem subName_mem {rs : List (NameRef × NameRef)} {a b : NameRef} (hm : (a, b) ∈ rs) (hf : ∀ r ∈ rs, r.1 = a → r.2 = b) (hn : ∀ r ∈ rs, r.1 = b → r.2 = b) : subName rs a = b := by
  induction rs with
  | nil => cases hm
  | cons r rs ih =>
    by_cases hr : a = r.1
    · have : subName (r :: rs) a = subName rs r.2 := by simp [subName, hr]
      rw [this, hf r (by simp) hr.symm]
      exact subName_fix (fun r' hr' => hn r' (by simp [hr']))
    · have : subName (r :: rs) a = subName rs a := by simp [subName, hr]
      rw [this]
      refine ih ?_ (fun r' hr' => hf r' (by simp [hr'])) (fun r' hr' => hn r' (by simp [hr']))
      rcases List.mem_cons.1 hm with h | h
      · exact absurd (by rw [← h]) hr
      · exact h

/-! ### Changing nodes -/

theorem editNodes_length (nodes : List (TNode F M K)) (js : List Nat) (f : TNode F M K → TNode F M K) : (editNodes nodes js f).length = nodes.length := by simp [editNodes]

theorem editNodes_get (nodes : List (TNode F M K)) (js : List Nat) (f : TNode F M K → TNode F M K) (j : Nat) :
    (editNodes nodes js f)[j]? = (nodes[j]?).map (fun n => if j ∈ js then f n else n) := by simp [editNodes, List.getElem?_mapIdx]

/-- A run of the old graph, seen differently, is a run of the new one. -/
theorem runs_redirect {s : Sem F M K T} {st st' : State F M K} {what : Nat → Option (Callee F M)} {see : Nat → Nat → Path → Option T} {args rets : List (Out T)}
    {vals vals' : Nat → Out T} (g : WellFormed st) (r : RunsWith s st what see args rets vals) (hi : st'.inputs = st.inputs) (hc : st'.consts = st.consts)
    (ho : st'.outputs = st.outputs) (hv : ∀ j ∈ order st ++ st.consts, vals' j = vals j)
    (hcon : ∀ j ∈ st.consts, ∀ n n' : TNode F M K, st.nodes[j]? = some n → st'.nodes[j]? = some n' → n'.kind = n.kind)
    (hnodes : ∀ j ∈ st.outputs, ∀ n : TNode F M K, st.nodes[j]? = some n → ∃ n' : TNode F M K, st'.nodes[j]? = some n')
    (hrd : ∀ j ∈ st'.forward ++ st.outputs, j ∈ st.forward ++ st.outputs → ∀ n n' : TNode F M K, st.nodes[j]? = some n → st'.nodes[j]? = some n' →
      n'.rev = n.rev ∧ ∀ as : List T, Finds see j n as → Finds (seeVals vals') j n' as)
    (hfwd : ∀ j ∈ st'.forward, (j ∈ st.forward ∧ whatOf st' j = what j) ∨ ∀ (n' : TNode F M K) (c : Callee F M), st'.nodes[j]? = some n' → whatOf st' j = some c →
      ∃ as : List T, Finds (seeVals vals') j n' as ∧ vals' j = s.call c as) :
    RunsTo s st' args rets vals' := by
  refine ⟨?_, ?_, ?_, ?_⟩
  · rw [hi]
    have := r.inputs
    refine List.forall₂_iff_get.2 ⟨this.length_eq, fun k h1 h2 => ?_⟩
    rw [hv _ (by simp [order])]
    exact (List.forall₂_iff_get.1 this).2 k h1 h2
  · intro j hj n' k hn' hk
    rw [hc] at hj
    obtain ⟨n, k', hn, hk'⟩ := g.con j hj
    have := hcon j hj n n' hn hn'
    rw [hk, hk'] at this
    cases this
    rw [hv j (by simp [hj])]
    exact r.consts j hj n k hn hk'
  · intro j hj n' c hn' hw
    rcases hfwd j hj with ⟨hj', he⟩ | h
    · obtain ⟨n, c', hn, -⟩ := g.fwd j hj'
      rw [he] at hw
      obtain ⟨as, h1, h2⟩ := r.calls j hj' n c hn hw
      exact ⟨as, (hrd j (by simp [hj]) (by simp [hj']) n n' hn hn').2 as h1, by rw [hv j (by simp [order, hj'])]; exact h2⟩
    · exact h n' c hn' hw
  · rw [ho]
    have := r.outs
    refine List.forall₂_iff_get.2 ⟨this.length_eq, fun k h1 h2 => ?_⟩
    obtain ⟨n, as, hn, hf, hr⟩ := (List.forall₂_iff_get.1 this).2 k h1 h2
    have hj : st.outputs.get ⟨k, h1⟩ ∈ st.outputs := List.get_mem _ _
    obtain ⟨n', hn'⟩ := hnodes _ hj n hn
    obtain ⟨e1, e2⟩ := hrd _ (List.mem_append_right _ hj) (List.mem_append_right _ hj) n n' hn hn'
    exact ⟨n', as, hn', e2 as hf, by rw [e1]; exact hr⟩

/-- Places moved one by one. -/
theorem finds_map {see see' : Nat → Nat → Path → Option T} {j : Nat} {n n' : TNode F M K} (σ : Nat × Path → Nat × Path) (hz : n'.prev.zip n'.idx = (n.prev.zip n.idx).map σ)
    (h : ∀ e ∈ n.prev.zip n.idx, ∀ a, see j e.1 e.2 = some a → see' j (σ e).1 (σ e).2 = some a) {as : List T} (hf : Finds see j n as) : Finds see' j n' as := by
  unfold Finds at hf ⊢
  rw [hz, List.forall₂_map_left_iff]
  generalize n.prev.zip n.idx = l at h hf
  induction hf with
  | nil => exact .nil
  | cons h1 _ ih => exact .cons (h _ (by simp) _ h1) (ih (fun e he => h e (by simp [he])))

/-! ### Inserting a node -/

/-- A state with one more node, which reads place `p` of node `i`; the nodes `js` are changed by `f`. -/
structure Inserted (st st' : State F M K) (name : String) (c : Callee F M) (i : Nat) (p : Path) (js : List Nat) (f : TNode F M K → TNode F M K) (L1 L2 : List Nat) : Prop where
  nodes : st'.nodes = editNodes st.nodes js f ++ [⟨name, kindFor c, [i], [p], newNames c (refAt st.nodes i p), false⟩]
  inputs : st'.inputs = st.inputs
  outputs : st'.outputs = st.outputs
  consts : st'.consts = st.consts
  same : ∀ n, (f n).name = n.name ∧ (f n).kind = n.kind ∧ (f n).rev = n.rev
  fwd : st.forward = L1 ++ L2
  fwd' : st'.forward = L1 ++ st.nodes.length :: L2
  src : i ∈ st.consts ∨ i ∈ st.inputs ∨ i ∈ L1
  fresh : FreshName st name
  readers : ∀ j ∈ js, j ∈ st.forward ++ st.outputs → ∀ n : TNode F M K, st.nodes[j]? = some n → (f n).prev.length = (f n).idx.length ∧
    (∀ g, n.kind = .func g → (f n).names = List.zipWith (refAt st'.nodes) (f n).prev (f n).idx) ∧
    ∀ k ∈ (f n).prev, k ∈ n.prev ∨ (k = st.nodes.length ∧ (j ∈ L2 ∨ j ∈ st.outputs))

theorem _root_.Verif.Spec.Trace.WellFormed.lt {st : State F M K} (g : WellFormed st) {i : Nat} (hi : i ∈ order st ++ st.consts) : i < st.nodes.length := by
  have : ∃ n : TNode F M K, st.nodes[i]? = some n := by
    simp only [order, List.mem_append] at hi
    rcases hi with ((h | h) | h) | h
    · obtain ⟨n, h, -⟩ := g.inp i h; exact ⟨n, h⟩
    · obtain ⟨n, c, h, -⟩ := g.fwd i h; exact ⟨n, h⟩
    · obtain ⟨n, h, -⟩ := g.out i h; exact ⟨n, h⟩
    · obtain ⟨n, c, h, -⟩ := g.con i h; exact ⟨n, h⟩
  obtain ⟨n, h⟩ := this
  exact (List.getElem?_eq_some_iff.1 h).1

section
variable {st st' : State F M K} {name : String} {c : Callee F M} {i : Nat} {p : Path} {js : List Nat} {f : TNode F M K → TNode F M K} {L1 L2 : List Nat}

theorem Inserted.get_old (h : Inserted st st' name c i p js f L1 L2) {j : Nat} (hj : j < st.nodes.length) :
    st'.nodes[j]? = (st.nodes[j]?).map (fun n => if j ∈ js then f n else n) := by
  rw [h.nodes, List.getElem?_append_left (by rw [editNodes_length]; exact hj), editNodes_get]

theorem Inserted.get_new (h : Inserted st st' name c i p js f L1 L2) :
    st'.nodes[st.nodes.length]? = some ⟨name, kindFor c, [i], [p], newNames c (refAt st.nodes i p), false⟩ := by
  rw [h.nodes, List.getElem?_append_right (by rw [editNodes_length]; exact Nat.le_refl _), editNodes_length]
  simp

theorem Inserted.node (h : Inserted st st' name c i p js f L1 L2) {j : Nat} {n' : TNode F M K} (hj : j < st.nodes.length) (hn : st'.nodes[j]? = some n') :
    ∃ n : TNode F M K, st.nodes[j]? = some n ∧ n'.name = n.name ∧ n'.kind = n.kind ∧ n'.rev = n.rev ∧ ((j ∉ js ∧ n' = n) ∨ (j ∈ js ∧ n' = f n)) := by
  rw [h.get_old hj, Option.map_eq_some_iff] at hn
  obtain ⟨n, hn, rfl⟩ := hn
  refine ⟨n, hn, ?_⟩
  split_ifs with hjs
  · exact ⟨(h.same n).1, (h.same n).2.1, (h.same n).2.2, Or.inr ⟨hjs, rfl⟩⟩
  · exact ⟨rfl, rfl, rfl, Or.inl ⟨hjs, rfl⟩⟩

theorem Inserted.ref (h : Inserted st st' name c i p js f L1 L2) {j : Nat} (hj : j < st.nodes.length) (q : Path) : refAt st'.nodes j q = refAt st.nodes j q := by
  unfold refAt
  obtain ⟨n', hn'⟩ : ∃ n', st'.nodes[j]? = some n' := by
    rw [h.get_old hj]
    exact ⟨_, by rw [List.getElem?_eq_getElem hj, Option.map_some]⟩
  obtain ⟨n, hn, h1, h2, -⟩ := h.node hj hn'
  rw [hn, hn']
  simp [h1, h2]

theorem Inserted.ref_new (h : Inserted st st' name c i p js f L1 L2) (q : Path) : refAt st'.nodes st.nodes.length q = ⟨false, name, q⟩ := by
  unfold refAt
  rw [h.get_new]
  simp [isConst_kindFor]

theorem zipWith_congr_mem {α β γ : Type} {f g : α → β → γ} : ∀ {as : List α} {bs : List β}, (∀ a ∈ as, ∀ b, f a b = g a b) → List.zipWith f as bs = List.zipWith g as bs
  | [], _, _ => by simp
  | _ :: _, [], _ => by simp
  | a :: as, b :: bs, h => by
    rw [List.zipWith_cons_cons, List.zipWith_cons_cons, h a (by simp), zipWith_congr_mem (fun a ha => h a (by simp [ha]))]

/-- The new graph is well formed. -/
theorem Inserted.wf (h : Inserted st st' name c i p js f L1 L2) (g : WellFormed st) : WellFormed st' := by
  have hlt : ∀ j ∈ order st ++ st.consts, j < st.nodes.length := fun j hj => g.lt hj
  have hord' : order st' = st.inputs ++ (L1 ++ st.nodes.length :: L2) ++ st.outputs := by rw [order, h.inputs, h.fwd', h.outputs]
  have hord : order st = st.inputs ++ (L1 ++ L2) ++ st.outputs := by rw [order, h.fwd]
  have hmem : ∀ j, j ∈ order st' ↔ j = st.nodes.length ∨ j ∈ order st := by
    intro j
    rw [hord', hord]
    simp only [List.mem_append, List.mem_cons]
    tauto
  have hperm : (order st').Perm (st.nodes.length :: order st) := by
    rw [hord', hord]
    have e1 : (L1 ++ st.nodes.length :: L2).Perm (st.nodes.length :: (L1 ++ L2)) := List.perm_middle
    calc (st.inputs ++ (L1 ++ st.nodes.length :: L2) ++ st.outputs).Perm (st.inputs ++ (st.nodes.length :: (L1 ++ L2)) ++ st.outputs) :=
          ((List.Perm.append_left _ e1).append_right _)
      _ |>.Perm (st.nodes.length :: (st.inputs ++ (L1 ++ L2)) ++ st.outputs) := List.Perm.append_right _ List.perm_middle
      _ |>.Perm _ := by simp
  have hsubf : (L1 ++ L2).Sublist (L1 ++ st.nodes.length :: L2) := (List.Sublist.refl L1).append (List.sublist_cons_self _ L2)
  have hi : i < st.nodes.length := by
    apply hlt
    rw [hord]
    rcases h.src with h | h | h <;> simp [h]
  refine ⟨?_, ?_, ?_, ?_, ?_, ?_, ?_, ?_, ?_⟩
  · have hcases : ∀ j ∈ order st' ++ st'.consts, j = st.nodes.length ∨ j ∈ order st ++ st.consts := by
      intro j hj
      rw [h.consts, List.mem_append, hmem] at hj
      rw [List.mem_append]
      tauto
    intro j hj k hk n' m' hn' hm' he
    rcases hcases j hj with rfl | hj' <;> rcases hcases k hk with rfl | hk'
    · rfl
    · rw [h.get_new] at hn'
      cases hn'
      obtain ⟨m, hm, e1, -⟩ := h.node (hlt k hk') hm'
      exact absurd (e1 ▸ he.symm) (h.fresh k hk' m hm)
    · rw [h.get_new] at hm'
      cases hm'
      obtain ⟨m, hm, e1, -⟩ := h.node (hlt j hj') hn'
      exact absurd (e1 ▸ he) (h.fresh j hj' m hm)
    · obtain ⟨n, hn, e1, -⟩ := h.node (hlt j hj') hn'
      obtain ⟨m, hm, e2, -⟩ := h.node (hlt k hk') hm'
      exact g.uniq j hj' k hk' n m hn hm (by rw [← e1, ← e2, he])
  · rw [hperm.nodup_iff, List.nodup_cons]
    exact ⟨fun hx => absurd (hlt _ (List.mem_append_left _ hx)) (by omega), g.nodup⟩
  · rw [h.consts]; exact g.cnodup
  · intro j hj
    rw [h.inputs] at hj
    obtain ⟨n, hn, hk⟩ := g.inp j hj
    have hj' := hlt j (by simp [order, hj])
    refine ⟨_, by rw [h.get_old hj', hn, Option.map_some], ?_⟩
    split_ifs
    · rw [(h.same n).2.1, hk]
    · exact hk
  · intro j hj
    rw [h.fwd'] at hj
    have : j = st.nodes.length ∨ j ∈ st.forward := by
      rw [h.fwd]
      simp only [List.mem_append, List.mem_cons] at hj ⊢
      tauto
    rcases this with rfl | hj
    · exact ⟨_, c, h.get_new, rfl⟩
    · obtain ⟨n, c', hn, hk⟩ := g.fwd j hj
      have hj' := hlt j (by simp [order, hj])
      refine ⟨_, c', by rw [h.get_old hj', hn, Option.map_some], ?_⟩
      split_ifs
      · rw [(h.same n).2.1, hk]
      · exact hk
  · intro j hj
    rw [h.outputs] at hj
    obtain ⟨n, hn, hk⟩ := g.out j hj
    have hj' := hlt j (by simp [order, hj])
    refine ⟨_, by rw [h.get_old hj', hn, Option.map_some], ?_⟩
    split_ifs
    · rw [(h.same n).2.1, hk]
    · exact hk
  · intro j hj
    rw [h.consts] at hj
    obtain ⟨n, k, hn, hk⟩ := g.con j hj
    have hj' := hlt j (by simp [hj])
    refine ⟨_, k, by rw [h.get_old hj', hn, Option.map_some], ?_⟩
    split_ifs
    · rw [(h.same n).2.1, hk]
    · exact hk
  · intro j hj n' hn'
    rw [h.fwd', h.outputs] at hj
    have : j = st.nodes.length ∨ j ∈ st.forward ++ st.outputs := by
      rw [h.fwd]
      simp only [List.mem_append, List.mem_cons] at hj ⊢
      tauto
    rcases this with rfl | hj
    · rw [h.get_new] at hn'
      cases hn'
      refine ⟨rfl, fun g' hk => ?_⟩
      cases c with
      | func f' => simp [newNames, h.ref hi]
      | module m => cases hk
    · have hj' := hlt j (by simp only [order, List.mem_append] at hj ⊢; tauto)
      obtain ⟨n, hn, -, e2, -, hcase⟩ := h.node hj' hn'
      rcases hcase with ⟨-, rfl⟩ | ⟨hjs, rfl⟩
      · obtain ⟨w1, w2⟩ := g.wires j hj n' hn
        refine ⟨w1, fun g' hk => ?_⟩
        rw [w2 g' hk]
        apply zipWith_congr_mem
        intro k hk q
        obtain ⟨m, hm, -⟩ := g.source hj hn hk
        exact (h.ref (List.getElem?_eq_some_iff.1 hm).1 q).symm
      · obtain ⟨w1, w2, -⟩ := h.readers j hjs hj n hn
        exact ⟨w1, fun g' hk => w2 g' (e2 ▸ hk)⟩
  · intro j hj n' hn' k hk
    rw [h.fwd', h.outputs] at hj
    rw [h.consts, h.inputs, h.fwd']
    have : j = st.nodes.length ∨ j ∈ st.forward ++ st.outputs := by
      rw [h.fwd]
      simp only [List.mem_append, List.mem_cons] at hj ⊢
      tauto
    rcases this with rfl | hj
    · rw [h.get_new] at hn'
      cases hn'
      rw [List.mem_singleton] at hk
      subst hk
      rcases h.src with h1 | h1 | h1
      · exact Or.inl h1
      · exact Or.inr (Or.inl h1)
      · refine Or.inr (Or.inr ⟨by simp [h1], fun _ => ?_⟩)
        have : [k, st.nodes.length] = [k] ++ [st.nodes.length] := rfl
        rw [this]
        exact (List.singleton_sublist.2 h1).append (List.singleton_sublist.2 (by simp))
    · have hj' := hlt j (by simp only [order, List.mem_append] at hj ⊢; tauto)
      obtain ⟨n, hn, -, -, -, hcase⟩ := h.node hj' hn'
      have old : k ∈ n.prev → k ∈ st.consts ∨ k ∈ st.inputs ∨ (k ∈ L1 ++ st.nodes.length :: L2 ∧ (j ∈ L1 ++ st.nodes.length :: L2 → [k, j].Sublist (L1 ++ st.nodes.length :: L2))) := by
        intro hk
        rcases g.before j hj n hn k hk with h1 | h1 | ⟨h1, h2⟩
        · exact Or.inl h1
        · exact Or.inr (Or.inl h1)
        · rw [h.fwd] at h1 h2
          refine Or.inr (Or.inr ⟨hsubf.subset h1, fun hjf => (h2 ?_).trans hsubf⟩)
          simp only [List.mem_append, List.mem_cons] at hjf ⊢
          rcases hjf with hjf | rfl | hjf
          · exact Or.inl hjf
          · omega
          · exact Or.inr hjf
      rcases hcase with ⟨-, rfl⟩ | ⟨hjs, rfl⟩
      · exact old hk
      · rcases (h.readers j hjs hj n hn).2.2 k hk with hk' | ⟨rfl, hk'⟩
        · exact old hk'
        · refine Or.inr (Or.inr ⟨by simp, fun hjf => ?_⟩)
          have hjL : j ∈ L2 := by
            rcases hk' with h1 | h1
            · exact h1
            · exfalso
              have hnd := g.nodup
              rw [hord] at hnd
              refine (List.nodup_append.1 hnd).2.2 j ?_ j h1 rfl
              simp only [List.mem_append, List.mem_cons] at hjf ⊢
              rcases hjf with hjf | rfl | hjf
              · tauto
              · omega
              · tauto
          have : [st.nodes.length, j] = [] ++ [st.nodes.length, j] := rfl
          rw [this]
          exact (List.nil_sublist L1).append ((List.singleton_sublist.2 hjL).cons_cons _)

end

end

end Verif.Lemmas.Tracer
