import Mathlib.Logic.Relation
import Verif.Props.Tracer
import Verif.Lemmas.GraphRemove

/-!
C86: the edits of a traced graph (inserting, removing, replacing and fusing nodes) change what the generated code computes in the intended way, and only in that way.
-/

namespace Verif.Props
open Verif.Spec.Trace Verif.Model.Tracer Verif.Lemmas.Tracer

section
variable {F M K T : Type}

theorem reads_finds {nodes : List (TNode F M K)} {vals : List (Out T)} {prev : List Nat} {idx : List Path} {as : List T} (h : Reads nodes vals prev idx as) :
    List.Forall₂ (fun (r : Nat × Path) a => (vals.getD r.1 (.seq [])).get r.2 = some a) (prev.zip idx) as := by
  induction h with
  | nil => exact .nil
  | cons n w h1 h2 h3 h4 _ ih =>
    refine .cons ?_ ih
    simp only [List.getD_eq_getElem?_getD, h3]
    exact h4

theorem reads_lengths {nodes : List (TNode F M K)} {vals : List (Out T)} {prev : List Nat} {idx : List Path} {as : List T} (h : Reads nodes vals prev idx as) : prev.length = idx.length := by
  induction h with
  | nil => rfl
  | cons n w h1 h2 h3 h4 _ ih => simp [ih]

theorem sorted_pair {l : List Nat} (h : l.Pairwise (· < ·)) {a b : Nat} (ha : a ∈ l) (hb : b ∈ l) (hab : a < b) : [a, b].Sublist l := by
  obtain ⟨A, B, rfl⟩ := List.append_of_mem ha
  have hbB : b ∈ B := by
    rcases List.mem_append.1 hb with hb | hb
    · have := (List.pairwise_append.1 h).2.2 b hb a (by simp)
      omega
    · rcases List.mem_cons.1 hb with rfl | hb
      · omega
      · exact hb
  exact (List.nil_sublist A).append ((List.singleton_sublist.2 hbB).cons_cons a)

/-- A finished trace meets the hypotheses of the theorems below. -/
theorem traced_ok {s : Sem F M K T} {st : State F M K} {vals ins rets : List (Out T)} (h : Traced s st vals ins rets) :
    WellFormed st ∧ RunsTo s st ins rets (fun i => vals.getD i (.seq [])) := by
  have hval : ∀ (i : Nat) (v : Out T), vals[i]? = some v → vals.getD i (.seq []) = v := by
    intro i v hv
    rw [List.getD_eq_getElem?_getD, hv]
    rfl
  have hnode : ∀ i ∈ st.forward, ∃ (n : TNode F M K) (c : Callee F M) (args : List T), st.nodes[i]? = some n ∧ n.kind = kindFor c ∧ Reads st.nodes vals n.prev n.idx args ∧
      vals[i]? = some (s.call c args) ∧ ∀ f, n.kind = .func f → n.names = List.zipWith (refAt st.nodes) n.prev n.idx := by
    intro i hi
    obtain ⟨n, hn, hk⟩ := h.lists.fwd i hi
    have hno := h.node i n hn
    unfold NodeOk at hno
    rcases hk with ⟨f, hk⟩ | ⟨m, hk⟩
    · rw [hk] at hno
      obtain ⟨args, r1, r2, r3, r4⟩ := hno
      exact ⟨n, .func f, args, hn, hk, r1, r2, fun _ _ => r3⟩
    · rw [hk] at hno
      obtain ⟨args, r1, r2, r4⟩ := hno
      exact ⟨n, .module m, args, hn, hk, r1, r2, fun f' hf => by rw [hk] at hf; cases hf⟩
  have hsorted := h.lists.sorted
  have hfs : st.forward.Pairwise (· < ·) := by
    simp only [order] at hsorted
    exact (List.pairwise_append.1 (List.pairwise_append.1 hsorted).1).2.1
  refine ⟨⟨fun i _ j _ n m => h.uniq i j n m, hsorted.imp Nat.ne_of_lt, h.lists.csorted.imp Nat.ne_of_lt, h.lists.inp, ?_, ?_, h.lists.con, ?_, ?_⟩, ?_, ?_, ?_, ?_⟩
  · intro i hi
    obtain ⟨n, c, args, h1, h2, -⟩ := hnode i hi
    exact ⟨n, c, h1, h2⟩
  · intro i hi
    obtain ⟨r, -, n, as, h1, h2, -⟩ := forall₂_mem h.outs hi
    exact ⟨n, h1, h2⟩
  · intro i hi n hn
    rcases List.mem_append.1 hi with hi | hi
    · obtain ⟨n', c, args, h1, h2, h3, h4, h5⟩ := hnode i hi
      rw [hn] at h1
      cases h1
      exact ⟨reads_lengths h3, h5⟩
    · obtain ⟨r, -, n', as, h1, h2, h3, -⟩ := forall₂_mem h.outs hi
      rw [hn] at h1
      cases h1
      exact ⟨reads_lengths h3, fun f hf => by rw [h2] at hf; cases hf⟩
  · intro i hi n hn j hj
    rcases h.prev hn (List.mem_append.1 hi) j hj with hc | ⟨hc, hlt⟩
    · exact Or.inl hc
    · rcases hc with hc | hc
      · exact Or.inr (Or.inl hc)
      · exact Or.inr (Or.inr ⟨hc, fun hif => sorted_pair hfs hc hif hlt⟩)
  · have := h.ins
    refine List.forall₂_iff_get.2 ⟨this.length_eq, fun k h1 h2 => ?_⟩
    exact hval _ _ ((List.forall₂_iff_get.1 this).2 k h1 h2)
  · intro i hi n k hn hk
    have hno := h.node i n hn
    unfold NodeOk at hno
    rw [hk] at hno
    exact hval _ _ hno.1
  · intro i hi n c hn hw
    obtain ⟨n', c', args, h1, h2, h3, h4, -⟩ := hnode i hi
    rw [hn] at h1
    cases h1
    simp only [whatOf, hn, Option.bind_some, h2, calleeOf_kind, Option.some.injEq] at hw
    subst hw
    exact ⟨args, reads_finds h3, hval _ _ h4⟩
  · have := h.outs
    refine List.forall₂_iff_get.2 ⟨this.length_eq, fun k h1 h2 => ?_⟩
    obtain ⟨n, as, g1, g2, g3, g4⟩ := (List.forall₂_iff_get.1 this).2 k h1 h2
    exact ⟨n, as, g1, reads_finds g3, g4⟩

variable [DecidableEq M] [DecidableEq K]

/-- Every traced model gives a graph to which the theorems below apply, and its run returns what the model returns. -/
theorem C86_traced {nm : Naming F M K} (hU : NamesOk nm.user) {s : Sem F M K T} {p : Prog F M K} (hf : s.Faithful p) (vs : List T)
    (hin : p.inputs = List.replicate vs.length (.one ())) {st : State F M K} (ht : trace nm p = some st) :
    WellFormed st ∧ ∃ rets vals, s.forward p (vs.map .one) = some rets ∧ RunsTo s st (vs.map .one) rets vals := by
  obtain ⟨vals, rets, h1, -, h2⟩ := C81_traced hU hf vs hin ht
  obtain ⟨g, r⟩ := traced_ok h1
  exact ⟨g, rets, _, h2, r⟩

/-- The code generated for a well-formed graph returns what a run of the graph returns. -/
theorem C86_generate {nm : Naming F M K} {s : Sem F M K T} {st : State F M K} (g : WellFormed st) {args rets : List (Out T)} {vals : Nat → Out T} (r : RunsTo s st args rets vals) :
    exec s (generate nm st) args = some rets := exec_generate (final_of g r)

/-- Inserting a call after a node: every reader of the node gets the result of the call on what the node returns; everything else is as before. -/
theorem C86_insert_after {nm : Naming F M K} {pre : String} {s : Sem F M K T} {st st' : State F M K} {i : Nat} {c : Callee F M} (g : WellFormed st) (hi : i ∈ order st ++ st.consts)
    (hf : FreshName st (newName nm pre st c).1) (h : insertAfter nm pre st i c = some st') :
    WellFormed st' ∧ ∀ (args rets : List (Out T)) (vals : Nat → Out T) (v : T), vals i = .one v → RunsWith s st (whatOf st) (seeAfter s vals i c v) args rets vals →
      exec s (generate nm st') args = some rets ∧ ∃ vals', RunsTo s st' args rets vals' := by
  obtain ⟨ni, L1, L2, hni, ins⟩ := inserted_after g hi hf h
  have g' := ins.wf g
  refine ⟨g', fun args rets vals v hv r => ?_⟩
  have r' := ins.runs g r (v := v) (by rw [hv]; rfl) ?_ ?_
  · exact ⟨C86_generate g' r', _, r'⟩
  · intro j _ hjo n hn
    have hl := (g.wires j hjo n hn).1
    refine ⟨fun e => if e.1 = i then (st.nodes.length, e.2) else e, ?_, fun e he => ?_⟩
    · simp only [moveReader]
      rw [List.zip_map_left]
      apply List.map_congr_left
      rintro ⟨a, b⟩ _
      simp only [Prod.map]
      split_ifs <;> rfl
    · by_cases hei : e.1 = i
      · exact Or.inr (by simp [hei, seeAfter])
      · exact Or.inl (by simp [hei, seeAfter])
  · intro j hjo hj n hn e he
    simp only [seeAfter]
    rw [if_neg]
    intro hei
    exact hj (mem_nextNodes.2 ⟨by simp only [order, List.mem_append] at hjo ⊢; tauto, n, hn, hei ▸ zip_fst_mem he⟩)

/-- Inserting a call between two nodes: what reader `r` reads at place `p` of node `i` goes through the call. This needs that the reader reads that place alone, or other places
of the node only after it. -/
theorem C86_insert_between_partial {nm : Naming F M K} {pre : String} {s : Sem F M K T} {st st' : State F M K} {i r : Nat} {c : Callee F M} {only : Option Path} {p : Path}
    {nr : TNode F M K} (g : WellFormed st) (hr : st.nodes[r]? = some nr) (hf : FreshName st (newName nm pre st c).1)
    (hch : ∀ e ∈ nr.prev.zip nr.idx, e.1 = i → (chosen i only e = true ↔ e.2 = p))
    (hpos : ∀ k e, (nr.prev.zip nr.idx)[k]? = some e → e.1 = i → (k < nr.prev.length - remaining i only nr ↔ e.2 = p))
    (h : insertBetween nm pre st i r c only = some st') :
    WellFormed st' ∧ ∀ (args rets : List (Out T)) (vals : Nat → Out T) (v : T), (vals i).get p = some v →
      RunsWith s st (whatOf st) (seeBetween s vals i p r c v) args rets vals → exec s (generate nm st') args = some rets ∧ ∃ vals', RunsTo s st' args rets vals' := by
  obtain ⟨ni, L1, L2, hni, hrf, hir, ins⟩ := inserted_between g hr hf hch hpos h
  have g' := ins.wf g
  refine ⟨g', fun args rets vals v hv run => ?_⟩
  have r' := ins.runs g run hv ?_ ?_
  · exact ⟨C86_generate g' r', _, r'⟩
  · intro j hj hjo n hn
    rw [List.mem_singleton] at hj
    subst hj
    rw [hr] at hn
    cases hn
    obtain ⟨z1, z2⟩ := zip_between (ni := ni) (x := st.nodes.length) (name := (newName nm pre st c).1) (g.wires j hjo nr hr).1 hch hpos
    refine ⟨between i p st.nodes.length, by rw [z1, z2, zip_map_both], fun e he => ?_⟩
    unfold between
    by_cases hei : e.1 = i ∧ e.2 = p
    · exact Or.inr (by simp [hei, seeBetween])
    · exact Or.inl (by rw [if_neg hei]; simp only [seeBetween]; rw [if_neg (fun h => hei h.2)]; exact ⟨trivial, rfl⟩)
  · intro j hjo hj n hn e he
    simp only [seeBetween]
    rw [if_neg (fun h => hj (by simp [h.1]))]

/-- Inserting a call before an output: the tensor at that place of the result goes through the call, everything else is as before. -/
theorem C86_insert_before_output {nm : Naming F M K} {pre : String} {s : Sem F M K T} {st st' : State F M K} {o k m : Nat} {c : Callee F M} {no : TNode F M K} (g : WellFormed st)
    (hm : st.outputs[m]? = some o) (ho : st.nodes[o]? = some no) (hf : FreshName st (newName nm pre st c).1) (h : insertOutput nm pre st o k c = some st') :
    WellFormed st' ∧ ∀ (args rets : List (Out T)) (vals : Nat → Out T) (as : List T) (a t : T), RunsTo s st args rets vals → as[k]? = some a → s.call c [a] = .one t →
      (no.rev = true → rets[m]? = some (.seq (as.map .leaf)) →
        exec s (generate nm st') args = some (rets.set m (.seq ((as.set k t).map .leaf))) ∧ ∃ vals', RunsTo s st' args (rets.set m (.seq ((as.set k t).map .leaf))) vals') ∧
      (no.rev = false → rets[m]? = some (.one a) → exec s (generate nm st') args = some (rets.set m (.one t)) ∧ ∃ vals', RunsTo s st' args (rets.set m (.one t)) vals') := by
  obtain ⟨i, p, hoo, hi, hp, ins⟩ := inserted_output g ho hf h
  have g' := ins.wf g
  refine ⟨g', fun args rets vals as a t run ha hc => ?_⟩
  have hml := (List.getElem?_eq_some_iff.1 hm).1
  have hmr : m < rets.length := by rw [← run.outs.length_eq]; exact hml
  obtain ⟨n', as', h1, h2, h3⟩ := (List.forall₂_iff_get.1 run.outs).2 m hml hmr
  rw [List.get_eq_getElem, (List.getElem?_eq_some_iff.1 hm).2] at h1 h2
  rw [ho] at h1
  cases h1
  rw [List.get_eq_getElem] at h3
  refine ⟨fun hrev hret => ?_, fun hrev hret => ?_⟩
  · have e3 : rets[m] = .seq (as.map .leaf) := (List.getElem?_eq_some_iff.1 hret).2
    have hsame : as' = as := by
      rcases h3 with ⟨-, h3⟩ | ⟨h3, -⟩
      · rw [e3] at h3
        simp only [Out.seq.injEq] at h3
        exact ((List.map_injective_iff.2 (fun x y h => by cases h; rfl)) h3).symm
      · rw [hrev] at h3; cases h3
    subst hsame
    have r' := ins.runs_output g run ho hi hp hm h2 ha hc
    rw [hrev] at r'
    exact ⟨C86_generate g' r', _, r'⟩
  · have e3 : rets[m] = .one a := (List.getElem?_eq_some_iff.1 hret).2
    have hsame : as' = [a] := by
      rcases h3 with ⟨h3, -⟩ | ⟨-, b, hb, h3⟩
      · rw [hrev] at h3; cases h3
      · rw [e3] at h3
        cases h3
        exact hb
    have hk0 : k = 0 := by
      have hl := (g.wires o (by simp [hoo]) no ho).1
      have hlen := h2.length_eq
      rw [hsame, List.length_zip] at hlen
      simp only [List.length_singleton] at hlen
      have := (List.getElem?_eq_some_iff.1 hi).1
      omega
    rw [hsame] at h2
    have r' := ins.runs_output g run ho hi hp hm h2 (a := a) (by rw [hk0]; rfl) hc
    rw [hrev] at r'
    exact ⟨C86_generate g' r', _, r'⟩

/-- Removing a node that reads one place and returns one tensor: its readers get what it read. -/
theorem C86_remove {nm : Naming F M K} {s : Sem F M K T} {st st' : State F M K} {x i : Nat} {p : Path} {nx : TNode F M K} (g : WellFormed st) (hx : st.nodes[x]? = some nx)
    (hp : nx.prev = [i]) (hi : nx.idx = [p]) (h : removeNode st x = some st') :
    WellFormed st' ∧ x ∉ st'.forward ∧ ∀ (args rets : List (Out T)) (vals : Nat → Out T),
      RunsWith s st (fun j => if j = x then none else whatOf st j) (seeInstead vals x i p) args rets vals → exec s (generate nm st') args = some rets ∧ RunsTo s st' args rets vals := by
  obtain ⟨hxf, mv, hw⟩ := moved_remove g hx hp hi h
  have g' := mv.wf g (by simpa using hxf)
  refine ⟨g', fun hx' => (mv.alive hx').2 (by simp), fun args rets vals run => ?_⟩
  have r' := mv.runs g run ?_ ?_
  · exact ⟨C86_generate g' r', r'⟩
  · intro j hj
    have : j ≠ x := fun e => (mv.alive hj).2 (by simp [e])
    rw [hw, if_neg this]
  · intro j _ n _ e _ a ha
    simp only [seeInstead] at ha
    unfold around
    split_ifs at ha ⊢ <;> exact ha

/-- Replacing what a node calls: the node calls the new function or module on the same tensors, under a name no other node has. -/
theorem C86_replace {nm : Naming F M K} {s : Sem F M K T} {st st' : State F M K} {x : Nat} {c : Callee F M} {name : String} {names : List NameRef} {nx : TNode F M K} (g : WellFormed st)
    (hx : st.nodes[x]? = some nx) (hxf : x ∈ st.forward) (hname : name = nx.name ∨ FreshName st name)
    (hnames : ∀ f, c = .func f → names = List.zipWith (refAt st.nodes) nx.prev nx.idx) (h : replaceModule st x c name names = some st') :
    WellFormed st' ∧ ∀ (args rets : List (Out T)) (vals : Nat → Out T), RunsWith s st (fun j => if j = x then some c else whatOf st j) (seeVals vals) args rets vals →
      exec s (generate nm st') args = some rets ∧ RunsTo s st' args rets vals := by
  obtain ⟨mv, hw⟩ := moved_replace g hx hxf hname hnames h
  have g' := mv.wf g (by simp)
  refine ⟨g', fun args rets vals run => ?_⟩
  have r' := mv.runs g run (fun j _ => hw j) (fun j _ n _ e _ a ha => ha)
  exact ⟨C86_generate g' r', r'⟩

/-- Fusing a node with the nodes `rest` that follow it, none of which but the last is read from outside: the first node calls the new function on the tensors it read before, and the
readers of the last node get the result. -/
theorem C86_fuse {nm : Naming F M K} {s : Sem F M K T} {st st' : State F M K} {x l : Nat} {rest : List Nat} {f : F} (g : WellFormed st) (hxf : x ∈ st.forward) (hxr : x ∉ rest)
    (hr : ∀ k ∈ rest, [x, k].Sublist st.forward) (hl : l ∈ rest)
    (hin : ∀ j ∈ st.forward ++ st.outputs, j ∉ rest → ∀ n : TNode F M K, st.nodes[j]? = some n → ∀ k ∈ n.prev, k ∈ rest → k = l) (h : fuseNodes st x rest l f = some st') :
    WellFormed st' ∧ (∀ k ∈ rest, k ∉ st'.forward) ∧ ∀ (args rets : List (Out T)) (vals : Nat → Out T),
      RunsWith s st (fun j => if j = x then some (.func f) else if j ∈ rest then none else whatOf st j) (seeOther vals l x) args rets vals →
      exec s (generate nm st') args = some rets ∧ RunsTo s st' args rets vals := by
  obtain ⟨mv, hw⟩ := moved_fuse g hxf hxr hr hl hin h
  have g' := mv.wf g (fun d hd => (hr d hd).subset (by simp))
  refine ⟨g', fun k hk hk' => (mv.alive hk').2 hk, fun args rets vals run => ?_⟩
  have r' := mv.runs g run ?_ ?_
  · exact ⟨C86_generate g' r', r'⟩
  · intro j hj
    rw [hw j hj]
    split_ifs with h1 h2
    · rfl
    · exact absurd h2 (mv.alive hj).2
    · rfl
  · intro j _ n _ e _ a ha
    simp only [seeOther] at ha
    unfold fusedAt
    split_ifs at ha ⊢ <;> exact ha

/-! ### Edits that change nothing -/

/-- A call that returns its argument. -/
def IsIdentity (s : Sem F M K T) (c : Callee F M) : Prop := ∀ v, s.call c [v] = .one v

/-- One insertion or removal of an identity (a `QuantStub` or `DeQuantStub` of a model that is not quantized yet, `contiguous`, dropout in evaluation mode, …) in a graph run on `args`. -/
inductive Harmless (nm : Naming F M K) (s : Sem F M K T) (args : List (Out T)) (st st' : State F M K) : Prop where
  | after (pre : String) (i : Nat) (c : Callee F M) (hid : IsIdentity s c) (hi : i ∈ order st ++ st.consts)
      (hone : ∀ rets vals, RunsTo s st args rets vals → ∃ v, vals i = .one v) (hf : FreshName st (newName nm pre st c).1) (h : insertAfter nm pre st i c = some st')
  | between (pre : String) (i r : Nat) (c : Callee F M) (only : Option Path) (p : Path) (nr : TNode F M K) (hid : IsIdentity s c) (hr : st.nodes[r]? = some nr)
      (hf : FreshName st (newName nm pre st c).1) (hch : ∀ e ∈ nr.prev.zip nr.idx, e.1 = i → (chosen i only e = true ↔ e.2 = p))
      (hpos : ∀ k e, (nr.prev.zip nr.idx)[k]? = some e → e.1 = i → (k < nr.prev.length - remaining i only nr ↔ e.2 = p)) (h : insertBetween nm pre st i r c only = some st')
  | before (pre : String) (o k : Nat) (c : Callee F M) (hid : IsIdentity s c) (hf : FreshName st (newName nm pre st c).1) (h : insertOutput nm pre st o k c = some st')
  | remove (x : Nat) (c : Callee F M) (hid : IsIdentity s c) (hc : whatOf st x = some c) (h : removeNode st x = some st')

theorem runsWith_congr {s : Sem F M K T} {st : State F M K} {what what' : Nat → Option (Callee F M)} {see see' : Nat → Nat → Path → Option T} {args rets : List (Out T)}
    {vals : Nat → Out T} (r : RunsWith s st what see args rets vals) (hw : ∀ j c, what' j = some c → what j = some c)
    (hs : ∀ j ∈ st.forward ++ st.outputs, ∀ n : TNode F M K, st.nodes[j]? = some n → ∀ e ∈ n.prev.zip n.idx, ∀ a, see j e.1 e.2 = some a → see' j e.1 e.2 = some a) :
    RunsWith s st what' see' args rets vals := by
  refine ⟨r.inputs, r.consts, ?_, ?_⟩
  · intro i hi n c hn hc
    obtain ⟨as, h1, h2⟩ := r.calls i hi n c hn (hw i c hc)
    exact ⟨as, finds_map id (by simp) (fun e he a ha => hs i (by simp [hi]) n hn e he a ha) h1, h2⟩
  · have := r.outs
    refine List.forall₂_iff_get.2 ⟨this.length_eq, fun k h1 h2 => ?_⟩
    obtain ⟨n, as, hn, hf, hr⟩ := (List.forall₂_iff_get.1 this).2 k h1 h2
    exact ⟨n, as, hn, finds_map id (by simp) (fun e he a ha => hs _ (List.mem_append_right _ (List.get_mem _ _)) n hn e he a ha) hf, hr⟩

theorem harmless_step {nm : Naming F M K} {s : Sem F M K T} {args : List (Out T)} {st st' : State F M K} (h : Harmless nm s args st st') (g : WellFormed st) :
    WellFormed st' ∧ ∀ rets vals, RunsTo s st args rets vals → ∃ vals', RunsTo s st' args rets vals' := by
  rcases h with ⟨pre, i, c, hid, hi, hone, hf, h⟩ | ⟨pre, i, r, c, only, p, nr, hid, hr, hf, hch, hpos, h⟩ | ⟨pre, o, k, c, hid, hf, h⟩ | ⟨x, c, hid, hc, h⟩
  · obtain ⟨g', hrun⟩ := C86_insert_after (s := s) g hi hf h
    refine ⟨g', fun rets vals run => ?_⟩
    obtain ⟨v, hv⟩ := hone rets vals run
    refine (hrun args rets vals v hv (runsWith_congr run (fun _ _ h => h) ?_)).2
    intro j _ n _ e _ a ha
    simp only [seeVals] at ha
    simp only [seeAfter, hid v]
    split_ifs with hei
    · rw [hei, hv] at ha; exact ha
    · exact ha
  · obtain ⟨g', hrun⟩ := C86_insert_between_partial (s := s) g hr hf hch hpos h
    refine ⟨g', fun rets vals run => ?_⟩
    obtain ⟨ni, L1, L2, hni, hrf, hir, ins⟩ := inserted_between g hr hf hch hpos h
    -- the place is read
    have hex : ∃ e ∈ nr.prev.zip nr.idx, e.1 = i ∧ e.2 = p := by
      unfold insertBetween at h
      simp only [Option.bind_eq_bind, Option.bind_eq_some_iff] at h
      obtain ⟨ni', -, nr', hr', h⟩ := h
      rw [hr] at hr'
      cases hr'
      rw [if_pos ⟨hir, hrf⟩] at h
      simp only [Option.bind_eq_some_iff] at h
      obtain ⟨e0, he0, -⟩ := h
      have he0m := List.mem_filter.1 (List.mem_of_mem_head? he0)
      have he0i : e0.1 = i := by
        have := he0m.2
        simp only [chosen, Bool.and_eq_true, decide_eq_true_eq] at this
        exact this.1
      exact ⟨e0, he0m.1, he0i, (hch e0 he0m.1 he0i).1 he0m.2⟩
    obtain ⟨e0, he0, e1, e2⟩ := hex
    obtain ⟨n, c', hn, hk⟩ := g.fwd r hrf
    rw [hr] at hn
    cases hn
    obtain ⟨as, has, -⟩ := run.calls r hrf nr c' hr (by simp [whatOf, hr, hk, calleeOf_kind])
    obtain ⟨v, -, hv⟩ := forall₂_mem has he0
    simp only [seeVals, e1, e2] at hv
    refine (hrun args rets vals v hv (runsWith_congr run (fun _ _ h => h) ?_)).2
    intro j _ n _ e _ a ha
    simp only [seeVals] at ha
    simp only [seeBetween, hid v]
    split_ifs with hei
    · rw [hei.2.1, hei.2.2, hv] at ha; exact ha
    · exact ha
  · have hno : ∃ no : TNode F M K, st.nodes[o]? = some no := by
      unfold insertOutput at h
      simp only [Option.bind_eq_bind, Option.bind_eq_some_iff] at h
      obtain ⟨no, hno, -⟩ := h
      exact ⟨no, hno⟩
    obtain ⟨no, ho⟩ := hno
    obtain ⟨i, p, hoo, hi, hp, ins⟩ := inserted_output g ho hf h
    obtain ⟨m, hm⟩ := List.getElem?_of_mem hoo
    obtain ⟨g', hrun⟩ := C86_insert_before_output (s := s) g hm ho hf h
    refine ⟨g', fun rets vals run => ?_⟩
    have hml := (List.getElem?_eq_some_iff.1 hm).1
    have hmr : m < rets.length := by rw [← run.outs.length_eq]; exact hml
    obtain ⟨n', as, h1, h2, h3⟩ := (List.forall₂_iff_get.1 run.outs).2 m hml hmr
    rw [List.get_eq_getElem, (List.getElem?_eq_some_iff.1 hm).2] at h1 h2
    rw [ho] at h1
    cases h1
    have hka : k < as.length := by
      have := h2.length_eq
      rw [List.length_zip] at this
      have h4 := (List.getElem?_eq_some_iff.1 hi).1
      have h5 := (List.getElem?_eq_some_iff.1 hp).1
      omega
    have hset : ∀ r : Out T, rets[m]? = some r → rets.set m r = rets := by
      intro r hr
      obtain ⟨h6, h7⟩ := List.getElem?_eq_some_iff.1 hr
      rw [← h7, List.set_getElem_self]
    rw [List.get_eq_getElem] at h3
    rcases h3 with ⟨hrev, h3⟩ | ⟨hrev, b, hb, h3⟩
    · have hret : rets[m]? = some (.seq (as.map .leaf)) := by rw [List.getElem?_eq_getElem hmr, h3]
      have := ((hrun args rets vals as as[k] as[k] run (List.getElem?_eq_getElem hka) (hid _)).1 hrev hret).2
      rwa [List.set_getElem_self, hset _ hret] at this
    · have hret : rets[m]? = some (.one b) := by rw [List.getElem?_eq_getElem hmr, h3]
      have hk0 : k = 0 := by rw [hb] at hka; simpa using hka
      have := ((hrun args rets vals as b b run (by rw [hb, hk0]; rfl) (hid _)).2 hrev hret).2
      rwa [hset _ hret] at this
  · have hh := h
    unfold removeNode at hh
    simp only [Option.bind_eq_bind, Option.bind_eq_some_iff] at hh
    obtain ⟨nx, hx, hh⟩ := hh
    by_cases hxf : x ∈ st.forward
    swap
    · rw [if_neg hxf] at hh
      cases hh
    rw [if_pos hxf] at hh
    split at hh
    swap
    · cases hh
    rename_i i p hp hi
    obtain ⟨g', -, hrun⟩ := C86_remove (nm := nm) (s := s) g hx hp hi h
    refine ⟨g', fun rets vals run => ?_⟩
    obtain ⟨as, has, hv⟩ := run.calls x hxf nx c hx hc
    unfold Finds at has
    rw [hp, hi] at has
    simp only [List.zip_cons_cons, List.zip_nil_right] at has
    cases has with
    | @cons _ a _ as' h1 h2 =>
    cases h2
    rw [hid a] at hv
    simp only [seeVals] at h1
    refine ⟨vals, (hrun args rets vals (runsWith_congr run ?_ ?_)).2⟩
    · intro j c' hc'
      split_ifs at hc' with hjx
      exact hc'
    · intro j _ n _ e _ b hb
      simp only [seeVals] at hb
      simp only [seeInstead]
      split_ifs with hex
      · rw [hex, hv] at hb
        rcases he2 : e.2 with _ | ⟨q, qs⟩
        · rw [he2] at hb
          simp only [Out.get, Option.some.injEq] at hb
          rw [← hb, h1]
        · rw [he2] at hb
          cases hb
      · exact hb

/-- Any sequence of such edits leaves the results of the generated code unchanged. -/
theorem C86_identity_edits {nm : Naming F M K} {s : Sem F M K T} {args : List (Out T)} {st st' : State F M K} (h : Relation.ReflTransGen (Harmless nm s args) st st') (g : WellFormed st)
    {rets : List (Out T)} {vals : Nat → Out T} (r : RunsTo s st args rets vals) : exec s (generate nm st') args = some rets := by
  have : WellFormed st' ∧ ∃ vals', RunsTo s st' args rets vals' := by
    induction h with
    | refl => exact ⟨g, vals, r⟩
    | tail _ h1 ih =>
      obtain ⟨g1, v1, r1⟩ := ih
      obtain ⟨g2, h2⟩ := harmless_step h1 g1
      exact ⟨g2, h2 _ _ r1⟩
  obtain ⟨g', vals', r'⟩ := this
  exact C86_generate g' r'

end

/-! ### Examples -/

/-- As `demoSem`, but the module `bn` returns its argument. -/
def stubSem : Sem Fs Bool Unit Nat := { demoSem with mod := fun
  | true, as => .one (as.headD 0 + 1)
  | false, as => .one (as.headD 0) }

theorem freshName_of_all {F M K : Type} {st : State F M K} {x : String} (h : (order st ++ st.consts).all (fun i => (st.nodes[i]?).all (fun n => decide (n.name ≠ x))) = true) : FreshName st x := by
  intro i hi n hn
  have := List.all_eq_true.1 h i hi
  rw [hn] at this
  simpa using this

def demoSt : State Fs Bool Unit := (trace demoNames demoProg).getD (init Fs Bool Unit)

theorem demo_traced : trace demoNames demoProg = some demoSt := by
  have : (trace demoNames demoProg).isSome = true := by decide +kernel
  obtain ⟨st, h⟩ := Option.isSome_iff_exists.1 this
  simp [demoSt, h]

theorem stub_faithful : stubSem.Faithful demoProg := by
  intro c hc args hl
  simp only [demoProg, List.mem_cons, List.not_mem_nil, or_false] at hc
  have hone : ∀ v : Nat, Fits (.one none) args (.one v) := by
    intro v
    refine ⟨fun p => by cases p <;> rfl, fun p j h => ?_⟩
    cases p <;> simp [Out.get] at h
  have hseq : ∀ v w : Nat, Fits (.seq [.leaf none, .leaf none]) args (.seq [.leaf v, .leaf w]) := by
    intro v w
    refine ⟨fun p => ?_, fun p j h => ?_⟩
    · rcases p with _ | ⟨_ | _ | i, _ | ⟨j, _ | ⟨k, p⟩⟩⟩ <;> simp [Out.get]
    · rcases p with _ | ⟨_ | _ | i, _ | ⟨j', _ | ⟨k, p⟩⟩⟩ <;> simp [Out.get] at h
  rcases hc with rfl | rfl | rfl | rfl | rfl
  · exact hone _
  · exact hone _
  · exact hseq _ _
  · exact hone _
  · exact hone _

/-- A stub after the input, one before each place of the list that is returned, and one between the split and the first sum. -/
example : ∃ st1 st2 st3, insertAfter demoNames "" demoSt 0 (.module false) = some st1 ∧ insertOutput demoNames "" st1 8 1 (.module false) = some st2 ∧
    insertBetween demoNames "" st2 3 5 (.module false) (some [0]) = some st3 ∧ st3.forward.length = 8 ∧
    ∀ x : Nat, exec stubSem (generate demoNames st3) [.one x] = stubSem.forward demoProg [.one x] := by
  have hsome : ∀ {α : Type} {o : Option α} {d : α}, o.isSome = true → o = some (o.getD d) := by
    intro α o d h
    cases o with
    | none => cases h
    | some a => rfl
  have hid : IsIdentity stubSem (.module false) := fun v => rfl
  obtain ⟨g, -⟩ := C86_traced (s := stubSem) demo_namesOk stub_faithful [0] rfl demo_traced
  have e1 : insertAfter demoNames "" demoSt 0 (.module false) = some ((insertAfter demoNames "" demoSt 0 (.module false)).getD demoSt) := hsome (by decide +kernel)
  generalize hs1 : (insertAfter demoNames "" demoSt 0 (.module false)).getD demoSt = st1 at e1
  have e2 : insertOutput demoNames "" st1 8 1 (.module false) = some ((insertOutput demoNames "" st1 8 1 (.module false)).getD demoSt) := hsome (by rw [← hs1]; decide +kernel)
  generalize hs2 : (insertOutput demoNames "" st1 8 1 (.module false)).getD demoSt = st2 at e2
  have e3 : insertBetween demoNames "" st2 3 5 (.module false) (some [0]) = some ((insertBetween demoNames "" st2 3 5 (.module false) (some [0])).getD demoSt) :=
    hsome (by rw [← hs2, ← hs1]; decide +kernel)
  generalize hs3 : (insertBetween demoNames "" st2 3 5 (.module false) (some [0])).getD demoSt = st3 at e3
  refine ⟨st1, st2, st3, e1, e2, e3, by rw [← hs3, ← hs2, ← hs1]; decide +kernel, fun x => ?_⟩
  obtain ⟨-, rets, vals, hfw, run⟩ := C86_traced (s := stubSem) demo_namesOk stub_faithful [x] rfl demo_traced
  have h1 : Harmless demoNames stubSem [.one x] demoSt st1 := by
    refine .after "" 0 _ hid (by decide +kernel) ?_ (freshName_of_all (by decide +kernel)) e1
    intro rets vals r
    have := r.inputs
    have hin : demoSt.inputs = [0] := by decide +kernel
    rw [hin] at this
    cases this with
    | cons h _ => exact ⟨x, h⟩
  have h2 : Harmless demoNames stubSem [.one x] st1 st2 := .before "" 8 1 _ hid (freshName_of_all (by rw [← hs1]; decide +kernel)) e2
  have h3 : Harmless demoNames stubSem [.one x] st2 st3 := by
    have hn : ∃ nr : TNode Fs Bool Unit, st2.nodes[5]? = some nr ∧ nr.prev = [3, 4] ∧ nr.idx = [[0], []] := by
      have : (st2.nodes[5]?).map (fun n => (n.prev, n.idx)) = some ([3, 4], [[0], []]) := by rw [← hs2, ← hs1]; decide +kernel
      rw [Option.map_eq_some_iff] at this
      obtain ⟨n, h1, h2⟩ := this
      simp only [Prod.mk.injEq] at h2
      exact ⟨n, h1, h2.1, h2.2⟩
    obtain ⟨nr, hr, hp, hi⟩ := hn
    refine .between "" 3 5 _ (some [0]) [0] nr hid hr (freshName_of_all (by rw [← hs2, ← hs1]; decide +kernel)) ?_ ?_ e3
    · intro e he hei
      rw [hp, hi] at he
      simp only [List.zip_cons_cons, List.zip_nil_right, List.mem_cons, List.not_mem_nil, or_false] at he
      rcases he with rfl | rfl
      · simp [chosen]
      · simp at hei
    · intro k e he hei
      have hrem : remaining 3 (some [0]) nr = 0 := by rw [remaining, hp, hi]; decide
      rw [hrem, hp]
      rw [hp, hi] at he
      rcases k with _ | _ | k
      · simp only [List.zip_cons_cons, List.getElem?_cons_zero, Option.some.injEq] at he
        subst he
        simp
      · simp only [List.zip_cons_cons, List.getElem?_cons_succ, List.getElem?_cons_zero, Option.some.injEq] at he
        subst he
        simp at hei
      · simp at he
  rw [C86_identity_edits ((Relation.ReflTransGen.single h1).tail h2 |>.tail h3) g run]
  exact hfw.symm

/-- The sum of the input with itself, a module that returns its argument, and `conv`. -/
def fuseProg : Prog Fs Bool Unit :=
  ⟨[.one ()], [⟨.func .add, [.res 0 [], .res 0 []], .one none⟩, ⟨.module false, [.res 1 []], .one none⟩, ⟨.module true, [.res 2 []], .one none⟩], [.one (.res 3 [])]⟩

theorem fuse_faithful : stubSem.Faithful fuseProg := by
  intro c hc args hl
  simp only [fuseProg, List.mem_cons, List.not_mem_nil, or_false] at hc
  have hone : ∀ v : Nat, Fits (.one none) args (.one v) := by
    intro v
    refine ⟨fun p => by cases p <;> rfl, fun p j h => ?_⟩
    cases p <;> simp [Out.get] at h
  rcases hc with rfl | rfl | rfl
  · exact hone _
  · exact hone _
  · exact hone _

def fuseSt : State Fs Bool Unit := (trace demoNames fuseProg).getD (init Fs Bool Unit)

theorem fuse_traced : trace demoNames fuseProg = some fuseSt := by
  have : (trace demoNames fuseProg).isSome = true := by decide +kernel
  obtain ⟨st, h⟩ := Option.isSome_iff_exists.1 this
  simp [fuseSt, h]

theorem fuse_node (i : Nat) {prev : List Nat} {idx : List Path} (h : (fuseSt.nodes[i]?).map (fun n => (n.prev, n.idx)) = some (prev, idx)) :
    ∃ n : TNode Fs Bool Unit, fuseSt.nodes[i]? = some n ∧ n.prev = prev ∧ n.idx = idx := by
  rw [Option.map_eq_some_iff] at h
  obtain ⟨n, h1, h2⟩ := h
  simp only [Prod.mk.injEq] at h2
  exact ⟨n, h1, h2.1, h2.2⟩

/-- The module is removed from the graph. -/
example : ∃ st, removeNode fuseSt 2 = some st ∧ st.forward = [1, 3] ∧ ∀ x : Nat, exec stubSem (generate demoNames st) [.one x] = stubSem.forward fuseProg [.one x] := by
  obtain ⟨st, h⟩ : ∃ st, removeNode fuseSt 2 = some st := Option.isSome_iff_exists.1 (by decide +kernel)
  have hf : (removeNode fuseSt 2).map (·.forward) = some [1, 3] := by decide +kernel
  rw [h] at hf
  refine ⟨st, h, Option.some.inj hf, fun x => ?_⟩
  obtain ⟨g, rets, vals, hfw, run⟩ := C86_traced (s := stubSem) demo_namesOk fuse_faithful [x] rfl fuse_traced
  refine Eq.trans ?_ hfw.symm
  refine C86_identity_edits (Relation.ReflTransGen.single (.remove 2 (.module false) (fun v => rfl) ?_ h)) g run
  have : (match whatOf fuseSt 2 with | some (.module false) => true | _ => false) = true := by decide +kernel
  revert this
  split
  · intro _; assumption
  · intro h; cases h

/-- `conv` is called under another name. -/
example : ∃ st, replaceModule fuseSt 3 (.module true) "conv_new" [] = some st ∧ ∀ x : Nat, exec stubSem (generate demoNames st) [.one x] = stubSem.forward fuseProg [.one x] := by
  obtain ⟨st, h⟩ : ∃ st, replaceModule fuseSt 3 (.module true) "conv_new" [] = some st := Option.isSome_iff_exists.1 (by decide +kernel)
  refine ⟨st, h, fun x => ?_⟩
  obtain ⟨g, rets, vals, hfw, run⟩ := C86_traced (s := stubSem) demo_namesOk fuse_faithful [x] rfl fuse_traced
  obtain ⟨n, hn, -⟩ := fuse_node 3 (prev := [2]) (idx := [[]]) (by decide +kernel)
  obtain ⟨-, hrun⟩ := C86_replace (nm := demoNames) (s := stubSem) g hn (by decide +kernel) (Or.inr (freshName_of_all (by decide +kernel))) (by intro f hf; cases hf) h
  refine Eq.trans ?_ hfw.symm
  refine (hrun _ rets vals ?_).1
  have hw : whatOf fuseSt 3 = some (.module true) := by
    have : (match whatOf fuseSt 3 with | some (.module true) => true | _ => false) = true := by decide +kernel
    revert this
    split
    · intro _; assumption
    · intro h; cases h
  refine runsWith_congr run (fun j c hc => ?_) (fun _ _ _ _ _ _ _ ha => ha)
  split_ifs at hc with hj
  · rw [hj, hw, hc]
  · exact hc

/-- The sum and the module become one function. -/
example : ∃ st, fuseNodes fuseSt 1 [2] 2 .add = some st ∧ st.forward = [1, 3] ∧ ∀ x : Nat, exec stubSem (generate demoNames st) [.one x] = stubSem.forward fuseProg [.one x] := by
  obtain ⟨st, h⟩ : ∃ st, fuseNodes fuseSt 1 [2] 2 .add = some st := Option.isSome_iff_exists.1 (by decide +kernel)
  have hf : (fuseNodes fuseSt 1 [2] 2 .add).map (·.forward) = some [1, 3] := by decide +kernel
  rw [h] at hf
  refine ⟨st, h, Option.some.inj hf, fun x => ?_⟩
  obtain ⟨g, rets, vals, hfw, run⟩ := C86_traced (s := stubSem) demo_namesOk fuse_faithful [x] rfl fuse_traced
  have hfwd : fuseSt.forward = [1, 2, 3] := by decide +kernel
  obtain ⟨-, -, hrun⟩ := C86_fuse (nm := demoNames) (s := stubSem) g (x := 1) (l := 2) (rest := [2]) (f := .add) (by rw [hfwd]; simp) (by simp)
    (by rw [hfwd]; simp) (by simp) (fun j _ _ n _ k _ hk => by simpa using hk) h
  have hw1 : whatOf fuseSt 1 = some (.func .add) := by
    have : (match whatOf fuseSt 1 with | some (.func .add) => true | _ => false) = true := by decide +kernel
    revert this
    split
    · intro _; assumption
    · intro h; cases h
  have hw2 : whatOf fuseSt 2 = some (.module false) := by
    have : (match whatOf fuseSt 2 with | some (.module false) => true | _ => false) = true := by decide +kernel
    revert this
    split
    · intro _; assumption
    · intro h; cases h
  obtain ⟨n1, hn1, -⟩ := fuse_node 1 (prev := [0, 0]) (idx := [[], []]) (by decide +kernel)
  obtain ⟨n2, hn2, hp2, hi2⟩ := fuse_node 2 (prev := [1]) (idx := [[]]) (by decide +kernel)
  obtain ⟨as1, -, hv1⟩ := run.calls 1 (by rw [hfwd]; simp) n1 _ hn1 hw1
  obtain ⟨as2, ha2, hv2⟩ := run.calls 2 (by rw [hfwd]; simp) n2 _ hn2 hw2
  have hsame : vals 2 = vals 1 := by
    unfold Finds at ha2
    rw [hp2, hi2] at ha2
    simp only [List.zip_cons_cons, List.zip_nil_right] at ha2
    cases ha2 with
    | @cons _ a _ as' h1 h2 =>
      cases h2
      simp only [seeVals, hv1] at h1
      simp only [hv1, hv2]
      exact congrArg Out.one (Option.some.inj h1).symm
  refine Eq.trans ?_ hfw.symm
  refine (hrun _ rets vals (runsWith_congr run (fun j c hc => ?_) (fun j _ n _ e _ a ha => ?_))).1
  · split_ifs at hc with h1 h2
    · rw [h1, hw1, hc]
    · exact hc
  · simp only [seeVals] at ha
    simp only [seeOther]
    split_ifs with he
    · rw [he, hsame] at ha; exact ha
    · exact ha

/-! ### What fails -/

/-- A module that reads both parts of a split. -/
def pairSem : Sem Fs Bool Unit Nat := { demoSem with mod := fun
  | true, as => .one (as.headD 0 + 1)
  | false, as => .one (as.headD 0 + 100 * as.getD 1 0) }

def pairProg : Prog Fs Bool Unit :=
  ⟨[.one ()], [⟨.func .split, [.res 0 []], .seq [.leaf none, .leaf none]⟩, ⟨.module false, [.res 1 [0], .res 1 [1]], .one none⟩], [.one (.res 2 [])]⟩

/-- `insert_between` for the second of two places: the first one is redirected instead, and the code fails. -/
theorem C86_insert_between_second_false : (trace demoNames pairProg).bind (fun st => exec pairSem (generate demoNames st) [.one 5]) = some [.one 302] ∧
    (((trace demoNames pairProg).bind (fun st => insertBetween demoNames "" st 1 2 (.module true) (some [1]))).map (fun st => exec pairSem (generate demoNames st) [.one 5])) = some none ∧
    (((trace demoNames pairProg).bind (fun st => insertBetween demoNames "" st 1 2 (.module true) (some [0]))).bind (fun st => exec pairSem (generate demoNames st) [.one 5])) =
      some [.one 303] := by
  decide +kernel

def sumProg : Prog Fs Bool Unit :=
  ⟨[.one ()], [⟨.func .split, [.res 0 []], .seq [.leaf none, .leaf none]⟩, ⟨.func .add, [.res 1 [0], .res 1 [1]], .one none⟩], [.one (.res 2 [])]⟩

/-- Without a choice of places, a reader of two places of a node gets the first one twice. -/
theorem C86_insert_between_all_false : (trace demoNames sumProg).bind (fun st => exec stubSem (generate demoNames st) [.one 5]) = some [.one 5] ∧
    (((trace demoNames sumProg).bind (fun st => insertBetween demoNames "" st 1 2 (.module false) none)).bind (fun st => exec stubSem (generate demoNames st) [.one 5])) =
      some [.one 4] := by
  decide +kernel

end Verif.Props
