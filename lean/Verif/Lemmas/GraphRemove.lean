import Verif.Lemmas.GraphInsert

/-! Lemmas for C86: `remove_node`, `replace_node_module` and `fuse_nodes_to_func`. -/

namespace Verif.Lemmas.Tracer
open Verif.Spec.Trace Verif.Model.Tracer

section
variable {F M K T : Type}

/-- Names of a reader after some of its places were given other names. -/
theorem names_moved {st : State F M K} (g : WellFormed st) {j : Nat} (hj : j ∈ st.forward ++ st.outputs) {n : TNode F M K} (hn : st.nodes[j]? = some n) {f : F} (hk : n.kind = .func f)
    (P : Nat × Path → Bool) (old new : Nat × Path → NameRef) (ho : ∀ e ∈ n.prev.zip n.idx, P e = true → old e = refAt st.nodes e.1 e.2)
    (h2 : ∀ e ∈ n.prev.zip n.idx, ∀ e' ∈ n.prev.zip n.idx, P e = true → P e' = true → refAt st.nodes e.1 e.2 = new e' → new e = new e') :
    replaceNames (((n.prev.zip n.idx).filter P).map (fun e => (old e, new e))) n.names = (n.prev.zip n.idx).map (fun e => if P e = true then new e else refAt st.nodes e.1 e.2) := by
  have hrs : ((n.prev.zip n.idx).filter P).map (fun e => (old e, new e)) = ((n.prev.zip n.idx).filter P).map (fun e => (refAt st.nodes e.1 e.2, new e)) := by
    apply List.map_congr_left
    intro e he
    rw [ho e (List.mem_filter.1 he).1 (List.mem_filter.1 he).2]
  have hmem : ∀ e ∈ n.prev.zip n.idx, e.1 ∈ order st ++ st.consts := fun e he => g.prev_mem hj hn (zip_fst_mem he)
  rw [hrs, replaceNames_eq, (g.wires j hj n hn).2 f hk, zipWith_zip, List.map_map]
  apply List.map_congr_left
  intro e he
  simp only [Function.comp]
  refine subName_filter (ref := fun e : Nat × Path => refAt st.nodes e.1 e.2) ?_ h2 e he
  intro e he e' he' hp heq
  obtain ⟨e1, e2⟩ := g.ref_inj (hmem e' he') (hmem e he) heq
  have : e' = e := Prod.ext e1 e2
  rw [this]
  exact ⟨hp, rfl⟩

/-- In a list without repetition, coming before is transitive. -/
theorem before_trans {l : List Nat} (hnd : l.Nodup) {a b c : Nat} (h1 : [a, b].Sublist l) (h2 : [b, c].Sublist l) : [a, c].Sublist l := by
  obtain ⟨A, B, rfl⟩ := List.append_of_mem (h1.subset (by simp : b ∈ [a, b]))
  have ha := before_split hnd h1
  have hc := after_split hnd h2
  have : [a, c] = [a] ++ [c] := rfl
  rw [this]
  exact (List.singleton_sublist.2 ha).append (List.singleton_sublist.2 (by simp [hc]))

theorem before_ne {l : List Nat} (hnd : l.Nodup) {a b : Nat} (h : [a, b].Sublist l) : a ≠ b := by
  rintro rfl
  exact absurd (hnd.sublist h) (by simp)

theorem disjoint_consts {st : State F M K} (g : WellFormed st) {i : Nat} (h : i ∈ st.forward) : i ∉ st.consts ∧ i ∉ st.inputs ∧ i ∉ st.outputs := by
  obtain ⟨n, c, hn, hk⟩ := g.fwd i h
  refine ⟨fun h' => ?_, fun h' => ?_, fun h' => ?_⟩
  · obtain ⟨n', k, hn', hk'⟩ := g.con i h'
    rw [hn] at hn'
    cases hn'
    rw [hk] at hk'
    cases c <;> cases hk'
  · obtain ⟨n', hn', hk'⟩ := g.inp i h'
    rw [hn] at hn'
    cases hn'
    rw [hk] at hk'
    cases c <;> cases hk'
  · obtain ⟨n', hn', hk'⟩ := g.out i h'
    rw [hn] at hn'
    cases hn'
    rw [hk] at hk'
    cases c <;> cases hk'

/-- Readers of some nodes are connected to other nodes, and calls are dropped. `σ` says where a place is found afterwards. -/
structure Moved (st st' : State F M K) (dead : List Nat) (σ : Nat × Path → Nat × Path) : Prop where
  inputs : st'.inputs = st.inputs
  outputs : st'.outputs = st.outputs
  consts : st'.consts = st.consts
  forward : st'.forward = st.forward.filter (fun k => k ∉ dead)
  uniq : ∀ i ∈ order st' ++ st'.consts, ∀ j ∈ order st' ++ st'.consts, ∀ n m : TNode F M K, st'.nodes[i]? = some n → st'.nodes[j]? = some m → n.name = m.name → i = j
  kind : ∀ j ∈ st.inputs ++ st.outputs ++ st.consts, ∀ n : TNode F M K, st.nodes[j]? = some n → ∃ n' : TNode F M K, st'.nodes[j]? = some n' ∧ n'.kind = n.kind ∧ n'.rev = n.rev
  call : ∀ j ∈ st'.forward, ∀ n : TNode F M K, st.nodes[j]? = some n → ∃ (n' : TNode F M K) (c : Callee F M), st'.nodes[j]? = some n' ∧ n'.kind = kindFor c ∧ n'.rev = n.rev
  reads : ∀ j ∈ st'.forward ++ st.outputs, ∀ n n' : TNode F M K, st.nodes[j]? = some n → st'.nodes[j]? = some n' →
    n'.prev = (n.prev.zip n.idx).map (fun e => (σ e).1) ∧ n'.idx = (n.prev.zip n.idx).map (fun e => (σ e).2) ∧
      ∀ f, n'.kind = .func f → n'.names = (n.prev.zip n.idx).map (fun e => refAt st'.nodes (σ e).1 (σ e).2)
  place : ∀ j ∈ st'.forward ++ st.outputs, ∀ n : TNode F M K, st.nodes[j]? = some n → ∀ e ∈ n.prev.zip n.idx,
    ((σ e).1 = e.1 ∧ e.1 ∉ dead) ∨ ((σ e).1 ∉ dead ∧ ((σ e).1 ∈ st.consts ∨ (σ e).1 ∈ st.inputs ∨ [(σ e).1, e.1].Sublist st.forward))

theorem Moved.alive {st st' : State F M K} {dead : List Nat} {σ : Nat × Path → Nat × Path} (h : Moved st st' dead σ) {j : Nat} (hj : j ∈ st'.forward) : j ∈ st.forward ∧ j ∉ dead := by
  rw [h.forward, List.mem_filter] at hj
  simpa using hj

theorem Moved.wf {st st' : State F M K} {dead : List Nat} {σ : Nat × Path → Nat × Path} (h : Moved st st' dead σ) (g : WellFormed st) (hd : ∀ d ∈ dead, d ∈ st.forward) : WellFormed st' := by
  have hfo : ∀ j ∈ st'.forward ++ st.outputs, j ∈ st.forward ++ st.outputs := by
    intro j hj
    rcases List.mem_append.1 hj with hj | hj
    · simp [(h.alive hj).1]
    · simp [hj]
  have hget : ∀ j ∈ st'.forward ++ st.outputs, ∃ n : TNode F M K, st.nodes[j]? = some n := by
    intro j hj
    have := g.lt (i := j) (by
      have := hfo j hj
      simp only [order, List.mem_append] at this ⊢
      tauto)
    exact ⟨_, List.getElem?_eq_getElem this⟩
  refine ⟨h.uniq, ?_, ?_, ?_, ?_, ?_, ?_, ?_, ?_⟩
  · have := g.nodup
    rw [order] at this ⊢
    rw [h.inputs, h.outputs, h.forward]
    exact this.sublist (((List.Sublist.refl _).append List.filter_sublist).append (List.Sublist.refl _))
  · rw [h.consts]; exact g.cnodup
  · intro j hj
    rw [h.inputs] at hj
    obtain ⟨n, hn, hk⟩ := g.inp j hj
    obtain ⟨n', hn', hk', -⟩ := h.kind j (by simp [hj]) n hn
    exact ⟨n', hn', by rw [hk', hk]⟩
  · intro j hj
    obtain ⟨n, hn⟩ := hget j (by simp [hj])
    obtain ⟨n', c, h1, h2, -⟩ := h.call j hj n hn
    exact ⟨n', c, h1, h2⟩
  · intro j hj
    rw [h.outputs] at hj
    obtain ⟨n, hn, hk⟩ := g.out j hj
    obtain ⟨n', hn', hk', -⟩ := h.kind j (by simp [hj]) n hn
    exact ⟨n', hn', by rw [hk', hk]⟩
  · intro j hj
    rw [h.consts] at hj
    obtain ⟨n, k, hn, hk⟩ := g.con j hj
    obtain ⟨n', hn', hk', -⟩ := h.kind j (by simp [hj]) n hn
    exact ⟨n', k, hn', by rw [hk', hk]⟩
  · intro j hj n' hn'
    rw [h.outputs] at hj
    obtain ⟨n, hn⟩ := hget j hj
    obtain ⟨r1, r2, r3⟩ := h.reads j hj n n' hn hn'
    refine ⟨by rw [r1, r2]; simp, fun f hk => ?_⟩
    rw [r3 f hk, r1, r2, zipWith_zip, zip_map_both, List.map_map]
    rfl
  · intro j hj n' hn' k hk
    rw [h.outputs] at hj
    rw [h.consts, h.inputs]
    obtain ⟨n, hn⟩ := hget j hj
    obtain ⟨r1, r2, r3⟩ := h.reads j hj n n' hn hn'
    rw [r1, List.mem_map] at hk
    obtain ⟨e, he, rfl⟩ := hk
    have hjo := hfo j hj
    have hfw : ∀ a b, a ∉ dead → b ∉ dead → [a, b].Sublist st.forward → [a, b].Sublist st'.forward := by
      intro a b ha hb hs
      have := hs.filter (fun k => decide (k ∉ dead))
      rw [h.forward]
      simpa [ha, hb] using this
    have hjd : j ∈ st'.forward → j ∉ dead := fun hj => (h.alive hj).2
    have mem' : ∀ a, a ∈ st.forward → a ∉ dead → a ∈ st'.forward := by
      intro a h1 h2
      rw [h.forward, List.mem_filter]
      simp [h1, h2]
    have b0 := g.before j hjo n hn e.1 (zip_fst_mem he)
    rcases h.place j hj n hn e he with ⟨h1, h2⟩ | ⟨h2, h1⟩
    · rw [h1]
      rcases b0 with b | b | ⟨b, b'⟩
      · exact Or.inl b
      · exact Or.inr (Or.inl b)
      · exact Or.inr (Or.inr ⟨mem' _ b h2, fun hjf => hfw _ _ h2 (hjd hjf) (b' (h.alive hjf).1)⟩)
    · rcases h1 with h1 | h1 | h1
      · exact Or.inl h1
      · exact Or.inr (Or.inl h1)
      · have hm := h1.subset (by simp : (σ e).1 ∈ [(σ e).1, e.1])
        have hm2 := h1.subset (by simp : e.1 ∈ [(σ e).1, e.1])
        refine Or.inr (Or.inr ⟨mem' _ hm h2, fun hjf => hfw _ _ h2 (hjd hjf) ?_⟩)
        rcases b0 with b | b | ⟨-, b'⟩
        · exact absurd b (disjoint_consts g hm2).1
        · exact absurd b (disjoint_consts g hm2).2.1
        · exact before_trans (nodup_forward g) h1 (b' (h.alive hjf).1)

theorem Moved.runs {st st' : State F M K} {dead : List Nat} {σ : Nat × Path → Nat × Path} (h : Moved st st' dead σ) (g : WellFormed st) {s : Sem F M K T}
    {what : Nat → Option (Callee F M)} {see : Nat → Nat → Path → Option T} {args rets : List (Out T)} {vals : Nat → Out T} (r : RunsWith s st what see args rets vals)
    (hw : ∀ j ∈ st'.forward, whatOf st' j = what j)
    (hs : ∀ j ∈ st'.forward ++ st.outputs, ∀ n : TNode F M K, st.nodes[j]? = some n → ∀ e ∈ n.prev.zip n.idx, ∀ a, see j e.1 e.2 = some a → (vals (σ e).1).get (σ e).2 = some a) :
    RunsTo s st' args rets vals := by
  refine runs_redirect g r h.inputs h.consts h.outputs (fun _ _ => rfl) ?_ ?_ ?_ ?_
  · intro j hj n n' hn hn'
    obtain ⟨m, hm, hk, -⟩ := h.kind j (by simp [hj]) n hn
    rw [hn'] at hm
    cases hm
    exact hk
  · intro j hj n hn
    obtain ⟨m, hm, -⟩ := h.kind j (by simp [hj]) n hn
    exact ⟨m, hm⟩
  · intro j hj _ n n' hn hn'
    obtain ⟨r1, r2, -⟩ := h.reads j hj n n' hn hn'
    refine ⟨?_, fun as hf => finds_map σ ?_ (fun e he a ha => hs j hj n hn e he a ha) hf⟩
    · rcases List.mem_append.1 hj with hj | hj
      · obtain ⟨m, c, hm, -, hr⟩ := h.call j hj n hn
        rw [hn'] at hm
        cases hm
        exact hr
      · obtain ⟨m, hm, -, hr⟩ := h.kind j (by simp [hj]) n hn
        rw [hn'] at hm
        cases hm
        exact hr
    · rw [r1, r2, zip_map_both]
  · intro j hj
    exact Or.inl ⟨(h.alive hj).1, hw j hj⟩

/-! ### `remove_node` -/

/-- Where a place is found once node `x` is gone. -/
def around (x i : Nat) (p : Path) (e : Nat × Path) : Nat × Path := if e.1 = x then (i, p) else e

theorem fst_map_zip {as : List Nat} {bs : List Path} (h : as.length = bs.length) : (as.zip bs).map (fun e => e.1) = as := by
  rw [← List.unzip_fst, List.unzip_zip h]

theorem snd_map_zip {as : List Nat} {bs : List Path} (h : as.length = bs.length) : (as.zip bs).map (fun e => e.2) = bs := by
  rw [← List.unzip_snd, List.unzip_zip h]

theorem map_prev {as : List Nat} {bs : List Path} (h : as.length = bs.length) (f : Nat → Nat) : as.map f = (as.zip bs).map (fun e => f e.1) := by
  conv_lhs => rw [← fst_map_zip h, List.map_map]
  rfl

theorem moved_remove {st st' : State F M K} {x i : Nat} {p : Path} {nx : TNode F M K} (g : WellFormed st) (hx : st.nodes[x]? = some nx) (hp : nx.prev = [i]) (hi : nx.idx = [p])
    (h : removeNode st x = some st') : x ∈ st.forward ∧ Moved st st' [x] (around x i p) ∧ ∀ j, whatOf st' j = whatOf st j := by
  unfold removeNode at h
  simp only [Option.bind_eq_bind, Option.bind_eq_some_iff] at h
  obtain ⟨nx', hx', h⟩ := h
  rw [hx] at hx'
  cases hx'
  by_cases hxf : x ∈ st.forward
  swap
  · rw [if_neg hxf] at h
    cases h
  rw [if_pos hxf, hp, hi] at h
  simp only [Option.bind_eq_some_iff, Option.some.injEq] at h
  obtain ⟨ni, hni, h⟩ := h
  have hxfo : x ∈ st.forward ++ st.outputs := by simp [hxf]
  have hnodes : st'.nodes = editNodes st.nodes (nextNodes st x) (moveRemoved x i nx ni p) := by rw [← h]
  have hbx := g.before x hxfo nx hx i (by rw [hp]; simp)
  have hix : i ≠ x := by
    rcases hbx with b | b | ⟨-, b⟩
    · rintro rfl; exact (disjoint_consts g hxf).1 b
    · rintro rfl; exact (disjoint_consts g hxf).2.1 b
    · exact before_ne (nodup_forward g) (b hxf)
  have him : i ∈ order st ++ st.consts := g.prev_mem hxfo hx (by rw [hp]; simp)
  have hxm : x ∈ order st ++ st.consts := by simp [order, hxf]
  have hgetj : ∀ j, st'.nodes[j]? = (st.nodes[j]?).map (fun n => if j ∈ nextNodes st x then moveRemoved x i nx ni p n else n) := by
    intro j
    rw [hnodes, editNodes_get]
  have hget : ∀ (j : Nat) (n : TNode F M K), st.nodes[j]? = some n → ∃ n' : TNode F M K, st'.nodes[j]? = some n' ∧ n'.name = n.name ∧ n'.kind = n.kind ∧ n'.rev = n.rev := by
    intro j n hn
    refine ⟨_, by rw [hgetj, hn, Option.map_some], ?_⟩
    split_ifs <;> exact ⟨rfl, rfl, rfl⟩
  have href : ∀ j q, refAt st'.nodes j q = refAt st.nodes j q := by
    intro j q
    unfold refAt
    rw [hgetj]
    cases hn : st.nodes[j]? with
    | none => rfl
    | some n =>
      simp only [Option.map_some]
      split_ifs <;> rfl
  refine ⟨hxf, ⟨by rw [← h], by rw [← h], by rw [← h], ?_, ?_, ?_, ?_, ?_, ?_⟩, ?_⟩
  · rw [← h]
    dsimp only
    congr 1
    funext k
    simp
  · have hsub : ∀ j ∈ order st' ++ st'.consts, j ∈ order st ++ st.consts := by
      intro j hj
      rw [← h] at hj
      simp only [order, List.mem_append, List.mem_filter] at hj ⊢
      tauto
    intro j hj k hk n' m' hn' hm' he
    rw [hgetj, Option.map_eq_some_iff] at hn' hm'
    obtain ⟨n, hn, hnn⟩ := hn'
    obtain ⟨m, hm, hmm⟩ := hm'
    refine g.uniq j (hsub j hj) k (hsub k hk) n m hn hm ?_
    have e1 : n'.name = n.name := by rw [← hnn]; split_ifs <;> rfl
    have e2 : m'.name = m.name := by rw [← hmm]; split_ifs <;> rfl
    rw [← e1, ← e2, he]
  · intro j _ n hn
    obtain ⟨n', h1, -, h2, h3⟩ := hget j n hn
    exact ⟨n', h1, h2, h3⟩
  · intro j hj n hn
    obtain ⟨n', h1, -, h2, h3⟩ := hget j n hn
    have hjf : j ∈ st.forward := by
      rw [← h] at hj
      exact (List.mem_filter.1 hj).1
    obtain ⟨m, c, hm, hk⟩ := g.fwd j hjf
    rw [hn] at hm
    cases hm
    exact ⟨n', c, h1, by rw [h2, hk], h3⟩
  · intro j hj n n' hn hn'
    have hjo : j ∈ st.forward ++ st.outputs := by
      rw [← h] at hj
      simp only [List.mem_append, List.mem_filter] at hj ⊢
      tauto
    have hl := (g.wires j hjo n hn).1
    rw [hgetj, hn, Option.map_some, Option.some.injEq] at hn'
    by_cases hr : j ∈ nextNodes st x
    · rw [if_pos hr] at hn'
      subst hn'
      refine ⟨?_, ?_, ?_⟩
      · simp only [moveRemoved]
        rw [map_prev hl]
        apply List.map_congr_left
        intro e _
        unfold around
        split_ifs <;> rfl
      · simp only [moveRemoved]
        apply List.map_congr_left
        intro e _
        unfold around
        split_ifs <;> rfl
      · intro f hk
        simp only [moveRemoved]
        rw [names_moved g hjo hn hk (fun e => decide (e.1 = x)) (fun e => nameAt nx e.2) (fun _ => nameAt ni p)]
        · apply List.map_congr_left
          intro e _
          rw [href]
          unfold around
          by_cases hex : e.1 = x
          · simp [hex, nameAt_eq hni]
          · simp [hex]
        · intro e _ hex
          simp only [decide_eq_true_eq] at hex
          rw [hex, nameAt_eq hx]
        · intros; rfl
    · rw [if_neg hr] at hn'
      subst hn'
      have hne : ∀ e ∈ n.prev.zip n.idx, around x i p e = e := by
        intro e he
        unfold around
        rw [if_neg]
        intro hex
        exact hr (mem_nextNodes.2 ⟨by simp only [order, List.mem_append] at hjo ⊢; tauto, n, hn, hex ▸ zip_fst_mem he⟩)
      refine ⟨?_, ?_, ?_⟩
      · rw [List.map_congr_left (g := fun e => e.1) (fun e he => by rw [hne e he]), fst_map_zip hl]
      · rw [List.map_congr_left (g := fun e => e.2) (fun e he => by rw [hne e he]), snd_map_zip hl]
      · intro f hk
        rw [(g.wires j hjo n hn).2 f hk, zipWith_zip]
        apply List.map_congr_left
        intro e he
        rw [hne e he, href]
  · intro j hj n hn e he
    unfold around
    by_cases hex : e.1 = x
    · rw [if_pos hex]
      refine Or.inr ⟨by simpa using hix, ?_⟩
      rw [hex]
      rcases hbx with b | b | ⟨-, b⟩
      · exact Or.inl b
      · exact Or.inr (Or.inl b)
      · exact Or.inr (Or.inr (b hxf))
    · rw [if_neg hex]
      exact Or.inl ⟨rfl, by simpa using hex⟩
  · intro j
    unfold whatOf
    rw [hgetj]
    cases st.nodes[j]? with
    | none => rfl
    | some n =>
      simp only [Option.map_some, Option.bind_some]
      split_ifs <;> rfl

/-! ### `replace_node_module` -/

theorem moved_replace {st st' : State F M K} {x : Nat} {c : Callee F M} {name : String} {names : List NameRef} {nx : TNode F M K} (g : WellFormed st) (hx : st.nodes[x]? = some nx)
    (hxf : x ∈ st.forward) (hname : name = nx.name ∨ FreshName st name) (hnames : ∀ f, c = .func f → names = List.zipWith (refAt st.nodes) nx.prev nx.idx)
    (h : replaceModule st x c name names = some st') : Moved st st' [] id ∧ ∀ j, whatOf st' j = if j = x then some c else whatOf st j := by
  unfold replaceModule at h
  simp only [Option.bind_eq_bind, Option.bind_eq_some_iff, Option.some.injEq] at h
  obtain ⟨nx', hx', h⟩ := h
  rw [hx] at hx'
  cases hx'
  have hxlt : x < st.nodes.length := (List.getElem?_eq_some_iff.1 hx).1
  have hxm : x ∈ order st ++ st.consts := by simp [order, hxf]
  have hgetx : st'.nodes[x]? = some { nx with name := name, kind := kindFor c, names := names } := by
    rw [← h]
    simp [editNodes_length, hxlt]
  have hgetj : ∀ j, j ≠ x → st'.nodes[j]? = (st.nodes[j]?).map (fun n => if j ∈ nextNodes st x then renameReader x nx name n else n) := by
    intro j hj
    rw [← h]
    dsimp only
    rw [List.getElem?_set_ne (Ne.symm hj), editNodes_get]
  have hget : ∀ (j : Nat) (n : TNode F M K), j ≠ x → st.nodes[j]? = some n → ∃ n' : TNode F M K, st'.nodes[j]? = some n' ∧ n'.name = n.name ∧ n'.kind = n.kind ∧ n'.rev = n.rev := by
    intro j n hj hn
    refine ⟨_, by rw [hgetj j hj, hn, Option.map_some], ?_⟩
    split_ifs <;> exact ⟨rfl, rfl, rfl⟩
  have href : ∀ j q, j ≠ x → refAt st'.nodes j q = refAt st.nodes j q := by
    intro j q hj
    unfold refAt
    rw [hgetj j hj]
    cases hn : st.nodes[j]? with
    | none => rfl
    | some n =>
      simp only [Option.map_some]
      split_ifs <;> rfl
  have hrefx : ∀ q, refAt st'.nodes x q = ⟨false, name, q⟩ := by
    intro q
    unfold refAt
    rw [hgetx]
    simp [isConst_kindFor]
  have hsub : ∀ j ∈ order st' ++ st'.consts, j ∈ order st ++ st.consts := by
    intro j hj
    rw [← h] at hj
    exact hj
  have hne : ∀ j ∈ st.inputs ++ st.outputs ++ st.consts, j ≠ x := by
    rintro j hj rfl
    obtain ⟨d1, d2, d3⟩ := disjoint_consts g hxf
    simp only [List.mem_append] at hj
    tauto
  have hself : x ∉ nx.prev := by
    intro hxp
    rcases g.before x (by simp [hxf]) nx hx x hxp with b | b | ⟨-, b⟩
    · exact (disjoint_consts g hxf).1 b
    · exact (disjoint_consts g hxf).2.1 b
    · exact before_ne (nodup_forward g) (b hxf) rfl
  refine ⟨⟨by rw [← h], by rw [← h], by rw [← h], ?_, ?_, ?_, ?_, ?_, ?_⟩, ?_⟩
  · rw [← h]
    simp
  · have hfr : ∀ j ∈ order st ++ st.consts, j ≠ x → ∀ n : TNode F M K, st.nodes[j]? = some n → n.name ≠ name := by
      intro j hj hjx n hn he
      rcases hname with rfl | hf
      · exact hjx (g.uniq j hj x hxm n nx hn hx he)
      · exact hf j hj n hn he
    have hnm : ∀ (j : Nat) (n' : TNode F M K), j ≠ x → st'.nodes[j]? = some n' → ∃ n : TNode F M K, st.nodes[j]? = some n ∧ n'.name = n.name := by
      intro j n' hj hn'
      rw [hgetj j hj, Option.map_eq_some_iff] at hn'
      obtain ⟨n, hn, rfl⟩ := hn'
      exact ⟨n, hn, by split_ifs <;> rfl⟩
    intro j hj k hk n' m' hn' hm' he
    by_cases hjx : j = x <;> by_cases hkx : k = x
    · rw [hjx, hkx]
    · exfalso
      subst hjx
      rw [hgetx] at hn'
      cases hn'
      obtain ⟨m, hm, e2⟩ := hnm k m' hkx hm'
      exact hfr k (hsub k hk) hkx m hm (by rw [← e2, ← he])
    · exfalso
      subst hkx
      rw [hgetx] at hm'
      cases hm'
      obtain ⟨m, hm, e2⟩ := hnm j n' hjx hn'
      exact hfr j (hsub j hj) hjx m hm (by rw [← e2, he])
    · obtain ⟨n, hn, e1⟩ := hnm j n' hjx hn'
      obtain ⟨m, hm, e2⟩ := hnm k m' hkx hm'
      exact g.uniq j (hsub j hj) k (hsub k hk) n m hn hm (by rw [← e1, ← e2, he])
  · intro j hj n hn
    obtain ⟨n', h1, -, h2, h3⟩ := hget j n (hne j hj) hn
    exact ⟨n', h1, h2, h3⟩
  · intro j hj n hn
    by_cases hjx : j = x
    · subst hjx
      rw [hx] at hn
      cases hn
      exact ⟨_, c, hgetx, rfl, rfl⟩
    · obtain ⟨n', h1, -, h2, h3⟩ := hget j n hjx hn
      have hjf : j ∈ st.forward := by
        rw [← h] at hj
        exact hj
      obtain ⟨m, c', hm, hk⟩ := g.fwd j hjf
      rw [hn] at hm
      cases hm
      exact ⟨n', c', h1, by rw [h2, hk], h3⟩
  · intro j hj n n' hn hn'
    have hjo : j ∈ st.forward ++ st.outputs := by
      rw [← h] at hj
      exact hj
    have hl := (g.wires j hjo n hn).1
    simp only [id]
    by_cases hjx : j = x
    · subst hjx
      rw [hgetx] at hn'
      cases hn'
      rw [hx] at hn
      cases hn
      refine ⟨(fst_map_zip hl).symm, (snd_map_zip hl).symm, fun f hk => ?_⟩
      dsimp only at hk ⊢
      cases c with
      | module m => cases hk
      | func f' =>
        rw [hnames f' rfl, zipWith_zip]
        apply List.map_congr_left
        intro e he
        rw [href]
        intro hej
        exact hself (hej ▸ zip_fst_mem he)
    · rw [hgetj j hjx, hn, Option.map_some, Option.some.injEq] at hn'
      by_cases hr : j ∈ nextNodes st x
      · rw [if_pos hr] at hn'
        subst hn'
        refine ⟨(fst_map_zip hl).symm, (snd_map_zip hl).symm, fun f hk => ?_⟩
        simp only [renameReader]
        rw [names_moved g hjo hn hk (fun e => decide (e.1 = x)) (fun e => nameAt nx e.2) (fun e => ⟨false, name, e.2⟩)]
        · apply List.map_congr_left
          intro e _
          by_cases hex : e.1 = x
          · simp [hex, hrefx]
          · simp [hex, href _ _ hex]
        · intro e _ hex
          simp only [decide_eq_true_eq] at hex
          rw [hex, nameAt_eq hx]
        · intro e _ e' _ hex _ heq
          simp only [decide_eq_true_eq] at hex
          rw [hex, ← nameAt_eq hx] at heq
          simp only [nameAt, NameRef.mk.injEq] at heq
          rw [heq.2.2]
      · rw [if_neg hr] at hn'
        subst hn'
        refine ⟨(fst_map_zip hl).symm, (snd_map_zip hl).symm, fun f hk => ?_⟩
        rw [(g.wires j hjo n hn).2 f hk, zipWith_zip]
        apply List.map_congr_left
        intro e he
        rw [href]
        intro hex
        exact hr (mem_nextNodes.2 ⟨by simp only [order, List.mem_append] at hjo ⊢; tauto, n, hn, hex ▸ zip_fst_mem he⟩)
  · intro j _ n _ e _
    exact Or.inl ⟨rfl, by simp⟩
  · intro j
    split_ifs with hj
    · rw [hj, whatOf, hgetx, Option.bind_some, calleeOf_kind]
    · unfold whatOf
      rw [hgetj j hj]
      cases st.nodes[j]? with
      | none => rfl
      | some n =>
        simp only [Option.map_some, Option.bind_some]
        split_ifs <;> rfl

/-! ### `fuse_nodes_to_func` -/

/-- Where a place is found once the nodes up to `l` are fused into `x`. -/
def fusedAt (l x : Nat) (e : Nat × Path) : Nat × Path := if e.1 = l then (x, e.2) else e

theorem moved_fuse {st st' : State F M K} {x l : Nat} {rest : List Nat} {f : F} (g : WellFormed st) (hxf : x ∈ st.forward) (hxr : x ∉ rest) (hr : ∀ k ∈ rest, [x, k].Sublist st.forward)
    (hl : l ∈ rest) (hin : ∀ j ∈ st.forward ++ st.outputs, j ∉ rest → ∀ n : TNode F M K, st.nodes[j]? = some n → ∀ k ∈ n.prev, k ∈ rest → k = l)
    (h : fuseNodes st x rest l f = some st') : Moved st st' rest (fusedAt l x) ∧ ∀ j, j ∈ st'.forward → whatOf st' j = if j = x then some (.func f) else whatOf st j := by
  unfold fuseNodes at h
  simp only [Option.bind_eq_bind, Option.bind_eq_some_iff] at h
  obtain ⟨nx, hx, nl, hnl, h⟩ := h
  cases hkx : nx.kind with
  | input => rw [hkx] at h; cases h
  | output => rw [hkx] at h; cases h
  | const k => rw [hkx] at h; cases h
  | module m => rw [hkx] at h; cases h
  | func f0 =>
  rw [hkx] at h
  simp only [Option.some.injEq] at h
  have hlf : l ∈ st.forward := (hr l hl).subset (by simp)
  have hxl : x ≠ l := fun e => hxr (e ▸ hl)
  have hxlt : x < st.nodes.length := (List.getElem?_eq_some_iff.1 hx).1
  have hconl : isConst nl.kind = false := by
    obtain ⟨m, c, hm, hk⟩ := g.fwd l hlf
    rw [hnl] at hm
    cases hm
    rw [hk, isConst_kindFor]
  have hgetj : ∀ j, st'.nodes[j]? = (st.nodes[j]?).map (fun n => if j = x then { (if j ∈ nextNodes st l then moveFused l x nl nx n else n) with kind := .func f } else
      if j ∈ nextNodes st l then moveFused l x nl nx n else n) := by
    intro j
    rw [← h]
    dsimp only
    by_cases hj : j = x
    · subst hj
      rw [List.getElem?_modify, editNodes_get]
      simp
      rfl
    · rw [List.getElem?_modify, editNodes_get]
      have : ¬ x = j := fun e => hj e.symm
      cases st.nodes[j]? <;> simp [hj, this]
  have hname : ∀ (j : Nat) (n n' : TNode F M K), st.nodes[j]? = some n → st'.nodes[j]? = some n' → n'.name = n.name ∧ n'.rev = n.rev ∧ isConst n'.kind = isConst n.kind ∧ (j ≠ x → n'.kind = n.kind) := by
    intro j n n' hn hn'
    rw [hgetj, hn, Option.map_some, Option.some.injEq] at hn'
    subst hn'
    by_cases hj : j = x
    · have : isConst n.kind = false := by
        rw [hj, hx] at hn
        cases hn
        rw [hkx]; rfl
      rw [if_pos hj]
      refine ⟨?_, ?_, by rw [this]; rfl, fun h => absurd hj h⟩
      · dsimp only; split_ifs <;> rfl
      · dsimp only; split_ifs <;> rfl
    · rw [if_neg hj]
      split_ifs <;> exact ⟨rfl, rfl, rfl, fun _ => rfl⟩
  have hex' : ∀ (j : Nat) (n : TNode F M K), st.nodes[j]? = some n → ∃ n' : TNode F M K, st'.nodes[j]? = some n' := by
    intro j n hn
    exact ⟨_, by rw [hgetj, hn, Option.map_some]⟩
  have hback : ∀ (j : Nat) (n' : TNode F M K), st'.nodes[j]? = some n' → ∃ n : TNode F M K, st.nodes[j]? = some n := by
    intro j n' hn'
    rw [hgetj, Option.map_eq_some_iff] at hn'
    obtain ⟨n, hn, -⟩ := hn'
    exact ⟨n, hn⟩
  have href : ∀ j q, refAt st'.nodes j q = refAt st.nodes j q := by
    intro j q
    unfold refAt
    cases hn : st.nodes[j]? with
    | none => rw [hgetj, hn]; rfl
    | some n =>
      obtain ⟨n', hn'⟩ := hex' j n hn
      obtain ⟨e1, -, e3, -⟩ := hname j n n' hn hn'
      rw [hn']
      simp [e1, e3]
  have hfwd' : st'.forward = st.forward.filter (fun k => k ∉ rest) := by rw [← h]
  have hne : ∀ j ∈ st.inputs ++ st.outputs ++ st.consts, j ≠ x := by
    rintro j hj rfl
    obtain ⟨d1, d2, d3⟩ := disjoint_consts g hxf
    simp only [List.mem_append] at hj
    tauto
  have hnr : ∀ j ∈ st'.forward ++ st.outputs, j ∈ st.forward ++ st.outputs ∧ j ∉ rest := by
    intro j hj
    rcases List.mem_append.1 hj with hj | hj
    · rw [hfwd', List.mem_filter] at hj
      exact ⟨by simp [hj.1], by simpa using hj.2⟩
    · exact ⟨by simp [hj], fun hjr => (disjoint_consts g ((hr j hjr).subset (by simp))).2.2 hj⟩
  refine ⟨⟨by rw [← h], by rw [← h], by rw [← h], hfwd', ?_, ?_, ?_, ?_, ?_⟩, ?_⟩
  · have hsub : ∀ j ∈ order st' ++ st'.consts, j ∈ order st ++ st.consts := by
      intro j hj
      rw [← h] at hj
      simp only [order, List.mem_append, List.mem_filter] at hj ⊢
      tauto
    intro j hj k hk n' m' hn' hm' he
    obtain ⟨n, hn⟩ := hback j n' hn'
    obtain ⟨m, hm⟩ := hback k m' hm'
    refine g.uniq j (hsub j hj) k (hsub k hk) n m hn hm ?_
    rw [← (hname j n n' hn hn').1, ← (hname k m m' hm hm').1, he]
  · intro j hj n hn
    obtain ⟨n', hn'⟩ := hex' j n hn
    obtain ⟨-, e2, -, e4⟩ := hname j n n' hn hn'
    exact ⟨n', hn', e4 (hne j hj), e2⟩
  · intro j hj n hn
    obtain ⟨n', hn'⟩ := hex' j n hn
    obtain ⟨-, e2, -, e4⟩ := hname j n n' hn hn'
    by_cases hjx : j = x
    · refine ⟨n', .func f, hn', ?_, e2⟩
      rw [hgetj, hn, Option.map_some, Option.some.injEq, if_pos hjx] at hn'
      rw [← hn']
      rfl
    · rw [hfwd', List.mem_filter] at hj
      obtain ⟨m, c, hm, hk⟩ := g.fwd j hj.1
      rw [hn] at hm
      cases hm
      exact ⟨n', c, hn', by rw [e4 hjx, hk], e2⟩
  · intro j hj n n' hn hn'
    obtain ⟨hjo, hjr⟩ := hnr j hj
    have hlen := (g.wires j hjo n hn).1
    have hbase : n'.prev = (if j ∈ nextNodes st l then moveFused l x nl nx n else n).prev ∧ n'.idx = (if j ∈ nextNodes st l then moveFused l x nl nx n else n).idx ∧
        n'.names = (if j ∈ nextNodes st l then moveFused l x nl nx n else n).names := by
      rw [hgetj, hn, Option.map_some, Option.some.injEq] at hn'
      subst hn'
      split_ifs <;> exact ⟨rfl, rfl, rfl⟩
    obtain ⟨b1, b2, b3⟩ := hbase
    rw [b1, b2, b3]
    have hfn : ∀ f', n'.kind = .func f' → ∃ f'', n.kind = .func f'' := by
      intro f' hk
      by_cases hjx : j = x
      · rw [hjx, hx] at hn
        cases hn
        exact ⟨f0, hkx⟩
      · exact ⟨f', by rw [← (hname j n n' hn hn').2.2.2 hjx, hk]⟩
    by_cases hrd : j ∈ nextNodes st l
    · rw [if_pos hrd]
      refine ⟨?_, ?_, ?_⟩
      · simp only [moveFused]
        rw [map_prev hlen]
        apply List.map_congr_left
        intro e _
        unfold fusedAt
        split_ifs <;> rfl
      · simp only [moveFused]
        conv_lhs => rw [← snd_map_zip hlen]
        apply List.map_congr_left
        intro e _
        unfold fusedAt
        split_ifs <;> rfl
      · intro f' hk
        obtain ⟨f'', hk⟩ := hfn f' hk
        simp only [moveFused]
        rw [names_moved g hjo hn hk (fun e => decide (e.1 = l)) (fun e => ⟨false, nl.name, e.2⟩) (fun e => ⟨false, nx.name, e.2⟩)]
        · apply List.map_congr_left
          intro e _
          rw [href]
          unfold fusedAt
          by_cases hex : e.1 = l
          · simp [hex, ← nameAt_eq hx, nameAt, hkx, isConst]
          · simp [hex]
        · intro e _ hex
          simp only [decide_eq_true_eq] at hex
          rw [hex, ← nameAt_eq hnl, nameAt, hconl]
        · intro e _ e' _ hex _ heq
          simp only [decide_eq_true_eq] at hex
          rw [hex, ← nameAt_eq hnl, nameAt] at heq
          simp only [NameRef.mk.injEq] at heq
          rw [heq.2.2]
    · rw [if_neg hrd]
      have hne : ∀ e ∈ n.prev.zip n.idx, fusedAt l x e = e := by
        intro e he
        unfold fusedAt
        rw [if_neg]
        intro hex
        exact hrd (mem_nextNodes.2 ⟨by simp only [order, List.mem_append] at hjo ⊢; tauto, n, hn, hex ▸ zip_fst_mem he⟩)
      refine ⟨?_, ?_, ?_⟩
      · rw [List.map_congr_left (g := fun e => e.1) (fun e he => by rw [hne e he]), fst_map_zip hlen]
      · rw [List.map_congr_left (g := fun e => e.2) (fun e he => by rw [hne e he]), snd_map_zip hlen]
      · intro f' hk
        obtain ⟨f'', hk⟩ := hfn f' hk
        rw [(g.wires j hjo n hn).2 f'' hk, zipWith_zip]
        apply List.map_congr_left
        intro e he
        rw [hne e he, href]
  · intro j hj n hn e he
    obtain ⟨hjo, hjr⟩ := hnr j hj
    unfold fusedAt
    by_cases hex : e.1 = l
    · rw [if_pos hex]
      exact Or.inr ⟨hxr, Or.inr (Or.inr (by rw [hex]; exact hr l hl))⟩
    · rw [if_neg hex]
      exact Or.inl ⟨rfl, fun hd => hex (hin j hjo hjr n hn e.1 (zip_fst_mem he) hd)⟩
  · intro j hj
    rw [hfwd', List.mem_filter] at hj
    split_ifs with hjx
    · subst hjx
      rw [whatOf, hgetj, hx]
      simp only [Option.map_some, Option.bind_some, if_true]
      rfl
    · obtain ⟨m, c, hm, hk⟩ := g.fwd j hj.1
      rw [whatOf, whatOf, hgetj, hm]
      simp only [Option.map_some, Option.bind_some, if_neg hjx]
      split_ifs <;> rfl

end

end Verif.Lemmas.Tracer
