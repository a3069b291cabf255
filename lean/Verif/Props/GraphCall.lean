import Verif.Spec.GraphCall
/-! C162: running a traced graph on other inputs. -/

namespace Verif.Props
open Verif.Model.GraphCall Verif.Spec.GraphCall

variable {V : Type}

theorem flat_tensors (as : List (Arg V)) : flat as = tensors as := by
  induction as with
  | nil => rfl
  | cons a r ih =>
    cases a with
    | one v => simp [flat, tensors, ih]
    | many vs => simp [flat, tensors, ih]

/-- The map holds the inputs and what the nodes that have run produce. -/
def CallInv (as : List (Arg V)) (env : Key → Option V) (done : List (Node V)) : Prop :=
  (∀ i, env (.inp i) = (tensors as)[i]?) ∧
  (∀ n v, env (.out n none) = some v ↔ ∃ m ∈ done, m.name = n ∧ produces m .whole = some v) ∧
  (∀ n j v, env (.out n (some j)) = some v ↔ ∃ m ∈ done, m.name = n ∧ produces m (.item j) = some v)

theorem call_start (as : List (Arg V)) : CallInv as (start as) [] := by
  refine ⟨fun i => by rw [start, flat_tensors], ?_, ?_⟩ <;> intros <;> simp [start]

theorem call_record (as : List (Arg V)) (env : Key → Option V) (done : List (Node V)) (h : CallInv as env done) (b : Node V) (hb : ∀ m ∈ done, m.name ≠ b.name) :
    CallInv as (record env b.name (b.f b.prevT)) (done ++ [b]) := by
  obtain ⟨h1, h2, h3⟩ := h
  refine ⟨?_, ?_, ?_⟩
  · intro i
    cases hf : b.f b.prevT <;> simp [record, h1]
  · intro n v
    have hex : (∃ m ∈ done ++ [b], m.name = n ∧ produces m .whole = some v) ↔ (∃ m ∈ done, m.name = n ∧ produces m .whole = some v) ∨ (b.name = n ∧ produces b .whole = some v) := by
      constructor
      · rintro ⟨m, hm, e⟩
        rcases List.mem_append.mp hm with hm | hm
        · exact Or.inl ⟨m, hm, e⟩
        · simp at hm; subst hm; exact Or.inr e
      · rintro (⟨m, hm, e⟩ | e)
        · exact ⟨m, by simp [hm], e⟩
        · exact ⟨b, by simp, e⟩
    rw [hex, ← h2]
    cases hf : b.f b.prevT with
    | one w =>
      by_cases hn : n = b.name
      · subst hn
        have hno : ¬ env (.out b.name none) = some v := by
          rw [h2]; rintro ⟨m, hm, e, _⟩; exact hb m hm e
        simp [record, produces, hf, hno]
      · simp [record, produces, hn, Ne.symm hn]
    | many vs => simp [record, produces, hf]
  · intro n j v
    have hex : (∃ m ∈ done ++ [b], m.name = n ∧ produces m (.item j) = some v) ↔ (∃ m ∈ done, m.name = n ∧ produces m (.item j) = some v) ∨ (b.name = n ∧ produces b (.item j) = some v) := by
      constructor
      · rintro ⟨m, hm, e⟩
        rcases List.mem_append.mp hm with hm | hm
        · exact Or.inl ⟨m, hm, e⟩
        · simp at hm; subst hm; exact Or.inr e
      · rintro (⟨m, hm, e⟩ | e)
        · exact ⟨m, by simp [hm], e⟩
        · exact ⟨b, by simp, e⟩
    rw [hex, ← h3]
    cases hf : b.f b.prevT with
    | one w => simp [record, produces, hf]
    | many vs =>
      by_cases hn : n = b.name
      · subst hn
        have hno : ¬ env (.out b.name (some j)) = some v := by
          rw [h3]; rintro ⟨m, hm, e, _⟩; exact hb m hm e
        by_cases hj : j < vs.length
        · simp [record, produces, hf, hno, hj]
        · have hnone : vs[j]? = none := by simp; omega
          simp [record, produces, hf, hno, hj]
      · simp [record, produces, hn, Ne.symm hn]

theorem fetchAll_spec (env : Key → Option V) : ∀ (ss : List Src) (vs xs : List V), fetchAll env ss vs = some xs →
    xs.length = ss.length ∧ vs.length = ss.length ∧ ∀ (k : Nat) (s : Src) (old x : V), ss[k]? = some s → vs[k]? = some old → xs[k]? = some x → fetch env s old = some x := by
  intro ss
  induction ss with
  | nil =>
    intro vs xs h
    cases vs with
    | nil => simp [fetchAll] at h; subst h; simp
    | cons v vs => simp [fetchAll] at h
  | cons s ss ih =>
    intro vs xs h
    cases vs with
    | nil => simp [fetchAll] at h
    | cons v vs =>
      rw [fetchAll] at h
      cases hf : fetch env s v with
      | none => rw [hf] at h; simp at h
      | some x =>
        cases hr : fetchAll env ss vs with
        | none => rw [hf, hr] at h; simp at h
        | some r =>
          rw [hf, hr] at h
          simp at h; subst h
          obtain ⟨e1, e2, e3⟩ := ih vs r hr
          refine ⟨by simp [e1], by simp [e2], ?_⟩
          intro k s' old x' hs hv hx
          cases k with
          | zero => simp at hs hv hx; subst hs; subst hv; subst hx; exact hf
          | succ k => simp at hs hv hx; exact e3 k s' old x' hs hv hx

theorem fetch_stands (as : List (Arg V)) (env : Key → Option V) (done rest : List (Node V)) (h : CallInv as env done) (s : Src) (old x : V) (hf : fetch env s old = some x) :
    StandsFor as (done ++ rest) s old x := by
  cases s with
  | const => simp [fetch] at hf; exact hf.symm
  | input i => rw [fetch, h.1] at hf; exact hf
  | node n ix =>
    cases ix with
    | whole =>
      obtain ⟨m, hm, e⟩ := (h.2.1 n x).mp hf
      exact ⟨m, by simp [hm], e⟩
    | item j =>
      obtain ⟨m, hm, e⟩ := (h.2.2 n j x).mp hf
      exact ⟨m, by simp [hm], e⟩
    | nested i j => simp [fetch] at hf

theorem store_kept (nextT ys : List V) (o : Out V) (h : store nextT o = some ys) : Kept o ys ∧ ys.length = nextT.length := by
  cases o with
  | one v =>
    rw [store] at h
    by_cases h0 : nextT.length = 0
    · rw [if_pos h0] at h; cases h
    · rw [if_neg h0] at h
      cases h
      cases nextT with
      | nil => simp at h0
      | cons a r => simp [Kept]
  | many vs =>
    rw [store] at h
    by_cases hl : vs.length ≤ nextT.length
    · rw [if_pos hl] at h
      cases h
      refine ⟨⟨_, rfl⟩, ?_⟩
      simp; omega
    · rw [if_neg hl] at h; cases h

theorem runAll_spec (as : List (Arg V)) : ∀ (ns : List (Node V)) (env : Key → Option V) (done out : List (Node V)), CallInv as env done → (∀ a ∈ ns, ∀ m ∈ done, m.name ≠ a.name) →
    (ns.map Node.name).Nodup → runAll env ns = some out → out.length = ns.length ∧ ∀ a ∈ ns, ∃ b ∈ out, Updated as (done ++ out) a b := by
  intro ns
  induction ns with
  | nil => intro env done out _ _ _ h; simp [runAll] at h; subst h; simp
  | cons n r ih =>
    intro env done out hi hd hnd h
    rw [runAll] at h
    cases hr : runNode env n with
    | none => rw [hr] at h; cases h
    | some en =>
      obtain ⟨env', n'⟩ := en
      rw [hr] at h
      simp only at h
      cases hr2 : runAll env' r with
      | none => rw [hr2] at h; cases h
      | some out' =>
        rw [hr2] at h
        cases h
        rw [runNode] at hr
        cases hf : fetchAll env n.prev n.prevT with
        | none => rw [hf] at hr; cases hr
        | some xs =>
          rw [hf] at hr
          simp only at hr
          cases hs : store n.nextT (n.f xs) with
          | none => rw [hs] at hr; cases hr
          | some ys =>
            rw [hs] at hr
            simp only [Option.some.injEq, Prod.mk.injEq] at hr
            obtain ⟨rfl, rfl⟩ := hr
            have hi' := call_record as env done hi { n with prevT := xs, nextT := ys } (fun m hm => hd n (by simp) m hm)
            simp only [List.map_cons, List.nodup_cons] at hnd
            have hd' : ∀ a ∈ r, ∀ m ∈ done ++ [{ n with prevT := xs, nextT := ys }], m.name ≠ a.name := by
              intro a ha m hm
              rcases List.mem_append.mp hm with hm | hm
              · exact hd a (by simp [ha]) m hm
              · simp at hm; subst hm
                intro e
                exact hnd.1 (List.mem_map.mpr ⟨a, ha, e.symm⟩)
            obtain ⟨e1, e2⟩ := ih _ _ out' hi' hd' hnd.2 hr2
            refine ⟨by simp [e1], ?_⟩
            intro a ha
            rcases List.mem_cons.mp ha with rfl | ha
            · obtain ⟨f1, f2, f3⟩ := fetchAll_spec env a.prev a.prevT xs hf
              obtain ⟨k1, k2⟩ := store_kept _ _ _ hs
              exact ⟨{ a with prevT := xs, nextT := ys }, by simp, ⟨⟨rfl, rfl, rfl, rfl⟩, ⟨f1, f2⟩, fun k s old x h1 h2 h3 => fetch_stands as env done _ hi s old x (f3 k s old x h1 h2 h3), k1, k2⟩⟩
            · obtain ⟨b, hb, hu⟩ := e2 a ha
              refine ⟨b, by simp [hb], ?_⟩
              rw [List.append_assoc] at hu
              exact hu

/-- Whenever running a graph finishes, the tensors kept in its nodes belong to the given inputs: every node has read what the other nodes produced in this run, or the given inputs, or its constants, and keeps what it
made of them.  In which order the nodes are listed does not matter. -/
theorem C162_values (as : List (Arg V)) (ns out : List (Node V)) (hn : (ns.map Node.name).Nodup) (h : run as ns = some out) : Belongs as ns out := by
  have hp := List.mergeSort_perm ns (fun a b => decide (a.order ≤ b.order))
  have hn' : ((ns.mergeSort (fun a b => decide (a.order ≤ b.order))).map Node.name).Nodup := (hp.map Node.name).nodup_iff.mpr hn
  obtain ⟨e1, e2⟩ := runAll_spec as _ (start as) [] out (call_start as) (by simp) hn' h
  refine ⟨by rw [e1, hp.length_eq], ?_⟩
  intro a ha
  exact e2 a (hp.mem_iff.mpr ha)

theorem fetchAll_some (env : Key → Option V) : ∀ (ss : List Src) (vs : List V), vs.length = ss.length → (∀ s ∈ ss, ∀ old, (fetch env s old).isSome) → (fetchAll env ss vs).isSome := by
  intro ss
  induction ss with
  | nil =>
    intro vs hl _
    cases vs with
    | nil => rfl
    | cons v vs => simp at hl
  | cons s ss ih =>
    intro vs hl h
    cases vs with
    | nil => simp at hl
    | cons v vs =>
      obtain ⟨x, hx⟩ := Option.isSome_iff_exists.mp (h s (by simp) v)
      obtain ⟨r, hr⟩ := Option.isSome_iff_exists.mp (ih vs (by simpa using hl) (fun t ht => h t (by simp [ht])))
      simp [fetchAll, hx, hr]

theorem runAll_some (as : List (Arg V)) (all : List (Node V)) : ∀ (ns : List (Node V)) (pre : List (Node V)) (env : Key → Option V) (done : List (Node V)), CallInv as env done →
    (∀ a ∈ ns, ∀ m ∈ done, m.name ≠ a.name) → (ns.map Node.name).Nodup → (∀ m ∈ all, m ∈ pre ∨ m ∈ ns) → (∀ m ∈ pre, ∃ b ∈ done, b.name = m.name ∧ b.f = m.f) →
    ns.Pairwise (fun a b => a.order ≤ b.order) → (∀ a ∈ ns, a.prevT.length = a.prev.length ∧ FixedShape a ∧ ∀ s ∈ a.prev, Reachable as all a.order s) → (runAll env ns).isSome := by
  intro ns
  induction ns with
  | nil => intros; rfl
  | cons n r ih =>
    intro pre env done hi hd hnd hall hpre hpw hok
    obtain ⟨hlen, hshape, hreach⟩ := hok n (by simp)
    rw [List.pairwise_cons] at hpw
    have hbefore : ∀ m ∈ all, m.order < n.order → m ∈ pre := by
      intro m hm ho
      rcases hall m hm with h | h
      · exact h
      · rcases List.mem_cons.mp h with rfl | h
        · omega
        · have := hpw.1 m h; omega
    have hfetch : ∀ s ∈ n.prev, ∀ old, (fetch env s old).isSome := by
      intro s hs old
      have hre := hreach s hs
      cases s with
      | const => rfl
      | input i =>
        simp only [fetch, hi.1]
        simp only [Reachable] at hre
        simp [hre]
      | node k ix =>
        cases ix with
        | whole =>
          obtain ⟨m, hm, hk, ho, hv⟩ := hre
          obtain ⟨b, hb, hbn, hbf⟩ := hpre m (hbefore m hm ho)
          obtain ⟨v, hv⟩ := hv b.prevT
          have : env (.out k none) = some v := (hi.2.1 k v).mpr ⟨b, hb, by rw [hbn, hk], by simp [produces, hbf, hv]⟩
          simp [fetch, this]
        | item j =>
          obtain ⟨m, hm, hk, ho, hv⟩ := hre
          obtain ⟨b, hb, hbn, hbf⟩ := hpre m (hbefore m hm ho)
          obtain ⟨vs, hv, hj⟩ := hv b.prevT
          have : env (.out k (some j)) = some vs[j] := (hi.2.2 k j _).mpr ⟨b, hb, by rw [hbn, hk], by simp [produces, hbf, hv, hj]⟩
          simp [fetch, this]
        | nested i j => exact hre.elim
    obtain ⟨xs, hxs⟩ := Option.isSome_iff_exists.mp (fetchAll_some env n.prev n.prevT hlen hfetch)
    have hst : ∃ ys, store n.nextT (n.f xs) = some ys := by
      rcases hshape with ⟨h1, h2⟩ | h2
      · obtain ⟨v, hv⟩ := h2 xs
        exact ⟨n.nextT.set 0 v, by rw [hv, store, if_neg (by omega)]⟩
      · obtain ⟨vs, hv, hl⟩ := h2 xs
        exact ⟨_, by rw [hv, store, if_pos (by omega)]⟩
    obtain ⟨ys, hys⟩ := hst
    have hrun : runNode env n = some (record env n.name (n.f xs), { n with prevT := xs, nextT := ys }) := by simp [runNode, hxs, hys]
    simp only [List.map_cons, List.nodup_cons] at hnd
    have hi' := call_record as env done hi { n with prevT := xs, nextT := ys } (fun m hm => hd n (by simp) m hm)
    have hd' : ∀ a ∈ r, ∀ m ∈ done ++ [{ n with prevT := xs, nextT := ys }], m.name ≠ a.name := by
      intro a ha m hm
      rcases List.mem_append.mp hm with hm | hm
      · exact hd a (by simp [ha]) m hm
      · simp at hm; subst hm
        intro e
        exact hnd.1 (List.mem_map.mpr ⟨a, ha, e.symm⟩)
    have := ih (pre ++ [n]) _ _ hi' hd' hnd.2
      (by
        intro m hm
        rcases hall m hm with h | h
        · exact Or.inl (by simp [h])
        · rcases List.mem_cons.mp h with rfl | h
          · exact Or.inl (by simp)
          · exact Or.inr h)
      (by
        intro m hm
        rcases List.mem_append.mp hm with hm | hm
        · obtain ⟨b, hb, e⟩ := hpre m hm
          exact ⟨b, by simp [hb], e⟩
        · simp at hm; subst hm
          exact ⟨{ m with prevT := xs, nextT := ys }, by simp, rfl, rfl⟩)
      hpw.2 (fun a ha => hok a (by simp [ha]))
    obtain ⟨out, hout⟩ := Option.isSome_iff_exists.mp this
    simp [runAll, hrun, hout]

/-- Running a graph finishes when every node reads constants, given inputs and outputs of nodes with smaller numbers, none of them inside another list, and has as many outputs as it had when it was traced. Full
property: for all graphs, see `C162_nested_false` and `C162_more_false`. -/
theorem C162_runs_partial (as : List (Arg V)) (ns : List (Node V)) (hn : (ns.map Node.name).Nodup)
    (hok : ∀ a ∈ ns, a.prevT.length = a.prev.length ∧ FixedShape a ∧ ∀ s ∈ a.prev, Reachable as ns a.order s) : ∃ out, run as ns = some out := by
  have hp := List.mergeSort_perm ns (fun a b => decide (a.order ≤ b.order))
  have hn' : ((ns.mergeSort (fun a b => decide (a.order ≤ b.order))).map Node.name).Nodup := (hp.map Node.name).nodup_iff.mpr hn
  have hs : (ns.mergeSort (fun a b => decide (a.order ≤ b.order))).Pairwise (fun a b => a.order ≤ b.order) := by
    have := List.pairwise_mergeSort (le := fun a b : Node V => decide (a.order ≤ b.order)) (by simp; intros; omega) (by simp; intros; omega) ns
    exact this.imp (by simp)
  exact Option.isSome_iff_exists.mp (runAll_some as ns _ [] (start as) [] (call_start as) (by simp) hn' (fun m hm => Or.inr (hp.mem_iff.mpr hm)) (by simp) hs (fun a ha => hok a (hp.mem_iff.mp ha)))

/-- A graph in which a tensor is split in two, the halves are combined with a constant, listed in the wrong order. -/
def callGraph : List (Node Int) :=
  [⟨1, 1, [.node 0 (.item 1), .const, .input 1], [0, 100, 0], [0], fun xs => .one (xs.sum)⟩, ⟨0, 0, [.input 0], [0], [0, 0], fun xs => .many [xs.headD 0, xs.headD 0 + 1]⟩]

example : (run [.many [5], .one 7] callGraph).map (List.map fun n => (n.name, n.prevT, n.nextT)) = some [(0, [5], [5, 6]), (1, [6, 100, 7], [113])] := by
  have : callGraph.mergeSort (fun a b => decide (a.order ≤ b.order)) = callGraph.reverse := by simp [callGraph, List.mergeSort, List.merge]
  rw [run, this]
  rfl

example : ∃ out, run [.many [5], .one 7] callGraph = some out ∧ Belongs [.many [5], .one 7] callGraph out := by
  obtain ⟨out, h⟩ := C162_runs_partial [.many [5], .one 7] callGraph (by decide) (by
    intro a ha
    simp [callGraph] at ha
    rcases ha with rfl | rfl
    · refine ⟨rfl, Or.inl ⟨rfl, fun xs => ⟨_, rfl⟩⟩, ?_⟩
      intro s hs
      simp at hs
      rcases hs with rfl | rfl | rfl
      · exact ⟨_, by simp [callGraph]; exact Or.inr rfl, rfl, by decide, fun xs => ⟨_, rfl, by simp⟩⟩
      · trivial
      · simp [Reachable, tensors]
    · refine ⟨rfl, Or.inr (fun xs => ⟨_, rfl, rfl⟩), ?_⟩
      intro s hs
      simp at hs; subst hs
      simp [Reachable, tensors])
  exact ⟨out, h, C162_values _ _ _ (by decide) h⟩

/-- A graph with a node that reads an item of an item, such as the last state of an LSTM, cannot be run, whatever the inputs are. -/
theorem C162_nested (as : List (Arg V)) (ns : List (Node V)) (hn : (ns.map Node.name).Nodup) (a : Node V) (ha : a ∈ ns) (n i j : Nat) (hs : Src.node n (.nested i j) ∈ a.prev) : run as ns = none := by
  cases h : run as ns with
  | none => rfl
  | some out =>
    obtain ⟨_, hb⟩ := C162_values as ns out hn h
    obtain ⟨b, _, hu⟩ := hb a ha
    obtain ⟨k, hk, hks⟩ := List.mem_iff_getElem.mp hs
    have h1 : k < a.prevT.length := by rw [hu.count.2]; exact hk
    have h2 : k < b.prevT.length := by rw [hu.count.1]; exact hk
    have := hu.inputs k (.node n (.nested i j)) a.prevT[k] b.prevT[k] (by simp [hk, hks]) (by simp [h1]) (by simp [h2])
    obtain ⟨m, _, _, hp⟩ := this
    simp [produces] at hp

/-- An LSTM whose last hidden state is used. -/
theorem C162_nested_false : ∃ ns : List (Node Int), (ns.map Node.name).Nodup ∧ ∀ as, run as ns = none :=
  ⟨[⟨0, 0, [.input 0], [0], [0, 0], fun xs => .many xs⟩, ⟨1, 1, [.node 0 (.nested 1 0)], [0], [0], fun xs => .one (xs.headD 0)⟩], by decide,
    fun as => C162_nested as _ (by decide) ⟨1, 1, [.node 0 (.nested 1 0)], [0], [0], fun xs => .one (xs.headD 0)⟩ (by simp) 0 1 0 (by simp)⟩

/-- A node that has fewer outputs than when it was traced, such as a split of a shorter tensor, keeps the tensors of the previous run after them. -/
theorem C162_stale_false : ∃ (ns : List (Node Int)) (as : List (Arg Int)) (out : List (Node Int)), run as ns = some out ∧ out.map Node.nextT = [[7, 22, 33]] ∧ (∀ n ∈ out, n.f n.prevT = .many [7]) :=
  ⟨[⟨0, 0, [.input 0], [11], [11, 22, 33], fun xs => .many xs⟩], [.one 7], [⟨0, 0, [.input 0], [7], [7, 22, 33], fun xs => .many xs⟩], by rw [run, List.mergeSort_singleton]; rfl, rfl, by simp⟩

/-- A node that has more outputs than when it was traced ends the run with an IndexError. -/
theorem C162_more_false : ∃ (ns : List (Node Int)) (as : List (Arg Int)), (ns.map Node.name).Nodup ∧ (∀ n ∈ ns, ∀ s ∈ n.prev, s = .input 0) ∧ 1 ≤ (tensors as).length ∧ run as ns = none :=
  ⟨[⟨0, 0, [.input 0], [11], [11], fun xs => .many (xs ++ xs)⟩], [.one 7], by decide, by simp, by simp [tensors], by rw [run, List.mergeSort_singleton]; rfl⟩

end Verif.Props
