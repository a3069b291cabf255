import Verif.Model.FuseEdges
import Verif.Spec.Paths
import Mathlib.Data.List.Perm.Basic
import Mathlib.Data.List.Nodup
import Mathlib.Data.List.Pairwise
import Mathlib.Tactic.Common

/-!
C50: chains of fusable operators are found completely.
-/

namespace Verif.Props
open Verif.Model Verif.Spec

variable {V : Type}

private structure WF (l : List (List V)) : Prop where
  len : ∀ s ∈ l, 2 ≤ s.length
  heads : (l.map List.head?).Nodup
  tails : (l.map List.getLast?).Nodup

private theorem links_append (s t : List V) (v : V) (h1 : s.getLast? = some v) (h2 : t.head? = some v) : links (s ++ t.tail) = links s ++ links t := by
  match t, h2 with
  | x :: t', h2 =>
    simp only [List.head?_cons, Option.some.injEq] at h2
    subst h2
    induction s with
    | nil => simp at h1
    | cons a s ih =>
      match s, ih, h1 with
      | [], _, h1 => simp at h1; subst h1; simp [links]
      | b :: s', ih, h1 =>
        have := ih (by simpa using h1)
        simp only [List.tail_cons, List.cons_append] at this ⊢
        rw [links, this, links, List.cons_append]

private theorem perm_filterMap {A B : Type} (E : A → List B) (f g : A → Option A) (p : A → Bool) (m : List A)
    (h : ∀ s ∈ m, (match f s with | some x => E x | none => []) = (if p s then E s else []) ++ (match g s with | some x => E x | none => [])) :
    List.Perm ((m.filterMap f).flatMap E) ((m.filter p).flatMap E ++ (m.filterMap g).flatMap E) := by
  induction m with
  | nil => simp
  | cons a m ih =>
    have ih := ih (fun s hs => h s (by simp [hs]))
    have h0 := h a (by simp)
    have e1 : ((a :: m).filterMap f).flatMap E = (match f a with | some x => E x | none => []) ++ (m.filterMap f).flatMap E := by
      cases hf : f a <;> simp [hf]
    have e2 : ((a :: m).filter p).flatMap E = (if p a then E a else []) ++ (m.filter p).flatMap E := by
      cases hp : p a <;> simp [hp]
    have e3 : ((a :: m).filterMap g).flatMap E = (match g a with | some x => E x | none => []) ++ (m.filterMap g).flatMap E := by
      cases hf : g a <;> simp [hf]
    rw [e1, e2, e3, h0]
    generalize (if p a then E a else []) = A1
    generalize (match g a with | some x => E x | none => []) = A2
    simp only [List.append_assoc]
    refine List.Perm.append_left A1 ?_
    refine (List.Perm.append_left A2 ih).trans ?_
    rw [← List.append_assoc, ← List.append_assoc]
    exact List.Perm.append_right _ List.perm_append_comm

private theorem filter_disjoint_perm {A : Type} (p q : A → Bool) (l : List A) (hd : ∀ a ∈ l, p a = true → q a = false) :
    List.Perm (l.filter p ++ l.filter q) (l.filter (fun a => p a || q a)) := by
  refine List.Perm.trans ?_ (List.filter_append_perm p (l.filter (fun a => p a || q a)))
  refine List.Perm.append ?_ ?_
  · rw [List.filter_filter]
    apply List.Perm.of_eq
    apply List.filter_congr
    intro a _; cases p a <;> simp
  · rw [List.filter_filter]
    apply List.Perm.of_eq
    apply List.filter_congr
    intro a ha
    have := hd a ha
    cases hp : p a <;> cases hq : q a <;> simp_all

private theorem map_filterMap_sublist {A B : Type} (k : A → B) (f : A → Option A) (m : List A) (h : ∀ s ∈ m, ∀ x, f s = some x → k x = k s) :
    List.Sublist ((m.filterMap f).map k) (m.map k) := by
  induction m with
  | nil => simp
  | cons a m ih =>
    have ih := ih (fun s hs => h s (by simp [hs]))
    cases hf : f a with
    | none => rw [List.filterMap_cons_none hf, List.map_cons]; exact ih.cons _
    | some x =>
      rw [List.filterMap_cons_some hf, List.map_cons, List.map_cons, h a (by simp) x hf]
      exact ih.cons_cons _

variable [DecidableEq V]

private theorem lastWith_some (key : List V → Option V) (l : List (List V)) (v : V) (s : List V) (h : lastWith key l v = some s) : s ∈ l ∧ key s = some v := by
  unfold lastWith at h
  have h1 := List.mem_of_find?_eq_some h
  have h2 := List.find?_some h
  exact ⟨by simpa using h1, by simpa using h2⟩

private theorem lastWith_isSome (key : List V → Option V) (l : List (List V)) (v : V) : (lastWith key l v).isSome = true ↔ ∃ s ∈ l, key s = some v := by
  unfold lastWith
  rw [List.find?_isSome]
  simp

private theorem lastWith_eq (key : List V → Option V) (l : List (List V)) (hn : (l.map key).Nodup) (v : V) (s : List V) :
    lastWith key l v = some s ↔ s ∈ l ∧ key s = some v := by
  constructor
  · exact lastWith_some key l v s
  · rintro ⟨h1, h2⟩
    obtain ⟨t, ht⟩ := Option.isSome_iff_exists.mp ((lastWith_isSome key l v).mpr ⟨s, h1, h2⟩)
    obtain ⟨h3, h4⟩ := lastWith_some key l v t ht
    rw [ht, List.inj_on_of_nodup_map hn h3 h1 (h4.trans h2.symm)]

omit [DecidableEq V] in
private theorem head_exists {l : List (List V)} (w : WF l) {s : List V} (hs : s ∈ l) : ∃ v, s.head? = some v := by
  have := w.len s hs
  match s, this with | a :: _, _ => exact ⟨a, rfl⟩

omit [DecidableEq V] in
private theorem last_exists {l : List (List V)} (w : WF l) {s : List V} (hs : s ∈ l) : ∃ v, s.getLast? = some v := by
  have := w.len s hs
  cases h : s.getLast? with
  | some v => exact ⟨v, rfl⟩
  | none => rw [List.getLast?_eq_none_iff] at h; subst h; simp at this

private theorem hc_iff {l : List (List V)} (w : WF l) {s : List V} (hs : s ∈ l) : headConnectable l s = true ↔ ∃ p ∈ l, p.getLast? = s.head? := by
  obtain ⟨v, hv⟩ := head_exists w hs
  unfold headConnectable connectable
  rw [hv]
  simp only [Bool.and_eq_true, lastWith_isSome]
  exact ⟨fun h => h.2, fun h => ⟨⟨s, hs, hv⟩, h⟩⟩

private theorem pres_iff {l : List (List V)} (w : WF l) {s : List V} (hs : s ∈ l) :
    preserved l s = true ↔ ∃ p ∈ l, p.getLast? = s.head? ∧ headConnectable l p = true := by
  obtain ⟨v, hv⟩ := head_exists w hs
  unfold preserved
  rw [Bool.and_eq_true, hc_iff w hs, hv, Option.bind_some]
  constructor
  · rintro ⟨⟨p, hp, hpl⟩, h⟩
    rw [(lastWith_eq List.getLast? l w.tails v p).mpr ⟨hp, hpl⟩] at h
    exact ⟨p, hp, hpl, h⟩
  · rintro ⟨p, hp, hpl, h⟩
    refine ⟨⟨p, hp, hpl⟩, ?_⟩
    rw [(lastWith_eq List.getLast? l w.tails v p).mpr ⟨hp, hpl⟩]
    exact h

private def next (l : List (List V)) (s : List V) : Option (List V) :=
  if headConnectable l s = true then none else s.getLast?.bind (fun v => if connectable l v then lastWith List.head? l v else none)

private theorem next_iff {l : List (List V)} (w : WF l) {s : List V} (hs : s ∈ l) (t : List V) :
    next l s = some t ↔ headConnectable l s = false ∧ t ∈ l ∧ t.head? = s.getLast? := by
  obtain ⟨v, hv⟩ := last_exists w hs
  unfold next
  rw [hv, Option.bind_some]
  cases hc : headConnectable l s with
  | true => simp
  | false =>
    simp only [Bool.false_eq_true, if_false, true_and]
    rw [← lastWith_eq List.head? l w.heads v t]
    by_cases h : connectable l v = true
    · rw [if_pos h]
    · rw [if_neg h]
      constructor
      · intro h; simp at h
      · intro h2
        exfalso; apply h
        unfold connectable
        rw [h2]
        simp only [Option.isSome_some, Bool.true_and]
        exact (lastWith_isSome _ _ _).mpr ⟨s, hs, hv⟩

private def dropped (l : List (List V)) (s : List V) : Bool := headConnectable l s && !preserved l s

private theorem fuseOne_eq (l : List (List V)) (w : WF l) (s : List V) (hs : s ∈ l) :
    fuseOne l s = if dropped l s then none else match next l s with | some t => some (s ++ t.tail) | none => some s := by
  unfold fuseOne dropped next
  have hp : preserved l s = true → headConnectable l s = true := by
    intro h; obtain ⟨p, h1, h2, _⟩ := (pres_iff w hs).mp h; exact (hc_iff w hs).mpr ⟨p, h1, h2⟩
  cases h1 : preserved l s <;> cases h2 : headConnectable l s <;> simp_all
  split <;> rename_i h3 <;> simp only [h3]

/-- The dropped sequences are those appended to another one. -/
private theorem dropped_perm {l : List (List V)} (w : WF l) : List.Perm (l.filterMap (next l)) (l.filter (dropped l)) := by
  have hl : l.Nodup := List.Nodup.of_map _ w.heads
  rw [List.perm_ext_iff_of_nodup]
  · intro t
    rw [List.mem_filterMap, List.mem_filter]
    constructor
    · rintro ⟨s, hs, h⟩
      obtain ⟨h1, h2, h3⟩ := (next_iff w hs t).mp h
      refine ⟨h2, ?_⟩
      unfold dropped
      rw [Bool.and_eq_true]
      refine ⟨(hc_iff w h2).mpr ⟨s, hs, h3.symm⟩, ?_⟩
      rw [Bool.not_eq_true', Bool.eq_false_iff]
      intro h4
      obtain ⟨p, h5, h6, h7⟩ := (pres_iff w h2).mp h4
      have : p = s := List.inj_on_of_nodup_map w.tails h5 hs (h6.trans h3)
      rw [this, h1] at h7; simp at h7
    · rintro ⟨h2, h⟩
      unfold dropped at h
      rw [Bool.and_eq_true, Bool.not_eq_true', Bool.eq_false_iff] at h
      obtain ⟨p, h3, h4⟩ := (hc_iff w h2).mp h.1
      refine ⟨p, h3, (next_iff w h3 t).mpr ⟨?_, h2, h4.symm⟩⟩
      rw [Bool.eq_false_iff]
      intro h5
      exact h.2 ((pres_iff w h2).mpr ⟨p, h3, h4, h5⟩)
  · unfold List.Nodup
    rw [List.pairwise_filterMap]
    have := w.tails
    unfold List.Nodup at this
    rw [List.pairwise_map] at this
    refine this.imp_of_mem ?_
    intro a b ha hb hab x hx y hy hxy
    subst hxy
    have h1 := (next_iff w ha x).mp hx
    have h2 := (next_iff w hb x).mp hy
    exact hab (h1.2.2.symm.trans h2.2.2)
  · exact hl.filter _

omit [DecidableEq V] in
private theorem last_append_tail {s t : List V} (ht : 2 ≤ t.length) : (s ++ t.tail).getLast? = t.getLast? := by
  match t, ht with
  | a :: b :: t, _ =>
    rw [List.tail_cons, List.getLast?_append, List.getLast?_cons_cons]
    cases h : (b :: t).getLast? with
    | none => simp at h
    | some x => rfl

/-- One round keeps the edges, with their multiplicities, and the well-formedness. -/
private theorem round {l : List (List V)} (w : WF l) :
    WF (l.filterMap (fuseOne l)) ∧ List.Perm ((l.filterMap (fuseOne l)).flatMap links) (l.flatMap links) := by
  have hl : l.Nodup := List.Nodup.of_map _ w.heads
  refine ⟨⟨?_, ?_, ?_⟩, ?_⟩
  · intro s' hs'
    obtain ⟨s, hs, h⟩ := List.mem_filterMap.mp hs'
    have := w.len s hs
    rw [fuseOne_eq l w s hs] at h
    split at h
    · simp at h
    · split at h <;> simp only [Option.some.injEq] at h <;> subst h
      · simp only [List.length_append]; omega
      · exact this
  · refine (map_filterMap_sublist List.head? _ l ?_).nodup w.heads
    intro s hs x h
    obtain ⟨v, hv⟩ := head_exists w hs
    rw [fuseOne_eq l w s hs] at h
    split at h
    · simp at h
    · split at h <;> simp only [Option.some.injEq] at h <;> subst h
      · simp [List.head?_append, hv]
      · rfl
  · have key := perm_filterMap (fun s => [s.getLast?]) (fuseOne l) (next l) (fun s => !dropped l s && (next l s).isNone) l (by
      intro s hs
      rw [fuseOne_eq l w s hs]
      cases hd : dropped l s with
      | true =>
        have hn : next l s = none := by
          unfold dropped at hd
          rw [Bool.and_eq_true] at hd
          unfold next; rw [if_pos hd.1]
        simp [hn]
      | false =>
        cases hn : next l s with
        | none => simp
        | some t =>
          have := (next_iff w hs t).mp hn
          simp [last_append_tail (w.len t this.2.1)])
    have e : ∀ m : List (List V), m.flatMap (fun s => [s.getLast?]) = m.map List.getLast? := by
      intro m; induction m with
      | nil => rfl
      | cons a m ih => simp [ih]
    rw [e, e, e, ← List.map_append] at key
    rw [key.nodup_iff]
    have k2 := ((List.Perm.append_left (l.filter (fun s => !dropped l s && (next l s).isNone)) (dropped_perm w)).trans
      (filter_disjoint_perm _ _ l (by intro a _ h; simp at h; exact h.1))).map List.getLast?
    rw [k2.nodup_iff]
    exact (List.filter_sublist.map _).nodup w.tails
  · have key := perm_filterMap links (fuseOne l) (next l) (fun s => !dropped l s) l (by
      intro s hs
      rw [fuseOne_eq l w s hs]
      cases hd : dropped l s with
      | true =>
        have hn : next l s = none := by
          unfold dropped at hd
          rw [Bool.and_eq_true] at hd
          unfold next; rw [if_pos hd.1]
        simp [hn]
      | false =>
        cases hn : next l s with
        | none => simp
        | some t =>
          obtain ⟨_, _, h3⟩ := (next_iff w hs t).mp hn
          obtain ⟨v, hv⟩ := last_exists w hs
          simp [links_append s t v hv (by rw [h3, hv])])
    refine key.trans ?_
    refine (List.Perm.append_left _ ((dropped_perm w).flatMap_right links)).trans ?_
    rw [← List.flatMap_append]
    exact (List.perm_append_comm.trans (List.filter_append_perm (dropped l) l)).flatMap_right links

omit [DecidableEq V] in
private theorem rank_lt (rank : V → Nat) : ∀ (s : List V), (∀ e ∈ links s, rank e.1 < rank e.2) → 2 ≤ s.length →
    ∀ a b, s.head? = some a → s.getLast? = some b → rank a < rank b := by
  intro s
  induction s with
  | nil => intro _ h; simp at h
  | cons x s ih =>
    intro he _ a b ha hb
    simp only [List.head?_cons, Option.some.injEq] at ha
    subst ha
    match s, ih, he, hb with
    | [], _, _, _ => simp_all
    | [y], _, he, hb => simp at hb; subst hb; exact he (x, y) (by simp [links])
    | y :: z :: s', ih, he, hb =>
      have h1 := he (x, y) (by simp [links])
      have h2 := ih (fun e h => he e (by rw [links]; simp [h])) (by simp) y b rfl (by simpa using hb)
      simp only at h1; omega

/-- While something is connectable, some sequence is dropped. -/
private theorem some_dropped (rank : V → Nat) {l : List (List V)} (w : WF l) (hr : ∀ e ∈ l.flatMap links, rank e.1 < rank e.2) :
    ∀ (n : Nat) (s : List V), s ∈ l → (∀ v, s.head? = some v → rank v < n) → headConnectable l s = true → ∃ t ∈ l, fuseOne l t = none := by
  intro n
  induction n with
  | zero => intro s hs h _; obtain ⟨v, hv⟩ := head_exists w hs; have := h v hv; omega
  | succ n ih =>
    intro s hs h hc
    obtain ⟨p, hp, hpl⟩ := (hc_iff w hs).mp hc
    cases hpc : headConnectable l p with
    | true =>
      refine ih p hp ?_ hpc
      intro a ha
      obtain ⟨v, hv⟩ := head_exists w hs
      have := rank_lt rank p (fun e he => hr e (List.mem_flatMap.mpr ⟨p, hp, he⟩)) (w.len p hp) a v ha (hpl.trans hv)
      have := h v hv
      omega
    | false =>
      refine ⟨s, hs, ?_⟩
      have hpres : preserved l s = false := by
        rw [Bool.eq_false_iff]
        intro h4
        obtain ⟨p', h5, h6, h7⟩ := (pres_iff w hs).mp h4
        have : p' = p := List.inj_on_of_nodup_map w.tails h5 hp (h6.trans hpl.symm)
        rw [this, hpc] at h7; simp at h7
      unfold fuseOne
      simp [hpres, hc]

private theorem run (rank : V → Nat) : ∀ (fuel : Nat) (l : List (List V)), WF l → (∀ e ∈ l.flatMap links, rank e.1 < rank e.2) → l.length < fuel →
    ∃ cs, fuseConnectedEdges fuel l = some cs ∧ WF cs ∧ List.Perm (cs.flatMap links) (l.flatMap links) ∧ ∀ c ∈ cs, headConnectable cs c = false := by
  intro fuel
  induction fuel with
  | zero => intro l _ _ h; omega
  | succ f ih =>
    intro l w hr hlen
    unfold fuseConnectedEdges
    by_cases hany : l.any (headConnectable l) = true
    · rw [if_pos hany]
      obtain ⟨s, hs, hc⟩ := List.any_eq_true.mp hany
      obtain ⟨w', hp⟩ := round w
      obtain ⟨v, hv⟩ := head_exists w hs
      have hdrop := some_dropped rank w hr (rank v + 1) s hs (by intro u hu; rw [hv] at hu; cases hu; omega) hc
      have hlt : (l.filterMap (fuseOne l)).length < l.length := List.length_filterMap_lt_length_iff_exists.mpr (by obtain ⟨t, ht, h⟩ := hdrop; exact ⟨t, ht, h⟩)
      obtain ⟨cs, h1, h2, h3, h4⟩ := ih _ w' (fun e he => hr e (hp.mem_iff.mp he)) (by omega)
      exact ⟨cs, h1, h2, h3.trans hp, h4⟩
    · rw [if_neg hany]
      refine ⟨l, rfl, w, List.Perm.refl _, ?_⟩
      intro c hc
      simp only [List.any_eq_true, not_exists, not_and, Bool.not_eq_true] at hany
      exact hany c hc

omit [DecidableEq V] in
/-- In a sequence, an element that follows another one is either last or followed by a further one. -/
private theorem follows : ∀ (s : List V) (e : V × V), e ∈ links s → s.getLast? = some e.2 ∨ ∃ x, (e.2, x) ∈ links s := by
  intro s
  induction s with
  | nil => intro e h; simp [links] at h
  | cons a s ih =>
    intro e h
    match s, ih, h with
    | [], _, h => simp [links] at h
    | b :: s', ih, h =>
      rw [links] at h
      rcases List.mem_cons.mp h with h | h
      · subst h
        match s' with
        | [] => left; simp
        | c :: s'' => right; exact ⟨c, by simp [links]⟩
      · rcases ih e h with h1 | ⟨x, hx⟩
        · left; simpa using h1
        · right; exact ⟨x, by rw [links]; simp [hx]⟩

omit [DecidableEq V] in
private theorem precedes : ∀ (s : List V) (e : V × V), e ∈ links s → s.head? = some e.1 ∨ ∃ x, (x, e.1) ∈ links s := by
  intro s
  induction s with
  | nil => intro e h; simp [links] at h
  | cons a s ih =>
    intro e h
    match s, ih, h with
    | [], _, h => simp [links] at h
    | b :: s', ih, h =>
      rw [links] at h
      rcases List.mem_cons.mp h with h | h
      · subst h; left; rfl
      · rcases ih e h with h1 | ⟨x, hx⟩
        · right; simp only [List.head?_cons, Option.some.injEq] at h1; subst h1; exact ⟨a, by simp [links]⟩
        · right; exact ⟨x, by rw [links]; simp [hx]⟩

omit [DecidableEq V] in
private theorem first_link {s : List V} (h : 2 ≤ s.length) {v : V} (hv : s.head? = some v) : ∃ x, (v, x) ∈ links s := by
  match s, h with
  | a :: b :: s, _ => simp at hv; subst hv; exact ⟨b, by simp [links]⟩

omit [DecidableEq V] in
private theorem last_link : ∀ {s : List V}, 2 ≤ s.length → ∀ {v : V}, s.getLast? = some v → ∃ x, (x, v) ∈ links s := by
  intro s
  induction s with
  | nil => intro h; simp at h
  | cons a s ih =>
    intro h v hv
    match s, ih, hv with
    | [], _, _ => simp at h
    | [b], _, hv => simp at hv; subst hv; exact ⟨a, by simp [links]⟩
    | b :: c :: s', ih, hv =>
      obtain ⟨x, hx⟩ := ih (by simp) (by simpa using hv)
      exact ⟨x, by rw [links]; simp [hx]⟩

omit [DecidableEq V] in
private theorem same_chain (f : V × V → V) {cs : List (List V)} (hn : ((cs.flatMap links).map f).Nodup) {c d : List V} (hc : c ∈ cs) (hd : d ∈ cs)
    {e e' : V × V} (he : e ∈ links c) (he' : e' ∈ links d) (hf : f e = f e') : c = d ∧ e = e' := by
  have e1 : e = e' := List.inj_on_of_nodup_map hn (List.mem_flatMap.mpr ⟨c, hc, he⟩) (List.mem_flatMap.mpr ⟨d, hd, he'⟩) hf
  refine ⟨?_, e1⟩
  by_contra hne
  have h2 := (List.nodup_flatMap.mp (List.Nodup.of_map f hn)).2
  have hs : Std.Symm (Function.onFun List.Disjoint (links (V := V))) := ⟨fun a b h => fun x h1 h2 => h h2 h1⟩
  have := List.Pairwise.forall h2 hc hd hne
  exact this he (e1 ▸ he')

/-- **C50** For every list of edges in any order in which no vertex starts two edges or ends two edges and which respect some topological order, the chains
contain every edge exactly once as two consecutive vertices, nothing else, and are maximal: no edge ends where a chain starts or starts where it ends. -/
theorem C50_chains (es : List (V × V)) (hs : (es.map Prod.fst).Nodup) (ht : (es.map Prod.snd).Nodup) (rank : V → Nat)
    (hr : ∀ e ∈ es, rank e.1 < rank e.2) (fuel : Nat) (hf : es.length < fuel) :
    ∃ chains, fuseConnectedEdges fuel (es.map (fun e => [e.1, e.2])) = some chains
      ∧ (∀ c ∈ chains, 2 ≤ c.length)
      ∧ List.Perm (chains.flatMap links) es
      ∧ ∀ c ∈ chains, ∀ e ∈ es, c.head? ≠ some e.2 ∧ c.getLast? ≠ some e.1 := by
  have e0 : (es.map (fun e => [e.1, e.2])).flatMap links = es := by
    clear hs ht hr hf
    induction es with
    | nil => rfl
    | cons e es ih =>
      simp only [List.map_cons, List.flatMap_cons, ih]
      simp [links]
  have w0 : WF (es.map (fun e => [e.1, e.2])) := by
    refine ⟨by intro s hs; obtain ⟨e, _, rfl⟩ := List.mem_map.mp hs; simp, ?_, ?_⟩
    · rw [List.map_map]
      have : (List.head? ∘ fun e : V × V => [e.1, e.2]) = some ∘ Prod.fst := by funext e; rfl
      rw [this, ← List.map_map]
      exact hs.map (fun a b h => Option.some.inj h)
    · rw [List.map_map]
      have : (List.getLast? ∘ fun e : V × V => [e.1, e.2]) = some ∘ Prod.snd := by funext e; rfl
      rw [this, ← List.map_map]
      exact ht.map (fun a b h => Option.some.inj h)
  obtain ⟨cs, h1, w, hp, hm⟩ := run rank fuel _ w0 (by rw [e0]; exact hr) (by simpa using hf)
  rw [e0] at hp
  refine ⟨cs, h1, w.len, hp, ?_⟩
  intro c hc e he
  obtain ⟨d, hd, hed⟩ := List.mem_flatMap.mp (hp.mem_iff.mpr he)
  have hns : ((cs.flatMap links).map Prod.fst).Nodup := (hp.map _).nodup_iff.mpr hs
  have hnt : ((cs.flatMap links).map Prod.snd).Nodup := (hp.map _).nodup_iff.mpr ht
  constructor
  · intro hhead
    rcases follows d e hed with hl | ⟨x, hx⟩
    · have := (hc_iff w hc).mpr ⟨d, hd, hl.trans hhead.symm⟩
      rw [hm c hc] at this; simp at this
    · obtain ⟨y, hy⟩ := first_link (w.len c hc) hhead
      obtain ⟨h3, _⟩ := same_chain Prod.fst hns hc hd hy hx rfl
      subst h3
      -- `e.2` is both the head of the chain and preceded by `e.1`
      have : rank e.2 < rank e.2 := by
        have hmono : ∀ (s : List V), (∀ e ∈ links s, rank e.1 < rank e.2) → ∀ a, s.head? = some a → ∀ e ∈ links s, rank a < rank e.2 := by
          intro s
          induction s with
          | nil => intro _ a ha; simp at ha
          | cons z s ih =>
            intro hs' a ha e he
            simp only [List.head?_cons, Option.some.injEq] at ha
            subst ha
            match s, ih, hs', he with
            | [], _, _, he => simp [links] at he
            | y' :: s', ih, hs', he =>
              rw [links] at he
              have h0 := hs' (z, y') (by simp [links])
              rcases List.mem_cons.mp he with he | he
              · subst he; exact h0
              · have := ih (fun e h => hs' e (by rw [links]; simp [h])) y' rfl e he
                simp only at h0; omega
        exact hmono c (fun e' he' => hr e' (hp.mem_iff.mp (List.mem_flatMap.mpr ⟨c, hc, he'⟩))) e.2 hhead e hed
      omega
  · intro hlast
    rcases precedes d e hed with hh | ⟨x, hx⟩
    · have := (hc_iff w hd).mpr ⟨c, hc, hlast.trans hh.symm⟩
      rw [hm d hd] at this; simp at this
    · obtain ⟨y, hy⟩ := last_link (w.len c hc) hlast
      obtain ⟨h3, _⟩ := same_chain Prod.snd hnt hc hd hy hx rfl
      subst h3
      have : rank e.1 < rank e.1 := by
        have hmono : ∀ (s : List V), (∀ e ∈ links s, rank e.1 < rank e.2) → ∀ b, s.getLast? = some b → ∀ e ∈ links s, rank e.1 < rank b := by
          intro s
          induction s with
          | nil => intro _ a ha; simp at ha
          | cons z s ih =>
            intro hs' b hb e he
            match s, ih, hs', hb, he with
            | [], _, _, _, he => simp [links] at he
            | y' :: s', ih, hs', hb, he =>
              rw [links] at he
              rcases List.mem_cons.mp he with he | he
              · subst he
                exact rank_lt rank (z :: y' :: s') hs' (by simp) z b rfl hb
              · exact ih (fun e h => hs' e (by rw [links]; simp [h])) b (by simpa using hb) e he
        exact hmono c (fun e' he' => hr e' (hp.mem_iff.mp (List.mem_flatMap.mpr ⟨c, hc, he'⟩))) e.1 hlast e hed
      omega

/-- A path of five edges given out of order, and a separate edge. -/
example : fuseConnectedEdges 7 [[3, 4], [1, 2], [7, 8], [4, 5], [2, 3], [5, 6]] = some [[1, 2, 3, 4, 5, 6], [7, 8]] := by decide

/-- The hypotheses hold for these edges. -/
example : ∃ chains, fuseConnectedEdges 7 (([(3, 4), (1, 2), (7, 8), (4, 5), (2, 3), (5, 6)] : List (Nat × Nat)).map (fun e => [e.1, e.2])) = some chains
    ∧ (∀ c ∈ chains, 2 ≤ c.length) ∧ List.Perm (chains.flatMap links) [(3, 4), (1, 2), (7, 8), (4, 5), (2, 3), (5, 6)] := by
  obtain ⟨c, h1, h2, h3, _⟩ := C50_chains [(3, 4), (1, 2), (7, 8), (4, 5), (2, 3), (5, 6)] (by decide) (by decide) id (by decide) 7 (by decide)
  exact ⟨c, h1, h2, h3⟩

end Verif.Props
