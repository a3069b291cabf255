import Verif.Model.TracerElim
import Verif.Spec.TraceElim
import Verif.Lemmas.TracerFinal

/-! Dead-graph elimination keeps exactly the nodes the outputs depend on (used by C83). -/

namespace Verif.Lemmas.Tracer
open Verif.Spec.Trace Verif.Model.Tracer

variable {F M K T : Type}

section Detect

/-- The reads of the nodes that are not marked. -/
def todo (N : Nat) (pv : Nat → List Nat) (act : List Nat) : Nat := ((List.range N).map (fun i => if i ∈ act then 0 else (pv i).length)).sum

theorem sum_update (l : List Nat) (hl : l.Nodup) (f g : Nat → Nat) (q : Nat) (hq : q ∈ l) (h : ∀ i, i ≠ q → f i = g i) (h0 : f q = 0) :
    (l.map f).sum + g q = (l.map g).sum := by
  induction l with
  | nil => cases hq
  | cons a l ih =>
    obtain ⟨h1, h2⟩ := List.nodup_cons.1 hl
    rw [List.map_cons, List.map_cons, List.sum_cons, List.sum_cons]
    rcases List.mem_cons.1 hq with rfl | hq
    · have : l.map f = l.map g := List.map_congr_left (fun i hi => h i (by rintro rfl; exact h1 hi))
      rw [this, h0]; omega
    · have := ih h2 hq
      rw [h a (by rintro rfl; exact h1 hq)]; omega

theorem todo_cons {N : Nat} {pv : Nat → List Nat} (hN : ∀ i, N ≤ i → pv i = []) (act : List Nat) {q : Nat} (hq : q ∉ act) :
    todo N pv (q :: act) + (pv q).length = todo N pv act := by
  unfold todo
  by_cases hlt : q < N
  · have := sum_update (List.range N) List.nodup_range (fun i => if i ∈ q :: act then 0 else (pv i).length)
      (fun i => if i ∈ act then 0 else (pv i).length) q (by simpa using hlt) (by
        intro i hi
        simp [hi]) (by simp)
    simpa [hq] using this
  · rw [hN q (by omega), List.length_nil, Nat.add_zero]
    congr 1
    apply List.map_congr_left
    intro i hi
    have : i ≠ q := by
      rintro rfl
      exact hlt (by simpa using hi)
    simp [this]

theorem prevs_none {st : State F M K} (i : Nat) (h : st.nodes.length ≤ i) : prevs st i = [] := by
  unfold prevs
  rw [List.getElem?_eq_none h]; rfl

theorem todo_le {st : State F M K} (pv : Nat → List Nat) (hpv : ∀ i, (pv i).length ≤ (prevs st i).length) (act : List Nat) :
    todo st.nodes.length pv act + 1 ≤ fuel st := by
  have h1 : (st.nodes.map (fun n => n.prev.length)).sum = ((List.range st.nodes.length).map (fun i => (prevs st i).length)).sum := by
    congr 1
    apply List.ext_getElem
    · simp
    · intro i h1 h2
      simp only [List.length_map] at h1
      simp [prevs, List.getElem?_eq_getElem h1]
  unfold fuel todo
  rw [h1]
  have : ∀ l : List Nat, (l.map (fun i => if i ∈ act then 0 else (pv i).length)).sum ≤ (l.map (fun i => (prevs st i).length)).sum := by
    intro l
    induction l with
    | nil => simp
    | cons a l ih =>
      have := hpv a
      simp only [List.map_cons, List.sum_cons]
      split_ifs <;> omega
  have := this (List.range st.nodes.length)
  omega

/-- What a search leaves behind. -/
theorem detect_spec {N : Nat} {pv : Nat → List Nat} (hN : ∀ i, N ≤ i → pv i = []) (P : Nat → Prop) (hP : ∀ i j, j ∈ pv i → P i → P j) :
    ∀ (f : Nat) (q act : List Nat), q.length + todo N pv act ≤ f → (∀ i ∈ act, ∀ j ∈ pv i, j ∈ act ∨ j ∈ q) →
    (∀ i ∈ act, i ∈ detect pv f q act) ∧ (∀ i ∈ q, i ∈ detect pv f q act) ∧ (∀ i ∈ detect pv f q act, ∀ j ∈ pv i, j ∈ detect pv f q act) ∧
    ((∀ i ∈ act, P i) → (∀ i ∈ q, P i) → ∀ i ∈ detect pv f q act, P i) := by
  intro f
  induction f with
  | zero =>
    intro q act hf hc
    have hq : q = [] := List.length_eq_zero_iff.1 (by omega)
    subst hq
    exact ⟨fun i hi => hi, by simp, fun i hi j hj => (hc i hi j hj).resolve_right (by simp), fun h _ i hi => h i hi⟩
  | succ f ih =>
    intro q act hf hc
    cases q with
    | nil => exact ⟨fun i hi => hi, by simp, fun i hi j hj => (hc i hi j hj).resolve_right (by simp), fun h _ i hi => h i hi⟩
    | cons x q =>
      simp only [detect]
      split_ifs with hx
      · obtain ⟨a1, a2, a3, a4⟩ := ih q act (by simp at hf; omega) (by
          intro i hi j hj
          rcases hc i hi j hj with h | h
          · exact Or.inl h
          · rcases List.mem_cons.1 h with rfl | h
            · exact Or.inl hx
            · exact Or.inr h)
        refine ⟨a1, ?_, a3, fun h1 h2 => a4 h1 (fun i hi => h2 i (by simp [hi]))⟩
        intro i hi
        rcases List.mem_cons.1 hi with rfl | hi
        · exact a1 _ hx
        · exact a2 i hi
      · have := todo_cons hN act hx
        obtain ⟨a1, a2, a3, a4⟩ := ih (q ++ pv x) (x :: act) (by simp at hf ⊢; omega) (by
          intro i hi j hj
          rcases List.mem_cons.1 hi with rfl | hi
          · exact Or.inr (by simp [hj])
          · rcases hc i hi j hj with h | h
            · exact Or.inl (by simp [h])
            · rcases List.mem_cons.1 h with rfl | h
              · exact Or.inl (by simp)
              · exact Or.inr (by simp [h]))
        refine ⟨fun i hi => a1 i (by simp [hi]), ?_, a3, fun h1 h2 => a4 ?_ ?_⟩
        · intro i hi
          rcases List.mem_cons.1 hi with rfl | hi
          · exact a1 _ (by simp)
          · exact a2 i (by simp [hi])
        · intro i hi
          rcases List.mem_cons.1 hi with rfl | hi
          · exact h2 _ (by simp)
          · exact h1 i hi
        · intro i hi
          rcases List.mem_append.1 hi with hi | hi
          · exact h2 i (by simp [hi])
          · exact hP x i hi (h2 x (by simp))

variable {st : State F M K}

theorem needed_prevs (i j : Nat) (hj : j ∈ prevs st i) (h : Needed st i) : Needed st j := by
  unfold prevs at hj
  cases hn : st.nodes[i]? with
  | none => rw [hn] at hj; cases hj
  | some n =>
    rw [hn] at hj
    exact .read hn hj h

theorem active_spec : (∀ i ∈ st.outputs, i ∈ active st) ∧ (∀ i ∈ active st, ∀ j ∈ prevs st i, j ∈ active st) ∧ ∀ i ∈ active st, Needed st i := by
  have key : ∀ (os act : List Nat), (∀ i ∈ os, Needed st i) → (∀ i ∈ act, ∀ j ∈ prevs st i, j ∈ act) → (∀ i ∈ act, Needed st i) →
      (∀ i ∈ act, i ∈ os.foldl (fun act i => detect (prevs st) (fuel st) [i] act) act) ∧
      (∀ i ∈ os, i ∈ os.foldl (fun act i => detect (prevs st) (fuel st) [i] act) act) ∧
      (∀ i ∈ os.foldl (fun act i => detect (prevs st) (fuel st) [i] act) act, ∀ j ∈ prevs st i, j ∈ os.foldl (fun act i => detect (prevs st) (fuel st) [i] act) act) ∧
      ∀ i ∈ os.foldl (fun act i => detect (prevs st) (fuel st) [i] act) act, Needed st i := by
    intro os
    induction os with
    | nil => intro act _ h2 h3; exact ⟨fun i hi => hi, by simp, h2, h3⟩
    | cons o os ih =>
      intro act h1 h2 h3
      obtain ⟨b1, b2, b3, b4⟩ := detect_spec prevs_none (Needed st) needed_prevs (fuel st) [o] act (by have := todo_le (st := st) (prevs st) (fun _ => Nat.le_refl _) act; simp; omega) (fun i hi j hj => Or.inl (h2 i hi j hj))
      obtain ⟨c1, c2, c3, c4⟩ := ih (detect (prevs st) (fuel st) [o] act) (fun i hi => h1 i (by simp [hi])) b3
        (b4 h3 (fun i hi => h1 i (by rw [List.mem_singleton.1 hi]; simp)))
      rw [List.foldl_cons]
      refine ⟨fun i hi => c1 i (b1 i hi), ?_, c3, c4⟩
      intro i hi
      rcases List.mem_cons.1 hi with rfl | hi
      · exact c1 _ (b2 _ (by simp))
      · exact c2 i hi
  obtain ⟨_, a2, a3, a4⟩ := key st.outputs [] (fun i hi => .out hi) (by simp) (by simp)
  exact ⟨a2, a3, a4⟩

/-- The marked nodes are those the outputs depend on. -/
theorem mem_active (i : Nat) : i ∈ active st ↔ Needed st i := by
  obtain ⟨a1, a2, a3⟩ := active_spec (st := st)
  refine ⟨a3 i, fun h => ?_⟩
  induction h with
  | out h => exact a1 _ h
  | @read i j n hn hj _ ih =>
    refine a2 i ih j ?_
    unfold prevs
    rw [hn]; exact hj

end Detect

/-! ### Constants -/

section Distinct
variable {st : State F M K}

/-- With distinct names, `{n.unique_name: n}` only removes repetitions. -/
theorem distinctPrev_spec (hu : ∀ (i j : Nat) (n m : TNode F M K), st.nodes[i]? = some n → st.nodes[j]? = some m → n.name = m.name → i = j)
    (l : List Nat) (hl : ∀ i ∈ l, ∃ n : TNode F M K, st.nodes[i]? = some n) : (distinctPrev st l).Nodup ∧ ∀ i, i ∈ distinctPrev st l ↔ i ∈ l := by
  induction l using List.reverseRecOn with
  | nil => simp [distinctPrev]
  | append_singleton l i ih =>
    obtain ⟨h1, h2⟩ := ih (fun j hj => hl j (by simp [hj]))
    have he : distinctPrev st (l ++ [i]) = if (distinctPrev st l).any (fun j => decide ((st.nodes[j]?).map (·.name) = (st.nodes[i]?).map (·.name)))
        then (distinctPrev st l).map (fun j => if (st.nodes[j]?).map (·.name) = (st.nodes[i]?).map (·.name) then i else j) else distinctPrev st l ++ [i] := by
      unfold distinctPrev
      rw [List.foldl_append]
      rfl
    obtain ⟨n, hn⟩ := hl i (by simp)
    have huniq : ∀ j ∈ distinctPrev st l, (st.nodes[j]?).map (·.name) = (st.nodes[i]?).map (·.name) → j = i := by
      intro j hj hname
      obtain ⟨m, hm⟩ := hl j (by simp [(h2 j).1 hj])
      rw [hm, hn] at hname
      exact hu j i m n hm hn (by simpa using hname)
    rw [he]
    split_ifs with hany
    · have hmap : (distinctPrev st l).map (fun j => if (st.nodes[j]?).map (·.name) = (st.nodes[i]?).map (·.name) then i else j) = distinctPrev st l := by
        conv_rhs => rw [← List.map_id (distinctPrev st l)]
        apply List.map_congr_left
        intro j hj
        split_ifs with hj'
        · exact (huniq j hj hj').symm
        · rfl
      rw [hmap]
      refine ⟨h1, fun j => ?_⟩
      rw [h2]
      simp only [List.mem_append, List.mem_singleton, iff_self_or]
      rintro rfl
      obtain ⟨j', hj', hd⟩ := List.any_eq_true.1 hany
      rw [← huniq j' hj' (of_decide_eq_true hd)]
      exact (h2 j').1 hj'
    · refine ⟨List.nodup_append.2 ⟨h1, by simp, ?_⟩, fun j => by simp [h2]⟩
      rintro a ha b hb rfl
      rw [List.mem_singleton.1 hb] at ha
      exact hany (List.any_eq_true.2 ⟨i, ha, by simp⟩)

end Distinct

variable {nm : Naming F M K} {s : Sem F M K T} {st : State F M K} {vals ins rets : List (Out T)}

theorem elim_consts (h : Traced s st vals ins rets) : (eliminate st).consts.Nodup ∧ ∀ j, j ∈ (eliminate st).consts ↔
    (∃ i, (i ∈ st.forward ∨ i ∈ st.outputs) ∧ i ∈ active st ∧ j ∈ prevs st i) ∧ isConstAt st j = true := by
  have hl : ∀ j ∈ ((((st.forward ++ st.outputs).filter (fun i => decide (i ∈ active st))).map (prevs st)).flatten.filter (isConstAt st)),
      ∃ n : TNode F M K, st.nodes[j]? = some n := by
    intro j hj
    have := (List.mem_filter.1 hj).2
    unfold isConstAt at this
    cases hn : st.nodes[j]? with
    | none => rw [hn] at this; cases this
    | some n => exact ⟨n, rfl⟩
  obtain ⟨h1, h2⟩ := distinctPrev_spec h.uniq _ hl
  refine ⟨h1, fun j => ?_⟩
  refine (h2 j).trans ?_
  rw [List.mem_filter, List.mem_flatten]
  constructor
  · rintro ⟨⟨l, hl', hj⟩, hc⟩
    obtain ⟨i, hi, rfl⟩ := List.mem_map.1 hl'
    obtain ⟨hi1, hi2⟩ := List.mem_filter.1 hi
    exact ⟨⟨i, by simpa using hi1, by simpa using hi2, hj⟩, hc⟩
  · rintro ⟨⟨i, hi1, hi2, hj⟩, hc⟩
    exact ⟨⟨prevs st i, List.mem_map.2 ⟨i, List.mem_filter.2 ⟨by simpa using hi1, by simpa using hi2⟩, rfl⟩, hj⟩, hc⟩

theorem elim_final [DecidableEq M] [DecidableEq K] (h : Traced s st vals ins rets) {ins' : List (Out T)}
    (hi' : List.Forall₂ (fun i v => vals[i]? = some v) (eliminate st).inputs ins') : Final nm s (eliminate st) vals ins' rets := by
  obtain ⟨a1, a2, a3⟩ := active_spec (st := st)
  obtain ⟨c1, c2⟩ := elim_consts h
  have hf := h.final (nm := nm)
  have hsub : (order (eliminate st)).Sublist (order st) := by
    simp only [order, eliminate]
    exact (List.filter_sublist.append List.filter_sublist).append (List.Sublist.refl _)
  refine ⟨fun i _ j _ n m => h.uniq i j n m, (h.lists.sorted.imp Nat.ne_of_lt).sublist hsub, c1, fun i hi => h.lists.inp i (List.mem_filter.1 hi).1,
    fun i hi => hf.fwd i (List.mem_filter.1 hi).1, ?_, ?_, hi', h.outs⟩
  · intro j hj
    obtain ⟨⟨i, hi, -, hij⟩, hc⟩ := (c2 j).1 hj
    unfold isConstAt at hc
    cases hn : st.nodes[j]? with
    | none => rw [hn] at hc; cases hc
    | some n =>
      rw [hn] at hc
      have hp := h.lists.cls j n hn
      cases hk : n.kind <;> rw [hk] at hp <;> simp only [Option.elim_some, hk, isConst, Bool.false_eq_true] at hc
      exact hf.con j hp
  · intro A i B hord hii n hn j hj
    change st.nodes[i]? = some n at hn
    have hs := h.lists.sorted.sublist hsub
    have hio : i ∈ (eliminate st).forward ∨ i ∈ st.outputs := by
      have : i ∈ order (eliminate st) := by rw [hord]; simp
      simp only [order, List.mem_append] at this
      rcases this with (h1 | h1) | h1
      · exact absurd h1 hii
      · exact Or.inl h1
      · exact Or.inr h1
    have hact : i ∈ active st := by
      rcases hio with hio | hio
      · simpa using (List.mem_filter.1 hio).2
      · exact a1 i hio
    have hio' : i ∈ st.forward ∨ i ∈ st.outputs := by
      rcases hio with hio | hio
      · exact Or.inl (List.mem_filter.1 hio).1
      · exact Or.inr hio
    have hjp : j ∈ prevs st i := by unfold prevs; rw [hn]; exact hj
    have hja := a2 i hact j hjp
    rcases h.prev hn hio' j hj with hc | ⟨hj', hlt⟩
    · left
      refine (c2 j).2 ⟨⟨i, hio', hact, hjp⟩, ?_⟩
      obtain ⟨m, k, hm, hk⟩ := h.lists.con j hc
      unfold isConstAt
      rw [hm]
      simp [hk, isConst]
    · right
      constructor
      · have : j ∈ order (eliminate st) := by
          simp only [order, List.mem_append]
          rcases hj' with hj' | hj'
          · exact Or.inl (Or.inl (List.mem_filter.2 ⟨hj', by simpa using hja⟩))
          · exact Or.inl (Or.inr (List.mem_filter.2 ⟨hj', by simpa using hja⟩))
        rw [hord] at this hs
        rcases List.mem_append.1 this with ha | hb
        · exact ha
        · exfalso
          rcases List.mem_cons.1 hb with rfl | hb
          · omega
          · have := (List.pairwise_cons.1 (List.pairwise_append.1 hs).2.1).1 j hb
            omega
      · intro ho
        have hs' := h.lists.sorted
        simp only [order] at hs'
        have := (List.pairwise_append.1 hs').2.2 j (by simpa using hj') j ho
        omega

end Verif.Lemmas.Tracer
