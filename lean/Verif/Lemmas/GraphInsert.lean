import Verif.Lemmas.GraphEdit

/-! Lemmas for C86: `insert_after` and `insert_between`. -/

namespace Verif.Lemmas.Tracer
open Verif.Spec.Trace Verif.Model.Tracer

section
variable {F M K T : Type}

theorem subName_filter {α : Type} {es : List α} {P : α → Bool} {ref new : α → NameRef}
    (h1 : ∀ e ∈ es, ∀ e' ∈ es, P e = true → ref e' = ref e → P e' = true ∧ new e' = new e)
    (h2 : ∀ e ∈ es, ∀ e' ∈ es, P e = true → P e' = true → ref e = new e' → new e = new e') :
    ∀ e ∈ es, subName ((es.filter P).map (fun e => (ref e, new e))) (ref e) = if P e = true then new e else ref e := by
  intro e he
  split_ifs with hp
  · apply subName_mem
    · exact List.mem_map.2 ⟨e, List.mem_filter.2 ⟨he, hp⟩, rfl⟩
    · intro r hr hre
      obtain ⟨e', he', rfl⟩ := List.mem_map.1 hr
      obtain ⟨he1, he2⟩ := List.mem_filter.1 he'
      exact (h1 e he e' he1 hp hre).2
    · intro r hr
      obtain ⟨e', he', rfl⟩ := List.mem_map.1 hr
      obtain ⟨he1, he2⟩ := List.mem_filter.1 he'
      exact h2 e' he1 e he he2 hp
  · apply subName_other
    intro r hr hre
    obtain ⟨e', he', rfl⟩ := List.mem_map.1 hr
    obtain ⟨he1, he2⟩ := List.mem_filter.1 he'
    exact hp (h1 e' he1 e he he2 hre.symm).1

/-- The places read by a node, as pairs. -/
theorem zipWith_zip {α β γ : Type} (f : α → β → γ) (as : List α) (bs : List β) : List.zipWith f as bs = (as.zip bs).map (fun e => f e.1 e.2) := by
  rw [← List.map_uncurry_zip_eq_zipWith]
  rfl

/-- Two places written alike are the same place. -/
theorem _root_.Verif.Spec.Trace.WellFormed.ref_inj {st : State F M K} (g : WellFormed st) {i j : Nat} (hi : i ∈ order st ++ st.consts) (hj : j ∈ order st ++ st.consts) {p q : Path}
    (h : refAt st.nodes i p = refAt st.nodes j q) : i = j ∧ p = q := by
  have h1 := g.lt hi
  have h2 := g.lt hj
  unfold refAt at h
  rw [List.getElem?_eq_getElem h1, List.getElem?_eq_getElem h2] at h
  simp only [NameRef.mk.injEq] at h
  exact ⟨g.uniq i hi j hj _ _ (List.getElem?_eq_getElem h1) (List.getElem?_eq_getElem h2) h.2.1, h.2.2⟩

theorem _root_.Verif.Spec.Trace.WellFormed.prev_mem {st : State F M K} (g : WellFormed st) {i : Nat} (hi : i ∈ st.forward ++ st.outputs) {n : TNode F M K} (hn : st.nodes[i]? = some n) {j : Nat} (hj : j ∈ n.prev) :
    j ∈ order st ++ st.consts := by
  rcases g.before i hi n hn j hj with h | h | ⟨h, -⟩ <;> simp [order, h]

theorem fresh_ref {st : State F M K} {name : String} (hf : FreshName st name) (g : WellFormed st) {i : Nat} (hi : i ∈ order st ++ st.consts) (p q : Path) (b : Bool) :
    refAt st.nodes i p ≠ ⟨b, name, q⟩ := by
  intro h
  have h1 := g.lt hi
  unfold refAt at h
  rw [List.getElem?_eq_getElem h1] at h
  simp only [NameRef.mk.injEq] at h
  exact hf i hi _ (List.getElem?_eq_getElem h1) h.2.1

theorem nameAt_eq {nodes : List (TNode F M K)} {i : Nat} {n : TNode F M K} (h : nodes[i]? = some n) (p : Path) : nameAt n p = refAt nodes i p := by
  unfold refAt nameAt
  rw [h]

theorem mem_nextNodes {st : State F M K} {i j : Nat} : j ∈ nextNodes st i ↔ j ∈ order st ∧ ∃ n : TNode F M K, st.nodes[j]? = some n ∧ i ∈ n.prev := by
  unfold nextNodes
  rw [List.mem_filter]
  cases h : st.nodes[j]? with
  | none => simp
  | some n => simp

theorem zip_fst_mem {α β : Type} {as : List α} {bs : List β} {e : α × β} (h : e ∈ as.zip bs) : e.1 ∈ as := (List.of_mem_zip (a := e.1) (b := e.2) h).1

/-- The run of the new graph. -/
theorem Inserted.runs {st st' : State F M K} {name : String} {c : Callee F M} {i : Nat} {p : Path} {js : List Nat} {f : TNode F M K → TNode F M K} {L1 L2 : List Nat}
    (h : Inserted st st' name c i p js f L1 L2) (g : WellFormed st) {s : Sem F M K T} {see : Nat → Nat → Path → Option T} {args rets : List (Out T)} {vals : Nat → Out T} {v : T}
    (r : RunsWith s st (whatOf st) see args rets vals) (hv : (vals i).get p = some v)
    (hyes : ∀ j ∈ js, j ∈ st.forward ++ st.outputs → ∀ n : TNode F M K, st.nodes[j]? = some n → ∃ σ : Nat × Path → Nat × Path, (f n).prev.zip (f n).idx = (n.prev.zip n.idx).map σ ∧
      ∀ e ∈ n.prev.zip n.idx, (σ e = e ∧ see j e.1 e.2 = (vals e.1).get e.2) ∨ ((σ e).1 = st.nodes.length ∧ see j e.1 e.2 = (s.call c [v]).get (σ e).2))
    (hno : ∀ j ∈ st.forward ++ st.outputs, j ∉ js → ∀ n : TNode F M K, st.nodes[j]? = some n → ∀ e ∈ n.prev.zip n.idx, see j e.1 e.2 = (vals e.1).get e.2) :
    RunsTo s st' args rets (fun j => if j = st.nodes.length then s.call c [v] else vals j) := by
  have hlt : ∀ j ∈ order st ++ st.consts, j < st.nodes.length := fun j hj => g.lt hj
  have hfo : ∀ j ∈ st.forward ++ st.outputs, j < st.nodes.length := by
    intro j hj
    apply hlt
    simp only [order, List.mem_append] at hj ⊢
    tauto
  have hi : i < st.nodes.length := by
    apply hlt
    simp only [order, h.fwd]
    rcases h.src with h | h | h <;> simp [h]
  refine runs_redirect g r h.inputs h.consts h.outputs ?_ ?_ ?_ ?_ ?_
  · intro j hj
    rw [if_neg (Nat.ne_of_lt (hlt j hj))]
  · intro j hj n n' hn hn'
    obtain ⟨m, hm, -, e2, -⟩ := h.node (hlt j (by simp [hj])) hn'
    rw [hn] at hm
    cases hm
    exact e2
  · intro j hj n hn
    exact ⟨_, by rw [h.get_old (hfo j (by simp [hj])), hn, Option.map_some]⟩
  · intro j _ hj n n' hn hn'
    obtain ⟨m, hm, -, -, e3, hcase⟩ := h.node (hfo j hj) hn'
    rw [hn] at hm
    cases hm
    refine ⟨e3, fun as hf => ?_⟩
    have hold : ∀ e ∈ n.prev.zip n.idx, e.1 ≠ st.nodes.length := fun e he => Nat.ne_of_lt (hlt _ (g.prev_mem hj hn (zip_fst_mem he)))
    rcases hcase with ⟨hjs, rfl⟩ | ⟨hjs, rfl⟩
    · refine finds_map id (by simp) (fun e he a ha => ?_) hf
      rw [hno j hj hjs n' hn e he] at ha
      simp only [seeVals, id, if_neg (hold e he)]
      exact ha
    · obtain ⟨σ, hz, hσ⟩ := hyes j hjs hj n hn
      refine finds_map σ hz (fun e he a ha => ?_) hf
      rcases hσ e he with ⟨h1, h2⟩ | ⟨h1, h2⟩
      · rw [h2] at ha
        rw [h1]
        simp only [seeVals, if_neg (hold e he)]
        exact ha
      · rw [h2] at ha
        simp only [seeVals, if_pos h1]
        exact ha
  · intro j hj
    rw [h.fwd'] at hj
    have : j = st.nodes.length ∨ j ∈ st.forward := by
      rw [h.fwd]
      simp only [List.mem_append, List.mem_cons] at hj ⊢
      tauto
    rcases this with rfl | hj
    · right
      intro n' c' hn' hw
      simp only [whatOf, h.get_new, Option.bind_some, calleeOf_kind, Option.some.injEq] at hw
      subst hw
      rw [h.get_new] at hn'
      cases hn'
      refine ⟨[v], ?_, by simp⟩
      refine .cons ?_ .nil
      simp only [seeVals, if_neg (Nat.ne_of_lt hi)]
      exact hv
    · left
      refine ⟨hj, ?_⟩
      have hj' := hfo j (by simp [hj])
      obtain ⟨n, c', hn, -⟩ := g.fwd j hj
      simp only [whatOf, h.get_old hj', hn, Option.map_some, Option.bind_some]
      split_ifs
      · rw [(h.same n).2.1]
      · rfl

/-! ### `insert_after` -/

theorem insertRight_split {i x : Nat} : ∀ {l : List Nat}, l.Nodup → i ∈ l → ∃ A B, l = A ++ i :: B ∧ insertRight x i l = A ++ i :: x :: B
  | [], _, h => by cases h
  | k :: l, hnd, h => by
    rw [List.nodup_cons] at hnd
    by_cases hk : k = i
    · subst hk
      refine ⟨[], l, rfl, ?_⟩
      have : ∀ l' : List Nat, k ∉ l' → insertRight x k l' = l' := by
        intro l'
        induction l' with
        | nil => intro _; rfl
        | cons a l' ih =>
          intro ha
          have h1 : a ≠ k := fun e => ha (by simp [e])
          have h2 : insertRight x k l' = l' := ih (fun e => ha (by simp [e]))
          simp only [insertRight, List.flatMap_cons, if_neg h1] at h2 ⊢
          rw [h2]; rfl
      have h2 := this l hnd.1
      simp only [insertRight, List.flatMap_cons, if_true] at h2 ⊢
      rw [h2]; rfl
    · obtain ⟨A, B, h1, h2⟩ := insertRight_split (x := x) hnd.2 ((List.mem_cons.1 h).resolve_left (fun e => hk e.symm))
      refine ⟨k :: A, B, by rw [h1]; rfl, ?_⟩
      simp only [insertRight, List.flatMap_cons, if_neg hk] at h2 ⊢
      rw [h2]; rfl

theorem insertLeft_split {i x : Nat} : ∀ {l : List Nat}, l.Nodup → i ∈ l → ∃ A B, l = A ++ i :: B ∧ insertLeft x i l = A ++ x :: i :: B
  | [], _, h => by cases h
  | k :: l, hnd, h => by
    rw [List.nodup_cons] at hnd
    by_cases hk : k = i
    · subst hk
      refine ⟨[], l, rfl, ?_⟩
      have : ∀ l' : List Nat, k ∉ l' → insertLeft x k l' = l' := by
        intro l'
        induction l' with
        | nil => intro _; rfl
        | cons a l' ih =>
          intro ha
          have h1 : a ≠ k := fun e => ha (by simp [e])
          have h2 : insertLeft x k l' = l' := ih (fun e => ha (by simp [e]))
          simp only [insertLeft, List.flatMap_cons, if_neg h1] at h2 ⊢
          rw [h2]; rfl
      have h2 := this l hnd.1
      simp only [insertLeft, List.flatMap_cons, if_true] at h2 ⊢
      rw [h2]; rfl
    · obtain ⟨A, B, h1, h2⟩ := insertLeft_split (x := x) hnd.2 ((List.mem_cons.1 h).resolve_left (fun e => hk e.symm))
      refine ⟨k :: A, B, by rw [h1]; rfl, ?_⟩
      simp only [insertLeft, List.flatMap_cons, if_neg hk] at h2 ⊢
      rw [h2]; rfl

theorem nodup_forward {st : State F M K} (g : WellFormed st) : st.forward.Nodup := by
  have := g.nodup
  simp only [order] at this
  exact (List.nodup_append.1 (List.nodup_append.1 this).1).2.1

/-- Coming after the first element of a split. -/
theorem after_split {A B : List Nat} {i j : Nat} (hnd : (A ++ i :: B).Nodup) (h : [i, j].Sublist (A ++ i :: B)) : j ∈ B := by
  have hA : i ∉ A := fun ha => (List.nodup_append.1 hnd).2.2 i ha i (by simp) rfl
  obtain ⟨l1, l2, he, h1, h2⟩ := List.sublist_append_iff.1 h
  rcases l1 with _ | ⟨a, l1⟩
  · simp only [List.nil_append] at he
    subst he
    cases h2 with
    | cons _ h3 => exact h3.subset (by simp)
    | cons_cons _ h3 => exact List.singleton_sublist.1 h3
  · simp only [List.cons_append, List.cons.injEq] at he
    exact absurd (h1.subset (by simp [he.1])) hA

theorem newName_same (nm : Naming F M K) (pre : String) (st : State F M K) (c : Callee F M) :
    (newName nm pre st c).2.nodes = st.nodes ∧ (newName nm pre st c).2.inputs = st.inputs ∧ (newName nm pre st c).2.outputs = st.outputs ∧
      (newName nm pre st c).2.consts = st.consts ∧ (newName nm pre st c).2.forward = st.forward := by
  have hnum : ∀ (st : State F M K) (b : String), (number st b).2.nodes = st.nodes ∧ (number st b).2.inputs = st.inputs ∧ (number st b).2.outputs = st.outputs ∧
      (number st b).2.consts = st.consts ∧ (number st b).2.forward = st.forward := by
    intro st b
    unfold number
    split <;> exact ⟨rfl, rfl, rfl, rfl, rfl⟩
  cases c with
  | func f => exact hnum (bump st (nm.kind f)).2 _
  | module m => exact hnum st _

theorem inserted_after {nm : Naming F M K} {pre : String} {st st' : State F M K} {i : Nat} {c : Callee F M} (g : WellFormed st) (hi : i ∈ order st ++ st.consts)
    (hf : FreshName st (newName nm pre st c).1) (h : insertAfter nm pre st i c = some st') :
    ∃ (ni : TNode F M K) (L1 L2 : List Nat), st.nodes[i]? = some ni ∧
      Inserted st st' (newName nm pre st c).1 c i [] (nextNodes st i) (moveReader i st.nodes.length ni (newName nm pre st c).1) L1 L2 := by
  unfold insertAfter at h
  simp only [Option.bind_eq_bind, Option.bind_eq_some_iff] at h
  obtain ⟨ni, hni, h⟩ := h
  by_cases ho : i ∈ st.outputs
  · rw [if_pos ho] at h
    cases h
  rw [if_neg ho, Option.some.injEq] at h
  obtain ⟨s1, s2, s3, s4, s5⟩ := newName_same nm pre st c
  set name := (newName nm pre st c).1 with hname
  have hex : ∃ L1 L2, st.forward = L1 ++ L2 ∧ st'.forward = L1 ++ st.nodes.length :: L2 ∧ (i ∈ st.consts ∨ i ∈ st.inputs ∨ i ∈ L1) ∧
      ∀ j ∈ nextNodes st i, j ∈ st.forward ++ st.outputs → j ∈ L2 ∨ j ∈ st.outputs := by
    rw [← h]
    dsimp only
    by_cases hic : i ∈ st.inputs ∨ i ∈ st.consts
    · rw [if_pos hic]
      refine ⟨[], st.forward, rfl, rfl, by tauto, fun j hj hjf => ?_⟩
      exact List.mem_append.1 hjf
    · rw [if_neg hic]
      have hif : i ∈ st.forward := by
        simp only [order, List.mem_append] at hi
        tauto
      obtain ⟨A, B, h1, h2⟩ := insertRight_split (x := st.nodes.length) (nodup_forward g) hif
      refine ⟨A ++ [i], B, by rw [h1]; simp, by rw [h2]; simp, by simp, fun j hj hjf => ?_⟩
      obtain ⟨-, n, hn, hin⟩ := mem_nextNodes.1 hj
      rcases List.mem_append.1 hjf with hjf' | hjf'
      · left
        rcases g.before j hjf n hn i hin with h3 | h3 | ⟨-, h3⟩
        · exact absurd (Or.inr h3) hic
        · exact absurd (Or.inl h3) hic
        · have h4 := h3 hjf'
          have hnd := nodup_forward g
          rw [h1] at h4 hnd
          exact after_split hnd h4
      · exact Or.inr hjf'
  · obtain ⟨L1, L2, f1, f2, f3, f4⟩ := hex
    refine ⟨ni, L1, L2, hni, ?_⟩
    have hnodes : st'.nodes = editNodes st.nodes (nextNodes st i) (moveReader i st.nodes.length ni name) ++ [⟨name, kindFor c, [i], [[]], newNames c (refAt st.nodes i []), false⟩] := by
      rw [← h, ← nameAt_eq hni]
    refine ⟨hnodes, by rw [← h]; exact s2, by rw [← h]; exact s3, by rw [← h]; exact s4, fun n => ⟨rfl, rfl, rfl⟩, f1, f2, f3, hf, ?_⟩
    intro j hj hjo n hn
    obtain ⟨w1, w2⟩ := g.wires j hjo n hn
    refine ⟨by simp only [moveReader, List.length_map]; exact w1, ?_, ?_⟩
    · intro f' hk
      have hmem : ∀ e ∈ n.prev.zip n.idx, e.1 ∈ order st ++ st.consts := fun e he => g.prev_mem hjo hn (zip_fst_mem he)
      have hold : ∀ k ∈ order st ++ st.consts, ∀ q, refAt st'.nodes k q = refAt st.nodes k q := by
        intro k hk q
        have hk' := g.lt hk
        unfold refAt
        rw [hnodes, List.getElem?_append_left (by rw [editNodes_length]; exact hk'), editNodes_get, List.getElem?_eq_getElem hk']
        simp only [Option.map_some]
        split_ifs <;> rfl
      have hnew : ∀ q, refAt st'.nodes st.nodes.length q = ⟨false, name, q⟩ := by
        intro q
        unfold refAt
        rw [hnodes, List.getElem?_append_right (by rw [editNodes_length]; exact Nat.le_refl _), editNodes_length]
        simp [isConst_kindFor]
      simp only [moveReader, replaceNames_eq]
      rw [w2 f' hk, zipWith_zip, zipWith_zip, List.map_map, List.zip_map_left, List.map_map]
      have hrs : ((n.prev.zip n.idx).filter (fun e => e.1 = i)).map (fun e => (nameAt ni e.2, (⟨false, name, e.2⟩ : NameRef))) =
          ((n.prev.zip n.idx).filter (fun e => e.1 = i)).map (fun e => (refAt st.nodes e.1 e.2, (⟨false, name, e.2⟩ : NameRef))) := by
        apply List.map_congr_left
        intro e he
        have := (List.mem_filter.1 he).2
        simp only [decide_eq_true_eq] at this
        rw [this, nameAt_eq hni]
      rw [hrs]
      apply List.map_congr_left
      intro e he
      simp only [Function.comp]
      rw [subName_filter (P := fun e : Nat × Path => decide (e.1 = i)) (ref := fun e => refAt st.nodes e.1 e.2) (new := fun e => ⟨false, name, e.2⟩) ?_ ?_ e he]
      · by_cases hei : e.1 = i
        · simp [hei, hnew]
        · simp [hei, hold _ (hmem e he)]
      · intro e he e' he' hp heq
        obtain ⟨e1, e2⟩ := g.ref_inj (hmem e' he') (hmem e he) heq
        simp only [decide_eq_true_eq] at hp ⊢
        exact ⟨e1.trans hp, by rw [e2]⟩
      · intro e he e' _ _ _ h
        exact absurd h (fresh_ref hf g (hmem e he) _ _ _)
    · intro k hk
      simp only [moveReader, List.mem_map] at hk
      obtain ⟨k', hk', rfl⟩ := hk
      split_ifs
      · exact Or.inr ⟨rfl, f4 j hj hjo⟩
      · exact Or.inl hk'

/-! ### `insert_between` -/

theorem before_split {A B : List Nat} {i j : Nat} (hnd : (A ++ j :: B).Nodup) (h : [i, j].Sublist (A ++ j :: B)) : i ∈ A := by
  obtain ⟨l1, l2, he, h1, h2⟩ := List.sublist_append_iff.1 h
  rcases l1 with _ | ⟨a, l1⟩
  · exfalso
    simp only [List.nil_append] at he
    subst he
    have h3 : [j].Sublist B := by
      cases h2 with
      | cons _ h => exact (List.sublist_cons_self i [j]).trans h
      | cons_cons _ h => exact h
    exact (List.nodup_cons.1 (List.nodup_append.1 hnd).2.1).1 (List.singleton_sublist.1 h3)
  · simp only [List.cons_append, List.cons.injEq] at he
    rw [he.1]
    exact h1.subset (by simp)

/-- Where a reader of place `p` of node `i` looks after the insertion of node `x`. -/
def between (i : Nat) (p : Path) (x : Nat) (e : Nat × Path) : Nat × Path := if e.1 = i ∧ e.2 = p then (x, []) else e

theorem zip_between {i x : Nat} {p : Path} {ni n : TNode F M K} {name : String} {only : Option Path} (hl : n.prev.length = n.idx.length)
    (hch : ∀ e ∈ n.prev.zip n.idx, e.1 = i → (chosen i only e = true ↔ e.2 = p))
    (hpos : ∀ k e, (n.prev.zip n.idx)[k]? = some e → e.1 = i → (k < n.prev.length - remaining i only n ↔ e.2 = p)) :
    (moveBetween i x ni name only n).prev = (n.prev.zip n.idx).map (fun e => (between i p x e).1) ∧
      (moveBetween i x ni name only n).idx = (n.prev.zip n.idx).map (fun e => (between i p x e).2) := by
  have hchf : ∀ e : Nat × Path, e.1 ≠ i → chosen i only e = false := by
    intro e he
    simp [chosen, he]
  refine ⟨?_, ?_⟩
  · apply List.ext_getElem?
    intro k
    simp only [moveBetween, betweenPrev, List.getElem?_mapIdx, List.getElem?_map]
    by_cases hk : k < n.prev.length
    · have hk' : k < n.idx.length := by omega
      have hz : (n.prev.zip n.idx)[k]? = some (n.prev[k], n.idx[k]) := by
        rw [List.getElem?_eq_getElem (by simp; omega)]
        simp
      rw [hz, List.getElem?_eq_getElem hk]
      simp only [Option.map_some, Option.some.injEq]
      unfold between
      by_cases hi : n.prev[k] = i
      · have := hpos k _ hz hi
        dsimp only at this
        by_cases hp : n.idx[k] = p
        · simp [hi, hp, this.2 hp]
        · have h' : ¬ k < n.prev.length - remaining i only n := fun h => hp (this.1 h)
          simp [hp, h']
      · simp [hi]
    · rw [List.getElem?_eq_none (by omega), List.getElem?_eq_none (by simp; omega)]
      simp
  · simp only [moveBetween]
    apply List.map_congr_left
    intro e he
    unfold between
    by_cases hi : e.1 = i
    · by_cases hp : e.2 = p
      · rw [if_pos ((hch e he hi).2 hp), if_pos ⟨hi, hp⟩]
      · rw [if_neg (fun h => hp ((hch e he hi).1 h)), if_neg (fun h => hp h.2)]
    · simp [hchf e hi, hi]

theorem zip_map_both {α β γ : Type} (f : α → β) (g : α → γ) (l : List α) : (l.map f).zip (l.map g) = l.map (fun a => (f a, g a)) := by
  induction l with
  | nil => rfl
  | cons a l ih => simp [ih]

theorem inserted_between {nm : Naming F M K} {pre : String} {st st' : State F M K} {i r : Nat} {c : Callee F M} {only : Option Path} {p : Path} {nr : TNode F M K} (g : WellFormed st)
    (hr : st.nodes[r]? = some nr) (hf : FreshName st (newName nm pre st c).1)
    (hch : ∀ e ∈ nr.prev.zip nr.idx, e.1 = i → (chosen i only e = true ↔ e.2 = p))
    (hpos : ∀ k e, (nr.prev.zip nr.idx)[k]? = some e → e.1 = i → (k < nr.prev.length - remaining i only nr ↔ e.2 = p))
    (h : insertBetween nm pre st i r c only = some st') :
    ∃ (ni : TNode F M K) (L1 L2 : List Nat), st.nodes[i]? = some ni ∧ r ∈ st.forward ∧ i ∈ nr.prev ∧
      Inserted st st' (newName nm pre st c).1 c i p [r] (moveBetween i st.nodes.length ni (newName nm pre st c).1 only) L1 L2 := by
  unfold insertBetween at h
  simp only [Option.bind_eq_bind, Option.bind_eq_some_iff] at h
  obtain ⟨ni, hni, nr', hr', h⟩ := h
  rw [hr] at hr'
  cases hr'
  by_cases hc : i ∈ nr.prev ∧ r ∈ st.forward
  swap
  · rw [if_neg hc] at h
    cases h
  rw [if_pos hc] at h
  simp only [Option.bind_eq_some_iff, Option.some.injEq] at h
  obtain ⟨e0, he0, h⟩ := h
  obtain ⟨hir, hrf⟩ := hc
  have hrfo : r ∈ st.forward ++ st.outputs := by simp [hrf]
  have he0m := List.mem_filter.1 (List.mem_of_mem_head? he0)
  have he0i : e0.1 = i := by
    have := he0m.2
    simp only [chosen, Bool.and_eq_true, decide_eq_true_eq] at this
    exact this.1
  have he0p : e0.2 = p := (hch e0 he0m.1 he0i).1 he0m.2
  obtain ⟨s1, s2, s3, s4, s5⟩ := newName_same nm pre st c
  set name := (newName nm pre st c).1 with hname
  obtain ⟨A, B, h1, h2⟩ := insertLeft_split (x := st.nodes.length) (nodup_forward g) hrf
  refine ⟨ni, A, r :: B, hni, hrf, hir, ?_⟩
  have hnodes : st'.nodes = editNodes st.nodes [r] (moveBetween i st.nodes.length ni name only) ++ [⟨name, kindFor c, [i], [p], newNames c (refAt st.nodes i p), false⟩] := by
    rw [← h, ← nameAt_eq hni, ← he0p]
  refine ⟨hnodes, by rw [← h]; exact s2, by rw [← h]; exact s3, by rw [← h]; exact s4, fun n => ⟨rfl, rfl, rfl⟩, h1, by rw [← h]; exact h2, ?_, hf, ?_⟩
  · rcases g.before r hrfo nr hr i hir with h3 | h3 | ⟨-, h3⟩
    · exact Or.inl h3
    · exact Or.inr (Or.inl h3)
    · refine Or.inr (Or.inr ?_)
      have h4 := h3 hrf
      have hnd := nodup_forward g
      rw [h1] at h4 hnd
      exact before_split hnd h4
  · intro j hj hjo n hn
    rw [List.mem_singleton] at hj
    subst hj
    rw [hr] at hn
    cases hn
    obtain ⟨w1, w2⟩ := g.wires j hjo nr hr
    obtain ⟨z1, z2⟩ := zip_between (ni := ni) (x := st.nodes.length) (name := name) w1 hch hpos
    refine ⟨by rw [z1, z2]; simp, ?_, ?_⟩
    · intro f' hk
      have hmem : ∀ e ∈ nr.prev.zip nr.idx, e.1 ∈ order st ++ st.consts := fun e he => g.prev_mem hjo hr (zip_fst_mem he)
      have hold : ∀ k ∈ order st ++ st.consts, ∀ q, refAt st'.nodes k q = refAt st.nodes k q := by
        intro k hk q
        have hk' := g.lt hk
        unfold refAt
        rw [hnodes, List.getElem?_append_left (by rw [editNodes_length]; exact hk'), editNodes_get, List.getElem?_eq_getElem hk']
        simp only [Option.map_some]
        split_ifs <;> rfl
      have hnew : ∀ q, refAt st'.nodes st.nodes.length q = ⟨false, name, q⟩ := by
        intro q
        unfold refAt
        rw [hnodes, List.getElem?_append_right (by rw [editNodes_length]; exact Nat.le_refl _), editNodes_length]
        simp [isConst_kindFor]
      rw [z1, z2, zipWith_zip, zip_map_both, List.map_map]
      simp only [moveBetween, replaceNames_eq]
      rw [w2 f' hk, zipWith_zip, List.map_map]
      have hrs : ((nr.prev.zip nr.idx).filter (chosen i only)).map (fun e => (nameAt ni e.2, (⟨false, name, []⟩ : NameRef))) =
          ((nr.prev.zip nr.idx).filter (chosen i only)).map (fun e => (refAt st.nodes e.1 e.2, (⟨false, name, []⟩ : NameRef))) := by
        apply List.map_congr_left
        intro e he
        have := (List.mem_filter.1 he).2
        simp only [chosen, Bool.and_eq_true, decide_eq_true_eq] at this
        rw [this.1, nameAt_eq hni]
      rw [hrs]
      apply List.map_congr_left
      intro e he
      simp only [Function.comp]
      rw [subName_filter (P := chosen i only) (ref := fun e => refAt st.nodes e.1 e.2) (new := fun _ => ⟨false, name, []⟩) ?_ ?_ e he]
      · by_cases hei : e.1 = i
        · by_cases hp : e.2 = p
          · rw [if_pos ((hch e he hei).2 hp)]
            simp [between, hei, hp, hnew]
          · rw [if_neg (fun h => hp ((hch e he hei).1 h))]
            simp [between, hp, hold _ (hmem e he)]
        · have : chosen i only e = false := by simp [chosen, hei]
          simp [this, between, hei, hold _ (hmem e he)]
      · intro e he e' he' hp heq
        obtain ⟨e1, e2⟩ := g.ref_inj (hmem e' he') (hmem e he) heq
        have : e' = e := Prod.ext e1 e2
        rw [this]
        exact ⟨hp, rfl⟩
      · intro e he e' _ _ _ h
        exact absurd h (fresh_ref hf g (hmem e he) _ _ _)
    · intro k hk
      rw [z1, List.mem_map] at hk
      obtain ⟨e, he, rfl⟩ := hk
      unfold between
      split_ifs
      · exact Or.inr ⟨rfl, Or.inl (by simp)⟩
      · exact Or.inl (zip_fst_mem he)

/-! ### `insert_before` for outputs -/

theorem inserted_output {nm : Naming F M K} {pre : String} {st st' : State F M K} {o k : Nat} {c : Callee F M} {no : TNode F M K} (g : WellFormed st) (ho : st.nodes[o]? = some no)
    (hf : FreshName st (newName nm pre st c).1) (h : insertOutput nm pre st o k c = some st') :
    ∃ (i : Nat) (p : Path), o ∈ st.outputs ∧ no.prev[k]? = some i ∧ no.idx[k]? = some p ∧
      Inserted st st' (newName nm pre st c).1 c i p [o] (moveOutput k st.nodes.length) st.forward [] := by
  unfold insertOutput at h
  simp only [Option.bind_eq_bind, Option.bind_eq_some_iff] at h
  obtain ⟨no', ho', h⟩ := h
  rw [ho] at ho'
  cases ho'
  by_cases hoo : o ∈ st.outputs
  swap
  · rw [if_neg hoo] at h
    cases h
  rw [if_pos hoo] at h
  simp only [Option.bind_eq_some_iff, Option.some.injEq] at h
  obtain ⟨i, hi, p, hp, ni, hni, h⟩ := h
  obtain ⟨s1, s2, s3, s4, s5⟩ := newName_same nm pre st c
  refine ⟨i, p, hoo, hi, hp, ?_⟩
  have hoo' : o ∈ st.forward ++ st.outputs := by simp [hoo]
  refine ⟨by rw [← h, ← nameAt_eq hni], by rw [← h]; exact s2, by rw [← h]; exact s3, by rw [← h]; exact s4, fun n => ⟨rfl, rfl, rfl⟩, by simp, by rw [← h], ?_, hf, ?_⟩
  · rcases g.before o hoo' no ho i (List.mem_of_getElem? hi) with b | b | ⟨b, -⟩
    · exact Or.inl b
    · exact Or.inr (Or.inl b)
    · exact Or.inr (Or.inr b)
  · intro j hj hjo n hn
    rw [List.mem_singleton] at hj
    subst hj
    rw [ho] at hn
    cases hn
    refine ⟨by simp only [moveOutput, List.length_set]; exact (g.wires j hjo no ho).1, ?_, ?_⟩
    · intro f hk
      obtain ⟨n', hn', hk'⟩ := g.out j hoo
      rw [ho] at hn'
      cases hn'
      rw [hk] at hk'
      cases hk'
    · intro a ha
      rcases List.mem_or_eq_of_mem_set ha with h1 | h1
      · exact Or.inl h1
      · exact Or.inr ⟨h1, Or.inr hoo⟩

theorem finds_unique {see : Nat → Nat → Path → Option T} {j : Nat} {n : TNode F M K} {as bs : List T} (h : Finds see j n as) (h' : Finds see j n bs) : as = bs := by
  unfold Finds at h h'
  generalize n.prev.zip n.idx = l at h h'
  induction h generalizing bs with
  | nil => cases h'; rfl
  | cons h1 _ ih =>
    cases h' with
    | cons h3 h4 =>
      rw [h1] at h3
      cases h3
      rw [ih h4]

/-- The run of the graph with a node before place `k` of an output. -/
theorem Inserted.runs_output {st st' : State F M K} {name : String} {c : Callee F M} {i o k m : Nat} {p : Path} {no : TNode F M K}
    (h : Inserted st st' name c i p [o] (moveOutput k st.nodes.length) st.forward []) (g : WellFormed st) {s : Sem F M K T} {args rets : List (Out T)} {vals : Nat → Out T}
    (r : RunsTo s st args rets vals) (ho : st.nodes[o]? = some no) (hi : no.prev[k]? = some i) (hp : no.idx[k]? = some p) (hm : st.outputs[m]? = some o) {as : List T} {a t : T}
    (has : Finds (seeVals vals) o no as) (ha : as[k]? = some a) (hc : s.call c [a] = .one t) :
    RunsTo s st' args (rets.set m (if no.rev then .seq ((as.set k t).map .leaf) else .one t)) (fun j => if j = st.nodes.length then s.call c [a] else vals j) := by
  have hlt : ∀ j ∈ order st ++ st.consts, j < st.nodes.length := fun j hj => g.lt hj
  have hoo : o ∈ st.outputs := List.mem_of_getElem? hm
  have hoo' : o ∈ st.forward ++ st.outputs := by simp [hoo]
  have hfo : ∀ j ∈ st.forward ++ st.outputs, j < st.nodes.length := by
    intro j hj
    apply hlt
    simp only [order, List.mem_append] at hj ⊢
    tauto
  have hil : i < st.nodes.length := hlt _ (g.prev_mem hoo' ho (List.mem_of_getElem? hi))
  have hl := (g.wires o hoo' no ho).1
  have hv : (vals i).get p = some a := by
    unfold Finds at has
    have hk : k < no.prev.length := (List.getElem?_eq_some_iff.1 hi).1
    have hk2 : k < as.length := (List.getElem?_eq_some_iff.1 ha).1
    have := (List.forall₂_iff_get.1 has).2 k (by simp; omega) hk2
    simp only [List.get_eq_getElem, List.getElem_zip, seeVals] at this
    rw [(List.getElem?_eq_some_iff.1 hi).2, (List.getElem?_eq_some_iff.1 hp).2, (List.getElem?_eq_some_iff.1 ha).2] at this
    exact this
  have hkeep : ∀ j ∈ st.forward ++ st.outputs, ∀ n : TNode F M K, st.nodes[j]? = some n → ∀ as : List T, Finds (seeVals vals) j n as →
      Finds (seeVals (fun j => if j = st.nodes.length then s.call c [a] else vals j)) j n as := by
    intro j hj n hn as hf
    refine finds_map id (by simp) (fun e he a ha => ?_) hf
    have := Nat.ne_of_lt (hlt _ (g.prev_mem hj hn (zip_fst_mem he)))
    simp only [seeVals, id, if_neg this]
    exact ha
  have hnd := g.nodup
  simp only [order] at hnd
  refine ⟨?_, ?_, ?_, ?_⟩
  · rw [h.inputs]
    have := r.inputs
    refine List.forall₂_iff_get.2 ⟨this.length_eq, fun q h1 h2 => ?_⟩
    rw [if_neg (Nat.ne_of_lt (hlt _ (by simp [order])))]
    exact (List.forall₂_iff_get.1 this).2 q h1 h2
  · intro j hj n' k' hn' hk'
    rw [h.consts] at hj
    obtain ⟨n, hn, -, e2, -⟩ := h.node (hlt j (by simp [hj])) hn'
    rw [if_neg (Nat.ne_of_lt (hlt j (by simp [hj])))]
    exact r.consts j hj n k' hn (e2 ▸ hk')
  · intro j hj n' c' hn' hw
    rw [h.fwd', List.mem_append, List.mem_singleton] at hj
    rcases hj with hj | rfl
    · have hjl := hfo j (by simp [hj])
      obtain ⟨n, hn, -, e2, -, hcase⟩ := h.node hjl hn'
      have hjo : j ∉ [o] := by
        rw [List.mem_singleton]
        rintro rfl
        exact (List.nodup_append.1 hnd).2.2 j (by simp [hj]) j hoo rfl
      rcases hcase with ⟨-, rfl⟩ | ⟨hjo', -⟩
      · have hw' : whatOf st j = some c' := by
          rw [whatOf, hn', Option.bind_some] at hw
          rw [whatOf, hn, Option.bind_some, hw]
        obtain ⟨as', h1, h2⟩ := r.calls j hj n' c' hn hw'
        exact ⟨as', hkeep j (by simp [hj]) n' hn as' h1, by simp [Nat.ne_of_lt hjl, h2]⟩
      · exact absurd hjo' hjo
    · rw [whatOf, h.get_new, Option.bind_some, calleeOf_kind, Option.some.injEq] at hw
      subst hw
      rw [h.get_new] at hn'
      cases hn'
      refine ⟨[a], .cons ?_ .nil, by simp⟩
      simp only [seeVals, if_neg (Nat.ne_of_lt hil)]
      exact hv
  · rw [h.outputs]
    have hout := r.outs
    refine List.forall₂_iff_get.2 ⟨by rw [List.length_set]; exact hout.length_eq, fun q h1 h2 => ?_⟩
    rw [List.length_set] at h2
    have hq := (List.forall₂_iff_get.1 hout).2 q h1 h2
    simp only [List.get_eq_getElem] at hq ⊢
    have hqo : st.outputs[q] ∈ st.outputs := List.getElem_mem _
    by_cases hqm : q = m
    · subst hqm
      have hqe : st.outputs[q] = o := (List.getElem?_eq_some_iff.1 hm).2
      rw [hqe] at hq ⊢
      obtain ⟨n, as', hn, hf', hr⟩ := hq
      rw [ho] at hn
      cases hn
      have hsame : as' = as := finds_unique hf' has
      subst hsame
      refine ⟨moveOutput k st.nodes.length no, as'.set k t, ?_, ?_, ?_⟩
      · rw [h.get_old (hfo o hoo'), ho]
        simp
      · unfold Finds at hf' ⊢
        have hz : (moveOutput k st.nodes.length no).prev.zip (moveOutput k st.nodes.length no).idx = (no.prev.zip no.idx).set k (st.nodes.length, []) := by
          simp only [moveOutput]
          apply List.ext_getElem?
          intro q'
          simp only [List.getElem?_set, List.getElem?_zip_eq_some, List.length_zip, List.zip, List.getElem?_zipWith]
          by_cases hqk : k = q'
          · subst hqk
            have hk1 : k < no.prev.length := (List.getElem?_eq_some_iff.1 hi).1
            have hk2 : k < no.idx.length := by omega
            simp [hk1, hk2, Nat.lt_min]
          · simp [hqk]
        rw [hz]
        refine List.forall₂_iff_get.2 ⟨by simpa using hf'.length_eq, fun q' g1 g2 => ?_⟩
        simp only [List.length_set] at g1 g2
        simp only [List.get_eq_getElem, List.getElem_set]
        split_ifs with hkq
        · simp only [seeVals, if_true, hc]
          rfl
        · have := (List.forall₂_iff_get.1 (hkeep o hoo' no ho as' has)).2 q' g1 g2
          simpa using this
      · have hrev : (moveOutput k st.nodes.length no).rev = no.rev := rfl
        rw [hrev]
        simp only [List.getElem_set_self]
        rcases hr with ⟨hr, -⟩ | ⟨hr, a', rfl, -⟩
        · left
          simp [hr]
        · right
          have hk0 : k = 0 := by
            have := (List.getElem?_eq_some_iff.1 ha).1
            simpa using this
          subst hk0
          refine ⟨hr, t, by simp, by simp [hr]⟩
    · have hne : st.outputs[q] ≠ o := by
        intro he
        have hnd' := (List.nodup_append.1 hnd).2.1
        have hm' := List.getElem?_eq_some_iff.1 hm
        exact hqm ((List.nodup_iff_injective_get.1 hnd') (a₁ := ⟨q, h1⟩) (a₂ := ⟨m, hm'.1⟩) (by simp [he, hm'.2]) |> Fin.mk.inj_iff.1)
      obtain ⟨n, as', hn, hf', hr⟩ := hq
      refine ⟨n, as', ?_, hkeep _ (by simp) n hn as' hf', ?_⟩
      · rw [h.get_old (hfo _ (by simp)), hn]
        simp [hne]
      · rw [List.getElem_set_ne (fun e => hqm e.symm)]
        exact hr

end

end Verif.Lemmas.Tracer
