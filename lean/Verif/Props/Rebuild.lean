import Verif.Model.Rebuild
import Mathlib.Tactic.Linarith
import Mathlib.Data.List.Nodup

/-! C111: replacing operators keeps the graph connected. -/

namespace Verif.Props
open Verif.Spec.Rebuild Verif.Model.Rebuild

/-- What holds of the graph before a pass, and of the replacements, whatever their order. -/
structure Selects (g : G) (is : List Item) : Prop where
  connected : Connected g
  /-- Operators have different numbers, and new ones are larger. -/
  names : (g.ops.map Prod.fst).Nodup
  lt : ∀ v ∈ g.ops, v.1 < g.next
  /-- The producer of a tensor is the operator that writes it. -/
  own : ∀ v ∈ g.ops, ∀ t, g.own t = some (.op v.1) ↔ t ∈ v.2.outs
  known : ∀ v ∈ g.ops, ∀ t ∈ v.2.ins, g.own t ≠ none
  outputs : ∀ t ∈ g.outputs, g.own t ≠ none
  /-- The operators replaced are in the graph; results of those that go with them are read by removed operators only. -/
  present : ∀ i ∈ is, ∀ n ∈ i.main :: i.also, n ∈ g.ops.map Prod.fst
  only : ∀ i ∈ is, ∀ a ∈ i.also, ∀ t ∈ writes g a, (∀ v ∈ g.ops, t ∈ v.2.ins → ∃ j ∈ is, v.1 ∈ j.main :: j.also) ∧ t ∉ g.outputs
  /-- The new operators write what was written before, and new tensors. -/
  made : ∀ i ∈ is, ∀ t ∈ writes g i.main, ∃ o ∈ i.new, t ∈ o.outs
  once : ((is.flatMap Item.new).flatMap Op.outs).Nodup
  outs : ∀ i ∈ is, ∀ o ∈ i.new, ∀ t ∈ o.outs, t ∈ writes g i.main ∨ g.own t = none

/-- The replacements are in an order in which they can be computed. -/
structure Replaces (g : G) (is : List Item) : Prop extends Selects g is where
  /-- New operators read what new operators before them write, or what no new and no removed operator writes. -/
  ins : ∀ l₁ o l₂, is.flatMap Item.new = l₁ ++ o :: l₂ → ∀ t ∈ o.ins, (∃ o' ∈ l₁, t ∈ o'.outs) ∨
    ((∀ o' ∈ l₁ ++ o :: l₂, t ∉ o'.outs) ∧ ∀ i ∈ is, ∀ n ∈ i.main :: i.also, g.own t ≠ some (.op n))

namespace Rebuild

/-- The numbers of the removed operators. -/
def gone (is : List Item) : List ℕ := is.flatMap fun i => i.main :: i.also

theorem mem_gone {is : List Item} {n : ℕ} : n ∈ gone is ↔ ∃ i ∈ is, n ∈ i.main :: i.also := List.mem_flatMap

theorem lookup_none {l : List (ℕ × Op)} {n : ℕ} (h : n ∉ l.map Prod.fst) : l.lookup n = none := by
  induction l with
  | nil => rfl
  | cons v l ih =>
    obtain ⟨k, o⟩ := v
    simp only [List.map_cons, List.mem_cons, not_or] at h
    rw [List.lookup_cons]
    have : (n == k) = false := by simpa using h.1
    rw [this]
    exact ih h.2

theorem lookup_some {l : List (ℕ × Op)} {n : ℕ} {o : Op} (h : l.lookup n = some o) : (n, o) ∈ l := by
  induction l with
  | nil => cases h
  | cons v l ih =>
    obtain ⟨k, o'⟩ := v
    rw [List.lookup_cons] at h
    cases hk : n == k
    · rw [hk] at h
      exact List.mem_cons_of_mem _ (ih h)
    · rw [hk] at h
      have : n = k := by simpa using hk
      cases h
      subst this
      exact List.mem_cons_self

theorem lookup_mem {l : List (ℕ × Op)} {n : ℕ} (h : n ∈ l.map Prod.fst) : ∃ o, l.lookup n = some o := by
  cases hl : l.lookup n with
  | some o => exact ⟨o, rfl⟩
  | none =>
    exfalso
    induction l with
    | nil => cases h
    | cons v l ih =>
      obtain ⟨k, o'⟩ := v
      rw [List.lookup_cons] at hl
      cases hk : n == k
      · rw [hk] at hl
        rcases List.mem_cons.1 h with h | h
        · have : ¬ n = k := by simpa using hk
          exact this h
        · exact ih h hl
      · rw [hk] at hl
        cases hl

theorem lookup_eq {l : List (ℕ × Op)} (hn : (l.map Prod.fst).Nodup) {n : ℕ} {o : Op} (h : (n, o) ∈ l) : l.lookup n = some o := by
  induction l with
  | nil => cases h
  | cons v l ih =>
    obtain ⟨k, o'⟩ := v
    simp only [List.map_cons, List.nodup_cons] at hn
    rw [List.lookup_cons]
    rcases List.mem_cons.1 h with h' | h'
    · cases h'
      simp
    · have : ¬ n = k := by
        rintro rfl
        exact hn.1 (List.mem_map.2 ⟨(n, o), h', rfl⟩)
      have : (n == k) = false := by simpa using this
      rw [this]
      exact ih hn.2 h'

theorem lookup_filter (p : ℕ → Bool) (l : List (ℕ × Op)) (n : ℕ) : (l.filter fun v => p v.1).lookup n = if p n then l.lookup n else none := by
  induction l with
  | nil => simp
  | cons v l ih =>
    obtain ⟨k, o⟩ := v
    rw [List.filter_cons]
    by_cases hk : n = k
    · subst hk
      by_cases hp : p n = true
      · simp [hp]
      · simp only [hp, if_false, Bool.false_eq_true] at ih ⊢
        exact ih
    · have hb : (n == k) = false := by simpa using hk
      by_cases hp : p k = true
      · simp only [hp, if_true, List.lookup_cons, hb]
        exact ih
      · simp only [hp, if_false, Bool.false_eq_true, List.lookup_cons, hb]
        exact ih

variable {g cur : G} {is : List Item} {done todo : List Op} {M : List ℕ}

/-- What holds while operators are replaced; connections of remaining operators to the tensors `M` are missing. -/
structure Inv (g : G) (is : List Item) (cur : G) (done todo : List Op) (M : List ℕ) : Prop where
  edges : ∀ s n t, cur.edges.count (s, n, t) = if cur.own t = some s ∧ ¬ (t ∈ M ∧ n < g.next) then (reads cur n).count t else 0
  names : ∀ n ∈ cur.ops.map Prod.fst, n < cur.next
  next : g.next ≤ cur.next
  old : ∀ n, n < g.next → cur.ops.lookup n = if n ∈ gone is then none else g.ops.lookup n
  kept : ∀ t s, g.own t = some s → (∀ n ∈ gone is, s ≠ .op n) → cur.own t = some s
  known : ∀ n, g.next ≤ n → ∀ t ∈ reads cur n, cur.own t ≠ none
  pend : ∀ o ∈ todo, ∀ t ∈ o.outs, cur.own t = none
  made : ∀ o ∈ done, ∀ t ∈ o.outs, cur.own t ≠ none
  outs : cur.outputs = g.outputs
  outN : ∀ s t, cur.outNodes.count (s, t) = if cur.own t = some s ∧ t ∈ g.outputs then 1 else 0
  nxt : cur.next = g.next + done.length
  all : cur.ops = (g.ops.filter fun v => v.1 ∉ gone is) ++ done.zipIdx.map fun x => (g.next + x.2, x.1)
  mine : ∀ k o, done[k]? = some o → ∀ t ∈ o.outs, cur.own t = some (.op (g.next + k))

theorem reads_old (h : Inv g is cur done todo M) {n t : ℕ} (hn : n < g.next) (ht : t ∈ reads cur n) : n ∉ gone is ∧ t ∈ reads g n := by
  unfold reads at ht ⊢
  rw [h.old n hn] at ht
  by_cases hg : n ∈ gone is
  · simp [hg] at ht
  · simp only [hg, if_false] at ht
    exact ⟨hg, ht⟩

theorem reads_known (hr : Replaces g is) {n t : ℕ} (ht : t ∈ reads g n) : g.own t ≠ none := by
  unfold reads at ht
  cases hl : g.ops.lookup n with
  | none => rw [hl] at ht; cases ht
  | some o =>
    rw [hl] at ht
    exact hr.known _ (lookup_some hl) t ht

theorem count_map_ins (own : ℕ → Name) (k : ℕ) (l : List ℕ) (s : Name) (n t : ℕ) :
    (l.map fun t => (own t, k, t)).count (s, n, t) = if n = k ∧ own t = s then l.count t else 0 := by
  induction l with
  | nil => simp
  | cons a l ih =>
    rw [List.map_cons, List.count_cons, ih, List.count_cons]
    by_cases ha : a = t
    · subst ha
      by_cases hk : n = k
      · subst hk
        by_cases ho : own a = s <;> simp [ho]
      · have : ¬ k = n := fun h => hk h.symm
        simp [hk, this]
    · simp [ha]

theorem count_map_outs (k : ℕ) (l : List ℕ) (s : Name) (t : ℕ) : (l.map fun t => (Name.op k, t)).count (s, t) = if s = .op k then l.count t else 0 := by
  induction l with
  | nil => simp
  | cons a l ih =>
    rw [List.map_cons, List.count_cons, ih, List.count_cons]
    by_cases ha : a = t
    · subst ha
      by_cases hk : s = .op k
      · simp [hk]
      · have : ¬ Name.op k = s := fun h => hk h.symm
        simp [hk, this]
    · simp [ha]

theorem add_inv (hr : Replaces g is) {o : Op} (h : Inv g is cur done (o :: todo) M)
    (hins : ∀ t ∈ o.ins, (∃ o' ∈ done, t ∈ o'.outs) ∨ ((∀ o' ∈ done ++ o :: todo, t ∉ o'.outs) ∧ ∀ n ∈ gone is, g.own t ≠ some (.op n)))
    (hout : ∀ t ∈ o.outs, t ∈ M ∨ g.own t = none) (hnd : ((done ++ o :: todo).flatMap Op.outs).Nodup) : Inv g is (addOperator cur o) (done ++ [o]) todo M := by
  have hdisj : ∀ t ∈ o.ins, t ∉ o.outs := by
    intro t ht hto
    rcases hins t ht with ⟨o', ho', h1⟩ | ⟨h1, _⟩
    · rw [List.flatMap_append, List.nodup_append] at hnd
      exact hnd.2.2 t (List.mem_flatMap.2 ⟨o', ho', h1⟩) t (List.mem_flatMap.2 ⟨o, by simp, hto⟩) rfl
    · exact h1 o (by simp) hto
  have hunk : ∀ t ∈ o.ins, cur.own t = none → g.own t = none := by
    intro t ht hn
    rcases hins t ht with ⟨o', ho', h1⟩ | ⟨_, h2⟩
    · exact absurd hn (h.made o' ho' t h1)
    · by_contra hg
      obtain ⟨s, hs⟩ := Option.ne_none_iff_exists'.1 hg
      have := h.kept t s hs fun n hn' he => h2 n hn' (by rw [hs, he])
      rw [hn] at this
      cases this
  have hreads : ∀ n, reads (addOperator cur o) n = if n = cur.next then o.ins else reads cur n := by
    intro n
    unfold reads addOperator
    simp only
    rw [List.lookup_append]
    by_cases hn : n = cur.next
    · subst hn
      rw [lookup_none fun hm => absurd (h.names _ hm) (by omega)]
      simp
    · have : (n == cur.next) = false := by simpa using hn
      rw [if_neg hn, List.lookup_cons, this]
      simp
  have hcurnext : reads cur cur.next = [] := by
    unfold reads
    rw [lookup_none fun hm => absurd (h.names _ hm) (by omega)]
  have hown : ∀ t, (addOperator cur o).own t = if t ∈ o.outs then some (.op cur.next) else if t ∈ o.ins then some (ownIn cur t) else cur.own t := fun _ => rfl
  have hownin : ∀ t s, cur.own t = some s → ownIn cur t = s := by
    intro t s hs
    simp [ownIn, hs]
  have hne : ∀ t, cur.own t ≠ none → (addOperator cur o).own t ≠ none := by
    intro t ht
    rw [hown]
    split
    · simp
    · split
      · simp
      · exact ht
  refine ⟨fun s n t => ?_, fun n hn => ?_, ?_, fun n hn => ?_, fun t s hs hg => ?_, fun n hn t ht => ?_, fun o' ho' t ht => ?_, fun o' ho' t ht => ?_, h.outs, fun s t => ?_, ?_, ?_,
    fun k o' hk t ht => ?_⟩
  · show (cur.edges ++ o.ins.map fun t => (ownIn cur t, cur.next, t)).count (s, n, t) = _
    rw [List.count_append, h.edges, count_map_ins, hreads, hown]
    by_cases hn : n = cur.next
    · subst hn
      have h1 : ¬ cur.next < g.next := by have := h.next; omega
      simp only [hcurnext, List.count_nil, ite_self, Nat.zero_add, true_and, if_true, h1, and_false, not_false_eq_true, and_true]
      by_cases hti : t ∈ o.ins
      · rw [if_neg (hdisj t hti), if_pos hti]
        simp
      · rw [List.count_eq_zero_of_not_mem hti]
        simp
    · simp only [hn, false_and, if_false, Nat.add_zero]
      by_cases hz : t ∈ reads cur n
      · by_cases hto : t ∈ o.outs
        · have hnone := h.pend o (by simp) t hto
          have hlt : n < g.next := by
            by_contra hc
            exact h.known n (by omega) t hz hnone
          have hM : t ∈ M := by
            rcases hout t hto with h1 | h1
            · exact h1
            · exact absurd h1 (reads_known hr (reads_old h hlt hz).2)
          simp [hM, hlt]
        · rw [if_neg hto]
          by_cases hti : t ∈ o.ins
          · rw [if_pos hti]
            cases hc : cur.own t with
            | some s' =>
              rw [hownin t s' hc]
            | none =>
              exfalso
              by_cases hlt : n < g.next
              · exact reads_known hr (reads_old h hlt hz).2 (hunk t hti hc)
              · exact h.known n (by omega) t hz hc
          · rw [if_neg hti]
      · rw [List.count_eq_zero_of_not_mem hz]
        simp
  · simp only [addOperator, List.map_append, List.map_cons, List.map_nil, List.mem_append, List.mem_singleton] at hn ⊢
    rcases hn with hn | hn
    · have := h.names n hn; omega
    · omega
  · have := h.next
    show g.next ≤ cur.next + 1
    omega
  · rw [← h.old n hn]
    show (cur.ops ++ [(cur.next, o)]).lookup n = _
    have : (n == cur.next) = false := by
      have := h.next
      simp; omega
    rw [List.lookup_append, List.lookup_cons, this]
    simp
  · have hk := h.kept t s hs hg
    have hto : t ∉ o.outs := by
      intro hto
      rw [h.pend o (by simp) t hto] at hk
      cases hk
    rw [hown, if_neg hto]
    split
    · rw [hownin t s hk]
    · exact hk
  · rw [hreads] at ht
    by_cases hnn : n = cur.next
    · rw [if_pos hnn] at ht
      rw [hown]
      split
      · simp
      · simp [ht]
    · rw [if_neg hnn] at ht
      exact hne t (h.known n hn t ht)
  · have hnone := h.pend o' (by simp [ho']) t ht
    have hnd' := hnd
    rw [List.flatMap_append, List.flatMap_cons, List.nodup_append] at hnd'
    obtain ⟨_, h2, h3⟩ := hnd'
    rw [List.nodup_append] at h2
    have hto : t ∉ o.outs := fun hc => h2.2.2 t hc t (List.mem_flatMap.2 ⟨o', ho', ht⟩) rfl
    have hti : t ∉ o.ins := by
      intro hti
      rcases hins t hti with ⟨o'', ho'', h4⟩ | ⟨h4, _⟩
      · exact h.made o'' ho'' t h4 hnone
      · exact h4 o' (by simp [ho']) ht
    rw [hown, if_neg hto, if_neg hti]
    exact hnone
  · rcases List.mem_append.1 ho' with h1 | h1
    · exact hne t (h.made o' h1 t ht)
    · rw [List.mem_singleton] at h1
      subst h1
      rw [hown, if_pos ht]
      simp
  · show (cur.outNodes ++ (cur.outputs.dedup.filter (· ∈ o.outs)).map fun t => (Name.op cur.next, t)).count (s, t) = _
    rw [List.count_append, h.outN, count_map_outs, hown, h.outs]
    have hcnt : (g.outputs.dedup.filter (· ∈ o.outs)).count t = if t ∈ g.outputs ∧ t ∈ o.outs then 1 else 0 := by
      by_cases hm : t ∈ g.outputs ∧ t ∈ o.outs
      · rw [if_pos hm]
        exact List.count_eq_one_of_mem ((List.nodup_dedup _).filter _) (by simp [hm])
      · rw [if_neg hm]
        exact List.count_eq_zero_of_not_mem (by simpa using hm)
    rw [hcnt]
    by_cases hto : t ∈ o.outs
    · rw [h.pend o (by simp) t hto]
      by_cases hs : s = .op cur.next
      · simp [hto, hs]
      · have : ¬ Name.op cur.next = s := fun hc => hs hc.symm
        simp [hto, hs, this]
    · by_cases hti : t ∈ o.ins
      · cases hc : cur.own t with
        | some s' => simp [hto, hti, hownin t s' hc]
        | none =>
          have : t ∉ g.outputs := fun hm => hr.outputs t hm (hunk t hti hc)
          simp [this, hto]
      · simp [hto, hti]
  · show cur.next + 1 = _
    rw [h.nxt, List.length_append]
    rfl
  · show cur.ops ++ [(cur.next, o)] = _
    rw [h.all, h.nxt, List.zipIdx_append]
    simp
  · rcases Nat.lt_or_ge k done.length with hlt | hge
    · rw [List.getElem?_append_left hlt] at hk
      have hm := h.mine k o' hk t ht
      have hto : t ∉ o.outs := by
        intro hto
        rw [h.pend o (by simp) t hto] at hm
        cases hm
      rw [hown, if_neg hto]
      split
      · rw [hownin t _ hm]
      · exact hm
    · rw [List.getElem?_append_right hge] at hk
      have hz : k - done.length = 0 := by
        by_contra hc
        rw [List.getElem?_eq_none (by simp; omega)] at hk
        cases hk
      rw [hz] at hk
      simp only [List.getElem?_cons_zero, Option.some.injEq] at hk
      subst hk
      rw [hown, if_pos ht, h.nxt]
      congr 2
      omega

theorem adds_inv (hr : Replaces g is) : ∀ (new done rest : List Op) (cur : G), Inv g is cur done (new ++ rest) M → is.flatMap Item.new = done ++ (new ++ rest) →
    (∀ o ∈ new, ∀ t ∈ o.outs, t ∈ M ∨ g.own t = none) → Inv g is (new.foldl addOperator cur) (done ++ new) rest M := by
  intro new
  induction new with
  | nil =>
    intro done rest cur h _ _
    simpa using h
  | cons o new ih =>
    intro done rest cur h hall ho
    have h1 := add_inv (o := o) (todo := new ++ rest) hr h (fun t ht => by
      rcases hr.ins done o (new ++ rest) hall t ht with h1 | ⟨h1, h2⟩
      · exact Or.inl h1
      · refine Or.inr ⟨h1, fun n hn => ?_⟩
        obtain ⟨i, hi, hm⟩ := mem_gone.1 hn
        exact h2 i hi n hm) (ho o (by simp)) (by
        have := hr.once
        rw [hall] at this
        exact this)
    have h2 := ih (done ++ [o]) rest _ h1 (by rw [hall]; simp) fun o' ho' => ho o' (List.mem_cons_of_mem _ ho')
    simpa using h2

theorem restore_eq : ∀ (m : List (ℕ × ℕ)) (g : G), (∀ x ∈ m, x.2 ∈ g.ops.map Prod.fst → g.own x.1 ≠ none) →
    ∃ E, restore g m = some { g with edges := g.edges ++ E } ∧ ∀ s n t, E.count (s, n, t) = if n ∈ g.ops.map Prod.fst ∧ g.own t = some s then m.count (t, n) else 0 := by
  intro m
  induction m with
  | nil => exact fun g _ => ⟨[], by simp [restore], by simp⟩
  | cons x m ih =>
    obtain ⟨t₀, n₀⟩ := x
    intro g h
    by_cases hn : n₀ ∈ g.ops.map Prod.fst
    · obtain ⟨s₀, hs₀⟩ := Option.ne_none_iff_exists'.1 (h (t₀, n₀) (by simp) hn)
      obtain ⟨E, hE, hc⟩ := ih { g with edges := g.edges ++ [(s₀, n₀, t₀)] } fun x hx => h x (List.mem_cons_of_mem _ hx)
      refine ⟨(s₀, n₀, t₀) :: E, ?_, fun s n t => ?_⟩
      · rw [restore, if_pos hn, hs₀]
        simp only
        rw [hE]
        simp
      · rw [List.count_cons, hc, List.count_cons]
        by_cases hx : (t₀, n₀) = (t, n)
        · cases hx
          by_cases hs : s₀ = s
          · simp [hn, hs₀, hs]
          · simp [hs₀, hs]
        · have h1 : ((t₀, n₀) == (t, n)) = false := by simpa using hx
          have h2 : ((s₀, n₀, t₀) == (s, n, t)) = false := by
            simp only [beq_eq_false_iff_ne, ne_eq, Prod.mk.injEq] at hx ⊢
            tauto
          simp [h1, h2]
    · obtain ⟨E, hE, hc⟩ := ih g fun x hx => h x (List.mem_cons_of_mem _ hx)
      refine ⟨E, by rw [restore, if_neg hn, hE], fun s n t => ?_⟩
      rw [hc, List.count_cons]
      by_cases hx : (t₀, n₀) = (t, n)
      · cases hx
        simp [hn]
      · have h1 : ((t₀, n₀) == (t, n)) = false := by simpa using hx
        simp [h1]

theorem mapping_count (g : G) (i : Item) (t n : ℕ) : (mapping g i).count (t, n) = g.edges.count (.op i.main, n, t) := by
  unfold mapping
  induction g.edges with
  | nil => rfl
  | cons e l ih =>
    obtain ⟨s, n', t'⟩ := e
    rw [List.filter_cons, List.count_cons]
    by_cases hs : s = .op i.main
    · subst hs
      simp only [decide_true, if_true, List.map_cons, List.count_cons, ih]
      congr 1
      by_cases h1 : n' = n <;> by_cases h2 : t' = t <;> simp [h1, h2]
    · simp [hs, ih]

theorem gone_op (hr : Replaces g is) {n : ℕ} (h : n ∈ gone is) : ∃ o, g.ops.lookup n = some o ∧ (n, o) ∈ g.ops := by
  obtain ⟨i, hi, hn⟩ := mem_gone.1 h
  obtain ⟨o, ho⟩ := lookup_mem (hr.present i hi n hn)
  exact ⟨o, ho, lookup_some ho⟩

theorem own_writes (hr : Replaces g is) {n t : ℕ} (h : n ∈ gone is) : g.own t = some (.op n) ↔ t ∈ writes g n := by
  obtain ⟨o, ho, hm⟩ := gone_op hr h
  rw [hr.own _ hm]
  simp [writes, ho]

theorem remove_inv (hr : Replaces g is) : Inv g is (remove g is) [] (is.flatMap Item.new) [] := by
  have hmain : ∀ i ∈ is, i.main ∈ gone is := fun i hi => mem_gone.2 ⟨i, hi, by simp⟩
  have hlook : ∀ n, (remove g is).ops.lookup n = if n ∈ gone is then none else g.ops.lookup n := by
    intro n
    refine (lookup_filter (fun n => decide (n ∉ gone is)) g.ops n).trans ?_
    by_cases hn : n ∈ gone is <;> simp [hn]
  have hreads : ∀ n, reads (remove g is) n = if n ∈ gone is then [] else reads g n := by
    intro n
    unfold reads
    rw [hlook]
    by_cases hn : n ∈ gone is <;> simp [hn]
  have hown : ∀ t, (remove g is).own t = if t ∈ is.flatMap (fun i => writes g i.main) then none else g.own t := fun _ => rfl
  have hmw : ∀ t, t ∈ is.flatMap (fun i => writes g i.main) → ∃ i ∈ is, t ∈ writes g i.main ∧ g.own t = some (.op i.main) := by
    intro t ht
    obtain ⟨i, hi, ht⟩ := List.mem_flatMap.1 ht
    exact ⟨i, hi, ht, (own_writes hr (hmain i hi)).2 ht⟩
  -- tensors of removed operators that are still known are not read
  have hal : ∀ t n, n ∈ gone is → g.own t = some (.op n) → t ∉ is.flatMap (fun i => writes g i.main) → (∀ k, k ∉ gone is → t ∉ reads g k) ∧ t ∉ g.outputs := by
    intro t n hn ho hm
    obtain ⟨i, hi, hni⟩ := mem_gone.1 hn
    have hw := (own_writes hr hn).1 ho
    rcases List.mem_cons.1 hni with rfl | hni
    · exact absurd (List.mem_flatMap.2 ⟨i, hi, hw⟩) hm
    · obtain ⟨h1, h2⟩ := hr.only i hi n hni t hw
      refine ⟨fun k hk hc => ?_, h2⟩
      unfold reads at hc
      cases hl : g.ops.lookup k with
      | none => rw [hl] at hc; cases hc
      | some o =>
        rw [hl] at hc
        obtain ⟨j, hj, hjm⟩ := h1 _ (lookup_some hl) hc
        exact hk (mem_gone.2 ⟨j, hj, hjm⟩)
  refine ⟨fun s n t => ?_, fun n hn => ?_, le_refl _, fun n _ => hlook n, fun t s hs hg => ?_, fun n hn t ht => ?_, fun o ho t ht => ?_, fun o ho => (by cases ho), rfl, fun s t => ?_, rfl,
    (by simp [remove, gone]), fun k o hk => (by simp at hk)⟩
  · have hc : (remove g is).edges.count (s, n, t) = if (∀ d ∈ gone is, s ≠ .op d) ∧ n ∉ gone is then g.edges.count (s, n, t) else 0 := by
      show (g.edges.filter fun e => (∀ d ∈ gone is, e.1 ≠ .op d) ∧ e.2.1 ∉ gone is).count (s, n, t) = _
      by_cases hp : (∀ d ∈ gone is, s ≠ .op d) ∧ n ∉ gone is
      · rw [if_pos hp, List.count_filter (by simpa using hp)]
      · rw [if_neg hp]
        exact List.count_eq_zero_of_not_mem fun hm => hp (by simpa using (List.mem_filter.1 hm).2)
    rw [hc, hr.connected.1, hreads, hown]
    simp only [List.not_mem_nil, false_and, not_false_eq_true, and_true]
    by_cases hn : n ∈ gone is
    · simp [hn]
    · simp only [hn, not_false_eq_true, and_true, if_false]
      by_cases hm : t ∈ is.flatMap (fun i => writes g i.main)
      · obtain ⟨i, hi, _, ho⟩ := hmw t hm
        rw [if_pos hm, ho]
        by_cases hs : s = .op i.main
        · subst hs
          rw [if_neg fun hc => hc _ (hmain i hi) rfl]
          simp
        · have : ¬ some (Name.op i.main) = some s := fun hc => hs (by cases hc; rfl)
          simp [this]
      · rw [if_neg hm]
        by_cases hs : ∀ d ∈ gone is, s ≠ .op d
        · rw [if_pos hs]
        · rw [if_neg hs]
          push Not at hs
          obtain ⟨d, hd, rfl⟩ := hs
          by_cases ho : g.own t = some (.op d)
          · rw [if_pos ho, List.count_eq_zero_of_not_mem ((hal t d hd ho hm).1 n hn)]
          · rw [if_neg ho]
  · have : n ∈ g.ops.map Prod.fst := by
      obtain ⟨v, hv, rfl⟩ := List.mem_map.1 hn
      exact List.mem_map.2 ⟨v, (List.mem_filter.1 hv).1, rfl⟩
    obtain ⟨v, hv, rfl⟩ := List.mem_map.1 this
    exact hr.lt v hv
  · rw [hown, if_neg]
    · exact hs
    · intro hm
      obtain ⟨i, hi, _, ho⟩ := hmw t hm
      rw [hs] at ho
      cases ho
      exact hg _ (hmain i hi) rfl
  · rw [hreads] at ht
    have : reads g n = [] := by
      unfold reads
      rw [lookup_none]
      intro hm
      obtain ⟨v, hv, rfl⟩ := List.mem_map.1 hm
      have := hr.lt v hv
      omega
    rw [this, ite_self] at ht
    cases ht
  · obtain ⟨i, hi, ho⟩ := List.mem_flatMap.1 ho
    rw [hown]
    rcases hr.outs i hi o ho t ht with h1 | h1
    · rw [if_pos (List.mem_flatMap.2 ⟨i, hi, h1⟩)]
    · split
      · rfl
      · exact h1
  · have hc : (remove g is).outNodes.count (s, t) = if ∀ i ∈ is, s ≠ .op i.main then g.outNodes.count (s, t) else 0 := by
      show (g.outNodes.filter fun e => ∀ i ∈ is, e.1 ≠ .op i.main).count (s, t) = _
      by_cases hp : ∀ i ∈ is, s ≠ .op i.main
      · rw [if_pos hp, List.count_filter (by simpa using hp)]
      · rw [if_neg hp]
        exact List.count_eq_zero_of_not_mem fun hm => hp (by simpa using (List.mem_filter.1 hm).2)
    rw [hc, hr.connected.2, hown]
    by_cases hm : t ∈ is.flatMap (fun i => writes g i.main)
    · obtain ⟨i, hi, _, ho⟩ := hmw t hm
      rw [if_pos hm, ho]
      by_cases hs : s = .op i.main
      · subst hs
        rw [if_neg fun hc => hc i hi rfl]
        simp
      · have : ¬ some (Name.op i.main) = some s := fun hc => hs (by cases hc; rfl)
        simp [this]
    · rw [if_neg hm]
      by_cases hs : ∀ i ∈ is, s ≠ .op i.main
      · rw [if_pos hs]
      · rw [if_neg hs]
        push Not at hs
        obtain ⟨i, hi, rfl⟩ := hs
        have : ¬ g.own t = some (.op i.main) := fun ho => hm (List.mem_flatMap.2 ⟨i, hi, (own_writes hr (hmain i hi)).1 ho⟩)
        simp [this]

theorem build_inv (hr : Replaces g is) {i : Item} (hi : i ∈ is) {rest : List Op} (h : Inv g is cur done (i.new ++ rest) []) (hall : is.flatMap Item.new = done ++ (i.new ++ rest)) :
    ∃ cur', build cur i.new (mapping g i) = some cur' ∧ Inv g is cur' (done ++ i.new) rest [] := by
  have hmain : i.main ∈ gone is := mem_gone.2 ⟨i, hi, by simp⟩
  have hM : Inv g is cur done (i.new ++ rest) (writes g i.main) := by
    refine { h with edges := fun s n t => ?_ }
    rw [h.edges]
    by_cases ht : t ∈ writes g i.main
    · obtain ⟨o, ho, hto⟩ := hr.made i hi t ht
      rw [h.pend o (by simp [ho]) t hto]
      simp
    · simp [ht]
  have h1 := adds_inv hr i.new done rest cur hM hall (hr.outs i hi)
  have hmc : ∀ t n, (mapping g i).count (t, n) = if t ∈ writes g i.main then (reads g n).count t else 0 := by
    intro t n
    rw [mapping_count, hr.connected.1]
    simp only [own_writes hr hmain]
  obtain ⟨E, hE, hc⟩ := restore_eq (mapping g i) (i.new.foldl addOperator cur) fun x hx _ => by
    have : 0 < (mapping g i).count (x.1, x.2) := List.count_pos_iff.2 hx
    rw [hmc] at this
    split at this
    · rename_i ht
      obtain ⟨o, ho, hto⟩ := hr.made i hi x.1 ht
      exact h1.made o (by simp [ho]) x.1 hto
    · omega
  refine ⟨_, hE, { h1 with edges := fun s n t => ?_ }⟩
  show ((i.new.foldl addOperator cur).edges ++ E).count (s, n, t) = if (i.new.foldl addOperator cur).own t = some s ∧ ¬ (t ∈ ([] : List ℕ) ∧ n < g.next) then (reads (i.new.foldl addOperator cur) n).count t else 0
  rw [List.count_append, h1.edges, hc, hmc]
  by_cases ho : (i.new.foldl addOperator cur).own t = some s
  · by_cases ht : t ∈ writes g i.main
    · by_cases hn : n < g.next
      · by_cases hnn : n ∈ (i.new.foldl addOperator cur).ops.map Prod.fst
        · have hrd : reads (i.new.foldl addOperator cur) n = reads g n := by
            obtain ⟨o, hl⟩ := lookup_mem hnn
            unfold reads
            have h2 := h1.old n hn
            by_cases hg : n ∈ gone is
            · rw [if_pos hg, hl] at h2
              cases h2
            · rw [if_neg hg] at h2
              rw [h2]
          simp [ho, ht, hn, hnn, hrd]
        · have hrd : reads (i.new.foldl addOperator cur) n = [] := by
            unfold reads
            rw [lookup_none hnn]
          simp [ho, ht, hn, hnn, hrd]
      · have hrd : reads g n = [] := by
          unfold reads
          rw [lookup_none]
          intro hm
          obtain ⟨v, hv, rfl⟩ := List.mem_map.1 hm
          exact hn (hr.lt v hv)
        simp [ho, hn, hrd]
    · simp [ho, ht]
  · simp [ho]

theorem builds_inv (hr : Replaces g is) : ∀ (js : List Item) (done : List Op) (cur : G), (∀ i ∈ js, i ∈ is) → Inv g is cur done (js.flatMap Item.new) [] →
    is.flatMap Item.new = done ++ js.flatMap Item.new → ∃ cur', builds cur ((js.map Item.new).zip (js.map (mapping g))) = some cur' ∧ Inv g is cur' (is.flatMap Item.new) [] [] := by
  intro js
  induction js with
  | nil =>
    intro done cur _ h hall
    exact ⟨cur, rfl, by rw [hall]; simpa using h⟩
  | cons i js ih =>
    intro done cur hjs h hall
    rw [List.flatMap_cons] at h hall
    obtain ⟨c1, h1, h2⟩ := build_inv hr (hjs i (by simp)) h hall
    obtain ⟨c2, h3, h4⟩ := ih (done ++ i.new) c1 (fun j hj => hjs j (List.mem_cons_of_mem _ hj)) h2 (by rw [hall]; simp)
    refine ⟨c2, ?_, h4⟩
    simp only [List.map_cons, List.zip_cons_cons, builds, h1, Option.bind_some]
    exact h3

end Rebuild

open Rebuild

/-- C111, in part: if the operators were selected in the order of their numbers and that is an order in which they can be computed, replacing them works: the new graph has the operators that were not
replaced and then the new ones, each tensor has the producer it had or the new operator that writes it, and the connections say what is read.  Missing: other orders (`C111_order_false`,
`C111_select_false`) and `split_requantize` (`C111_requantize_false`). -/
theorem C111_partial (g : G) (is : List Item) (hr : Replaces g is) (hs : is.Pairwise fun a b => a.main ≤ b.main) :
    ∃ g', rebuild g is = some g' ∧ Connected g' ∧
      g'.ops = (g.ops.filter fun v => ¬ ∃ i ∈ is, v.1 ∈ i.main :: i.also) ++ (is.flatMap Item.new).zipIdx.map (fun x => (g.next + x.2, x.1)) ∧
      (∀ t s, g.own t = some s → (∀ i ∈ is, ∀ n ∈ i.main :: i.also, s ≠ .op n) → g'.own t = some s) ∧
      (∀ k o, (is.flatMap Item.new)[k]? = some o → ∀ t ∈ o.outs, g'.own t = some (.op (g.next + k))) ∧ g'.outputs = g.outputs := by
  have hsort : is.insertionSort (fun a b => a.main ≤ b.main) = is := hs.insertionSort_eq
  obtain ⟨g', h1, h2⟩ := builds_inv hr is [] (remove g is) (fun _ h => h) (remove_inv hr) rfl
  refine ⟨g', ?_, ⟨fun s n t => ?_, fun s t => ?_⟩, ?_, fun t s hts hg => ?_, h2.mine, h2.outs⟩
  · rw [rebuild, hsort]
    exact h1
  · simpa using h2.edges s n t
  · rw [h2.outs]
    exact h2.outN s t
  · rw [h2.all]
    congr 1
    refine List.filter_congr fun v _ => ?_
    simp only [mem_gone]
  · refine h2.kept t s hts fun n hn => ?_
    obtain ⟨i, hi, hm⟩ := mem_gone.1 hn
    exact hg i hi n hm

/-- A single `split_requantize` is like the other passes. -/
theorem C111_requantize_one (g : G) (i : Item) : rebuildMore g [i] = rebuild g [i] := by
  simp [rebuildMore, rebuild, List.range_succ]

namespace Rebuild

/-- The graph with given operators: connections as they are read. -/
def plain (ops : List (ℕ × Op)) (own : ℕ → Option Name) (next : ℕ) (outputs : List ℕ) : G where
  ops := ops
  edges := ops.flatMap fun v => v.2.ins.map fun t => ((own t).getD (.leaf t), v.1, t)
  outNodes := outputs.map fun t => ((own t).getD (.leaf t), t)
  own := own
  next := next
  outputs := outputs

theorem plain_edges (own : ℕ → Option Name) (s : Name) (n t : ℕ) : ∀ ops : List (ℕ × Op), (ops.map Prod.fst).Nodup → (∀ v ∈ ops, ∀ t ∈ v.2.ins, own t ≠ none) →
    (ops.flatMap fun v => v.2.ins.map fun t => ((own t).getD (.leaf t), v.1, t)).count (s, n, t) =
      if own t = some s then (match ops.lookup n with | some o => o.ins | none => []).count t else 0
  | [], _, _ => by simp
  | (k, o) :: ops, hn, hk => by
    simp only [List.map_cons, List.nodup_cons] at hn
    have ih := plain_edges own s n t ops hn.2 fun v hv => hk v (List.mem_cons_of_mem _ hv)
    rw [List.flatMap_cons, List.count_append, ih, count_map_ins, List.lookup_cons]
    by_cases he : n = k
    · subst he
      rw [lookup_none hn.1]
      by_cases ht : t ∈ o.ins
      · obtain ⟨s', hs⟩ := Option.ne_none_iff_exists'.1 (hk (n, o) (by simp) t ht)
        simp [hs]
      · simp [List.count_eq_zero_of_not_mem ht]
    · have : (n == k) = false := by simpa using he
      rw [this]
      simp [he]

theorem plain_outs (own : ℕ → Option Name) (s : Name) (t : ℕ) : ∀ l : List ℕ, l.Nodup → (∀ t ∈ l, own t ≠ none) →
    (l.map fun t => ((own t).getD (.leaf t), t)).count (s, t) = if own t = some s ∧ t ∈ l then 1 else 0
  | [], _, _ => by simp
  | a :: l, hn, hk => by
    rw [List.nodup_cons] at hn
    rw [List.map_cons, List.count_cons, plain_outs own s t l hn.2 fun v hv => hk v (List.mem_cons_of_mem _ hv)]
    by_cases ha : a = t
    · subst ha
      obtain ⟨s', hs⟩ := Option.ne_none_iff_exists'.1 (hk a (by simp))
      by_cases he : s' = s <;> simp [hs, hn.1, he]
    · have : ¬ t = a := fun h => ha h.symm
      simp [ha, this]

theorem plain_connected {ops : List (ℕ × Op)} {own : ℕ → Option Name} {next : ℕ} {outputs : List ℕ} (h1 : (ops.map Prod.fst).Nodup) (h2 : ∀ v ∈ ops, ∀ t ∈ v.2.ins, own t ≠ none)
    (h3 : outputs.Nodup) (h4 : ∀ t ∈ outputs, own t ≠ none) : Connected (plain ops own next outputs) :=
  ⟨fun s n t => plain_edges own s n t ops h1 h2, fun s t => plain_outs own s t outputs h3 h4⟩

/-- The producer of each tensor, when `leaves` are the inputs and constants. -/
def producer (ops : List (ℕ × Op)) (leaves : List ℕ) (t : ℕ) : Option Name := match ops.find? fun v => t ∈ v.2.outs with
  | some v => some (.op v.1)
  | none => if t ∈ leaves then some (.leaf t) else none

theorem producer_iff (leaves : List ℕ) : ∀ ops : List (ℕ × Op), (ops.map Prod.fst).Nodup → (ops.flatMap fun v => v.2.outs).Nodup →
    ∀ v ∈ ops, ∀ t, producer ops leaves t = some (.op v.1) ↔ t ∈ v.2.outs := by
  intro ops h1 h2 v hv t
  unfold producer
  constructor
  · intro h
    cases hf : ops.find? fun v => t ∈ v.2.outs with
    | none =>
      rw [hf] at h
      simp only at h
      split at h <;> cases h
    | some w =>
      rw [hf] at h
      simp only [Option.some.injEq, Name.op.injEq] at h
      have hw := List.mem_of_find?_eq_some hf
      have ht : t ∈ w.2.outs := by simpa using List.find?_some hf
      have : w = v := List.inj_on_of_nodup_map h1 hw hv h
      rwa [this] at ht
  · intro ht
    cases hf : ops.find? fun v => t ∈ v.2.outs with
    | none =>
      have := List.find?_eq_none.1 hf v hv
      simp [ht] at this
    | some w =>
      have hw := List.mem_of_find?_eq_some hf
      have hwt : t ∈ w.2.outs := by simpa using List.find?_some hf
      have : w = v := by
        by_contra hne
        rw [List.nodup_flatMap] at h2
        have : ∀ l : List (ℕ × Op), l.Pairwise (Function.onFun List.Disjoint fun v => v.2.outs) → ∀ a ∈ l, ∀ b ∈ l, a ≠ b → List.Disjoint a.2.outs b.2.outs := by
          intro l hl
          induction hl with
          | nil => intro a ha; cases ha
          | cons h _ ih =>
            intro a ha b hb hab
            rcases List.mem_cons.1 ha with rfl | ha' <;> rcases List.mem_cons.1 hb with rfl | hb'
            · exact absurd rfl hab
            · exact h b hb'
            · exact (h a ha').symm
            · exact ih a ha' b hb' hab
        exact this ops h2.2 w hw v hv hne hwt ht
      rw [this]

/-- A graph from its operators. -/
def graph (ops : List (ℕ × Op)) (leaves : List ℕ) (next : ℕ) (outputs : List ℕ) : G := plain ops (producer ops leaves) next outputs

theorem graph_selects {ops : List (ℕ × Op)} {leaves : List ℕ} {next : ℕ} {outputs : List ℕ} {is : List Item} (h1 : (ops.map Prod.fst).Nodup)
    (h2 : ∀ v ∈ ops, ∀ t ∈ v.2.ins, producer ops leaves t ≠ none) (h3 : outputs.Nodup) (h4 : ∀ t ∈ outputs, producer ops leaves t ≠ none)
    (h5 : (ops.flatMap fun v => v.2.outs).Nodup) (h6 : ∀ v ∈ ops, v.1 < next)
    (h7 : ∀ i ∈ is, ∀ n ∈ i.main :: i.also, n ∈ ops.map Prod.fst)
    (h8 : ∀ i ∈ is, ∀ a ∈ i.also, ∀ t ∈ writes (graph ops leaves next outputs) a, (∀ v ∈ ops, t ∈ v.2.ins → ∃ j ∈ is, v.1 ∈ j.main :: j.also) ∧ t ∉ outputs)
    (h9 : ∀ i ∈ is, ∀ t ∈ writes (graph ops leaves next outputs) i.main, ∃ o ∈ i.new, t ∈ o.outs)
    (h10 : ((is.flatMap Item.new).flatMap Op.outs).Nodup)
    (h11 : ∀ i ∈ is, ∀ o ∈ i.new, ∀ t ∈ o.outs, t ∈ writes (graph ops leaves next outputs) i.main ∨ producer ops leaves t = none) :
    Selects (graph ops leaves next outputs) is :=
  ⟨plain_connected h1 h2 h3 h4, h1, h6, producer_iff leaves ops h1 h5, h2, h4, h7, h8, h9, h10, h11⟩

/-- A product and a sum that become one operator after another; two readers of the sum; another replaced operator that reads the result. -/
def ops₁ : List (ℕ × Op) := [(0, ⟨[0], [10]⟩), (1, ⟨[10, 2], [11]⟩), (2, ⟨[11, 1], [12]⟩), (3, ⟨[12, 12], [13]⟩), (4, ⟨[13, 12], [14]⟩)]

def items₁ : List Item := [⟨2, [1], [⟨[2], [20]⟩, ⟨[10, 20, 1], [12]⟩]⟩, ⟨4, [], [⟨[13, 12], [14]⟩]⟩]

theorem replaces₁ : Replaces (graph ops₁ [0, 1, 2] 5 [14, 12]) items₁ := by
  refine ⟨graph_selects ?_ ?_ ?_ ?_ ?_ ?_ ?_ ?_ ?_ ?_ ?_, ?_⟩
  any_goals decide +kernel
  intro l₁ o l₂ h
  change [(⟨[2], [20]⟩ : Op), ⟨[10, 20, 1], [12]⟩, ⟨[13, 12], [14]⟩] = _ at h
  rcases l₁ with _ | ⟨a, _ | ⟨b, _ | ⟨c, l⟩⟩⟩
  · simp only [List.nil_append, List.cons.injEq] at h
    obtain ⟨rfl, rfl⟩ := h
    decide +kernel
  · simp only [List.cons_append, List.nil_append, List.cons.injEq] at h
    obtain ⟨rfl, rfl, rfl⟩ := h
    decide +kernel
  · simp only [List.cons_append, List.nil_append, List.cons.injEq] at h
    obtain ⟨rfl, rfl, rfl, rfl⟩ := h
    decide +kernel
  · simp at h

end Rebuild

/-- The hypotheses of `C111_partial` hold of a graph with two replacements, one of a product and a sum. -/
example : ∃ g, rebuild (graph ops₁ [0, 1, 2] 5 [14, 12]) items₁ = some g ∧ Connected g := by
  obtain ⟨g, h1, h2, _⟩ := C111_partial _ _ replaces₁ (by decide +kernel)
  exact ⟨g, h1, h2⟩

/-- One connection decides that a graph is not connected. -/
theorem Rebuild.not_connected {x : Option G} {P : G → Prop} [DecidablePred P] (s : Name) (n t : ℕ)
    (h : (x.any fun g => decide (g.edges.count (s, n, t) ≠ (if g.own t = some s then (reads g n).count t else 0) ∧ P g)) = true) : ∃ g', x = some g' ∧ ¬ Connected g' ∧ P g' := by
  cases x with
  | none => cases h
  | some g =>
    simp only [Option.any_some, decide_eq_true_eq] at h
    exact ⟨g, rfl, fun hc => h.1 (hc.1 s n t), h.2⟩

/-- The order of the numbers need not be an order of computation (`cat_split_pass`, when an earlier pass made the concatenation whose result a large concatenation reads): the first replacement takes
the result of the second for a constant. -/
theorem C111_order_false : ∃ (g : G) (is : List Item) (rank : ℕ → ℕ), Selects g is ∧ (is.Pairwise fun a b => a.main ≤ b.main) ∧
    (∀ v ∈ g.ops, ∀ t ∈ v.2.ins, ∀ u ∈ v.2.outs, rank t < rank u) ∧ (∀ i ∈ is, ∀ o ∈ i.new, ∀ t ∈ o.ins, ∀ u ∈ o.outs, rank t < rank u) ∧
    ∃ g', rebuild g is = some g' ∧ ¬ Connected g' := by
  refine ⟨graph [(2, ⟨[15, 0], [12]⟩), (5, ⟨[0], [15]⟩)] [0] 6 [12], [⟨2, [], [⟨[15, 0], [12]⟩]⟩, ⟨5, [], [⟨[0], [15]⟩]⟩],
    fun t => if t = 12 then 2 else if t = 15 then 1 else 0, graph_selects ?_ ?_ ?_ ?_ ?_ ?_ ?_ ?_ ?_ ?_ ?_, ?_, ?_, ?_, ?_⟩
  any_goals decide +kernel
  obtain ⟨g', h1, h2, _⟩ := Rebuild.not_connected (x := rebuild (graph [(2, ⟨[15, 0], [12]⟩), (5, ⟨[0], [15]⟩)] [0] 6 [12]) [⟨2, [], [⟨[15, 0], [12]⟩]⟩, ⟨5, [], [⟨[0], [15]⟩]⟩]) (P := fun _ => True)
    (.leaf 15) 6 15 (by decide +kernel)
  exact ⟨g', h1, h2⟩

/-- If the operators were not selected in the order of their numbers (`fuse_bmm_add_pass` selects connections, and those of an operator are made again when what is between is removed), connections
are restored with the wrong replacement: the conversion fails. -/
theorem C111_select_false : ∃ (g : G) (is : List Item), Replaces g is ∧ rebuild g is = none := by
  refine ⟨graph [(2, ⟨[0], [12]⟩), (3, ⟨[12], [13]⟩), (4, ⟨[13], [14]⟩), (5, ⟨[14], [15]⟩)] [0] 6 [15], [⟨4, [], [⟨[13], [14]⟩]⟩, ⟨2, [], [⟨[0], [12]⟩]⟩],
    ⟨graph_selects ?_ ?_ ?_ ?_ ?_ ?_ ?_ ?_ ?_ ?_ ?_, ?_⟩, Option.isNone_iff_eq_none.1 ?_⟩
  any_goals decide +kernel
  intro l₁ o l₂ h
  change [(⟨[13], [14]⟩ : Op), ⟨[0], [12]⟩] = _ at h
  rcases l₁ with _ | ⟨a, _ | ⟨b, l⟩⟩
  · simp only [List.nil_append, List.cons.injEq] at h
    obtain ⟨rfl, rfl⟩ := h
    decide +kernel
  · simp only [List.cons_append, List.nil_append, List.cons.injEq] at h
    obtain ⟨rfl, rfl, rfl⟩ := h
    decide +kernel
  · simp at h

/-- With two operators `split_requantize` adds the replacement of the first twice: two operators write one tensor and the connections are wrong. -/
theorem C111_requantize_false : ∃ (g : G) (is : List Item), Replaces g is ∧ (is.Pairwise fun a b => a.main ≤ b.main) ∧
    ∃ g', rebuildMore g is = some g' ∧ ¬ Connected g' ∧ ∃ v ∈ g'.ops, ∃ w ∈ g'.ops, v.1 ≠ w.1 ∧ ∃ t, t ∈ v.2.outs ∧ t ∈ w.2.outs := by
  refine ⟨graph [(1, ⟨[0], [11]⟩), (2, ⟨[0], [12]⟩), (3, ⟨[11, 12], [13]⟩)] [0] 4 [13], [⟨1, [], [⟨[0], [21]⟩, ⟨[21], [11]⟩]⟩, ⟨2, [], [⟨[0], [22]⟩, ⟨[22], [12]⟩]⟩],
    ⟨graph_selects ?_ ?_ ?_ ?_ ?_ ?_ ?_ ?_ ?_ ?_ ?_, ?_⟩, ?_, ?_⟩
  any_goals decide +kernel
  · intro l₁ o l₂ h
    change [(⟨[0], [21]⟩ : Op), ⟨[21], [11]⟩, ⟨[0], [22]⟩, ⟨[22], [12]⟩] = _ at h
    rcases l₁ with _ | ⟨a, _ | ⟨b, _ | ⟨c, _ | ⟨d, l⟩⟩⟩⟩
    · simp only [List.nil_append, List.cons.injEq] at h
      obtain ⟨rfl, rfl⟩ := h
      decide +kernel
    · simp only [List.cons_append, List.nil_append, List.cons.injEq] at h
      obtain ⟨rfl, rfl, rfl⟩ := h
      decide +kernel
    · simp only [List.cons_append, List.nil_append, List.cons.injEq] at h
      obtain ⟨rfl, rfl, rfl, rfl⟩ := h
      decide +kernel
    · simp only [List.cons_append, List.nil_append, List.cons.injEq] at h
      obtain ⟨rfl, rfl, rfl, rfl, rfl⟩ := h
      decide +kernel
    · simp at h
  · obtain ⟨g', h1, h2, h3, h4⟩ := Rebuild.not_connected (x := rebuildMore (graph [(1, ⟨[0], [11]⟩), (2, ⟨[0], [12]⟩), (3, ⟨[11, 12], [13]⟩)] [0] 4 [13])
      [⟨1, [], [⟨[0], [21]⟩, ⟨[21], [11]⟩]⟩, ⟨2, [], [⟨[0], [22]⟩, ⟨[22], [12]⟩]⟩]) (P := fun g' => (5, ⟨[21], [11]⟩) ∈ g'.ops ∧ (7, ⟨[21], [11]⟩) ∈ g'.ops) (.op 5) 3 11 (by decide +kernel)
    exact ⟨g', h1, h2, _, h3, _, h4, by decide, 11, by simp, by simp⟩

end Verif.Props
