import Verif.Props.InPlace

/-!
C82, with elimination of dead code: what is dropped does not matter as long as no operation in place is dropped.
-/

namespace Verif.Props
open Verif.Model.InPlace Verif.Spec.InPlace

variable {F V : Type}

/-- Does the line write or rebind? -/
def inPlace : Line F V → Bool
  | .rebind _ _ _ | .meth _ _ _ => true
  | _ => false

/-- The nodes the outputs depend on: outputs, and what is read by a line they depend on; line `i` defines node `first + i`. -/
inductive NeededBy (first : ℕ) (ls : List (Line F V)) (outs : List ℕ) : ℕ → Prop
  | out {k : ℕ} (h : k ∈ outs) : NeededBy first ls outs k
  | read {i : ℕ} {l : Line F V} {k : ℕ} (hl : ls[i]? = some l) (h : NeededBy first ls outs (first + i)) (hk : k ∈ l.reads) (hlt : k < first + i) : NeededBy first ls outs k

theorem live_cons (outs : List ℕ) (n : ℕ) (l : Line F V) (ls : List (Line F V)) :
    live outs n (l :: ls) = if n ∈ (live outs (n + 1) ls).2 then (some l :: (live outs (n + 1) ls).1, l.reads ++ (live outs (n + 1) ls).2)
      else (none :: (live outs (n + 1) ls).1, (live outs (n + 1) ls).2) := by
  conv_lhs => unfold live
  simp only [List.contains_iff_mem]

theorem live_mono (outs : List ℕ) (first : ℕ) (ls : List (Line F V)) (j i : ℕ) (hji : j ≤ i) (k : ℕ) (hk : k ∈ (live outs (first + i) (ls.drop i)).2) :
    k ∈ (live outs (first + j) (ls.drop j)).2 := by
  induction hji using Nat.decreasingInduction with
  | self => exact hk
  | of_succ j hj ih =>
    cases h : ls.drop j with
    | nil =>
      have : ls.drop (j + 1) = [] := by rw [List.drop_eq_nil_iff] at h ⊢; omega
      rw [this] at ih
      exact ih
    | cons l r =>
      have hr : ls.drop (j + 1) = r := by rw [← List.drop_drop, h]; rfl
      rw [hr] at ih
      rw [live_cons]
      rw [← Nat.add_assoc] at ih
      split
      · exact List.mem_append_right _ ih
      · exact ih

theorem outs_live (outs : List ℕ) (n : ℕ) (ls : List (Line F V)) (k : ℕ) (hk : k ∈ outs) : k ∈ (live outs n ls).2 := by
  induction ls generalizing n with
  | nil => exact hk
  | cons l ls ih =>
    rw [live_cons]
    split
    · exact List.mem_append_right _ (ih _)
    · exact ih _

theorem needed_live {outs : List ℕ} {first : ℕ} {ls : List (Line F V)} {k : ℕ} (h : NeededBy first ls outs k) :
    ∀ j, first + j ≤ k + 1 → k ∈ (live outs (first + j) (ls.drop j)).2 := by
  induction h with
  | out h => exact fun j _ => outs_live outs _ _ _ h
  | @read i l k hl _ hk hlt ih =>
    intro j hj
    refine live_mono outs first ls j i (by omega) k ?_
    have h1 := ih (i + 1) (by omega)
    obtain ⟨hi, hil⟩ := List.getElem?_eq_some_iff.1 hl
    have : ls.drop i = l :: ls.drop (i + 1) := by rw [← hil, List.getElem_cons_drop]
    rw [this, live_cons, if_pos (by rw [Nat.add_assoc]; exact h1)]
    exact List.mem_append_left _ hk

/-! ### The simulation -/

/-- The same part of corresponding storages. -/
def SameRef (φ : List ℕ) (r' r : Ref V) : Prop := φ[r'.storage]? = some r.storage ∧ r'.lens = r.lens

/-- Corresponding entries. -/
def SameEntry (φ : List ℕ) : Entry V → Entry V → Prop
  | .one r', .one r => SameRef φ r' r
  | .many rs', .many rs => rs'.length = rs.length ∧ ∀ (i : ℕ) (r' r : Ref V), rs'[i]? = some r' → rs[i]? = some r → SameRef φ r' r
  | _, _ => False

/-- Storage `s` of the shorter code is storage `φ[s]` of the other; the entries of the needed nodes correspond. -/
structure LiveSim (φ : List ℕ) (need : List ℕ) (g m : State V) : Prop where
  len : φ.length = g.store.length
  nodup : φ.Nodup
  store : ∀ s t : ℕ, φ[s]? = some t → g.store[s]? = m.store[t]?
  bound : ∀ t ∈ φ, t < m.store.length
  env : g.env.length = m.env.length
  entries : ∀ k ∈ need, ∀ e : Entry V, m.env[k]? = some e → ∃ e', g.env[k]? = some e' ∧ SameEntry φ e' e

theorem SameRef.grow {φ : List ℕ} {r' r : Ref V} (h : SameRef φ r' r) (x : ℕ) : SameRef (φ ++ [x]) r' r := by
  refine ⟨?_, h.2⟩
  rw [List.getElem?_append_left (List.getElem?_eq_some_iff.1 h.1).1]
  exact h.1

theorem SameEntry.grow {φ : List ℕ} {e' e : Entry V} (h : SameEntry φ e' e) (x : ℕ) : SameEntry (φ ++ [x]) e' e := by
  cases e' <;> cases e <;> simp only [SameEntry] at h ⊢
  · exact h.grow x
  · exact ⟨h.1, fun i r' r h1 h2 => (h.2 i r' r h1 h2).grow x⟩

theorem LiveSim.lookup {φ need : List ℕ} {g m : State V} (h : LiveSim φ need g m) {n : Name} (hn : n.node ∈ need) {r : Ref V} (hr : lookup m.env n = some r) :
    ∃ r', Model.InPlace.lookup g.env n = some r' ∧ SameRef φ r' r := by
  unfold Model.InPlace.lookup at hr
  split at hr
  · next e he hi =>
    obtain rfl := Option.some.inj hr
    obtain ⟨e', he', hs⟩ := h.entries _ hn _ he
    cases e' with
    | many => simp [SameEntry] at hs
    | one r' => exact ⟨r', by unfold Model.InPlace.lookup; rw [he', hi], hs⟩
  · next rs i he hi =>
    obtain ⟨e', he', hs⟩ := h.entries _ hn _ he
    cases e' with
    | one => simp [SameEntry] at hs
    | many rs' =>
      simp only [SameEntry] at hs
      have hlt := (List.getElem?_eq_some_iff.1 hr).1
      have h' : rs'[i]? = some (rs'[i]'(by omega)) := List.getElem?_eq_getElem _
      exact ⟨_, by unfold Model.InPlace.lookup; rw [he', hi]; exact h', hs.2 i _ _ h' hr⟩
  · simp at hr

theorem LiveSim.value {φ need : List ℕ} {g m : State V} (h : LiveSim φ need g m) {r' r : Ref V} (hr : SameRef φ r' r) : value g.store r' = value m.store r := by
  unfold Spec.InPlace.value
  rw [h.store _ _ hr.1, hr.2]

theorem LiveSim.values {φ need : List ℕ} {g m : State V} (h : LiveSim φ need g m) : ∀ (ns : List Name), (∀ n ∈ ns, n.node ∈ need) → ∀ vs, m.values ns = some vs → g.values ns = some vs
  | [], _, vs, hv => hv
  | n :: ns, hn, vs, hv => by
    unfold State.values at hv ⊢
    split at hv
    · simp at hv
    · next r hr =>
      obtain ⟨r', hr', hs⟩ := h.lookup (hn n List.mem_cons_self) hr
      rw [hr']
      simp only
      rw [h.value hs]
      split at hv
      · next v vs' h1 h2 =>
        rw [h1, h.values ns (fun n hn' => hn n (List.mem_cons_of_mem _ hn')) _ h2]
        exact hv
      · simp at hv

theorem LiveSim.fewer {φ need need' : List ℕ} {g m : State V} (h : LiveSim φ need g m) (hs : ∀ k ∈ need', k ∈ need) : LiveSim φ need' g m :=
  ⟨h.len, h.nodup, h.store, h.bound, h.env, fun k hk => h.entries k (hs k hk)⟩

/-- A new entry, nothing stored. -/
theorem LiveSim.bind {φ need : List ℕ} {g m : State V} (h : LiveSim φ need g m) {e' e : Entry V} (he : SameEntry φ e' e) : LiveSim φ need ⟨g.store, g.env ++ [e']⟩ ⟨m.store, m.env ++ [e]⟩ := by
  refine ⟨h.len, h.nodup, h.store, h.bound, by simp [h.env], fun k hk x hx => ?_⟩
  by_cases hlt : k < m.env.length
  · rw [List.getElem?_append_left hlt] at hx
    obtain ⟨e', he', hs⟩ := h.entries k hk x hx
    exact ⟨e', by rw [List.getElem?_append_left (h.env ▸ hlt)]; exact he', hs⟩
  · have hlt2 := (List.getElem?_eq_some_iff.1 hx).1
    simp only [List.length_append, List.length_singleton] at hlt2
    obtain rfl : k = m.env.length := by omega
    rw [List.getElem?_concat_length] at hx
    obtain rfl := Option.some.inj hx
    exact ⟨e', by simp only; rw [← h.env, List.getElem?_concat_length], he⟩

/-- A new storage. -/
theorem LiveSim.alloc {φ need : List ℕ} {g m : State V} (h : LiveSim φ need g m) (v : V) : LiveSim (φ ++ [m.store.length]) need ⟨g.store ++ [v], g.env⟩ ⟨m.store ++ [v], m.env⟩ := by
  refine ⟨by simp [h.len], ?_, ?_, ?_, h.env, fun k hk e he => ?_⟩
  · rw [List.nodup_append]
    refine ⟨h.nodup, by simp, ?_⟩
    intro a ha b hb hab
    rw [List.mem_singleton] at hb
    have := h.bound a ha
    omega
  · intro s t hst
    by_cases hlt : s < φ.length
    · rw [List.getElem?_append_left hlt] at hst
      have hb := h.bound t (List.mem_of_getElem? hst)
      simp only
      rw [List.getElem?_append_left (h.len ▸ hlt), List.getElem?_append_left hb]
      exact h.store s t hst
    · have hlt2 := (List.getElem?_eq_some_iff.1 hst).1
      simp only [List.length_append, List.length_singleton] at hlt2
      obtain rfl : s = φ.length := by omega
      rw [List.getElem?_concat_length] at hst
      obtain rfl := Option.some.inj hst
      simp only
      rw [h.len, List.getElem?_concat_length, List.getElem?_concat_length]
  · intro t ht
    simp only [List.length_append, List.length_singleton]
    rcases List.mem_append.1 ht with ht | ht
    · exact Nat.lt_succ_of_lt (h.bound t ht)
    · rw [List.mem_singleton] at ht; omega
  · obtain ⟨e', he', hs⟩ := h.entries k hk e he
    exact ⟨e', he', hs.grow _⟩

theorem LiveSim.fresh {φ need : List ℕ} {g m : State V} (h : LiveSim φ need g m) : SameRef (V := V) (φ ++ [m.store.length]) ⟨g.store.length, Lens.whole⟩ ⟨m.store.length, Lens.whole⟩ :=
  ⟨by simp only; rw [← h.len, List.getElem?_concat_length], rfl⟩

/-- An entry replaced. -/
theorem LiveSim.put {φ need : List ℕ} {g m : State V} (h : LiveSim φ need g m) (i : ℕ) {e' e : Entry V} (he : SameEntry φ e' e) : LiveSim φ need ⟨g.store, g.env.set i e'⟩ ⟨m.store, m.env.set i e⟩ := by
  refine ⟨h.len, h.nodup, h.store, h.bound, by simp [h.env], fun k hk x hx => ?_⟩
  simp only at hx ⊢
  by_cases hki : i = k
  · subst hki
    have hlt := (List.getElem?_eq_some_iff.1 hx).1
    rw [List.length_set] at hlt
    rw [List.getElem?_set_self hlt] at hx
    obtain rfl := Option.some.inj hx
    exact ⟨e', List.getElem?_set_self (h.env ▸ hlt), he⟩
  · rw [List.getElem?_set_ne hki] at hx ⊢
    exact h.entries k hk x hx

/-- Writing through corresponding tensors. -/
theorem LiveSim.write {φ need : List ℕ} {g m : State V} (h : LiveSim φ need g m) {r' r : Ref V} (hr : SameRef φ r' r) {v : V} {st : List V} (hw : write m.store r v = some st) :
    ∃ st', Spec.InPlace.write g.store r' v = some st' ∧ LiveSim φ need ⟨st', g.env⟩ ⟨st, m.env⟩ := by
  unfold Spec.InPlace.write at hw ⊢
  obtain ⟨w, hw1, rfl⟩ := Option.map_eq_some_iff.1 hw
  rw [h.store _ _ hr.1, hw1]
  refine ⟨_, rfl, by simp [h.len], h.nodup, ?_, by simpa using h.bound, h.env, h.entries⟩
  intro s t hst
  simp only
  have hlt := (List.getElem?_eq_some_iff.1 hw1).1
  have hlt' := (List.getElem?_eq_some_iff.1 hr.1).1
  rw [h.len] at hlt'
  by_cases hs : r'.storage = s
  · subst hs
    have : some t = some r.storage := hst.symm.trans hr.1
    obtain rfl := Option.some.inj this
    rw [List.getElem?_set_self hlt', List.getElem?_set_self hlt, hr.2]
  · have ht : r.storage ≠ t := by
      intro he
      rw [← he, ← hr.1] at hst
      have h1 := (List.getElem?_eq_some_iff.1 hr.1).1
      exact hs ((List.getElem?_inj h1 h.nodup).1 hst.symm)
    rw [List.getElem?_set_ne hs, List.getElem?_set_ne ht]
    exact h.store s t hst

theorem LiveSim.step (sem : F → List V → V) {φ need : List ℕ} {g m m' : State V} (h : LiveSim φ need g m) {l : Line F V} (hl : ∀ k ∈ l.reads, k ∈ need) (hm : step sem m l = some m') :
    ∃ φ' g', Model.InPlace.step sem g l = some g' ∧ LiveSim φ' need g' m' := by
  cases l with
  | call f args =>
    simp only [Line.reads, List.mem_map, forall_exists_index, and_imp, forall_apply_eq_imp_iff₂] at hl
    unfold Model.InPlace.step at hm ⊢
    obtain ⟨vs, hv, rfl⟩ := Option.map_eq_some_iff.1 hm
    simp only [h.values args hl vs hv, Option.map_some]
    exact ⟨_, _, rfl, (h.alloc (sem f vs)).bind h.fresh⟩
  | view l a =>
    simp only [Line.reads, List.mem_singleton, forall_eq] at hl
    unfold Model.InPlace.step at hm ⊢
    obtain ⟨r, hr, rfl⟩ := Option.map_eq_some_iff.1 hm
    obtain ⟨r', hr', hs⟩ := h.lookup hl hr
    simp only [hr', Option.map_some]
    exact ⟨φ, _, rfl, h.bind ⟨hs.1, by simp only; rw [hs.2]⟩⟩
  | split ls a =>
    simp only [Line.reads, List.mem_singleton, forall_eq] at hl
    unfold Model.InPlace.step at hm ⊢
    obtain ⟨r, hr, rfl⟩ := Option.map_eq_some_iff.1 hm
    obtain ⟨r', hr', hs⟩ := h.lookup hl hr
    simp only [hr', Option.map_some]
    refine ⟨φ, _, rfl, h.bind ⟨by simp, fun i x' x hx' hx => ?_⟩⟩
    rw [List.getElem?_map] at hx hx'
    obtain ⟨k, hk, rfl⟩ := Option.map_eq_some_iff.1 hx
    rw [hk] at hx'
    obtain rfl := Option.some.inj hx'
    exact ⟨hs.1, by simp only; rw [hs.2]⟩
  | rebind f a args =>
    simp only [Line.reads, List.mem_cons, List.mem_map, forall_eq_or_imp, forall_exists_index, and_imp, forall_apply_eq_imp_iff₂] at hl
    unfold Model.InPlace.step at hm ⊢
    simp only at hm ⊢
    split at hm
    · next vs hi hv =>
      obtain rfl := Option.some.inj hm
      have := h.values (a :: args) (by simpa using hl) vs hv
      rw [hi, this]
      exact ⟨_, _, rfl, ((h.alloc (sem f vs)).put a.node (e' := .one _) (e := .one _) h.fresh).bind h.fresh⟩
    · simp at hm
  | meth f a args =>
    simp only [Line.reads, List.mem_cons, List.mem_map, forall_eq_or_imp, forall_exists_index, and_imp, forall_apply_eq_imp_iff₂] at hl
    unfold Model.InPlace.step at hm ⊢
    simp only at hm ⊢
    split at hm
    · next r vs hr hv =>
      obtain ⟨r', hr', hs⟩ := h.lookup hl.1 hr
      have := h.values (a :: args) (by simpa using hl) vs hv
      rw [hr', this]
      obtain ⟨st, hst, rfl⟩ := Option.map_eq_some_iff.1 hm
      obtain ⟨st', hst', hsim⟩ := h.write hs hst
      simp only [hst', Option.map_some]
      exact ⟨φ, _, rfl, hsim.bind hs⟩
    · simp at hm

/-- A line that is not in place is dropped. -/
theorem LiveSim.drop (sem : F → List V → V) {φ need : List ℕ} {g m m' : State V} (h : LiveSim φ need g m) {l : Line F V} (hw : inPlace l = false) (hn : m.env.length ∉ need)
    (hm : Model.InPlace.step sem m l = some m') : LiveSim φ need ⟨g.store, g.env ++ [.many []]⟩ m' := by
  have main : ∀ (v : List V) (e : Entry V), LiveSim φ need ⟨g.store, g.env ++ [.many []]⟩ ⟨m.store ++ v, m.env ++ [e]⟩ := by
    intro v e
    refine ⟨h.len, h.nodup, fun s t hst => ?_, fun t ht => ?_, by simp [h.env], fun k hk x hx => ?_⟩
    · simp only
      rw [List.getElem?_append_left (h.bound t (List.mem_of_getElem? hst))]
      exact h.store s t hst
    · have := h.bound t ht
      simp only [List.length_append]; omega
    · have hlt : k < m.env.length := by
        have := (List.getElem?_eq_some_iff.1 hx).1
        simp only [List.length_append, List.length_singleton] at this
        have : k ≠ m.env.length := fun he => hn (he ▸ hk)
        omega
      simp only at hx ⊢
      rw [List.getElem?_append_left hlt] at hx
      rw [List.getElem?_append_left (h.env ▸ hlt)]
      exact h.entries k hk x hx
  have main0 : ∀ (e : Entry V), LiveSim φ need ⟨g.store, g.env ++ [.many []]⟩ ⟨m.store, m.env ++ [e]⟩ := fun e => by simpa using main [] e
  cases l with
  | call f args =>
    unfold Model.InPlace.step at hm
    obtain ⟨vs, hv, rfl⟩ := Option.map_eq_some_iff.1 hm
    exact main _ _
  | view l a =>
    unfold Model.InPlace.step at hm
    obtain ⟨r, hr, rfl⟩ := Option.map_eq_some_iff.1 hm
    exact main0 _
  | split ls a =>
    unfold Model.InPlace.step at hm
    obtain ⟨r, hr, rfl⟩ := Option.map_eq_some_iff.1 hm
    exact main0 _
  | rebind f a args => simp [inPlace] at hw
  | meth f a args => simp [inPlace] at hw

theorem step_env (sem : F → List V → V) {m m' : State V} {l : Line F V} (hm : step sem m l = some m') : m'.env.length = m.env.length + 1 := by
  cases l with
  | call f args => unfold step at hm; obtain ⟨_, _, rfl⟩ := Option.map_eq_some_iff.1 hm; simp
  | view l a => unfold step at hm; obtain ⟨_, _, rfl⟩ := Option.map_eq_some_iff.1 hm; simp
  | split ls a => unfold step at hm; obtain ⟨_, _, rfl⟩ := Option.map_eq_some_iff.1 hm; simp
  | rebind f a args =>
    unfold step at hm
    simp only at hm
    split at hm
    · obtain rfl := Option.some.inj hm; simp
    · simp at hm
  | meth f a args =>
    unfold step at hm
    simp only at hm
    split at hm
    · obtain ⟨_, _, rfl⟩ := Option.map_eq_some_iff.1 hm; simp
    · simp at hm

theorem live_sim (sem : F → List V → V) (outs : List ℕ) : ∀ (ls : List (Line F V)) (φ : List ℕ) (g m m' : State V), LiveSim φ (live outs m.env.length ls).2 g m →
    (∀ (i : ℕ) (l : Line F V), ls[i]? = some l → inPlace l = true → m.env.length + i ∈ (live outs (m.env.length + (i + 1)) (ls.drop (i + 1))).2) →
    steps sem ls m = some m' → ∃ φ' g', stepsLive sem (live outs m.env.length ls).1 g = some g' ∧ LiveSim φ' outs g' m'
  | [], φ, g, m, m', h, _, hm => by
    obtain rfl := Option.some.inj hm
    exact ⟨φ, g, rfl, h⟩
  | l :: ls, φ, g, m, m', h, hw, hm => by
    unfold steps at hm
    obtain ⟨m1, hm1, hm2⟩ := Option.bind_eq_some_iff.1 hm
    have hlen := step_env sem hm1
    have hw' : ∀ (i : ℕ) (l : Line F V), ls[i]? = some l → inPlace l = true → m1.env.length + i ∈ (live outs (m1.env.length + (i + 1)) (ls.drop (i + 1))).2 := by
      intro i l' hl' hwl
      have := hw (i + 1) l' (by simpa using hl') hwl
      rw [hlen, show m.env.length + 1 + (i + 1) = m.env.length + (i + 1 + 1) by omega, show m.env.length + 1 + i = m.env.length + (i + 1) by omega]
      exact this
    rw [live_cons] at h ⊢
    by_cases hn : m.env.length ∈ (live outs (m.env.length + 1) ls).2
    · rw [if_pos hn] at h ⊢
      obtain ⟨φ1, g1, hg1, hs1⟩ := h.step sem (fun k hk => List.mem_append_left _ hk) hm1
      obtain ⟨φ2, g2, hg2, hs2⟩ := live_sim sem outs ls φ1 g1 m1 m' (hs1.fewer fun k hk => List.mem_append_right _ (by rw [hlen] at hk; exact hk)) hw' hm2
      refine ⟨φ2, g2, ?_, hs2⟩
      unfold stepsLive
      rw [hg1, ← hlen]
      exact hg2
    · rw [if_neg hn] at h ⊢
      have hwl : inPlace l = false := by
        cases hb : inPlace l with
        | false => rfl
        | true => exact absurd (by simpa using hw 0 l rfl hb) hn
      have hs1 := h.drop sem hwl hn hm1
      obtain ⟨φ2, g2, hg2, hs2⟩ := live_sim sem outs ls φ _ m1 m' (by rw [hlen]; exact hs1) hw' hm2
      refine ⟨φ2, g2, ?_, hs2⟩
      unfold stepsLive
      rw [← hlen]
      exact hg2

/-- C82: if the outputs depend on the result of every operation in place that was recorded, then the generated code returns the same with elimination of dead code as without. -/
theorem C82_live_partial (sem : F → List V → V) (ss : List (Stmt F V)) (outs : List ℕ) (xs vs st : List V) (ls : List (Line F V)) (tbl ns : List Name)
    (ht : trace xs.length (inputNames xs.length) ss = some (ls, tbl)) (hn : names tbl outs = some ns)
    (hneed : ∀ (i : ℕ) (l : Line F V), ls[i]? = some l → inPlace l = true → NeededBy xs.length ls (ns.map Name.node) (xs.length + i))
    (hg : generated sem ss outs xs = some (vs, st)) : generatedLive sem ss outs xs = some vs := by
  unfold generated at hg
  unfold generatedLive
  rw [ht] at hg ⊢
  simp only [hn] at hg ⊢
  split at hg
  · next ns' m hns hm =>
    obtain rfl := Option.some.inj hns
    obtain ⟨vs', hvs, he⟩ := Option.map_eq_some_iff.1 hg
    obtain ⟨rfl, _⟩ := Prod.mk.inj he
    have hlen : (begin_ xs).env.length = xs.length := by simp [begin_]
    have h0 : LiveSim (List.range xs.length) (live (ns.map Name.node) (begin_ xs).env.length ls).2 (begin_ xs) (begin_ xs) := by
      refine ⟨by simp [begin_], List.nodup_range, fun s t hst => ?_, fun t ht => by simpa [begin_] using ht, rfl, fun k _ e he => ⟨e, he, ?_⟩⟩
      · obtain ⟨h1, h2⟩ := List.getElem?_eq_some_iff.1 hst
        rw [List.getElem_range] at h2
        rw [h2]
      · simp only [begin_, List.getElem?_map] at he
        obtain ⟨a, ha, rfl⟩ := Option.map_eq_some_iff.1 he
        obtain ⟨h1, h2⟩ := List.getElem?_eq_some_iff.1 ha
        rw [List.getElem_range] at h2
        subst h2
        exact ⟨ha, rfl⟩
    obtain ⟨φ, g, hg', hs⟩ := live_sim sem (ns.map Name.node) ls _ _ _ m h0 (fun i l hl hwl => by
      rw [hlen]
      exact needed_live (hneed i l hl hwl) (i + 1) (by omega)) hm
    rw [hlen] at hg'
    rw [hg']
    exact hs.values ns (fun n hn => List.mem_map.2 ⟨n, hn, rfl⟩) _ hvs
  · simp at hg

/-- Non-vacuity: `y = x + x; z = x + x (unused); w = y.add_(1); return w`. -/
example : generatedLive pairOpSem [.call .add [0, 0], .call .add [0, 0], .meth .inc 1 []] [3] [(1, 2)] = some [(3, 5)] := by
  refine C82_live_partial pairOpSem _ _ _ _ [(1, 2)] _ _ _ rfl rfl ?_ (by decide +kernel)
  intro i l hl hw
  match i, hl with
  | 0, hl => obtain rfl := Option.some.inj hl; simp [inPlace] at hw
  | 1, hl => obtain rfl := Option.some.inj hl; simp [inPlace] at hw
  | 2, _ => exact .out (by decide)
  | n + 3, hl => simp at hl

end Verif.Props
