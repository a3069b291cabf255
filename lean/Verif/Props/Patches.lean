import Verif.Model.Patches
import Mathlib.Data.List.Nodup

/-!
C117: tracing leaves PyTorch as it found it.
-/

namespace Verif.Props.Patches
open Verif.Spec.Patches Verif.Model.Patches

variable {mro : ℕ → List ℕ} {table : ℕ → List Item}

/-- No attribute that will be replaced is inherited from another one that will be. -/
def Apart (mro : ℕ → List ℕ) (table : ℕ → List Item) (own : Own) : Prop :=
  ∀ k j, ∀ i ∈ table k, ∀ a, (a, i.2) ∈ table j → a ∈ mro i.1 → a = i.1 ∨ own i.1 i.2 ≠ none

/-- Every attribute is listed once. -/
def Once (table : ℕ → List Item) : Prop := (∀ k, (table k).Nodup) ∧ ∀ k j, k ≠ j → ∀ i ∈ table k, i ∉ table j

/-- Every listed attribute exists. -/
def Exists (mro : ℕ → List ℕ) (table : ℕ → List Item) (own : Own) : Prop := ∀ k, ∀ i ∈ table k, ∃ v, getattr mro own i.1 i.2 = some v

/-- Outside `P` attributes are as they were, except that listed ones may have been copied down. -/
def Inv (mro : ℕ → List ℕ) (table : ℕ → List Item) (own0 : Own) (P : Item → Prop) (own : Own) : Prop :=
  ∀ c n, ¬ P (c, n) → own c n = own0 c n ∨ (own0 c n = none ∧ own c n = getattr mro own0 c n ∧ ∃ k, (c, n) ∈ table k)

theorem getattr_own (hs : Single mro) {own : Own} {c n : ℕ} {v : Val} (h : own c n = some v) : getattr mro own c n = some v := by
  unfold getattr
  have := (hs c).1
  cases hm : mro c with
  | nil => rw [hm] at this; cases this
  | cons x l =>
    rw [hm] at this
    obtain rfl : x = c := Option.some.inj this
    rw [List.findSome?_cons, h]

theorem findSome_congr {α β : Type} {f g : α → Option β} : ∀ {l : List α}, (∀ a ∈ l, f a = g a) → l.findSome? f = l.findSome? g
  | [], _ => rfl
  | a :: l, h => by
    rw [List.findSome?_cons, List.findSome?_cons, h a (by simp), findSome_congr fun b hb => h b (List.mem_cons_of_mem _ hb)]

theorem getattr_inv (hs : Single mro) {own0 own : Own} {P : Item → Prop} (hap : Apart mro table own0) (hP : ∀ i, P i → ∃ k, i ∈ table k) (h : Inv mro table own0 P own) {i : Item} {k : ℕ} (hi : i ∈ table k) (hnp : ¬ P i) :
    getattr mro own i.1 i.2 = getattr mro own0 i.1 i.2 := by
  rcases h i.1 i.2 hnp with h1 | ⟨h1, h2, _⟩
  · cases h0 : own0 i.1 i.2 with
    | some v => rw [getattr_own hs (h1.trans h0), getattr_own hs h0]
    | none =>
      refine findSome_congr fun a ha => ?_
      by_cases hac : a = i.1
      · rw [hac]; exact h1
      · have hnot : ∀ j, (a, i.2) ∉ table j := fun j hj => (hap k j i hi a hj ha).elim hac fun h => h h0
        rcases h a i.2 (fun hp => (hP _ hp).elim hnot) with h | ⟨_, _, j, hj⟩
        · exact h
        · exact absurd hj (hnot j)
  · cases h0 : getattr mro own0 i.1 i.2 with
    | some v => rw [h0] at h2; exact getattr_own hs h2
    | none =>
      rw [← h0]
      refine findSome_congr fun a ha => ?_
      by_cases hac : a = i.1
      · rw [hac, h2, h0, h1]
      · have hnot : ∀ j, (a, i.2) ∉ table j := fun j hj => (hap k j i hi a hj ha).elim hac fun h => h h1
        rcases h a i.2 (fun hp => (hP _ hp).elim hnot) with h | ⟨_, _, j, hj⟩
        · exact h
        · exact absurd hj (hnot j)

/-- Copies of what would be inherited anyway change nothing. -/
theorem getattr_same (hs : Single mro) {own0 own : Own} (h : Inv mro table own0 (fun _ => False) own) (d n : ℕ) : getattr mro own d n = getattr mro own0 d n := by
  have key : ∀ l front, mro d = front ++ l → l.findSome? (fun a => own a n) = l.findSome? (fun a => own0 a n) := by
    intro l
    induction l with
    | nil => intros; rfl
    | cons a l ih =>
      intro front hf
      rw [List.findSome?_cons, List.findSome?_cons]
      have ih := ih (front ++ [a]) (by simpa using hf)
      rcases h a n (fun h => h) with h1 | ⟨h1, h2, _⟩
      · rw [h1, ih]
      · rw [h1]
        simp only
        -- `a` now has what it would have inherited
        obtain ⟨front', hf'⟩ := (hs d).2.2 a (by rw [hf]; simp)
        have hnd : (front ++ a :: l).Nodup := hf ▸ (hs d).2.1
        have hma : ∃ l', mro a = a :: l' := by
          have := (hs a).1
          cases hm : mro a with
          | nil => rw [hm] at this; cases this
          | cons x l => rw [hm] at this; exact ⟨l, by rw [Option.some.inj this]⟩
        obtain ⟨l', hl'⟩ := hma
        -- only one occurrence of `a` counts
        have hcase : l.findSome? (fun b => own0 b n) = getattr mro own0 a n := by
          have e : front' ++ a :: l' = front ++ a :: l := by rw [← hl', ← hf', hf]
          have hla : getattr mro own0 a n = l'.findSome? fun b => own0 b n := by
            unfold getattr
            rw [hl', List.findSome?_cons, h1]
          rw [hla]
          rcases List.append_eq_append_iff.1 e with ⟨m, hm1, hm2⟩ | ⟨m, hm1, hm2⟩
          · -- front = front' ++ m
            cases m with
            | nil => rw [List.nil_append] at hm2; rw [(List.cons.inj hm2).2]
            | cons x m =>
              rw [List.cons_append] at hm2
              obtain ⟨rfl, hm2⟩ := List.cons.inj hm2
              rw [hm1] at hnd
              exact absurd rfl ((List.nodup_append.1 hnd).2.2 a (by simp) a (by simp))
          · cases m with
            | nil => rw [List.nil_append] at hm2; rw [(List.cons.inj hm2).2]
            | cons x m =>
              rw [List.cons_append] at hm2
              obtain ⟨rfl, hm2⟩ := List.cons.inj hm2
              rw [hm2] at hnd
              exact absurd (List.nodup_cons.1 (List.nodup_append.1 hnd).2.1).1 (by simp)
        rw [h2]
        cases hg : getattr mro own0 a n with
        | some v => rw [hcase, hg]
        | none => simp only; rw [ih, hcase, hg]
  exact key (mro d) [] rfl

theorem find_cons_self {α : Type} (d : List (Item × α)) (i : Item) (v : α) : find ((i, v) :: d) i = some v := by simp [find]

theorem find_cons_ne {α : Type} (d : List (Item × α)) {i j : Item} (v : α) (h : j ≠ i) : find ((i, v) :: d) j = find d j := by
  unfold find
  rw [List.find?_cons_of_neg (by simpa using fun e => h e.symm)]

/-- The wrappers made so far wrap the attribute they are kept for. -/
def Good (cache : List (Item × Val)) : Prop := ∀ i w, find cache i = some w → ∃ v, w = .wrapper i v

theorem wrap_good {cache : List (Item × Val)} (h : Good cache) (i : Item) (v : Val) : (∃ u, (wrap cache i v).1 = .wrapper i u) ∧ Good (wrap cache i v).2 := by
  unfold wrap
  cases hf : find cache i with
  | some w => exact ⟨h i w hf, h⟩
  | none =>
    refine ⟨⟨v, rfl⟩, fun j w hj => ?_⟩
    by_cases hji : j = i
    · subst hji
      rw [find_cons_self] at hj
      exact ⟨v, (Option.some.inj hj).symm⟩
    · rw [find_cons_ne _ _ hji] at hj
      exact h j w hj

theorem setattr_self (own : Own) (i : Item) (v : Val) : setattr own i v i.1 i.2 = some v := by simp [setattr]

theorem setattr_ne (own : Own) {i : Item} {c n : ℕ} (v : Val) (h : (c, n) ≠ i) : setattr own i v c n = own c n := by
  unfold setattr
  rw [if_neg]
  rintro ⟨rfl, rfl⟩
  exact h rfl

/-- Replacing some listed attributes that are not replaced yet. -/
theorem enter_spec (hs : Single mro) {own0 : Own} (hap : Apart mro table own0) (hex : Exists mro table own0) (skip : Bool) (k : ℕ) :
    ∀ (items : List Item) (P : Item → Prop) (own : Own) (cache pre : List (Item × Val)), (∀ i ∈ items, i ∈ table k) → items.Nodup → (∀ i ∈ items, ¬ P i) → (∀ i, P i → ∃ k, i ∈ table k) →
      (∀ i ∈ items, find pre i = none) → Inv mro table own0 P own → Good cache →
      ∃ own' cache' pre', enter mro skip items own cache pre = some (own', cache', pre') ∧ Inv mro table own0 (fun i => P i ∨ i ∈ items) own' ∧ Good cache' ∧
        (∀ i ∈ items, find pre' i = getattr mro own0 i.1 i.2 ∧ ∃ v, own' i.1 i.2 = some (.wrapper i v)) ∧ (∀ i, i ∉ items → find pre' i = find pre i ∧ own' i.1 i.2 = own i.1 i.2)
  | [], P, own, cache, pre, _, _, _, _, _, hinv, hg => ⟨own, cache, pre, rfl, fun c n h => hinv c n fun hp => h (Or.inl hp), hg, by simp, by simp⟩
  | i :: items, P, own, cache, pre, hin, hnd, hnp, hP, hpre, hinv, hg => by
    obtain ⟨hi, hnd⟩ := List.nodup_cons.1 hnd
    have hik := hin i (by simp)
    have hne : ∀ j ∈ items, j ≠ i := fun j hj e => hi (e ▸ hj)
    obtain ⟨v, hv⟩ := hex k i hik
    have hv' := (getattr_inv hs hap hP hinv hik (hnp i (by simp))).trans hv
    obtain ⟨⟨u, hu⟩, hg'⟩ := wrap_good hg i v
    have hinv' : Inv mro table own0 (fun j => P j ∨ j = i) (setattr own i (wrap cache i v).1) := by
      intro c n h
      rw [setattr_ne _ _ fun e => h (Or.inr e)]
      exact hinv c n fun hp => h (Or.inl hp)
    obtain ⟨own', cache', pre', he, hi1, hg2, h1, h2⟩ := enter_spec hs hap hex skip k items (fun j => P j ∨ j = i) (setattr own i (wrap cache i v).1) (wrap cache i v).2 ((i, v) :: pre)
      (fun j hj => hin j (List.mem_cons_of_mem _ hj)) hnd (fun j hj h => h.elim (hnp j (List.mem_cons_of_mem _ hj)) (hne j hj)) (fun j h => h.elim (hP j) fun e => ⟨k, e ▸ hik⟩)
      (fun j hj => by rw [find_cons_ne _ _ (hne j hj)]; exact hpre j (List.mem_cons_of_mem _ hj)) hinv' hg'
    refine ⟨own', cache', pre', ?_, ?_, hg2, ?_, ?_⟩
    · rw [enter, hpre i (by simp)]
      simp only [Option.isSome_none, Bool.and_false, Bool.false_eq_true, if_false, hv']
      exact he
    · intro c n h
      refine hi1 c n fun h' => h ?_
      rcases h' with (h' | h') | h'
      · exact Or.inl h'
      · exact Or.inr (by rw [h']; simp)
      · exact Or.inr (List.mem_cons_of_mem _ h')
    · intro j hj
      rcases List.mem_cons.1 hj with rfl | hj
      · obtain ⟨e1, e2⟩ := h2 j hi
        rw [e1, e2, find_cons_self, setattr_self, hv, hu]
        exact ⟨rfl, u, rfl⟩
      · exact h1 j hj
    · intro j hj
      rw [List.mem_cons, not_or] at hj
      obtain ⟨e1, e2⟩ := h2 j hj.2
      rw [e1, e2, find_cons_ne _ _ hj.1, setattr_ne _ _ hj.1]
      exact ⟨rfl, rfl⟩

/-- Putting them back. -/
theorem leave_spec (pre : List (Item × Val)) : ∀ (items : List Item) (own : Own), (∀ i ∈ items, ∃ v, find pre i = some v) →
    ∃ own', leave items pre own = some own' ∧ (∀ i ∈ items, own' i.1 i.2 = find pre i) ∧ ∀ i, i ∉ items → own' i.1 i.2 = own i.1 i.2
  | [], own, _ => ⟨own, rfl, by simp, by simp⟩
  | i :: items, own, h => by
    obtain ⟨v, hv⟩ := h i (by simp)
    obtain ⟨own', hl, h1, h2⟩ := leave_spec pre items (setattr own i v) fun j hj => h j (List.mem_cons_of_mem _ hj)
    refine ⟨own', by rw [leave, hv]; exact hl, fun j hj => ?_, fun j hj => ?_⟩
    · by_cases hji : j ∈ items
      · exact h1 j hji
      · rcases List.mem_cons.1 hj with rfl | hj
        · rw [h2 j hji, setattr_self, hv]
        · exact absurd hj hji
    · rw [List.mem_cons, not_or] at hj
      rw [h2 j hj.2, setattr_ne _ _ hj.1]

/-- Being replaced: belonging to a group that is. -/
def Replaced (table : ℕ → List Item) (flag : ℕ → Bool) (i : Item) : Prop := ∃ k, flag k = true ∧ i ∈ table k

/-- What was saved for the groups. -/
def Saved (mro : ℕ → List ℕ) (table : ℕ → List Item) (own0 : Own) (pres : List (ℕ × List (Item × Val))) : Prop :=
  ∀ e ∈ pres, ∀ i ∈ table e.1, find e.2 i = getattr mro own0 i.1 i.2

theorem enterGroups_spec (hs : Single mro) {own0 : Own} (hap : Apart mro table own0) (hex : Exists mro table own0) (ho : Once table) :
    ∀ (ks : List ℕ) (P : Item → Prop) (st : St), ks.Nodup → (∀ k ∈ ks, ∀ i ∈ table k, ¬ P i) → (∀ i, P i → ∃ k, i ∈ table k) → Inv mro table own0 P st.own → Good st.cache →
      ∃ st' pres, enterGroups mro table ks st = some (st', pres) ∧ st'.flag = st.flag ∧ pres.map Prod.fst = ks ∧ Saved mro table own0 pres ∧ Good st'.cache ∧
        Inv mro table own0 (fun i => P i ∨ ∃ k ∈ ks, i ∈ table k) st'.own ∧ (∀ k ∈ ks, ∀ i ∈ table k, ∃ v, st'.own i.1 i.2 = some (.wrapper i v)) ∧
        ∀ i, (∀ k ∈ ks, i ∉ table k) → st'.own i.1 i.2 = st.own i.1 i.2
  | [], P, st, _, _, _, hinv, hg => ⟨st, [], rfl, rfl, rfl, by simp [Saved], hg, fun c n h => hinv c n fun hp => h (Or.inl hp), by simp, by simp⟩
  | k :: ks, P, st, hnd, hnp, hP, hinv, hg => by
    obtain ⟨hk, hnd⟩ := List.nodup_cons.1 hnd
    obtain ⟨own', cache', pre', he, hi1, hg1, h1, h2⟩ := enter_spec hs hap hex (skips k) k (table k) P st.own st.cache [] (fun _ h => h) (ho.1 k) (hnp k (by simp)) hP (fun _ _ => rfl) hinv hg
    have hdis : ∀ j ∈ ks, ∀ i ∈ table j, i ∉ table k := fun j hj i hi => ho.2 j k (fun e => hk (e ▸ hj)) i hi
    obtain ⟨st', pres, hr, hf, hm, hsv, hg2, hi2, hw, hkeep⟩ := enterGroups_spec hs hap hex ho ks (fun i => P i ∨ i ∈ table k) { st with own := own', cache := cache' } hnd
      (fun j hj i hi h => h.elim (hnp j (List.mem_cons_of_mem _ hj) i hi) (hdis j hj i hi)) (fun i h => h.elim (hP i) fun h => ⟨k, h⟩) hi1 hg1
    refine ⟨st', (k, pre') :: pres, by rw [enterGroups, he]; simp only; rw [hr]; rfl, hf, by rw [List.map_cons, hm], ?_, hg2, ?_, ?_, ?_⟩
    · intro e hee i hi
      rcases List.mem_cons.1 hee with rfl | hee
      · exact (h1 i hi).1
      · exact hsv e hee i hi
    · intro c n h
      refine hi2 c n fun h' => h ?_
      rcases h' with (h' | h') | ⟨j, hj, h'⟩
      · exact Or.inl h'
      · exact Or.inr ⟨k, by simp, h'⟩
      · exact Or.inr ⟨j, List.mem_cons_of_mem _ hj, h'⟩
    · intro j hj i hi
      rcases List.mem_cons.1 hj with rfl | hj
      · obtain ⟨v, hv⟩ := (h1 i hi).2
        exact ⟨v, by rw [hkeep i fun j' hj' hi' => hdis j' hj' i hi' hi]; exact hv⟩
      · exact hw j hj i hi
    · intro i hi
      rw [hkeep i fun j hj => hi j (List.mem_cons_of_mem _ hj)]
      exact (h2 i (hi k (by simp))).2

theorem leaveGroups_spec (hs : Single mro) {own0 : Own} (hex : Exists mro table own0) (ho : Once table) :
    ∀ (pres : List (ℕ × List (Item × Val))) (P : Item → Prop) (st : St), (pres.map Prod.fst).Nodup → Saved mro table own0 pres → Inv mro table own0 P st.own →
      ∃ st', leaveGroups table pres st = some st' ∧ st'.cache = st.cache ∧ (∀ j, st'.flag j = (st.flag j && !(pres.map Prod.fst).contains j)) ∧
        Inv mro table own0 (fun i => P i ∧ ∀ k ∈ pres.map Prod.fst, i ∉ table k) st'.own
  | [], P, st, _, _, hinv => ⟨st, rfl, rfl, by simp, fun c n h => hinv c n fun hp => h ⟨hp, by simp⟩⟩
  | (k, pre) :: pres, P, st, hnd, hsv, hinv => by
    rw [List.map_cons] at hnd
    obtain ⟨hk, hnd⟩ := List.nodup_cons.1 hnd
    have hsk := hsv (k, pre) (by simp)
    obtain ⟨own', hl, h1, h2⟩ := leave_spec pre (table k) st.own fun i hi => by rw [hsk i hi]; exact hex k i hi
    have hinv' : Inv mro table own0 (fun i => P i ∧ i ∉ table k) own' := by
      intro c n h
      by_cases hi : (c, n) ∈ table k
      · have e := (h1 (c, n) hi).trans (hsk (c, n) hi)
        simp only at e
        cases h0 : own0 c n with
        | some v => exact Or.inl (by rw [e]; exact getattr_own hs h0)
        | none => exact Or.inr ⟨rfl, e, k, hi⟩
      · have e := h2 (c, n) hi
        simp only at e
        rw [e]
        exact hinv c n fun hp => h ⟨hp, hi⟩
    obtain ⟨st', hr, hc, hf, hi⟩ := leaveGroups_spec hs hex ho pres (fun i => P i ∧ i ∉ table k) { st with own := own', flag := fun j => if j = k then false else st.flag j } hnd
      (fun e he => hsv e (List.mem_cons_of_mem _ he)) hinv'
    refine ⟨st', by rw [leaveGroups, hl]; exact hr, hc, fun j => ?_, fun c n h => hi c n fun h' => h ⟨h'.1.1, ?_⟩⟩
    · rw [hf j]
      simp only
      by_cases hj : j = k
      · subst hj; simp
      · rw [if_neg hj, List.map_cons, List.contains_cons, show (j == (k, pre).1) = false by simpa using hj, Bool.false_or]
    · intro j hj
      rw [List.map_cons] at hj
      rcases List.mem_cons.1 hj with rfl | hj
      · exact h'.1.2
      · exact h'.2 j hj

/-- Nothing fails. -/
def Smooth : Prog → Prop
  | .nothing => True
  | .andThen p q => Smooth p ∧ Smooth q
  | .session groups body => groups.Nodup ∧ Smooth body
  | .fail => False
  | .attempt p => Smooth p

theorem run_spec (hs : Single mro) {own0 : Own} (hap : Apart mro table own0) (hex : Exists mro table own0) (ho : Once table) :
    ∀ (p : Prog) (st : St), Smooth p → Inv mro table own0 (Replaced table st.flag) st.own → Good st.cache →
      ∃ st', run mro table p st = (st', false) ∧ st'.flag = st.flag ∧ Inv mro table own0 (Replaced table st.flag) st'.own ∧ Good st'.cache
  | .nothing, st, _, hinv, hg => ⟨st, rfl, rfl, hinv, hg⟩
  | .andThen p q, st, hsm, hinv, hg => by
    obtain ⟨st1, h1, hf1, hi1, hg1⟩ := run_spec hs hap hex ho p st hsm.1 hinv hg
    obtain ⟨st2, h2, hf2, hi2, hg2⟩ := run_spec hs hap hex ho q st1 hsm.2 (by rw [hf1]; exact hi1) hg1
    refine ⟨st2, by rw [run, h1]; exact h2, by rw [hf2, hf1], ?_, hg2⟩
    rw [hf1] at hi2
    exact hi2
  | .session groups body, st, hsm, hinv, hg => by
    have hnd : (groups.filter fun k => !st.flag k).Nodup := hsm.1.filter _
    have hact : ∀ k, k ∈ (groups.filter fun k => !st.flag k) → st.flag k = false := fun k hk => by simpa using (List.mem_filter.1 hk).2
    obtain ⟨st2, pres, he, hf, hm, hsv, hg2, hi2, _, _⟩ := enterGroups_spec hs hap hex ho (groups.filter fun k => !st.flag k) (Replaced table st.flag)
      { st with flag := fun j => st.flag j || (groups.filter fun k => !st.flag k).contains j } hnd
      (fun k hk i hi ⟨j, hj, hij⟩ => by
        by_cases e : j = k
        · rw [e, hact k hk] at hj; cases hj
        · exact ho.2 j k e i hij hi)
      (fun i ⟨k, _, hi⟩ => ⟨k, hi⟩) hinv hg
    have hfl : st2.flag = fun j => st.flag j || (groups.filter fun k => !st.flag k).contains j := hf
    have hrep : ∀ i, Replaced table st2.flag i ↔ (Replaced table st.flag i ∨ ∃ k ∈ (groups.filter fun k => !st.flag k), i ∈ table k) := by
      intro i
      rw [hfl]
      constructor
      · rintro ⟨k, hk, hi⟩
        rcases Bool.or_eq_true_iff.1 hk with hk | hk
        · exact Or.inl ⟨k, hk, hi⟩
        · exact Or.inr ⟨k, List.contains_iff_mem.1 hk, hi⟩
      · rintro (⟨k, hk, hi⟩ | ⟨k, hk, hi⟩)
        · exact ⟨k, by simp only [hk, Bool.true_or], hi⟩
        · exact ⟨k, Bool.or_eq_true_iff.2 (Or.inr (List.contains_iff_mem.2 hk)), hi⟩
    obtain ⟨st3, h3, hf3, hi3, hg3⟩ := run_spec hs hap hex ho body st2 hsm.2 (fun c n h => hi2 c n fun h' => h ((hrep _).2 h')) hg2
    obtain ⟨st4, h4, hc4, hf4, hi4⟩ := leaveGroups_spec hs hex ho pres (Replaced table st2.flag) st3 (by rw [hm]; exact hnd) hsv hi3
    refine ⟨st4, ?_, ?_, ?_, by rw [hc4]; exact hg3⟩
    · rw [run, he]
      simp only
      rw [h3]
      simp only
      rw [h4]
    · funext j
      rw [hf4 j, hf3, hfl, hm]
      simp only
      by_cases hj : j ∈ groups.filter fun k => !st.flag k
      · rw [List.contains_iff_mem.2 hj, hact j hj]; rfl
      · have : (groups.filter fun k => !st.flag k).contains j = false := by simpa using hj
        rw [this]; simp
    · intro c n h
      refine hi4 c n fun ⟨h', hno⟩ => ?_
      rcases (hrep _).1 h' with h' | ⟨k, hk, hi⟩
      · exact h h'
      · exact hno k (by rw [hm]; exact hk) hi
  | .fail, _, hsm, _, _ => hsm.elim
  | .attempt p, st, hsm, hinv, hg => by
    obtain ⟨st1, h1, hf1, hi1, hg1⟩ := run_spec hs hap hex ho p st hsm hinv hg
    exact ⟨st1, by rw [run, h1], hf1, hi1, hg1⟩

theorem calls_smooth : ∀ p : Calls, p.Smooth → p.outermost.2 = false ∧ calls p false = (p.outermost.1, false, false) ∧ calls p true = ([], true, false)
  | .nothing, _ => ⟨rfl, rfl, rfl⟩
  | .andThen p q, h => by
    obtain ⟨a1, a2, a3⟩ := calls_smooth p h.1
    obtain ⟨b1, b2, b3⟩ := calls_smooth q h.2
    simp [Calls.outermost, calls, a1, a2, a3, b1, b2, b3]
  | .call key fails body, h => by
    obtain ⟨a1, a2, a3⟩ := calls_smooth body h.2
    simp [Calls.outermost, calls, a1, a3, h.1]
  | .attempt p, h => by
    obtain ⟨a1, a2, a3⟩ := calls_smooth p h
    simp [Calls.outermost, calls, a2, a3]

end Verif.Props.Patches

namespace Verif.Props
open Verif.Spec.Patches Verif.Model.Patches Verif.Props.Patches

/-- C117, in part: sessions, nested and repeated in any way, in which nothing fails leave every attribute of every object as it was.
Missing: sessions that fail (`C117_fail_false`), attributes inherited from a replaced one (`C117_inherit_false`). -/
theorem C117_partial (mro : ℕ → List ℕ) (hs : Single mro) (table : ℕ → List Item) (ho : Once table) (st : St) (hnone : ∀ k, st.flag k = false) (hg : Good st.cache) (hap : Apart mro table st.own) (hex : Exists mro table st.own)
    (p : Prog) (hp : Smooth p) : ∃ st', run mro table p st = (st', false) ∧ (∀ k, st'.flag k = false) ∧ ∀ c n, getattr mro st'.own c n = getattr mro st.own c n := by
  obtain ⟨st', h, hf, hi, _⟩ := run_spec hs hap hex ho p st hp (fun c n _ => Or.inl rfl) hg
  refine ⟨st', h, fun k => by rw [hf]; exact hnone k, fun c n => getattr_same hs (fun c n _ => hi c n ?_) c n⟩
  rintro ⟨k, hk, _⟩
  rw [hnone k] at hk
  cases hk

/-- Meanwhile every listed attribute of the groups asked for is a wrapper. -/
theorem C117_replaced (mro : ℕ → List ℕ) (hs : Single mro) (table : ℕ → List Item) (ho : Once table) (st : St) (hg : Good st.cache) (hap : Apart mro table st.own) (hex : Exists mro table st.own)
    (groups : List ℕ) (hnd : groups.Nodup) : ∃ st' pres, enterGroups mro table groups st = some (st', pres) ∧ ∀ k ∈ groups, ∀ i ∈ table k, ∃ v, getattr mro st'.own i.1 i.2 = some (.wrapper i v) := by
  obtain ⟨st', pres, he, _, _, _, _, _, hw, _⟩ := enterGroups_spec hs hap hex ho groups (fun _ => False) st hnd (fun _ _ _ _ h => h) (fun _ h => h.elim) (fun c n _ => Or.inl rfl) hg
  refine ⟨st', pres, he, fun k hk i hi => ?_⟩
  obtain ⟨v, hv⟩ := hw k hk i hi
  exact ⟨v, getattr_own hs hv⟩

/-- The lock: if no call fails, exactly the calls the program itself makes are recorded, in order, and the lock is free afterwards. -/
theorem C117_calls (p : Calls) (h : p.Smooth) : calls p false = (p.outermost.1, false, p.outermost.2) := by
  obtain ⟨h1, h2, _⟩ := calls_smooth p h
  rw [h1, h2]

/-- A call that fails and is caught: nothing is recorded any more. -/
theorem C117_calls_false : ∃ p : Calls, p.outermost = ([2], false) ∧ calls p false = ([], true, false) :=
  ⟨.andThen (.attempt (.call 1 true .nothing)) (.call 2 false .nothing), rfl, rfl⟩

/-- A class listed after the class it inherits from (`Hardtanh` and `ReLU6` and `__setattr__`, say) keeps the wrapper of that class. -/
theorem C117_inherit_false : ∃ (mro : ℕ → List ℕ) (table : ℕ → List Item) (st st' : St), (∀ k, st.flag k = false) ∧ st.cache = [] ∧ Once table ∧ Exists mro table st.own ∧
    run mro table (.session [0] .nothing) st = (st', false) ∧ getattr mro st.own 2 0 = some (.plain 5) ∧ getattr mro st'.own 2 0 = some (.wrapper (1, 0) (.plain 5)) := by
  refine ⟨fun d => if d = 0 then [0] else if d = 1 then [1, 0] else if d = 2 then [2, 1, 0] else [d], fun k => if k = 0 then [(1, 0), (2, 0)] else [],
    ⟨fun c n => if c = 0 ∧ n = 0 then some (.plain 5) else none, [], fun _ => false⟩, _, fun _ => rfl, rfl, ⟨fun k => ?_, fun k j h i hi => ?_⟩, fun k i hi => ?_, rfl, rfl, rfl⟩
  · by_cases hk : k = 0 <;> simp [hk]
  · by_cases hk : k = 0
    · have : j ≠ 0 := fun e => h (by omega)
      simp [this]
    · simp [hk] at hi
  · by_cases hk : k = 0
    · simp [hk] at hi
      rcases hi with rfl | rfl <;> exact ⟨_, rfl⟩
    · simp [hk] at hi

/-- A session that fails leaves the wrappers, and a later session does not put back what was there. -/
theorem C117_fail_false : ∃ (mro : ℕ → List ℕ) (table : ℕ → List Item) (st st' : St), (∀ k, st.flag k = false) ∧ st.cache = [] ∧
    run mro table (.andThen (.attempt (.session [0] .fail)) (.session [0] .nothing)) st = (st', false) ∧ getattr mro st.own 1 0 = some (.plain 5) ∧ getattr mro st'.own 1 0 = some (.wrapper (1, 0) (.plain 5)) ∧ st'.flag 0 = true :=
  ⟨fun d => [d], fun k => if k = 0 then [(1, 0)] else [], ⟨fun c n => if c = 1 ∧ n = 0 then some (.plain 5) else none, [], fun _ => false⟩, _, fun _ => rfl, rfl, rfl, rfl, rfl, rfl⟩

/-- A function replaced by the user between two sessions: the second session runs the old one. -/
theorem C117_stale_false : ∃ (mro : ℕ → List ℕ) (table : ℕ → List Item) (st st1 st2 : St) (pres : List (ℕ × List (Item × Val))), st.cache = [] ∧ run mro table (.session [1] .nothing) st = (st1, false) ∧
    enterGroups mro table [1] { st1 with own := setattr st1.own (1, 0) (.plain 9) } = some (st2, pres) ∧ getattr mro st2.own 1 0 = some (.wrapper (1, 0) (.plain 5)) :=
  ⟨fun d => [d], fun k => if k = 1 then [(1, 0)] else [], ⟨fun c n => if c = 1 ∧ n = 0 then some (.plain 5) else none, [], fun _ => false⟩, _, _, _, rfl, rfl, rfl, rfl⟩

/-- The slots behind `__getitem__` of the class and its bases are put back. -/
theorem C117_slots (bases subs : List ℕ) (c w : ℕ) (slot : ℕ → ℕ) (h : (bases ++ [c]).Nodup) :
    ∀ x ∈ bases ++ [c], revertSlots bases c (patchSlots bases subs c w slot).2 (patchSlots bases subs c w slot).1 x = slot x := by
  have key : ∀ (l rest : List ℕ) (s : ℕ → ℕ) (x : ℕ), (x ∈ l → (l.zip (l.map slot ++ rest)).foldl (fun s e => fun x => if x = e.1 then e.2 else s x) s x = slot x) ∧
      (s x = slot x → (l.zip (l.map slot ++ rest)).foldl (fun s e => fun x => if x = e.1 then e.2 else s x) s x = slot x) := by
    intro l
    induction l with
    | nil => intro rest s x; simp
    | cons a l ih =>
      intro rest s x
      simp only [List.map_cons, List.cons_append, List.zip_cons_cons, List.foldl_cons]
      constructor
      · intro hx
        by_cases hxa : x = a
        · exact (ih rest _ x).2 (by simp [hxa])
        · exact (ih rest _ x).1 ((List.mem_cons.1 hx).resolve_left hxa)
      · intro hx
        exact (ih rest _ x).2 (by by_cases hxa : x = a <;> simp [hxa, hx])
  intro x hx
  unfold revertSlots patchSlots
  simp only [List.map_append (l₂ := subs)]
  exact (key (bases ++ [c]) (subs.map slot) _ x).1 hx

/-- Those of subclasses are not. -/
theorem C117_slots_false : ∃ (bases subs : List ℕ) (c w : ℕ) (slot : ℕ → ℕ), ∃ x ∈ subs, revertSlots bases c (patchSlots bases subs c w slot).2 (patchSlots bases subs c w slot).1 x ≠ slot x :=
  ⟨[0], [2], 1, 9, fun x => x, 2, by simp, by decide⟩

/-- A case that meets the hypotheses: a class that inherits one attribute and has another, its base, and a module; two groups, nested. -/
example : ∃ (mro : ℕ → List ℕ) (table : ℕ → List Item) (st : St) (p : Prog), Single mro ∧ Once table ∧ (∀ k, st.flag k = false) ∧ Good st.cache ∧ Apart mro table st.own ∧ Exists mro table st.own ∧ Smooth p ∧
    p = .andThen (.session [0] (.session [0, 1] .nothing)) (.session [1] .nothing) ∧ (table 0).length = 2 ∧ (table 1).length = 1 := by
  refine ⟨fun d => if d = 1 then [1, 0] else [d], fun k => if k = 0 then [(1, 0), (0, 1)] else if k = 1 then [(7, 0)] else [],
    ⟨fun c n => if (c = 0 ∧ n ≤ 1) ∨ (c = 7 ∧ n = 0) then some (.plain 5) else none, [], fun _ => false⟩, _, fun d => ?_, ⟨fun k => ?_, fun k j h i hi hj => ?_⟩, fun _ => rfl, fun i w h => (by simp [find] at h), fun k j i hi a ha hm => ?_, fun k i hi => ?_, ?_, rfl, rfl, rfl⟩
  · by_cases h : d = 1
    · subst h
      refine ⟨rfl, by decide, fun c hc => ?_⟩
      simp at hc
      rcases hc with rfl | rfl
      · exact ⟨[], rfl⟩
      · exact ⟨[1], rfl⟩
    · simp only [h, if_false]
      exact ⟨rfl, by simp, fun c hc => ⟨[], by simp at hc; subst hc; simp [h]⟩⟩
  · by_cases h0 : k = 0
    · subst h0; decide
    · by_cases h1 : k = 1
      · subst h1; decide
      · simp [h0, h1]
  · by_cases h0 : k = 0
    · by_cases j1 : j = 1
      · simp [h0] at hi
        simp [j1] at hj
        rcases hi with rfl | rfl <;> simp at hj
      · have j0 : j ≠ 0 := fun e => h (by omega)
        simp [j0, j1] at hj
    · by_cases h1 : k = 1
      · have j1 : j ≠ 1 := fun e => h (by omega)
        by_cases j0 : j = 0
        · simp [h1] at hi
          simp [j0] at hj
          subst hi
          simp at hj
        · simp [j0, j1] at hj
      · simp [h0, h1] at hi
  · by_cases h0 : k = 0
    · simp [h0] at hi
      rcases hi with rfl | rfl
      · simp at hm
        rcases hm with rfl | rfl
        · exact Or.inl rfl
        · exfalso
          by_cases j0 : j = 0
          · simp [j0] at ha
          · by_cases j1 : j = 1
            · simp [j1] at ha
            · simp [j0, j1] at ha
      · simp at hm
        exact Or.inl hm
    · by_cases h1 : k = 1
      · simp [h1] at hi
        subst hi
        simp at hm
        exact Or.inl hm
      · simp [h0, h1] at hi
  · by_cases h0 : k = 0
    · simp [h0] at hi
      rcases hi with rfl | rfl <;> exact ⟨.plain 5, rfl⟩
    · by_cases h1 : k = 1
      · simp [h1] at hi
        subst hi
        exact ⟨.plain 5, rfl⟩
      · simp [h0, h1] at hi
  · exact ⟨⟨by decide, by decide, trivial⟩, by decide, trivial⟩

end Verif.Props
