import Verif.Model.MergeConstraint
import Verif.Spec.Sets
import Mathlib.Tactic.Common

namespace Verif.Lemmas
open Verif.Model Verif.Spec

/-! ### sets -/

theorem mem_pyUnion (a b : PySet) (x : Int) : x ∈ pyUnion a b ↔ x ∈ a ∨ x ∈ b := by
  unfold pyUnion
  by_cases h : x ∈ a <;> simp [h]

theorem pySetEq_iff (a b : PySet) : pySetEq a b = true ↔ SameSet a b := by
  unfold pySetEq SameSet
  simp only [Bool.and_eq_true, List.all_eq_true, List.contains_iff_mem]
  constructor
  · rintro ⟨h1, h2⟩ x; exact ⟨h1 x, h2 x⟩
  · intro h; exact ⟨fun x => (h x).1, fun x => (h x).2⟩

/-! ### the value map -/

def vmGet (m : List (Int × List Nat)) (v : Int) : List Nat :=
  match m with
  | [] => []
  | (w, l) :: r => if w = v then l else vmGet r v

theorem vmGet_append (v : Int) (i : Nat) (m : List (Int × List Nat)) (w : Int) :
    vmGet (vmAppend v i m) w = if w = v then vmGet m w ++ [i] else vmGet m w := by
  induction m with
  | nil =>
    by_cases h : w = v
    · simp [vmAppend, vmGet, h]
    · have : ¬ v = w := fun e => h e.symm
      simp [vmAppend, vmGet, h, this]
  | cons e r ih =>
    obtain ⟨u, l⟩ := e
    unfold vmAppend
    by_cases hu : u = v
    · subst hu
      by_cases hw : w = u
      · subst hw; simp [vmGet]
      · have : ¬ u = w := fun h => hw h.symm
        simp [vmGet, this, hw]
    · simp only [hu, if_false, vmGet]
      by_cases huw : u = w
      · subst huw; simp [hu]
      · simp [huw, ih]

theorem vmGet_mem (m : List (Int × List Nat)) (v : Int) (h : vmGet m v ≠ []) : (v, vmGet m v) ∈ m := by
  induction m with
  | nil => simp [vmGet] at h
  | cons e r ih =>
    obtain ⟨u, l⟩ := e
    unfold vmGet at h ⊢
    by_cases hu : u = v
    · subst hu; simp
    · simp only [hu, if_false] at h ⊢
      exact List.mem_cons_of_mem _ (ih h)

theorem vmAppend_entries (P : Int → Nat → Prop) (v : Int) (i : Nat) (hv : P v i)
    (m : List (Int × List Nat)) (h : ∀ e ∈ m, ∀ k ∈ e.2, P e.1 k) :
    ∀ e ∈ vmAppend v i m, ∀ k ∈ e.2, P e.1 k := by
  induction m with
  | nil => intro e he; simp [vmAppend] at he; subst he; simpa using hv
  | cons f r ih =>
    obtain ⟨u, l⟩ := f
    unfold vmAppend
    by_cases hu : u = v
    · subst hu
      simp only [if_true]
      intro e he
      rcases List.mem_cons.1 he with rfl | he
      · intro k hk
        rcases List.mem_append.1 hk with hk | hk
        · exact h (u, l) (List.mem_cons_self) k hk
        · simp at hk; subst hk; exact hv
      · exact h e (List.mem_cons_of_mem _ he)
    · simp only [hu, if_false]
      intro e he
      rcases List.mem_cons.1 he with rfl | he
      · exact h _ (List.mem_cons_self)
      · exact ih (fun e he => h e (List.mem_cons_of_mem _ he)) e he

theorem foldl_vmAppend_get (k : Nat) (s : List Int) (m : List (Int × List Nat)) (w : Int) (i : Nat) :
    i ∈ vmGet (s.foldl (fun m v => vmAppend v k m) m) w ↔ i ∈ vmGet m w ∨ (w ∈ s ∧ i = k) := by
  induction s generalizing m with
  | nil => simp
  | cons a t ih =>
    simp only [List.foldl_cons, ih, vmGet_append]
    by_cases h : w = a
    · subst h; simp; tauto
    · simp [h]

theorem foldl_vmAppend_entries (P : Int → Nat → Prop) (k : Nat) (s : List Int) (hs : ∀ v ∈ s, P v k)
    (m : List (Int × List Nat)) (h : ∀ e ∈ m, ∀ k ∈ e.2, P e.1 k) :
    ∀ e ∈ s.foldl (fun m v => vmAppend v k m) m, ∀ k ∈ e.2, P e.1 k := by
  induction s generalizing m with
  | nil => simpa using h
  | cons a t ih =>
    simp only [List.foldl_cons]
    exact ih (fun v hv => hs v (List.mem_cons_of_mem _ hv)) _
      (vmAppend_entries P a k (hs a (List.mem_cons_self)) m h)

theorem buildMap_get (c : List PySet) (k : Nat) (m : List (Int × List Nat)) (w : Int) (i : Nat) :
    i ∈ vmGet (buildMap c k m) w ↔ i ∈ vmGet m w ∨ (k ≤ i ∧ i < k + c.length ∧ w ∈ c.getD (i - k) []) := by
  induction c generalizing k m with
  | nil => simp [buildMap]
  | cons s r ih =>
    simp only [buildMap, ih, foldl_vmAppend_get, List.length_cons]
    constructor
    · rintro ((h | ⟨h, rfl⟩) | ⟨h1, h2, h3⟩)
      · exact Or.inl h
      · exact Or.inr ⟨by omega, by omega, by simpa using h⟩
      · refine Or.inr ⟨by omega, by omega, ?_⟩
        have : i - k = (i - (k + 1)) + 1 := by omega
        rw [this]; simpa using h3
    · rintro (h | ⟨h1, h2, h3⟩)
      · exact Or.inl (Or.inl h)
      · by_cases hk : i = k
        · subst hk; left; right; exact ⟨by simpa using h3, rfl⟩
        · right
          refine ⟨by omega, by omega, ?_⟩
          have : i - k = (i - (k + 1)) + 1 := by omega
          rw [this] at h3; simpa using h3

theorem buildMap_entries (P : Int → Nat → Prop) (c : List PySet) (k : Nat) (m : List (Int × List Nat))
    (hc : ∀ i < c.length, ∀ v ∈ c.getD i [], P v (k + i)) (h : ∀ e ∈ m, ∀ k ∈ e.2, P e.1 k) :
    ∀ e ∈ buildMap c k m, ∀ k ∈ e.2, P e.1 k := by
  induction c generalizing k m with
  | nil => simpa [buildMap] using h
  | cons s r ih =>
    simp only [buildMap]
    apply ih
    · intro i hi v hv
      have := hc (i + 1) (by simpa using hi) v (by simpa using hv)
      have e : k + 1 + i = k + (i + 1) := by omega
      rw [e]; exact this
    · apply foldl_vmAppend_entries _ _ _ _ _ h
      intro v hv
      simpa using hc 0 (by simp) v (by simpa using hv)

/-! ### the merging loop -/

/-- The loop invariant of lines 218-235. -/
structure Inv (c : List PySet) (st : MState) : Prop where
  root : ∀ i < c.length, st.reidx i < c.length ∧ st.reidx (st.reidx i) = st.reidx i
  homo : ∀ i < c.length, ∀ j, j ∈ st.homo i ↔ j < c.length ∧ st.reidx j = i
  cons : ∀ r < c.length, st.reidx r = r →
    ∀ x, x ∈ st.cons r ↔ ∃ j < c.length, st.reidx j = r ∧ x ∈ c.getD j []
  link : ∀ i < c.length, ∀ j < c.length, st.reidx i = st.reidx j →
    ∀ x ∈ c.getD i [], ∀ y ∈ c.getD j [], Linked c x y

theorem getD_mem {c : List PySet} {i : Nat} (h : i < c.length) : c.getD i [] ∈ c := by
  simp [List.getD, List.getElem?_eq_getElem h]

theorem inv_init (c : List PySet) : Inv c (mergeInit c) where
  root := by intro i hi; exact ⟨hi, rfl⟩
  homo := by intro i hi j; simp [mergeInit]; rintro rfl; exact hi
  cons := by
    intro r hr _ x
    constructor
    · intro h; exact ⟨r, hr, rfl, h⟩
    · rintro ⟨j, _, h, hx⟩; simp [mergeInit] at h; subst h; exact hx
  link := by
    intro i hi j hj h x hx y hy
    simp [mergeInit] at h; subst h
    exact Linked.same (getD_mem hi) hx hy

theorem inner_fold (target : Nat) (L : List Nat) (s : MState) :
    let s' := L.foldl (fun (s : MState) j =>
      { s with reidx := upd s.reidx j target, homo := upd s.homo target (s.homo target ++ [j]) }) s
    s'.cons = s.cons ∧ (∀ j, s'.reidx j = if j ∈ L then target else s.reidx j) ∧
      (∀ j, s'.homo j = if j = target then s.homo target ++ L else s.homo j) := by
  induction L generalizing s with
  | nil => refine ⟨rfl, by simp, ?_⟩; intro j; by_cases h : j = target <;> simp [h]
  | cons a t ih =>
    simp only [List.foldl_cons]
    obtain ⟨h1, h2, h3⟩ := ih
      { s with reidx := upd s.reidx a target, homo := upd s.homo target (s.homo target ++ [a]) }
    refine ⟨by rw [h1], ?_, ?_⟩
    · intro j
      rw [h2 j]
      by_cases hj : j ∈ t <;> by_cases ha : j = a <;> simp [hj, ha, upd]
    · intro j
      rw [h3 j]
      by_cases hj : j = target <;> simp [hj, upd]

/-- Net effect of one merge on the index table. -/
theorem mergeOne_reidx {c : List PySet} {st : MState} (inv : Inv c st) {target i : Nat}
    (hi : i < c.length) (j : Nat) (hj : j < c.length) :
    (mergeOne target st i).reidx j = if st.reidx j = st.reidx i then target else st.reidx j := by
  unfold mergeOne
  by_cases h : st.reidx i = target
  · simp only [h, if_true]
    by_cases h2 : st.reidx j = target <;> simp [h2]
  · simp only [h, if_false]
    obtain ⟨_, h2, _⟩ := inner_fold target (st.homo (st.reidx i))
      { st with cons := upd st.cons target (pyUnion (st.cons target) (st.cons (st.reidx i))) }
    have h2j := h2 j
    simp only at h2j ⊢
    rw [h2j]
    have hs : (st.reidx i) < c.length := (inv.root i hi).1
    by_cases hm : st.reidx j = st.reidx i
    · have : j ∈ st.homo (st.reidx i) := (inv.homo _ hs j).2 ⟨hj, hm⟩
      simp [hm, this]
    · have : j ∉ st.homo (st.reidx i) := fun hh => hm ((inv.homo _ hs j).1 hh).2
      simp [hm, this]

theorem mergeOne_inv {c : List PySet} {st : MState} (inv : Inv c st) {target i : Nat}
    (hi : i < c.length) (ht : target < c.length) (htr : st.reidx target = target)
    (hl : ∀ x ∈ c.getD i [], ∀ y ∈ c.getD target [], Linked c x y ∧ Linked c y x)
    (hne : ∀ j < c.length, c.getD j [] ≠ []) :
    Inv c (mergeOne target st i) := by
  by_cases hsame : st.reidx i = target
  · unfold mergeOne; simpa [hsame] using inv
  have hsl : st.reidx i < c.length := (inv.root i hi).1
  have hri := mergeOne_reidx inv (target := target) hi
  have hcons : ∀ j, (mergeOne target st i).cons j =
      if j = target then pyUnion (st.cons target) (st.cons (st.reidx i)) else st.cons j := by
    intro j
    unfold mergeOne
    simp only [hsame, if_false]
    obtain ⟨h1, _, _⟩ := inner_fold target (st.homo (st.reidx i))
      { st with cons := upd st.cons target (pyUnion (st.cons target) (st.cons (st.reidx i))) }
    simp only at h1 ⊢
    rw [h1]; rfl
  have hhomo : ∀ j, (mergeOne target st i).homo j =
      if j = st.reidx i then [] else if j = target then st.homo target ++ st.homo (st.reidx i) else st.homo j := by
    intro j
    unfold mergeOne
    simp only [hsame, if_false]
    obtain ⟨_, _, h3⟩ := inner_fold target (st.homo (st.reidx i))
      { st with cons := upd st.cons target (pyUnion (st.cons target) (st.cons (st.reidx i))) }
    simp only at h3 ⊢
    by_cases hj : j = st.reidx i
    · simp [upd, hj]
    · simp only [upd, hj, if_false]; rw [h3 j]
  have htn : ¬ target = st.reidx i := fun h => hsame h.symm
  have htt : (mergeOne target st i).reidx target = target := by
    rw [hri target ht, htr]; simp
  constructor
  · intro j hj
    rw [hri j hj]
    by_cases h : st.reidx j = st.reidx i
    · simp only [h, if_true]; exact ⟨ht, htt⟩
    · simp only [h, if_false]
      have hr := inv.root j hj
      refine ⟨hr.1, ?_⟩
      rw [hri _ hr.1, hr.2]; simp [h]
  · intro k hk j
    rw [hhomo k]
    by_cases hks : k = st.reidx i
    · subst hks
      simp only [if_true, List.not_mem_nil, false_iff, not_and]
      intro hj
      rw [hri j hj]
      by_cases h : st.reidx j = st.reidx i
      · simp only [h, if_true]; exact htn
      · simp [h]
    · simp only [hks, if_false]
      by_cases hkt : k = target
      · subst hkt
        simp only [if_true, List.mem_append, inv.homo k hk j, inv.homo _ hsl j]
        constructor
        · rintro (⟨hj, h⟩ | ⟨hj, h⟩)
          · refine ⟨hj, ?_⟩; rw [hri j hj, h]; simp
          · refine ⟨hj, ?_⟩; rw [hri j hj, h]; simp
        · rintro ⟨hj, h⟩
          rw [hri j hj] at h
          by_cases h2 : st.reidx j = st.reidx i
          · exact Or.inr ⟨hj, h2⟩
          · simp only [h2, if_false] at h; exact Or.inl ⟨hj, h⟩
      · simp only [hkt, if_false, inv.homo k hk j]
        constructor
        · rintro ⟨hj, h⟩
          refine ⟨hj, ?_⟩
          rw [hri j hj, h]; simp [hks]
        · rintro ⟨hj, h⟩
          refine ⟨hj, ?_⟩
          rw [hri j hj] at h
          by_cases h2 : st.reidx j = st.reidx i
          · simp only [h2, if_true] at h; exact absurd h.symm hkt
          · simpa [h2] using h
  · intro r hr hrr x
    rw [hcons r]
    rw [hri r hr] at hrr
    by_cases h1 : st.reidx r = st.reidx i
    · simp only [h1, if_true] at hrr
      subst hrr
      exact absurd (htr.symm.trans h1) htn
    · simp only [h1, if_false] at hrr
      by_cases hrt : r = target
      · subst hrt
        simp only [if_true, mem_pyUnion, inv.cons r hr htr,
          inv.cons _ hsl (inv.root i hi).2]
        constructor
        · rintro (⟨j, hj, h, hx⟩ | ⟨j, hj, h, hx⟩)
          · exact ⟨j, hj, by rw [hri j hj, h]; simp, hx⟩
          · exact ⟨j, hj, by rw [hri j hj, h]; simp, hx⟩
        · rintro ⟨j, hj, h, hx⟩
          rw [hri j hj] at h
          by_cases h2 : st.reidx j = st.reidx i
          · exact Or.inr ⟨j, hj, h2, hx⟩
          · simp only [h2, if_false] at h; exact Or.inl ⟨j, hj, h, hx⟩
      · simp only [hrt, if_false, inv.cons r hr hrr]
        constructor
        · rintro ⟨j, hj, h, hx⟩
          refine ⟨j, hj, ?_, hx⟩
          rw [hri j hj]
          have : ¬ st.reidx j = st.reidx i := by
            intro h2; apply h1; rw [hrr, ← h2, h]
          rw [if_neg this]; exact h
        · rintro ⟨j, hj, h, hx⟩
          refine ⟨j, hj, ?_, hx⟩
          rw [hri j hj] at h
          by_cases h2 : st.reidx j = st.reidx i
          · simp only [h2, if_true] at h; exact absurd h.symm hrt
          · simpa [h2] using h
  · have key : ∀ a < c.length, ∀ b < c.length, st.reidx a = st.reidx i → st.reidx b = target →
        ∀ x ∈ c.getD a [], ∀ y ∈ c.getD b [], Linked c x y ∧ Linked c y x := by
      intro a ha b hb h1 h2 x hx y hy
      obtain ⟨u, hu⟩ := List.exists_mem_of_ne_nil _ (hne i hi)
      obtain ⟨w, hw⟩ := List.exists_mem_of_ne_nil _ (hne target ht)
      have l1 := inv.link a ha i hi h1 x hx u hu
      have l1' := inv.link i hi a ha h1.symm u hu x hx
      have l2 := hl u hu w hw
      have l3 := inv.link target ht b hb (htr.trans h2.symm) w hw y hy
      have l3' := inv.link b hb target ht (h2.trans htr.symm) y hy w hw
      exact ⟨l1.trans (l2.1.trans l3), l3'.trans (l2.2.trans l1')⟩
    intro a ha b hb hab x hx y hy
    rw [hri a ha, hri b hb] at hab
    by_cases h1 : st.reidx a = st.reidx i <;> by_cases h2 : st.reidx b = st.reidx i
    · exact inv.link a ha b hb (h1.trans h2.symm) x hx y hy
    · simp only [h1, h2, if_true, if_false] at hab
      exact (key a ha b hb h1 hab.symm x hx y hy).1
    · simp only [h1, h2, if_true, if_false] at hab
      exact (key b hb a ha h2 hab y hy x hx).2
    · simp only [h1, h2, if_false] at hab
      exact inv.link a ha b hb hab x hx y hy

theorem linked_symm {c : List (List Int)} {x y : Int} (h : Linked c x y) : Linked c y x := by
  induction h with
  | same hs hx hy => exact Linked.same hs hy hx
  | trans _ _ ih1 ih2 => exact ih2.trans ih1

/-- Effect of the inner loop over one value's index list. -/
theorem fold_mergeOne {c : List PySet} (hne : ∀ j < c.length, c.getD j [] ≠ [])
    (v : Int) (target : Nat) (ht : target < c.length) (L : List Nat)
    (hL : ∀ i ∈ L, i < c.length ∧ v ∈ c.getD i []) (st : MState) (inv : Inv c st)
    (htr : st.reidx target = target)
    (hv : ∃ k < c.length, st.reidx k = target ∧ v ∈ c.getD k []) :
    let st' := L.foldl (mergeOne target) st
    Inv c st' ∧ st'.reidx target = target ∧
      (∀ i < c.length, ∀ j < c.length, st.reidx i = st.reidx j → st'.reidx i = st'.reidx j) ∧
      (∀ i < c.length, st.reidx i = target → st'.reidx i = target) ∧
      (∀ i ∈ L, st'.reidx i = target) := by
  induction L generalizing st with
  | nil => exact ⟨inv, htr, fun _ _ _ _ h => h, fun _ _ h => h, by simp⟩
  | cons a t ih =>
    simp only [List.foldl_cons]
    have ha := hL a List.mem_cons_self
    have hinv : Inv c (mergeOne target st a) := by
      apply mergeOne_inv inv ha.1 ht htr _ hne
      intro x hx y hy
      obtain ⟨k, hk, hkr, hvk⟩ := hv
      have l1 : Linked c x v := Linked.same (getD_mem ha.1) hx ha.2
      have l2 : Linked c v y := inv.link k hk target ht (hkr.trans htr.symm) v hvk y hy
      exact ⟨l1.trans l2, linked_symm (l1.trans l2)⟩
    have hri := mergeOne_reidx inv (target := target) ha.1
    have htr' : (mergeOne target st a).reidx target = target := by
      rw [hri target ht, htr]; simp
    have hkeep : ∀ i < c.length, st.reidx i = target → (mergeOne target st a).reidx i = target := by
      intro i hi h; rw [hri i hi, h]; simp
    have hv' : ∃ k < c.length, (mergeOne target st a).reidx k = target ∧ v ∈ c.getD k [] := by
      obtain ⟨k, hk, hkr, hvk⟩ := hv
      exact ⟨k, hk, hkeep k hk hkr, hvk⟩
    obtain ⟨r1, r2, r3, r4, r5⟩ := ih (fun i hi => hL i (List.mem_cons_of_mem _ hi)) _ hinv htr' hv'
    refine ⟨r1, r2, ?_, ?_, ?_⟩
    · intro i hi j hj h
      apply r3 i hi j hj
      rw [hri i hi, hri j hj, h]
    · intro i hi h; exact r4 i hi (hkeep i hi h)
    · intro i hi
      rcases List.mem_cons.1 hi with rfl | hi
      · apply r4 _ ha.1; rw [hri _ ha.1]; simp
      · exact r5 i hi

theorem mergeValue_spec {c : List PySet} (hne : ∀ j < c.length, c.getD j [] ≠ [])
    (e : Int × List Nat) (he : ∀ i ∈ e.2, i < c.length ∧ e.1 ∈ c.getD i [])
    (st : MState) (inv : Inv c st) :
    Inv c (mergeValue st e) ∧
      (∀ i < c.length, ∀ j < c.length, st.reidx i = st.reidx j →
        (mergeValue st e).reidx i = (mergeValue st e).reidx j) ∧
      (∀ i ∈ e.2, ∀ j ∈ e.2, (mergeValue st e).reidx i = (mergeValue st e).reidx j) := by
  obtain ⟨v, L⟩ := e
  match L, he with
  | [], _ => exact ⟨inv, fun _ _ _ _ h => h, by simp⟩
  | [a], _ => exact ⟨inv, fun _ _ _ _ h => h, by simp⟩
  | a :: b :: t, he =>
    have ha := he a (by simp)
    have hr := inv.root a ha.1
    have := fold_mergeOne hne v (st.reidx a) hr.1 (a :: b :: t) he st inv hr.2 ⟨a, ha.1, rfl, ha.2⟩
    obtain ⟨r1, _, r3, _, r5⟩ := this
    refine ⟨r1, r3, ?_⟩
    intro i hi j hj
    exact (r5 i hi).trans (r5 j hj).symm

theorem fold_mergeValue {c : List PySet} (hne : ∀ j < c.length, c.getD j [] ≠ [])
    (m : List (Int × List Nat)) (hm : ∀ e ∈ m, ∀ i ∈ e.2, i < c.length ∧ e.1 ∈ c.getD i [])
    (st : MState) (inv : Inv c st) :
    Inv c (m.foldl mergeValue st) ∧
      (∀ i < c.length, ∀ j < c.length, st.reidx i = st.reidx j →
        (m.foldl mergeValue st).reidx i = (m.foldl mergeValue st).reidx j) ∧
      (∀ e ∈ m, ∀ i ∈ e.2, ∀ j ∈ e.2,
        (m.foldl mergeValue st).reidx i = (m.foldl mergeValue st).reidx j) := by
  induction m generalizing st with
  | nil => exact ⟨inv, fun _ _ _ _ h => h, by simp⟩
  | cons e t ih =>
    simp only [List.foldl_cons]
    have he := hm e List.mem_cons_self
    obtain ⟨s1, s2, s3⟩ := mergeValue_spec hne e he st inv
    obtain ⟨r1, r2, r3⟩ := ih (fun e he => hm e (List.mem_cons_of_mem _ he)) _ s1
    refine ⟨r1, fun i hi j hj h => r2 i hi j hj (s2 i hi j hj h), ?_⟩
    intro f hf i hi j hj
    rcases List.mem_cons.1 hf with rfl | hf
    · exact r2 i (he i hi).1 j (he j hj).1 (s3 i hi j hj)
    · exact r3 f hf i hi j hj

/-- The final state: the invariant, and sets sharing an element have the same representative. -/
theorem merge_final (c : List PySet) (hne : ∀ j < c.length, c.getD j [] ≠ []) :
    let st := (buildMap c 0 []).foldl mergeValue (mergeInit c)
    Inv c st ∧ ∀ i < c.length, ∀ j < c.length, ∀ v, v ∈ c.getD i [] → v ∈ c.getD j [] →
      st.reidx i = st.reidx j := by
  have hm : ∀ e ∈ buildMap c 0 [], ∀ i ∈ e.2, i < c.length ∧ e.1 ∈ c.getD i [] := by
    apply buildMap_entries (fun v i => i < c.length ∧ v ∈ c.getD i [])
    · intro i hi v hv; simpa using ⟨hi, hv⟩
    · simp
  obtain ⟨r1, _, r3⟩ := fold_mergeValue hne _ hm _ (inv_init c)
  refine ⟨r1, ?_⟩
  intro i hi j hj v hvi hvj
  have gi : i ∈ vmGet (buildMap c 0 []) v := (buildMap_get c 0 [] v i).2 (Or.inr ⟨by omega, by omega, by simpa using hvi⟩)
  have gj : j ∈ vmGet (buildMap c 0 []) v := (buildMap_get c 0 [] v j).2 (Or.inr ⟨by omega, by omega, by simpa using hvj⟩)
  exact r3 _ (vmGet_mem _ v (List.ne_nil_of_mem gi)) i gi j gj

theorem removeEmpty_ne (c : List PySet) : ∀ j < (removeEmpty c).length, (removeEmpty c).getD j [] ≠ [] := by
  intro j hj
  have := getD_mem hj
  unfold removeEmpty at this
  have := (List.mem_filter.1 this).2
  unfold removeEmpty
  intro h; rw [h] at this; simp at this

theorem mem_removeEmpty (c : List PySet) (s : PySet) : s ∈ removeEmpty c ↔ s ∈ c ∧ s ≠ [] := by
  unfold removeEmpty; simp

theorem linked_removeEmpty (c : List PySet) (x y : Int) : Linked (removeEmpty c) x y ↔ Linked c x y := by
  constructor
  · intro h
    induction h with
    | same hs hx hy => exact Linked.same ((mem_removeEmpty _ _).1 hs).1 hx hy
    | trans _ _ ih1 ih2 => exact ih1.trans ih2
  · intro h
    induction h with
    | same hs hx hy => exact Linked.same ((mem_removeEmpty _ _).2 ⟨hs, List.ne_nil_of_mem hx⟩) hx hy
    | trans _ _ ih1 ih2 => exact ih1.trans ih2

end Verif.Lemmas
