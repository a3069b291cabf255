import Verif.Spec.CtorLines
/-!
C128: the constructor line emitted for a module builds a module with the same settings.
-/

namespace Verif.Props
open Verif.Model.CtorLines Verif.Spec.CtorLines

variable {K V C : Type}

/-- What the records look like for one address. -/
structure CtorInv (w : World K V C) (st : St K V C) (i : Nat) (f : Option (Fate K C)) : Prop where
  live : (st.heap i).isSome = f.isSome
  serial : ∀ o, st.heap i = some o → o.serial < st.next
  refs : ∀ s, st.refs i = some s → s < st.next
  paired : st.lines i ≠ none → st.refs i ≠ none
  cls : ∀ o a, st.heap i = some o → f = some a → o.cls = a.cls
  kept : ∀ o a k c, st.heap i = some o → f = some a → a.birth = .byConstructor k c → a.touched = false →
    a.cls = k ∧ st.traced i = true ∧ st.lines i = some (k, c) ∧ st.refs i = some o.serial ∧ ∀ n ∈ w.constants k, o.get n = w.build k c n
  dropped : ∀ o a k c, st.heap i = some o → f = some a → a.birth = .byConstructor k c → a.touched = true → a.cls = k ∧ st.traced i = false ∧ st.lines i = none
  odd : ∀ o a k c, st.heap i = some o → f = some a → a.birth = .unsupportedArgs k c → a.touched = false → st.traced i = true ∧ (st.lines i = none ∨ ∃ s, st.refs i = some s ∧ s ≠ o.serial)

theorem ctor_upd_same {A : Type} (f : Nat → A) (i : Nat) (a : A) : upd f i a i = a := by simp [upd]
theorem ctor_upd_other {A : Type} (f : Nat → A) (i j : Nat) (a : A) (h : j ≠ i) : upd f i a j = f j := by simp [upd, h]

theorem ctor_empty (w : World K V C) (i : Nat) : CtorInv w (St.empty : St K V C) i none := by
  constructor <;> simp [St.empty]

/-- The records of an address are only changed by what happens to the object there. -/
theorem newInit_other (st : St K V C) (i j : Nat) (e ok : Bool) (k : K) (c : C) (h : j ≠ i) :
    (newInit st i e ok k c).heap = st.heap ∧ (newInit st i e ok k c).next = st.next ∧
      (newInit st i e ok k c).traced j = st.traced j ∧ (newInit st i e ok k c).lines j = st.lines j ∧ (newInit st i e ok k c).refs j = st.refs j := by
  unfold newInit
  simp only
  split
  · split
    · split
      · split <;> simp [ctor_upd_other, h]
      · simp [ctor_upd_other, h]
    · simp [ctor_upd_other, h]
  · simp [ctor_upd_other, h]

/-- The invariant looks at one address only. -/
theorem ctor_frame (w : World K V C) (st st' : St K V C) (i : Nat) (f : Option (Fate K C)) (h : CtorInv w st i f) (hh : st'.heap i = st.heap i) (ht : st'.traced i = st.traced i)
    (hl : st'.lines i = st.lines i) (hr : st'.refs i = st.refs i) (hn : st.next ≤ st'.next) : CtorInv w st' i f := by
  constructor
  · rw [hh]; exact h.live
  · rw [hh]; exact fun o ho => Nat.lt_of_lt_of_le (h.serial o ho) hn
  · rw [hr]; exact fun s hs => Nat.lt_of_lt_of_le (h.refs s hs) hn
  · rw [hl, hr]; exact h.paired
  · rw [hh]; exact h.cls
  · rw [hh, ht, hl, hr]; exact h.kept
  · rw [hh, ht, hl]; exact h.dropped
  · rw [hh, ht, hl, hr]; exact h.odd

/-- A new object at a free address: its records. -/
theorem ctor_create (w : World K V C) (st : St K V C) (i : Nat) (h : CtorInv w st i none) (k : K) (c : C) (ok : Bool) :
    CtorInv w (newInit { st with heap := upd st.heap i (some ⟨st.next, k, w.build k c⟩), next := st.next + 1 } i true ok k c) i
      (some ⟨if ok then .byConstructor k c else .unsupportedArgs k c, k, false⟩) := by
  have hcond : ((st.lines i).isNone || refDead { traced := upd st.traced i true, lines := st.lines, refs := st.refs, heap := upd st.heap i (some ⟨st.next, k, w.build k c⟩), next := st.next + 1 } i) = true := by
    cases hl : st.lines i with
    | none => rfl
    | some x =>
      have hr := h.paired (by rw [hl]; simp)
      obtain ⟨s, hs⟩ := Option.ne_none_iff_exists'.mp hr
      have := h.refs s hs
      simp only [refDead, hs, ctor_upd_same, Option.isNone_some, Bool.false_or]
      simp; omega
  cases ok with
  | true =>
    simp only [newInit, hcond, if_true, ctor_upd_same]
    constructor
    · simp [ctor_upd_same]
    · intro o ho; simp only [ctor_upd_same, Option.some.injEq] at ho; subst ho; simp
    · intro s hs; simp only [ctor_upd_same, Option.some.injEq] at hs; subst hs; simp
    · simp [ctor_upd_same]
    · intro o a ho ha; simp only [ctor_upd_same, Option.some.injEq] at ho ha; subst ho; subst ha; rfl
    · intro o a k' c' ho ha hb _
      simp only [ctor_upd_same, Option.some.injEq] at ho ha
      subst ho; subst ha
      simp only [Birth.byConstructor.injEq] at hb
      obtain ⟨rfl, rfl⟩ := hb
      refine ⟨rfl, ?_, ?_, ?_, fun n _ => rfl⟩ <;> simp [ctor_upd_same]
    · intro o a k' c' _ ha _ ht
      simp only [Option.some.injEq] at ha
      subst ha
      simp at ht
    · intro o a k' c' _ ha hb
      simp only [Option.some.injEq] at ha
      subst ha
      simp at hb
  | false =>
    simp only [newInit, hcond, if_true, Bool.false_eq_true, if_false]
    constructor
    · simp [ctor_upd_same]
    · intro o ho; simp only [ctor_upd_same, Option.some.injEq] at ho; subst ho; simp
    · intro s hs; exact Nat.lt_succ_of_lt (h.refs s hs)
    · exact h.paired
    · intro o a ho ha; simp only [ctor_upd_same, Option.some.injEq] at ho ha; subst ho; subst ha; rfl
    · intro o a k' c' _ ha hb
      simp only [Option.some.injEq] at ha
      subst ha
      simp at hb
    · intro o a k' c' _ ha hb
      simp only [Option.some.injEq] at ha
      subst ha
      simp at hb
    · intro o a k' c' ho ha hb _
      simp only [ctor_upd_same, Option.some.injEq] at ho
      subst ho
      refine ⟨by simp [ctor_upd_same], ?_⟩
      cases hl : st.lines i with
      | none => exact .inl rfl
      | some x =>
        obtain ⟨s, hs⟩ := Option.ne_none_iff_exists'.mp (h.paired (by rw [hl]; simp))
        have := h.refs s hs
        exact .inr ⟨s, hs, by simp; omega⟩

/-- Births that leave no claim about the records. -/
theorem ctor_loose (w : World K V C) (st : St K V C) (i : Nat) (o : Obj K V) (b : Birth K C) (hb1 : ∀ k c, b ≠ .byConstructor k c) (hb2 : ∀ k c, b ≠ .unsupportedArgs k c)
    (hh : st.heap i = some o) (hs : o.serial < st.next) (hr : ∀ s, st.refs i = some s → s < st.next) (hp : st.lines i ≠ none → st.refs i ≠ none) (t : Bool) : CtorInv w st i (some ⟨b, o.cls, t⟩) := by
  constructor
  · simp [hh]
  · intro o' ho; rw [hh] at ho; cases ho; exact hs
  · exact hr
  · exact hp
  · intro o' a ho ha; rw [hh] at ho; cases ho; cases ha; rfl
  · intro o' a k c _ ha hb; cases ha; exact absurd hb (hb1 k c)
  · intro o' a k c _ ha hb; cases ha; exact absurd hb (hb1 k c)
  · intro o' a k c _ ha hb; cases ha; exact absurd hb (hb2 k c)

/-- Freeing leaves the records as they are. -/
theorem ctor_die (w : World K V C) (st : St K V C) (i : Nat) (f : Option (Fate K C)) (h : CtorInv w st i f) : CtorInv w { st with heap := upd st.heap i none } i none := by
  constructor
  · simp [ctor_upd_same]
  · intro o ho; simp [ctor_upd_same] at ho
  · exact h.refs
  · exact h.paired
  · intro o a ho; simp [ctor_upd_same] at ho
  · intro o a k c ho; simp [ctor_upd_same] at ho
  · intro o a k c ho; simp [ctor_upd_same] at ho
  · intro o a k c ho; simp [ctor_upd_same] at ho

/-- Setting an attribute. -/
theorem ctor_set (w : World K V C) (st st' : St K V C) (i : Nat) (o : Obj K V) (a : Fate K C) (ho : st.heap i = some o) (h : CtorInv w st i (some a)) (n : String) (v : V)
    (hs : setAttr w st i o n v = some st') : CtorInv w st' i (if n ∈ w.constants a.cls then some { a with touched := true } else some a) := by
  have hcls : o.cls = a.cls := h.cls o a ho rfl
  obtain ⟨b, k0, t⟩ := a
  simp only at hcls
  subst hcls
  unfold setAttr at hs
  simp only at hs
  by_cases hc : n ∈ w.constants o.cls
  · have hc' : (w.constants o.cls).contains n = true := by simpa using hc
    rw [if_pos hc]
    cases ht : st.traced i with
    | true =>
      rw [ht, hc'] at hs
      simp only [Bool.and_self, if_true] at hs
      cases hl : st.lines i with
      | none => rw [hl] at hs; simp at hs
      | some x =>
        rw [hl] at hs
        simp only [Option.some.injEq] at hs
        subst hs
        constructor
        · simp [ctor_upd_same]
        · intro o' ho'; simp only [ctor_upd_same, Option.some.injEq] at ho'; subst ho'; exact h.serial o ho
        · exact h.refs
        · simp [ctor_upd_same]
        · intro o' a' ho' ha'; simp only [ctor_upd_same, Option.some.injEq] at ho' ha'; subst ho'; subst ha'; rfl
        · intro o' a' k c _ ha' _ htt; simp only [Option.some.injEq] at ha'; subst ha'; simp at htt
        · intro o' a' k c ho' ha' hb _
          simp only [Option.some.injEq] at ha'
          subst ha'
          simp only at hb
          refine ⟨?_, by simp [ctor_upd_same], by simp [ctor_upd_same]⟩
          cases t with
          | false => exact (h.kept o _ k c ho rfl hb rfl).1
          | true => exact (h.dropped o _ k c ho rfl hb rfl).1
        · intro o' a' k c _ ha' _ htt; simp only [Option.some.injEq] at ha'; subst ha'; simp at htt
    | false =>
      rw [ht] at hs
      simp only [Bool.false_and, Bool.false_eq_true, if_false, Option.some.injEq] at hs
      subst hs
      constructor
      · simp [ctor_upd_same]
      · intro o' ho'; simp only [ctor_upd_same, Option.some.injEq] at ho'; subst ho'; exact h.serial o ho
      · exact h.refs
      · exact h.paired
      · intro o' a' ho' ha'; simp only [ctor_upd_same, Option.some.injEq] at ho' ha'; subst ho'; subst ha'; rfl
      · intro o' a' k c _ ha' _ htt; simp only [Option.some.injEq] at ha'; subst ha'; simp at htt
      · intro o' a' k c ho' ha' hb _
        simp only [Option.some.injEq] at ha'
        subst ha'
        simp only at hb
        cases t with
        | false =>
          have := (h.kept o _ k c ho rfl hb rfl).2.1
          rw [ht] at this
          simp at this
        | true => exact h.dropped o _ k c ho rfl hb rfl
      · intro o' a' k c _ ha' _ htt; simp only [Option.some.injEq] at ha'; subst ha'; simp at htt
  · have hc' : (w.constants o.cls).contains n = false := by simpa using hc
    rw [if_neg hc]
    rw [hc'] at hs
    simp only [Bool.and_false, Bool.false_eq_true, if_false, Option.some.injEq] at hs
    subst hs
    constructor
    · simp [ctor_upd_same]
    · intro o' ho'; simp only [ctor_upd_same, Option.some.injEq] at ho'; subst ho'; exact h.serial o ho
    · exact h.refs
    · exact h.paired
    · intro o' a' ho' ha'; simp only [ctor_upd_same, Option.some.injEq] at ho' ha'; subst ho'; subst ha'; rfl
    · intro o' a' k c ho' ha' hb htt
      simp only [ctor_upd_same, Option.some.injEq] at ho' ha'
      subst ha'
      obtain ⟨h1, h2, h3, h4, h5⟩ := h.kept o _ k c ho rfl hb htt
      subst ho'
      refine ⟨h1, h2, h3, h4, fun m hm => ?_⟩
      have hmn : m ≠ n := by
        rintro rfl
        simp only at h1
        rw [h1] at hc
        exact hc hm
      simp only [hmn, if_false]
      exact h5 m hm
    · intro o' a' k c ho' ha' hb htt
      simp only [Option.some.injEq] at ha'
      subst ha'
      exact h.dropped o _ k c ho rfl hb htt
    · intro o' a' k c ho' ha' hb htt
      simp only [ctor_upd_same, Option.some.injEq] at ha' ho'
      subst ha'
      subst ho'
      exact h.odd o _ k c ho rfl hb htt

/-- Every step keeps the records of every address in order. -/
theorem ctor_step (w : World K V C) (st st' : St K V C) (e : Ev K V C) (he : ∀ i c ok, e ≠ .reinit i c ok) (i : Nat) (f : Option (Fate K C)) (h : CtorInv w st i f) (hs : step w st e = some st') :
    CtorInv w st' i (fateStep w i f e) := by
  have hfree : ∀ j, j = i → (st.heap j).isNone = f.isNone := by
    rintro j rfl
    have := h.live
    cases hh : st.heap j <;> cases f <;> simp_all
  cases e with
  | reinit j c ok => exact absurd rfl (he j c ok)
  | create j k c ok =>
    rw [step] at hs
    by_cases hji : j = i
    · subst hji
      cases f with
      | none =>
        rw [hfree j rfl, Option.isNone_none, if_pos rfl] at hs
        simp only [Option.some.injEq] at hs
        subst hs
        simp only [fateStep, if_true]
        exact ctor_create w st j h k c ok
      | some a =>
        rw [hfree j rfl, Option.isNone_some] at hs
        simp only [Bool.false_eq_true, if_false, Option.some.injEq] at hs
        subst hs
        exact h
    · have hf : fateStep w i f (.create j k c ok) = f := by
        cases f <;> simp [fateStep, hji]
      rw [hf]
      have hij : i ≠ j := fun x => hji x.symm
      by_cases hfr : (st.heap j).isNone = true
      · rw [if_pos hfr, Option.some.injEq] at hs
        subst hs
        obtain ⟨g1, g2, g3, g4, g5⟩ := newInit_other { st with heap := upd st.heap j (some ⟨st.next, k, w.build k c⟩), next := st.next + 1 } j i true ok k c hij
        exact ctor_frame w st _ i f h (by rw [g1]; exact ctor_upd_other _ _ _ _ hij) g3 g4 g5 (by rw [g2]; exact Nat.le_succ _)
      · rw [if_neg hfr, Option.some.injEq] at hs
        subst hs
        exact h
  | createSub j k g c ok =>
    rw [step] at hs
    by_cases hji : j = i
    · subst hji
      cases f with
      | none =>
        rw [hfree j rfl, Option.isNone_none, if_pos rfl] at hs
        simp only [Option.some.injEq] at hs
        subst hs
        simp only [fateStep, if_true]
        have hst : ∃ t, newInit { st with heap := upd st.heap j (some ⟨st.next, k, g⟩), next := st.next + 1 } j false ok k c =
            { st with traced := t, heap := upd st.heap j (some ⟨st.next, k, g⟩), next := st.next + 1 } := by
          unfold newInit
          simp only [Bool.false_eq_true, if_false]
          split <;> exact ⟨_, rfl⟩
        obtain ⟨t, ht⟩ := hst
        rw [ht]
        refine ctor_loose w _ j ⟨st.next, k, g⟩ .bySubclass (by simp) (by simp) (ctor_upd_same _ _ _) ?_ ?_ ?_ false
        · simp
        · exact fun s hs => Nat.lt_succ_of_lt (h.refs s hs)
        · exact h.paired
      | some a =>
        rw [hfree j rfl, Option.isNone_some] at hs
        simp only [Bool.false_eq_true, if_false, Option.some.injEq] at hs
        subst hs
        exact h
    · have hf : fateStep w i f (.createSub j k g c ok) = f := by
        cases f <;> simp [fateStep, hji]
      rw [hf]
      have hij : i ≠ j := fun x => hji x.symm
      by_cases hfr : (st.heap j).isNone = true
      · rw [if_pos hfr, Option.some.injEq] at hs
        subst hs
        obtain ⟨g1, g2, g3, g4, g5⟩ := newInit_other { st with heap := upd st.heap j (some ⟨st.next, k, g⟩), next := st.next + 1 } j i false ok k c hij
        exact ctor_frame w st _ i f h (by rw [g1]; exact ctor_upd_other _ _ _ _ hij) g3 g4 g5 (by rw [g2]; exact Nat.le_succ _)
      · rw [if_neg hfr, Option.some.injEq] at hs
        subst hs
        exact h
  | appear j k g =>
    rw [step] at hs
    by_cases hji : j = i
    · subst hji
      cases f with
      | none =>
        rw [hfree j rfl, Option.isNone_none, if_pos rfl] at hs
        simp only [Option.some.injEq] at hs
        subst hs
        simp only [fateStep, if_true]
        refine ctor_loose w _ j ⟨st.next, k, g⟩ .withoutConstructor (by simp) (by simp) (ctor_upd_same _ _ _) ?_ ?_ ?_ false
        · simp
        · exact fun s hs => Nat.lt_succ_of_lt (h.refs s hs)
        · exact h.paired
      | some a =>
        rw [hfree j rfl, Option.isNone_some] at hs
        simp only [Bool.false_eq_true, if_false, Option.some.injEq] at hs
        subst hs
        exact h
    · have hf : fateStep w i f (.appear j k g) = f := by
        cases f <;> simp [fateStep, hji]
      rw [hf]
      have hij : i ≠ j := fun x => hji x.symm
      by_cases hfr : (st.heap j).isNone = true
      · rw [if_pos hfr, Option.some.injEq] at hs
        subst hs
        exact ctor_frame w st _ i f h (ctor_upd_other _ _ _ _ hij) rfl rfl rfl (Nat.le_succ _)
      · rw [if_neg hfr, Option.some.injEq] at hs
        subst hs
        exact h
  | set j n v =>
    rw [step] at hs
    by_cases hji : j = i
    · subst hji
      cases hh : st.heap j with
      | none =>
        have := h.live
        rw [hh] at this hs
        cases f with
        | none => simp only [Option.some.injEq] at hs; subst hs; exact h
        | some a => simp at this
      | some o =>
        have := h.live
        rw [hh] at this hs
        cases f with
        | none => simp at this
        | some a =>
          have hr := ctor_set w st st' j o a hh h n v hs
          simpa [fateStep] using hr
    · have hij : i ≠ j := fun x => hji x.symm
      have hf : fateStep w i f (.set j n v) = f := by
        cases f <;> simp [fateStep, hji]
      rw [hf]
      cases hh : st.heap j with
      | none => rw [hh] at hs; simp only [Option.some.injEq] at hs; subst hs; exact h
      | some o =>
        rw [hh] at hs
        simp only [setAttr] at hs
        split at hs
        · split at hs
          · simp only [Option.some.injEq] at hs
            subst hs
            exact ctor_frame w st _ i f h (ctor_upd_other _ _ _ _ hij) (ctor_upd_other _ _ _ _ hij) (ctor_upd_other _ _ _ _ hij) rfl (Nat.le_refl _)
          · simp at hs
        · simp only [Option.some.injEq] at hs
          subst hs
          exact ctor_frame w st _ i f h (ctor_upd_other _ _ _ _ hij) rfl rfl rfl (Nat.le_refl _)
  | die j =>
    rw [step, Option.some.injEq] at hs
    subst hs
    by_cases hji : j = i
    · subst hji
      have hf : fateStep w j f (.die j : Ev K V C) = none := by
        cases f <;> simp [fateStep]
      rw [hf]
      exact ctor_die w st j f h
    · have hij : i ≠ j := fun x => hji x.symm
      have hf : fateStep w i f (.die j : Ev K V C) = f := by
        cases f <;> simp [fateStep, hji]
      rw [hf]
      exact ctor_frame w st _ i f h (ctor_upd_other _ _ _ _ hij) rfl rfl rfl (Nat.le_refl _)

theorem ctor_run (w : World K V C) (i : Nat) : ∀ (h : List (Ev K V C)) (st st' : St K V C) (f : Option (Fate K C)), NoReinit h → CtorInv w st i f → run w st h = some st' →
    CtorInv w st' i (h.foldl (fateStep w i) f)
  | [], st, st', f, _, hi, hr => by
    rw [run, Option.some.injEq] at hr
    subst hr
    exact hi
  | e :: r, st, st', f, hn, hi, hr => by
    rw [run] at hr
    cases hs : step w st e with
    | none => rw [hs] at hr; simp at hr
    | some s =>
      rw [hs] at hr
      rw [List.foldl_cons]
      exact ctor_run w i r s st' _ (fun j c ok hm => hn j c ok (List.mem_cons_of_mem _ hm)) (ctor_step w st s e (fun j c ok he => hn j c ok (by rw [he]; exact List.mem_cons_self)) i f hi hs) hr

/-- **C128**.  After any history of constructions, attribute changes, copies and deletions, with addresses being used again and again, a module that was built by the constructor of a wrapped class
from supported arguments gets the line of its own construction, as long as none of its constants has been set: that line builds a module with the same constants.  Once a constant has been set,
the line is written from what the module looks like now. -/
theorem C128_own_line_partial (w : World K V C) (h : List (Ev K V C)) (hn : NoReinit h) (st : St K V C) (hr : run w St.empty h = some st) (i : Nat) (o : Obj K V) (ho : st.heap i = some o)
    (a : Fate K C) (ha : fate w i h = some a) (k : K) (c : C) (hb : a.birth = .byConstructor k c) (hw : w.overridable k = true) :
    o.cls = k ∧ (a.touched = false → emit w st i o = .recorded k c ∧ ∀ n ∈ w.constants k, o.get n = w.build k c n) ∧ (a.touched = true → emit w st i o = .fromState) := by
  have hi := ctor_run w i h _ st none hn (ctor_empty w i) hr
  have hf : h.foldl (fateStep w i) none = some a := ha
  rw [hf] at hi
  have hc := hi.cls o a ho rfl
  refine ⟨?_, fun ht => ?_, fun ht => ?_⟩
  · cases ht : a.touched with
    | false => rw [hc]; exact (hi.kept o a k c ho rfl hb ht).1
    | true => rw [hc]; exact (hi.dropped o a k c ho rfl hb ht).1
  · obtain ⟨_, h2, h3, h4, h5⟩ := hi.kept o a k c ho rfl hb ht
    refine ⟨?_, h5⟩
    simp [emit, related, refDead, h2, h3, h4, ho]
  · obtain ⟨h1, h2, h3⟩ := hi.dropped o a k c ho rfl hb ht
    rw [h1] at hc
    simp [emit, related, h2, h3, hc, hw]

/-- **C128**.  A module built with arguments of an unsupported type never gets the line of another module: its forward function is spelled out instead. -/
theorem C128_unsupported (w : World K V C) (h : List (Ev K V C)) (hn : NoReinit h) (st : St K V C) (hr : run w St.empty h = some st) (i : Nat) (o : Obj K V) (ho : st.heap i = some o)
    (a : Fate K C) (ha : fate w i h = some a) (k : K) (c : C) (hb : a.birth = .unsupportedArgs k c) (ht : a.touched = false) : emit w st i o = .inlined := by
  have hi := ctor_run w i h _ st none hn (ctor_empty w i) hr
  have hf : h.foldl (fateStep w i) none = some a := ha
  rw [hf] at hi
  obtain ⟨h1, h2⟩ := hi.odd o a k c ho rfl hb ht
  rcases h2 with h2 | ⟨s, h2, h3⟩
  · simp [emit, related, h1, h2]
  · have h4 : o.serial ≠ s := fun x => h3 x.symm
    simp [emit, related, refDead, h1, h2, ho, h4]

/-- A module that was not built by a wrapped constructor has no line of its own. -/
def Foreign (st : St K V C) (i : Nat) (f : Option (Fate K C)) : Prop :=
  ∀ o a, st.heap i = some o → f = some a → (a.birth = .bySubclass ∨ a.birth = .withoutConstructor) → st.traced i = false ∨ st.lines i = none ∨ ∃ s, st.refs i = some s ∧ s ≠ o.serial

theorem foreign_frame (st st' : St K V C) (i : Nat) (f : Option (Fate K C)) (h : Foreign st i f) (hh : st'.heap i = st.heap i) (ht : st'.traced i = st.traced i)
    (hl : st'.lines i = st.lines i) (hr : st'.refs i = st.refs i) : Foreign st' i f := by
  unfold Foreign
  rw [hh, ht, hl, hr]
  exact h

theorem foreign_step (w : World K V C) (st st' : St K V C) (e : Ev K V C) (hn : ∀ j c ok, e ≠ .reinit j c ok) (i : Nat) (f : Option (Fate K C)) (hc : CtorInv w st i f) (h : Foreign st i f)
    (hs : step w st e = some st') : Foreign st' i (fateStep w i f e) := by
  have hlive := hc.live
  have old : ∀ s, st.refs i = some s → s ≠ st.next := fun s hs => Nat.ne_of_lt (hc.refs s hs)
  cases e with
  | create j k c ok =>
    rw [step] at hs
    by_cases hfr : (st.heap j).isNone = true
    · rw [if_pos hfr, Option.some.injEq] at hs
      subst hs
      by_cases hji : j = i
      · subst hji
        cases f with
        | some a => rw [Option.isNone_iff_eq_none] at hfr; rw [hfr] at hlive; simp at hlive
        | none =>
          intro o a _ ha hb
          simp only [fateStep, if_true, Option.some.injEq] at ha
          subst ha
          cases ok <;> simp at hb
      · have hij : i ≠ j := fun x => hji x.symm
        have hf : fateStep w i f (.create j k c ok) = f := by
          cases f <;> simp [fateStep, hji]
        rw [hf]
        obtain ⟨g1, g2, g3, g4, g5⟩ := newInit_other { st with heap := upd st.heap j (some ⟨st.next, k, w.build k c⟩), next := st.next + 1 } j i true ok k c hij
        exact foreign_frame st _ i f h (by rw [g1]; exact ctor_upd_other _ _ _ _ hij) g3 g4 g5
    · rw [if_neg hfr, Option.some.injEq] at hs
      subst hs
      have hf : fateStep w i f (.create j k c ok) = f := by
        cases f with
        | some a => rfl
        | none =>
          have : j ≠ i := by
            rintro rfl
            cases hh : st.heap j <;> simp_all
          simp [fateStep, this]
      rw [hf]
      exact h
  | createSub j k g c ok =>
    rw [step] at hs
    by_cases hfr : (st.heap j).isNone = true
    · rw [if_pos hfr, Option.some.injEq] at hs
      subst hs
      by_cases hji : j = i
      · subst hji
        intro o a _ _ _
        refine .inl ?_
        have hcond : ((st.lines j).isNone || refDead { traced := upd st.traced j true, lines := st.lines, refs := st.refs, heap := upd st.heap j (some ⟨st.next, k, g⟩), next := st.next + 1 } j) = true := by
          cases hl : st.lines j with
          | none => rfl
          | some l =>
            have hp := hc.paired (by rw [hl]; simp)
            obtain ⟨s, hr⟩ := Option.ne_none_iff_exists'.mp hp
            have := old s hr
            simp [refDead, hr, ctor_upd_same, Ne.symm this]
        unfold newInit
        simp only
        rw [if_pos hcond]
        simp [ctor_upd_same]
      · have hij : i ≠ j := fun x => hji x.symm
        have hf : fateStep w i f (.createSub j k g c ok) = f := by
          cases f <;> simp [fateStep, hji]
        rw [hf]
        obtain ⟨g1, g2, g3, g4, g5⟩ := newInit_other { st with heap := upd st.heap j (some ⟨st.next, k, g⟩), next := st.next + 1 } j i false ok k c hij
        exact foreign_frame st _ i f h (by rw [g1]; exact ctor_upd_other _ _ _ _ hij) g3 g4 g5
    · rw [if_neg hfr, Option.some.injEq] at hs
      subst hs
      have hf : fateStep w i f (.createSub j k g c ok) = f := by
        cases f with
        | some a => rfl
        | none =>
          have : j ≠ i := by
            rintro rfl
            cases hh : st.heap j <;> simp_all
          simp [fateStep, this]
      rw [hf]
      exact h
  | appear j k g =>
    rw [step] at hs
    by_cases hfr : (st.heap j).isNone = true
    · rw [if_pos hfr, Option.some.injEq] at hs
      subst hs
      by_cases hji : j = i
      · subst hji
        intro o a ho _ _
        simp only [ctor_upd_same, Option.some.injEq] at ho
        subst ho
        cases hl : st.lines j with
        | none => exact .inr (.inl rfl)
        | some l =>
          have hp := hc.paired (by rw [hl]; simp)
          obtain ⟨s, hr⟩ := Option.ne_none_iff_exists'.mp hp
          exact .inr (.inr ⟨s, hr, old s hr⟩)
      · have hij : i ≠ j := fun x => hji x.symm
        have hf : fateStep w i f (.appear j k g) = f := by
          cases f <;> simp [fateStep, hji]
        rw [hf]
        exact foreign_frame st _ i f h (ctor_upd_other _ _ _ _ hij) rfl rfl rfl
    · rw [if_neg hfr, Option.some.injEq] at hs
      subst hs
      have hf : fateStep w i f (.appear j k g) = f := by
        cases f with
        | some a => rfl
        | none =>
          have : j ≠ i := by
            rintro rfl
            cases hh : st.heap j <;> simp_all
          simp [fateStep, this]
      rw [hf]
      exact h
  | reinit j c ok => exact absurd rfl (hn j c ok)
  | set j n v =>
    have hb : ∀ a, fateStep w i f (.set j n v) = some a → ∃ b, f = some b ∧ b.birth = a.birth := by
      intro a ha
      cases f with
      | none => simp [fateStep] at ha
      | some b =>
        refine ⟨b, rfl, ?_⟩
        simp only [fateStep] at ha
        split at ha <;> · simp only [Option.some.injEq] at ha; subst ha; rfl
    rw [step] at hs
    cases hh : st.heap j with
    | none =>
      rw [hh] at hs
      simp only [Option.some.injEq] at hs
      subst hs
      intro o a ho ha hba
      obtain ⟨b, hf, hbb⟩ := hb a ha
      exact h o b ho hf (by rw [hbb]; exact hba)
    | some q =>
      rw [hh] at hs
      simp only [setAttr] at hs
      intro o a ho ha hba
      obtain ⟨b, hf, hbb⟩ := hb a ha
      have hob : ∃ o', st.heap i = some o' ∧ o'.serial = o.serial := by
        have hheap : st'.heap = upd st.heap j (some { q with get := fun m => if m = n then v else q.get m }) := by
          split at hs
          · split at hs
            · simp only [Option.some.injEq] at hs; subst hs; rfl
            · simp at hs
          · simp only [Option.some.injEq] at hs; subst hs; rfl
        rw [hheap] at ho
        by_cases hij : i = j
        · subst hij
          rw [ctor_upd_same, Option.some.injEq] at ho
          subst ho
          exact ⟨q, hh, rfl⟩
        · rw [ctor_upd_other _ _ _ _ hij] at ho
          exact ⟨o, ho, rfl⟩
      obtain ⟨o', ho', hser⟩ := hob
      have hold := h o' b ho' hf (by rw [hbb]; exact hba)
      rw [hser] at hold
      split at hs
      · split at hs
        · simp only [Option.some.injEq] at hs
          subst hs
          by_cases hij : i = j
          · subst hij
            exact .inl (ctor_upd_same _ _ _)
          · simp only [ctor_upd_other _ _ _ _ hij]
            exact hold
        · simp at hs
      · simp only [Option.some.injEq] at hs
        subst hs
        exact hold
  | die j =>
    rw [step, Option.some.injEq] at hs
    subst hs
    by_cases hji : j = i
    · subst hji
      intro o a ho
      simp [ctor_upd_same] at ho
    · have hij : i ≠ j := fun x => hji x.symm
      have hf : fateStep w i f (.die j : Ev K V C) = f := by
        cases f <;> simp [fateStep, hji]
      rw [hf]
      exact foreign_frame st _ i f h (ctor_upd_other _ _ _ _ hij) rfl rfl rfl

theorem foreign_run (w : World K V C) (i : Nat) : ∀ (h : List (Ev K V C)) (st st' : St K V C) (f : Option (Fate K C)), NoReinit h → CtorInv w st i f → Foreign st i f → run w st h = some st' →
    Foreign st' i (h.foldl (fateStep w i) f)
  | [], st, st', f, _, _, hi, hr => by
    rw [run, Option.some.injEq] at hr
    subst hr
    exact hi
  | e :: r, st, st', f, hn, hc, hi, hr => by
    rw [run] at hr
    cases hs : step w st e with
    | none => rw [hs] at hr; simp at hr
    | some s =>
      rw [hs] at hr
      rw [List.foldl_cons]
      have he : ∀ j c ok, e ≠ .reinit j c ok := fun j c ok he => hn j c ok (by rw [he]; exact List.mem_cons_self)
      exact foreign_run w i r s st' _ (fun j c ok hm => hn j c ok (List.mem_cons_of_mem _ hm)) (ctor_step w st s e he i f hc hs) (foreign_step w st s e he i f hc hi hs) hr

/-- **C128**.  A module of a class the tracer does not wrap, however it came into being and whatever was at its address before, never gets a constructor line: its forward function is spelled out. -/
theorem C128_other_class (w : World K V C) (h : List (Ev K V C)) (hn : NoReinit h) (st : St K V C) (hr : run w St.empty h = some st) (i : Nat) (o : Obj K V) (ho : st.heap i = some o)
    (a : Fate K C) (ha : fate w i h = some a) (hb : a.birth = .bySubclass ∨ a.birth = .withoutConstructor) (hw : w.overridable a.cls = false) : emit w st i o = .inlined := by
  have hi := ctor_run w i h _ st none hn (ctor_empty w i) hr
  have hg := foreign_run w i h _ st none hn (ctor_empty w i) (by intro o a ho; simp [St.empty] at ho) hr
  have hf : h.foldl (fateStep w i) none = some a := ha
  rw [hf] at hi hg
  have hc := hi.cls o a ho rfl
  have hw' : w.overridable o.cls = false := by rw [hc]; exact hw
  rcases hg o a ho rfl hb with h1 | h1 | ⟨s, h1, h2⟩
  · simp [emit, related, h1, hw']
  · cases ht : st.traced i <;> simp [emit, related, h1, ht, hw']
  · have h3 : o.serial ≠ s := fun x => h2 x.symm
    cases ht : st.traced i <;> simp [emit, related, refDead, h1, ht, hw', ho, h3]

/-! ### Examples and failures -/

/-- A class with one constant, its stride; the argument of the constructor is the stride, every other attribute starts at 0. -/
def ctorWorld : World String Nat Nat := ⟨fun _ => ["stride"], fun _ => true, fun _ c n => if n = "stride" then c else 0⟩

/-- An address used by two modules one after the other, the second of which is changed, and another module. -/
def ctorDemo : List (Ev String Nat Nat) := [.create 7 "Conv2d" 1 true, .die 7, .create 7 "Conv2d" 2 true, .create 8 "Pool" 3 true, .set 7 "stride" 5, .set 8 "training" 1]

example : NoReinit ctorDemo ∧ (∃ st o, run ctorWorld .empty ctorDemo = some st ∧ st.heap 8 = some o ∧ emit ctorWorld st 8 o = .recorded "Pool" 3) ∧
    (∃ st o, run ctorWorld .empty ctorDemo = some st ∧ st.heap 7 = some o ∧ emit ctorWorld st 7 o = .fromState ∧ o.get "stride" = 5) := by
  refine ⟨by simp [NoReinit, ctorDemo], ⟨_, _, rfl, rfl, by decide +kernel⟩, ⟨_, _, rfl, rfl, by decide +kernel, by decide +kernel⟩⟩

example : ∃ st o, run { ctorWorld with overridable := fun k => k != "Block" } .empty [.create 7 "Conv2d" 1 true, .die 7, .createSub 7 "Block" (fun _ => 9) 9 true] = some st ∧ st.heap 7 = some o ∧
    emit { ctorWorld with overridable := fun k => k != "Block" } st 7 o = .inlined := by
  refine ⟨_, _, rfl, rfl, by decide +kernel⟩

/-- A module of a subclass, built where another module has been freed, gets the line of the freed module. -/
theorem C128_subclass_false : ∃ st o, run ctorWorld .empty [.create 7 "Conv2d" 1 true, .die 7, .createSub 7 "MyConv" (fun _ => 9) 9 true] = some st ∧ st.heap 7 = some o ∧
    emit ctorWorld st 7 o = .recorded "Conv2d" 1 ∧ o.cls = "MyConv" ∧ o.get "stride" = 9 := by
  refine ⟨_, _, rfl, rfl, by decide +kernel, rfl, rfl⟩

/-- A module whose constructor is called a second time keeps the line of the first call. -/
theorem C128_reinit_false : ∃ st o, run ctorWorld .empty [.create 7 "Conv2d" 1 true, .reinit 7 2 true] = some st ∧ st.heap 7 = some o ∧
    emit ctorWorld st 7 o = .recorded "Conv2d" 1 ∧ o.get "stride" = 2 := by
  refine ⟨_, _, rfl, rfl, by decide +kernel, by decide +kernel⟩

/-- Changing an attribute that is not a constant of the class is not noticed: the line stays. -/
theorem C128_other_attribute_false : ∃ st o, run ctorWorld .empty [.create 7 "Conv2d" 1 true, .set 7 "bias" 4] = some st ∧ st.heap 7 = some o ∧
    emit ctorWorld st 7 o = .recorded "Conv2d" 1 ∧ o.get "bias" ≠ ctorWorld.build "Conv2d" 1 "bias" := by
  refine ⟨_, _, rfl, rfl, by decide +kernel, by decide +kernel⟩

/-- Setting a constant of a module that was built with an argument of an unsupported type (such as a dtype) is a `KeyError`. -/
theorem C128_setattr_error_false : run ctorWorld .empty [.create 7 "Conv2d" 1 false, .set 7 "stride" 2] = none := by
  rfl

end Verif.Props
