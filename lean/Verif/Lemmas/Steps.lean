import Verif.Lemmas.Squeeze
import Mathlib.Tactic.Common

/-! Shapes that differ by axes of size 1, described by a sequence of steps. -/

namespace Verif.Lemmas
open Verif.Spec

/-- Read an axis on both sides, an axis of size 1 on the left, or an axis of size 1 on the right. -/
inductive Step | both | left | right
  deriving DecidableEq

/-- The steps describe how `s` and `s'` differ. -/
def Fits {δ : Type} (one : δ) : List Step → List δ → List δ → Prop
  | [], [], [] => True
  | .both :: st, x :: s, y :: s' => x = y ∧ Fits one st s s'
  | .left :: st, x :: s, s' => x = one ∧ Fits one st s s'
  | .right :: st, s, y :: s' => y = one ∧ Fits one st s s'
  | _, _, _ => False

/-- Move entries from the right side to the left side; `d` on axes that exist on the left only. -/
def toLeft {δ : Type} (d : δ) : List Step → List δ → List δ
  | .both :: st, y :: s' => y :: toLeft d st s'
  | .left :: st, s' => d :: toLeft d st s'
  | .right :: st, _ :: s' => toLeft d st s'
  | _, _ => []

/-- Positions read on both sides. -/
def pairs : List Step → Nat → Nat → List (Nat × Nat)
  | [], _, _ => []
  | .both :: st, i, j => (i, j) :: pairs st (i + 1) (j + 1)
  | .left :: st, i, j => pairs st (i + 1) j
  | .right :: st, i, j => pairs st i (j + 1)

def flip : Step → Step
  | .both => .both
  | .left => .right
  | .right => .left

theorem Fits.flip {δ : Type} {one : δ} {st : List Step} {s s' : List δ} (h : Fits one st s s') : Fits one (st.map Lemmas.flip) s' s := by
  induction st generalizing s s' with
  | nil => cases s <;> cases s' <;> simp_all [Fits]
  | cons a st ih =>
    cases a with
    | both => cases s <;> cases s' <;> simp_all [Fits, Lemmas.flip]
    | left => cases s <;> simp_all [Fits, Lemmas.flip]
    | right => cases s' <;> simp_all [Fits, Lemmas.flip]

theorem pairs_flip (st : List Step) (i j : Nat) : pairs (st.map Lemmas.flip) j i = (pairs st i j).map Prod.swap := by
  induction st generalizing i j with
  | nil => rfl
  | cons a st ih => cases a <;> simp [pairs, Lemmas.flip, ih]

theorem Fits.toLeft {δ : Type} {one : δ} {st : List Step} {s s' : List δ} (h : Fits one st s s') : toLeft one st s' = s := by
  induction st generalizing s s' with
  | nil => cases s <;> cases s' <;> simp_all [Fits, Lemmas.toLeft]
  | cons a st ih =>
    cases a with
    | both =>
      cases s with
      | nil => simp [Fits] at h
      | cons x s => cases s' with
        | nil => simp [Fits] at h
        | cons y s' => obtain ⟨h1, h2⟩ := h; simp [Lemmas.toLeft, ih h2, h1]
    | left =>
      cases s with
      | nil => simp [Fits] at h
      | cons x s => obtain ⟨h1, h2⟩ := h; simp [Lemmas.toLeft, ih h2, h1]
    | right =>
      cases s' with
      | nil => simp [Fits] at h
      | cons y s' => obtain ⟨h1, h2⟩ := h; simp [Lemmas.toLeft, ih h2]

theorem Fits.prod {st : List Step} {s s' : List Nat} (h : Fits 1 st s s') : s.prod = s'.prod := by
  induction st generalizing s s' with
  | nil => cases s <;> cases s' <;> simp_all [Fits]
  | cons a st ih =>
    cases a with
    | both =>
      cases s with
      | nil => simp [Fits] at h
      | cons x s => cases s' with
        | nil => simp [Fits] at h
        | cons y s' => obtain ⟨h1, h2⟩ := h; simp [ih h2, h1]
    | left =>
      cases s with
      | nil => simp [Fits] at h
      | cons x s => obtain ⟨h1, h2⟩ := h; simp [ih h2, h1]
    | right =>
      cases s' with
      | nil => simp [Fits] at h
      | cons y s' => obtain ⟨h1, h2⟩ := h; simp [ih h2, h1]

theorem Fits.index {st : List Step} {s s' idx : List Nat} (h : Fits 1 st s s') (hi : InBounds s' idx) :
    InBounds s (Lemmas.toLeft 0 st idx) ∧ flat s (Lemmas.toLeft 0 st idx) = flat s' idx := by
  induction st generalizing s s' idx with
  | nil => cases s <;> cases s' <;> simp_all [Fits, InBounds, Lemmas.toLeft]
  | cons a st ih =>
    cases a with
    | both =>
      cases s with
      | nil => simp [Fits] at h
      | cons x s => cases s' with
        | nil => simp [Fits] at h
        | cons y s' =>
          obtain ⟨h1, h2⟩ := h
          cases hi with
          | cons hlt hi =>
            obtain ⟨h3, h4⟩ := ih h2 hi
            refine ⟨List.Forall₂.cons (h1 ▸ hlt) h3, ?_⟩
            simp only [flat, Lemmas.toLeft, h4, h2.prod]
    | left =>
      cases s with
      | nil => simp [Fits] at h
      | cons x s =>
        obtain ⟨h1, h2⟩ := h
        obtain ⟨h3, h4⟩ := ih h2 hi
        refine ⟨List.Forall₂.cons (by omega) h3, ?_⟩
        simp only [flat, Lemmas.toLeft, h4]
        omega
    | right =>
      cases s' with
      | nil => simp [Fits] at h
      | cons y s' =>
        obtain ⟨h1, h2⟩ := h
        cases hi with
        | cons hlt hi =>
          rename_i i idx
          obtain ⟨h3, h4⟩ := ih h2 hi
          have : i = 0 := by omega
          subst this
          refine ⟨h3, ?_⟩
          simp only [flat, Lemmas.toLeft, h4]
          omega

/-- Back and forth. -/
theorem toLeft_toLeft {st : List Step} {s s' idx : List Nat} (h : Fits 1 st s s') (hi : InBounds s' idx) :
    toLeft 0 (st.map flip) (toLeft 0 st idx) = idx := by
  induction st generalizing s s' idx with
  | nil => cases s <;> cases s' <;> simp_all [Fits, InBounds, toLeft]
  | cons a st ih =>
    cases a with
    | both =>
      cases s with
      | nil => simp [Fits] at h
      | cons x s => cases s' with
        | nil => simp [Fits] at h
        | cons y s' =>
          obtain ⟨h1, h2⟩ := h
          cases hi with
          | cons hlt hi => simp [toLeft, flip, ih h2 hi]
    | left =>
      cases s with
      | nil => simp [Fits] at h
      | cons x s => simp [toLeft, flip, ih h.2 hi]
    | right =>
      cases s' with
      | nil => simp [Fits] at h
      | cons y s' =>
        obtain ⟨h1, h2⟩ := h
        cases hi with
        | cons hlt hi =>
          rename_i i idx
          have : i = 0 := by omega
          subst this
          simp [toLeft, flip, ih h2 hi]

/-- A reshape between such shapes moves the indices. -/
theorem reshape_steps {α : Type} {st : List Step} {s : List Nat} {x : Tensor α} (h : Fits 1 st s x.shape) {idx : List Nat} (hi : InBounds s idx) :
    (reshape s x).get idx = x.get (toLeft 0 (st.map flip) idx) := by
  obtain ⟨h1, h2⟩ := h.flip.index hi
  show x.get (unflat x.shape (flat s idx)) = _
  rw [← h2, unflat_flat h1]

theorem pairs_shift (st : List Step) (i j a b : Nat) : (a, b) ∈ pairs st i j ↔ i ≤ a ∧ j ≤ b ∧ (a - i, b - j) ∈ pairs st 0 0 := by
  have key : ∀ (st : List Step) (i j k l : Nat), pairs st (i + k) (j + l) = (pairs st i j).map (fun e => (e.1 + k, e.2 + l)) := by
    intro st
    induction st with
    | nil => intros; rfl
    | cons s st ih =>
      intro i j k l
      cases s
      · simp only [pairs, List.map_cons]
        rw [show i + k + 1 = i + 1 + k by omega, show j + l + 1 = j + 1 + l by omega, ih]
      · simp only [pairs]; rw [show i + k + 1 = i + 1 + k by omega, ih]
      · simp only [pairs]; rw [show j + l + 1 = j + 1 + l by omega, ih]
  have := key st 0 0 i j
  simp only [Nat.zero_add] at this
  rw [this, List.mem_map]
  constructor
  · rintro ⟨e, he, h⟩
    simp only [Prod.mk.injEq] at h
    refine ⟨by omega, by omega, ?_⟩
    rw [← h.1, ← h.2]; simpa using he
  · rintro ⟨h1, h2, h3⟩
    exact ⟨_, h3, by simp only [Prod.mk.injEq]; omega⟩

/-- The two sides at a common position. -/
theorem Fits.set {δ : Type} {one : δ} {st : List Step} {s s' : List δ} {a b : Nat} (h : Fits one st s s') (hab : (a, b) ∈ pairs st 0 0) (d : δ) :
    Fits one st (s.set a d) (s'.set b d) := by
  induction st generalizing s s' a b with
  | nil => simp [pairs] at hab
  | cons p st ih =>
    cases p with
    | both =>
      cases s with
      | nil => simp [Fits] at h
      | cons x s => cases s' with
        | nil => simp [Fits] at h
        | cons y s' =>
          obtain ⟨h1, h2⟩ := h
          simp only [pairs, List.mem_cons, Prod.mk.injEq] at hab
          rcases hab with ⟨rfl, rfl⟩ | hab
          · exact ⟨rfl, h2⟩
          · rw [pairs_shift] at hab
            obtain ⟨c1, c2, c3⟩ := hab
            obtain ⟨a, rfl⟩ : ∃ k, a = k + 1 := ⟨a - 1, by omega⟩
            obtain ⟨b, rfl⟩ : ∃ k, b = k + 1 := ⟨b - 1, by omega⟩
            exact ⟨h1, ih h2 (by simpa using c3)⟩
    | left =>
      cases s with
      | nil => simp [Fits] at h
      | cons x s =>
        simp only [pairs] at hab
        rw [pairs_shift] at hab
        obtain ⟨c1, c2, c3⟩ := hab
        obtain ⟨a, rfl⟩ : ∃ k, a = k + 1 := ⟨a - 1, by omega⟩
        exact ⟨h.1, ih h.2 (by simpa using c3)⟩
    | right =>
      cases s' with
      | nil => simp [Fits] at h
      | cons x s' =>
        simp only [pairs] at hab
        rw [pairs_shift] at hab
        obtain ⟨c1, c2, c3⟩ := hab
        obtain ⟨b, rfl⟩ : ∃ k, b = k + 1 := ⟨b - 1, by omega⟩
        exact ⟨h.1, ih h.2 (by simpa using c3)⟩

theorem Fits.lt {δ : Type} {one : δ} {st : List Step} {s s' : List δ} {a b : Nat} (h : Fits one st s s') (hab : (a, b) ∈ pairs st 0 0) :
    a < s.length ∧ b < s'.length ∧ s[a]? = s'[b]? := by
  induction st generalizing s s' a b with
  | nil => simp [pairs] at hab
  | cons p st ih =>
    cases p with
    | both =>
      cases s with
      | nil => simp [Fits] at h
      | cons x s => cases s' with
        | nil => simp [Fits] at h
        | cons y s' =>
          obtain ⟨h1, h2⟩ := h
          simp only [pairs, List.mem_cons, Prod.mk.injEq] at hab
          rcases hab with ⟨rfl, rfl⟩ | hab
          · simp [h1]
          · rw [pairs_shift] at hab
            obtain ⟨c1, c2, c3⟩ := hab
            obtain ⟨a, rfl⟩ : ∃ k, a = k + 1 := ⟨a - 1, by omega⟩
            obtain ⟨b, rfl⟩ : ∃ k, b = k + 1 := ⟨b - 1, by omega⟩
            have := ih h2 (by simpa using c3)
            simpa using this
    | left =>
      cases s with
      | nil => simp [Fits] at h
      | cons x s =>
        simp only [pairs] at hab
        rw [pairs_shift] at hab
        obtain ⟨c1, c2, c3⟩ := hab
        obtain ⟨a, rfl⟩ : ∃ k, a = k + 1 := ⟨a - 1, by omega⟩
        have := ih h.2 (by simpa using c3)
        simpa using this
    | right =>
      cases s' with
      | nil => simp [Fits] at h
      | cons x s' =>
        simp only [pairs] at hab
        rw [pairs_shift] at hab
        obtain ⟨c1, c2, c3⟩ := hab
        obtain ⟨b, rfl⟩ : ∃ k, b = k + 1 := ⟨b - 1, by omega⟩
        have := ih h.2 (by simpa using c3)
        simpa using this

/-- Moving entries commutes with changing the entry at a common position. -/
theorem toLeft_set {δ : Type} (d : δ) {st : List Step} {idx : List δ} {a b : Nat} (hab : (a, b) ∈ pairs st 0 0) (k : δ) :
    toLeft d st (idx.set b k) = (toLeft d st idx).set a k := by
  induction st generalizing idx a b with
  | nil => simp [pairs] at hab
  | cons p st ih =>
    cases p with
    | both =>
      cases idx with
      | nil => simp [toLeft]
      | cons y s' =>
          simp only [pairs, List.mem_cons, Prod.mk.injEq] at hab
          rcases hab with ⟨rfl, rfl⟩ | hab
          · simp [toLeft]
          · rw [pairs_shift] at hab
            obtain ⟨c1, c2, c3⟩ := hab
            obtain ⟨a, rfl⟩ : ∃ k, a = k + 1 := ⟨a - 1, by omega⟩
            obtain ⟨b, rfl⟩ : ∃ k, b = k + 1 := ⟨b - 1, by omega⟩
            simp [toLeft, ih (idx := s') (by simpa using c3)]
    | left =>
        simp only [pairs] at hab
        rw [pairs_shift] at hab
        obtain ⟨c1, c2, c3⟩ := hab
        obtain ⟨a, rfl⟩ : ∃ k, a = k + 1 := ⟨a - 1, by omega⟩
        simp [toLeft, ih (idx := idx) (by simpa using c3)]
    | right =>
      cases idx with
      | nil => simp [toLeft]
      | cons y s' =>
        simp only [pairs] at hab
        rw [pairs_shift] at hab
        obtain ⟨c1, c2, c3⟩ := hab
        obtain ⟨b, rfl⟩ : ∃ k, b = k + 1 := ⟨b - 1, by omega⟩
        simp [toLeft, ih (idx := s') (by simpa using c3)]

theorem toLeft_getD {st : List Step} {s s' idx : List Nat} {a b : Nat} (h : Fits 1 st s s') (hi : InBounds s' idx) (hab : (a, b) ∈ pairs st 0 0) :
    (toLeft 0 st idx).getD a 0 = idx.getD b 0 := by
  have h1 := toLeft_set 0 (idx := idx) hab (idx.getD b 0)
  have hb : b < idx.length := by rw [inBounds_length hi]; exact (h.lt hab).2.1
  have ha : a < (toLeft 0 st idx).length := by rw [inBounds_length (h.index hi).1]; exact (h.lt hab).1
  have h2 : idx.set b (idx.getD b 0) = idx := by
    rw [List.getD_eq_getElem?_getD, List.getElem?_eq_getElem hb]; simp
  rw [h2] at h1
  rw [h1]
  exact set_getD_self _ _ _ _ ha

end Verif.Lemmas
