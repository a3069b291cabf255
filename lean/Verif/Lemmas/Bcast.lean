import Verif.Spec.Expand
import Verif.Lemmas.Tensor

/-! Broadcasting an operand to a tensor it can be expanded to. -/

namespace Verif.Lemmas
open Verif.Spec

theorem bcRev_left (s r : List Nat) (h : List.Forall₂ (fun d o => d = o ∨ d = 1) r (s.take r.length)) (hl : r.length ≤ s.length) : bcRev s r = some s := by
  induction r generalizing s with
  | nil => cases s <;> rfl
  | cons d r ih =>
    cases s with
    | nil => simp at hl
    | cons o s =>
      simp only [List.length_cons, List.take_succ_cons] at h
      cases h with
      | cons hd h =>
        have := ih s h (by simpa using hl)
        unfold bcRev
        rw [this]
        by_cases ho : o = d
        · rw [if_pos ho]; rfl
        · rw [if_neg ho]
          have hd1 : d = 1 := by
            rcases hd with hd | hd
            · exact absurd hd.symm ho
            · exact hd
          by_cases ho1 : o = 1
          · exact absurd (ho1.trans hd1.symm) ho
          · rw [if_neg ho1, if_pos hd1]; rfl

/-- A shape that can be expanded to `s` does not change `s`. -/
theorem bcShape_left (s r : List Nat) (h : ExpandOk r s) : bcShape s r = some s := by
  obtain ⟨hl, hf⟩ := h
  unfold bcShape
  rw [bcRev_left]
  · simp
  · have : s.reverse.take r.reverse.length = (s.drop (s.length - r.length)).reverse := by
      rw [List.length_reverse, List.take_reverse]
    rw [this]
    exact List.rel_reverse hf
  · simpa using hl

/-- The element of an operand that meets index `idx` of the result. -/
theorem bcGet_eq {α : Type} (t : Tensor α) (idx : List Nat) (h : t.shape.length ≤ idx.length) :
    bcGet t idx = t.get (List.zipWith (fun d i => if d = 1 then 0 else i) t.shape (idx.drop (idx.length - t.shape.length))) := by
  unfold bcGet
  congr 1
  generalize t.shape = s at h
  obtain ⟨a, b, rfl, hb⟩ : ∃ a b, idx = a ++ b ∧ b.length = s.length :=
    ⟨idx.take (idx.length - s.length), idx.drop (idx.length - s.length), (List.take_append_drop _ _).symm, by simp; omega⟩
  have e : (a ++ b).length - s.length = a.length := by simp; omega
  rw [e, List.drop_left, List.reverse_append]
  have : List.zipWith (fun d i => if d = 1 then 0 else i) s.reverse (b.reverse ++ a.reverse) = List.zipWith (fun d i => if d = 1 then 0 else i) s.reverse b.reverse := by
    have := List.zipWith_append (f := fun d i => if d = 1 then 0 else i) (l₁ := s.reverse) (l₁' := []) (l₂ := b.reverse) (l₂' := a.reverse) (by simp [hb])
    simpa using this
  rw [this, ← List.reverse_zipWith hb.symm, List.reverse_reverse]

/-- An operand of the same shape is read at the same index. -/
theorem bcGet_same {α : Type} (t : Tensor α) (idx : List Nat) (h : InBounds t.shape idx) : bcGet t idx = t.get idx := by
  have hl := inBounds_length h
  rw [bcGet_eq t idx (by omega)]
  congr 1
  rw [hl, Nat.sub_self, List.drop_zero]
  unfold InBounds at h
  clear hl
  generalize t.shape = s at h
  induction h with
  | nil => rfl
  | @cons i d _ _ hi _ ih =>
    simp only [List.zipWith_cons_cons, ih]
    congr 1
    split
    · omega
    · rfl

theorem expandOk_refl (s : List Nat) : ExpandOk s s := by
  refine ⟨le_refl _, ?_⟩
  rw [Nat.sub_self, List.drop_zero]
  induction s with
  | nil => exact .nil
  | cons d s ih => exact .cons (Or.inl rfl) ih

/-- An operator whose second operand can be expanded to the first one. -/
theorem elementwise_left {α β γ : Type} (f : α → β → γ) (a : Tensor α) (b : Tensor β) (h : ExpandOk b.shape a.shape) :
    ∃ r, elementwise f a b = some r ∧ r.shape = a.shape ∧ ∀ idx, InBounds a.shape idx → r.get idx = f (a.get idx) (bcGet b idx) := by
  unfold elementwise
  rw [bcShape_left _ _ h]
  exact ⟨_, rfl, rfl, fun idx hb => by rw [← bcGet_same a idx hb]⟩

theorem bcRev_comm (s t : List Nat) : bcRev s t = bcRev t s := by
  induction s generalizing t with
  | nil => cases t <;> rfl
  | cons a s ih =>
    cases t with
    | nil => rfl
    | cons b t =>
      simp only [bcRev, ih t]
      by_cases h : a = b
      · subst h; rfl
      · rw [if_neg h, if_neg (Ne.symm h)]
        by_cases ha : a = 1
        · rw [if_pos ha]
          by_cases hb : b = 1
          · exact absurd (ha.trans hb.symm) h
          · rw [if_neg hb, if_pos ha]
        · rw [if_neg ha, if_neg ha]

theorem bcShape_right (s r : List Nat) (h : ExpandOk r s) : bcShape r s = some s := by
  rw [← bcShape_left s r h]
  unfold bcShape
  rw [bcRev_comm]

/-- An operator whose first operand can be expanded to the second one. -/
theorem elementwise_right {α β γ : Type} (f : α → β → γ) (a : Tensor α) (b : Tensor β) (h : ExpandOk a.shape b.shape) :
    ∃ r, elementwise f a b = some r ∧ r.shape = b.shape ∧ ∀ idx, InBounds b.shape idx → r.get idx = f (bcGet a idx) (b.get idx) := by
  unfold elementwise
  rw [bcShape_right _ _ h]
  exact ⟨_, rfl, rfl, fun idx hb => by rw [← bcGet_same b idx hb]⟩

/-- An index of a concatenated shape is a concatenation of indices. -/
theorem inBounds_append {s t idx : List Nat} (h : InBounds (s ++ t) idx) : ∃ l r, idx = l ++ r ∧ InBounds s l ∧ InBounds t r := by
  induction s generalizing idx with
  | nil => exact ⟨[], idx, rfl, .nil, h⟩
  | cons d s ih =>
    cases h with
    | cons hi h =>
      obtain ⟨l, r, rfl, hl, hr⟩ := ih h
      exact ⟨_ :: l, r, rfl, .cons hi hl, hr⟩

theorem inBounds_append_mk {s t l r : List Nat} (hl : InBounds s l) (hr : InBounds t r) : InBounds (s ++ t) (l ++ r) := by
  induction hl with
  | nil => exact hr
  | cons h _ ih => exact .cons h ih

end Verif.Lemmas
