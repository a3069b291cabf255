import Verif.Model.Masker
import Mathlib.Data.List.Induction

/-!
C48: the removed indices registered with a masker accumulate, sorted, over every history of calls.
-/

namespace Verif.Props
open Verif.Model

/-- The registrations of a history that concern the input (output, custom) channels, oldest first. -/
def insOf {μ : Type} (ops : List (MaskerOp μ)) : List (List Nat) := ops.filterMap (fun | .setIn l => some l | _ => none)
def otsOf {μ : Type} (ops : List (MaskerOp μ)) : List (List Nat) := ops.filterMap (fun | .setOt l => some l | _ => none)
def customsOf {μ : Type} (ops : List (MaskerOp μ)) : List (List Nat) := ops.filterMap (fun | .setCustom l => some l | _ => none)

/-- `r` is what a list of registrations should have left behind: nothing if there was none, and otherwise everything registered, in
ascending order. -/
def Accumulated (regs : List (List Nat)) (r : Option (List Nat)) : Prop :=
  match regs with
  | [] => r = none
  | _ => ∃ l, r = some l ∧ l.Perm regs.flatten ∧ l.Pairwise (· ≤ ·)

private theorem acc_step (regs : List (List Nat)) (r : Option (List Nat)) (l : List Nat) (h : Accumulated regs r)
    (hs : regs = [] → l.Pairwise (· ≤ ·)) : Accumulated (regs ++ [l]) (setRemoveIdx r l) := by
  cases regs with
  | nil =>
    have h : r = none := h
    subst h
    exact ⟨l, rfl, by simp, hs rfl⟩
  | cons a t =>
    obtain ⟨m, rfl, hp, _⟩ := h
    refine ⟨_, rfl, ?_, List.pairwise_insertionSort _ _⟩
    refine (List.perm_insertionSort _ _).trans ?_
    simp only [List.flatten_append, List.cons_append, List.flatten_cons, List.flatten_nil, List.append_nil]
    rw [← List.append_assoc]
    exact List.Perm.append_right l (by simpa using hp)

private theorem run_append {μ : Type} (ops : List (MaskerOp μ)) (o : MaskerOp μ) :
    Masker.run (ops ++ [o]) = (Masker.run ops).step o := by simp [Masker.run]

/-- **C48** For every history of calls, with any number of save/restore steps in it, in which the first list registered for the input
channels (and the first for the output channels) is ascending, the masker holds everything that was registered, in ascending order. -/
theorem C48_accumulate_partial {μ : Type} (ops : List (MaskerOp μ)) (hi : ∀ l ∈ (insOf ops).head?, l.Pairwise (· ≤ ·))
    (ho : ∀ l ∈ (otsOf ops).head?, l.Pairwise (· ≤ ·)) :
    Accumulated (insOf ops) (Masker.run ops).inIdx ∧ Accumulated (otsOf ops) (Masker.run ops).otIdx := by
  induction ops using List.reverseRecOn with
  | nil => exact ⟨rfl, rfl⟩
  | append_singleton ops o ih =>
    have hi' : ∀ l ∈ (insOf ops).head?, l.Pairwise (· ≤ ·) := by
      intro l hl
      apply hi l
      unfold insOf at hl ⊢
      rw [List.filterMap_append]
      revert hl
      cases List.filterMap _ ops <;> simp
    have ho' : ∀ l ∈ (otsOf ops).head?, l.Pairwise (· ≤ ·) := by
      intro l hl
      apply ho l
      unfold otsOf at hl ⊢
      rw [List.filterMap_append]
      revert hl
      cases List.filterMap _ ops <;> simp
    obtain ⟨h1, h2⟩ := ih hi' ho'
    rw [run_append]
    cases o with
    | setIn l =>
      have e1 : insOf (ops ++ [.setIn l]) = insOf ops ++ [l] := by simp [insOf]
      have e2 : otsOf (ops ++ [.setIn l]) = otsOf ops := by simp [otsOf]
      rw [e1, e2]
      refine ⟨acc_step _ _ l h1 ?_, h2⟩
      intro he
      apply hi l
      rw [e1, he]; rfl
    | setOt l =>
      have e1 : otsOf (ops ++ [.setOt l]) = otsOf ops ++ [l] := by simp [otsOf]
      have e2 : insOf (ops ++ [.setOt l]) = insOf ops := by simp [insOf]
      rw [e1, e2]
      refine ⟨h1, acc_step _ _ l h2 ?_⟩
      intro he
      apply ho l
      rw [e1, he]; rfl
    | setCustom l =>
      have e1 : otsOf (ops ++ [.setCustom l]) = otsOf ops := by simp [otsOf]
      have e2 : insOf (ops ++ [.setCustom l]) = insOf ops := by simp [insOf]
      rw [e1, e2]; exact ⟨h1, h2⟩
    | mask n m =>
      have e1 : otsOf (ops ++ [.mask n m]) = otsOf ops := by simp [otsOf]
      have e2 : insOf (ops ++ [.mask n m]) = insOf ops := by simp [insOf]
      rw [e1, e2]; exact ⟨h1, h2⟩
    | saveRestore =>
      have e1 : otsOf (ops ++ [MaskerOp.saveRestore]) = otsOf ops := by simp [otsOf]
      have e2 : insOf (ops ++ [MaskerOp.saveRestore]) = insOf ops := by simp [insOf]
      rw [e1, e2]; exact ⟨h1, h2⟩

/-- The hypotheses are met by a history with several registrations, in any order after the first, and a save/restore between them. -/
example : (Masker.run [.setIn [1, 4], .mask "weight" 7, .setOt [0], .saveRestore, .setIn [9, 2], .setOt [3, 3], .setIn [0]]).inIdx = some [0, 1, 2, 4, 9]
    ∧ (Masker.run [.setIn [1, 4], .mask "weight" 7, .setOt [0], .saveRestore, .setIn [9, 2], .setOt [3, 3], .setIn [0]]).otIdx = some [0, 3, 3]
    ∧ (∀ l ∈ (insOf (μ := Nat) [.setIn [1, 4], .mask "weight" 7, .setOt [0], .saveRestore, .setIn [9, 2]]).head?, l.Pairwise (· ≤ ·)) := by
  decide

/-- The same for the custom indices, for histories without save/restore. -/
theorem C48_custom_partial {μ : Type} (ops : List (MaskerOp μ)) (hns : ∀ o ∈ ops, o ≠ .saveRestore)
    (hc : ∀ l ∈ (customsOf ops).head?, l.Pairwise (· ≤ ·)) : Accumulated (customsOf ops) (Masker.run ops).customIdx := by
  induction ops using List.reverseRecOn with
  | nil => rfl
  | append_singleton ops o ih =>
    have hc' : ∀ l ∈ (customsOf ops).head?, l.Pairwise (· ≤ ·) := by
      intro l hl
      apply hc l
      unfold customsOf at hl ⊢
      rw [List.filterMap_append]
      revert hl
      cases List.filterMap _ ops <;> simp
    have h1 := ih (fun o h => hns o (by simp [h])) hc'
    rw [run_append]
    cases o with
    | setCustom l =>
      have e1 : customsOf (ops ++ [.setCustom l]) = customsOf ops ++ [l] := by simp [customsOf]
      rw [e1]
      refine acc_step _ _ l h1 ?_
      intro he
      apply hc l
      rw [e1, he]; rfl
    | setIn l => have e1 : customsOf (ops ++ [.setIn l]) = customsOf ops := by simp [customsOf]
                 rw [e1]; exact h1
    | setOt l => have e1 : customsOf (ops ++ [.setOt l]) = customsOf ops := by simp [customsOf]
                 rw [e1]; exact h1
    | mask n m => have e1 : customsOf (ops ++ [.mask n m]) = customsOf ops := by simp [customsOf]
                  rw [e1]; exact h1
    | saveRestore => exact absurd rfl (hns .saveRestore (by simp))

example : (Masker.run (μ := Nat) [.setCustom [2, 5], .setCustom [1]]).customIdx = some [1, 2, 5] := by decide

/-- The masks registered under a name, oldest first. -/
def masksOf {μ : Type} (name : String) (ops : List (MaskerOp μ)) : List μ :=
  ops.filterMap (fun | .mask n m => if n = name then some m else none | _ => none)

private theorem getMask_register {μ : Type} (ms : List (String × μ)) (n name : String) (m : μ) :
    getMask (registerMask ms n m) name = if n = name then some m else getMask ms name := by
  unfold getMask registerMask
  rw [List.find?_append, List.find?_filter]
  by_cases hn : n = name
  · subst hn
    have : ms.find? (fun p => decide ((p.1 != n) = true ∧ (p.1 == n) = true)) = none := by
      simp [List.find?_eq_none]
    rw [this]
    simp
  · have : ms.find? (fun p => decide ((p.1 != n) = true ∧ (p.1 == name) = true)) = ms.find? (fun p => p.1 == name) := by
      congr 1
      funext p
      by_cases hp : p.1 = name
      · simp [hp, Ne.symm hn]
      · simp [hp]
    rw [this]
    simp [hn]

/-- **C48** For every history of calls the mask found under a name is the one registered last under that name. -/
theorem C48_last_mask {μ : Type} (ops : List (MaskerOp μ)) (name : String) :
    getMask (Masker.run ops).masks name = (masksOf name ops).getLast? := by
  induction ops using List.reverseRecOn with
  | nil => rfl
  | append_singleton ops o ih =>
    have e : ∀ o', masksOf name (ops ++ [o']) = masksOf name ops ++ masksOf name [o'] := fun o' => List.filterMap_append
    rw [run_append, e]
    cases o with
    | mask n m =>
      rw [show ((Masker.run ops).step (.mask n m)).masks = registerMask (Masker.run ops).masks n m from rfl, getMask_register, ih]
      by_cases hn : n = name
      · simp [masksOf, hn]
      · rw [if_neg hn, show masksOf name [MaskerOp.mask n m] = [] by simp [masksOf, hn], List.append_nil]
    | setIn l => rw [show masksOf name [(MaskerOp.setIn l : MaskerOp μ)] = [] from rfl, List.append_nil]; exact ih
    | setOt l => rw [show masksOf name [(MaskerOp.setOt l : MaskerOp μ)] = [] from rfl, List.append_nil]; exact ih
    | setCustom l => rw [show masksOf name [(MaskerOp.setCustom l : MaskerOp μ)] = [] from rfl, List.append_nil]; exact ih
    | saveRestore => rw [show masksOf name [(MaskerOp.saveRestore : MaskerOp μ)] = [] from rfl, List.append_nil]; exact ih

example : getMask (Masker.run [.mask "weight" 1, .mask "bias" 2, .mask "weight" 3, .saveRestore]).masks "weight" = some 3 := by decide

/-- The property does not hold for the custom indices: saving and restoring loses them. -/
theorem C48_custom_false : ∃ ops : List (MaskerOp Nat), customsOf ops = [[1, 2]] ∧ (Masker.run ops).customIdx = none :=
  ⟨[.setCustom [1, 2], .saveRestore], rfl, rfl⟩

/-- Nor are the indices sorted after a single registration of an unsorted list. -/
theorem C48_unsorted_false : ∃ ops : List (MaskerOp Nat), (Masker.run ops).inIdx = some [3, 1] := ⟨[.setIn [3, 1]], rfl⟩

end Verif.Props
