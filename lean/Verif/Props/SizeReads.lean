import Verif.Model.SizeReads
/-!
C159: sizes read while tracing are those of the tensors they are read from.
-/

namespace Verif.Props
open Verif.Spec.SizeReads Verif.Model.SizeReads

/-- What is recorded under an address comes from an earlier read at that address, with the size it had then. -/
def SizesFrom (traced : Nat → List Nat) (past : List Read) (s : State) : Prop :=
  ∀ a n, s.preNode a = some n → s.original a = some (traced n) ∧ ⟨n, a⟩ ∈ past

theorem newNode_from (traced : Nat → List Nat) (past : List Read) (s : State) (r : Read) (h : SizesFrom traced past s) : SizesFrom traced (r :: past) (newNode traced s r).1 := by
  intro a n hn
  unfold newNode at hn ⊢
  by_cases ha : a = r.address
  · simp only [ha, if_true, Option.some.injEq] at hn ⊢
    subst hn
    exact ⟨rfl, by simp⟩
  · simp only [ha, if_false] at hn ⊢
    obtain ⟨h1, h2⟩ := h a n hn
    exact ⟨h1, by simp [h2]⟩

/-- A read gives the tensor itself, or one read before at the same address that had the same size. -/
theorem readShape_from (traced : Nat → List Nat) (past : List Read) (s : State) (r : Read) (h : SizesFrom traced past s) :
    SizesFrom traced (r :: past) (readShape traced s r).1
      ∧ ((readShape traced s r).2 = r.tensor ∨ (⟨(readShape traced s r).2, r.address⟩ ∈ past ∧ traced (readShape traced s r).2 = traced r.tensor)) := by
  unfold readShape
  cases hp : s.preNode r.address with
  | none => exact ⟨newNode_from traced past s r h, Or.inl rfl⟩
  | some n =>
    obtain ⟨h1, h2⟩ := h _ _ hp
    rw [h1]
    by_cases ho : traced n = traced r.tensor
    · simp only [ho, if_true]
      refine ⟨fun a m hm => ?_, Or.inr ⟨h2, trivial⟩⟩
      obtain ⟨g1, g2⟩ := h a m hm
      exact ⟨g1, by simp [g2]⟩
    · simp only [ho, if_false]
      exact ⟨newNode_from traced past s r h, Or.inl rfl⟩

theorem nodes_sizes (traced sizes : Nat → List Nat) (rs past : List Read) (s : State) (h : SizesFrom traced past s)
    (hs : ∀ a ∈ past ++ rs, ∀ b ∈ past ++ rs, a.address = b.address → traced a.tensor = traced b.tensor → sizes a.tensor = sizes b.tensor) :
    (nodes traced s rs).map sizes = expected sizes rs := by
  induction rs generalizing past s with
  | nil => rfl
  | cons r rs ih =>
    obtain ⟨h1, h2⟩ := readShape_from traced past s r h
    unfold nodes
    have mem : ∀ a, a ∈ (r :: past) ++ rs → a ∈ past ++ r :: rs := by
      intro a ha
      simp only [List.mem_append, List.mem_cons] at ha ⊢
      rcases ha with (ha | ha) | ha <;> simp [ha]
    rw [List.map_cons, ih (r :: past) _ h1 fun a ha b hb => hs a (mem a ha) b (mem b hb)]
    have e : sizes (readShape traced s r).2 = sizes r.tensor := by
      rcases h2 with h2 | ⟨h2, h3⟩
      · rw [h2]
      · exact hs ⟨_, r.address⟩ (by simp [h2]) r (by simp) rfl h3
    rw [e]
    rfl

/-- Sizes are read correctly for inputs of any size if no two tensors of the same size when traced, of different sizes now, are read at the same address. -/
theorem C159_sizes_partial (traced sizes : Nat → List Nat) (rs : List Read)
    (hs : ∀ a ∈ rs, ∀ b ∈ rs, a.address = b.address → traced a.tensor = traced b.tensor → sizes a.tensor = sizes b.tensor) :
    readBack traced sizes rs = expected sizes rs :=
  nodes_sizes traced sizes rs [] start (fun _ _ h => by cases h) (by simpa using hs)

/-- With the input used for tracing, sizes are read correctly wherever the objects are. -/
theorem C159_traced (traced : Nat → List Nat) (rs : List Read) : readBack traced traced rs = expected traced rs :=
  C159_sizes_partial traced traced rs fun _ _ _ _ _ h => h

/-- If no address is used twice, sizes are read correctly for inputs of any size. -/
theorem C159_kept (traced sizes : Nat → List Nat) (rs : List Read) (hn : ∀ a ∈ rs, ∀ b ∈ rs, a.address = b.address → a.tensor = b.tensor) :
    readBack traced sizes rs = expected sizes rs :=
  C159_sizes_partial traced sizes rs fun a ha b hb hab _ => by rw [hn a ha b hb hab]

/-- Two tensors of the same size when traced, the second read where the size of the first was: with other sizes, the size of the first is read twice. -/
theorem C159_reused_false : ∃ (traced sizes : Nat → List Nat) (rs : List Read), readBack traced sizes rs ≠ expected sizes rs :=
  ⟨fun _ => [1, 8], fun t => [t + 1, 8], [⟨0, 1000⟩, ⟨1, 1000⟩], by decide +kernel⟩

/-- Whenever the address is used again, for every pair of tensors of the same size when traced. -/
theorem C159_reused (traced sizes : Nat → List Nat) (x y address : Nat) (h : traced x = traced y) : readBack traced sizes [⟨x, address⟩, ⟨y, address⟩] = [sizes x, sizes x] := by
  simp [readBack, nodes, readShape, newNode, start, h]

/-- Sizes differing when traced are told apart although they are at the same address. -/
example : let traced : Nat → List Nat := fun t => [t + 1, 8]
    let sizes : Nat → List Nat := fun t => [10 * t, 8]
    readBack traced sizes [⟨0, 1000⟩, ⟨1, 1000⟩, ⟨0, 1000⟩] = [[0, 8], [10, 8], [0, 8]]
      ∧ ∀ a ∈ [(⟨0, 1000⟩ : Read), ⟨1, 1000⟩, ⟨0, 1000⟩], ∀ b ∈ [(⟨0, 1000⟩ : Read), ⟨1, 1000⟩, ⟨0, 1000⟩], a.address = b.address → traced a.tensor = traced b.tensor → sizes a.tensor = sizes b.tensor := by
  decide +kernel

end Verif.Props
