import Verif.Spec.StateIo
/-!
C131: recurrent states as inputs and outputs.
-/

namespace Verif.Props
open Verif.Model.StateIo Verif.Spec.StateIo

/-- **C131**.  For models whose recurrent layers get batched inputs and no states yet, hand on their result to one node, and use no projection in LSTMs, exactly one input and one output is added per state, in the order of the
layers, and every added input has the shape PyTorch asks for. -/
theorem C131_states_partial (ns : List RnnNode) (h : ∀ n ∈ ns, n.prevNodes = 1 ∧ n.nextNodes = 1 ∧ n.input.length = 3 ∧ (n.lstm = true → n.proj = 0)) :
    (added ns).1 = ns.flatMap expected ∧ (added ns).2 = (ns.map states).sum ∧ (added ns).1.length = (added ns).2 := by
  have one : ∀ n ∈ ns, addedInputs n = expected n ∧ addedOutputs n = states n ∧ (addedInputs n).length = addedOutputs n := by
    intro n hn
    obtain ⟨h1, h2, h3, h4⟩ := h n hn
    obtain ⟨a, b, c, hi⟩ : ∃ a b c, n.input = [a, b, c] := by
      match hm : n.input, h3 with
      | [a, b, c], _ => exact ⟨a, b, c, rfl⟩
    refine ⟨?_, ?_, ?_⟩
    · unfold addedInputs hiddenShape expected rows batchOf
      rw [if_pos h1, hi]
      cases hl : n.lstm with
      | true =>
        rw [h4 hl]
        simp [Nat.mul_comm]
      | false =>
        by_cases hp : n.proj = 0
        · simp [hp, Nat.mul_comm]
        · have : n.proj > 0 := by omega
          simp [this, hp, Nat.mul_comm]
    · unfold addedOutputs states
      rw [if_pos h2]
    · unfold addedInputs addedOutputs
      rw [if_pos h1, if_pos h2]
      cases n.lstm <;> rfl
  unfold added
  simp only
  clear h
  induction ns with
  | nil => exact ⟨rfl, rfl, rfl⟩
  | cons n r ih =>
    obtain ⟨i1, i2, i3⟩ := ih (fun m hm => one m (List.mem_cons_of_mem _ hm))
    obtain ⟨o1, o2, o3⟩ := one n (by simp)
    rw [List.flatMap_cons, List.flatMap_cons, List.map_cons, List.map_cons, List.sum_cons, List.sum_cons, List.length_append, i1, i2, o1, o2]
    refine ⟨rfl, rfl, ?_⟩
    rw [← o1, ← i1, o3, i3, o2, i2]

/-- A model with a bidirectional LSTM of two layers and a GRU. -/
def rnnDemo : List RnnNode := [⟨true, true, true, 2, 16, 0, [4, 10, 8], 1, 1⟩, ⟨false, false, false, 1, 5, 0, [10, 4, 32], 1, 1⟩]

example : (∀ n ∈ rnnDemo, n.prevNodes = 1 ∧ n.nextNodes = 1 ∧ n.input.length = 3 ∧ (n.lstm = true → n.proj = 0)) ∧ added rnnDemo = ([[4, 4, 16], [4, 4, 16], [1, 4, 5]], 3) := by decide

/-- **C131**.  A layer that already gets its states gets no further inputs. -/
theorem C131_given_states (n : RnnNode) (h : n.prevNodes ≠ 1) : addedInputs n = [] := by
  unfold addedInputs
  rw [if_neg h]

/-- The cell state of an LSTM with a projection gets the size of the projection, for every such LSTM whose projection is smaller than its hidden size. -/
theorem C131_projection_false (n : RnnNode) (hl : n.lstm = true) (h1 : n.prevNodes = 1) (hp : 0 < n.proj) (hs : n.proj < n.hidden) (a b c : Nat) (hi : n.input = [a, b, c]) :
    (addedInputs n)[1]? ≠ (expected n)[1]? := by
  unfold addedInputs expected hiddenShape
  rw [if_pos h1, if_pos hl, hi]
  simp only [hl, if_true, hp, List.getElem?_cons_succ, List.getElem?_cons_zero, ne_eq, Option.some.injEq, List.cons.injEq, and_true, not_and]
  omega

example : addedInputs ⟨true, true, false, 1, 16, 4, [2, 3, 8], 1, 1⟩ = [[1, 2, 4], [1, 2, 4]] ∧ expected ⟨true, true, false, 1, 16, 4, [2, 3, 8], 1, 1⟩ = [[1, 2, 4], [1, 2, 16]] := by decide

/-- For an input without a batch the states get a dimension too many. -/
theorem C131_unbatched_false (n : RnnNode) (h1 : n.prevNodes = 1) (a b : Nat) (hi : n.input = [a, b]) : addedInputs n ≠ expected n := by
  unfold addedInputs expected hiddenShape
  rw [if_pos h1, hi]
  cases n.lstm <;> simp

/-- If two nodes read the result of a layer, its states become inputs but not outputs: the model cannot be run on a sequence piece by piece. -/
theorem C131_two_readers_false (n : RnnNode) (h1 : n.prevNodes = 1) (h2 : n.nextNodes = 2) : (addedInputs n).length = states n ∧ addedOutputs n = 0 := by
  unfold addedInputs addedOutputs states
  rw [if_pos h1]
  constructor
  · cases n.lstm <;> rfl
  · rw [if_neg (by omega)]

end Verif.Props
