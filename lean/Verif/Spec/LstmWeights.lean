import Verif.Model.LstmWeights
import Mathlib.Algebra.Order.Group.Lattice
/-!
What rounding the weights of an LSTM is to mean.
-/

namespace Verif.Spec.LstmWeights
open Verif.Model.LstmWeights

/-- The rows of gate `g` (0 to 3) of a weight with `h` hidden units. -/
def gate (m : Mat) (h g : Nat) : Mat := (m.drop (g * h)).take h

/-- `step` is the grid of 8-bit symmetric quantization without -128: a 127th of the largest magnitude, or `eps` if that is larger. -/
def IsStep (eps : ℝ) (xs : List ℝ) (step : ℝ) : Prop :=
  (∀ x ∈ xs, |x| / 127 ≤ step) ∧ eps ≤ step ∧ (step = eps ∨ ∃ x ∈ xs, step = |x| / 127)

/-- `q` is the weight `m` with each of its four gates rounded to its own grid: every entry moves by at most half of the gate's step, to a multiple of it by an integer between -127 and 127. -/
def Rounded (eps : ℝ) (h : Nat) (m q : Mat) : Prop :=
  ∀ g, g < 4 → ∃ (step : ℝ) (f : ℝ → ℝ), IsStep eps (gate m h g).flatten step ∧ gate q h g = (gate m h g).map (List.map f) ∧
    ∀ x ∈ (gate m h g).flatten, |f x - x| ≤ step / 2 ∧ ∃ k : Int, |k| ≤ 127 ∧ f x = k * step

/-- Two states of the same model: the same modules, whatever their weights. -/
def SameModules (a b : List Layer) : Prop := a.map (fun l => (l.name, l.lstm)) = b.map (fun l => (l.name, l.lstm))

end Verif.Spec.LstmWeights
