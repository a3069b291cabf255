import Mathlib.Algebra.BigOperators.Group.Finset.Basic
import Mathlib.Algebra.Field.Defs

/-!
Pruning with the alternating direction method of multipliers, for the weight of one layer with `n` entries: auxiliary variable `z`, scaled dual variable `u`.
-/

namespace Verif.Spec.Admm

variable {α : Type} [Field α]

/-- The two variables. -/
structure Vars (α : Type) where
  z : ℕ → α
  u : ℕ → α

/-- `v` with every entry that is not kept set to 0. -/
def project (keep : ℕ → Bool) (v : ℕ → α) : ℕ → α := fun i => if keep i then v i else 0

/-- Before the first round: `z` is the pruned weight, `u` is 0.  `keep v` are the entries that stay when the importance is computed from `v`. -/
def start (keep : (ℕ → α) → ℕ → Bool) (w : ℕ → α) : Vars α := ⟨project (keep w) w, fun _ => 0⟩

/-- After a round that ended with weight `w`: `z = Π(w + u)`, `u = u + w - z`. -/
def next (keep : (ℕ → α) → ℕ → Bool) (s : Vars α) (w : ℕ → α) : Vars α :=
  let v := fun i => w i + s.u i
  ⟨project (keep v) v, fun i => s.u i + w i - project (keep v) v i⟩

/-- The variables after rounds that ended with the given weights. -/
def after (keep : (ℕ → α) → ℕ → Bool) (w : ℕ → α) (rounds : List (ℕ → α)) : Vars α := rounds.foldl (next keep) (start keep w)

/-- What is added to the loss: `ρ/2 ‖w - z + u‖²`. -/
def penalty (n : ℕ) (rho : α) (s : Vars α) (w : ℕ → α) : α := rho / 2 * ∑ i ∈ Finset.range n, (w i - s.z i + s.u i) ^ 2

/-- `g` is the derivative of the quadratic function `f` at `w` in direction `i`. -/
def IsSlope (f : (ℕ → α) → α) (w : ℕ → α) (i : ℕ) (g : α) : Prop :=
  ∃ c, ∀ h, f (fun j => if j = i then w j + h else w j) = f w + h * g + h * h * c

/-- The learning rate falls to a tenth after each third of a round: number of thirds that are over after `offset` of `epochs` epochs. -/
def thirds (offset epochs : ℕ) : ℕ := if 2 * epochs ≤ 3 * offset then 2 else if epochs ≤ 3 * offset then 1 else 0

end Verif.Spec.Admm
