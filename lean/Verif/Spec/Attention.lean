import Mathlib.Algebra.Ring.Defs
import Mathlib.Algebra.BigOperators.Group.Finset.Basic

/-!
Multi-head attention over a whole sequence, as the original attention layer computes it: three separate projections, rotary position, and for every token the
tokens it may look at.  The weighting itself and the rotation are parameters.
-/

namespace Verif.Spec.Attention

variable {α : Type} [CommRing α]

/-- `W x` for a matrix with rows of length `n`. -/
def apply (n : ℕ) (w : ℕ → ℕ → α) (x : ℕ → α) (r : ℕ) : α := ∑ c ∈ Finset.range n, w r c * x c

/-- The weights of an attention layer: hidden size, heads, size of a head, projections. -/
structure Layer (α : Type) where
  hidden : ℕ
  heads : ℕ
  dim : ℕ
  wq : ℕ → ℕ → α
  wk : ℕ → ℕ → α
  wv : ℕ → ℕ → α
  wo : ℕ → ℕ → α

/-- Attention of one query over the keys and values it may look at, and the rotation of a vector by its position. -/
structure Kernel (α : Type) where
  att : (ℕ → α) → List ((ℕ → α) × (ℕ → α)) → ℕ → α
  rot : ℕ → (ℕ → α) → ℕ → α

/-- Head `h` of a projection. -/
def head (l : Layer α) (w : ℕ → ℕ → α) (x : ℕ → α) (h d : ℕ) : α := apply l.hidden w x (h * l.dim + d)

/-- The output for token `i` of a sequence when token `i` may look at token `j` iff `vis i j`. -/
def tokenOut (k : Kernel α) (l : Layer α) (vis : ℕ → ℕ → Bool) (xs : List (ℕ → α)) (i : ℕ) : ℕ → α :=
  let heads := fun h => k.att (k.rot i (head l l.wq (xs.getD i fun _ => 0) h))
    (((List.range xs.length).filter (vis i)).map fun j =>
      (k.rot j (head l l.wk (xs.getD j fun _ => 0) h), head l l.wv (xs.getD j fun _ => 0) h))
  apply l.hidden l.wo fun r => heads (r / l.dim) (r % l.dim)

/-- The outputs for a whole sequence. -/
def attention (k : Kernel α) (l : Layer α) (vis : ℕ → ℕ → Bool) (xs : List (ℕ → α)) : List (ℕ → α) :=
  (List.range xs.length).map (tokenOut k l vis xs)

/-- Every token may look at itself and all before it. -/
def causal (i j : ℕ) : Bool := decide (j ≤ i)

end Verif.Spec.Attention
