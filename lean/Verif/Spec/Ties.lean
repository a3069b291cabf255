import Mathlib.Logic.Relation
import Mathlib.Data.Nat.Notation
import Mathlib.Data.Int.Notation

/-!
Channels of the layers whose outputs are pruned (centers) and the positions of the layers that consume them (leaves): a channel feeds positions; what feeds or is fed by the same is pruned together.
-/

namespace Verif.Spec.Ties

/-- A channel of a center or a position of a leaf. -/
inductive Node
  | channel (center : ℕ) (x : ℤ)
  | position (leaf : ℕ) (i : ℕ)

/-- What a leaf knows: for each center one or more tables, and in a table for each position the set of channels that feed it; `-1` stands for none. -/
abbrev Leaf := List (ℕ × List (List (List ℤ)))

/-- Channel `x` of center `c` feeds position `i` of the leaf. -/
def Feeds (l : Leaf) (c : ℕ) (x : ℤ) (i : ℕ) : Prop := x ≠ -1 ∧ ∃ e ∈ l, e.1 = c ∧ ∃ t ∈ e.2, ∃ s, t[i]? = some s ∧ x ∈ s

/-- Direct connection, through the leaves numbered in `only`. -/
inductive Edge (ls : List Leaf) (only : ℕ → Prop) : Node → Node → Prop
  | feeds {k : ℕ} {l : Leaf} {c : ℕ} {x : ℤ} {i : ℕ} (hk : ls[k]? = some l) (ho : only k) (h : Feeds l c x i) : Edge ls only (.channel c x) (.position k i)

/-- Connection through any number of steps. -/
def Connected (ls : List Leaf) (only : ℕ → Prop) : Node → Node → Prop := Relation.EqvGen (Edge ls only)

/-- A set that has the mark for none has nothing else. -/
def Marked (ls : List Leaf) : Prop := ∀ l ∈ ls, ∀ e ∈ l, ∀ t ∈ e.2, ∀ s ∈ t, (-1 : ℤ) ∈ s → ∀ x ∈ s, x = -1

/-- The groups (for each center a list of sets of channels) put `x` and `y` together. -/
def Together (t : List (ℕ × List (List ℤ))) (c : ℕ) (x y : ℤ) : Prop := ∃ e ∈ t, e.1 = c ∧ ∃ s ∈ e.2, x ∈ s ∧ y ∈ s

end Verif.Spec.Ties
