/-!
Specification vocabulary for channel-dependency sets: which indices are linked, and when two sets
are disjoint.  Independent of the model of the pruner.
-/

namespace Verif.Spec

/-- `x` and `y` are linked by the family `c`: a finite chain of sets of `c` leads from `x` to `y`,
consecutive sets sharing an element. -/
inductive Linked (c : List (List Int)) : Int → Int → Prop
  | same {s : List Int} {x y : Int} : s ∈ c → x ∈ s → y ∈ s → Linked c x y
  | trans {x y z : Int} : Linked c x y → Linked c y z → Linked c x z

/-- No common element. -/
def DisjointSets (a b : List Int) : Prop := ∀ x, x ∈ a → x ∉ b

/-- `x` occurs in some set of the family. -/
def Covered (c : List (List Int)) (x : Int) : Prop := ∃ s ∈ c, x ∈ s

/-- `s` and `t` have the same elements. -/
def SameSet (s t : List Int) : Prop := ∀ x, x ∈ s ↔ x ∈ t

end Verif.Spec
