import Mathlib.Data.Finset.Card
import Mathlib.Data.Finset.Sort
import Mathlib.Data.Rat.Defs
import Mathlib.Algebra.Order.Ring.Rat
import Mathlib.Data.List.Sort

/-!
Model of the selection of the channels of one leaf in `SubGraph.calc_prune_idx_by_center_importance`,
`/repo/tinynn/graph/modifier.py` 2836-2890.  Fractions are exact rationals (Python floats in the code).  The construction of the leaf
constraints and importances from the centres (2741-2834) is not modelled here: they are the argument.
-/

namespace Verif.Model

/-- An entry of `leaf_importance`: a set of leaf indices that must be pruned together, and its importance. -/
structure LeafSet where
  idx : Finset Nat
  imp : ℚ
  deriving DecidableEq

/-- modifier.py 2862-2876: the check made when the centre has already been pruned through another leaf.  `len(center_constraint)`,
`len(pruned_center_constraint_all[center])` and the mapping of leaf indices to centre indices. -/
structure Prior where
  constraintLen : ℚ
  prunedLen : ℚ
  toCenter : Finset Nat → Finset Nat

/-- modifier.py 2862-2876: whether the loop breaks before taking `c`. -/
def globalStop (sp : ℚ) (prior : Option Prior) (pruned c : Finset Nat) : Bool :=
  match prior with
  | none => false
  | some p => decide (sp < (p.prunedLen + pruned.card + (p.toCenter c).card) / p.constraintLen)

/-- modifier.py 2855-2886: the `while` loop over the sorted sets.  Returns `pruned_leaf_idx` and the sets appended to
`pruned_leaf_constraint`. -/
def greedyLoop (sp total delta : ℚ) (prior : Option Prior) : List LeafSet → ℚ → Finset Nat → Finset Nat × List LeafSet
  | [], _, pruned => (pruned, [])
  | c :: rest, cur, pruned =>
    if cur < sp then
      if globalStop sp prior pruned c.idx then (pruned, [])
      else
        let r := greedyLoop sp total delta prior rest ((pruned.card + c.idx.card + delta) / total) (pruned ∪ c.idx)
        (r.1, c :: r.2)
    else (pruned, [])

/-- What happens to one group of the leaf: the group, the sets considered (`valid_importance`, sorted) and the sets pruned. -/
structure GroupResult where
  group : Finset Nat
  valid : List LeafSet
  pruned : List LeafSet

/-- modifier.py 2837-2890: one iteration of `for group in self.leaf_group[leaf]`, with `leaf_delta_idx` threaded through; `none` is the
failed assertion that a set lies inside the group. -/
def pruneGroup (sp : ℚ) (prior : Option Prior) (sets : List LeafSet) (delta : ℚ) (group : Finset Nat) :
    Option (ℚ × List GroupResult) :=
  let valid := sets.filter (fun c => decide (0 < (c.idx ∩ group).card))
  if valid.all (fun c => decide (c.idx ⊆ group)) then
    if valid.isEmpty then some (delta, [])
    else
      let sorted := valid.insertionSort (fun a b => a.imp ≤ b.imp)
      let total : ℚ := ((sorted.map (fun c => c.idx.card)).sum : Nat)
      let r := greedyLoop sp total delta prior sorted 0 ∅
      some (delta + (r.1.card - total * sp), [⟨group, sorted, r.2⟩])
  else none

/-- modifier.py 2836-2890: all groups of a leaf, starting with `leaf_delta_idx = delta`. -/
def pruneLeaf (sp : ℚ) (prior : Option Prior) (sets : List LeafSet) : List (Finset Nat) → ℚ → Option (ℚ × List GroupResult)
  | [], delta => some (delta, [])
  | g :: gs, delta =>
    match pruneGroup sp prior sets delta g with
    | none => none
    | some (delta', res) =>
      match pruneLeaf sp prior sets gs delta' with
      | none => none
      | some (delta'', res') => some (delta'', res ++ res')

end Verif.Model
