import Verif.Model.MergeConstraint
import Verif.Spec.Ties

/-!
Model of the first half of `SubGraph.calc_prune_idx` (`tinynn/graph/modifier.py:2916-3010`), which finds out which channels have to be pruned together.  Centers are numbered, a leaf has its constraints
for the centers of the subgraph (entries for other centers are skipped by the code); dictionaries are lists in order of insertion.
Simplified: a position that a center's tables do not have gives no channels, where the code would raise `KeyError` (all tables of a leaf have the length of its pruned dimension).  Groups and the
choice of what to prune are in other models.
-/

namespace Verif.Model.CenterConstraint
open Verif.Model Verif.Spec.Ties

/-- `center_constraint`. -/
abbrev Table := List (ℕ × List PySet)

/-- `center_constraint[c] = center_constraint.get(c, []); center_constraint[c] += sets` (modifier.py:2937-2939). -/
def extend (c : ℕ) (sets : List PySet) : Table → Table
  | [] => [(c, sets)]
  | e :: r => if e.1 = c then (e.1, e.2 ++ sets) :: r else e :: extend c sets r

/-- The constraints of one leaf (modifier.py:2932-2939). -/
def extendLeaf (t : Table) (l : Leaf) : Table := l.foldl (fun t e => e.2.foldl (fun t constraint => extend e.1 constraint t) t) t

/-- All constraints, merged center by center (modifier.py:2921-2942). -/
def initial (ls : List Leaf) : Table := (ls.foldl extendLeaf []).map fun e => (e.1, mergeConstraint e.2)

/-- The positions a channel feeds: `center_to_leaf[c][x]`, without the mark (modifier.py:2965-2982). -/
def centerToLeaf (l : Leaf) (c : ℕ) (x : ℤ) : List ℕ :=
  if x = -1 then [] else
  (l.filter fun e => e.1 = c).flatMap fun e => e.2.flatMap fun t => (List.range t.length).filter fun i => (t.getD i []).contains x

/-- The channels that feed a position: `leaf_to_center[c][i]` (modifier.py:2970-2973). -/
def leafToCenter (l : Leaf) (c : ℕ) (i : ℕ) : PySet := (l.filter fun e => e.1 = c).flatMap fun e => e.2.flatMap fun t => t.getD i []

/-- `if s not in all: all.append(s)` (modifier.py:3001-3002, 3017-3018). -/
def addSet (all : List PySet) (s : PySet) : List PySet := if all.any (pySetEq s) then all else all ++ [s]

/-- The positions that belong together (modifier.py:2990-3003). -/
def leafSets (t : Table) (l : Leaf) : List PySet :=
  mergeConstraint (t.foldl (fun all e => if l.any (fun d => d.1 = e.1) then e.2.foldl (fun all s => addSet all (s.flatMap fun x => (centerToLeaf l e.1 x).map fun (i : ℕ) => (i : ℤ))) all else all) [])

/-- The channels of a center that belong together according to the leaf (modifier.py:3007-3018). -/
def backSets (l : Leaf) (c : ℕ) (positions : List PySet) : List PySet :=
  positions.foldl (fun all p => addSet all ((p.flatMap fun i => leafToCenter l c i.toNat).filter fun x => x ≠ -1)) []

/-- One leaf (modifier.py:2985-3023). -/
def aggregateLeaf (t : Table) (l : Leaf) : Table :=
  let p := leafSets t l
  t.map fun e => if l.any (fun d => d.1 = e.1) then (e.1, mergeConstraint (e.2 ++ backSets l e.1 p)) else e

/-- All leaves, one after the other (modifier.py:2985). -/
def aggregate (ls : List Leaf) : Table := ls.foldl aggregateLeaf (initial ls)

end Verif.Model.CenterConstraint
