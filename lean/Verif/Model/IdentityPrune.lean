/-!
Model of `SubGraph.calc_prune_idx_by_bn_variance` (used by the identity pruner), `/repo/tinynn/graph/modifier.py` 2596-2732: which
channels of a centre are removed.  Simplifications: one centre, so the propagation to dependent centres (2668-2682) is not modelled; the
batch-norm leaves that are skipped (2612-2645) are not in the list of leaves; `running_var < 1e-8` is the flag of each leaf channel.
Python dictionaries are association lists in insertion order.
-/

namespace Verif.Model

/-- A batch-norm leaf: for every leaf channel, whether its variance is (almost) zero, and the centre channels it reads
(`leaf_to_center[center][leaf_idx]`, in iteration order). -/
structure BnLeaf where
  chans : List (Bool × List Nat)

/-- `d[k] = v`. -/
def dictSet (d : List (Nat × Bool)) (k : Nat) (v : Bool) : List (Nat × Bool) :=
  match d with
  | [] => [(k, v)]
  | (k', v') :: r => if k' = k then (k, v) :: r else (k', v') :: dictSet r k v

/-- `d.get(k)`. -/
def dictGet (d : List (Nat × Bool)) (k : Nat) : Option Bool := (d.find? (fun p => p.1 == k)).map Prod.snd

/-- modifier.py 2656-2667: `invalid_center_idxes[center][leaf]`, filled leaf channel by leaf channel. -/
def leafStates (leaf : BnLeaf) : List (Nat × Bool) :=
  leaf.chans.foldl (fun d c => c.2.foldl (fun d k => dictSet d k c.1) d) []

/-- modifier.py 2689-2692: the loop body. -/
def andSet (d : List (Nat × Bool)) (p : Nat × Bool) : List (Nat × Bool) :=
  match dictGet d p.1 with
  | none => dictSet d p.1 p.2
  | some s => dictSet d p.1 (s && p.2)

/-- modifier.py 2684-2693: `invalid_center_idx_dict`, the conjunction over the leaves. -/
def centerStates (leaves : List BnLeaf) : List (Nat × Bool) :=
  leaves.foldl (fun d leaf => (leafStates leaf).foldl andSet d) []

/-- modifier.py 2695-2698: `invalid_center_idx_set`. -/
def deadSet (leaves : List BnLeaf) : List Nat := ((centerStates leaves).filter (fun p => p.2)).map Prod.fst

/-- Python `lst[:-r]` for `r ≥ 0`; `lst[:-0]` is `lst[:0]`. -/
def sliceNeg {α : Type} (l : List α) (r : Nat) : List α := if r = 0 then [] else l.take (l.length - r)

/-- modifier.py 2700-2704.  `l` is the set in its iteration order; `none` is the ZeroDivisionError of `% 0`. -/
def roundMultiple (l : List Nat) (multiple : Option Nat) : Option (List Nat) :=
  match multiple with
  | none => some l
  | some 0 => none
  | some m => some (sliceNeg l (l.length % m))

/-- modifier.py 2684-2706: `pruned_center_constraint_all[center]`; `order` is the iteration order of `list(set)`. -/
def identityPrune (order : List Nat → List Nat) (leaves : List BnLeaf) (multiple : Option Nat) : Option (List Nat) :=
  roundMultiple (match multiple with | none => deadSet leaves | some _ => order (deadSet leaves)) multiple

end Verif.Model
