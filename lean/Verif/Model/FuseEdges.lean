import Mathlib.Data.List.Basic

/-!
Model of `fuse_connected_edges`, `/repo/tinynn/converter/operators/optimize.py` 4518-4543.  Vertices are values of a type with decidable equality.
-/

namespace Verif.Model

variable {V : Type} [DecidableEq V]

/-- Lines 4522 and 4523: in `{key(n): i for i, n in enumerate(l)}` the last sequence with a key wins. -/
def lastWith (key : List V → Option V) (l : List (List V)) (v : V) : Option (List V) := l.reverse.find? (fun s => key s == some v)

/-- Line 4524: `connectables = heads.keys() & tails.keys()`. -/
def connectable (l : List (List V)) (v : V) : Bool := (lastWith List.head? l v).isSome && (lastWith List.getLast? l v).isSome

/-- Line 4528. -/
def headConnectable (l : List (List V)) (s : List V) : Bool := match s.head? with | some v => connectable l v | none => false

/-- Line 4529: the sequence that ends where `s` begins has itself a connectable head. -/
def preserved (l : List (List V)) (s : List V) : Bool :=
  headConnectable l s && match s.head?.bind (lastWith List.getLast? l) with | some p => headConnectable l p | none => false

/-- Lines 4530-4536: what a sequence contributes to the next round. -/
def fuseOne (l : List (List V)) (s : List V) : Option (List V) :=
  if preserved l s then some s
  else if ¬ headConnectable l s then
    match s.getLast?.bind (fun v => if connectable l v then lastWith List.head? l v else none) with
    | some t => some (s ++ t.tail)
    | none => some s
  else none

/-- Lines 4521-4541, with fuel for `while True`. -/
def fuseConnectedEdges : Nat → List (List V) → Option (List (List V))
  | 0, _ => none
  | f + 1, l => if l.any (headConnectable l) then fuseConnectedEdges f (l.filterMap (fuseOne l)) else some l

end Verif.Model
