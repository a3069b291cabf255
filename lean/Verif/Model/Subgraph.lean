import Verif.Spec.Subgraph
import Mathlib.Data.List.Sort
import Mathlib.Data.List.Dedup

/-!
Model of `SubGraphDivider.divide_subgraph`, `/repo/tinynn/graph/modifier.py` 3282-3327.  An operator is its position in `self.modifiers`.  A dictionary is
a partial function (the order of its keys is not represented); the set of operators of a subgraph is a list.  `none` results are KeyErrors or lack of fuel.
-/

namespace Verif.Model
open Verif.Spec

variable {C : Type} [LinearOrder C]

/-- `sub_graphs` and `center_mapping`. -/
structure DivState (C : Type) where
  sub : C → Option (List Nat)
  mapping : C → Option C

/-- Lines 3287-3292: `sub_graphs[center_name].add(modifier)`, creating the set if needed. -/
def addToSub (sub : C → Option (List Nat)) (c : C) (m : Nat) : C → Option (List Nat) :=
  fun x => if x = c then some ((sub c).getD [] ++ [m]) else sub x

/-- Lines 3285-3292. -/
def initSub (ops : List (CenterInfo C)) : C → Option (List Nat) :=
  ops.zipIdx.foldl (fun sub p => p.1.centers.foldl (fun sub c => addToSub sub c p.2) sub) (fun _ => none)

/-- Lines 3303-3305: `while main_center not in sub_graphs and main_center in center_mapping`. -/
def findMain (s : DivState C) : Nat → C → Option C
  | 0, _ => none
  | f + 1, c => if (s.sub c).isSome then some c else match s.mapping c with | some d => findMain s f d | none => some c

/-- Lines 3317-3318: `while redirect_center not in sub_graphs: redirect_center = center_mapping[redirect_center]`. -/
def findRedirect (s : DivState C) : Nat → C → Option C
  | 0, _ => none
  | f + 1, c => if (s.sub c).isSome then some c else match s.mapping c with | some d => findRedirect s f d | none => none

/-- Lines 3311-3313 and 3321-3323: move the operators of `r` to `main`. -/
def mergeSub (s : DivState C) (main r : C) : Option (DivState C) :=
  match s.sub main, s.sub r with
  | some a, some b => some ⟨fun x => if x = r then none else if x = main then some (a ++ b) else s.sub x, fun x => if x = r then some main else s.mapping x⟩
  | _, _ => none

/-- Lines 3307-3323: one redundant centre. -/
def divRedundant (fuel : Nat) (main : C) (s : DivState C) (r : C) : Option (DivState C) :=
  if r = main then some s
  else if (s.sub r).isSome then mergeSub s main r
  else (findRedirect s fuel r).bind (fun d => if (s.sub d).isSome ∧ d ≠ main then mergeSub s main d else some s)

/-- Lines 3295-3323: one operator. -/
def divStep (fuel : Nat) (s : DivState C) (m : CenterInfo C) : Option (DivState C) :=
  match (m.inputCenters.dedup).insertionSort (· ≤ ·) with
  | [] => some s
  | [_] => some s
  | c :: rest => (findMain s fuel c).bind (fun main => rest.foldlM (divRedundant fuel main) s)

/-- `divide_subgraph`: the dictionary of subgraphs. -/
def divideSubgraph (fuel : Nat) (ops : List (CenterInfo C)) : Option (DivState C) :=
  ops.foldlM (divStep fuel) ⟨initSub ops, fun _ => none⟩

end Verif.Model
