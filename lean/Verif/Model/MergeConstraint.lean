import Mathlib.Data.List.Dedup
import Mathlib.Data.List.Sort

/-!
Model of `merge_constraint` in `/repo/tinynn/graph/modifier.py` lines 194-239.

A Python `set` is represented by the list of its elements in the order in which CPython iterates
over it; nothing is assumed about that order.  The Python lists `constraint`, `reindex_list` and the
dictionary `homology_idx`, which are only ever accessed at indices below `len(constraint)`, are
represented by functions of the index.
-/

namespace Verif.Model

/-- A Python set in iteration order. -/
abbrev PySet := List Int

/-- Python `a == b` on sets. -/
def pySetEq (a b : PySet) : Bool := a.all (fun x => b.contains x) && b.all (fun x => a.contains x)

/-- Python `a | b` on sets (elements of `a`, then the new ones of `b`). -/
def pyUnion (a b : PySet) : PySet := a ++ b.filter (fun x => !a.contains x)

/-- modifier.py 196-197: `if {-1.0} in constraint: constraint.remove({-1.0})` removes the first
element equal to `{-1.0}`, and only that one. -/
def removeMinusOne : List PySet → List PySet
  | [] => []
  | s :: r => if pySetEq s [-1] then r else s :: removeMinusOne r

/-- modifier.py 202-205: delete the empty sets. -/
def removeEmpty (c : List PySet) : List PySet := c.filter (fun s => !s.isEmpty)

/-- modifier.py 210-211: `value_mapping[value] = value_mapping.get(value, []);
value_mapping[value].append(idx)` on an insertion-ordered dictionary. -/
def vmAppend (v : Int) (i : Nat) : List (Int × List Nat) → List (Int × List Nat)
  | [] => [(v, [i])]
  | (w, l) :: r => if w = v then (w, l ++ [i]) :: r else (w, l) :: vmAppend v i r

/-- modifier.py 208-211: the two nested loops building `value_mapping`; `k` is the current `idx`. -/
def buildMap : List PySet → Nat → List (Int × List Nat) → List (Int × List Nat)
  | [], _, m => m
  | s :: r, k, m => buildMap r (k + 1) (s.foldl (fun m v => vmAppend v k m) m)

/-- The mutable state of the merging loop: `constraint`, `reindex_list`, `homology_idx`. -/
structure MState where
  cons : Nat → PySet
  reidx : Nat → Nat
  homo : Nat → List Nat

/-- Assignment to one index. -/
def upd {α : Type} (f : Nat → α) (i : Nat) (a : α) : Nat → α := fun j => if j = i then a else f j

/-- modifier.py 223-235: one iteration of the inner loop `for i in idx_need_merge`. -/
def mergeOne (target : Nat) (st : MState) (i : Nat) : MState :=
  if st.reidx i = target then st
  else
    let src := st.reidx i
    let cons' := upd st.cons target (pyUnion (st.cons target) (st.cons src))
    -- lines 231-233
    let st' := (st.homo src).foldl
      (fun (s : MState) j =>
        { s with reidx := upd s.reidx j target, homo := upd s.homo target (s.homo target ++ [j]) })
      { st with cons := cons' }
    -- line 235
    { st' with homo := upd st'.homo src [] }

/-- modifier.py 218-235: one iteration of the outer loop over `value_mapping.items()`. -/
def mergeValue (st : MState) (e : Int × List Nat) : MState :=
  match e.2 with
  | [] => st
  | [_] => st
  | i0 :: rest =>
    let target := st.reidx i0
    (i0 :: rest).foldl (mergeOne target) st

/-- modifier.py 213-216: the initial tables. -/
def mergeInit (c : List PySet) : MState :=
  { cons := fun i => c.getD i [], reidx := fun i => i, homo := fun i => [i] }

/-- modifier.py 194-239 `merge_constraint`: the list left in `constraint` and returned. -/
def mergeConstraint (constraint : List PySet) : List PySet :=
  let c := removeEmpty (removeMinusOne constraint)
  let st := (buildMap c 0 []).foldl mergeValue (mergeInit c)
  -- line 236: `sorted(list(set(reindex_list)))`
  let valid := ((List.range c.length).map st.reidx).dedup.insertionSort (· ≤ ·)
  valid.map st.cons

end Verif.Model
