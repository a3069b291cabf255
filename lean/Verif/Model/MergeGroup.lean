import Verif.Model.MergeConstraint

/-!
Model of `merge_group` and `get_smallest_k` in `/repo/tinynn/graph/modifier.py`.
-/

namespace Verif.Model

/-- Python `a & b` on sets. -/
def pyInter (a b : PySet) : PySet := a.filter (fun x => b.contains x)

/-- Python `a - b` on sets. -/
def pyDiff (a b : PySet) : PySet := a.filter (fun x => !b.contains x)

/-- Python `list.remove(b)` on a list of sets: drop the first element equal to `b`. -/
def removeEq (b : PySet) : List PySet → List PySet
  | [] => []
  | s :: r => if pySetEq s b then r else s :: removeEq b r

/-- modifier.py 160-178: the `while len(group) > 0` loop; `acc` is `new_group`.  One unit of fuel per
iteration; `none` means that the fuel ran out. -/
def mgLoop : Nat → List PySet → List PySet → Option (List PySet)
  | 0, _, _ => none
  | _ + 1, [], acc => some acc
  | f + 1, a :: rest, acc =>
    match rest.find? (fun b => !(pyInter a b).isEmpty) with   -- lines 164-165
    | some b =>
      let k := pyInter a b
      let m := pyDiff a k
      let n := pyDiff b k
      -- lines 169-171 (`group.remove(a)` removes the head)
      mgLoop f (removeEq b rest ++ [m, n, k].filter (fun s => !s.isEmpty)) acc
    | none => mgLoop f rest (acc ++ [a])                       -- lines 177-178

/-- modifier.py 182-187: drop the sets that have a later equal copy.  Simplification: the test
`gi is not gj` is taken to be true, i.e. the list does not hold the same set object twice. -/
def mgDedup : List PySet → List PySet → List PySet
  | [], out => out
  | gi :: later, out =>
    mgDedup later (if later.any (fun gj => pySetEq gi gj) then removeEq gi out else out)

/-- modifier.py 157-191 `merge_group` with a given amount of fuel.  `sort` stands for the final
`group.sort()`, which uses Python's subset order on sets; it is a parameter because only the fact
that it permutes the list is used. -/
def mergeGroup (sort : List PySet → List PySet) (fuel : Nat) (g : List PySet) : Option (List PySet) :=
  (mgLoop fuel g []).map (fun ng => sort (mgDedup ng ng))

/-- modifier.py 18-24 `get_smallest_k`.  `float(lst[i])` is taken in an ordered type `α` (so NaN is
excluded); Python's stable `sorted` is insertion sort by the key. `k` is non-negative. -/
def getSmallestK {α : Type} [LE α] [DecidableLE α] (lst : List α) (k : Nat) (offset : Nat) : List Nat :=
  let idxLst : List (Nat × α) := lst.zipIdx.map (fun p => (p.2, p.1))
  let sortedLst := idxLst.insertionSort (fun a b => a.2 ≤ b.2)
  let sortedLstK := sortedLst.take k
  let idx := sortedLstK.map (fun p => p.1 + offset)
  idx.insertionSort (· ≤ ·)

end Verif.Model
