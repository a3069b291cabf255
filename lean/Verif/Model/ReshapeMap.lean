import Verif.Spec.Tensor

/-!
Models of `is_simple_reshape` (optimize.py 4544-4582) and `reshape_mapping` (optimize.py 4585-4644) of
`/repo/tinynn/converter/operators/optimize.py`.
-/

namespace Verif.Model

/-- optimize.py 4551-4577: the `while True` loop, on the not yet consumed suffixes of the two shapes;
`i`, `j` are the positions.  The result is the return value together with the entries added to
`mapping`. -/
def simpleGo : List Nat → List Nat → Nat → Nat → Bool × List (Nat × Nat)
  | [], [], _, _ => (true, [])
  | [], y :: ys, i, j => if y = 1 then simpleGo [] ys i (j + 1) else (false, [])
  | x :: xs, [], i, j => if x = 1 then simpleGo xs [] (i + 1) j else (false, [])
  | x :: xs, y :: ys, i, j =>
    if x = y then
      let r := simpleGo xs ys (i + 1) (j + 1)
      (r.1, (i, j) :: r.2)
    else if x = 1 then simpleGo xs (y :: ys) (i + 1) j
    else if y = 1 then simpleGo (x :: xs) ys i (j + 1)
    else (false, [])
termination_by xs ys => xs.length + ys.length

/-- `is_simple_reshape`, optimize.py 4544-4582, with the `mapping` dictionary it fills (as a list of
entries; keys are distinct because `i` only grows). -/
def isSimpleReshape (orig new : List Nat) : Bool × List (Nat × Nat) :=
  if orig = new then (true, (List.range orig.length).map (fun i => (i, i)))
  else simpleGo orig new 0 0

/-- The variable `sign` of `reshape_mapping`. -/
inductive Sign | none | l | r
  deriving DecidableEq, Repr

/-- The local variables of `reshape_mapping`, optimize.py 4586-4594. -/
structure RM where
  i : Nat
  j : Nat
  accL : Nat
  startL : Nat
  accR : Nat
  startR : Nat
  mapL : List (List Nat)
  mapR : List (List Nat)
  sign : Sign

/-- `mapping[-1].append(x)`; `none` is the IndexError on an empty list. -/
def appendLast (m : List (List Nat)) (x : Nat) : Option (List (List Nat)) :=
  if m.isEmpty then none else some (m.dropLast ++ [m.getLastD [] ++ [x]])

/-- optimize.py 4596-4633: one iteration of the `while` loop; `none` is a failed assertion or an
IndexError. -/
def rmStep (s1 s2 : List Nat) (st : RM) : Option RM :=
  if st.i < s1.length ∧ st.j < s2.length then
    if st.startL = st.i ∧ st.startR = st.j ∧ s1.getD st.i 1 = s2.getD st.j 1 then
      some { i := st.i + 1, j := st.j + 1, accL := 1, accR := 1, startL := st.i + 1, startR := st.j + 1,
             mapL := st.mapL ++ [[st.i]], mapR := st.mapR ++ [[st.j]], sign := .none }
    else
      let accL := if st.sign = .l ∨ st.sign = .none then s1.getD st.i 1 * st.accL else st.accL
      let accR := if st.sign = .r ∨ st.sign = .none then s2.getD st.j 1 * st.accR else st.accR
      if accL = accR then
        some { i := st.i + 1, j := st.j + 1, accL := 1, accR := 1, startL := st.i + 1, startR := st.j + 1,
               mapL := st.mapL ++ [List.range' st.startL (st.i + 1 - st.startL)],
               mapR := st.mapR ++ [List.range' st.startR (st.j + 1 - st.startR)], sign := .none }
      else if accL < accR then some { st with accL := accL, accR := accR, sign := .l, i := st.i + 1 }
      else some { st with accL := accL, accR := accR, sign := .r, j := st.j + 1 }
  else if st.i < s1.length then
    if s1.getD st.i 1 = 1 then
      (appendLast st.mapL st.i).map (fun m => { st with mapL := m, i := st.i + 1 })
    else none
  else
    if s2.getD st.j 1 = 1 then
      (appendLast st.mapR st.j).map (fun m => { st with mapR := m, j := st.j + 1 })
    else none

/-- The `while i < len(shape_1) or j < len(shape_2)` loop; one unit of fuel per iteration. -/
def rmLoop (s1 s2 : List Nat) : Nat → RM → Option RM
  | 0, st => if st.i < s1.length ∨ st.j < s2.length then none else some st
  | f + 1, st => if st.i < s1.length ∨ st.j < s2.length then (rmStep s1 s2 st).bind (rmLoop s1 s2 f) else some st

/-- optimize.py 4634-4643: drop the size-1 axes of each group, and the groups left empty. -/
def rmNonOne (s1 s2 : List Nat) : List (List Nat) → List (List Nat) → List (List Nat × List Nat)
  | ml :: mls, mr :: mrs =>
    let nl := ml.filter (fun i => s1.getD i 1 != 1)
    let nr := mr.filter (fun j => s2.getD j 1 != 1)
    if 0 < nl.length ∧ 0 < nr.length then (nl, nr) :: rmNonOne s1 s2 mls mrs else rmNonOne s1 s2 mls mrs
  | _, _ => []

/-- `reshape_mapping`, optimize.py 4585-4644: `(mapping_l, mapping_r, zip(non_one_l, non_one_r))`. -/
def reshapeMapping (s1 s2 : List Nat) : Option (List (List Nat) × List (List Nat) × List (List Nat × List Nat)) :=
  (rmLoop s1 s2 (s1.length + s2.length)
    { i := 0, j := 0, accL := 1, startL := 0, accR := 1, startR := 0, mapL := [], mapR := [], sign := .none }).map
    (fun st => (st.mapL, st.mapR, rmNonOne s1 s2 st.mapL st.mapR))

end Verif.Model
