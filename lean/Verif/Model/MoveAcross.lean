import Verif.Model.Layout
import Verif.Model.ReshapeMap

/-!
Model of `elementwise_reshape_transpose_passthrough_pass` (`/repo/tinynn/converter/operators/optimize.py` 1316-1590) on one RESHAPE operator next to a TRANSPOSE: whether the operator is rewritten, and
with which permutations and shape.  Left out: the bookkeeping of names and edges, the set `processed_nodes` (an operator whose neighbour was already touched is left alone) and consumers that are
`UNUSED_NODE`.
-/

namespace Verif.Model.MoveAcross
open Verif.Model

/-- The values of `mode` other than `None` and `'?'`, and of the hint `direction`. -/
inductive Dir | up | down
  deriving DecidableEq, Repr

/-- The node that produces the input of the RESHAPE: a TRANSPOSE with its permutation and its hint, a constant, anything else. -/
inductive Prev | transpose (p : List Nat) (hint : Option Dir) | const | other
  deriving DecidableEq, Repr

/-- A node behind the RESHAPE: a TRANSPOSE, the `OUTPUT_NODE`, anything else. -/
inductive Next | transpose (p : List Nat) (hint : Option Dir) | output | other
  deriving DecidableEq, Repr

/-- Lines 1339-1360: the loop over the groups of axes, with `mode` and `need_chain`; `none` is `mode = '?'`. -/
def modeGo : Option Dir → Bool → List (List Nat × List Nat) → Option (Option Dir × Bool)
  | m, c, [] => some (m, c)
  | m, c, (l, r) :: z =>
    if 1 < l.length ∧ r.length = 1 then if m ≠ some .down then modeGo (some .up) c z else none
    else if 1 < r.length ∧ l.length = 1 then if m ≠ some .up then modeGo (some .down) c z else none
    else if 1 < r.length ∧ 1 < l.length then if r = l then modeGo m true z else none
    else modeGo m c z

/-- Lines 1385-1403, the left groups: groups of several axes on both sides are taken apart. -/
def splitL (z : List (List Nat × List Nat)) : List (List Nat) :=
  z.flatMap fun e => if 1 < e.1.length ∧ 1 < e.2.length then e.1.map fun i => [i] else [e.1]

/-- Lines 1385-1403, the right groups. -/
def splitR (z : List (List Nat × List Nat)) : List (List Nat) :=
  z.flatMap fun e => if 1 < e.1.length ∧ 1 < e.2.length then e.2.map fun i => [i] else [e.2]

/-- Lines 1390-1393: `check_consecutive_indices`. -/
def checks (d : Dir) (z : List (List Nat × List Nat)) : List (List Nat) :=
  z.filterMap fun e => if 1 < e.1.length ∧ 1 < e.2.length then some (match d with | .down => e.1 | .up => e.2) else none

/-- Lines 1494-1498: `target_idx`.  In the sorted permutation every value stands at its own index, so `np.searchsorted` returns its argument. -/
def target (d : Dir) (perm check : List Nat) : List Nat :=
  match d with
  | .down => npTake perm check
  | .up => npTake (npArgsort perm) check

/-- Lines 1499-1501: both lists, shifted to start with zero, are equal. -/
def consecutive (check tgt : List Nat) : Bool :=
  decide (check.map (fun (x : Nat) => (x : Int) - (check.headD 0 : Nat)) = tgt.map (fun (x : Nat) => (x : Int) - (tgt.headD 0 : Nat)))

/-- `dict(zip([x[0] for x in keys], vals))` and the lookups of `axes` in it, joined (1522-1524 and 1528-1530); `none` is an IndexError or a KeyError. -/
def joined (keys vals : List (List Nat)) (axes : List Nat) : Option (List Nat) :=
  (keys.mapM List.head?).bind fun ks => (axes.mapM fun x => (ks.zip vals).lookup x).map List.flatten

/-- Lines 1520-1533: `(inv_perm_arr, inv_post_perm_arr, post_perm_arr)`. -/
def perms (d : Dir) (L R : List (List Nat)) (perm : List Nat) : Option (List Nat × List Nat × List Nat) :=
  match d with
  | .down => (joined L R (npArgsort perm)).map fun q => (npArgsort perm, q, npArgsort q)
  | .up => (joined R L perm).map fun q => (q, npArgsort (npArgsort perm), npArgsort perm)

/-- The permutation of a TRANSPOSE in front. -/
def Prev.perm? : Prev → Option (List Nat)
  | .transpose p _ => some p
  | _ => none
def Prev.hint : Prev → Option Dir
  | .transpose _ h => h
  | _ => none
def Next.perm? : Next → Option (List Nat)
  | .transpose p _ => some p
  | _ => none
def Next.hint : Next → Option Dir
  | .transpose _ h => h
  | _ => none

/-- `max(cand_perms.items(), key=lambda x: x[1])[0]` (1489): the first of the permutations that occur most often. -/
def mostOften (cands : List (List Nat)) : Option (List Nat) :=
  cands.foldl (fun b p => match b with
    | none => some p
    | some q => if cands.count q < cands.count p then some p else some q) none

/-- Lines 1405-1487: the permutation to move, `none` if the operator is left alone.  `ext` is `self.level >= BRANCH_OPTIMIZE_EXTENDED`. -/
def choose (ext : Bool) (d : Dir) (prev : Prev) (nexts : List Next) : Option (List Nat) :=
  let before := prev.perm?.toList
  let behind := nexts.filterMap Next.perm?
  let cands : List (List Nat) := match d with | .down => before | .up => behind
  let revs : List (List Nat) := match d with | .down => behind | .up => before
  let others := nexts.filter (· ≠ .output)
  let consts : Int := if prev = .const then 1 else 0
  let nh := nexts.map Next.hint
  let cur : Int := cands.length + revs.length
  let new : Int := 1 + others.length - cands.length - consts
  if ext = true ∧ prev.hint = some .up then none
  else if ext = true ∧ some .down ∈ nh then none
  else if cands = [] ∨ others = [] ∨ cur < new then none
  else if new = cur ∧ ¬ (ext = true ∧ (prev.hint = some .down ∨ some .up ∈ nh)) then none
  else mostOften cands

/-- The pass on one RESHAPE from shape `l` to shape `r` with the shape tensor `arg`.  `none`: it raises.  `some none`: the operator is left alone.  `some (some (inv, arg', post))`: its input goes
through a TRANSPOSE by `inv`, its shape tensor becomes `arg'`, its output goes through a TRANSPOSE by `post` (1536-1574). -/
def move (ext : Bool) (l r : List Nat) (arg : List Int) (prev : Prev) (nexts : List Next) : Option (Option (List Nat × List Int × List Nat)) :=
  if l = [] ∨ r = [] then some none
  else (reshapeMapping l r).bind fun m =>
    let z := m.1.zip m.2.1
    match modeGo none false z with
    | none => if Next.output ∈ nexts then none else some none
    | some (mode, chain) =>
      let d := mode.getD .down
      match choose ext d prev nexts with
      | none => some none
      | some perm =>
        if (checks d z).all fun c => consecutive c (target d perm c) then
          let L := if chain then splitL z else m.1
          let R := if chain then splitR z else m.2.1
          (perms d L R perm).map fun q => some (q.1, q.2.1.map (fun k => arg.getD k 0), q.2.2)
        else some none

end Verif.Model.MoveAcross
