import Mathlib.Data.Rat.Floor
import Mathlib.Data.Finset.Dedup
import Mathlib.Data.List.Sort

/-!
Model of `Modifier.get_pruned_idx` and `ReshapeModifier.apply_mask`, `/repo/tinynn/graph/modifier.py` 791-812 and 1412-1455.  `fl` is
the rounding of Python floats.  Only the shape argument is kept; `none` in a shape argument stands for text that is not a number (`-1` or
an expression), for which `str.isdigit` is false.
-/

namespace Verif.Model

/-- A centre: the indices pruned in it, and, for every constraint of the leaf's input dimension and every leaf index, the centre indices
that leaf index depends on. -/
structure CenterInfo where
  pruned : List Nat
  constraints : List (List (List Nat))

/-- modifier.py 800-807: the leaf indices of one constraint that touch a pruned centre index. -/
def touched (pruned : List Nat) (constraint : List (List Nat)) : List Nat :=
  (List.range constraint.length).filter (fun i => (constraint.getD i []).any (fun c => pruned.contains c))

/-- `get_pruned_idx`, modifier.py 791-810: the sorted list of pruned indices. -/
def prunedIdx (centers : List CenterInfo) : List Nat :=
  ((centers.flatMap (fun c => c.constraints.flatMap (touched c.pruned))).dedup).insertionSort (· ≤ ·)

/-- modifier.py 810: `sparsity = len(pruned_idx) / shape[dim]`. -/
def sparsity (fl : ℚ → ℚ) (p inDim : Nat) : ℚ := fl ((p : ℚ) / inDim)

/-- `int(n * sparsity)` for a non-negative float. -/
def intMul (fl : ℚ → ℚ) (n : Nat) (s : ℚ) : Nat := ⌊fl (n * s)⌋.toNat

/-- `apply_mask` for `view`, modifier.py 1440-1453: the new shape arguments.  `changed` is the current output shape, `args` the arguments
as traced. -/
def viewArgs (fl : ℚ → ℚ) (changed : List Nat) (args : List (Option Nat)) (dim p inDim : Nat) : List (Option Nat) :=
  match args.getD dim none with
  | none => args
  | some _ =>
    let n := changed.getD dim 0
    args.set dim (some (n - intMul fl n (sparsity fl p inDim)))

/-- `apply_mask` for `reshape`, modifier.py 1424-1438. -/
def reshapeArgs (fl : ℚ → ℚ) (changed : List Nat) (args : List (Option Nat)) (dim p inDim : Nat) : List (Option Nat) :=
  match args.getD dim none with
  | none => args
  | some _ =>
    let n := changed.getD dim 0
    (changed.set dim (intMul fl n (sparsity fl p inDim))).map some

end Verif.Model
