import Verif.Spec.Norm
import Verif.Spec.Broadcast
import Verif.Spec.Concat
import Verif.Model.AtenMove

/-!
Model of `ATenLayerNormOperator`, `ATenInstanceNormOperator`, `ATenGroupNormOperator`, `ATenVarOperator` and `ATenStdOperator`,
`/repo/tinynn/converter/operators/torch/aten.py` 2432-2642 and 2968-3066.  Each function gives the tensor the emitted operators compute; the square root is a parameter.
Instance normalisation with running statistics becomes a batch normalisation and is not part of this model.
-/

namespace Verif.Model
open Verif.Spec
variable {K : Type} [Field K]

/-- Lines 2446-2467 (2520-2543, 2594-2615): MEAN, SQUARED_DIFFERENCE, MEAN, SUB, ADD, SQRT, DIV with the given axes. -/
def normOps (sqrt : K → K) (eps : K) (axes : List Nat) (x : Tensor K) : Option (Tensor K) := do
  let mean := reduceKeep axes avg x
  let squaredDiff ← elementwise (fun a b => (a - b) ^ 2) x mean
  let var := reduceKeep axes avg squaredDiff
  let numerator ← elementwise (· - ·) x mean
  let withEps ← elementwise (· + ·) var ⟨[1], fun _ => eps⟩
  let denominator : Tensor K := ⟨withEps.shape, fun idx => sqrt (withEps.get idx)⟩
  elementwise (· / ·) numerator denominator

/-- Lines 2432-2476; `axes = [ndim - i for i in range(len(normalized_shape), 0, -1)]`, then MUL and ADD. -/
def convertLayerNorm (sqrt : K → K) (eps : K) (k : Nat) (w b x : Tensor K) : Option (Tensor K) := do
  let axes := (List.range k).map (fun i => x.shape.length - (k - i))
  let norm ← normOps sqrt eps axes x
  let mulOut ← elementwise (· * ·) norm w
  elementwise (· + ·) mulOut b

/-- Lines 2547-2551, 2626-2630: `reshape(-1, 1, ..., 1)` of the weight and the bias. -/
def perChannel (rank : Nat) (w : Tensor K) : Tensor K := reshape (w.shape.prod :: List.replicate (rank - 2) 1) w

/-- Lines 2545-2561 and 2625-2640: MUL and ADD when there are a weight and a bias. -/
def affineOps (wb : Option (Tensor K × Tensor K)) (rank : Nat) (norm : Tensor K) : Option (Tensor K) :=
  match wb with
  | none => some norm
  | some (w, b) => do
    let mulOut ← elementwise (· * ·) norm (perChannel rank w)
    elementwise (· + ·) mulOut (perChannel rank b)

/-- Lines 2510-2564, without running statistics; `axis = tuple(range(2, dims))`. -/
def convertInstanceNorm (sqrt : K → K) (eps : K) (wb : Option (Tensor K × Tensor K)) (x : Tensor K) : Option (Tensor K) := do
  let norm ← normOps sqrt eps (List.range' 2 (x.shape.length - 2)) x
  affineOps wb x.shape.length norm

/-- Lines 2557-2642: normalise per channel, over everything, or split the channels, normalise the parts and concatenate. -/
def convertGroupNorm [Inhabited K] (sqrt : K → K) (eps : K) (groups : Nat) (wb : Option (Tensor K × Tensor K)) (x : Tensor K) : Option (Tensor K) := do
  let dims := x.shape.length
  let norm ←
    if x.shape.getD 1 0 = groups ∧ groups > 1 then normOps sqrt eps (List.range' 2 (dims - 2)) x
    else if groups = 1 then normOps sqrt eps (List.range' 1 (dims - 1)) x
    else do
      let norms ← (List.range' 0 groups).mapM (fun k => normOps sqrt eps (List.range' 1 (dims - 1)) (split 1 groups x k))
      some (concat 1 norms)
  affineOps wb dims norm

/-- The arguments of `var` and `std` (2974-2977); an absent `dim` means all axes, an absent `correction` is 1. -/
structure VarArgs (K : Type) where
  dim : Option (List Int)
  keep : Bool
  unbiased : Bool
  correction : K

/-- Lines 2974, 2979-2981: the axes; an empty list stays empty. -/
def VarArgs.axes (a : VarArgs K) (rank : Nat) : List Nat :=
  match a.dim with
  | none => List.range rank
  | some l => l.map (fixDim rank)

/-- Lines 2968-3013: MEAN, SQUARED_DIFFERENCE, then SUM and DIV by the corrected number of samples, or MEAN. -/
def convertVar [DecidableEq K] (a : VarArgs K) (x : Tensor K) : Option (Tensor K) := do
  let axes := a.axes x.shape.length
  let samples : K := ((((List.range x.shape.length).filter (fun i => i ∈ axes)).map (fun i => x.shape.getD i 0)).prod : ℕ)
  let mean := reduceKeep axes avg x
  let squaredDiff ← elementwise (fun p q => (p - q) ^ 2) x mean
  if a.unbiased ∧ a.correction ≠ 0 then
    elementwise (· / ·) (reduceAxes a.keep axes List.sum squaredDiff) ⟨[], fun _ => samples - a.correction⟩
  else some (reduceAxes a.keep axes avg squaredDiff)

/-- Lines 3016-3066: the same followed by SQRT. -/
def convertStd [DecidableEq K] (sqrt : K → K) (a : VarArgs K) (x : Tensor K) : Option (Tensor K) := do
  let var ← convertVar a x
  some ⟨var.shape, fun idx => sqrt (var.get idx)⟩

end Verif.Model
