import Verif.Spec.ShapeRewrite

/-!
Model of the rewriting steps of `rewrite_quantize_graph` in tinynn/graph/quantization/quantizer.py that change the form of a layer: pooling with kernel 1 becomes slicing (2362-2415),
`Linear` followed by `BatchNorm1d` becomes a 1x1 convolution followed by `BatchNorm2d` (2417-2489), a remaining `BatchNorm1d` becomes `BatchNorm2d` (2491-2539), and the operands
of a binary operation are broadcast before it (2899-2970).  The values the layers compute are modelled; the edits of the graph around them are in Verif.Model.GraphEdit (C86).
-/

namespace Verif.Model.ShapeRewrite
open Verif.Spec

/-! ### Pooling -/

/-- quantizer.py 2381-2387: `is_match`. -/
def kernelIsOne : SizeArg → Bool
  | .missing => false
  | .int n => n == 1
  | .list l => l.all (· == 1)

/-- 2398-2407: two full slices, then one slice per stride; a single stride stands for `dim - 2` of them. -/
def poolSlices (dim : Nat) (stride : SizeArg) : List (Option Nat) :=
  let ss : List (Option Nat) := match stride with
    | .list l => l.map some
    | .int n => List.replicate (dim - 2) (some n)
    | .missing => List.replicate (dim - 2) none
  [none, none] ++ ss.map (fun s => if s = some 1 ∨ s = none then none else s)

/-- 2396-2415: the value of the node after the step; `pool` is the operation it had before. -/
def rewritePool {α : Type} (kernel stride : SizeArg) (pool : Tensor α → Option (Tensor α)) (x : Tensor α) : Option (Tensor α) :=
  if kernelIsOne kernel then stepSlices (poolSlices x.shape.length stride) x else pool x

/-! ### Batch norm -/

variable {K : Type} [Field K]

/-- 2459-2466 and 2512-2519: the new layer is constructed with the attributes of the old one and loads its state. -/
def bn2dOf (bn : BatchNorm K) : BatchNorm K :=
  { features := bn.features, eps := bn.eps, momentum := bn.momentum, affine := bn.affine, running := bn.running }

/-- 2452-2453: `torch.reshape(fc_weight, [fc_weight.shape[0], fc_weight.shape[1], 1, 1])`. -/
def convWeight (w : Tensor K) : Tensor K := reshape [w.size 0, w.size 1, 1, 1] w

/-- 2442-2489: the pair of layers after the step.  `x[..., None, None]` is put before the convolution, `flatten(1)` behind the batch norm; an input that is not a matrix is left alone (2442-2444). -/
def rewriteLinearBn (sqrt : K → K) (w : Tensor K) (b : Option (List K)) (bn : BatchNorm K) (training : Bool) (orig : Tensor K → Option (Tensor K × Option (List K × List K))) (x : Tensor K) :
    Option (Tensor K × Option (List K × List K)) :=
  if x.shape.length ≠ 2 then orig x
  else
    let conv := torchConv2d ⟨1, 0, 1⟩ ⟨1, 0, 1⟩ 1 (unsqueezeAt 3 (unsqueezeAt 2 x)) (convWeight w) b
    ((bn2dOf bn).run sqrt [4] training conv).map (fun r => (flattenFrom1 r.1, r.2))

/-- 2509-2539: `unsqueeze(2)` before and `squeeze(2)` behind. -/
def rewriteBn1d (sqrt : K → K) (bn : BatchNorm K) (training : Bool) (x : Tensor K) : Option (Tensor K × Option (List K × List K)) :=
  ((bn2dOf bn).run sqrt [4] training (unsqueezeAt 2 x)).map (fun r => (squeezeAt 2 r.1, r.2))

/-! ### Broadcasting -/

/-- `ref_index`: `None`, 0, 1 or -1. -/
inductive Ref
  | undecided | left | right | both
  deriving DecidableEq, Repr

/-- 2927-2939: the loop over the pairs of sizes. -/
def refLoop : Ref → List (Nat × Nat) → Ref
  | r, [] => r
  | r, (l, d) :: rest =>
    if d < l then (if (r = .undecided ∨ r = .left) ∧ d = 1 then refLoop .left rest else .both)
    else if l < d then (if (r = .undecided ∨ r = .right) ∧ l = 1 then refLoop .right rest else .both)
    else refLoop r rest

/-- 2916-2939: the shorter shape is filled up with ones. -/
def refIndex (l r : List Nat) : Ref :=
  if r.length < l.length then refLoop .left (l.zip (List.replicate (l.length - r.length) 1 ++ r))
  else if l.length < r.length then refLoop .right ((List.replicate (r.length - l.length) 1 ++ l).zip r)
  else refLoop .undecided (l.zip r)

/-- 2899-2970: the operands the operation gets.  Operands of the same shape are left alone (2908); `None >= 0` is a TypeError (2941). -/
def operands {α : Type} (a b : Tensor α) : Option (Tensor α × Tensor α) :=
  if a.shape = b.shape then some (a, b)
  else match refIndex a.shape b.shape with
    | .undecided => none
    | .left => (expandTo a.shape b).map (fun b' => (a, b'))
    | .right => (expandTo b.shape a).map (fun a' => (a', b))
    | .both => broadcastTensors a b

/-- 2957-2970: where the operation looks for operand `i` in the value of the new node.  `prev` is the index at which the operand was found before: `none` for the only output of a node. -/
def operandPath (prev : Option (List Nat)) (i : Nat) : List Nat := match prev with
  | none => [i]
  | some l => l ++ [i]

end Verif.Model.ShapeRewrite
