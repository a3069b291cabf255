import Verif.Spec.ChannelNet
import Verif.Model.PyOrder
import Mathlib.Algebra.Field.Rat

/-!
Model of masking (`register_mask`) and physical pruning (`modify_input`, `modify_output`) of convolutions without groups, transposed
convolutions, linear layers, batch norms, PReLUs and depthwise convolutions, `/repo/tinynn/graph/modifier.py` 1133-1156, 1163-1178,
1179-1258, 1658-1706, 2253-2316, 2343-2382, 2438-2483.  Which indices are removed at each node is `Net.removed`: the analysis that derives
them is not modelled here, nor is batch-norm compensation.
-/

namespace Verif.Model
open Verif.Spec

variable {α M : Type} [Zero α] [AddCommMonoid M]

/-- `preserve_idx`; every `modify_*` leaves its parameters alone when nothing is removed (e.g. modifier.py 1152, 1691, 1706, 2354). -/
def preserveIdx (n : Nat) (rm : List Nat) : List Nat :=
  let p := complementaryList n rm
  if p.length = n then List.range n else p

/-- `weight_mask[remove_o, :] = 0` and `weight_mask[:, remove_i] = 0`, multiplied into the weight (masker.py 25-32). -/
def maskWeight (rmOut rmIn : List Nat) (W : List (List α)) : List (List α) :=
  W.mapIdx (fun i row => row.mapIdx (fun j w => if rmOut.contains i || rmIn.contains j then 0 else w))

/-- `bias_mask[remove_o] = 0`. -/
def maskBias (rmOut : List Nat) (b : List M) : List M := b.mapIdx (fun i c => if rmOut.contains i then 0 else c)

/-- The masked network: what is trained. -/
def maskNet : Net α M → Net α M
  | .input k n => .input k n
  | .layer W b rm child => .layer (maskWeight rm child.removed W) (maskBias rm b) rm (maskNet child)
  | .chan g h child => .chan (g.mapIdx (fun i f => if child.removed.contains i then h else f)) h (maskNet child)
  | .add l r => .add (maskNet l) (maskNet r)
  | .cat l r => .cat (maskNet l) (maskNet r)
  | .spread parts child => .spread parts (maskNet child)

/-- `weight[preserve_idx_o, :][:, preserve_idx_i]`. -/
def pruneWeight (po pi : List Nat) (W : List (List α)) : List (List α) :=
  po.map (fun i => pi.map (fun j => (W.getD i []).getD j 0))

/-- The physically pruned network.  Every layer computes its own `preserve_idx` from its own removed indices and original size. -/
def pruneNet : Net α M → Net α M
  | .input k n => .input k n
  | .layer W b rm child =>
    let po := preserveIdx W.length rm
    let pi := preserveIdx child.width child.removed
    .layer (pruneWeight po pi W) (po.map (fun i => b.getD i 0)) [] (pruneNet child)
  | .chan g h child => .chan ((preserveIdx child.width child.removed).map (fun i => g.getD i id)) h (pruneNet child)
  | .add l r => .add (pruneNet l) (pruneNet r)
  | .cat l r => .cat (pruneNet l) (pruneNet r)
  | .spread parts child => .spread parts (pruneNet child)

/-- `nn.LayerNorm` over the channels of one position; `invStd` is `v ↦ 1 / sqrt(v + eps)`. -/
def layerNorm (invStd : ℚ → ℚ) (w b x : List ℚ) : List ℚ :=
  let mean := x.sum / x.length
  let var := (x.map (fun v => (v - mean) * (v - mean))).sum / x.length
  List.zipWith (fun v (p : ℚ × ℚ) => (v - mean) * invStd var * p.1 + p.2) x (List.zip w b)

/-- `NormChannelModifier.register_mask` for a LayerNorm, modifier.py 1163-1178: weight and bias are masked. -/
def maskLayerNorm (invStd : ℚ → ℚ) (rm : List Nat) (w b x : List ℚ) : List ℚ :=
  layerNorm invStd (maskBias rm w) (maskBias rm b) x

/-- `NormChannelModifier.modify_input` for a LayerNorm, modifier.py 1246-1256; the input has lost the same channels. -/
def pruneLayerNorm (invStd : ℚ → ℚ) (rm : List Nat) (w b x : List ℚ) : List ℚ :=
  let p := preserveIdx w.length rm
  layerNorm invStd (p.map (fun i => w.getD i 0)) (p.map (fun i => b.getD i 0)) (p.map (fun i => x.getD i 0))

end Verif.Model
