import Verif.Model.FakeQuant
import Mathlib.Algebra.BigOperators.Group.Finset.Basic

/-!
Model of `compress_int` and `QLinear`, `/repo/tinynn/llm_quant/modules.py` 34-61 and 64-179.  Floats are real numbers, a matrix is a list of rows.
The accelerated paths call kernels of the easyquant library, which is not in the repository; what is modelled is the path without it.
-/

namespace Verif.Model
open Verif.Spec

/-- `data.abs().max()` of a non-empty row. -/
def absMax (row : List ℝ) : ℝ := row.foldr (fun x m => max |x| m) 0

/-- `2 ** (bit_width - 1) - 1`. -/
def qMax (b : Nat) : ℤ := 2 ^ (b - 1) - 1

/-- `torch.clamp(torch.round(x / scale), q_min, q_max)` for one element. -/
noncomputable def quantElem (b : Nat) (scale x : ℝ) : ℤ := clampInt (-(qMax b)) (qMax b) (roundEven (x / scale))

/-- Lines 41-43: the scale of a row of a weight. -/
noncomputable def channelScale (b : Nat) (row : List ℝ) : ℝ := 2 * (absMax row / (2 ^ b - 1))

/-- Line 46 and line 56: the scale of a token or of the tensor. -/
noncomputable def tokenScale (b : Nat) (row : List ℝ) : ℝ := absMax row / (qMax b : ℝ)

/-- One row with a given scale; `none` stands for the division by zero, whose NaN has no defined conversion to int8. -/
noncomputable def quantRow (b : Nat) (scale : ℝ) (row : List ℝ) : Option (List ℤ) := if scale = 0 then none else some (row.map (quantElem b scale))

/-- `compress_int(data, b, per_channel=True)`, lines 40-43: a scale and a list of integers per row. -/
noncomputable def compressChannel (b : Nat) (data : List (List ℝ)) : Option (List (ℝ × List ℤ)) :=
  data.mapM (fun row => (quantRow b (channelScale b row) row).map (fun q => (channelScale b row, q)))

/-- `compress_int(data, b, per_channel=False, per_token=True)`, lines 44-54. -/
noncomputable def compressToken (b : Nat) (data : List (List ℝ)) : Option (List (ℝ × List ℤ)) :=
  data.mapM (fun row => (quantRow b (tokenScale b row) row).map (fun q => (tokenScale b row, q)))

/-- `compress_int(data, b, per_channel=False)`, lines 55-58: one scale. -/
noncomputable def compressTensor (b : Nat) (data : List (List ℝ)) : Option (ℝ × List (List ℤ)) :=
  (data.mapM (quantRow b (tokenScale b data.flatten))).map (fun q => (tokenScale b data.flatten, q))

/-- Lines 88-91: two 4-bit weights in an int8 (`&`, `<<` and `|` on int8). -/
def pack4 (a b : BitVec 8) : BitVec 8 := ((a &&& 15#8) <<< 4) ||| (b &&& 15#8)

/-- Lines 89-91 for a row: `view(-1, n // 2, 2)`; `none` is the failed assertion of line 90. -/
def packRow : List (BitVec 8) → Option (List (BitVec 8))
  | [] => some []
  | [_] => none
  | a :: b :: r => (packRow r).map (pack4 a b :: ·)

/-- Line 119: `weight >> 4` and `weight << 4 >> 4` on int8, stacked and flattened. -/
def unpackRow (r : List (BitVec 8)) : List (BitVec 8) := r.flatMap (fun (w : BitVec 8) => [w.sshiftRight 4, (w <<< 4).sshiftRight 4])

/-- Lines 83-84: the zero padding of the rows in the dynamic mode. -/
def padRow (inFeatures : Nat) (row : List ℤ) : List ℤ := if inFeatures % 4 ≠ 0 then row ++ List.replicate (4 - inFeatures % 4) 0 else row

/-- Lines 166-171: `weight[:, : in_features % 4 - 4]`, a slice with a negative end. -/
def unpadRow (inFeatures : Nat) (row : List ℤ) : List ℤ := if inFeatures % 4 ≠ 0 then row.take (row.length - (4 - inFeatures % 4)) else row

/-- `F.linear(x, w, bias)` at one output: the dot product plus the bias. -/
def linearAt (x w : List ℝ) (b : Option ℝ) : ℝ := (x.zipWith (· * ·) w).sum + b.getD 0

/-- Lines 163-173: the dynamic mode without the library, at one token and one output channel.  `x` is the token, `wq` the stored row of the weight,
`ws` its scale. -/
noncomputable def dynamicForward (inFeatures : Nat) (x : List ℝ) (wq : List ℤ) (ws : ℝ) (bias : Option ℝ) : Option ℝ :=
  (quantRow 8 (tokenScale 8 x) x).map (fun xq =>
    linearAt (xq.map (fun (q : ℤ) => (q : ℝ))) ((unpadRow inFeatures wq).map (fun (q : ℤ) => (q : ℝ))) bias * (ws * tokenScale 8 x))

/-- Line 173: `output * (weight_scale * input_scale.view(-1, 1))` for a three-dimensional input of `batch` times `seq` tokens: the shape of the
product of `[batch, seq, out]` and `[batch * seq, out]`; `none` is the RuntimeError. -/
def dynamicShape3 (batch seq out : Nat) : Option (Nat × Nat × Nat) := (bcast seq (batch * seq)).map (fun s => (batch, s, out))

end Verif.Model
