import Verif.Spec.Quant
import Mathlib.Data.Int.Init
import Mathlib.Order.Lattice

/-!
What a quantized tensor means and what TFLite's QUANTIZE, DEQUANTIZE and activation kernels compute.  Independent of the converter.
-/

namespace Verif.Spec

/-- The quantization of a tensor: scale, zero point and the range of the storage type. -/
structure QP where
  scale : ℝ
  zp : ℤ
  lo : ℤ
  hi : ℤ

namespace QP

/-- A quantization that can be used: a positive step and a non-empty storage range. -/
def Valid (p : QP) : Prop := 0 < p.scale ∧ p.lo ≤ p.hi

/-- The real number a stored integer stands for. -/
noncomputable def real (p : QP) (q : ℤ) : ℝ := dequant p.scale p.zp q

/-- Quantizing a real number: round, shift by the zero point and saturate to the storage range. -/
noncomputable def quant (rnd : ℝ → ℤ) (p : QP) (x : ℝ) : ℤ := max p.lo (min p.hi (rnd (x / p.scale) + p.zp))

/-- `q` fits into the storage type. -/
def Holds (p : QP) (q : ℤ) : Prop := p.lo ≤ q ∧ q ≤ p.hi

/-- `x` lies between the smallest and the largest number that can be represented. -/
def Covers (p : QP) (x : ℝ) : Prop := p.real p.lo ≤ x ∧ x ≤ p.real p.hi

end QP

/-- The storage types. -/
noncomputable def u8 (s : ℝ) (z : ℤ) : QP := ⟨s, z, 0, 255⟩
noncomputable def i8 (s : ℝ) (z : ℤ) : QP := ⟨s, z, -128, 127⟩
noncomputable def i16 (s : ℝ) (z : ℤ) : QP := ⟨s, z, -32768, 32767⟩

/-- A fused activation. -/
inductive Act | none | relu | relu6
deriving DecidableEq

/-- The activation on real numbers. -/
noncomputable def Act.real : Act → ℝ → ℝ
  | .none, x => x
  | .relu, x => max 0 x
  | .relu6, x => max 0 (min 6 x)

/-- The least and the greatest integer a quantized operator with a fused activation delivers (TFLite: `CalculateActivationRangeQuantized`). -/
noncomputable def Act.range (rnd : ℝ → ℤ) (p : QP) : Act → ℤ × ℤ
  | .none => (p.lo, p.hi)
  | .relu => (max p.lo (rnd (0 / p.scale) + p.zp), p.hi)
  | .relu6 => (max p.lo (rnd (0 / p.scale) + p.zp), min p.hi (rnd (6 / p.scale) + p.zp))

/-- A quantized operator with a fused activation whose exact result is `x`. -/
noncomputable def actQuant (rnd : ℝ → ℤ) (a : Act) (p : QP) (x : ℝ) : ℤ :=
  max (a.range rnd p).1 (min (a.range rnd p).2 (rnd (x / p.scale) + p.zp))

/-- The quantization nodes of a chain: a node that turns integers into real numbers, or one that turns any tensor into integers. -/
inductive QNode
  | dequantize
  | quantize (p : QP)

/-- The content of a tensor position: a real number, or an integer in a quantization. -/
inductive QVal
  | float (x : ℝ)
  | int (p : QP) (q : ℤ)

/-- The real number a tensor position stands for. -/
noncomputable def QVal.real : QVal → ℝ
  | .float x => x
  | .int p q => p.real q

/-- TFLite's DEQUANTIZE, and QUANTIZE on a float or (requantizing) on a quantized tensor. -/
noncomputable def QNode.run (rnd : ℝ → ℤ) : QNode → QVal → QVal
  | .dequantize, v => .float v.real
  | .quantize p, v => .int p (p.quant rnd v.real)

/-- A chain of nodes, each reading the previous one's result. -/
noncomputable def runNodes (rnd : ℝ → ℤ) (ns : List QNode) (v : QVal) : QVal := ns.foldl (fun v n => n.run rnd v) v

/-- No node of the chain saturates. -/
def Unsaturated (rnd : ℝ → ℤ) : List QNode → QVal → Prop
  | [], _ => True
  | .dequantize :: ns, v => Unsaturated rnd ns (QNode.run rnd .dequantize v)
  | .quantize p :: ns, v => p.Covers v.real ∧ Unsaturated rnd ns (QNode.run rnd (.quantize p) v)

/-- The sum of the steps of the quantizations in a chain. -/
noncomputable def stepSum : List QNode → ℝ
  | [] => 0
  | .dequantize :: ns => stepSum ns
  | .quantize p :: ns => p.scale + stepSum ns

end Verif.Spec
