import Verif.Spec.Quant

/-!
Specification for C76: PyTorch's quantized arithmetic with a Python number on `quint8` tensors
(ATen/native/quantized/cpu: `qmul.cpp`, `qadd.cpp`), per element. A result is a stored integer with the output's scale and zero point.
-/

namespace Verif.Spec.QScalar

structure Q where
  q : Int
  scale : ℝ
  zp : Int

/-- The number an element stands for. -/
def Q.value (a : Q) : ℝ := dequant a.scale a.zp a.q

/-- `quantized::mul_scalar`: the integers are kept or mirrored, the scale absorbs the factor. -/
noncomputable def mulScalar (c : ℝ) (a : Q) : Q :=
  if 0 < c then ⟨a.q, c * a.scale, a.zp⟩
  else if c = 0 then ⟨0, 1, 0⟩
  else ⟨255 + 0 - a.q, |c| * a.scale, 255 - (a.zp - 0)⟩

/-- `quantized::add_scalar`: the zero point absorbs the summand when it stays in the range, otherwise the scale grows and the
elements are requantized. -/
noncomputable def addScalar (rnd : ℝ → Int) (c : ℝ) (a : Q) : Q :=
  let cq := rnd (c / a.scale)
  let requant (s : ℝ) (z : Int) : Q :=
    ⟨max 0 (min 255 (rnd (((a.q - a.zp + cq : Int) : ℝ) * (a.scale / s)) + z)), s, z⟩
  if a.zp - cq < 0 then requant ((255 - ((a.zp - cq : Int) : ℝ)) / 255 * a.scale) 0
  else if 255 < a.zp - cq then requant ((((a.zp - cq : Int) : ℝ) - 0) / 255 * a.scale) 255
  else ⟨a.q, a.scale, a.zp - cq⟩

/-- `quantized::add_scalar_relu` clamps at the zero point. -/
noncomputable def relu (a : Q) : Q := ⟨max a.q a.zp, a.scale, a.zp⟩

end Verif.Spec.QScalar
