import Verif.Spec.Quant

/-! Meaning of a quantized convolution or linear layer (C80). -/

namespace Verif.Spec

/-- A quantized layer computes, for an output element, an integer accumulator `acc` of products of stored values (zero points removed) and adds the
stored bias `qb`; the sum stands for a real number in units of `scale`. -/
def layerOutput (scale : ℝ) (acc qb : Int) : ℝ := scale * ((acc : ℝ) + qb)

/-- What PyTorch computes: the products in units of input scale times weight scale, plus the real bias. -/
def torchLayerOutput (sIn sW : ℝ) (acc : Int) (bias : ℝ) : ℝ := sIn * sW * acc + bias

end Verif.Spec
