/-!
Simulating bfloat16 in training.

Modelled code: tinynn/graph/quantization/fake_quantize.py
  FakeQuantizeBFloat16.__init__, enable_fake_quant, disable_fake_quant, forward   (9-26)
and tinynn/graph/quantization/quantizer.py
  BF16Quantizer.quantize   (3600-3610: this module is put behind every layer and in front of every weight)
Simplifications: tensors are of type float32 (a sign and the other 31 bits as a number for every element) or of another type that is not floating point; NaN is not distinguished from infinity;
`Tensor.to(torch.bfloat16)` is PyTorch's rounding (c10/util/BFloat16.h, `round_to_nearest_even`), which adds 0x7fff and the lowest bit that stays and drops the lower 16 bits.
-/

namespace Verif.Model.BFloat

/-- An element of a float32 tensor. -/
structure F32 where
  neg : Bool
  bits : Nat
  deriving DecidableEq

/-- What a layer gets or returns. -/
inductive Val where
  | float (xs : List F32)
  | int (xs : List Int)
  | list (vs : List Val)
  | tuple (vs : List Val)
  | dict (vs : List Val)

/-- `Tensor.to(torch.bfloat16)` followed by `Tensor.to(torch.float32)`, line 25, for one element. -/
def toBf16 (x : F32) : F32 := ⟨x.neg, (x.bits + 32767 + x.bits / 65536 % 2) / 65536 * 65536⟩

mutual
/-- `forward` when the flag is set, 21-26. -/
def forwardOn : Val → Val
  | .float xs => .float (xs.map toBf16)
  | .int xs => .int xs
  | .list vs => .list (forwardAll vs)
  | .tuple vs => .list (forwardAll vs)
  | .dict vs => .dict vs
/-- The comprehension of line 22. -/
def forwardAll : List Val → List Val
  | [] => []
  | v :: vs => forwardOn v :: forwardAll vs
end

/-- `forward`, 19-26. -/
def forward (enabled : Nat) (v : Val) : Val := if enabled = 1 then forwardOn v else v

/-- `enable_fake_quant`, 13-14: the flag afterwards. -/
def enableFlag (enabled : Bool) : Nat := if enabled then 1 else 0

/-- What happens to the module between its uses. -/
inductive Ev where
  | enable (b : Bool)
  | disable
  | apply (v : Val)

/-- The results of the uses of the module in a history, from a flag. -/
def results : Nat → List Ev → List Val
  | _, [] => []
  | _, .enable b :: r => results (enableFlag b) r
  | _, .disable :: r => results (enableFlag false) r
  | e, .apply v :: r => forward e v :: results e r

/-- A new module: the flag is 1 (line 11). -/
def run (h : List Ev) : List Val := results 1 h

end Verif.Model.BFloat
