import Verif.Model.FakeQuant
/-!
The fake-quantizer for post-training quantization: `PTQFakeQuantize.forward` (tinynn/graph/quantization/fake_quantize.py:84-107).  Floats are real numbers; `S` is the state of the observer; a tensor is a
function from an index type.
-/

namespace Verif.Model.PtqFakeQuant
open Verif.Model

/-- The module.  `scale` and `zeroPoint` are tensors, with one entry to begin with. -/
structure Ptq (S : Type) where
  observerOn : Bool
  fakeOn : Bool
  observer : S
  scale : List ℝ
  zeroPoint : List Int
  quantMin : Int
  quantMax : Int

/-- Quantizing and dequantizing, per tensor or per channel (100-106): `channel i` is the position of the scale of entry `i` (0 for per-tensor quantization). -/
noncomputable def fakeQuantize {S I : Type} (channel : I → Nat) (m : Ptq S) (x : I → ℝ) : I → ℝ := fun i =>
  let s := m.scale.getD (channel i) 1
  let z := m.zeroPoint.getD (channel i) 0
  ((clampInt m.quantMin m.quantMax (z + roundEven (x i * (1 / s))) - z : Int) : ℝ) * s

open Classical in
/-- The condition of 89-91.  The truth of a tensor with several entries is a `RuntimeError`: `none`. -/
noncomputable def stale {S : Type} (m : Ptq S) : Option Bool :=
  match m.scale, m.zeroPoint with
  | [s], [z] => some (decide ((s = 1 ∧ z = 0) ∨ s * ((m.quantMax - m.quantMin + 1 : Int) : ℝ) = 256))
  | _, _ => none

/-- `forward`, 85-107. -/
noncomputable def forward {S I : Type} (observe : S → (I → ℝ) → S) (qparams : S → List ℝ × List Int) (channel : I → Nat) (m : Ptq S) (x : I → ℝ) : Option (Ptq S × (I → ℝ)) :=
  let m := if m.observerOn then { m with observer := observe m.observer x } else m
  if m.fakeOn then
    match stale m with
    | none => none
    | some b =>
      let m := if b then { m with scale := (qparams m.observer).1, zeroPoint := (qparams m.observer).2 } else m
      some (m, fakeQuantize channel m x)
  else some (m, x)

/-- Calling the module on several tensors: the state afterwards and all results. -/
noncomputable def runAll {S I : Type} (observe : S → (I → ℝ) → S) (qparams : S → List ℝ × List Int) (channel : I → Nat) : Ptq S → List (I → ℝ) → Option (Ptq S × List (I → ℝ))
  | m, [] => some (m, [])
  | m, x :: r => match forward observe qparams channel m x with
    | none => none
    | some (m1, y) => match runAll observe qparams channel m1 r with
      | none => none
      | some (m2, ys) => some (m2, y :: ys)

/-- Switching to calibration: observers on, fake quantization off. -/
def Ptq.calibrate {S : Type} (m : Ptq S) : Ptq S := { m with observerOn := true, fakeOn := false }

/-- Switching to validation: observers off, fake quantization on. -/
def Ptq.validate {S : Type} (m : Ptq S) : Ptq S := { m with observerOn := false, fakeOn := true }

end Verif.Model.PtqFakeQuant
