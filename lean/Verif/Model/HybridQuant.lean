import Verif.Model.QuantStore
import Verif.Spec.Tensor

/-!
Model of `quantize` of `/repo/tinynn/converter/operators/hybrid_quantizer.py` 210-264, and of the choice of granularity in
`quantize_pass` (131-188).  All call sites pass `torch.qint8`, so only that branch is modelled.  Weights are reals (float32 in
the code).
-/

namespace Verif.Model
open Verif.Spec

/-- All multi-indices of a shape, in row-major order. -/
def allIdx (s : List Nat) : List (List Nat) := (List.range s.prod).map (unflat s)

/-- hybrid_quantizer.py 220-225 and 227-229: the values `torch.amin`/`torch.amax` reduce over: everything, or everything with
coordinate `c` on the axis. -/
def reduceOver (t : Tensor ℝ) (axis : Option Nat) (c : Nat) : List ℝ :=
  match axis with
  | none => (allIdx t.shape).map t.get
  | some a => ((allIdx t.shape).filter (fun idx => idx.getD a 0 == c)).map t.get

/-- The channel an element belongs to. -/
def chanOf (axis : Option Nat) (idx : List Nat) : Nat :=
  match axis with
  | none => 0
  | some a => idx.getD a 0

/-- `torch.amin`, `torch.amax` of a non-empty list. -/
noncomputable def amin (l : List ℝ) : ℝ := match l with
  | [] => 0
  | a :: r => r.foldl min a
noncomputable def amax (l : List ℝ) : ℝ := match l with
  | [] => 0
  | a :: r => r.foldl max a

/-- hybrid_quantizer.py 245-255: the scale (`quant_max - quant_min = 254`); `eps` is `torch.finfo(torch.float32).eps`. -/
noncomputable def hybridScale (eps : ℝ) (vals : List ℝ) : ℝ :=
  let minValNeg := min (amin vals) 0
  let maxValPos := max (amax vals) 0
  max (max (-minValNeg) maxValPos / (254 / 2)) eps

/-- hybrid_quantizer.py 259-262: the stored integer at `idx` (`torch.qint8` clamps to -128..127, zero point 0). -/
noncomputable def hybridQuantize (rnd : ℝ → Int) (eps : ℝ) (axis : Option Nat) (t : Tensor ℝ) (idx : List Nat) : Int :=
  torchQuantize rnd (-128) 127 (hybridScale eps (reduceOver t axis (chanOf axis idx))) 0 (t.get idx)

/-- The scale recorded for the element at `idx`. -/
noncomputable def hybridScaleAt (eps : ℝ) (axis : Option Nat) (t : Tensor ℝ) (idx : List Nat) : ℝ :=
  hybridScale eps (reduceOver t axis (chanOf axis idx))

/-- The operator types `quantize_pass` handles. -/
inductive HybridOp | fullyConnected | lstm | bilstm | conv2d | depthwise
  deriving DecidableEq, Repr

/-- hybrid_quantizer.py 154-178: the axis used for an operator's weight of rank `ndim`; the outer `none` means that the weight is
left as it is (163-165). -/
def hybridAxis (op : HybridOp) (perChannel : Bool) (ndim : Nat) : Option (Option Nat) :=
  if op = .fullyConnected ∨ op = .lstm ∨ op = .bilstm ∨ perChannel = false then
    if op = .depthwise then none else some none
  else if op = .conv2d then some (some 0)
  else some (some (ndim - 1))

/-- hybrid_quantizer.py 82-83: the int32 bias of an integer LSTM. -/
noncomputable def lstmBias (rnd : ℝ → Int) (weightScale inputScale bias : ℝ) : Int := rnd (bias / (weightScale * inputScale))

end Verif.Model
