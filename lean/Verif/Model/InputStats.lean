import Verif.Spec.InputStats
import Verif.Model.KlRange

/-!
Model of `set_module_quantization`, `prepare_quantized_inputs_pass`, `KNOWN_QSTATS` and `rescale_activations_with_quant_min_max` (`/repo/tinynn/graph/quantization/quantizer.py` 1345-1467, 154-159) over exact
numbers.  `none` is an exception.
-/

namespace Verif.Model.InputStats
open Verif.Spec.InputStats

/-- How an observer finds its range. -/
inductive Algorithm
  | minmax
  /-- `HistogramObserver`: without data the whole range. -/
  | l2
  /-- `HistogramObserverKL`. -/
  | kl
  deriving DecidableEq

/-- An observer; `lo` and `hi` are `quant_min` and `quant_max`. -/
structure Obs where
  algorithm : Algorithm
  isSymmetric : Bool
  mid : ℤ
  lo : Option ℤ
  hi : Option ℤ
  reduce : Bool
  eps : ℚ

/-- The integers used (1412-1413, 1427-1437). -/
def Obs.bounds (o : Obs) : ℤ × ℤ :=
  match o.lo, o.hi with
  | some a, some b => (a, b)
  | _, _ => if o.reduce then (0, 127) else (0, 255)

/-- `torch.tensor(mean, dtype=torch.int32)`: rounding towards zero. -/
def trunc (x : ℚ) : ℤ := if 0 ≤ x then ⌊x⌋ else ⌈x⌉

/-- What is set: `scale` and `zero_point` of a fake quantizer, `min_val` and `max_val` of its observer. -/
structure Setting where
  scale : ℚ
  zp : ℤ
  mn : ℚ
  mx : ℚ

/-- `set_module_quantization` (1398-1440). -/
def setStats (o : Obs) (mean std : ℚ) : Setting :=
  let s := 1 / std
  let z := trunc mean
  ⟨s, z, s * ((o.bounds.1 : ℚ) - z), s * ((o.bounds.2 : ℚ) - z)⟩

/-- The range of an observer that has seen no data (its `forward` does nothing) but whose `min_val` and `max_val` are set.  The histogram of `HistogramObserverKL` is divided by its sum 0, so every divergence
is not a number. -/
def rangeOf (o : Obs) (mn mx : ℚ) : Option (ℚ × ℚ) :=
  match o.algorithm with
  | .minmax | .l2 => some (mn, mx)
  | .kl => KlRange.paramSearch (fun _ _ _ => .nan) 128 2048 2048 (fun _ => 0) mn mx

/-- Scale and zero point of the converted model: those the observer calculates. -/
def converted (rnd : ℚ → ℤ) (o : Obs) (mean std : ℚ) : Option (ℚ × ℤ) :=
  (rangeOf o (setStats o mean std).mn (setStats o mean std).mx).map fun r =>
    if o.isSymmetric then symmetric o.mid o.eps o.bounds.1 o.bounds.2 r.1 r.2 else affine rnd o.eps o.bounds.1 o.bounds.2 r.1 r.2

/-- The readers of an input (1360-1362): a QuantStub has an observer. -/
def setNexts (stats : Option (ℚ × ℚ)) : List (Option Obs) → Option (List (Option Setting))
  | [] => some []
  | none :: ns => (setNexts stats ns).map (none :: ·)
  | some o :: ns =>
    match stats with
    | none => none
    | some (mean, std) => (setNexts stats ns).map (some (setStats o mean std) :: ·)

/-- The inputs in order (1352-1362). -/
def setInputs : List (Option (ℚ × ℚ) × List (Option Obs)) → Option (List (List (Option Setting)))
  | [] => some []
  | (stats, ns) :: rest => (setNexts stats ns).bind fun a => (setInputs rest).map (a :: ·)

/-- `prepare_quantized_inputs_pass` (1345-1362). -/
def prepareInputs (stats : List (Option (ℚ × ℚ))) (inputs : List (List (Option Obs))) : Option (List (List (Option Setting))) :=
  if stats.length ≠ inputs.length then none else setInputs (stats.zip inputs)

/-- `KNOWN_QSTATS` (154-159). -/
def knownSoftmax : ℚ × ℚ := (0, 256)
def knownLogSoftmax : ℚ × ℚ := (255, 16)

/-- The parameters of a fake quantizer. -/
structure Fq where
  scale : ℚ
  zp : ℤ
  lo : ℤ
  hi : ℤ

/-- One fake quantizer of `rescale_activations_with_quant_min_max` (1455-1466). -/
def rescale (lo hi : ℤ) (m : Fq) : Fq :=
  let old := m.hi - m.lo + 1
  let new := hi - lo + 1
  ⟨m.scale * old / new, if m.zp ≠ 0 then new / 2 else 0, lo, hi⟩

/-- A sigmoid module before its fake quantizer (1450-1453); `none` for the fake quantizer is a module that is not quantized. -/
def sigmoidFirst (lo hi : ℤ) (m : Option Fq) : Option (Option Fq) :=
  if lo = 0 ∧ hi = 65535 then m.elim none fun q => some (some { q with scale := q.scale * 2, zp := 32768 }) else some m

/-- A module with its fake quantizer (1444-1466). -/
def rescaleModule (lo hi : ℤ) (isSigmoid : Bool) (m : Option Fq) : Option (Option Fq) :=
  (if isSigmoid then sigmoidFirst lo hi m else some m).map fun q => q.map (rescale lo hi)

end Verif.Model.InputStats
