import Mathlib.Data.Rat.Defs
import Mathlib.Algebra.Order.Field.Rat

/-!
Model of `train` and `AverageMeter`, `/repo/tinynn/util/train_util.py` 60-82 and 85-157.  Accuracies and meter values are rational numbers (no NaN).
-/

namespace Verif.Model

/-- What a training run can see and change: the weights, the file `best_model.pth` in the working directory (it may exist from an earlier run), the file
`qat_last_model.pth`, and the log of freezes: `(epoch, true)` for the observers, `(epoch, false)` for batch norm. -/
structure TrainState (W : Type) where
  model : W
  bestFile : Option W
  lastFile : Option W
  bestAcc : ℚ
  freezes : List (Nat × Bool)

/-- One epoch, train_util.py 116-146, in the main process: `trainFunc` is `train_func` at this epoch, `validate` the accuracy. -/
def trainEpoch {W : Type} (trainFunc : Nat → W → W) (validate : W → ℚ) (maxEpoch : Nat) (qat : Bool) (s : TrainState W) (i : Nat) : TrainState W :=
  let s := { s with model := trainFunc i s.model }
  let s := if qat then
      if i = maxEpoch / 3 then { s with freezes := s.freezes ++ [(i, true)] }
      else if i = maxEpoch / 3 * 2 then { s with freezes := s.freezes ++ [(i, false)] }
      else s
    else s
  let acc := validate s.model
  if qat then
    if i + 1 = maxEpoch then { s with lastFile := some s.model } else s
  else if acc > s.bestAcc then { s with bestAcc := acc, bestFile := some s.model } else s

/-- `train`, train_util.py 85-157, in the main process.  `none` is the FileNotFoundError of line 154. -/
def trainRun {W : Type} (trainFunc : Nat → W → W) (validate : W → ℚ) (maxEpoch : Nat) (qat : Bool) (start : W) (oldFile : Option W) : Option (TrainState W) :=
  let s := (List.range maxEpoch).foldl (trainEpoch trainFunc validate maxEpoch qat) ⟨start, oldFile, none, 0, []⟩
  if qat then some s else s.bestFile.map (fun w => { s with model := w })

/-- `AverageMeter`, train_util.py 60-82. -/
structure Meter where
  val : ℚ
  avg : ℚ
  sum : ℚ
  count : ℚ
  deriving DecidableEq

/-- `__init__` and `reset`, lines 66-76. -/
def Meter.zero : Meter := ⟨0, 0, 0, 0⟩

/-- `update`, lines 78-82; `none` is the ZeroDivisionError. -/
def Meter.update (m : Meter) (v n : ℚ) : Option Meter :=
  if m.count + n = 0 then none else some ⟨v, (m.sum + v * n) / (m.count + n), m.sum + v * n, m.count + n⟩

/-- What a program does with a meter. -/
inductive MeterOp
  | update (v n : ℚ)
  | reset

/-- One operation. -/
def Meter.step (m : Meter) : MeterOp → Option Meter
  | .update v n => m.update v n
  | .reset => some .zero

/-- A history of operations on a new meter. -/
def meterRun (ops : List MeterOp) : Option Meter := ops.foldlM Meter.step .zero

end Verif.Model
