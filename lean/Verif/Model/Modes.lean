import Verif.Spec.Modes
/-!
Modes of models, and freezing of batch norm.

Modelled code: tinynn/graph/quantization/quantizer.py
  QATQuantizer.set_model_mode            (424-440), PostQuantizer.set_model_mode (3645-3661)
  QATQuantizer.restore_model_mode        (442-456)
  their use in QATQuantizer.quantize     (467, 526)
and tinynn/graph/quantization/qat_modules.py
  _ConvTransposeBnNd: the flags in __init__ (409-410, 423-431), update_bn_stats (450-453), freeze_bn_stats (455-458), train (497-507), the statistics in _forward (461-485)
and the freeze in tinynn/util/train_util.py train (129-131).
Simplifications: every module has a flag `training`, and `train` is the one of nn.Module (models are not quantized yet when modes are restored); what is between the two calls may leave any flags.  The statistics are any value,
changed by any function of the batch.
-/

namespace Verif.Model.Modes
open Verif.Spec.Modes

/-- 434-438: the flags of all modules; a dictionary in the order of `modules()`. -/
def saveModes (m : Forest) (flags : Nat → Bool) : List (Nat × List Nat × Bool) := (m.modules []).1.map fun e => (e.1, e.2, flags e.1)

/-- 440 and 3661. -/
def switchAll (m : Forest) (flags : Nat → Bool) (b : Bool) : Nat → Bool := setAll flags m.ids b

/-- 451-454. -/
def restoreModes (saved : List (Nat × List Nat × Bool)) (flags : Nat → Bool) : Nat → Bool :=
  saved.foldl (fun fl e => if e.2.2 then setAll fl e.2.1 true else setAll fl e.2.1 false) flags

/-- The kinds of layers with batch norm: PyTorch's fused ones for quantization-aware training, TinyNN's fused transposed convolution, and a batch norm on its own. -/
inductive BnKind where
  | torchFused
  | convTranspose
  | single
  deriving DecidableEq

/-- A layer; `S` are the statistics. -/
structure BnLayer (S : Type) where
  kind : BnKind
  training : Bool
  freezeBn : Bool
  bnTraining : Bool
  stats : S

variable {S X : Type}

/-- A new layer, 409-431. -/
def newLayer (kind : BnKind) (stats : S) : BnLayer S := ⟨kind, true, false, true, stats⟩

/-- 455-458. -/
def BnLayer.freeze (l : BnLayer S) : BnLayer S := { l with freezeBn := true, bnTraining := false }

/-- 450-453. -/
def BnLayer.unfreeze (l : BnLayer S) : BnLayer S := { l with freezeBn := false, bnTraining := true }

/-- 497-507; a batch norm on its own has no flag. -/
def BnLayer.train (l : BnLayer S) (mode : Bool) : BnLayer S :=
  if l.kind = .single then { l with training := mode, bnTraining := mode }
  else if l.freezeBn then { l with training := mode }
  else { l with training := mode, bnTraining := mode }

/-- The statistics after a batch. -/
def BnLayer.forward (upd : S → X → S) (l : BnLayer S) (x : X) : BnLayer S := if l.bnTraining then { l with stats := upd l.stats x } else l

/-- train_util.py 131, `model.apply(torch.nn.intrinsic.qat.freeze_bn_stats)`: PyTorch's function looks for its own classes. -/
def applyFreeze (l : BnLayer S) : BnLayer S := if l.kind = .torchFused then l.freeze else l

/-- What a training function does to a layer. -/
inductive Use (X : Type) where
  | train (mode : Bool)
  | forward (x : X)

def use (upd : S → X → S) (l : BnLayer S) : Use X → BnLayer S
  | .train b => l.train b
  | .forward x => l.forward upd x

end Verif.Model.Modes
