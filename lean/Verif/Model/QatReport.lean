import Verif.Model.ErrorAnalysis
/-!
The report of a quantizer on a model prepared for training: `QATQuantizer.error_analysis` (tinynn/graph/quantization/quantizer.py:3064-3185).  Models, runs and the pieces it shares with the functions of
quantization_analysis_util.py are those of `Verif.Model.ErrorAnalysis`.  The signal-to-noise ratio (3133-3136) is a parameter with rational values (infinite ratios and NaN, of zero tensors, are left out).
Lines carry the full path of the fake-quantizer; the code cuts its last component (3146).
-/

namespace Verif.Model.QatReport
open Verif.Spec.ErrorAnalysis Verif.Model.ErrorAnalysis

variable {S X : Type}

/-- `sorted(..., key=lambda x: x[2])` (3153-3154). -/
def sorted (ls : List Line) : List Line := ls.mergeSort fun a b => decide (a.2 ≤ b.2)

/-- `error_analysis` (3064-3185).  `scales path` is the number of scales of a fake-quantizer: `m.scale.item()` (3161 and 3167) fails for more than one.  `okInput`: the input is a tensor, a list or a tuple (3108-3114). -/
def qatAnalysis (fwd : Fwd X) (upd : S → X → S) (fq : Node S → X → X) (sqnr : X → X → ℚ) (scales : String → ℕ) (threshold : ℚ) (okInput : Bool) (ms : List (Node S)) (x : X) : Result × List (Node S) :=
  if (ms.filter fun m => decide (m.kind = .fakeQuant)).isEmpty then (.report [] [], ms)
  else
    let ms0 := disable (addHooks ms)
    if okInput then
      let ms1 := mode false ms0
      match forward fwd upd ms1 x with
      | none => (.error, ms1)
      | some (ms2, seen) =>
        let ms3 := restoreFake ms (removeHooks ms2)
        let bad := ((layerLines fq sqnr ms3 seen).reverse).filter fun l => decide (l.2 ≤ threshold)
        let weights := sorted (bad.filter isWeight)
        let activations := sorted (bad.filter fun l => !isWeight l)
        if (weights ++ activations).all fun l => decide (scales l.1 = 1) then
          (.report weights activations, mode true (restoreObserver ms ms3))
        else (.error, ms3)
    else (.error, ms0)

end Verif.Model.QatReport
