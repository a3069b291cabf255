import Verif.Spec.ErrorAnalysis

/-!
Model of `layer_error_analysis` and `graph_error_analysis` (`tinynn/util/quantization_analysis_util.py:76-291`).  A model is the list of its modules, the model itself first.  What it
computes is a parameter: from mode and fake-quantization switch of every module and the input, either an error or the input every module was last called with (`none`: not called).
-/

namespace Verif.Model.ErrorAnalysis
open Verif.Spec.ErrorAnalysis

variable {S X : Type}

/-- What the user's model computes. -/
abbrev Fwd (X : Type) := List (Bool × Bool) → X → Option (List (Option X))

/-- What one call does to the statistics: normalization layers collect in training mode, fake quantizers when their observer is on. -/
def observe (upd : S → X → S) (m : Node S) (x : Option X) : Node S :=
  match x with
  | none => m
  | some x => if (m.kind = .norm ∧ m.training = true) ∨ (m.kind = .fakeQuant ∧ m.observer = true) then { m with stats := upd m.stats x } else m

/-- A call of the model with hooks (quantization_analysis_util.py:138-139): the modules afterwards and the inputs seen; an error leaves the modules as they are. -/
def forward (fwd : Fwd X) (upd : S → X → S) (ms : List (Node S)) (x : X) : Option (List (Node S) × List (Option X)) :=
  match fwd (ms.map fun m => (m.training, m.fake)) x with
  | none => none
  | some r => some (List.zipWith (observe upd) ms (r ++ List.replicate ms.length none), r)

/-- `model.eval()` and `model.train()` (quantization_analysis_util.py:94, 179). -/
def mode (b : Bool) (ms : List (Node S)) : List (Node S) := ms.map fun m => { m with training := b }

/-- Registering the hooks (quantization_analysis_util.py:107-115). -/
def addHooks (ms : List (Node S)) : List (Node S) := ms.map fun m => if m.kind = .fakeQuant then { m with hooks := m.hooks + 1 } else m

/-- Removing them (quantization_analysis_util.py:141-143). -/
def removeHooks (ms : List (Node S)) : List (Node S) := ms.map fun m => if m.kind = .fakeQuant then { m with hooks := m.hooks - 1 } else m

/-- `disable_fake_quant` and `disable_observer` on every module (quantization_analysis_util.py:120-121). -/
def disable (ms : List (Node S)) : List (Node S) := ms.map fun m => if m.kind = .fakeQuant then { m with fake := false, observer := false } else m

/-- Restoring the fake quantizers from the saved switches (quantization_analysis_util.py:145-146). -/
def restoreFake (old ms : List (Node S)) : List (Node S) := List.zipWith (fun o m => if m.kind = .fakeQuant then { m with fake := o.fake } else m) old ms

/-- Restoring the observers (quantization_analysis_util.py:175-176). -/
def restoreObserver (old ms : List (Node S)) : List (Node S) := List.zipWith (fun o m => if m.kind = .fakeQuant then { m with observer := o.observer } else m) old ms

/-- One line of a report: path and error. -/
abbrev Line := String × ℚ

/-- Errors layer by layer (quantization_analysis_util.py:150-161): each fake quantizer that was called is called alone on the input it had. -/
def layerLines (fq : Node S → X → X) (metric : X → X → ℚ) : List (Node S) → List (Option X) → List Line
  | m :: ms, x :: xs =>
    (match x with
      | some x => if m.kind = .fakeQuant then [(m.path, metric x (if m.fake then fq m x else x))] else []
      | none => []) ++ layerLines fq metric ms xs
  | _, _ => []

/-- Is the fake quantizer one for a weight (quantization_analysis_util.py:158)? -/
def isWeight (l : Line) : Bool := l.1.endsWith ".weight_fake_quant"

/-- Sorting and cutting (quantization_analysis_util.py:163-167). -/
def worst (n : ℕ) (ls : List Line) : List Line := (ls.mergeSort fun a b => decide (a.2 ≤ b.2)).take n

/-- Result: an error, or the two lists of the report (weights, activations). -/
inductive Result
  | error
  | report (weights activations : List Line)

/-- `layer_error_analysis` (quantization_analysis_util.py:93-179); `popitem` takes the entries from the end. -/
def layerAnalysis (fwd : Fwd X) (upd : S → X → S) (fq : Node S → X → X) (metric : X → X → ℚ) (n : ℕ) (ms : List (Node S)) (x : X) : Result × List (Node S) :=
  let train := (ms.head?.map fun m => m.training).getD false
  let ms1 := disable (addHooks (mode false ms))
  match forward fwd upd ms1 x with
  | none => (.error, ms1)
  | some (ms2, seen) =>
    let ms3 := restoreFake ms (removeHooks ms2)
    let ls := (layerLines fq metric ms3 seen).reverse
    let ms4 := restoreObserver ms ms3
    (.report (worst n (ls.filter isWeight)) (worst n (ls.filter fun l => !isWeight l)), if train then mode true ms4 else ms4)

/-- Cumulative errors (quantization_analysis_util.py:276-282): inputs without and with quantization; `none` is the failed assertion. -/
def graphLines (metric : X → X → ℚ) : List (Node S) → List (Option X) → List (Option X) → Option (List Line)
  | m :: ms, x :: xs, y :: ys =>
    match graphLines metric ms xs ys with
    | none => none
    | some ls =>
      if m.kind = .fakeQuant then
        match x, y with
        | none, _ => some ls
        | some _, none => none
        | some x, some y => if isWeight (m.path, 0) then some ls else some ((m.path, metric x y) :: ls)
      else some ls
  | _, _, _ => some []

/-- `graph_error_analysis` (quantization_analysis_util.py:200-291). -/
def graphAnalysis (fwd : Fwd X) (upd : S → X → S) (metric : X → X → ℚ) (ms : List (Node S)) (x : X) : Result × List (Node S) :=
  let train := (ms.head?.map fun m => m.training).getD false
  let ms1 := disable (addHooks (mode false ms))
  match forward fwd upd ms1 x with
  | none => (.error, ms1)
  | some (ms2, seen) =>
    let ms3 := restoreFake ms ms2
    match forward fwd upd ms3 x with
    | none => (.error, ms3)
    | some (ms4, seen') =>
      let ms5 := removeHooks ms4
      match graphLines metric ms5 seen seen' with
      | none => (.error, ms5)
      | some ls =>
        let ms6 := restoreObserver ms ms5
        (.report [] ls, if train then mode true ms6 else ms6)

end Verif.Model.ErrorAnalysis
