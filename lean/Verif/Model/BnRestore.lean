import Verif.Spec.BnRestore

/-!
Model of `tinynn/util/bn_restore.py`.  Values are those of one channel, in exact arithmetic; `call o x` is what the convolution `o` computes.
-/

namespace Verif.Model.BnRestore
open Verif.Spec.BnRestore

/-- `named_modules`: every object once, under its first path (used at bn_restore.py:49, 59, 84). -/
def namedModules : List ℕ → List (String × ℕ) → List (String × ℕ)
  | _, [] => []
  | seen, p :: ps => if seen.contains p.2 then namedModules seen ps else p :: namedModules (p.2 :: seen) ps

/-- The default list of layers (bn_restore.py:83-84). -/
def defaultLayers (g : Net) : List String := ((namedModules [] g.paths).filter fun p => g.conv p.2).map Prod.fst

/-- `restore_bn` (bn_restore.py:47-53): the paths at which a `ConvBnForward` stands afterwards. -/
def wrapped (g : Net) (layers : List String) : List String :=
  ((namedModules [] g.paths).filter fun p => g.conv p.2 && layers.contains p.1).map Prod.fst

/-- What a `ConvBnForward` has collected: running mean and variance (bn_restore.py:13-26); a new batch normalization starts with 0 and 1 and moves by 0.1. -/
structure Stats where
  mean : ℝ
  var : ℝ

/-- Statistics after the calibration, from mean and variance of each batch. -/
noncomputable def collect (batches : List (ℝ × ℝ)) : Stats := ⟨running 0.1 0 (batches.map Prod.fst), running 0.1 1 (batches.map Prod.snd)⟩

/-- `ConvBnForward.forward` (bn_restore.py:22-26): the output of the convolution; what the batch normalization gives is dropped. -/
def forwardCollect (conv : ℝ → ℝ) (x : ℝ) : ℝ := conv x

/-- `ConvBnTrain` (bn_restore.py:29-45) in evaluation mode: weight is the root of the running variance, bias the running mean, eps that of a new batch normalization. -/
noncomputable def forwardRestored (s : Stats) (conv : ℝ → ℝ) (x : ℝ) : ℝ :=
  batchNorm s.mean s.var 0.00001 (Real.sqrt s.var) s.mean (conv x)

/-- What the model computes at a path during the calibration (bn_restore.py:85-88). -/
def callCollect (g : Net) (layers : List String) (call : ℕ → ℝ → ℝ) (p : String × ℕ) (x : ℝ) : ℝ :=
  if (wrapped g layers).contains p.1 then forwardCollect (call p.2) x else call p.2 x

/-- What the returned model computes at a path in evaluation mode (bn_restore.py:56-62, 89). -/
noncomputable def callRestored (g : Net) (layers : List String) (stats : String → Stats) (call : ℕ → ℝ → ℝ) (p : String × ℕ) (x : ℝ) : ℝ :=
  if (wrapped g layers).contains p.1 then forwardRestored (stats p.1) (call p.2) x else call p.2 x

end Verif.Model.BnRestore
