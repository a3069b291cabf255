import Verif.Spec.TrainLoop
import Mathlib.Algebra.Order.Ring.Rat
import Mathlib.Algebra.Field.Rat
/-!
Model of the loops of tinynn/util/cifar10.py: `compute_accuracy` 84-89, `train_one_epoch` 92-179, `train_one_epoch_distill` 182-285, `validate` 288-324 and `calibrate` 327-359.
Parameters, gradients and batches are of arbitrary types; `grad` is the gradient of the loss of a batch, `opt` the step of the optimizer.  Left out: the gradient scaler, devices, printing and timing.
-/

namespace Verif.Model.TrainLoop
open Verif.Spec.TrainLoop

/-- The context: `warmup_iteration`, `max_iteration`, and which schedulers there are. -/
structure Cfg where
  warmup : ℕ
  max : Option ℕ
  hasWarm : Bool
  hasIter : Bool
  hasEpoch : Bool

structure St (P G : Type) where
  params : P
  grads : G
  iteration : ℕ
  rate : Rate

variable {P G B : Type} [AddMonoid G]

/-- 133-175: one batch; `backward` adds to the gradients. -/
def trainBatch (grad : P → B → G) (opt : Rate → P → G → P) (c : Cfg) (s : St P G) (b : B) : St P G :=
  let s := { s with grads := (0 : G) }
  let s := { s with grads := s.grads + grad s.params b }
  let s := { s with params := opt s.rate s.params s.grads }
  let s := if c.hasWarm = true ∧ c.warmup > s.iteration then { s with rate := { s.rate with warm := s.rate.warm + 1 } } else s
  let s := { s with iteration := s.iteration + 1 }
  if c.hasIter = true ∧ c.warmup ≤ s.iteration then { s with rate := { s.rate with iter := s.rate.iter + 1 } } else s

/-- 128-129: whether the loop is left. -/
def stops (c : Cfg) (s : St P G) : Bool :=
  match c.max with
  | none => false
  | some m => decide (s.iteration ≥ m)

/-- 126-175 -/
def trainLoop (step : St P G → B → St P G) (c : Cfg) : List B → St P G → St P G
  | [], s => s
  | b :: l, s => if stops c s then s else trainLoop step c l (step s b)

/-- 177-179 and 284-285: the step of the scheduler per epoch. -/
def endEpoch (c : Cfg) (s : St P G) : St P G :=
  if c.hasEpoch = true ∧ c.warmup ≤ s.iteration then { s with rate := { s.rate with epoch := s.rate.epoch + 1 } } else s

/-- `train_one_epoch` -/
def trainEpoch (grad : P → B → G) (opt : Rate → P → G → P) (c : Cfg) (l : List B) (s : St P G) : St P G :=
  endEpoch c (trainLoop (trainBatch grad opt c) c l s)

/-- 240-282: one batch of `train_one_epoch_distill`, with the gradient of the mixed loss. -/
def distillBatch (grad : P → B → G) (opt : Rate → P → G → P) (c : Cfg) (s : St P G) (b : B) : St P G :=
  let s := { s with grads := (0 : G) }
  let s := { s with grads := s.grads + grad s.params b }
  let s := { s with params := opt s.rate s.params s.grads }
  let s := if c.hasWarm = true ∧ c.warmup > s.iteration then { s with rate := { s.rate with warm := s.rate.warm + 1 } } else s
  { s with iteration := s.iteration + 1 }

/-- `train_one_epoch_distill` -/
def distillEpoch (grad : P → B → G) (opt : Rate → P → G → P) (c : Cfg) (l : List B) (s : St P G) : St P G :=
  endEpoch c (trainLoop (distillBatch grad opt c) c l s)

/-- 204-211: the mixed loss, from the loss for the labels and the divergence from the teacher at temperature `T`. -/
def mixedLoss (A T origin kl : ℚ) : ℚ := origin * (1 - A) + kl * T * T * A

/-- 84-89, on the predicted classes and the labels of a batch. -/
def computeAccuracy (batch : List (ℕ × ℕ)) : ℚ := ((batch.countP fun p => p.2 = p.1 : ℕ) : ℚ) / batch.length * 100

/-- `AverageMeter`, train_util.py 59-81. -/
structure Meter where
  avg : ℚ
  sum : ℚ
  count : ℕ

def Meter.update (m : Meter) (val : ℚ) (n : ℕ) : Meter := ⟨(m.sum + val * n) / (m.count + n : ℕ), m.sum + val * n, m.count + n⟩

/-- 288-324 -/
def validate (batches : List (List (ℕ × ℕ))) : ℚ := (batches.foldl (fun (m : Meter) b => m.update (computeAccuracy b) b.length) (⟨0, 0, 0⟩ : Meter)).avg

/-- 327-359: the observers after the batches, and the iteration; `i` is the index of the batch. -/
def calibrate {O : Type} (observe : O → B → O) (max : Option ℕ) : ℕ → List B → O × ℕ → O × ℕ
  | _, [], s => s
  | i, b :: l, s => if (match max with
      | none => false
      | some m => decide (i ≥ m)) then s else calibrate observe max (i + 1) l (observe s.1 b, s.2 + 1)

end Verif.Model.TrainLoop
