import Mathlib.Algebra.Field.Rat
import Mathlib.Algebra.Group.Defs
/-!
What is expected of a training epoch, of validation and of calibration.
-/

namespace Verif.Spec.TrainLoop

/-- How often the schedulers of the learning rate were stepped: warm-up, per iteration, per epoch. -/
structure Rate where
  warm : ℕ
  iter : ℕ
  epoch : ℕ
  deriving DecidableEq

/-- Gradient descent over batches: each step uses the gradient of the loss of its batch at the parameters before it, with the rate in force; `t` counts the steps. -/
def descend {P G B : Type} (grad : P → B → G) (opt : Rate → P → G → P) (rates : ℕ → Rate) : ℕ → List B → P → P
  | _, [], p => p
  | t, b :: l, p => descend grad opt rates (t + 1) l (opt (rates t) p (grad p b))

/-- The steps of the schedulers `t` iterations after iteration `it`: the warm-up as long as its iterations last, the scheduler per iteration from the last iteration of the warm-up on. -/
def rateAfter (hasWarm hasIter : Bool) (warmup it : ℕ) (r : Rate) (t : ℕ) : Rate :=
  ⟨r.warm + (if hasWarm then min (it + t) warmup - it else 0), r.iter + (if hasIter then min t (it + t + 1 - warmup) else 0), r.epoch⟩

/-- How many batches of a loader are used when `max` iterations are allowed in total and `n` were done. -/
def used (max : Option ℕ) (n len : ℕ) : ℕ :=
  match max with
  | none => len
  | some m => min len (m - n)

/-- Accuracy in percent over all samples of all batches, each a prediction and a label. -/
def accuracy (batches : List (List (ℕ × ℕ))) : ℚ := 100 * (batches.flatten.countP fun p => p.1 = p.2) / batches.flatten.length

end Verif.Spec.TrainLoop
