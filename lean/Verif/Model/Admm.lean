import Verif.Spec.Admm
import Mathlib.Algebra.Order.Floor.Defs
import Mathlib.Data.Rat.Floor

/-!
Model of `ADMMPruner` (`tinynn/prune/admm_pruner.py`): the variables of one layer, the criterion with its derivative as automatic differentiation computes it, the
learning rate, and which subgraphs an update looks at.
-/

namespace Verif.Model.Admm

variable {α : Type} [Field α]

/-- A tensor that remembers how it was computed: its entries, and for each the derivative with respect to the same entry of the weight. -/
structure Ten (α : Type) where
  val : ℕ → α
  slope : ℕ → α

/-- The parameter itself. -/
def weight (w : ℕ → α) : Ten α := ⟨w, fun _ => 1⟩

/-- `.detach()`. -/
def detach (t : Ten α) : Ten α := ⟨t.val, fun _ => 0⟩

/-- `a + b`. -/
def add (a b : Ten α) : Ten α := ⟨fun i => a.val i + b.val i, fun i => a.slope i + b.slope i⟩

/-- `a - b`. -/
def sub (a b : Ten α) : Ten α := ⟨fun i => a.val i - b.val i, fun i => a.slope i - b.slope i⟩

/-- `t * mask`, the mask is 1 where the entry stays. -/
def mask (m : ℕ → Bool) (t : Ten α) : Ten α := ⟨fun i => t.val i * (if m i then 1 else 0), fun i => t.slope i * (if m i then 1 else 0)⟩

/-- `self.Z[name]` and `self.U[name]`. -/
structure State (α : Type) where
  Z : Ten α
  U : Ten α

/-- `register_mask` (admm_pruner.py:121-131); `keep` is the metric with the choice of channels. -/
def register (keep : (ℕ → α) → ℕ → Bool) (w : ℕ → α) : State α := ⟨mask (keep w) (detach (weight w)), ⟨fun _ => 0, fun _ => 0⟩⟩

/-- `admm_params_update` (admm_pruner.py:133-158) for a layer of which channels are pruned: `Z` from the detached sum, `U` from the parameter. -/
def paramsUpdate (keep : (ℕ → α) → ℕ → Bool) (s : State α) (w : ℕ → α) : State α :=
  let z := detach (add (weight w) s.U)
  let z := mask (keep z.val) z
  ⟨z, add (sub (weight w) z) s.U⟩

/-- `prune` (admm_pruner.py:49-76): the weights after the epochs of each iteration are given. -/
def pruneLoop (keep : (ℕ → α) → ℕ → Bool) (w : ℕ → α) (rounds : List (ℕ → α)) : State α := rounds.foldl (paramsUpdate keep) (register keep w)

/-- The part of the criterion for the layer (admm_pruner.py:104-111). -/
def criterion (n : ℕ) (rho : α) (s : State α) (w : ℕ → α) : α :=
  1 / 2 * rho * ∑ i ∈ Finset.range n, (add (sub (weight w) s.Z) s.U).val i ^ 2

/-- Its derivative with respect to entry `i` of the weight, by the chain rule along the recorded computation. -/
def backward (rho : α) (s : State α) (w : ℕ → α) (i : ℕ) : α :=
  1 / 2 * rho * (2 * (add (sub (weight w) s.Z) s.U).val i * (add (sub (weight w) s.Z) s.U).slope i)

/-- `adjust_learning_rate` (admm_pruner.py:78-91); epochs count from 1, `admm_epoch / 3` is exact here. -/
def learningRate (lr : ℚ) (epochs epoch : ℕ) : ℚ :=
  if (epoch - 1) % epochs = 0 then lr
  else lr * (1 / 10) ^ (⌊(((epoch - 1) % epochs : ℕ) : ℚ) / ((epochs : ℚ) / 3)⌋).toNat

/-- A subgraph: its centers, whether it is skipped, and whether its rate is 0. -/
structure Sub where
  centers : List String
  skip : Bool
  zero : Bool

/-- `calc_prune_idx` (modifier.py:2908-3170) as far as the importance is concerned: with rate 0 nothing is done, otherwise every center of the subgraph is looked up (every
center has a leaf); `none` is a KeyError. -/
def pruneIdx (importance : List String) (s : Sub) : Option (List String) :=
  if s.zero then some [] else if s.centers.all fun c => importance.contains c then some s.centers else none

/-- `OneShotChannelPruner.register_mask` (oneshot_pruner.py:138-156): subgraph by subgraph; the centers of which channels are pruned, which are those in `Z` and `U`. -/
def registerSubs : List String → List Sub → Option (List String)
  | _, [] => some []
  | imp, s :: ss =>
    if s.skip then registerSubs imp ss
    else
      let imp := imp ++ s.centers
      match pruneIdx imp s, registerSubs imp ss with
      | some a, some b => some (a ++ b)
      | _, _ => none

/-- `admm_params_update` (admm_pruner.py:134-144): importance only for what is in `U`; `skip` is not looked at. -/
def updateSubs (u : List String) : List String → List Sub → Option (List String)
  | _, [] => some []
  | imp, s :: ss =>
    let imp := imp ++ s.centers.filter fun c => u.contains c
    match pruneIdx imp s, updateSubs u imp ss with
    | some a, some b => some (a ++ b)
    | _, _ => none

end Verif.Model.Admm
