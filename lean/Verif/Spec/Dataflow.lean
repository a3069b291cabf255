import Mathlib.Data.Set.Insert
import Mathlib.Data.Nat.Notation

/-! Straight-line programs on named tensors: what an operator of kind `F` computes is given by `sem`. -/

namespace Verif.Spec.Dataflow

variable {F V : Type}

/-- An operator with the names of its operands and results. -/
structure Op (F : Type) where
  fn : F
  ins : List ℕ
  outs : List ℕ

/-- Running one operator. -/
def step (sem : F → List V → ℕ → V) (env : ℕ → V) (op : Op F) : ℕ → V := fun n => if n ∈ op.outs then sem op.fn (op.ins.map env) (op.outs.idxOf n) else env n

/-- Running operators in order. -/
def run (sem : F → List V → ℕ → V) (env : ℕ → V) (ops : List (Op F)) : ℕ → V := ops.foldl (step sem) env

/-- Operators are in an order in which they can run given the tensors `K`, and every tensor is made once. -/
def Ordered : Set ℕ → List (Op F) → Prop
  | _, [] => True
  | K, op :: ops => (∀ i ∈ op.ins, i ∈ K) ∧ op.outs.Nodup ∧ (∀ o ∈ op.outs, o ∉ K) ∧ Ordered (K ∪ {n | n ∈ op.outs}) ops

/-- How often a tensor is read. -/
def reads (x : ℕ) (ops : List (Op F)) : ℕ := (ops.map fun op => op.ins.count x).sum

end Verif.Spec.Dataflow
