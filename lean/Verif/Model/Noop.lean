import Verif.Spec.Noop

/-!
Model of the removal of operators without effect and of the folding of constants (`tinynn/converter/operators/optimize.py`).
-/

namespace Verif.Model.Noop
open Verif.Spec Verif.Spec.Noop

/-- `(np.diff(v) == 1).all()` for a vector. -/
def diffOnes (v : List Nat) : Prop := ∀ i, i + 1 < v.length → v.getD (i + 1) 0 = v.getD i 0 + 1

/-- `(np.diff(ix) == 1).all()` for a tensor: the difference is taken along the last axis. -/
def diffOnesT (ix : Tensor Nat) : Prop :=
  ∀ pre i, InBounds ix.shape (pre ++ [i + 1]) → ix.get (pre ++ [i + 1]) = ix.get (pre ++ [i]) + 1

/-- The conditions on operator and shapes in `is_ending_with_noop_edge` (optimize.py:4012-4064): `s` and `s'` are the shapes of input and output recorded for
the example input, `op` carries the parameter values recorded for it. -/
def isNoop {D : Type} (s s' : List Nat) : MoveOp D → Prop
  | .reshape _ => s = s'
  | .transpose p => diffOnes p
  | .pad _ _ => s = s'
  | .mirrorPad _ _ => s = s'
  | .tile _ => s = s'
  | .slice _ => s = s'
  | .concat => s = s'
  | .gather _ ix => s = s' ∧ diffOnesT ix
  | .cast a b => a = b

variable {V : Type}

/-- Whether some operator or output of the model reads the tensor: `outdegree() >= 1`. -/
def isRead (g : CNet V) (n : String) : Bool := g.ops.any (fun o => o.srcs.contains n) || g.outputs.contains n

/-- `is_constant_transpose_fusable_edge` and `is_constant_reshape_fusable_edge` (optimize.py:4208-4227). -/
def foldable (g : CNet V) (o : COp V) : Bool :=
  o.moves && (match o.srcs.head? with
    | some n => (g.consts.map Prod.fst).contains n
    | none => false) && isRead g o.dst

/-- Let an operator read `b` wherever it read `a` (optimize.py:1111-1114). -/
def rewire (a b : String) (o : COp V) : COp V := { o with srcs := o.srcs.map fun n => if n = a then b else n }

/-- Folding one operator (optimize.py:1094-1120 and 1150-1172): `traced` are the recorded values, `nm` is the name of the new constant.  An output node has no
operator, so its missing `inputs` stop the conversion. -/
def foldOne (traced : String → V) (g : CNet V) (o : COp V) (nm : String) : Option (CNet V) :=
  if o.dst ∈ g.outputs then none
  else some { g with
    consts := g.consts ++ [(nm, o.fn (o.srcs.map traced))]
    ops := (g.ops.filter fun p => p.dst ≠ o.dst).map (rewire o.dst nm) }

/-- The loop over the operators selected. -/
def foldAll (traced : String → V) (fresh : ℕ → String) : ℕ → List (COp V) → CNet V → Option (CNet V)
  | _, [], g => some g
  | k, o :: os, g => (foldOne traced g o (fresh k)).bind (foldAll traced fresh (k + 1) os)

/-- `fold_transpose_buffer` and `fold_reshape_buffer` (optimize.py:1086-1117, 1142-1173); the operators are selected before the loop. -/
def foldBuffers (traced : String → V) (fresh : ℕ → String) (g : CNet V) : Option (CNet V) :=
  foldAll traced fresh 0 (g.ops.filter (foldable g)) g

end Verif.Model.Noop
