import Verif.Spec.Rnn
/-!
Specification for C154: PyTorch's LSTM with a projection (`proj_size`): the hidden state is a projection of what the units put out.
-/

namespace Verif.Spec.RnnProj
open Verif.Spec Finset

variable {R : Type} [CommRing R]

/-- A stack of LSTM layers with projections.  `cols` is the number of columns of the input weights of a layer and direction. -/
structure ProjRnn (R : Type) where
  layers : Nat
  bidir : Bool
  input : Nat
  hidden : Nat
  proj : Nat
  par : Nat → Bool → RnnParams R
  whr : Nat → Bool → Nat → Nat → R
  cols : Nat → Bool → Nat

/-- PyTorch runs the layers only if the input weights have a column for every feature they read. -/
def ProjRnn.Runs (r : ProjRnn R) : Prop := ∀ l back, l < r.layers → (back = true → r.bidir = true) → r.cols l back = layerWidth r.input r.proj r.bidir l

/-- Gate `n` of unit `j` before its activation. -/
def gate (p : RnnParams R) (I H P n : Nat) (x h : Nat → R) (j : Nat) : R :=
  (∑ k ∈ range I, x k * p.wih (n * H + j) k) + p.bih (n * H + j) + ((∑ k ∈ range P, h k * p.whh (n * H + j) k) + p.bhh (n * H + j))

/-- One step; the state is `(h, c)`, gates in the order input, forget, cell, output. -/
def cell (sg th : R → R) (p : RnnParams R) (whr : Nat → Nat → R) (I H P : Nat) (x : Nat → R) (s : (Nat → R) × (Nat → R)) : (Nat → R) × (Nat → R) :=
  let c' := fun j => sg (gate p I H P 1 x s.1 j) * s.2 j + sg (gate p I H P 0 x s.1 j) * th (gate p I H P 2 x s.1 j)
  (fun i => ∑ j ∈ range H, sg (gate p I H P 3 x s.1 j) * th (c' j) * whr i j, c')

/-- The step of a layer and direction. -/
def ProjRnn.step (r : ProjRnn R) (sg th : R → R) (l : Nat) (back : Bool) : (Nat → R) → (Nat → R) × (Nat → R) → (Nat → R) × (Nat → R) :=
  cell sg th (r.par l back) (r.whr l back) (layerWidth r.input r.proj r.bidir l) r.hidden r.proj

/-- The input of layer `l`, the output of the stack for `l = layers`, for a sequence `x` of length `T` and states of zero. -/
def ProjRnn.seq (r : ProjRnn R) (sg th : R → R) (T : Nat) (x : Nat → Nat → R) (l : Nat) : Nat → Nat → R :=
  layerInput Prod.fst r.proj T r.bidir (r.step sg th) (fun _ _ => (fun _ => 0, fun _ => 0)) x l

/-- The final state `(h, c)` of a layer and direction. -/
def ProjRnn.final (r : ProjRnn R) (sg th : R → R) (T : Nat) (x : Nat → Nat → R) (l : Nat) (back : Bool) : (Nat → R) × (Nat → R) :=
  dirFinal (r.step sg th l back) T back (r.seq sg th T x l) (fun _ => 0, fun _ => 0)

end Verif.Spec.RnnProj
