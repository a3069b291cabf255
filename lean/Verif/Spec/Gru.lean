import Mathlib.Algebra.Ring.Defs
import Mathlib.Algebra.BigOperators.Group.Finset.Basic

/-!
What a GRU computes, after the documentation of `torch.nn.GRU` (sigmoid and tanh are parameters, dropout is 0).
-/

namespace Verif.Spec.Gru

variable {α : Type} [CommRing α]

/-- The weights of one direction of one layer: `weight_ih` and `bias_ih`, `weight_hh` and `bias_hh`, each with the rows for r, z and n one below the other. -/
structure Weights (α : Type) where
  inSize : ℕ
  wi : ℕ → ℕ → α
  wh : ℕ → ℕ → α
  bi : ℕ → α
  bh : ℕ → α

/-- Row `c` of `W x + b`. -/
def row (n : ℕ) (w : ℕ → ℕ → α) (b : ℕ → α) (x : ℕ → α) (c : ℕ) : α := ∑ f ∈ Finset.range n, w c f * x f + b c

/-- One step: `h' = (1 - z) n + z h`. -/
def step (sig tanh : α → α) (H : ℕ) (w : Weights α) (h x : ℕ → α) : ℕ → α := fun c =>
  let r := sig (row w.inSize w.wi w.bi x c + row H w.wh w.bh h c)
  let z := sig (row w.inSize w.wi w.bi x (H + c) + row H w.wh w.bh h (H + c))
  let n := tanh (row w.inSize w.wi w.bi x (2 * H + c) + r * row H w.wh w.bh h (2 * H + c))
  (1 - z) * n + z * h c

/-- All hidden states of a sequence. -/
def run (sig tanh : α → α) (H : ℕ) (w : Weights α) : (ℕ → α) → List (ℕ → α) → List (ℕ → α)
  | _, [] => []
  | h, x :: xs => step sig tanh H w h x :: run sig tanh H w (step sig tanh H w h x) xs

/-- The last hidden state. -/
def final (sig tanh : α → α) (H : ℕ) (w : Weights α) (h : ℕ → α) (xs : List (ℕ → α)) : ℕ → α := (run sig tanh H w h xs).getLast?.getD h

/-- Two vectors of which the first has `H` entries, one behind the other. -/
def join (H : ℕ) (a b : ℕ → α) : ℕ → α := fun c => if c < H then a c else b (c - H)

/-- A layer: weights of the forward direction and, if there is one, of the backward direction. -/
structure Layer (α : Type) where
  fw : Weights α
  bw : Option (Weights α)

/-- The outputs of a layer for one sequence; `h` are the first states of the directions. -/
def layerOut (sig tanh : α → α) (H : ℕ) (l : Layer α) (h : ℕ → ℕ → α) (xs : List (ℕ → α)) : List (ℕ → α) :=
  match l.bw with
  | none => run sig tanh H l.fw (h 0) xs
  | some w => List.zipWith (join H) (run sig tanh H l.fw (h 0) xs) (run sig tanh H w (h 1) xs.reverse).reverse

/-- The last states of a layer, one for each direction. -/
def layerFinal (sig tanh : α → α) (H : ℕ) (l : Layer α) (h : ℕ → ℕ → α) (xs : List (ℕ → α)) : List (ℕ → α) :=
  match l.bw with
  | none => [final sig tanh H l.fw (h 0) xs]
  | some w => [final sig tanh H l.fw (h 0) xs, final sig tanh H w (h 1) xs.reverse]

/-- All layers: each reads the outputs of the one before; `h l d` is the first state of layer `l` and direction `d`.  The outputs of the last layer and the last
states of all layers and directions. -/
def gru (sig tanh : α → α) (H : ℕ) : List (Layer α) → (ℕ → ℕ → ℕ → α) → List (ℕ → α) → List (ℕ → α) × List (ℕ → α)
  | [], _, xs => (xs, [])
  | l :: ls, h, xs =>
    let r := gru sig tanh H ls (fun i => h (i + 1)) (layerOut sig tanh H l (h 0) xs)
    (r.1, layerFinal sig tanh H l (h 0) xs ++ r.2)

end Verif.Spec.Gru
