import Verif.Spec.Gru

/-!
Model of the quantizable GRU (`tinynn/graph/quantization/quantizable/gru.py`), without observers: what it computes while floating point.  A batch is a function
from its index, a sequence a list of batches (`batch_first` is off; with it the input and the output are transposed, 360-361, 402-403).
-/

namespace Verif.Model.Gru
open Verif.Spec.Gru

variable {α : Type} [CommRing α]

/-- A batch of vectors. -/
abbrev Batch (α : Type) := ℕ → ℕ → α

/-- `nn.Linear` on a batch. -/
def linear (n : ℕ) (w : ℕ → ℕ → α) (b : ℕ → α) (x : Batch α) : Batch α := fun i c => (∑ f ∈ Finset.range n, w c f * x i f) + b c

/-- Part `i` of `.chunk(3, -1)`. -/
def chunk (H i : ℕ) (x : Batch α) : Batch α := fun b c => x b (i * H + c)

/-- One round of the loop of `GRUCell.forward` (gru.py:76-84); `gi` is the row of `igates(x)` for this time. -/
def cellStep (sig tanh : α → α) (H : ℕ) (w : Weights α) (gi hx : Batch α) : Batch α :=
  let gh := linear H w.wh w.bh hx
  let r : Batch α := fun b c => sig (chunk H 0 gi b c + chunk H 0 gh b c)
  let z : Batch α := fun b c => sig (chunk H 1 gi b c + chunk H 1 gh b c)
  let n : Batch α := fun b c => tanh (chunk H 2 gi b c + r b c * chunk H 2 gh b c)
  fun b c => (z b c * (-1) + 1) * n b c + z b c * hx b c

/-- The loop (gru.py:74-87): results so far, hidden state. -/
def cellLoop (sig tanh : α → α) (H : ℕ) (w : Weights α) : List (Batch α) → Batch α → List (Batch α) → List (Batch α) × Batch α
  | [], h, res => (res, h)
  | gi :: gs, h, res => cellLoop sig tanh H w gs (cellStep sig tanh H w gi h) (res ++ [cellStep sig tanh H w gi h])

/-- `GRUCell.forward` (gru.py:66-88). -/
def cell (sig tanh : α → α) (H : ℕ) (w : Weights α) (x : List (Batch α)) (h : Batch α) : List (Batch α) × Batch α :=
  cellLoop sig tanh H w (x.map (linear w.inSize w.wi w.bi)) h []

/-- The hidden state a layer returns: a batch for one direction, a matrix for two. -/
inductive Hidden (α : Type)
  | batch (h : Batch α)
  | stacked (rows : List (ℕ → α))

/-- `_GRULayer.forward` (gru.py:188-230).  For two directions `hidden_fw[0]` and `hidden_bw[0]` are stacked; the states are tensors, so `[0]` is the first entry
of the batch. -/
def layer (sig tanh : α → α) (H : ℕ) (l : Layer α) (x : List (Batch α)) (hx : List (Batch α)) : List (Batch α) × Hidden α :=
  match l.bw with
  | none =>
    let f := cell sig tanh H l.fw x (hx.getD 0 fun _ _ => 0)
    (f.1, .batch f.2)
  | some w =>
    let f := cell sig tanh H l.fw x (hx.getD 0 fun _ _ => 0)
    let b := cell sig tanh H w x.reverse (hx.getD 1 fun _ _ => 0)
    (List.zipWith (fun p q i => join H (p i) (q i)) f.1 b.1.reverse, .stacked [f.2 0, b.2 0])

/-- The loop over the layers (gru.py:391-394). -/
def layers (sig tanh : α → α) (H : ℕ) : List (Layer α) → List (Batch α) → List (List (Batch α)) → List (Batch α) × List (Hidden α)
  | [], x, _ => (x, [])
  | l :: ls, x, hs =>
    let r := layer sig tanh H l x (hs.headD [])
    let rest := layers sig tanh H ls r.1 hs.tail
    (rest.1, r.2 :: rest.2)

/-- `hidden.reshape(num_layers, num_directions, ...)` (gru.py:373-380): the states given by the caller, layer by layer. -/
def splitHidden (D : ℕ) : ℕ → List (Batch α) → List (List (Batch α))
  | 0, _ => []
  | n + 1, h => h.take D :: splitHidden D n (h.drop D)

/-- `GRU.forward` (gru.py:359-405). -/
def forward (sig tanh : α → α) (H D : ℕ) (ls : List (Layer α)) (x : List (Batch α)) (hidden : Option (List (Batch α))) : List (Batch α) × List (Hidden α) :=
  match hidden with
  | none => layers sig tanh H ls x (List.replicate ls.length (List.replicate D fun _ _ => 0))
  | some h => layers sig tanh H ls x (splitHidden D ls.length h)

end Verif.Model.Gru
