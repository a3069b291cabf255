import Mathlib.Algebra.BigOperators.Group.List.Basic

/-! Networks of channel-wise layers, and what they compute.  `M` is the type of the contents of one channel (a feature map, or a number);
`α` is the type of one weight between an input and an output channel (a kernel, or a number) and `act w m` its effect on a channel.
A network is a term: a layer that is used twice occurs twice, with the same weights. -/

namespace Verif.Spec

/-- `layer`: convolution without groups, transposed convolution or linear layer; `W` has a row of weights for each output channel,
`rmOut` are the output channels to be pruned.  `chan g h`: batch norm, PReLU, depthwise convolution or activation; `g` is the function of
each channel and `h` what it becomes when the channel's parameters are zero.  `spread parts`: flattening; channel `c` becomes the channels
`part x_c` for each `part`. -/
inductive Net (α M : Type)
  | input (k n : Nat)
  | layer (W : List (List α)) (b : List M) (rmOut : List Nat) (child : Net α M)
  | chan (g : List (M → M)) (h : M → M) (child : Net α M)
  | add (left right : Net α M)
  | cat (left right : Net α M)
  | spread (parts : List (M → M)) (child : Net α M)

variable {α M : Type} [AddCommMonoid M]

/-- The output channels of a network for the model inputs `env`. -/
def Net.eval (act : α → M → M) (env : Nat → List M) : Net α M → List M
  | .input k _ => env k
  | .layer W b _ child => List.zipWith (fun row c => (List.zipWith act row (child.eval act env)).sum + c) W b
  | .chan g _ child => List.zipWith (fun f x => f x) g (child.eval act env)
  | .add l r => List.zipWith (· + ·) (l.eval act env) (r.eval act env)
  | .cat l r => l.eval act env ++ r.eval act env
  | .spread parts child => (child.eval act env).flatMap (fun x => parts.map (fun p => p x))

/-- The number of output channels. -/
def Net.width : Net α M → Nat
  | .input _ n => n
  | .layer W _ _ _ => W.length
  | .chan _ _ child => child.width
  | .add l _ => l.width
  | .cat l r => l.width + r.width
  | .spread parts child => child.width * parts.length

/-- The output channels that pruning removes: those chosen in the layers, carried through the other nodes. -/
def Net.removed : Net α M → List Nat
  | .input _ _ => []
  | .layer _ _ rm _ => rm
  | .chan _ _ child => child.removed
  | .add l _ => l.removed
  | .cat l r => l.removed ++ r.removed.map (· + l.width)
  | .spread parts child => child.removed.flatMap (fun c => (List.range parts.length).map (fun j => c * parts.length + j))

/-- Shapes fit, and the summands of an addition lose the same channels. -/
def Net.WellFormed (env : Nat → List M) : Net α M → Prop
  | .input k n => (env k).length = n
  | .layer W b rm child => b.length = W.length ∧ (∀ row ∈ W, row.length = child.width) ∧ (∀ c ∈ rm, c < W.length) ∧
      child.WellFormed env
  | .chan g _ child => g.length = child.width ∧ child.WellFormed env
  | .add l r => l.width = r.width ∧ (∀ c, c ∈ l.removed ↔ c ∈ r.removed) ∧ l.WellFormed env ∧ r.WellFormed env
  | .cat l r => l.WellFormed env ∧ r.WellFormed env
  | .spread _ child => child.WellFormed env

end Verif.Spec
