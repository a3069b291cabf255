import Mathlib.Algebra.Ring.Defs
import Mathlib.Algebra.BigOperators.Group.List.Basic

/-!
A batch norm in evaluation mode, an activation and a convolution, on images given channel by channel (C120).  Values are from a ring; rounding is not considered.
-/

namespace Verif.Spec.BnComp

variable {α : Type}

/-- The parameters of a batch norm; `inv` is `1 / sqrt(running_var + eps)`. -/
structure Bn (α : Type) where
  scale : List α
  shift : List α
  mean : List α
  inv : List α

/-- What a convolution reads outside of its input. -/
inductive Padding | zeros | replicate | circular | reflect
  deriving DecidableEq

/-- A 2d convolution without groups: `weight[o][c]` is a kernel of `kh` times `kw` numbers. -/
structure Conv (α : Type) where
  kh : Nat
  kw : Nat
  sy : Nat
  sx : Nat
  py : Nat
  px : Nat
  dy : Nat
  dx : Nat
  mode : Padding
  weight : List (List (Nat → Nat → α))
  bias : Option (List α)

/-- The pixel of a line of `n` pixels that stands at `i`; `none` for a zero. -/
def pixel (mode : Padding) (n : Nat) (i : Int) : Option Nat :=
  if 0 ≤ i ∧ i < n then some i.toNat
  else match mode with
    | .zeros => none
    | .replicate => some (if i < 0 then 0 else n - 1)
    | .circular => some (i % n).toNat
    | .reflect => some (if i < 0 then (-i).toNat else (2 * ((n : Int) - 1) - i).toNat)

/-- The row and the column that output `(y, x)` reads for the kernel position `(i, j)`. -/
def Conv.row (c : Conv α) (h y i : Nat) : Option Nat := pixel c.mode h ((y * c.sy + i * c.dy : Nat) - (c.py : Int))
def Conv.col (c : Conv α) (w x j : Nat) : Option Nat := pixel c.mode w ((x * c.sx + j * c.dx : Nat) - (c.px : Int))

/-- The convolution of an image of `h` times `w` pixels: output channel `o` at `(y, x)`. -/
def Conv.run [Ring α] (c : Conv α) (h w : Nat) (img : List (Nat → Nat → α)) (o y x : Nat) : α :=
  (match c.bias with | none => 0 | some b => b.getD o 0) +
  ((List.range img.length).map fun ch => ((List.range c.kh).map fun i => ((List.range c.kw).map fun j =>
    (c.weight.getD o []).getD ch (fun _ _ => 0) i j * (match c.row h y i, c.col w x j with | some r, some s => img.getD ch (fun _ _ => 0) r s | _, _ => 0)).sum).sum).sum

/-- Batch norm and activation. -/
def Bn.run [Ring α] (b : Bn α) (act : α → α) (img : List (Nat → Nat → α)) : List (Nat → Nat → α) :=
  (List.range img.length).map fun c r s => act (b.scale.getD c 0 * ((img.getD c (fun _ _ => 0) r s - b.mean.getD c 0) * b.inv.getD c 0) + b.shift.getD c 0)

/-- The whole block. -/
def block [Ring α] (b : Bn α) (act : α → α) (c : Conv α) (h w : Nat) (img : List (Nat → Nat → α)) (o y x : Nat) : α := c.run h w (b.run act img) o y x

/-- The output at `(y, x)` reads no zero from outside of the image. -/
def Conv.Inside (c : Conv α) (h w y x : Nat) : Prop := ∀ i < c.kh, ∀ j < c.kw, c.row h y i ≠ none ∧ c.col w x j ≠ none

/-- The removed channels carry the value that the batch norm subtracts, at every pixel. -/
def Dead (b : Bn α) (rm : List Nat) (img : List (Nat → Nat → α)) : Prop := ∀ c, c ∈ rm → ∀ (f : Nat → Nat → α) (m : α), img[c]? = some f → b.mean[c]? = some m → ∀ r s, f r s = m

end Verif.Spec.BnComp
