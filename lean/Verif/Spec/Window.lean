import Verif.Spec.Tensor
import Mathlib.Algebra.BigOperators.Group.List.Basic
import Mathlib.Algebra.Ring.Defs
import Mathlib.Order.Defs.LinearOrder

/-!
Windowed operators (convolution, max pooling) over the spatial axes, with explicit padding, with no
padding (VALID) and with TensorFlow's SAME padding.  The per-axis parameters are functions of the axis
number.  Independent of the converter.
-/

namespace Verif.Spec

/-- Geometry of a window: kernel size, stride and dilation of every spatial axis. -/
structure Window where
  kernel : Nat → Nat
  stride : Nat → Nat
  dilation : Nat → Nat

/-- Extent of the dilated kernel. -/
def Window.extent (w : Window) (a : Nat) : Nat := (w.kernel a - 1) * w.dilation a + 1

/-- TensorFlow: the output length of SAME padding, `ceil(input / stride)`. -/
def sameOut (input stride : Nat) : Nat := (input + stride - 1) / stride

/-- TensorFlow: total SAME padding, `max((out - 1) * stride + extent - input, 0)`. -/
def samePadTotal (input kernel stride dilation : Nat) : Nat :=
  ((sameOut input stride - 1) * stride + ((kernel - 1) * dilation + 1)) - input

/-- TensorFlow: the smaller half goes in front. -/
def samePadBefore (input kernel stride dilation : Nat) : Nat := samePadTotal input kernel stride dilation / 2
def samePadAfter (input kernel stride dilation : Nat) : Nat :=
  samePadTotal input kernel stride dilation - samePadBefore input kernel stride dilation

/-- Number of positions of a window that never leaves the input. -/
def validOut (input kernel stride dilation : Nat) : Nat :=
  (input + stride - ((kernel - 1) * dilation + 1)) / stride

/-- Element at a possibly out-of-range position, `v` outside. -/
def getOr {α : Type} (t : Tensor α) (v : α) (pos : List Int) : α :=
  if (List.range t.shape.length).all (fun a => decide (0 ≤ pos.getD a 0 ∧ pos.getD a 0 < (t.shape.getD a 0 : Nat))) then
    t.get (pos.map Int.toNat)
  else v

/-- The position is inside the tensor. -/
def inside {α : Type} (t : Tensor α) (pos : List Int) : Bool :=
  (List.range t.shape.length).all (fun a => decide (0 ≤ pos.getD a 0 ∧ pos.getD a 0 < (t.shape.getD a 0 : Nat)))

/-- PAD / PADV2 with the constant `v`. -/
def padT {α : Type} (v : α) (before after : Nat → Nat) (t : Tensor α) : Tensor α where
  shape := (List.range t.shape.length).map (fun a => before a + t.shape.getD a 0 + after a)
  get := fun idx => getOr t v ((List.range t.shape.length).map (fun a => (idx.getD a 0 : Int) - before a))

/-- All kernel positions, as multi-indices of rank `n`. -/
def kernelIdx (k : Nat → Nat) : Nat → List (List Nat)
  | 0 => [[]]
  | n + 1 => (kernelIdx k n).flatMap (fun p => (List.range (k n)).map (fun i => p ++ [i]))

/-- Where kernel position `κ` of output `o` reads, when `before` cells of padding precede the input. -/
def readPos (w : Window) (before : Nat → Nat) (n : Nat) (o κ : List Nat) : List Int :=
  (List.range n).map (fun a => (o.getD a 0 * w.stride a + κ.getD a 0 * w.dilation a : Nat) - (before a : Int))

/-- VALID convolution of `ch` input channels (one tensor each): one output channel. -/
def convValid {R : Type} [Semiring R] (w : Window) (ch : Nat) (wt : List Nat → Nat → R) (shape : List Nat)
    (x : Nat → Tensor R) : Tensor R where
  shape := (List.range shape.length).map (fun a => validOut (shape.getD a 0) (w.kernel a) (w.stride a) (w.dilation a))
  get := fun o => ((kernelIdx w.kernel shape.length).map (fun κ =>
    ((List.range ch).map (fun c => wt κ c *
      (x c).get ((readPos w (fun _ => 0) shape.length o κ).map Int.toNat))).sum)).sum

/-- SAME convolution: positions outside the input contribute nothing. -/
def convSame {R : Type} [Semiring R] (w : Window) (ch : Nat) (wt : List Nat → Nat → R) (shape : List Nat)
    (x : Nat → Tensor R) : Tensor R where
  shape := (List.range shape.length).map (fun a => sameOut (shape.getD a 0) (w.stride a))
  get := fun o => ((kernelIdx w.kernel shape.length).map (fun κ =>
    ((List.range ch).map (fun c => wt κ c * getOr (x c) 0 (readPos w
      (fun a => samePadBefore (shape.getD a 0) (w.kernel a) (w.stride a) (w.dilation a)) shape.length o κ))).sum)).sum

/-- VALID max pooling; `lowest` is the least number of the element type, the start of the running
maximum. -/
def poolValid {R : Type} [LinearOrder R] (lowest : R) (w : Window) (x : Tensor R) : Tensor R where
  shape := (List.range x.shape.length).map
    (fun a => validOut (x.shape.getD a 0) (w.kernel a) (w.stride a) (w.dilation a))
  get := fun o => ((kernelIdx w.kernel x.shape.length).map (fun κ =>
    x.get ((readPos w (fun _ => 0) x.shape.length o κ).map Int.toNat))).foldl max lowest

/-- SAME max pooling: the maximum over the window positions inside the input. -/
def poolSame {R : Type} [LinearOrder R] (lowest : R) (w : Window) (x : Tensor R) : Tensor R where
  shape := (List.range x.shape.length).map (fun a => sameOut (x.shape.getD a 0) (w.stride a))
  get := fun o => (((kernelIdx w.kernel x.shape.length).map (fun κ => readPos w
      (fun a => samePadBefore (x.shape.getD a 0) (w.kernel a) (w.stride a) (w.dilation a)) x.shape.length o κ)).filter
        (fun pos => inside x pos)).map (fun pos => x.get (pos.map Int.toNat)) |>.foldl max lowest

end Verif.Spec
