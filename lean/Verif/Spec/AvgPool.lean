import Verif.Spec.Pool
import Verif.Spec.AxisOps
import Mathlib.Algebra.Order.Field.Rat

/-! Average pooling and adaptive pooling, in PyTorch and in TFLite.  Independent of the converter. -/

namespace Verif.Spec

/-- The position lies in the input or its padding. -/
def insidePadded {α : Type} (t : Tensor α) (pad : Nat → Nat) (pos : List Int) : Bool :=
  (List.range t.shape.length).all (fun a => decide (-(pad a : Int) ≤ pos.getD a 0 ∧ pos.getD a 0 < (t.shape.getD a 0 : Nat) + pad a))

/-- `torch.nn.functional.avg_pool2d`: the sum of the window's elements inside the input, divided by `divisor_override`, or by the number of window positions in the
padded input (`count_include_pad=True`), or by the number of those in the input. -/
def avgPoolTorch (ceil includePad : Bool) (divisor : Option Nat) (w : Window) (pad : Nat → Nat) (x : Tensor ℚ) : Tensor ℚ where
  shape := (List.range x.shape.length).map (fun a => torchPoolOut ceil (x.shape.getD a 0) (w.kernel a) (w.stride a) (pad a))
  get := fun o =>
    let ps := (kernelIdx w.kernel x.shape.length).map (fun κ => readPos w pad x.shape.length o κ)
    let total := ((ps.filter (fun p => inside x p)).map (fun p => x.get (p.map Int.toNat))).sum
    match divisor with
    | some d => total / d
    | none => if includePad then total / (ps.filter (fun p => insidePadded x pad p)).length else total / (ps.filter (fun p => inside x p)).length

/-- A VALID pooling in TFLite with an arbitrary way `red` to combine the elements of a window. -/
def windowValid (red : List ℚ → ℚ) (w : Window) (x : Tensor ℚ) : Tensor ℚ where
  shape := (List.range x.shape.length).map (fun a => validOut (x.shape.getD a 0) (w.kernel a) (w.stride a) (w.dilation a))
  get := fun o => red ((kernelIdx w.kernel x.shape.length).map (fun κ => x.get ((readPos w (fun _ => 0) x.shape.length o κ).map Int.toNat)))

/-- The mean of a list. -/
def meanL (l : List ℚ) : ℚ := l.sum / l.length

/-- The largest element of a list (of a non-empty one). -/
def maxL (l : List ℚ) : ℚ := l.foldr max (l.headD 0)

/-- First position of window `i` of an adaptive pooling from `inp` to `out` positions. -/
def adaptiveStart (inp out i : Nat) : Nat := i * inp / out

/-- Position behind window `i`: the ceiling of `(i + 1) * inp / out`. -/
def adaptiveEnd (inp out i : Nat) : Nat := ((i + 1) * inp + out - 1) / out

/-- `adaptive_avg_pool2d` and `adaptive_max_pool2d` (by `red`): window `o` covers, on every axis, the positions from its start to its end. -/
def adaptiveTorch (red : List ℚ → ℚ) (outs : List Nat) (x : Tensor ℚ) : Tensor ℚ where
  shape := outs
  get := fun o => red ((kernelIdx (fun a => adaptiveEnd (x.shape.getD a 0) (outs.getD a 0) (o.getD a 0) - adaptiveStart (x.shape.getD a 0) (outs.getD a 0) (o.getD a 0))
    x.shape.length).map (fun κ => x.get ((List.range x.shape.length).map (fun a => adaptiveStart (x.shape.getD a 0) (outs.getD a 0) (o.getD a 0) + κ.getD a 0))))

end Verif.Spec
