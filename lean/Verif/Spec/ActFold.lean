import Verif.Spec.Requant

/-!
PyTorch's fake quantizers with a moving average of the observed range, and activations that clip.  Independent of the code of the project.
-/

namespace Verif.Spec.ActFold
open Verif.Spec

/-- An activation that clips: `relu`, `relu6` or `clamp(x, a, b)`. -/
inductive Clip where
  | relu
  | relu6
  | clamp (a b : ℝ)

/-- The activation on numbers. -/
noncomputable def Clip.real : Clip → ℝ → ℝ
  | .relu, x => max 0 x
  | .relu6, x => max 0 (min 6 x)
  | .clamp a b, x => max a (min b x)

/-- The least result. -/
def Clip.low : Clip → ℝ
  | .relu => 0
  | .relu6 => 0
  | .clamp a _ => a

/-- The greatest result, if there is one. -/
def Clip.high : Clip → Option ℝ
  | .relu => none
  | .relu6 => some 6
  | .clamp _ b => some b

/-- A `FakeQuantize` with its `MovingAverageMinMaxObserver`: the two switches, the scheme, the storage range, the zero point of the symmetric scheme, the observed range (if anything was observed) and the
parameters in use. -/
structure Fq where
  fake : Bool
  observing : Bool
  sym : Bool
  lo : ℤ
  hi : ℤ
  symZp : ℤ
  range : Option (ℝ × ℝ)
  scale : ℝ
  zp : ℤ

/-- The parameters for an observed range (`_calculate_qparams`); 1 and 0 if nothing was observed. -/
noncomputable def Fq.qparams (rnd : ℝ → ℤ) (eps : ℝ) (f : Fq) : ℝ × ℤ :=
  match f.range with
  | none => (1, 0)
  | some r =>
    if f.sym then (max (2 * max (-(min r.1 0)) (max r.2 0) / ((f.hi : ℝ) - f.lo)) eps, f.symZp)
    else
      let s := max ((max r.2 0 - min r.1 0) / ((f.hi : ℝ) - f.lo)) eps
      (s, max f.lo (min f.hi (f.lo - rnd (min r.1 0 / s))))

/-- The parameters in use, as a quantization. -/
def Fq.qp (f : Fq) : QP := ⟨f.scale, f.zp, f.lo, f.hi⟩

/-- The range after a batch, with averaging constant `c`. -/
noncomputable def nextRange (c : ℝ) (old : Option (ℝ × ℝ)) (ys : List ℝ) : Option (ℝ × ℝ) :=
  match ys with
  | [] => old
  | y :: t =>
    let now := (t.foldl min y, t.foldl max y)
    match old with
    | none => some now
    | some r => some (r.1 + c * (now.1 - r.1), r.2 + c * (now.2 - r.2))

/-- What a fake quantizer with fixed parameters does to a number. -/
noncomputable def Fq.value (rnd : ℝ → ℤ) (f : Fq) (x : ℝ) : ℝ := if f.fake then f.qp.real (f.qp.quant rnd x) else x

/-- Its state after a batch has gone through. -/
noncomputable def Fq.seen (rnd : ℝ → ℤ) (eps c : ℝ) (f : Fq) (ys : List ℝ) : Fq :=
  if f.observing then
    let g := { f with range := nextRange c f.range ys }
    { g with scale := (g.qparams rnd eps).1, zp := (g.qparams rnd eps).2 }
  else f

end Verif.Spec.ActFold
