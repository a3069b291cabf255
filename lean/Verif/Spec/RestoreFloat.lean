import Verif.Model.RestoreFloat
/-!
What the modules of a converted model, and of the float model made from it, compute.  `linearOp`/`convOp` are PyTorch's operators, for some hyper-parameters, weight and optional bias; they may fail.
-/

namespace Verif.Spec.RestoreFloat
open Verif.Model.RestoreFloat

/-- The operators of PyTorch. -/
structure Ops (V : Type) where
  linear : List Nat → List ℝ → Option (List ℝ) → V → Option V
  conv : List Nat → List ℝ → Option (List ℝ) → V → Option V
  relu : V → V
  relu6 : V → V
  plain : String → V → V

/-- The numbers an integer weight stands for: code `q` means `scale * (q - zero_point)`. -/
noncomputable def numbers (w : QWeight) : List ℝ := w.codes.map fun (q : Int) => w.scale * ((q : ℝ) - (w.zeroPoint : ℝ))

/-- The function a module of a converted model approximates in integers. -/
noncomputable def meant {V : Type} (o : Ops V) (m : QMod) (x : V) : Option V :=
  match m with
  | .quantize => some x
  | .dequantize => some x
  | .linear r cfg w b => (o.linear cfg (numbers w) b x).map fun y => if r then o.relu y else y
  | .conv r cfg w b => (o.conv cfg (numbers w) b x).map fun y => if r then o.relu y else y
  | .relu => some (o.relu x)
  | .relu6 => some (o.relu6 x)
  | .plain k => some (o.plain k x)
  | _ => none

/-- The function a module of the restored model computes. -/
noncomputable def computes {V : Type} (o : Ops V) (m : FMod) (x : V) : Option V :=
  match m with
  | .identity => some x
  | .linear cfg w b => o.linear cfg w b x
  | .conv cfg w b => o.conv cfg w b x
  | .relu => some (o.relu x)
  | .relu6 => some (o.relu6 x)
  | .same (.plain k) => some (o.plain k x)
  | _ => none

/-- Calling the children with the given names one after the other. -/
def chain {M V : Type} (f : M → V → Option V) (children : List (String × M)) : List String → V → Option V
  | [], x => some x
  | n :: r, x =>
    match children.lookup n with
    | some m => match f m x with
      | some y => chain f children r y
      | none => none
    | none => none

/-- A layer that restoring can bring back: it has a bias and no activation fused into it. -/
def Restorable : QMod → Prop
  | .linear r _ _ b => r = false ∧ b ≠ none
  | .conv r _ _ b => r = false ∧ b ≠ none
  | .other _ => False
  | .box _ => False
  | _ => True

/-- `lo` and `hi` are the smallest and the largest of some numbers. -/
def IsRange (xs : List ℝ) (lo hi : ℝ) : Prop := lo ∈ xs ∧ hi ∈ xs ∧ ∀ x ∈ xs, lo ≤ x ∧ x ≤ hi

/-- The entries of the channels whose variance is at least `eps`. -/
def Regular (eps : ℝ) (var : List ℝ) (weight : List (List ℝ)) (x : ℝ) : Prop :=
  ∃ (i : Nat) (v : ℝ) (ch : List ℝ), var[i]? = some v ∧ weight[i]? = some ch ∧ ¬v < eps ∧ x ∈ ch

/-- The modules that are treated: depthwise 2-D convolutions fused with a batch normalization of which some channel has a tiny variance. -/
def Treated (eps : ℝ) (m : FusedConv) : Prop :=
  (m.typeName = "ConvBnReLU2d" ∨ m.typeName = "ConvBn2d") ∧ m.inChannels = m.groups ∧ m.outChannels = m.groups ∧ 1 < m.groups ∧ ∃ v ∈ m.runningVar, v < eps

end Verif.Spec.RestoreFloat
