import Verif.Spec.Norm
import Mathlib.Analysis.SpecialFunctions.Pow.Real

/-! Meaning of PyTorch's reductions (C79). -/

namespace Verif.Spec

/-- The `dim` argument of a reduction: not part of the call, `None`, one axis, or a list of axes. -/
inductive DimArg
  | absent
  | none
  | one (d : Int)
  | many (ds : List Int)
  deriving DecidableEq, Repr

/-- The axes of a rank-`n` tensor that PyTorch reduces: negative ones count from the end; no axis at all means every axis. -/
def torchAxes (n : Nat) : DimArg → List Nat
  | .absent => List.range n
  | .none => List.range n
  | .one d => [(if d < 0 then d + (n : Int) else d).toNat]
  | .many ds => if ds = [] then List.range n else ds.map (fun d => (if d < 0 then d + (n : Int) else d).toNat)

/-- A reduction in PyTorch: `f` of the elements that share their position on the axes that are not reduced. -/
def torchReduce {α β : Type} (f : List α → β) (dim : DimArg) (keep : Bool) (t : Tensor α) : Tensor β :=
  reduceAxes keep (torchAxes t.shape.length dim) f t

/-- `torch.norm` of the elements `xs`, for `p = 1` and `p = 2`. -/
noncomputable def vecNorm (p : Nat) (xs : List ℝ) : ℝ :=
  if p = 1 then (xs.map (fun x => |x|)).sum else Real.sqrt ((xs.map (fun x => x ^ 2)).sum)

end Verif.Spec
