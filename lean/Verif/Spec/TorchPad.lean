import Verif.Spec.Tensor

/-!
Specification for C77: `torch.nn.functional.pad`. The padding list names the axes from the last one: `pads[2 j]` elements in front of
and `pads[2 j + 1]` behind axis `rank - 1 - j`. Negative amounts remove elements.
-/

namespace Verif.Spec

/-- The amount in front of axis `a` of a tensor of rank `r`. -/
def padFront (pads : List Int) (r a : Nat) : Int := pads.getD (2 * (r - 1 - a)) 0

/-- The amount behind axis `a`. -/
def padBehind (pads : List Int) (r a : Nat) : Int := pads.getD (2 * (r - 1 - a) + 1) 0

/-- The sizes after padding. -/
def torchPadShape (pads : List Int) (shape : List Nat) : List Nat :=
  (List.range shape.length).map
    (fun a => ((shape.getD a 0 : Int) + padFront pads shape.length a + padBehind pads shape.length a).toNat)

/-- `mode='constant'` with fill value `v`. -/
def torchPad {α : Type} (pads : List Int) (v : α) (t : Tensor α) : Tensor α where
  shape := torchPadShape pads t.shape
  get := fun idx =>
    if ∀ a < t.shape.length, 0 ≤ (idx.getD a 0 : Int) - padFront pads t.shape.length a ∧
        (idx.getD a 0 : Int) - padFront pads t.shape.length a < t.shape.getD a 0 then
      t.get ((List.range t.shape.length).map (fun a => ((idx.getD a 0 : Int) - padFront pads t.shape.length a).toNat))
    else v

/-- `mode='reflect'`: position `j < 0` reads `-j`, position `j ≥ d` reads `2 (d - 1) - j`. -/
def torchReflect {α : Type} (pads : List Int) (t : Tensor α) : Tensor α where
  shape := torchPadShape pads t.shape
  get := fun idx => t.get ((List.range t.shape.length).map (fun a =>
    let j := (idx.getD a 0 : Int) - padFront pads t.shape.length a
    let d : Int := t.shape.getD a 0
    (if j < 0 then -j else if j < d then j else 2 * (d - 1) - j).toNat))

end Verif.Spec
