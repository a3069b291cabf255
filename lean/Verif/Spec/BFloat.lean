import Verif.Model.BFloat
/-!
The numbers of bfloat16: float32 numbers whose lower 16 bits are zero.  All magnitudes are in units of 2 to the power -149, the smallest positive float32.
-/

namespace Verif.Spec.BFloat
open Verif.Model.BFloat

/-- The magnitude of a float32 number: 8 bits of exponent, 23 bits of mantissa. -/
def mag (u : Nat) : Nat := if u / 8388608 = 0 then u % 8388608 else (8388608 + u % 8388608) * 2 ^ (u / 8388608 - 1)

/-- The distance of two magnitudes. -/
def dist (a b : Nat) : Nat := (a - b) + (b - a)

/-- What bfloat16 can hold. -/
def IsBf16 (u : Nat) : Prop := u % 65536 = 0

/-- The part of a value at a path of positions in lists and tuples. -/
def part : Val → List Nat → Option Val
  | v, [] => some v
  | .list vs, i :: p => vs[i]?.bind (fun w => part w p)
  | .tuple vs, i :: p => vs[i]?.bind (fun w => part w p)
  | _, _ :: _ => none
termination_by _ p => p.length

/-- Whether the module is on: the last time it was switched counts; new ones are on. -/
def isOn (h : List Ev) : Bool := h.foldl (fun b e => match e with
  | .enable c => c
  | .disable => false
  | .apply _ => b) true

end Verif.Spec.BFloat
