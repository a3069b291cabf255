import Verif.Spec.Tensor
import Verif.Spec.IoLayout

/-!
Specification for C165: the sample inputs of a conversion and the model that is converted.
-/

namespace Verif.Spec.ConvInputs
open Verif.Spec

/-- A sample input: a tensor or a list (or tuple) of sample inputs. -/
inductive Arg (T : Type)
  | one (t : T)
  | many (l : List (Arg T))

variable {T : Type}

mutual
/-- The tensors of an argument from left to right: the inputs the traced graph has for it. -/
def Arg.leaves : Arg T → List T
  | .one t => [t]
  | .many l => leavesAll l
/-- The tensors of several arguments. -/
def leavesAll : List (Arg T) → List T
  | [] => []
  | a :: l => a.leaves ++ leavesAll l
end

/-- A tensor or a list of tensors: no list in a list. -/
def Arg.Shallow : Arg T → Prop
  | .one _ => True
  | .many l => ∀ a ∈ l, ∃ t, a = .one t

/-- What the caller hands in as model: a module, a module wrapped for several devices, a scripted module or a scripted function.  A module is in training mode or not and on the
CPU or not. -/
inductive Handed
  | module (training cpu : Bool)
  | wrapped (training cpu : Bool)
  | script (training : Bool)
  | function
  deriving DecidableEq

/-- There is a flag for each of `n` tensors; in a tuple none may be missing. -/
def EnoughFlags (n : Nat) : IoLayout.Arg → Prop
  | .one _ => True
  | .list l => n ≤ l.length
  | .tuple l => n ≤ l.length ∧ ∀ b ∈ l, b.isSome = true

/-- The array the converted model takes for a tensor: channels last if that was asked for. -/
def fed {α : Type} (channelsLast : Bool) (t : Tensor α) : Tensor α := if channelsLast then transpose [0, 2, 3, 1] t else t

end Verif.Spec.ConvInputs
