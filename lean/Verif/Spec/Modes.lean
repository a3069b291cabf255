/-!
Modules inside modules, with the flag `training` each of them has.  Independent of the quantizer.
-/

namespace Verif.Spec.Modes

/-- Modules with their submodules: a module, what is inside it, and the modules next to it.  A module that is used in several places appears in each of them, under one identity. -/
inductive Forest where
  | nil
  | cons (id : Nat) (kids next : Forest)

/-- All modules, with repetitions. -/
def Forest.ids : Forest → List Nat
  | .nil => []
  | .cons i k r => i :: (k.ids ++ r.ids)

/-- `Module.train(mode)` of a module: it and everything inside it get the flag. -/
def setAll (flags : Nat → Bool) (inside : List Nat) (b : Bool) : Nat → Bool := fun j => if j ∈ inside then b else flags j

/-- `Module.modules()`: each module once, a module before what is inside it; with every module what is inside it, itself included.  The second component are the modules seen. -/
def Forest.modules : Forest → List Nat → List (Nat × List Nat) × List Nat
  | .nil, memo => ([], memo)
  | .cons i k r, memo =>
    if i ∈ memo then r.modules memo
    else
      let a := k.modules (i :: memo)
      let b := r.modules a.2
      ((i, i :: k.ids) :: (a.1 ++ b.1), b.2)

end Verif.Spec.Modes
