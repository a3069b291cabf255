import Verif.Model.CtorLines
/-!
How the object at an address came into being, read off the history alone.
-/

namespace Verif.Spec.CtorLines
open Verif.Model.CtorLines

/-- The way an object came into being. -/
inductive Birth (K C : Type) where
  | byConstructor (k : K) (c : C)
  | unsupportedArgs (k : K) (c : C)
  | bySubclass
  | withoutConstructor

/-- An object in a history: its birth, its class, and whether one of its constants has been set since. -/
structure Fate (K C : Type) where
  birth : Birth K C
  cls : K
  touched : Bool

variable {K V C : Type}

/-- One step of the history at address `i`. -/
def fateStep (w : World K V C) (i : Nat) (f : Option (Fate K C)) (e : Ev K V C) : Option (Fate K C) :=
  match e, f with
  | .create j k c ok, none => if j = i then some ⟨if ok then .byConstructor k c else .unsupportedArgs k c, k, false⟩ else none
  | .createSub j k _ _ _, none => if j = i then some ⟨.bySubclass, k, false⟩ else none
  | .appear j k _, none => if j = i then some ⟨.withoutConstructor, k, false⟩ else none
  | .set j n _, some a => if j = i ∧ n ∈ w.constants a.cls then some { a with touched := true } else some a
  | .die j, some a => if j = i then none else some a
  | _, f => f

/-- The object at address `i` after a history. -/
def fate (w : World K V C) (i : Nat) (h : List (Ev K V C)) : Option (Fate K C) := h.foldl (fateStep w i) none

/-- No constructor is called on an object that already exists. -/
def NoReinit (h : List (Ev K V C)) : Prop := ∀ i c ok, Ev.reinit i c ok ∉ h

end Verif.Spec.CtorLines
