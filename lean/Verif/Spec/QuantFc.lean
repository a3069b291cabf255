import Mathlib.Data.List.Basic

/-!
Specification for C149: modules as objects with named children, the layer at a name, and what quantizing a model should do to it.
-/

namespace Verif.Spec.QuantFc

/-- What an object is: a linear layer with its weights, a quantized layer made from such a layer, a linear layer whose weights were taken away, or any other module. -/
inductive Kind (W : Type)
  | linear (w : W)
  | quantized (w : W)
  | dead
  | other
deriving DecidableEq, Repr

structure Obj (W : Type) where
  kind : Kind W
  children : List (String × Nat)
deriving DecidableEq, Repr

/-- All objects, by number. -/
abbrev Heap (W : Type) := Nat → Obj W

/-- A name as the list of its parts. -/
abbrev Path := List String

variable {W : Type}

/-- The object at a name. -/
def resolve (H : Heap W) (root : Nat) (p : Path) : Option Nat := p.foldlM (fun i s => (H i).children.lookup s) root

/-- What is at a name. -/
def kindAt (H : Heap W) (root : Nat) (p : Path) : Option (Kind W) := (resolve H root p).map (fun i => (H i).kind)

/-- What should be there after quantizing: linear layers are replaced by quantized ones made from them, unless they are to be skipped. -/
def wanted (skip : Path → Bool) (p : Path) : Kind W → Kind W
  | .linear w => if skip p = true then .linear w else .quantized w
  | k => k

/-- A model: finitely many objects, linear layers have no children. -/
structure IsModel (H : Heap W) (root size : Nat) : Prop where
  root : root < size
  closed : ∀ i < size, ∀ e ∈ (H i).children, e.2 < size
  leaf : ∀ i w, (H i).kind = .linear w → (H i).children = []

/-- No module is used under two names. -/
def Unshared (H : Heap W) (root : Nat) : Prop := ∀ p q i, resolve H root p = some i → resolve H root q = some i → p = q

/-- What PyTorch's `named_modules` lists: every object that can be reached, once, under a name it has. -/
structure Listing (H : Heap W) (root : Nat) (L : List (Path × Nat)) : Prop where
  named : ∀ e ∈ L, resolve H root e.1 = some e.2
  once : (L.map Prod.snd).Nodup
  all : ∀ p i, resolve H root p = some i → ∃ q, (q, i) ∈ L

end Verif.Spec.QuantFc
