import Verif.Model.QConfigs
/-
What a user expects of the options of a quantizer, layer by layer.
Layers are named by where they are in the model: the list of child positions
leading to them from the root.
-/
namespace Verif.Spec.QConfigs
open Verif.Model.QConfigs

/-- The module at a position. -/
def at? (m : Mod) : List Nat → Option Mod
  | [] => some m
  | i :: p => match m.kids[i]? with
    | some k => at? k p
    | none => none

/-- The settings a module has been given, if it exists and has any. -/
def cfgAt (m : Mod) (p : List Nat) : Option QCfg :=
  match at? m p with
  | some x => x.own
  | none => none

/-- The full name of the module at a position: the names on the way, joined
with dots. -/
def nameFrom (pre : String) (m : Mod) : List Nat → String
  | [] => pre
  | i :: p => match m.kids[i]? with
    | some k => nameFrom (if pre.length > 0 then pre ++ "." ++ k.name else k.name) k p
    | none => pre

/-- A model nobody has put settings on. -/
def Fresh (m : Mod) : Prop := ∀ (p : List Nat) (x : Mod), at? m p = some x → x.own = none

/-- Being a layer with one of the given type names, or part of one. -/
def Within (names : List String) (m : Mod) (p : List Nat) : Prop :=
  ∃ (q : List Nat) (x : Mod), q <+: p ∧ at? m q = some x ∧ x.type ∈ names

end Verif.Spec.QConfigs
