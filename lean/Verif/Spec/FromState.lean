import Verif.Model.FromState
/-!
What Python makes of the text of a constructor call.
-/

namespace Verif.Spec.FromState
open Verif.Model.FromState

/-- What a backslash and a character stand for. -/
def unesc (d : Char) : List Char := if d = 'n' then ['\n'] else if d = '\\' then ['\\'] else if d = '"' then ['"'] else if d = '\'' then ['\''] else ['\\', d]

/-- The characters between the quotes `q` of a string literal, read as Python reads them; `none`: the text is not one string literal. -/
def readBody (q : Char) : List Char → Option (List Char)
  | [] => some []
  | '\\' :: d :: r => (readBody q r).map (unesc d ++ ·)
  | c :: r => if c = '\\' ∨ c = q ∨ c = '\n' then none else (readBody q r).map (c :: ·)

/-- The value of an argument's text. -/
def readSrc : Src → Option Val
  | .other n => some (.other n)
  | .dq s => (readBody '"' s).map .str
  | .sq s => (readBody '\'' s).map .str
  | .bare _ => none

/-- The arguments of a call: positional ones first, then named ones; `none`: not an expression Python accepts. -/
def readArgs : List Arg → Option (List Val × List (String × Val))
  | [] => some ([], [])
  | .pos s :: r =>
    match readSrc s, readArgs r with
    | some v, some (a, k) => some (v :: a, k)
    | _, _ => none
  | .kw n s :: r =>
    match readSrc s, readArgs r with
    | some v, some ([], k) => some ([], (n, v) :: k)
    | _, _ => none

/-- What the parameters of a function are in a call; `none`: TypeError. -/
def bindTo : List Param → List Val → List (String × Val) → Option (List (String × Val))
  | [], [], _ => some []
  | [], _ :: _, _ => none
  | p :: ps, v :: vs, k => if (k.lookup p.name).isSome then none else (bindTo ps vs k).map ((p.name, v) :: ·)
  | p :: ps, [], k =>
    match k.lookup p.name, p.dflt with
    | some v, _ => (bindTo ps [] k).map ((p.name, v) :: ·)
    | none, some d => (bindTo ps [] k).map ((p.name, d) :: ·)
    | none, none => none

/-- What the constructor gets when the text is run. -/
def call (ps : List Param) (as : List Arg) : Option (List (String × Val)) :=
  match readArgs as with
  | some (a, k) => if k.all (fun e => ps.any (fun p => p.name == e.1)) then bindTo ps a k else none
  | none => none

/-- What the constructor should get: the values the layer has, and defaults for the ones it does not have. -/
def settings (l : Layer) (ps : List Param) : List (String × Val) :=
  ps.filterMap (fun p => match l.attr p.name, p.dflt with
    | some v, _ => some (p.name, v)
    | none, some d => some (p.name, d)
    | none, none => none)

/-- Characters that need no escape between double quotes. -/
def PlainText (s : List Char) : Prop := ∀ c ∈ s, c ≠ '"' ∧ c ≠ '\\' ∧ c ≠ '\n'

end Verif.Spec.FromState
