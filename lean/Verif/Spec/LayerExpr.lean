import Mathlib.Data.List.Basic

/-!
Specification for C151: modules with named children, and what a Python expression that starts with `self` leads to.
-/

namespace Verif.Spec.LayerExpr

abbrev Name := List Char

/-- The kinds of containers that Python code accesses differently. -/
inductive Kind
  | plain | sequential | list | dict
deriving DecidableEq, Repr

/-- All modules by number, with their children in order. -/
structure Heap where
  kind : Nat → Kind
  children : Nat → List (Name × Nat)

/-- The module at a name, as in the keys of `state_dict`. -/
def resolve (H : Heap) (i : Nat) : List Name → Option Nat
  | [] => some i
  | n :: ns => match (H.children i).lookup n with
    | some c => resolve H c ns
    | none => none

/-- One access in an expression: `.name`, `[3]`, `["name"]`, `.get_submodule("name")`. -/
inductive Access
  | attr (n : Name) | item (d : List Char) | key (n : Name) | sub (n : Name)
deriving DecidableEq, Repr

/-- The number that digits stand for. -/
def value (d : List Char) : Nat := d.foldl (fun a c => 10 * a + (c.toNat - 48)) 0

/-- What an access leads to. Sequences and lists are indexed by position. -/
def access (H : Heap) (i : Nat) : Access → Option Nat
  | .attr n => (H.children i).lookup n
  | .item d => if H.kind i = .sequential ∨ H.kind i = .list then ((H.children i)[value d]?).map Prod.snd else none
  | .key n => if H.kind i = .dict then (H.children i).lookup n else none
  | .sub n => (H.children i).lookup n

def follow (H : Heap) (i : Nat) : List Access → Option Nat
  | [] => some i
  | a :: as => match access H i a with
    | some c => follow H c as
    | none => none

/-- The characters of identifiers (ASCII only). -/
def isId (c : Char) : Bool := c.isAlphanum || c == '_'

/-- The reserved words of Python. -/
def keywords : List Name := (["False", "None", "True", "and", "as", "assert", "async", "await", "break", "class", "continue", "def", "del", "elif", "else", "except", "finally", "for", "from", "global",
  "if", "import", "in", "is", "lambda", "nonlocal", "not", "or", "pass", "raise", "return", "try", "while", "with", "yield"] : List String).map String.toList

/-- A name that can be written after a dot. -/
def IsIdent (n : Name) : Prop := n ≠ [] ∧ (∀ c ∈ n, isId c = true) ∧ (∀ c ∈ n.head?, c.isDigit = false) ∧ n ∉ keywords

instance (n : Name) : Decidable (IsIdent n) := by unfold IsIdent; infer_instance

def notQuote (c : Char) : Bool := c != '"'

/-- How Python reads what follows `self`; `none` if it is no chain of accesses. The number bounds the length of the chain. -/
def readPy : Nat → List Char → Option (List Access)
  | _, [] => some []
  | 0, _ :: _ => none
  | f + 1, '.' :: r =>
    if IsIdent (r.takeWhile isId) then
      match r.dropWhile isId with
      | '(' :: '"' :: q =>
        if r.takeWhile isId = "get_submodule".toList then
          match q.dropWhile notQuote with
          | '"' :: ')' :: t => (readPy f t).map (fun as => .sub (q.takeWhile notQuote) :: as)
          | _ => none
        else none
      | t => (readPy f t).map (fun as => .attr (r.takeWhile isId) :: as)
    else none
  | f + 1, '[' :: r =>
    if r.head? = some '"' then
      match r.tail.dropWhile notQuote with
      | '"' :: ']' :: t => (readPy f t).map (fun as => .key (r.tail.takeWhile notQuote) :: as)
      | _ => none
    else if r.takeWhile Char.isDigit = [] then none
    else match r.dropWhile Char.isDigit with
      | ']' :: t => (readPy f t).map (fun as => .item (r.takeWhile Char.isDigit) :: as)
      | _ => none
  | _ + 1, _ :: _ => none

/-- What `self.<text>` is in Python. -/
def python (H : Heap) (root : Nat) (text : List Char) : Option Nat :=
  match readPy ('.' :: text).length ('.' :: text) with
  | some as => follow H root as
  | none => none

end Verif.Spec.LayerExpr
