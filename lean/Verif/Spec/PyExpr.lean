import Mathlib.Data.List.Basic

/-!
How Python reads the argument expressions that generated code consists of: atoms (names, numbers, keywords), names with constant subscripts, string
literals, `float('…')`, list displays, slices in subscripts, and argument lists.  A reader returns what it has read and the text behind it, and fails on
anything that is not such an expression.
-/

namespace Verif.Spec.PyExpr

/-- A name, number or keyword, followed by constant subscripts: `split_0_f[1]`, `3`, `None`. -/
structure Atom where
  text : List Char
  path : List (List Char)
deriving DecidableEq

/-- The value of an expression. -/
inductive Val
  | atom (a : Atom)
  | float (t : List Char)
  | str (t : List Char)
  | list (l : List Val)

/-- One item of a subscript: a value or a slice. -/
inductive Item
  | val (v : Val)
  | slice (start stop step : Option Atom)

/-- The characters that end an atom. -/
def isDelim (c : Char) : Bool := [',', ' ', ':', '[', ']', '\'', '(', ')', '{', '}', '='].contains c

/-- The subscripts behind a name: `[0][1]`. -/
def readPath : ℕ → List Char → List (List Char) × List Char
  | n + 1, '[' :: r =>
    let d := r.takeWhile Char.isDigit
    match d, r.dropWhile Char.isDigit with
    | _ :: _, ']' :: r' => let p := readPath n r'; (d :: p.1, p.2)
    | _, _ => ([], '[' :: r)
  | _, r => ([], r)

/-- An atom. -/
def readAtom (s : List Char) : Option (Atom × List Char) :=
  match s.takeWhile (fun c => !isDelim c) with
  | [] => none
  | t => let p := readPath s.length (s.dropWhile (fun c => !isDelim c)); some (⟨t, p.1⟩, p.2)

/-- The rest of a string literal behind the opening quote.  Escape sequences and line ends are not strings the reader understands. -/
def readStr : List Char → Option (List Char × List Char)
  | [] => none
  | '\'' :: r => some ([], r)
  | c :: r => if c = '\\' ∨ c = '\n' then none else (readStr r).map fun p => (c :: p.1, p.2)

/-- An atom or `float('…')`. -/
def readSimple (s : List Char) : Option (Val × List Char) :=
  match readAtom s with
  | none => none
  | some (a, '(' :: '\'' :: r) =>
    if a.text = ['f', 'l', 'o', 'a', 't'] ∧ a.path = [] then
      match readStr r with
      | some (t, ')' :: r') => some (.float t, r')
      | _ => none
    else none
  | some (a, r) => some (.atom a, r)

mutual
/-- An expression; the number bounds the depth of the recursion. -/
def readExpr : ℕ → List Char → Option (Val × List Char)
  | 0, _ => none
  | n + 1, '[' :: r => (readItems n r).map fun p => (.list p.1, p.2)
  | _ + 1, '\'' :: r => (readStr r).map fun p => (.str p.1, p.2)
  | _ + 1, s => readSimple s

/-- The items of a list display behind the bracket. -/
def readItems : ℕ → List Char → Option (List Val × List Char)
  | 0, _ => none
  | _ + 1, ']' :: r => some ([], r)
  | n + 1, s => match readExpr n s with
    | some (v, ']' :: r) => some ([v], r)
    | some (v, ',' :: ' ' :: r) => (readItems n r).map fun p => (v :: p.1, p.2)
    | _ => none
end

/-- Part of a slice, which may be left out. -/
def readPart (s : List Char) : Option Atom × List Char :=
  match readAtom s with
  | some (a, r) => (some a, r)
  | none => (none, s)

/-- One item of a subscript. -/
def readItem (n : ℕ) (s : List Char) : Option (Item × List Char) :=
  match readPart s with
  | (a, ':' :: r) =>
    match readPart r with
    | (b, ':' :: r') => let c := readPart r'; some (.slice a b c.1, c.2)
    | (b, r') => some (.slice a b none, r')
  | _ => (readExpr n s).map fun p => (.val p.1, p.2)

/-- The items of a subscript behind the bracket; there is at least one. -/
def readIndex : ℕ → List Char → Option (List Item × List Char)
  | 0, _ => none
  | n + 1, s => match readItem n s with
    | some (v, ']' :: r) => some ([v], r)
    | some (v, ',' :: ' ' :: r) => (readIndex n r).map fun p => (v :: p.1, p.2)
    | _ => none

/-- One argument of a call: with its keyword, if any. -/
def readArg (n : ℕ) (s : List Char) : Option ((Option (List Char) × Val) × List Char) :=
  match s.takeWhile (fun c => !isDelim c), s.dropWhile (fun c => !isDelim c) with
  | k@(_ :: _), '=' :: r => (readExpr n r).map fun p => ((some k, p.1), p.2)
  | _, _ => (readExpr n s).map fun p => ((none, p.1), p.2)

/-- The arguments of a call behind the parenthesis. -/
def readArgs : ℕ → List Char → Option (List (Option (List Char) × Val) × List Char)
  | 0, _ => none
  | _ + 1, ')' :: r => some ([], r)
  | n + 1, s => match readArg n s with
    | some (v, ')' :: r) => some ([v], r)
    | some (v, ',' :: ' ' :: r) => (readArgs n r).map fun p => (v :: p.1, p.2)
    | _ => none

/-- `str.format` with positional arguments: `{}` takes the next one, `{{` and `}}` are braces; anything else in braces fails. -/
def format : List Char → List (List Char) → Option (List Char)
  | [], _ => some []
  | '{' :: '{' :: r, ns => (format r ns).map ('{' :: ·)
  | '}' :: '}' :: r, ns => (format r ns).map ('}' :: ·)
  | '{' :: '}' :: r, n :: ns => (format r ns).map (n ++ ·)
  | '{' :: _, _ => none
  | '}' :: _, _ => none
  | c :: r, ns => (format r ns).map (c :: ·)

end Verif.Spec.PyExpr
