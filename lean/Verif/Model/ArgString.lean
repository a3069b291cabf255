import Verif.Spec.PyExpr

/-!
Model of how the tracer writes down the arguments of a traced function (`tinynn/graph/tracer.py`, `TraceFunction`).
-/

namespace Verif.Model.ArgString
open Verif.Spec.PyExpr

/-- Part of a slice: a tensor, with the name it has in the graph, or an integer, with its text. -/
inductive Part
  | tensor (nm : Atom)
  | atom (t : List Char)

/-- An argument.  Integers, booleans, dtypes, finite floats, `None` and `...` are given by the text `str` gives them (tracer.py:589-604). -/
inductive Arg
  | tensor (nm : Atom)
  | atom (t : List Char)
  /-- `nan`, `inf`, `-inf` -/
  | special (t : List Char)
  | str (t : List Char)
  | slice (start stop step : Option Part)
  /-- a list (`false`) or tuple (`true`) -/
  | seq (tuple : Bool) (items : List Arg)

/-- `', '.join` (tracer.py:659, 671). -/
def join (sep : List Char) : List (List Char) → List Char
  | [] => []
  | [x] => x
  | x :: xs => x ++ sep ++ join sep xs

/-- `_escape_arg` (tracer.py:573-578): both braces are doubled. -/
def escape : List Char → List Char
  | [] => []
  | c :: r => if c = '{' ∨ c = '}' then c :: c :: escape r else c :: escape r

/-- `_tensor_name` (tracer.py:546-571): the node's name and the places of the tensor in its result. -/
def nameText (a : Atom) : List Char := a.text ++ (a.path.map fun d => '[' :: d ++ [']']).flatten

/-- A part of a slice in the template (tracer.py:608-613). -/
def partTmpl : Option Part → List Char
  | none => []
  | some (.tensor _) => ['{', '}']
  | some (.atom t) => t

/-- The text of a slice: one trailing colon is dropped (tracer.py:605-617). -/
def sliceText (a b c : List Char) : List Char :=
  let r := join [':'] [a, b, c]
  if r.getLast? = some ':' then r.dropLast else r

/-- `_parse_args` and `_flatten_list`: the argument in the template (tracer.py:580-637, 662-673). -/
def tmpl : Arg → List Char
  | .tensor _ => ['{', '}']
  | .atom t => t
  | .special t => ['f', 'l', 'o', 'a', 't', '(', '\''] ++ t ++ ['\'', ')']
  | .str t => escape ('\'' :: t ++ ['\''])
  | .slice a b c => sliceText (partTmpl a) (partTmpl b) (partTmpl c)
  | .seq _ l => '[' :: join [',', ' '] (tmpls l) ++ [']']
where
  tmpls : List Arg → List (List Char)
    | [] => []
    | a :: as => tmpl a :: tmpls as

/-- The tensors in a part of a slice. -/
def partNames : Option Part → List (List Char)
  | some (.tensor nm) => [nameText nm]
  | _ => []

/-- `self.tensor_names`: the names of the tensors in the order they are met (tracer.py:589-591). -/
def names : Arg → List (List Char)
  | .tensor nm => [nameText nm]
  | .slice a b c => partNames a ++ partNames b ++ partNames c
  | .seq _ l => namesL l
  | _ => []
where
  namesL : List Arg → List (List Char)
    | [] => []
    | a :: as => names a ++ namesL as

/-- A keyword argument in the template (tracer.py:644-654). -/
def kwTmpl (k : List Char × Arg) : List Char := k.1 ++ '=' :: tmpl k.2

/-- `args_template` (tracer.py:640-660, 681). -/
def argsTemplate (args : List Arg) (kw : List (List Char × Arg)) : List Char :=
  join [',', ' '] (args.map tmpl ++ kw.map kwTmpl)

/-- All tensor names. -/
def argNames (args : List Arg) (kw : List (List Char × Arg)) : List (List Char) :=
  (args.map names).flatten ++ (kw.map fun k => names k.2).flatten

/-- `extra_expr` of a function (tracer.py:477-513): `args` are all arguments. -/
def callExpr (fullName : List Char) (args : List Arg) (kw : List (List Char × Arg)) : Option (List Char) :=
  if (argNames args kw).length = 0 then some (fullName ++ '(' :: argsTemplate args kw ++ [')'])
  else format (fullName ++ '(' :: argsTemplate args kw ++ [')']) (argNames args kw)

/-- `extra_expr` of a method called on the tensor `self` (tracer.py:508-510). -/
def methodExpr (self : Atom) (func : List Char) (args : List Arg) (kw : List (List Char × Arg)) : Option (List Char) :=
  format (['{', '}', '.'] ++ func ++ '(' :: argsTemplate args kw ++ [')']) (nameText self :: argNames args kw)

/-- `extra_expr` of `__getitem__` (tracer.py:503-507): brackets are added unless the text already begins or ends with one. -/
def getitemExpr (self : Atom) (index : Arg) : Option (List Char) :=
  let a := tmpl index
  let a' := if a.head? ≠ some '[' ∧ a.getLast? ≠ some ']' then '[' :: a ++ [']'] else a
  format (['{', '}'] ++ a') (nameText self :: names index)

end Verif.Model.ArgString
