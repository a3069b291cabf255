/-!
Constructor calls the tracer writes for layers whose construction it has not seen, from the attributes the layer has.

Modelled code: tinynn/graph/tracer.py
  new_module_getattr_gen       (798-845)
  get_constructor_args         (1375-1380, as the list of parameters)
  gen_module_constrctor_line   (1383-1471; 1416-1452 for the classes in `legacy_modules`, 1454-1460 for the others)
Simplifications: values other than strings (None, booleans, numbers, tuples) are numbers, and their text is one that gives them back; a word without quotes is not a value;
of the escapes of Python's string literals only those for quotes, backslash and newline are there; the function of `ignored_args` (1399-1409) is not modelled.
-/

namespace Verif.Model.FromState

/-- The value of an attribute or of an argument. -/
inductive Val where
  | other (n : Int)
  | str (s : List Char)
  deriving DecidableEq

/-- The text of an argument: of something other than a string, between double quotes, between single quotes, or a string without quotes. -/
inductive Src where
  | other (n : Int)
  | dq (s : List Char)
  | sq (s : List Char)
  | bare (s : List Char)
  deriving DecidableEq

/-- A parameter of a constructor (`inspect.Parameter`): its name and its default, if it has one. -/
structure Param where
  name : String
  dflt : Option Val
  deriving DecidableEq

/-- What is known of the class and of the layer: `__constants__`; the attributes of the class that are None, strings, numbers or booleans; the attributes of the layer. -/
structure Layer where
  constants : List String
  simple : List String
  attr : String → Option Val

/-- An argument in the text of the call. -/
inductive Arg where
  | pos (s : Src)
  | kw (n : String) (s : Src)
  deriving DecidableEq

/-- `f'{prop_value}'`, 1434. -/
def bareText : Val → Src
  | .other n => .other n
  | .str s => .bare s

/-- `prop_value_str`, 1445-1448. -/
def quotedText : Val → Src
  | .other n => .other n
  | .str s => .dq s

/-- Whether the loop considers a parameter at all, 1423-1431. -/
def known (l : Layer) (p : Param) : Bool := l.constants.contains p.name || l.simple.contains p.name

/-- The loop over the parameters, 1418-1449; `none`: the AttributeError of line 1433. -/
def argsOf (l : Layer) : List Param → Option (List Arg)
  | [] => some []
  | p :: ps =>
    if p.name = "self" then argsOf l ps
    else if known l p then
      match p.dflt with
      | none =>
        match l.attr p.name with
        | none => none
        | some v => (argsOf l ps).map (fun r => .pos (bareText v) :: r)
      | some d =>
        match l.attr p.name with
        | none => argsOf l ps
        | some v => if d = v then argsOf l ps else (argsOf l ps).map (fun r => .kw p.name (quotedText v) :: r)
    else argsOf l ps

/-- One character in `repr` of a string that is put between the quotes `q` (Python's own `repr`). -/
def esc (q c : Char) : List Char := if c = '\\' then ['\\', '\\'] else if c = '\n' then ['\\', 'n'] else if c = q then ['\\', c] else [c]

/-- Python's `repr` of a string. -/
def pyRepr (s : List Char) : Src :=
  if s.contains '\'' && !s.contains '"' then .dq (s.flatMap (esc '"')) else .sq (s.flatMap (esc '\''))

/-- How `extra_repr` puts an attribute into its result: with `str`, or with `repr`. -/
inductive Conv where
  | plain
  | repr
  deriving DecidableEq

/-- The line of `extra_repr` or `__repr__` that reads an attribute: as an attribute or out of `self.__dict__`; whether the line starts with `if `, and whether `repr(self.` occurs in it. -/
structure Line where
  viaDict : Bool
  startsIf : Bool
  reprSelf : Bool
  deriving DecidableEq

/-- `related`, 808-831. -/
def patched (ln : Line) : Bool := if ln.viaDict then true else !ln.startsIf && !ln.reprSelf

/-- The string the line gets for an attribute, 833 and 838-840 (names that begin or end with two underscores are left alone in `__dict__`, which no argument does). -/
def seen (ln : Line) (s : List Char) : List Char := if patched ln then '"' :: s ++ ['"'] else s

/-- The text of a string attribute in the result of `extra_repr`. -/
def reprText (ln : Line) (cv : Conv) (s : List Char) : Src :=
  match cv with
  | .plain => if patched ln then .dq s else .bare s
  | .repr => pyRepr (seen ln s)

end Verif.Model.FromState
