import Verif.Spec.LayerExpr

/-!
Model of the expressions by which a traced graph refers to the layers of the user's model: `TraceGraph.__tag_nodes`, tinynn/graph/tracer.py 1959-1980, used in `self.<expression>(...)` by
`__gen_forward_code` (2354-2355, 2364-2367) for `inplace_commit`, and turned back into names by `get_submodule_with_parent_from_name` and `update_submodule_in_node` (2553-2597).

Simplified: `str.isnumeric` is "digits only"; a module that has two names is looked at under each of them.
-/

namespace Verif.Model.LayerExpr
open Verif.Spec.LayerExpr

def numeric (n : Name) : Bool := !n.isEmpty && n.all Char.isDigit

/-- The text `get_submodule("`. -/
def subOpen : List Char := ['g', 'e', 't', '_', 's', 'u', 'b', 'm', 'o', 'd', 'u', 'l', 'e', '(', '"']

/-- 1968-1979: the expression of a child, from the expression of its parent. -/
def childText (p : List Char) (k : Kind) (n : Name) : List Char :=
  if (k = .sequential ∨ k = .list) ∧ numeric n = true then p ++ '[' :: (n ++ [']'])
  else if k = .dict then p ++ '[' :: '"' :: (n ++ ['"', ']'])
  else if p ≠ [] then
    if '.' ∈ n ∨ '-' ∈ n then p ++ '.' :: (subOpen ++ (n ++ ['"', ')']))
    else p ++ '.' :: n
  else n

/-- The expression of the module with a name. -/
def textFrom (H : Heap) (i : Nat) (p : List Char) : List Name → Option (List Char)
  | [] => some p
  | n :: ns => match (H.children i).lookup n with
    | some c => textFrom H c (childText p (H.kind i) n) ns
    | none => none

def text (H : Heap) (root : Nat) (ns : List Name) : Option (List Char) := textFrom H root [] ns

/-- The shortest text before `")`, and what is behind it. -/
def beforeClose : List Char → Option (List Char × List Char)
  | [] => none
  | c :: r => if c = '"' ∧ r.head? = some ')' then some ([], r.tail) else (beforeClose r).map (fun x => (c :: x.1, x.2))

/-- `re.sub('get_submodule\\("(.*?)"\\)', '\\1', module_name)`, 2556 and 2577. The number bounds the steps. -/
def sub1 : Nat → List Char → List Char
  | 0, t => t
  | _, [] => []
  | f + 1, c :: r =>
    if subOpen <+: c :: r then
      match beforeClose ((c :: r).drop subOpen.length) with
      | some (s, t) => s ++ sub1 f t
      | none => c :: sub1 f r
    else c :: sub1 f r

/-- The shortest text before `]` or `"]`, and what is behind it. -/
def beforeEnd : List Char → Option (List Char × List Char)
  | [] => none
  | c :: r =>
    if c = '"' ∧ r.head? = some ']' then some ([], r.tail)
    else if c = ']' then some ([], r)
    else (beforeEnd r).map (fun x => (c :: x.1, x.2))

/-- `re.sub('\\[("|)(.*?)("|)\\]', '.\\2', module_name)`, 2557 and 2578. -/
def sub2 : Nat → List Char → List Char
  | 0, t => t
  | _, [] => []
  | f + 1, c :: r =>
    if c = '[' then
      match beforeEnd (if r.head? = some '"' then r.tail else r) with
      | some (s, t) => '.' :: (s ++ sub2 f t)
      | none => c :: sub2 f r
    else c :: sub2 f r

/-- `module_name.split('.')`. -/
def splitDots : List Char → List Name
  | [] => [[]]
  | c :: r =>
    if c = '.' then [] :: splitDots r
    else match splitDots r with
      | h :: t => (c :: h) :: t
      | [] => [[c]]

/-- 2555-2558 and 2576-2579: the names the expression is turned back into. -/
def names (t : List Char) : List Name :=
  let t1 := sub1 t.length t
  splitDots (sub2 t1.length t1)

end Verif.Model.LayerExpr
