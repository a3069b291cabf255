import Verif.Spec.LazyArgs
/-!
Model of `LazyObject`, /repo/tinynn/util/util.py 35-120.  Simplification: plain values have no method `get_current`.
-/

namespace Verif.Model.LazyArgs
open Verif.Spec.LazyArgs

variable {V : Type} (make : String → List V → List (String × V) → V)

/-- 89-96: `get_current` of a lazy object; `none`: an exception. -/
def getCurrent (s : State V) : Arg V → Option V
  | .obj i => (s.objs[i]?).map (·.2)
  | _ => none

/-- 103-109: the positional options. -/
def posOption (s : State V) : Arg V → Option V
  | .value v => some v
  | .obj i => getCurrent s (.obj i)
  | .expr e => some (s.env e)

/-- 111-117: a keyword option; `opt` is the last positional option, left over from the first loop. -/
def kwOption (s : State V) (pos : List (Arg V)) (p : String × Arg V) : Option (String × V) :=
  match p.2 with
  | .obj _ => match pos.getLast? with
    | some opt => (getCurrent s opt).map fun v => (p.1, v)
    | none => none
  | .expr e => some (p.1, s.env e)
  | .value v => some (p.1, v)

/-- `get_next`, 98-120. -/
def getNext (s : State V) (l : Lazy V) : Option V := do
  let pos ← l.pos.mapM (posOption s)
  let kw ← l.kw.mapM (kwOption s l.pos)
  some (make l.cls pos kw)

/-- The calls of a user: the constructor (43-69) constructs once. -/
def run (s : State V) : List (Event V) → Option (State V)
  | [] => some s
  | .create l :: es => do
    let v ← getNext make s l
    run ⟨s.objs ++ [(l, v)], s.env⟩ es
  | .next i :: es => do
    let o ← s.objs[i]?
    let v ← getNext make s o.1
    run ⟨s.objs.set i (o.1, v), s.env⟩ es
  | .world env :: es => run ⟨s.objs, env⟩ es

end Verif.Model.LazyArgs
