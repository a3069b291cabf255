/-!
Specification for C156: objects that are constructed anew on request, from arguments that are values, other such objects or expressions.
-/

namespace Verif.Spec.LazyArgs

/-- An argument: a value, the object number `i` of those created so far, or the expression number `e`. -/
inductive Arg (V : Type)
  | value (v : V)
  | obj (i : Nat)
  | expr (e : Nat)

/-- What a user asks for: a class with positional and keyword arguments. -/
structure Lazy (V : Type) where
  cls : String
  pos : List (Arg V)
  kw : List (String × Arg V)

/-- What a user does: create such an object, have object `i` constructed anew, or change what the expressions give. -/
inductive Event (V : Type)
  | create (l : Lazy V)
  | next (i : Nat)
  | world (env : Nat → V)

/-- The objects, what they are now, and what the expressions give. -/
structure State (V : Type) where
  objs : List (Lazy V × V)
  env : Nat → V

variable {V : Type} (make : String → List V → List (String × V) → V)

/-- What an argument stands for now. -/
def resolve (s : State V) : Arg V → Option V
  | .value v => some v
  | .obj i => (s.objs[i]?).map (·.2)
  | .expr e => some (s.env e)

/-- The construction: every argument stands for what it stands for now. -/
def construct (s : State V) (l : Lazy V) : Option V := do
  let pos ← l.pos.mapM (resolve s)
  let kw ← l.kw.mapM fun p => (resolve s p.2).map fun v => (p.1, v)
  some (make l.cls pos kw)

/-- What the user expects. -/
def expected (s : State V) : List (Event V) → Option (State V)
  | [] => some s
  | .create l :: es => do
    let v ← construct make s l
    expected ⟨s.objs ++ [(l, v)], s.env⟩ es
  | .next i :: es => do
    let o ← s.objs[i]?
    let v ← construct make s o.1
    expected ⟨s.objs.set i (o.1, v), s.env⟩ es
  | .world env :: es => expected ⟨s.objs, env⟩ es

end Verif.Spec.LazyArgs
