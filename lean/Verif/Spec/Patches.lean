import Mathlib.Data.List.Basic

/-!
Attributes of Python classes and modules.
-/

namespace Verif.Spec.Patches

/-- What an attribute can hold: something PyTorch or the user put there, or a wrapper made by the tracer for an attribute, which calls what it wraps. -/
inductive Val where
  | plain (n : ℕ)
  | wrapper (key : ℕ × ℕ) (inner : Val)
deriving DecidableEq

/-- The attributes every object has of its own, by object and name. -/
abbrev Own := ℕ → ℕ → Option Val

/-- `getattr(c, n)`: the first object on the resolution order of `c` that has the attribute. -/
def getattr (mro : ℕ → List ℕ) (own : Own) (c n : ℕ) : Option Val := (mro c).findSome? fun a => own a n

/-- Every class is first on its resolution order, and what follows an ancestor is that ancestor's resolution order: single inheritance. -/
def Single (mro : ℕ → List ℕ) : Prop := ∀ d, (mro d).head? = some d ∧ (mro d).Nodup ∧ ∀ c ∈ mro d, ∃ front, mro d = front ++ mro c

/-- What a traced program does: calls of PyTorch that call others in turn, fail or not, and attempts that swallow a failure. -/
inductive Calls where
  | nothing
  | andThen (p q : Calls)
  | call (key : ℕ) (fails : Bool) (body : Calls)
  | attempt (p : Calls)

/-- No call fails. -/
def Calls.Smooth : Calls → Prop
  | .nothing => True
  | .andThen p q => p.Smooth ∧ q.Smooth
  | .call _ fails body => fails = false ∧ body.Smooth
  | .attempt p => p.Smooth

/-- The calls the program itself makes, and whether it fails. -/
def Calls.outermost : Calls → List ℕ × Bool
  | .nothing => ([], false)
  | .andThen p q => if p.outermost.2 then p.outermost else (p.outermost.1 ++ q.outermost.1, q.outermost.2)
  | .call key fails body => if fails || body.outermost.2 then ([], true) else ([key], false)
  | .attempt p => (p.outermost.1, false)

end Verif.Spec.Patches
