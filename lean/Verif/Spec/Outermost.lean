import Mathlib.Data.List.Basic

/-!
Specification for C150: what a forward pass calls, and which of these calls a traced graph should contain.
-/

namespace Verif.Spec.Outermost

/-- What is called: functions of PyTorch and modules, with all that they call in turn. `tracked` is whether a function returns tensors (or something else the tracer follows); `layer` is
whether a module is one the tracer represents by a node, and not one it looks into. -/
inductive Prog
  | nothing
  | andThen (p q : Prog)
  | fn (key : Nat) (tracked : Bool) (body : Prog)
  | mod (id : Nat) (layer : Bool) (body : Prog)
  | fail
  | attempt (p : Prog)
deriving Repr

inductive Event
  | fn (key : Nat)
  | mod (id : Nat)
deriving DecidableEq, Repr

/-- The nodes the graph should have: the calls made by the model's own code, but not those made inside of a layer or a function. The flag is whether an exception is under way. -/
def Prog.own : Prog → List Event × Bool
  | .nothing => ([], false)
  | .andThen p q => if p.own.2 = true then p.own else (p.own.1 ++ q.own.1, q.own.2)
  | .fn key tracked body => if body.own.2 = true then ([], true) else (if tracked = true then [.fn key] else [], false)
  | .mod id layer body => if layer = true then (if body.own.2 = true then ([], true) else ([.mod id], false)) else body.own
  | .fail => ([], true)
  | .attempt p => (p.own.1, false)

/-- Nothing raises. -/
def Prog.Smooth : Prog → Prop
  | .nothing => True
  | .andThen p q => p.Smooth ∧ q.Smooth
  | .fn _ _ body => body.Smooth
  | .mod _ _ body => body.Smooth
  | .fail => False
  | .attempt p => p.Smooth

/-- No layer is called while it is already running, where `running` are the layers under way. -/
def Prog.NoReentry : Prog → List Nat → Prop
  | .nothing, _ => True
  | .andThen p q, running => p.NoReentry running ∧ q.NoReentry running
  | .fn _ _ body, running => body.NoReentry running
  | .mod id layer body, running => if layer = true then id ∉ running ∧ body.NoReentry (id :: running) else body.NoReentry running
  | .fail, _ => True
  | .attempt p, running => p.NoReentry running

end Verif.Spec.Outermost
