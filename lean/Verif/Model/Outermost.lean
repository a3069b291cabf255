import Verif.Spec.Outermost

/-!
Model of how the tracer tells calls made by the model from calls made inside of layers and functions, tinynn/graph/tracer.py: `no_catch` (732-740), `new_func_gen` (1046-1097), and the hooks of
layers, `_submodule_pre_tracer` and `_submodule_tracer` (1645-1666), with the global `lock` (140) and `skip_modules` (169).

Simplified: what a node contains is left out; a graph is being traced all the time.
-/

namespace Verif.Model.Outermost
open Verif.Spec.Outermost

structure St where
  lock : Bool
  skip : List Nat
deriving DecidableEq, Repr

/-- `skip_modules.add`. -/
def add (id : Nat) (s : List Nat) : List Nat := if id ∈ s then s else id :: s

/-- What is recorded, the state afterwards, and whether there is an exception. -/
def run : Prog → St → List Event × St × Bool
  | .nothing, st => ([], st, false)
  | .andThen p q, st =>
    match run p st with
    | (r, st1, true) => (r, st1, true)
    | (r, st1, false) => match run q st1 with
      | (r', st2, e) => (r ++ r', st2, e)
  -- 1054-1097: the function is called with the lock held; with the lock from outside nothing is recorded; an exception skips 740
  | .fn key tracked body, st =>
    match run body { st with lock := true } with
    | (r, st1, true) => (r, st1, true)
    | (r, st1, false) =>
      if st.lock = true then (r, st1, false)
      else (r ++ (if tracked = true then [.fn key] else []), { st1 with lock := false }, false)
  | .mod id layer body, st =>
    if layer = true then
      -- 1647-1650
      match run body ⟨true, if st.lock = true then add id st.skip else st.skip⟩ with
      -- PyTorch does not call the forward hooks after an exception
      | (r, st1, true) => (r, st1, true)
      | (r, st1, false) =>
        -- 1653-1656
        if id ∈ st1.skip then (r, { st1 with skip := st1.skip.erase id }, false)
        -- 1659-1665
        else (r ++ [.mod id], { st1 with lock := false }, false)
    else run body st
  | .fail, st => ([], st, true)
  | .attempt p, st =>
    match run p st with
    | (r, st1, _) => (r, st1, false)

end Verif.Model.Outermost
