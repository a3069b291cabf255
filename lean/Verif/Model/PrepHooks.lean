import Verif.Spec.PrepHooks
/-!
Model of the module side of `prepare_qat`: tinynn/graph/quantization/quantizer.py 889-1053 (QATQuantizer) and 3794-3885 (PostQuantizer) for PyTorch 1.8 and later, and of the hooks moved by
tinynn/graph/quantization/fused_modules.py 110-141.
Simplifications: modules are numbers, a node whose module is a function does not occur (it has neither hooks nor a qconfig); PyTorch's `propagate_qconfig_`, `_add_observer_` and `register_forward_hook` are
modelled as the library defines them, for modules without special rules (no DeQuantStub, Dropout, custom modules); replacing modules by their QAT forms (`convert`) moves hooks and qconfig with them and is left out.
-/

namespace Verif.Model.PrepHooks
open Verif.Spec.PrepHooks

/-- A module: whether it is a leaf of a type in the list of observed types, its qconfig (`none`: no attribute, `some none`: None), its forward hooks in the order they run, and whether it has
`activation_post_process`. -/
structure Mod where
  leaf : Bool
  qconfig : Option (Option ℕ)
  hooks : List Hook
  observer : Bool

abbrev Mods := ℕ → Mod

def put (s : Mods) (m : ℕ) (v : Mod) : Mods := fun x => if x = m then v else s x

/-- `propagate_qconfig_`, over pairs of a module and its parent, parents first: a module without a qconfig gets that of its parent. -/
def propagate : List (ℕ × ℕ) → Mods → Mods
  | [], s => s
  | (m, p) :: l, s => propagate l (match (s m).qconfig with
    | some _ => s
    | none => put s m { s m with qconfig := some ((s p).qconfig.getD none) })

/-- `if hasattr(m, "qconfig"): delattr(m, "qconfig")` -/
def dropQconfig (s : Mods) (m : ℕ) : Mods := put s m { s m with qconfig := none }

/-- `_add_observer_` at one module: `insert_activation_post_process` if it needs observation; the hook is moved to the front. -/
def observe (s : Mods) (m : ℕ) : Mods :=
  if (s m).leaf = true ∧ ((s m).qconfig.getD none).isSome = true then put s m { s m with hooks := .observe :: (s m).hooks, observer := true } else s

/-- Lines 1035-1042 (3862-3870): the last hook, the qconfig and the observer go. -/
def clean (s : Mods) (m : ℕ) : Mods := put s m { s m with hooks := (s m).hooks.dropLast, qconfig := none, observer := false }

/-- Lines 938-943: `q_dict`, the modules of nodes in the order of their first use, and whether some node with it is quantized. -/
def qDict : List Use → List (ℕ × Bool) → List (ℕ × Bool)
  | [], d => d
  | u :: l, d => qDict l (match d.lookup u.mod with
    | some _ => d.map fun p => if p.1 = u.mod then (p.1, p.2 || u.quantized) else p
    | none => d ++ [(u.mod, u.quantized)])

/-- Line 943: `non_quantized_mods`. -/
def nonQuantized (uses : List Use) : List ℕ := ((qDict uses []).filter fun p => p.2 = false).map (·.1)

/-- 965-1042: the steps of QATQuantizer (PyTorch 1.13 and later); `tree` are the modules with their parents, `all` those `_add_observer_` visits. -/
def prepareQat (tree : List (ℕ × ℕ)) (all : List ℕ) (uses : List Use) (s : Mods) : Mods :=
  let non := nonQuantized uses
  let s := propagate tree s
  let s := non.foldl dropQconfig s
  let s := propagate tree s
  let s := non.foldl dropQconfig s
  let s := all.foldl observe s
  non.foldl clean s

/-- The same before PyTorch 1.13, line 1033: `prepare` hands out qconfigs again before it adds observers. -/
def prepareQatOld (tree : List (ℕ × ℕ)) (all : List ℕ) (uses : List Use) (s : Mods) : Mods :=
  let non := nonQuantized uses
  let s := propagate tree s
  let s := non.foldl dropQconfig s
  let s := propagate tree s
  let s := all.foldl observe s
  non.foldl clean s

/-- 3821-3870: the steps of PostQuantizer, node by node. -/
def preparePtq (tree : List (ℕ × ℕ)) (all : List ℕ) (uses : List Use) (s : Mods) : Mods :=
  let non := (uses.filter fun u => u.quantized = false).map (·.mod)
  let s := propagate tree s
  let s := non.foldl dropQconfig s
  let s := all.foldl observe s
  non.foldl clean s

/-- fused_modules.py 121-123 (124-127): moving hooks from one module to the fused one while deleting them from the dictionary that is iterated: with one hook the iterator is at its end, with more it raises
RuntimeError. -/
def moveHooks (src dst : List ℕ) : Option (List ℕ × List ℕ) :=
  match src with
  | [] => some ([], dst)
  | [h] => some ([], dst ++ [h])
  | _ => none

/-- fused_modules.py 118-132: the hooks before and after the forward of the fused module, from those of the modules in the group. -/
def fuseHooks (mods : List (List ℕ × List ℕ)) : Option (List ℕ × List ℕ) :=
  match mods.head?, mods.getLast? with
  | some f, some l => (moveHooks f.1 []).bind fun a => (moveHooks l.2 []).map fun b => (a.2, b.2)
  | _, _ => none

end Verif.Model.PrepHooks
