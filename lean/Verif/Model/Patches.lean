import Verif.Spec.Patches

/-!
Model of how the tracer replaces functions of PyTorch for a while (`/repo/tinynn/graph/tracer.py` 732-751, 1046-1097, 1307-1372, 3261-3322, `/repo/tinynn/graph/_utils.py` 296-373).
Objects and names are numbers. The key of an attribute (`qualified_name`) is the object and the name; the code's text keys are assumed to tell attributes apart.
An exception is a `true` beside the state. Not modelled: the C slots behind `torch.Size.__new__`, the configuration files and the flags that say they have been read.
-/

namespace Verif.Model.Patches
open Verif.Spec.Patches

abbrev Item := ℕ × ℕ

/-- `setattr` (`tracer.py` 1322, 1332, 1362, 1372). -/
def setattr (own : Own) (i : Item) (v : Val) : Own := fun c n => if c = i.1 ∧ n = i.2 then some v else own c n

/-- A dictionary; the newest entry counts (`tracer.py` 1313, 1341). -/
def find {α : Type} (d : List (Item × α)) (i : Item) : Option α := (d.find? fun e => e.1 = i).map Prod.snd

/-- `setdefault(key, gen(value, key))` on `generated_wrapper_modules` or `generated_wrapper_funcs` (`tracer.py` 1318, 1359-1361): the wrapper made first is kept. -/
def wrap (cache : List (Item × Val)) (i : Item) (v : Val) : Val × List (Item × Val) :=
  match find cache i with
  | some w => (w, cache)
  | none => (.wrapper i v, (i, .wrapper i v) :: cache)

/-- Entering `patch_modules` (`tracer.py` 1313-1322) or, with `skip`, `patch_funcs` (1341-1362). `none` is an `AttributeError`. -/
def enter (mro : ℕ → List ℕ) (skip : Bool) : List Item → Own → List (Item × Val) → List (Item × Val) → Option (Own × List (Item × Val) × List (Item × Val))
  | [], own, cache, pre => some (own, cache, pre)
  | i :: items, own, cache, pre =>
    if skip && (find pre i).isSome then enter mro skip items own cache pre
    else
      match getattr mro own i.1 i.2 with
      | none => none
      | some v =>
        let r := wrap cache i v
        enter mro skip items (setattr own i r.1) r.2 ((i, v) :: pre)

/-- Leaving them (`tracer.py` 1325-1332, 1364-1372). `none` is a `KeyError`. -/
def leave : List Item → List (Item × Val) → Own → Option Own
  | [], _, own => some own
  | i :: items, pre, own =>
    match find pre i with
    | none => none
    | some v => leave items pre (setattr own i v)

/-- The attributes, the wrappers made so far, and which of the four groups are replaced (`modules_overrided`, `funcs_overrided`, `creation_funcs_overrided`, `tracking_modules_overrided`, `tracer.py` 134-137). -/
structure St where
  own : Own
  cache : List (Item × Val)
  flag : ℕ → Bool

/-- Which groups skip repeated entries: the functions (1 and 2), not the modules (0 and 3). -/
def skips (k : ℕ) : Bool := k = 1 ∨ k = 2

/-- The second half of entering `patch_helper` (`tracer.py` 3294-3309), group by group. -/
def enterGroups (mro : ℕ → List ℕ) (table : ℕ → List Item) : List ℕ → St → Option (St × List (ℕ × List (Item × Val)))
  | [], st => some (st, [])
  | k :: ks, st =>
    match enter mro (skips k) (table k) st.own st.cache [] with
    | none => none
    | some (own, cache, pre) => (enterGroups mro table ks { st with own, cache }).map fun r => (r.1, (k, pre) :: r.2)

/-- Leaving `patch_helper` (`tracer.py` 3311-3322): group by group, in the same order. -/
def leaveGroups (table : ℕ → List Item) : List (ℕ × List (Item × Val)) → St → Option St
  | [], st => some st
  | (k, pre) :: ks, st =>
    match leave (table k) pre st.own with
    | none => none
    | some own => leaveGroups table ks { st with own, flag := fun j => if j = k then false else st.flag j }

/-- What can happen around and between sessions: nested sessions, an exception, an exception that is caught. -/
inductive Prog where
  | nothing
  | andThen (p q : Prog)
  | session (groups : List ℕ) (body : Prog)
  | fail
  | attempt (p : Prog)

/-- Running it (`patch_helper`, `tracer.py` 3261-3322). There is no `try` around the `yield`: when the body fails nothing is undone. -/
def run (mro : ℕ → List ℕ) (table : ℕ → List Item) : Prog → St → St × Bool
  | .nothing, st => (st, false)
  | .andThen p q, st =>
    match run mro table p st with
    | (st', true) => (st', true)
    | (st', false) => run mro table q st'
  | .session groups body, st =>
    let active := groups.filter fun k => !st.flag k
    let st1 := { st with flag := fun j => st.flag j || active.contains j }
    match enterGroups mro table active st1 with
    | none => (st1, true)
    | some (st2, pres) =>
      match run mro table body st2 with
      | (st3, true) => (st3, true)
      | (st3, false) =>
        match leaveGroups table pres st3 with
        | none => (st3, true)
        | some st4 => (st4, false)
  | .fail, st => (st, true)
  | .attempt p, st => ((run mro table p st).1, false)

/-- The wrapper of a function and the lock (`no_catch`, `tracer.py` 732-740; `new_func_gen`, 1046-1097): what is recorded, the lock afterwards, and whether there was an exception.
Simplification: every result is one that is tracked. -/
def calls : Calls → Bool → List ℕ × Bool × Bool
  | .nothing, lock => ([], lock, false)
  | .andThen p q, lock =>
    match calls p lock with
    | (r, l, true) => (r, l, true)
    | (r, l, false) => match calls q l with
      | (r', l', e) => (r ++ r', l', e)
  | .call key fails body, lock =>
    match calls body true with
    | (r, l, true) => (r, l, true)
    | (r, l, false) =>
      if fails then (r, l, true)
      else if lock then (r, l, false)
      else (r ++ [key], false, false)
  | .attempt p, lock => match calls p lock with
    | (r, l, _) => (r, l, false)

/-- The slots replaced by `patch_getitem` (`_utils.py` 309-336): those of the bases, the class and its subclasses. -/
def patchSlots (bases subs : List ℕ) (c w : ℕ) (slot : ℕ → ℕ) : (ℕ → ℕ) × List ℕ :=
  let list := bases ++ [c] ++ subs
  (fun x => if x ∈ list then w else slot x, list.map slot)

/-- The slots put back by `revert_getitem` (`_utils.py` 349-367): those of the bases and the class. -/
def revertSlots (bases : List ℕ) (c : ℕ) (saved : List ℕ) (slot : ℕ → ℕ) : ℕ → ℕ :=
  ((bases ++ [c]).zip saved).foldl (fun s e => fun x => if x = e.1 then e.2 else s x) slot

end Verif.Model.Patches
