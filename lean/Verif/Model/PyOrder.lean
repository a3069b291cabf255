import Mathlib.Data.List.Dedup

/-!
Model of `complementary_list`, `/repo/tinynn/graph/modifier.py` 14-15: `list(set(a).difference(set(b)))`.  The order of the result is the
iteration order of a CPython set of small non-negative integers (their hash is the number itself), so the hash table of CPython's
`Objects/setobject.c` (3.8 to 3.12) is modelled: `set_add_entry`, `set_table_resize` and the two branches of `set_difference`.
-/

namespace Verif.Model

/-- The table of a set: a power of two slots. -/
abbrev PyTable := List (Option Nat)

/-- `set_add_entry`: the do-while of at most ten neighbouring slots (LINEAR_PROBES = 9) starting at `i`; the first free slot. -/
def scanSlots (t : PyTable) : Nat → Nat → Option Nat
  | i, 0 => if t.getD i none = none then some i else none
  | i, p + 1 => if t.getD i none = none then some i else scanSlots t (i + 1) p

/-- `set_add_entry`: the outer loop with PERTURB_SHIFT = 5. -/
def findSlot (t : PyTable) : Nat → Nat → Nat → Option Nat
  | 0, _, _ => none
  | f + 1, i, perturb =>
    let mask := t.length - 1
    match scanSlots t i (if i + 9 ≤ mask then 9 else 0) with
    | some j => some j
    | none => findSlot t f ((i * 5 + 1 + perturb / 32) % t.length) (perturb / 32)

/-- Inserting an integer that is not in the table, without resizing (`set_insert_clean`).  When the fuel of the probing loop runs out
(CPython has no such bound) the first free slot is used. -/
def pyInsert (t : PyTable) (v : Nat) : PyTable :=
  match findSlot t 64 (v % t.length) v with
  | some j => t.set j (some v)
  | none => t.set (t.idxOf none) (some v)

/-- The number of entries. -/
def pyUsed (t : PyTable) : Nat := (t.filterMap id).length

/-- `set_table_resize`: the smallest power of two above `minused`, at least 8. -/
def newSize : Nat → Nat → Nat → Nat
  | 0, s, _ => s
  | f + 1, s, minused => if s ≤ minused then newSize f (2 * s) minused else s

/-- The new size of a table with `used` entries that has become too full. -/
def tableSize (used : Nat) : Nat :=
  let minused := if used > 50000 then used * 2 else used * 4
  newSize minused 8 minused

/-- `set_add_entry`, with the resize when `fill * 5 ≥ mask * 3`. -/
def pyAdd (t : PyTable) (v : Nat) : PyTable :=
  let t' := pyInsert t v
  let used := pyUsed t'
  if used * 5 < (t.length - 1) * 3 then t'
  else (t'.filterMap id).foldl pyInsert (List.replicate (tableSize used) none)

/-- The order in which a set built by adding the elements of `l` one after the other is iterated. -/
def pyOrder (l : List Nat) : List Nat := (l.foldl pyAdd (List.replicate 8 none)).filterMap id

/-- `complementary_list(range(n), remove)`, modifier.py 14-15.  `set(range(n))` is iterated in ascending order, since all values are
below its table size.  `set_difference` removes from a copy of that set if `n >> 2 > len(set(remove))` (again ascending), and otherwise
adds the surviving elements one after the other to a new set. -/
def complementaryList (n : Nat) (remove : List Nat) : List Nat :=
  let kept := (List.range n).filter (fun i => !remove.contains i)
  if n / 4 > remove.dedup.length then kept else pyOrder kept

end Verif.Model
