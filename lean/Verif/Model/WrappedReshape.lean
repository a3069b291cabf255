import Verif.Model.Layout
import Verif.Model.ReshapeMap

/-!
Model of `fuse_wrapped_reshape_within_transpose_pass` (`/repo/tinynn/converter/operators/optimize.py` 1188-1238) on one sequence TRANSPOSE, RESHAPE, TRANSPOSE, with `fuse_transpose_perms_extended`
(4473-4515).  How sequences are found (`is_wrapped_reshape_within_transpose_edge`, `fuse_connected_edges`) and taken out of the graph (`elinimate_sequences`) is modelled elsewhere.
-/

namespace Verif.Model.Wrapped
open Verif.Spec Verif.Model

/-- The dictionary `mapping` (4506-4509): the axes of each size, in order. -/
def pools (new : List ℕ) (v : ℕ) : List ℕ := (List.range new.length).filter fun i => new.getD i 0 = v

/-- Lines 4510-4512: each axis takes the first axis of its size that is left; `none` if there is none. -/
def pick : (ℕ → List ℕ) → List ℕ → Option (List ℕ)
  | _, [] => some []
  | m, x :: l => match m x with
    | [] => none
    | p :: ps => (pick (fun v => if v = x then ps else m v) l).map (p :: ·)

/-- The loop `for old, item in zip(old_shape, cur_perm)` (4500-4503); `new_idx` is the length of `next_perm`. -/
def scanOnce (new : List ℕ) : List (ℕ × ℕ) → List ℕ → List ℕ
  | [], next => next
  | (o, item) :: z, next => scanOnce new z (if new[next.length]? = some o ∧ item ∉ next then next ++ [item] else next)

/-- The loop `while new_idx < len(new_shape)` (4497-4503); a round that adds nothing repeats forever (`none`). -/
def scan (new : List ℕ) (z : List (ℕ × ℕ)) : Option (List ℕ) :=
  let next := (scanOnce new z)^[new.length] []
  if next.length < new.length then none else some next

/-- `fuse_transpose_perms_extended` (4473-4515) for TRANSPOSE by `p₁`, RESHAPE from `a` to `b`, TRANSPOSE by `p₂`. -/
def extended (p₁ a b p₂ : List ℕ) : Option (List ℕ) :=
  if a.length < b.length then (scan a (b.zip p₂)).map fun next => npTake (npArgsort next) p₁
  else if b.length < a.length then (scan b (a.zip p₁)).map fun next => npTake (npArgsort next) p₂
  else if a = b then some (npTake p₁ p₂)
  else (pick (pools a) b).map fun next => npTake (npTake p₁ next) p₂

/-- The pass on one sequence (1207-1238): the three operators become one RESHAPE if the combined permutation is sorted. -/
def wrapped {α : Type} (p₁ b p₂ : List ℕ) (t : Tensor α) : Option (Tensor α) :=
  let u := transpose p₁ t
  let out := transpose p₂ (reshape b u)
  if (isSimpleReshape u.shape b).1 then (extended p₁ u.shape b p₂).map fun q => if isSortedPerm q then reshape out.shape t else out
  else some out

end Verif.Model.Wrapped
