import Verif.Spec.CatUnify
import Mathlib.Logic.Function.Basic

/-!
Model of `disable_requantization_for_cat_pass` (`/repo/tinynn/graph/quantization/quantizer.py` 1210-1343).  `prevs` leaves out the FloatFunctional of an operation, which is its `site`.  Not modelled: modules
with several sites (bidirectional LSTM and GRU).  `none` means that the search did not end within the given number of steps.
-/

namespace Verif.Model.CatUnify
open Verif.Spec.CatUnify

/-- The direction of the search. -/
inductive Mode
  | both | up | down
  deriving DecidableEq

/-- The queue, `visited_center`, `visited_other` (2 for nodes that are not there) and the places found (`parents`). -/
structure St where
  queue : List (ℕ × Mode × ℕ)
  centers : List ℕ
  level : ℕ → ℕ
  sites : List ℕ

/-- `new_fq_count` (1239-1303). -/
def newCount (n : Node) (fq : ℕ) : ℕ := if n.isStub then 2 else if n.site.isSome then fq + 1 else fq

/-- What is put into the queue (1305-1326). -/
def pushes (n : Node) (mode : Mode) (fq : ℕ) : List (ℕ × Mode × ℕ) :=
  let fqUp := if mode = .up then newCount n fq else fq
  let fqDown := if mode = .up then fq else newCount n fq
  let widen := mode = .up ∧ n.nexts.length > 1
  let fqDown' := if widen then fqDown + 1 else fqDown
  (if mode ≠ .down ∧ fqUp < 2 then n.prevs.map fun m => (m, .up, fqUp) else []) ++
    (if (mode ≠ .up ∨ widen) ∧ fqDown' < 2 then n.nexts.map fun m => (m, .down, fqDown') else [])

/-- One element of the queue (1226-1326). -/
def visit (g : Graph) (s : St) (n : ℕ) (mode : Mode) (fq : ℕ) (rest : List (ℕ × Mode × ℕ)) : St :=
  if (g n).isSize ∨ n ∈ s.centers ∨ s.level n ≤ fq then { s with queue := rest }
  else
    let mode' := if (g n).isCat then .both else mode
    let fq' := if (g n).isCat then 0 else fq
    { queue := rest ++ pushes (g n) mode' fq'
      centers := if (g n).isCat then n :: s.centers else s.centers
      level := if (g n).isCat then s.level else Function.update s.level n fq
      sites := match (g n).site with
        | some σ => if fq' = 0 then s.sites ++ [σ] else s.sites
        | none => s.sites }

/-- The loop (1226-1326). -/
def search (g : Graph) : ℕ → St → Option St
  | _, s@⟨[], _, _, _⟩ => some s
  | 0, _ => none
  | fuel + 1, s@⟨(n, mode, fq) :: rest, _, _, _⟩ => search g fuel (visit g s n mode fq rest)

/-- The start of a search (1220-1225). -/
def start (centers : List ℕ) (c : ℕ) : St := ⟨[(c, .both, 0)], centers, fun _ => 2, []⟩

/-- Giving all places found one observer (1328-1332); `obs` is the observer at a place. -/
def unify (obs : ℕ → ℕ) (sites : List ℕ) : ℕ → ℕ := if sites.length > 1 then fun σ => if σ ∈ sites.tail then obs (sites.headD 0) else obs σ else obs

/-- All concatenations in order (1218-1332). -/
def pass (g : Graph) (fuel : ℕ) : List ℕ → List ℕ → (ℕ → ℕ) → Option (ℕ → ℕ)
  | [], _, obs => some obs
  | c :: cs, centers, obs => (search g fuel (start centers c)).bind fun s => pass g fuel cs s.centers (unify obs s.sites)

end Verif.Model.CatUnify
