import Verif.Spec.Tensor

/-! NumPy broadcasting of elementwise operators and TILE, independent of the converter. -/

namespace Verif.Spec

/-- Broadcasting of shapes given from the last axis to the first. -/
def bcRev : List Nat → List Nat → Option (List Nat)
  | [], t => some t
  | s, [] => some s
  | a :: s, b :: t =>
    if a = b then (bcRev s t).map (a :: ·)
    else if a = 1 then (bcRev s t).map (b :: ·)
    else if b = 1 then (bcRev s t).map (a :: ·)
    else none

/-- `np.broadcast_shapes`; `none` is the ValueError. -/
def bcShape (s t : List Nat) : Option (List Nat) := (bcRev s.reverse t.reverse).map List.reverse

/-- The element of `t` that stands at index `idx` of the broadcast result: leading axes are dropped,
axes of size 1 are repeated. -/
def bcGet {α : Type} (t : Tensor α) (idx : List Nat) : α :=
  t.get (List.zipWith (fun d i => if d = 1 then 0 else i) t.shape.reverse idx.reverse).reverse

/-- A broadcasting elementwise operator. -/
def elementwise {α β γ : Type} (f : α → β → γ) (a : Tensor α) (b : Tensor β) : Option (Tensor γ) :=
  (bcShape a.shape b.shape).map (fun s => ⟨s, fun idx => f (bcGet a idx) (bcGet b idx)⟩)

/-- TILE with one repetition count per axis. -/
def tile {α : Type} (m : List Nat) (t : Tensor α) : Tensor α where
  shape := List.zipWith (· * ·) t.shape m
  get := fun idx => t.get (List.zipWith (fun i d => i % d) idx t.shape)

end Verif.Spec
