import Mathlib.Data.List.Sort

/-!
Model of `ChannelMasker`, `/repo/tinynn/graph/masker.py`: the removed indices that are accumulated per module, the registered masks, and
saving and restoring the state.  Masks are an arbitrary type `μ`; the forward hook is not modelled.
-/

namespace Verif.Model

/-- The state of a `ChannelMasker` (masker.py 10-14 and 72-83). -/
structure Masker (μ : Type) where
  masks : List (String × μ)
  inIdx : Option (List Nat)
  otIdx : Option (List Nat)
  customIdx : Option (List Nat)

/-- masker.py 10-14 and 72-83: a new masker. -/
def Masker.new {μ : Type} : Masker μ := ⟨[], none, none, none⟩

/-- The body of `set_in_remove_idx`, `set_ot_remove_idx` and `set_custom_remove_idx`, masker.py 85-104. -/
def setRemoveIdx (cur : Option (List Nat)) (new : List Nat) : Option (List Nat) :=
  match cur with
  | some l => some ((l ++ new).insertionSort (· ≤ ·))
  | none => some new

/-- `register_mask`, masker.py 43-49: an existing mask of that name is deleted first. -/
def registerMask {μ : Type} (masks : List (String × μ)) (name : String) (mask : μ) : List (String × μ) :=
  masks.filter (fun p => p.1 != name) ++ [(name, mask)]

/-- `get_mask`, masker.py 40-41. -/
def getMask {μ : Type} (masks : List (String × μ)) (name : String) : Option μ :=
  (masks.find? (fun p => p.1 == name)).map Prod.snd

/-- What a caller can do to a masker. -/
inductive MaskerOp (μ : Type) where
  | setIn (idx : List Nat)
  | setOt (idx : List Nat)
  | setCustom (idx : List Nat)
  | mask (name : String) (m : μ)
  /-- `deserialization` into a new masker of what `serialization` returned, masker.py 106-112. -/
  | saveRestore

/-- One call. -/
def Masker.step {μ : Type} (s : Masker μ) : MaskerOp μ → Masker μ
  | .setIn idx => { s with inIdx := setRemoveIdx s.inIdx idx }
  | .setOt idx => { s with otIdx := setRemoveIdx s.otIdx idx }
  | .setCustom idx => { s with customIdx := setRemoveIdx s.customIdx idx }
  | .mask name m => { s with masks := registerMask s.masks name m }
  | .saveRestore => { (Masker.new : Masker μ) with masks := s.masks, inIdx := s.inIdx, otIdx := s.otIdx }

/-- A history of calls on a new masker. -/
def Masker.run {μ : Type} (ops : List (MaskerOp μ)) : Masker μ := ops.foldl Masker.step Masker.new

end Verif.Model
