import Mathlib.Data.List.Basic

/-!
`torch.split` along an axis, on the list of slices of a tensor.
-/

namespace Verif.Spec.SplitArgs

/-- `torch.split(x, sizes)`: an error unless the sizes add up. -/
def cut {α : Type} : List ℕ → List α → Option (List (List α))
  | [], [] => some []
  | [], _ :: _ => none
  | n :: sizes, l => if l.length < n then none else (cut sizes (l.drop n)).map (l.take n :: ·)

/-- `torch.split(x, n)` with `0 < n`: pieces of `n` slices, the last one may be shorter. -/
def cutEvery {α : Type} (n : ℕ) (l : List α) : List (List α) :=
  match l with
  | [] => []
  | a :: l => (a :: l.take (n - 1)) :: cutEvery n (l.drop (n - 1))
termination_by l.length
decreasing_by simp; omega

/-- The slices of chunks of the given sizes, counted from `start`. -/
def chunksFrom (start : ℕ) : List ℕ → List (List ℕ)
  | [] => []
  | n :: sizes => (List.range' start n) :: chunksFrom (start + n) sizes

/-- What is left of some slices. -/
def left (removed : List ℕ) (l : List ℕ) : List ℕ := l.filter fun i => i ∉ removed

end Verif.Spec.SplitArgs
