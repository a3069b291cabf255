import Verif.Spec.Tensor

/-!
Which elements of a tensor disappear when a channel of an earlier layer is removed.
-/

namespace Verif.Spec.Track
open Verif.Spec

/-- A tensor, described by the channels of one layer its elements belong to. -/
structure Layout where
  shape : List ℕ
  has : List ℕ → ℕ → Prop

/-- The result of the layer itself, with its channels along axis `a`. -/
def source (shape : List ℕ) (a : ℕ) : Layout := ⟨shape, fun idx c => idx.getD a 0 = c⟩

/-- Some element of slice `i` along axis `a` belongs to channel `c`. -/
def Layout.slice (l : Layout) (a i c : ℕ) : Prop := ∃ idx, InBounds l.shape idx ∧ idx.getD a 0 = i ∧ l.has idx c

/-- Where an operand of shape `s` is read for the element `idx` of a larger result: shapes are aligned at the end, axes of size 1 are repeated. -/
def spread (s idx : List ℕ) : List ℕ := (List.zipWith (fun d i => if d = 1 then 0 else i) s.reverse idx.reverse).reverse

/-- What may come between the pruned layer and a layer that reads its result. -/
inductive Layer where
  /-- Activations, sums and products with other operands: every element goes to its place in the result. -/
  | same (shape : List ℕ)
  /-- Reshapes, transposes, slices, splits: element `idx` of the result is element `src idx` of the operand. -/
  | move (shape : List ℕ) (src : List ℕ → List ℕ)
  /-- The sum along an axis, which is dropped. -/
  | sum (a : ℕ)
  /-- Pooling and resizing: every channel by itself. -/
  | pool (shape : List ℕ)
  /-- Padding, seen along axis `a`. -/
  | pad (a : ℕ) (front back : List ℕ)
  /-- A convolution of every channel by itself. -/
  | depthwise (shape : List ℕ)
  /-- A fully connected layer with `n` results, seen along an axis `a` other than the last. -/
  | linear (a n : ℕ)
  /-- Concatenation with operands that have nothing from the pruned layer; only their shapes matter here. -/
  | cat (a : ℕ) (before after : List (Tensor ℤ))

/-- Slice `i` along axis `a` goes to slice `i + front` and stays together; other slices of the result are new. -/
def slices (a front : ℕ) (shape : List ℕ) (l : Layout) : Layout :=
  ⟨shape, fun idx c => ∃ src, InBounds l.shape src ∧ src.getD a 0 + front = idx.getD a 0 ∧ l.has src c⟩

/-- The size of operands together along axis `a`. -/
def total (a : ℕ) (ts : List (Tensor ℤ)) : ℕ := (ts.map fun t => t.shape.getD a 0).sum

/-- The shape of a padded tensor. -/
def padShape : List ℕ → List ℕ → List ℕ → List ℕ
  | n :: s, f :: fs, b :: bs => (f + n + b) :: padShape s fs bs
  | s, _, _ => s

/-- The result of a layer. -/
def Layer.lay : Layer → Layout → Layout
  | .same shape, l => ⟨shape, fun idx c => l.has (spread l.shape idx) c⟩
  | .move shape src, l => ⟨shape, fun idx c => l.has (src idx) c⟩
  | .sum a, l => ⟨l.shape.eraseIdx a, fun idx c => ∃ k < l.shape.getD a 0, l.has (idx.insertIdx a k) c⟩
  | .pool shape, l => slices 1 0 shape l
  | .pad a front back, l => slices a (front.getD a 0) (padShape l.shape front back) l
  | .depthwise shape, l => slices 1 0 shape l
  | .linear a n, l => slices a 0 (l.shape.dropLast ++ [n]) l
  | .cat a before after, l =>
    ⟨l.shape.set a (total a before + l.shape.getD a 0 + total a after), fun idx c => total a before ≤ idx.getD a 0 ∧ idx.getD a 0 - total a before < l.shape.getD a 0 ∧
      l.has (idx.set a (idx.getD a 0 - total a before)) c⟩

/-- The operands of the layers of a path, and the last result. -/
def along : List Layer → Layout → List Layout
  | [], l => [l]
  | x :: p, l => l :: along p (x.lay l)

/-- Tables that say for every slice which channels it belongs to. -/
def Exact (tables : List (ℕ × List (List ℤ))) (l : Layout) : Prop :=
  ∀ e ∈ tables, e.2.length = l.shape.getD e.1 0 ∧ ∀ i < l.shape.getD e.1 0, ∀ c : ℕ, (c : ℤ) ∈ e.2.getD i [] ↔ l.slice e.1 i c

end Verif.Spec.Track
