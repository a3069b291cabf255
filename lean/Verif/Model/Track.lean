import Verif.Spec.Track
import Mathlib.Algebra.BigOperators.Group.List.Basic

/-!
Model of how the pruner finds out which channels of a layer a later layer receives (`/repo/tinynn/graph/modifier.py`: `calc_dim_constraint`, `calc_dim_changes`, `update_i`, `fill_tensor_by_dim_changes`
and the methods `dim_change_forward`), for one pruned layer and one path from it.
The tensors recorded while tracing are filled with channel numbers, and every operator is run on them.  Numbers are integers, where the code has floats; sets are lists, in which a number may occur twice.  Errors are `none`.
Not modelled: `update_o` (nothing reads it here), operators without results, RNNs, matrix products, a concatenation along an axis that does not change, convolutions other than depthwise ones
and the mean, which gives the common value if all values are equal.
-/

namespace Verif.Model.Track
open Verif.Spec Verif.Spec.Track

/-- `constraint_i`: for every axis and slice the channels. -/
abbrev Rec := List (ℕ × List (List ℤ))

/-- The numbers in slice `i` along axis `d`: `arr.take(i, axis=d)` (249-258). -/
def sliceVals (t : Tensor ℤ) (d i : ℕ) : List ℤ := (((List.range t.shape.prod).map (unflat t.shape)).filter fun idx => idx.getD d 0 = i).map t.get

/-- The second half of `calc_dim_changes` (287-301): axes along which the sums of the slices differ. -/
def changed (t : Tensor ℤ) : List ℕ :=
  (List.range t.shape.length).filter fun d => (List.range (t.shape.getD d 0)).any fun i => (sliceVals t d i).sum ≠ (sliceVals t d 0).sum

/-- `fill_tensor_by_dim_changes` (3411-3429) without values: the sum of the positions along the axes. -/
def fill (shape dims : List ℕ) : Tensor ℤ := ⟨shape, fun idx => (dims.map fun d => (idx.getD d 0 : ℤ)).sum⟩

/-- The translation of one set by `dim_transform` (444-455). -/
def redirect (tr : Option (List (ℤ × List ℤ))) (s : List ℤ) : List ℤ :=
  match tr with
  | none => s
  | some m =>
    let n := s.flatMap fun c => (m.lookup c).getD []
    if n = [] then s else n

/-- What is passed from operator to operator: `tensor`, `dim_changes_i`, `dim_transform`, `tensor_constraint`. -/
structure St where
  t : Tensor ℤ
  dims : List ℕ
  tr : Option (List (ℤ × List ℤ))
  cons : Option Rec

/-- What `update_i` records (437-465). -/
def record (s : St) : Rec :=
  match s.cons with
  | some r => r
  | none => s.dims.map fun d => (d, (List.range (s.t.shape.getD d 0)).map fun i => redirect s.tr (sliceVals s.t d i))

/-- `constraints_i[d][center][0]`, after the records of earlier visits (1094, 1124, 1783, 2426). -/
def first (seen : List Rec) (r : Rec) (d : ℕ) : Option (List (List ℤ)) := ((seen ++ [r]).filterMap fun r => r.lookup d).head?

/-- `transform[i] = constraint_i[i]` (1095-1097). -/
def enumerate (sets : List (List ℤ)) : List (ℤ × List ℤ) := (List.range sets.length).map fun (i : ℕ) => ((i : ℤ), sets.getD i [])

/-- The renaming of axes in `tensor_constraint` (866-868), which is done one by one. -/
def shift : List ℕ → Rec → Option Rec
  | [], r => some r
  | d :: ds, r => match r.lookup d with
    | none => none
    | some sets => shift ds (((d + 1, sets) :: r.filter fun e => e.1 ≠ d + 1).filter fun e => e.1 ≠ d)

/-- One element of a concatenation. -/
def catGet (a : ℕ) : List (Tensor ℤ) → List ℕ → ℤ
  | [], _ => 0
  | t :: ts, idx => if idx.getD a 0 < t.shape.getD a 0 then t.get idx else catGet a ts (idx.set a (idx.getD a 0 - t.shape.getD a 0))

/-- The layers that fill their result anew (1080-1100, 1104-1130, 1767-1789, 2400-2435). -/
def refill (seen : List Rec) (r : Rec) (shape dims : List ℕ) (cons : Option Rec) : Option St :=
  match dims with
  | [] => none
  | d :: _ => (first seen r d).map fun sets => ⟨fill shape dims, dims, some (enumerate sets), cons⟩

/-- `dim_change_forward`: what is recorded, and what is passed on (`none`: nothing, or an error). -/
def step (seen : List Rec) : Layer → St → Rec × Option St
  -- `Modifier` (845-875)
  | .same shape, s =>
    let r := record s
    let t : Tensor ℤ := ⟨shape, fun idx => s.t.get (spread s.t.shape idx)⟩
    (r, if s.t.shape.length < shape.length ∧ shape.getD 0 0 = 1 then (shift s.dims r).map fun r' => ⟨t, s.dims.map (· + 1), s.tr, some r'⟩
      else some ⟨t, s.dims, s.tr, some r⟩)
  -- `ReIndexModifier` (1264-1277)
  | .move shape src, s =>
    let t : Tensor ℤ := ⟨shape, fun idx => s.t.get (src idx)⟩
    (record s, if changed t = [] then none else some ⟨t, changed t, s.tr, none⟩)
  | .sum a, s =>
    let t : Tensor ℤ := ⟨s.t.shape.eraseIdx a, fun idx => ((List.range (s.t.shape.getD a 0)).map fun k => s.t.get (idx.insertIdx a k)).sum⟩
    (record s, if changed t = [] then none else some ⟨t, changed t, s.tr, none⟩)
  -- `PoolingModifier` (1104-1130)
  | .pool shape, s => (record s, if s.dims = [1] then refill seen (record s) shape s.dims none else none)
  -- `PaddingModifier` (1080-1100)
  | .pad _ front back, s => (record s, refill seen (record s) (padShape s.t.shape front back) s.dims none)
  -- `ConvChannelModifier` (2400-2435) for a depthwise convolution
  | .depthwise shape, s =>
    let s' : St := { s with dims := s.dims.filter fun d => d ≠ 2 ∧ d ≠ 3 }
    (record s', refill seen (record s') shape s'.dims (some (record s')))
  -- `LinearChannelModifier` (1767-1789)
  | .linear _ n, s => (record s, refill seen (record s) (s.t.shape.dropLast ++ [n]) (s.dims.filter fun d => d ≠ s.t.shape.length - 1) none)
  -- `CatModifier` (1472-1512)
  | .cat a before after, s =>
    let t : Tensor ℤ := ⟨s.t.shape.set a (total a before + s.t.shape.getD a 0 + total a after), catGet a (before ++ s.t :: after)⟩
    let offset := total (s.dims.getD 0 0) before
    (record s, if a ∈ s.dims then some ⟨t, changed t, if offset = 0 then s.tr else s.tr.map fun m => m.map fun e => (e.1 + offset, e.2), none⟩ else none)

/-- `change_dimension` (1753-1763, 2384-2396): the state in which the first operator after the pruned layer is entered. -/
def start (shape : List ℕ) (a : ℕ) : St :=
  ⟨fill shape [a], [a], none, some [(a, (List.range (shape.getD a 0)).map fun i => sliceVals (fill shape [a]) a i)]⟩

/-- The records along a path, with the records of earlier visits. -/
def walk : List (Layer × List Rec) → St → List Rec
  | [], s => [record s]
  | (l, seen) :: p, s => match step seen l s with
    | (r, none) => [r]
    | (r, some s') => r :: walk p s'

end Verif.Model.Track
