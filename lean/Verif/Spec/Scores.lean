import Mathlib.Analysis.Real.Sqrt

/-!
How important a channel of a layer is: a measure of the weights the channel is computed with.
-/

namespace Verif.Spec.Scores

/-- The sum of absolute values, or the Euclidean length. -/
inductive Measure where
  | l1
  | l2

noncomputable def measure : Measure → List ℝ → ℝ
  | .l1, w => (w.map fun x => |x|).sum
  | .l2, w => Real.sqrt (w.map fun x => x ^ 2).sum

/-- The weights that output channel `c` of a transposed convolution with `g` groups is computed with.
`w i o` is the kernel from input channel `i` to the `o`-th output channel of its group, of `ins` inputs and `outs` outputs per group. -/
def transposedWeights (ins outs : ℕ) (w : ℕ → ℕ → List ℝ) (c : ℕ) : List ℝ :=
  ((List.range ins).map fun i => w (c / outs * ins + i) (c % outs)).flatten

/-- The weights of one direction of one layer of a recurrent network: `ih k u` and `hh k u` are those of gate `k` of unit `u`, `hr u` those of output `u` of the projection. -/
structure Cell where
  ih : ℕ → ℕ → List ℝ
  hh : ℕ → ℕ → List ℝ
  hr : ℕ → List ℝ

/-- The score of unit `u` in direction `j`: all its gates, in all layers. -/
noncomputable def unitScore (m : Measure) (layers dirs gates : ℕ) (cell : ℕ → ℕ → Cell) (j u : ℕ) : ℝ :=
  ∑ l ∈ Finset.range layers, ∑ k ∈ Finset.range gates, (measure m ((cell l j).ih k u) + measure m ((cell l j).hh k u))

/-- The score of output `u` of the projection in direction `j`, in all layers. -/
noncomputable def outputScore (m : Measure) (layers : ℕ) (cell : ℕ → ℕ → Cell) (j u : ℕ) : ℝ :=
  ∑ l ∈ Finset.range layers, measure m ((cell l j).hr u)

/-- How far a filter is from all filters of its layer. -/
noncomputable def remoteness (w : List (List ℝ)) (c : ℕ) : ℝ :=
  (w.map fun v => Real.sqrt ((List.zipWith (fun x y => (x - y) ^ 2) (w.getD c []) v).sum)).sum

end Verif.Spec.Scores
