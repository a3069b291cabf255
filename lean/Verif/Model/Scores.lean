import Verif.Spec.Scores

/-!
Model of the importance metrics of the pruner (`/repo/tinynn/graph/modifier.py` 27-146).
A matrix is the list of its rows; the kernels of a convolution are flattened, since the norms run over all their axes.
Numbers are real. `none` is an exception.
-/

namespace Verif.Model.Scores
open Verif.Spec.Scores

/-- `torch.norm(tensor, p, dim=[1, ...])` for convolutions and linear layers (`modifier.py` 108-113, 125-130): one number per filter. -/
noncomputable def rowNorms (m : Measure) (w : List (List ℝ)) : List ℝ := w.map (measure m)

/-- `torch.norm(tensor, p, dim=[0, 2, 3])` for transposed convolutions (`modifier.py` 114-117, 131-134).
The weight has shape `[inputs, outputs / groups, kernel]`. -/
noncomputable def transposedNorms (m : Measure) (inputs outs : ℕ) (w : ℕ → ℕ → List ℝ) : List ℝ :=
  (List.range outs).map fun o => measure m ((List.range inputs).map fun i => w i o).flatten

/-- `torch.sum(torch.stack([torch.norm(t, p, dim=[1]) for t in tensor]), dim=0)` for recurrent layers (`modifier.py` 118-120, 135-137).
Stacking fails for no tensors and for tensors of different sizes. -/
noncomputable def stackNorms (m : Measure) (ts : List (List (List ℝ))) : Option (List ℝ) :=
  match ts with
  | [] => none
  | t :: _ => if ts.all (fun s => s.length = t.length) then some ((List.range t.length).map fun r => (ts.map fun s => (rowNorms m s).getD r 0).sum) else none

/-- The parameters of one direction of one layer, `weight_ih_l*`, `weight_hh_l*` and `weight_hr_l*` (`modifier.py` 56, 72-73). -/
structure Params where
  ih : List (List ℝ)
  hh : List (List ℝ)
  hr : List (List ℝ)

/-- Item `k` of `torch.unbind(x.view(gs, hidden_size, -1))` (`modifier.py` 82-83). -/
def gate (hidden : ℕ) (x : List (List ℝ)) (k : ℕ) : List (List ℝ) := (x.drop (k * hidden)).take hidden

/-- The weights of one layer (`modifier.py` 67-89). -/
def layerWeights (gs hidden : ℕ) (layer : List Params) : List (List (List ℝ)) :=
  if gs = 1 then [(layer.map Params.ih).flatten, (layer.map Params.hh).flatten]
  else (List.range gs).map (fun k => (layer.map fun p => gate hidden p.ih k).flatten) ++ (List.range gs).map fun k => (layer.map fun p => gate hidden p.hh k).flatten

/-- The loop over the layers (`modifier.py` 66-91): the weights so far and the score so far, which is computed anew in every round. -/
noncomputable def layerLoop (m : Measure) (gs hidden : ℕ) : List (List Params) → List (List (List ℝ)) → Option (List ℝ) → Option (List ℝ)
  | [], _, score => score
  | layer :: layers, ws, _ =>
    match stackNorms m (ws ++ layerWeights gs hidden layer) with
    | none => none
    | some s => layerLoop m gs hidden layers (ws ++ layerWeights gs hidden layer) (some s)

/-- `update_weight_metric` for recurrent layers (`modifier.py` 42-91): the score under the layer's name, and that under `name:h` if there is a projection. -/
noncomputable def recurrent (m : Measure) (gs hidden : ℕ) (proj : Bool) (layers : List (List Params)) : Option (List ℝ × Option (List ℝ)) :=
  if proj then do
    let outputs ← stackNorms m (layers.map fun layer => (layer.map Params.hr).flatten)
    let units ← layerLoop m gs hidden layers [] none
    pure (outputs, some units)
  else do
    let units ← layerLoop m gs hidden layers [] none
    pure (units, none)

/-- The number of random scores of a recurrent layer (`modifier.py` 101-103): the second size of the first weight. -/
def randomRecurrent (gs hidden : ℕ) (proj : Bool) (layers : List (List Params)) : ℕ :=
  let ts := if proj then layers.map fun layer => (layer.map Params.hr).flatten else layerWeights gs hidden (layers.headD [])
  ((ts.headD []).headD []).length

/-- The number of random scores of the other layers (`modifier.py` 97-100), for a weight of shape `[a, b, ...]`. -/
def randomOther (transposed : Bool) (a b : ℕ) : ℕ := if transposed then b else a

/-- `fpgm` (`modifier.py` 140-146): the column sums of the distances between all filters. -/
noncomputable def fpgm (w : List (List ℝ)) : List ℝ :=
  (List.range w.length).map fun c => (w.map fun v => |Real.sqrt ((List.zipWith (fun x y => (x - y) ^ 2) v (w.getD c [])).sum)|).sum

end Verif.Model.Scores
