import Verif.Model.PyOrder

/-!
Model of the index computations with which recurrent layers and grouped convolutions are pruned: `tile_indices_with_gate_size` and
`split_indices_with_directions`, `/repo/tinynn/graph/modifier.py` 1837-1845, the rows kept by `RNNChannelModifier.modify_output` (2048-2057), and the
slices of `ConvChannelModifier.modify_input` for grouped convolutions (2321-2335).
-/

namespace Verif.Model

/-- `tile_indices_with_gate_size`, modifier.py 1837-1839. -/
def tileIndices (indices : List Nat) (gateSize offset : Nat) : List Nat :=
  (List.range gateSize).flatMap (fun g => indices.map (fun i => offset * g + i))

/-- `split_indices_with_directions` with two directions, modifier.py 1841-1845; subtraction can go below zero. -/
def splitDirections (indices : List Nat) (offset : Nat) : List Nat × List Int :=
  let splitPos := indices.length / 2
  (indices.take splitPos, (indices.drop splitPos).map (fun (i : Nat) => (i : Int) - (offset : Int)))

/-- modifier.py 2048-2057: the rows of a stacked gate weight that `modify_output` keeps, in their new order, for `gateSize` gates of `h`
hidden units. -/
def gateRows (removed : List Nat) (gateSize h : Nat) : List Nat :=
  complementaryList (gateSize * h) (if gateSize > 1 then tileIndices removed gateSize h else removed)

/-- modifier.py 2324-2330: for each of `group` groups with `weight2` input channels, the indices removed from its part of the weight. -/
def groupRemove (removed : List Nat) (group weight2 : Nat) : List (List Int) :=
  let num := removed.length / group
  (List.range group).map (fun i => ((removed.drop (num * i)).take num).map (fun (idx : Nat) => (idx : Int) - ((weight2 * i : Nat) : Int)))

end Verif.Model
