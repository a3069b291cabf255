import Verif.Model.GroupPrune
import Verif.Spec.RnnPrune
/-!
Pruning recurrent layers: the masks (`RNNChannelModifier.register_mask`, tinynn/graph/modifier.py:1847-1970) and the cut weights (`modify_input` 1972-1985, `modify_output` 1987-2131).
`removed` are the pruned features of the output (`pruned_idx_o`), `removedIn` those of the input (`pruned_idx_i`).  Not modelled: LSTMs with a projection (`proj_size`).
A mask is applied by multiplying the parameter with it; a parameter without bias has a bias of zeros here.
-/

namespace Verif.Model.RnnPrune
open Verif.Model Verif.Spec Verif.Spec.RnnPrune

variable {R : Type} [CommRing R]

/-- The removed units of a direction (1877-1884, 1993-1997).  Indices that come out negative, which happens if the directions lose different numbers of units (C32), are cut at zero here. -/
def unitsOf (r : Rnn R) (removed : List Nat) (back : Bool) : List Nat :=
  if r.bidir then (if back then (splitDirections removed r.hidden).2.map Int.toNat else (splitDirections removed r.hidden).1) else removed

/-- The removed rows of the stacked gates (1894-1900, 1999-2005). -/
def rowsOf (r : Rnn R) (removed : List Nat) (back : Bool) : List Nat :=
  if r.gates > 1 then tileIndices (unitsOf r removed back) r.gates r.hidden else unitsOf r removed back

/-- The layer with its masks.  Lines 1852-1855 and 1970 register a mask for `weight_ih_l0`; line 1928 matches `weight_ih_l0_reverse` as well, but nothing registers the mask made for it. -/
def masked (r : Rnn R) (removed removedIn : List Nat) : Rnn R :=
  { r with par := fun l back =>
    let p := r.par l back
    let rows := rowsOf r removed back
    let cols := unitsOf r removed back
    { wih := fun i j =>
        if l = 0 then
          if back then p.wih i j else if i ∈ rows ∨ j ∈ removedIn then 0 else p.wih i j
        else if i ∈ rows ∨ j ∈ removed then 0 else p.wih i j
      whh := fun i j => if i ∈ rows ∨ j ∈ cols then 0 else p.whh i j
      bih := fun i => if i ∈ rows then 0 else p.bih i
      bhh := fun i => if i ∈ rows then 0 else p.bhh i } }

/-- The columns kept in the input weights (1975, 2063-2085). -/
def inCols (r : Rnn R) (removed removedIn : List Nat) (l : Nat) : List Nat :=
  if l = 0 then complementaryList r.input removedIn else complementaryList (if r.bidir then 2 * r.hidden else r.hidden) removed

/-- The layer with cut weights (1972-2131). -/
def pruned (r : Rnn R) (removed removedIn : List Nat) : Rnn R :=
  { r with
    input := (complementaryList r.input removedIn).length
    hidden := (complementaryList r.hidden (unitsOf r removed r.bidir)).length
    par := fun l back =>
      let p := r.par l back
      let rows := gateRows (unitsOf r removed back) r.gates r.hidden
      let cols := complementaryList r.hidden (unitsOf r removed back)
      { wih := fun i j => p.wih (rows.getD i 0) ((inCols r removed removedIn l).getD j 0)
        whh := fun i j => p.whh (rows.getD i 0) (cols.getD j 0)
        bih := fun i => p.bih (rows.getD i 0)
        bhh := fun i => p.bhh (rows.getD i 0) } }

end Verif.Model.RnnPrune
