import Verif.Model.RnnPrune
import Verif.Spec.RnnProj
/-!
Pruning LSTMs with a projection: the masks (`RNNChannelModifier.register_mask`, /repo/tinynn/graph/modifier.py:1847-1970) and the cut weights (`modify_input` 1972-1985, `modify_output` 1987-2131).
`features` are the pruned features of the output (`pruned_idx_o`, `remove_idx_proj`), `units` the pruned units (`remove_idx`, 1860-1869), chosen by their importance: any choice here.
`removedIn` are the pruned features of the input (`pruned_idx_i`).
A mask is applied by multiplying the parameter with it; a parameter without bias has a bias of zeros here.
-/

namespace Verif.Model.RnnProj
open Verif.Model Verif.Model.RnnPrune Verif.Spec Verif.Spec.RnnPrune Verif.Spec.RnnProj

variable {R : Type} [CommRing R]

/-- The layer as one without projection, of `n` units: for the splitting of indices. -/
def plain (r : ProjRnn R) (n : Nat) : Rnn R := ⟨4, r.layers, r.bidir, r.input, n, r.par⟩

/-- /repo/tinynn/graph/modifier.py:1877-1880, 1994-1997: the removed units of a direction. -/
def unitsIn (r : ProjRnn R) (units : List Nat) (back : Bool) : List Nat := unitsOf (plain r r.hidden) units back

/-- /repo/tinynn/graph/modifier.py:1881-1886, 2007-2014: the removed features of a direction. -/
def featuresIn (r : ProjRnn R) (features : List Nat) (back : Bool) : List Nat := unitsOf (plain r r.proj) features back

/-- /repo/tinynn/graph/modifier.py:1889-1896, 1999-2005: the removed rows of the stacked gates. -/
def rowsIn (r : ProjRnn R) (units : List Nat) (back : Bool) : List Nat := tileIndices (unitsIn r units back) 4 r.hidden

/-- The layer with its masks, 1898-1970.  As without projection (C133) the mask of `weight_ih_l0_reverse` is not registered. -/
def masked (r : ProjRnn R) (units features removedIn : List Nat) : ProjRnn R :=
  { r with
    par := fun l back =>
      let p := r.par l back
      let rows := rowsIn r units back
      { wih := fun i j =>
          if l = 0 then
            if back then p.wih i j else if i ∈ rows ∨ j ∈ removedIn then 0 else p.wih i j
          else if i ∈ rows ∨ j ∈ features then 0 else p.wih i j
        whh := fun i j => if i ∈ rows ∨ j ∈ featuresIn r features back then 0 else p.whh i j
        bih := fun i => if i ∈ rows then 0 else p.bih i
        bhh := fun i => if i ∈ rows then 0 else p.bhh i }
    whr := fun l back i j => if i ∈ featuresIn r features back ∨ j ∈ unitsIn r units back then 0 else r.whr l back i j }

/-- The columns kept in the input weights (1975, 2067-2071). -/
def inCols (r : ProjRnn R) (features removedIn : List Nat) (l : Nat) : List Nat :=
  if l = 0 then complementaryList r.input removedIn else complementaryList (if r.bidir then 2 * r.proj else r.proj) features

/-- The layer with cut weights (1972-2131).  The columns of the input weights of deeper layers are cut only if rows are cut as well (2081-2096). -/
def pruned (r : ProjRnn R) (units features removedIn : List Nat) : ProjRnn R :=
  { layers := r.layers
    bidir := r.bidir
    input := (complementaryList r.input removedIn).length
    hidden := (complementaryList r.hidden (unitsIn r units r.bidir)).length
    proj := (complementaryList r.proj (featuresIn r features r.bidir)).length
    par := fun l back =>
      let p := r.par l back
      let rows := gateRows (unitsIn r units back) 4 r.hidden
      let cols := complementaryList r.proj (featuresIn r features back)
      { wih := fun i j => if l = 0 ∨ rows.length ≠ 4 * r.hidden then p.wih (rows.getD i 0) ((inCols r features removedIn l).getD j 0) else p.wih i j
        whh := fun i j => p.whh (rows.getD i 0) (cols.getD j 0)
        bih := fun i => p.bih (rows.getD i 0)
        bhh := fun i => p.bhh (rows.getD i 0) }
    whr := fun l back i j => r.whr l back ((complementaryList r.proj (featuresIn r features back)).getD i 0) ((complementaryList r.hidden (unitsIn r units back)).getD j 0)
    cols := fun l back => if l = 0 ∨ (gateRows (unitsIn r units back) 4 r.hidden).length ≠ 4 * r.hidden then (inCols r features removedIn l).length else r.cols l back }

end Verif.Model.RnnProj
