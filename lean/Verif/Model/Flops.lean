import Verif.Model.Masker

/-!
Model of `BasePruner.calc_flops`, `/repo/tinynn/prune/base_pruner.py` 185-247, and of the registration of the removed indices it reads
(`Modifier.register_mask`, `/repo/tinynn/graph/modifier.py` 703-707; `GraphChannelModifier.reset_masker`, 3369-3372).  A module that is
used several times in a network is one module with one masker, and one graph node per use.
-/

namespace Verif.Model

/-- The modules `calc_flops` looks at. -/
inductive FModule where
  /-- `nn.Conv2d`, `nn.ConvTranspose2d`; `kernel` is the number of kernel positions -/
  | conv (inC outC groups kernel : Nat) (bias : Bool)
  | batchNorm (features : Nat)
  | avgPool
  | relu
  | linear (inF outF : Nat)
  | other

/-- A graph node: its module (an index into the modules of the model), the sizes of its tensors, and the indices pruned at this node. -/
structure FNode where
  module : Nat
  prevNumel : Nat
  prevChannels : Nat
  nextNumel : Nat
  prunedIn : List Nat
  prunedOut : List Nat

/-- The removed indices held by the maskers, per module. -/
abbrev Maskers := Nat → Option (List Nat) × Option (List Nat)

/-- modifier.py 703-707 for one node. -/
def registerNode (ms : Maskers) (nd : FNode) : Maskers :=
  fun k => if k = nd.module then (setRemoveIdx (ms k).1 nd.prunedIn, setRemoveIdx (ms k).2 nd.prunedOut) else ms k

/-- `register_mask` of every node, starting from new maskers. -/
def registerAll (nodes : List FNode) : Maskers := nodes.foldl registerNode (fun _ => (none, none))

/-- base_pruner.py 196-203. -/
def removeCount (idx : Option (List Nat)) : Nat :=
  match idx with
  | none => 0
  | some l => l.length

/-- Python's `//`; `none` is ZeroDivisionError. -/
def pyFloorDiv (a b : Int) : Option Int := if b = 0 then none else some (a.fdiv b)

/-- `is_dw_conv`, modifier.py 149-154. -/
def isDwConv (inC outC groups : Nat) : Bool := inC == groups && groups == outC

/-- base_pruner.py 205-245: the summand of one node. -/
def nodeFlops (m : FModule) (removeIn removeOut : Nat) (nd : FNode) : Option Int :=
  match m with
  | .conv inC outC groups kernel bias => do
    let biasOps : Int := if bias then 1 else 0
    let inChannels : Int := inC - removeIn
    let outChannels : Int := outC - removeOut
    let perChannel ← pyFloorDiv nd.nextNumel outC
    let outElements := perChannel * outChannels
    let g : Int := if isDwConv inC outC groups then inChannels else groups
    let perGroup ← pyFloorDiv inChannels g
    pure (outElements * (perGroup * kernel + biasOps))
  | .batchNorm features => do
    let channels : Int := features - removeIn
    let per ← pyFloorDiv nd.prevNumel features
    pure (2 * (per * channels))
  | .avgPool => do
    let channels : Int := nd.prevChannels - removeIn
    let per ← pyFloorDiv nd.prevNumel nd.prevChannels
    pure (1 * (per * channels))
  | .relu => do
    let channels : Int := nd.prevChannels - removeIn
    let per ← pyFloorDiv nd.prevNumel nd.prevChannels
    pure (1 * (per * channels))
  | .linear inF outF => do
    let inChannels : Int := inF - removeIn
    let outChannels : Int := outF - removeOut
    let per ← pyFloorDiv nd.nextNumel outF
    pure (inChannels * (per * outChannels))
  | .other => some 0

/-- `calc_flops`, base_pruner.py 185-247. -/
def calcFlops (modules : Nat → FModule) (ms : Maskers) : List FNode → Option Int
  | [] => some 0
  | nd :: rest => do
    let a ← nodeFlops (modules nd.module) (removeCount (ms nd.module).1) (removeCount (ms nd.module).2) nd
    let b ← calcFlops modules ms rest
    pure (a + b)

end Verif.Model
