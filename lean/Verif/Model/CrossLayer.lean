import Verif.Spec.ConvPair
import Mathlib.Data.Real.Sqrt

/-!
Model of cross-layer equalization, `/repo/tinynn/graph/quantization/algorithm/cross_layer_equalization.py`: `equalize` 79-106,
`_weight_equal_helper` 109-129, `graph_traverse` 42-68 and `get_cls_set` 71-76.  Floats are real numbers, extended by the infinity and the NaN
that a division by zero produces.  The flattening of multi-dimensional weights is done by index arithmetic; the kernel dimensions are one.
-/

namespace Verif.Model
open Verif.Spec

/-- A float: NaN, plus infinity, or a number. -/
inductive XReal where
  | nan
  | inf
  | num (x : ℝ)

/-- `t.abs().max()` of a non-empty row. -/
noncomputable def maxAbs (l : List ℝ) : ℝ := l.foldr (fun v m => max |v| m) 0

/-- `r1`, line 96: the largest absolute weight of output channel `c` of the first layer. -/
noncomputable def range1 (p : ConvParams) (c : Nat) : ℝ :=
  maxAbs ((List.range p.inPer).flatMap (fun i => (List.range p.k).map (fun t => p.w c i t)))

/-- `r2`, lines 82-97: the second layer's weight `(g * outPer, inPer, k)` is reshaped to `(g, outPer, inPer, k)`, permuted with `[2, 0, 1, 3]` to
`(inPer, g, outPer, k)`, reshaped to `(inPer * g, outPer * k)`, and row `c` is taken. -/
noncomputable def range2 (q : ConvParams) (c : Nat) : ℝ :=
  let i := c / q.groups
  let gr := c % q.groups
  maxAbs ((List.range q.outPer).flatMap (fun o => (List.range q.k).map (fun t => q.w (gr * q.outPer + o) i t)))

/-- `r1 / torch.sqrt(r1 * r2)`, line 98, for `r1, r2 ≥ 0`: 0/0 is NaN and x/0 is infinity. -/
noncomputable def rawScale (r1 r2 : ℝ) : XReal :=
  if r1 * r2 = 0 then (if r1 = 0 then .nan else .inf) else .num (r1 / Real.sqrt (r1 * r2))

/-- `torch.clamp(s, s_min, s_max)`, line 101, with `s_min = 1e-6` and `s_max = 1e6`; NaN stays NaN. -/
noncomputable def clampScale (s : XReal) : XReal :=
  match s with
  | .nan => .nan
  | .inf => .num 1000000
  | .num x => .num (min (max x (1 / 1000000)) 1000000)

/-- `equalize` for channel `c`, lines 79-106. -/
noncomputable def equalizeChannel (threshold r1 r2 : ℝ) : XReal :=
  if r1 + r2 < threshold then .num 1 else clampScale (rawScale r1 r2)

/-- The number, if it is one. -/
def XReal.toReal? : XReal → Option ℝ
  | .num x => some x
  | _ => none

/-- `equalize`: the scale of every channel of the first layer, or `none` if some channel's scale is NaN (the weights of that channel then
become NaN). -/
noncomputable def equalizeScales (threshold : ℝ) (p q : ConvParams) (channels : Nat) : Option (List ℝ) :=
  (List.range channels).mapM (fun c => (equalizeChannel threshold (range1 p c) (range2 q c)).toReal?)

/-- Lines 120-125: the first layer's weight and bias divided by the scale of their output channel. -/
noncomputable def scaleFirst (s : Nat → ℝ) (p : ConvParams) : ConvParams :=
  { p with w := fun o i t => p.w o i t / s o, b := p.b.map (fun b o => b o / s o) }

/-- Lines 121-126: the second layer's weight, reshaped to `(g, outPer, inPer, k)`, times the scales reshaped to `(g, 1, inPer, 1)`. -/
noncomputable def scaleSecond (s : Nat → ℝ) (q : ConvParams) : ConvParams :=
  { q with w := fun o i t => q.w o i t * s ((o / q.outPer) * q.inPer + i) }

/-- `_weight_equal_helper`, lines 109-127; `none` when the weights become NaN. -/
noncomputable def weightEqual (threshold : ℝ) (p q : ConvParams) : Option (ConvParams × ConvParams) :=
  (equalizeScales threshold p q (p.groups * p.outPer)).map (fun l =>
    let s := fun c => l.getD c 1
    (scaleFirst s p, scaleSecond s q))

/-- `for i in range(iters)`, lines 154-156, for one pair. -/
noncomputable def equalizeIters (threshold : ℝ) : Nat → ConvParams × ConvParams → Option (ConvParams × ConvParams)
  | 0, pq => some pq
  | n + 1, pq => (weightEqual threshold pq.1 pq.2).bind (equalizeIters threshold n)

/-- What `graph_traverse` distinguishes: `cls_support_type`, `cls_scalable_type`, and everything else. -/
inductive ClsKind where
  | conv
  | scalable
  | other
deriving DecidableEq

/-- The traced graph. -/
structure ClsGraph where
  kind : Nat → ClsKind
  next : Nat → List Nat

/-- `visited_nodes` and `layer_groups`. -/
structure ClsState where
  visited : List Nat
  groups : List (List Nat)

/-- `is_group_supported`, lines 26-39. -/
def groupSupported (g : ClsGraph) (cur : List Nat) : Bool :=
  match cur with
  | [a, b] => g.kind a == .conv && g.kind b == .conv
  | _ => false

/-- Lines 52-54 and 62-63: append the group if it is supported and new; the second component tells whether it was. -/
def addGroup (g : ClsGraph) (st : ClsState) (cur : List Nat) : ClsState × Bool :=
  if groupSupported g cur && !st.groups.contains cur then ({ st with groups := st.groups ++ [cur] }, true) else (st, false)

/-- `graph_traverse`, lines 42-68.  Nodes are compared by their unique name, here their number.  Fuel bounds the recursion depth. -/
def graphTraverse (g : ClsGraph) : Nat → Nat → List Nat → ClsState → ClsState
  | 0, _, _, st => st
  | f + 1, n, cur, st =>
    if st.visited.contains n then st
    else
      let r := addGroup g st cur
      let cur := if r.2 then cur.drop 1 else cur
      let st : ClsState := { r.1 with visited := r.1.visited ++ [n] }
      let cur := if g.kind n = .conv then cur ++ [n] else cur
      let st' := if (g.next n).length > 1 ∨ g.kind n = .other then (addGroup g st cur).1 else st
      let cur' := if (g.next n).length > 1 ∨ g.kind n = .other then [] else cur
      ((g.next n).foldl (fun (a : ClsState × List Nat) m => (graphTraverse g f m a.2 a.1, [])) (st', cur')).1

/-- `get_cls_set`, lines 71-76. -/
def getClsSet (g : ClsGraph) (fuel : Nat) (forwardNodes : List Nat) : List (List Nat) :=
  (forwardNodes.foldl (fun st n => graphTraverse g fuel n [] st) ⟨[], []⟩).groups

end Verif.Model
