import Verif.Spec.IoLayout

/-!
Model of how the converter changes the layout of the inputs and outputs of a model: `init_input_transpose` (`/repo/tinynn/converter/base.py` 338-348), `input_transpose_pass` and `output_transpose_pass`
(`/repo/tinynn/converter/operators/optimize.py` 3012-3067 and 3181-3393).  The graph is a list of operators in an order in which they can run (C17); new operators are put where they can run.  The edges of
the graph, which mirror the operands of the operators, are modelled separately below.  `none` is an exception.
-/

namespace Verif.Model.IoLayout
open Verif.Spec.IoLayout

variable {α : Type}

/-- The graph; `four` tells which tensors have four dimensions, and names from `next` on are unused. -/
structure Net (α : Type) where
  inputs : List ℕ
  consts : List ℕ
  outputs : List ℕ
  ops : List (Op α)
  four : ℕ → Bool
  next : ℕ

/-- Flags of the inputs (base.py:338-348): a missing flag is written into the caller's list, which fails for a tuple. -/
def inputFlags (arg : Arg) (fours : List Bool) : Option (List Bool) :=
  match arg with
  | .one b => some (fours.map fun four => b.getD four)
  | .list l => if fours.length ≤ l.length then some ((fours.zip l).map fun p => p.2.getD p.1) else none
  | .tuple l => if fours.length ≤ l.length ∧ ((l.take fours.length).all fun b => b.isSome) then some ((fours.zip l).map fun p => p.2.getD p.1) else none

/-- Is the name given twice with different flags (optimize.py:3190-3198)? -/
def conflict (l : List (ℕ × Option Bool)) : Bool := l.any fun a => l.any fun b => a.1 == b.1 && a.2 != b.2

/-- Flags of the outputs (optimize.py:3185-3213): every flag is written back, which fails for a tuple. -/
def outputFlags (arg : Arg) (outs : List (ℕ × Bool)) : Option (List Bool) :=
  match arg with
  | .one b => some (outs.map fun o => b.getD o.2)
  | .list l =>
    if l.length ≠ outs.length ∨ conflict ((outs.map Prod.fst).zip l) then none
    else some ((outs.zip l).map fun o => o.2.getD o.1.2)
  | .tuple l => if l.length ≠ outs.length ∨ outs ≠ [] then none else some []

/-- Reading another tensor (`replace_next_tensors`, graph.py:386-420; optimize.py:3354-3366). -/
def rewire (a f : ℕ) (op : Op α) : Op α := { op with ins := op.ins.map fun n => if n = a then f else n }

/-- The first operator with a property. -/
def splitFirst (p : Op α → Bool) : List (Op α) → Option (List (Op α) × Op α × List (Op α))
  | [] => none
  | op :: ops => if p op then some ([], op, ops) else (splitFirst p ops).map fun r => (op :: r.1, r.2.1, r.2.2)

/-- How often a tensor is read. -/
def reads (x : ℕ) (ops : List (Op α)) : ℕ := (ops.map fun op => op.ins.count x).sum

/-- The operator is a QUANTIZE. -/
def isQuantize (op : Op α) : Bool := match op.fn with
  | .quantize _ => true
  | _ => false

/-- The operator is a DEQUANTIZE. -/
def isDequantize (op : Op α) : Bool := match op.fn with
  | .dequantize _ => true
  | _ => false

/-- The only use of an input, if that is a QUANTIZE (optimize.py:3023-3028). -/
def soleQuantize (g : Net α) (x : ℕ) : Option (List (Op α) × Op α × List (Op α)) :=
  if reads x g.ops = 1 then
    match splitFirst (fun op => op.ins.contains x) g.ops with
    | some (pre, op, post) => if isQuantize op then some (pre, op, post) else none
    | none => none
  else none

/-- One input (optimize.py:3018-3064).  Only arrays with four dimensions can be transposed, and an input (or its quantized form) that is returned fails an assertion in `replace_next_tensors`. -/
def inputStep (g : Net α) (x : ℕ) : Option (Net α) :=
  if ¬ g.four x ∨ x ∈ g.outputs then none
  else
    match soleQuantize g x with
    | none => some { g with ops := ⟨.toNchw, [x], [g.next]⟩ :: g.ops.map (rewire x g.next), next := g.next + 1 }
    | some (pre, op, post) =>
      let q := op.outs.headD 0
      if q ∈ g.outputs then none
      else some { g with ops := pre ++ op :: ⟨.toNchw, [q], [g.next]⟩ :: post.map (rewire q g.next), next := g.next + 1 }

/-- `input_transpose_pass`. -/
def inputPass (g : Net α) : List ℕ → Option (Net α)
  | [] => some g
  | x :: xs => (inputStep g x).bind fun g' => inputPass g' xs

/-- One output (optimize.py:3215-3366): after a DEQUANTIZE the transpose goes before it, and other users get a transpose back; otherwise the operator gets a new result, and the transpose of it the old name. -/
def outputStep (g : Net α) (y : ℕ) : Option (Net α) :=
  if ¬ g.four y then none
  else
    match splitFirst (fun op => op.outs.contains y) g.ops with
    | none => none
    | some (pre, op, post) =>
      if isDequantize op then
        let q := op.ins.headD 0
        let ops := pre ++ ⟨.toNhwc, [q], [g.next]⟩ :: { op with ins := [g.next] } ::
          (if reads y post = 0 then post else ⟨.toNchw, [y], [g.next + 1]⟩ :: post.map (rewire y (g.next + 1)))
        some { g with ops := ops, next := g.next + 2 }
      else
        let ops := pre ++ { op with outs := op.outs.map fun n => if n = y then g.next else n } :: ⟨.toNhwc, [g.next], [y]⟩ :: post.map (rewire y g.next)
        some { g with ops := ops, next := g.next + 1 }

/-- A fold over the outputs. -/
def outputSteps (g : Net α) : List ℕ → Option (Net α)
  | [] => some g
  | y :: ys => (outputStep g y).bind fun g' => outputSteps g' ys

/-- `output_transpose_pass`: results of DEQUANTIZE first (optimize.py:3241, 3311). -/
def outputPass (g : Net α) (ys : List ℕ) : Option (Net α) :=
  let afterDequantize := fun y => g.ops.any fun op => isDequantize op && op.outs.contains y
  outputSteps g (ys.filter afterDequantize ++ ys.filter fun y => !afterDequantize y)

/-- The tensors whose flag is set, each once. -/
def chosen (names : List ℕ) (flags : List Bool) : List ℕ := (((names.zip flags).filter fun p => p.2).map Prod.fst).dedup

/-- Both passes with the flags the caller gave. -/
def convertLayout (g : Net α) (inArg outArg : Arg) : Option (Net α) := do
  let fi ← inputFlags inArg (g.inputs.map g.four)
  let g1 ← inputPass g (chosen g.inputs fi)
  let fo ← outputFlags outArg (g1.outputs.map fun o => (o, g1.four o))
  outputPass g1 (chosen g1.outputs fo)

/-! Edges. -/

/-- An edge for a tensor: from the operator that makes it to one that reads it. -/
structure Edge where
  src : ℕ
  label : ℕ
  dst : ℕ
  deriving DecidableEq

/-- `replace_operator_input` (graph.py:293-325) for one operand: the edge to replace, the new one, and whether the number of the old one is returned (`return_ids`) or the edge deleted at once. -/
structure Action where
  old : Edge
  new : Edge
  later : Bool

/-- Running the actions (optimize.py:3381-3391): the edges and the numbers collected. -/
def actions : List Action → List Edge → List ℕ → List Edge × List ℕ
  | [], es, ids => (es, ids)
  | a :: as, es, ids =>
    if a.later then actions as (es ++ [a.new]) (if a.old ∈ es then ids ++ [es.idxOf a.old] else ids)
    else actions as (es.eraseIdx (es.idxOf a.old) ++ [a.new]) ids

/-- Deleting edges by number. -/
def deleteIds (ids : List ℕ) (es : List Edge) : List Edge := (es.zipIdx.filter fun p => p.2 ∉ ids).map Prod.fst

/-- The edges at the end of the pass. -/
def finalEdges (as : List Action) (es : List Edge) : List Edge := let r := actions as es []; deleteIds r.2 r.1

end Verif.Model.IoLayout
