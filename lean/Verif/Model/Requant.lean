import Verif.Spec.Requant

/-!
Model of the converter's passes that merge quantization nodes (`tinynn/converter/operators/optimize.py`).  Activations are quantized per tensor, so
the `dim` compared by the code is left out.  A tensor is a function of the position; RESHAPE and TRANSPOSE are moves of positions.
-/

namespace Verif.Model.Requant
open Verif.Spec

/-- The operators of `is_requantize_fusable_edge` and `is_activ_fusable_edge`, and any other operator (optimize.py:3722-3762). -/
inductive OpKind | fullyConnected | conv | add | sub | mul | div | maxPool | avgPool | deconv | other
deriving DecidableEq

/-- optimize.py:3726-3737, 3747-3758. -/
def OpKind.fusable : OpKind → Bool
  | .other => false
  | _ => true

/-- A RESHAPE or TRANSPOSE behind the operator: which position each output position reads, the quantization of its output tensor and the number of
its readers. -/
structure Step where
  move : ℕ → ℕ
  label : QP
  outdegree : ℕ

/-- What a path behind the operator ends in: QUANTIZE, DEQUANTIZE, or anything else reading the quantized tensor. -/
inductive End
  | quantize (p : QP)
  | dequantize
  | direct

/-- A path from the operator's output to the first node that is neither RESHAPE nor TRANSPOSE. -/
structure Branch where
  steps : List Step
  last : End

/-- An operator with a quantized output tensor and the paths behind it. -/
structure Site where
  kind : OpKind
  label : QP
  branches : List Branch

/-- What the walk along one path gives: `none` when the fusion is skipped, otherwise the quantization found, if any (optimize.py:402-426). -/
noncomputable def Branch.found (b : Branch) : Option (Option QP) :=
  if b.steps.any (fun s => decide (1 < s.outdegree)) then none
  else match b.last with
    | .quantize p => some (some p)
    | .dequantize => some none
    | .direct => none

open Classical in
/-- The loop over the outgoing edges: `none` when skipped (optimize.py:397-431).  Only scale and zero point are compared. -/
noncomputable def scan : Option QP → List Branch → Option (Option QP)
  | pre, [] => some pre
  | pre, b :: bs =>
    match b.found with
    | none => none
    | some none => scan pre bs
    | some (some cur) =>
      match pre with
      | none => scan (some cur) bs
      | some p => if p.scale ≠ cur.scale ∨ p.zp ≠ cur.zp then none else scan pre bs

/-- One fused pair: the QUANTIZE at the end of branch `k`, which has no steps (optimize.py:386-462).  The operator's output takes the quantization
of the QUANTIZE's output and the QUANTIZE's readers read the operator's output; the labels of RESHAPE and TRANSPOSE outputs are left alone. -/
noncomputable def fuseOne (s : Site) (k : ℕ) : Site :=
  match s.branches[k]? with
  | some ⟨[], .quantize p⟩ =>
    if s.kind.fusable then
      if 1 < s.branches.length then
        match scan none s.branches with
        | none => s
        | some _ => { s with label := p, branches := s.branches.set k ⟨[], .direct⟩ }
      else { s with label := p, branches := s.branches.set k ⟨[], .direct⟩ }
    else s
  | _ => s

/-- What the runtime delivers at the end of a path when the operator's output tensor holds `t` and is labelled `label`: RESHAPE and TRANSPOSE copy
the integers, QUANTIZE and DEQUANTIZE read them with the label of the tensor they read. -/
noncomputable def pathEnd (rnd : ℝ → ℤ) : QP → (ℕ → ℤ) → List Step → End → ℕ → ℝ
  | label, t, [], .quantize p, i => p.real (p.quant rnd (label.real (t i)))
  | label, t, [], .dequantize, i => label.real (t i)
  | label, t, [], .direct, i => label.real (t i)
  | _, t, s :: ss, e, i => pathEnd rnd s.label (fun j => t (s.move j)) ss e i

/-- The real numbers the readers behind branch `k` receive when the operator's exact result is `r`. -/
noncomputable def Site.sees (rnd : ℝ → ℤ) (s : Site) (r : ℕ → ℝ) (k : ℕ) (i : ℕ) : Option ℝ :=
  (s.branches[k]?).map fun b => pathEnd rnd s.label (fun j => s.label.quant rnd (r j)) b.steps b.last i

/-- TFLite's quantized pooling kernels refuse to run unless input and output have the same quantization; the other kernels rescale
(tensorflow/lite/kernels/pooling.cc, `Prepare`). -/
def OpKind.accepts (k : OpKind) (input output : QP) : Prop :=
  (k = .maxPool ∨ k = .avgPool) → input.scale = output.scale ∧ input.zp = output.zp

/-- An operator followed by RELU or RELU6 (optimize.py:235-266): before, the operator writes a tensor labelled `p`, and the activation kernel writes one
labelled `p'`. -/
noncomputable def beforeActivation (rnd : ℝ → ℤ) (a : Act) (p p' : QP) (x : ℝ) : ℤ :=
  actQuant rnd a p' (p.real (p.quant rnd x))

/-- After: the operator carries the activation and writes the activation's output tensor (optimize.py:255-262). -/
noncomputable def afterActivation (rnd : ℝ → ℤ) (a : Act) (p' : QP) (x : ℝ) : ℤ := actQuant rnd a p' x

/-- `node_type == QUANTIZE`. -/
def isQ : QNode → Bool
  | .quantize _ => true
  | .dequantize => false

/-- A node of a chain with the quantization of its input tensor (`none` for a float tensor). -/
structure CNode where
  node : QNode
  inq : Option QP

/-- How a chain is cut: what stays in front, the sequence to merge, what stays behind (optimize.py:849-868). -/
def cut (qFirst : Bool) (seq : List CNode) : List CNode × List CNode × List CNode :=
  let start := if (seq.head?.map fun n => isQ n.node) == some qFirst then 0 else 1
  let stop := if (seq.getLast?.map fun n => isQ n.node) == some (!qFirst) then seq.length else seq.length - 1
  (seq.take start, (seq.take stop).drop start, seq.drop stop)

open Classical in
/-- The merge of one sequence (optimize.py:870-903): a sequence from DEQUANTIZE to QUANTIZE disappears when scale and zero point agree and becomes one
QUANTIZE otherwise; a sequence from QUANTIZE to DEQUANTIZE disappears. -/
noncomputable def merge (seq : List CNode) : List QNode :=
  match seq.head?, seq.getLast? with
  | some ⟨.dequantize, some p⟩, some ⟨.quantize p', _⟩ => if p'.scale = p.scale ∧ p'.zp = p.zp then [] else [.quantize p']
  | _, _ => []

/-- The pass on one maximal alternating chain (optimize.py:836-903). -/
noncomputable def fuseChain (qFirst : Bool) (seq : List CNode) : List QNode :=
  let c := cut qFirst seq
  if 2 ≤ c.2.1.length then c.1.map CNode.node ++ merge c.2.1 ++ c.2.2.map CNode.node else seq.map CNode.node

end Verif.Model.Requant
