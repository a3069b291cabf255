import Verif.Spec.DataGraph

/-!
Model of `group_tensors_pass`, tinynn/converter/operators/optimize.py 1008-1052, and of `replace_operator_input`, tinynn/converter/operators/graph.py 289-318.

`key t` is the dictionary key of a tensor: content, element type, shape and, if present, quantization parameters (1016-1033); it is `none` when the tensor has no buffer, where
`tensor.buffer.data` raises.  A raised exception is `none`.
-/

namespace Verif.Model.GroupTensors
open Verif.Spec
variable {T V K : Type} [DecidableEq T] [DecidableEq K]

/-- A deferred `replace_operator_input(target, i, new_tensor)`. -/
structure Action (T : Type) where
  target : Nat
  idx : Nat
  new : T
deriving DecidableEq

/-- The actions for one constant vertex whose tensor has a representative (1037-1045). -/
def actionsFor (g : DGraph T V) (v : Nat) (t new : T) : List (Action T) :=
  (g.edges.filter (fun e => e.src = v)).flatMap (fun e =>
    if (g.vtx e.tgt).kind = .op then
      (List.range (g.vtx e.tgt).ins.length).filterMap (fun i => if (g.vtx e.tgt).ins[i]? = some t then some ⟨e.tgt, i, new⟩ else none)
    else [])

/-- The loop over the vertices (1013-1047): `tensor_map` and the actions. -/
def scan (g : DGraph T V) (key : T → Option K) : List Nat → List (K × T) → List (Action T) → Option (List (Action T))
  | [], _, acts => some acts
  | v :: vs, m, acts =>
    if (g.vtx v).kind = .constant then do
      let t ← (g.vtx v).outs[0]?
      let k ← key t
      match m.find? (fun p => p.1 = k) with
      | some p => scan g key vs m (acts ++ actionsFor g v t p.2)
      | none => scan g key vs (m ++ [(k, t)]) acts
    else scan g key vs m acts

/-- graph.py 289-318: drop one edge for the old operand, put in the new one. -/
def replaceInput (g : DGraph T V) (a : Action T) : Option (DGraph T V) := do
  let old ← (g.vtx a.target).ins[a.idx]?
  some { g with
    vtx := fun v => if v = a.target then { g.vtx v with ins := (g.vtx v).ins.set a.idx a.new } else g.vtx v
    edges := g.edges.eraseP (fun e => decide (e.tgt = a.target ∧ old ∈ (g.vtx e.src).outs ∧ e.label = old)) ++ [⟨g.nodeOf a.new, a.target, a.new⟩] }

/-- optimize.py 1008-1052. -/
def groupTensors (g : DGraph T V) (key : T → Option K) : Option (DGraph T V) := do
  let acts ← scan g key g.verts [] []
  acts.foldlM replaceInput g

end Verif.Model.GroupTensors
