import Verif.Spec.DataGraph
import Mathlib.Data.List.Basic

/-!
Model of `elinimate_sequences`, tinynn/converter/operators/optimize.py 4647-4811, with the graph helpers it uses (tinynn/converter/operators/graph.py).

A failed assertion, a missing list element or a failed `list.index` is `none`.  The name of an edge to an operator is the name of its tensor, like its label; the name of
an edge to an output node is that of the output node, which starts with the label, and is not kept.
-/

namespace Verif.Model.Eliminate
open Verif.Spec
variable {T V : Type} [DecidableEq T]

/-- One element of `filtered_pairs`: `seq = keptFirst ++ run ++ keptLast`, where `keptFirst` is present iff `remove_first` is false and `keptLast` iff `remove_last` is false
(4673-4695, 4777-4802); `skip` is the result of `skip_pred` (4664-4670); `act` says that removal of the others rewrites the first operator (`remove_first_node_action`). -/
structure Seq where
  keptFirst : Option Nat
  run : List Nat
  keptLast : Option Nat
  skip : Bool
  act : Bool

/-- `vertex.out_edges()`. -/
def outEdges (g : DGraph T V) (v : Nat) : List (DEdge T) := g.edges.filter (fun e => e.src = v)

/-- The three ways a sequence can go. -/
inductive Plan | leave | forward | rename
deriving DecidableEq

/-- optimize.py 4704-4748: whether to skip the sequence, let the next operators read the input of the run (`forward`), or let the previous operator produce the output of
the run (`rename`). -/
def plan (g : DGraph T V) (force : Bool) (first last nxt : Nat) (outName : T) : Plan :=
  let fwd0 := decide ((g.vtx first).kind = .input)
  let outs := (outEdges g last).any (fun e => decide (g.vtx e.tgt).kind.IsSink)
  let skip0 := outs && fwd0
  let hasOut := outs && !fwd0
  let branch := decide ((outEdges g first).length > 1)
  let other := (outEdges g first).any (fun e => decide (e.tgt ≠ nxt) &&
    (if (g.vtx e.tgt).kind.IsSink then hasOut && decide (e.label = outName) else decide (outName ∈ (g.vtx e.tgt).ins)))
  let fwd1 := fwd0 || (branch && !hasOut)
  let skip1 := skip0 || (branch && hasOut && other)
  let skip2 := skip1 || (force && !fwd1 && hasOut)
  let fwd2 := fwd1 || (force && !hasOut)
  if skip2 then .leave else if fwd2 then .forward else .rename

/-- graph.py 391-420 `replace_next_tensors`; `op` of an unused node is `None`, so both kinds of sinks fail. -/
def replaceNext (g : DGraph T V) (last first : Nat) (newT : T) : Option (DGraph T V) := do
  let orig ← (g.vtx last).outs[0]?
  if (outEdges g last).all (fun e => decide (¬ (g.vtx e.tgt).kind.IsSink) && decide (e.label = orig)) then
    some { g with
      vtx := fun v => if (outEdges g last).any (fun e => e.tgt = v) then
          { g.vtx v with ins := (g.vtx v).ins.map (fun t => if t = orig then newT else t) }
        else g.vtx v
      edges := g.edges ++ (outEdges g last).map (fun e => ⟨first, e.tgt, newT⟩) }
  else none

/-- graph.py 352-389 `connect_next_tensors`. -/
def connectNext (g : DGraph T V) (last first : Nat) (newT : T) : Option (DGraph T V) :=
  if (outEdges g last).all (fun e => decide (e.label = newT)) then
    some { g with edges := g.edges ++ (outEdges g last).map (fun e => ⟨first, e.tgt, newT⟩) }
  else none

/-- optimize.py 4760-4765: the previous operator now produces `newT`. -/
def renameOut (g : DGraph T V) (first outIdx : Nat) (newT : T) : DGraph T V :=
  { g with
    vtx := fun v => if v = first then { g.vtx v with outs := (g.vtx v).outs.set outIdx newT } else g.vtx v
    nodeOf := fun t => if t = newT then first else g.nodeOf t }

/-- optimize.py 4767-4774: the buffer of a constant goes to the tensor that replaces it. -/
def carryBuffer (g : DGraph T V) (k : Nat) (s : Seq) (first last : Nat) : Option (DGraph T V) := do
  if (g.vtx first).kind = .constant then
    let head ← (s.keptFirst.toList ++ s.run)[0]?
    let old ← if (g.vtx head).kind = .constant then some (g.vtx head).own else (g.vtx head).ins[k]?
    let new ← (g.vtx (s.keptLast.getD last)).outs[0]?
    some { g with buffer := fun t => if t = new then g.buffer old else g.buffer t }
  else some g

/-- The state of the loop: the graph, `remove_ids`, and the operators rewritten by `actions`. -/
structure State (T V : Type) where
  g : DGraph T V
  removed : List Nat
  acted : List Nat

/-- One round of the loop 4660-4804. -/
def step (force : Bool) (k : Nat) (st : State T V) (s : Seq) : Option (State T V) := do
  if s.skip then some st else
  let g := st.g
  let nxt ← s.run[0]?
  let last ← s.run.getLast?
  let outName ← (g.vtx nxt).ins[k]?
  let first := s.keptFirst.getD (g.nodeOf outName)
  let outIdx ← if outName ∈ (g.vtx first).outs then some ((g.vtx first).outs.idxOf outName) else none
  let st' := fun g' => { g := g', removed := st.removed ++ s.run, acted := if s.act then st.acted ++ s.keptFirst.toList else st.acted : State T V }
  match plan g force first last nxt outName with
  | .leave => some st
  | .forward => (replaceNext g last first outName).map st'
  | .rename => do
      let newT ← (g.vtx last).outs[0]?
      let g1 ← connectNext g last first newT
      (carryBuffer (renameOut g1 first outIdx newT) k s first last).map st'

/-- `delete_vertices(remove_ids)`, 4809. -/
def delete (g : DGraph T V) (ids : List Nat) : DGraph T V :=
  { g with
    verts := g.verts.filter (fun v => v ∉ ids)
    edges := g.edges.filter (fun e => e.src ∉ ids ∧ e.tgt ∉ ids) }

/-- optimize.py 4647-4811: the graph left over and the operators whose own computation the actions replaced. -/
def eliminate (force : Bool) (k : Nat) (g : DGraph T V) (seqs : List Seq) : Option (DGraph T V × List Nat) := do
  let st ← seqs.foldlM (step force k) ⟨g, [], []⟩
  some (delete st.g st.removed, st.acted)

end Verif.Model.Eliminate
