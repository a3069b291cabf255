import Verif.Model.Tracer

/-!
Model of dead-graph elimination, tinynn/graph/tracer.py 2005-2014 and 2057-2076.

Simplified: the flag `active` is the list of nodes that have been marked; a constant, which keeps the flag `True` it is created with (231), is marked when it is reached, which
makes no difference because it reads nothing.
-/

namespace Verif.Model.Tracer
open Verif.Spec.Trace

variable {F M K : Type}

/-- `prev_nodes` of a node. -/
def prevs (st : State F M K) (i : Nat) : List Nat := (st.nodes[i]?).elim [] (·.prev)

/-- 2007-2014 `__active_detection`: what a node reads, a bound on the number of rounds, the queue and the marked nodes. -/
def detect (pv : Nat → List Nat) : Nat → List Nat → List Nat → List Nat
  | 0, _, act => act
  | _ + 1, [], act => act
  | fuel + 1, i :: q, act => if i ∈ act then detect pv fuel q act else detect pv fuel (q ++ pv i) (i :: act)

/-- Enough rounds: every node's previous nodes enter the queue at most once. -/
def fuel (st : State F M K) : Nat := 1 + (st.nodes.map (fun n => n.prev.length)).sum

/-- 2058-2062. -/
def active (st : State F M K) : List Nat := st.outputs.foldl (fun act i => detect (prevs st) (fuel st) [i] act) []

def isConstAt (st : State F M K) (j : Nat) : Bool := (st.nodes[j]?).elim false (fun n => isConst n.kind)

/-- 2057-2076 `eliminate_dead_graph_pass`. -/
def eliminate (st : State F M K) : State F M K :=
  { st with
    inputs := st.inputs.filter (fun i => decide (i ∈ active st))
    forward := st.forward.filter (fun i => decide (i ∈ active st))
    consts := distinctPrev st ((((st.forward ++ st.outputs).filter (fun i => decide (i ∈ active st))).map (prevs st)).flatten.filter (isConstAt st)) }

end Verif.Model.Tracer
