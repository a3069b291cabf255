import Verif.Spec.Graph
import Mathlib.Data.List.Basic

/-!
A converter graph as data flow: vertices read and produce tensors by name, and a valuation gives every tensor its content.
-/

namespace Verif.Spec

/-- A vertex: what it is, its own name, the tensors it reads and the tensors it produces. -/
structure DVertex (T : Type) where
  kind : Kind
  own : T
  ins : List T
  outs : List T

/-- An edge from the producer of tensor `label` to a reader of it. -/
structure DEdge (T : Type) where
  src : Nat
  tgt : Nat
  label : T

/-- A graph: the vertices present, their contents, the edges, the map from tensors to producers and the contents of constant tensors. -/
structure DGraph (T V : Type) where
  verts : List Nat
  vtx : Nat → DVertex T
  edges : List (DEdge T)
  nodeOf : T → Nat
  buffer : T → V

variable {T V : Type}

/-- Graph outputs and unused outputs: they only read. -/
def Kind.IsSink (k : Kind) : Prop := k = .output ∨ k = .unused

instance (k : Kind) : Decidable k.IsSink := inferInstanceAs (Decidable (_ ∨ _))

/-- `val` is what the graph computes when operator `v` computes `sem v` and graph input `v` receives `inp v`. -/
structure Computes (g : DGraph T V) (sem : Nat → List V → List V) (inp : Nat → V) (val : T → V) : Prop where
  op : ∀ v ∈ g.verts, (g.vtx v).kind = .op → (g.vtx v).outs.map val = sem v ((g.vtx v).ins.map val)
  const : ∀ v ∈ g.verts, (g.vtx v).kind = .constant → ∀ t ∈ (g.vtx v).outs, val t = g.buffer t
  input : ∀ v ∈ g.verts, (g.vtx v).kind = .input → ∀ t ∈ (g.vtx v).outs, val t = inp v

/-- Graph output `v` delivers the value `x`. -/
def Delivers (g : DGraph T V) (val : T → V) (v : Nat) (x : V) : Prop :=
  ∃ e ∈ g.edges, e.tgt = v ∧ val e.label = x

/-- The graph is well formed: every tensor has one producer, edges and operands correspond, and `rank` orders the vertices. -/
structure DWellFormed (g : DGraph T V) (rank : Nat → Nat) : Prop where
  /-- every operand of an operator comes along an edge -/
  fed : ∀ v ∈ g.verts, (g.vtx v).kind = .op → ∀ t ∈ (g.vtx v).ins, ∃ e ∈ g.edges, e.tgt = v ∧ e.label = t
  /-- every edge joins present vertices, carries a tensor its source produces and an operator at its end reads -/
  edge : ∀ e ∈ g.edges, e.src ∈ g.verts ∧ e.tgt ∈ g.verts ∧ e.label ∈ (g.vtx e.src).outs ∧
    ((g.vtx e.tgt).kind = .op ∧ e.label ∈ (g.vtx e.tgt).ins ∨ (g.vtx e.tgt).kind.IsSink) ∧ ¬ (g.vtx e.src).kind.IsSink ∧ rank e.src < rank e.tgt
  /-- one producer per tensor -/
  single : ∀ u ∈ g.verts, ∀ v ∈ g.verts, ∀ t, t ∈ (g.vtx u).outs → t ∈ (g.vtx v).outs → u = v
  /-- the producer map is right -/
  node : ∀ v ∈ g.verts, ∀ t ∈ (g.vtx v).outs, g.nodeOf t = v
  /-- a constant vertex has one tensor, whose content is also that of the tensor with the vertex' name; no operator produces a tensor with that name -/
  constant : ∀ v ∈ g.verts, (g.vtx v).kind = .constant → (∃ t, (g.vtx v).outs = [t] ∧ g.buffer (g.vtx v).own = g.buffer t) ∧
    ∀ u ∈ g.verts, (g.vtx u).kind = .op → (g.vtx v).own ∉ (g.vtx u).outs

end Verif.Spec
