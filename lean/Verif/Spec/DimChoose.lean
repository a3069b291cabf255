import Verif.Model.DimChoose

/-!
What a good choice of dimensions is: one dimension per tensor, such that every operator takes the dimension of each of its inputs to the dimension of each of its outputs and back.
-/

namespace Verif.Spec.DimChoose
open Verif.Model.DimChoose

/-- The tensors of an operator. -/
def tensors (o : Op) : List Nat := o.pre ++ o.nxt

/-- The dimensions `g` fit together at the operator `o`. -/
structure Fits (o : Op) (g : Nat → Nat) : Prop where
  inputs : ∀ t ∈ o.pre, ∀ u ∈ o.pre, g t = g u
  outputs : ∀ t ∈ o.nxt, ∀ u ∈ o.nxt, g t = g u
  forward : ∀ t ∈ o.pre, ∀ u ∈ o.nxt, o.fwd t (g t) u = [g u]
  backward : ∀ t ∈ o.nxt, ∀ u ∈ o.pre, o.bwd t (g t) u = [g u]

/-- Some center does change dimension `g u` of `u`, as far as the operator knows, for all its tensors. -/
def Possible (o : Op) (g : Nat → Nat) : Prop := ∀ u ∈ tensors o, ∃ cs, o.changes u = some cs ∧ ∃ c ∈ cs, g u ∈ c

/-- Neighbours share the tensor they are neighbours by, and belong to the graph. -/
def Wired (G : Graph) (ops : List Nat) : Prop :=
  ∀ m ∈ ops, (∀ p ∈ G.preN m, p.1 ∈ ops ∧ p.2 ∈ (G.op m).pre ∧ p.2 ∈ (G.op p.1).nxt) ∧ (∀ p ∈ G.nextN m, p.1 ∈ ops ∧ p.2 ∈ (G.op m).nxt ∧ p.2 ∈ (G.op p.1).pre)

/-- Nothing is left to do at operator `m` for tensor `t`: the choice has been carried over to its other tensors, or it needs none. -/
def Settled (G : Graph) (g : Nat → Nat) (done : List Nat) (m t : Nat) : Prop :=
  m ∈ done ∨ (G.op m).const = true ∨ (G.op m).mappable = false ∨ ∀ cs, (G.op m).changes t = some cs → ∀ c ∈ cs, c = [g t]

/-- The result of a search that went well. -/
structure Good (G : Graph) (g : Nat → Nat) (ops : List Nat) (st st' : State) : Prop where
  grow : ∀ x ∈ st.mods, x ∈ st'.mods
  inside : ∀ x ∈ st'.mods, x ∉ st.mods → x ∈ ops
  value : ∀ u, st'.choice u = st.choice u ∨ st'.choice u = some [g u]
  frame : ∀ u, (∀ x ∈ st'.mods, x ∉ st.mods → u ∉ tensors (G.op x)) → st'.choice u = st.choice u
  carried : ∀ x ∈ st'.mods, x ∉ st.mods → ∀ u ∈ tensors (G.op x), st'.choice u = some [g u]
  closed : ∀ x ∈ st'.mods, x ∉ st.mods → ∀ p ∈ G.preN x ++ G.nextN x, Settled G g st'.mods p.1 p.2

/-- Dimensions `c` of tensor `t` are acceptable to the operator: what it makes of them for all its tensors are dimensions some pruned layer does change. -/
def Admits (o : Op) (t : Nat) (c : List Nat) : Prop :=
  ∃ cur, calcDims o t c = some cur ∧ (∀ u ∈ tensors o, u ∈ cur.map Prod.fst) ∧ ∀ p ∈ cur, ∃ cs, o.changes p.1 = some cs ∧ ∀ d ∈ p.2, d ∈ cs.flatten

/-- The operator has been asked, or there is nothing to ask: it is constant, has no mapping, or all centers agree on the tensor. -/
def Asked (G : Graph) (done : List Nat) (m t : Nat) : Prop :=
  m ∈ done ∨ (G.op m).const = true ∨ (G.op m).mappable = false ∨ ∃ cs c, (G.op m).changes t = some cs ∧ ∀ x ∈ cs, x = c

/-- What success means: every operator visited accepts, and all its neighbours have been asked. -/
structure Accepted (G : Graph) (ops : List Nat) (st st' : State) : Prop where
  grow : ∀ x ∈ st.mods, x ∈ st'.mods
  kept : ∀ u, (st.choice u).isSome = true → (st'.choice u).isSome = true
  accepts : ∀ x ∈ st'.mods, x ∉ st.mods → x ∈ ops ∧ ∃ t c, t ∈ tensors (G.op x) ∧ Admits (G.op x) t c
  asked : ∀ x ∈ st'.mods, x ∉ st.mods → ∀ p ∈ G.preN x ++ G.nextN x, Asked G st'.mods p.1 p.2

/-- How many operators have not been visited. -/
def left (ops : List Nat) (st : State) : Nat := (ops.filter (fun x => !decide (x ∈ st.mods))).length

end Verif.Spec.DimChoose
