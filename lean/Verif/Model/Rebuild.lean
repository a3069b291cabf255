import Verif.Spec.Rebuild
import Mathlib.Data.List.Sort

/-!
Model of how passes replace operators (`/repo/tinynn/converter/operators/optimize.py`: `split_requantize` 658-704, `transform_graph` 706-745, `fuse_bmm_add_pass` 2569-2645, `lower_transpose_dim_pass`
2648-2743, `group_conv_rewrite_pass` 2746-2838, `group_deconv_rewrite_pass` 2841-2934, `cat_split_pass` 2937-3010), with `add_nodes`, `add_node`, `add_outputs`, `add_operator` and `try_restore_edges` of
`/repo/tinynn/converter/operators/graph.py` 116-260.  `own` is `tensor_node_map`; tensors are named by numbers, so that `tensor_map` and the checks that a name means the same tensor are left out.  Names
of output vertices are left out too.  `none` is an exception.
-/

namespace Verif.Model.Rebuild
open Verif.Spec.Rebuild

/-- `add_nodes` for one operand (graph.py 142-155): an unknown tensor becomes a constant. -/
def ownIn (g : G) (t : ℕ) : Name := (g.own t).getD (.leaf t)

/-- `add_operator` (graph.py 228-244). -/
def addOperator (g : G) (o : Op) : G :=
  { g with
    ops := g.ops ++ [(g.next, o)]
    edges := g.edges ++ o.ins.map fun t => (ownIn g t, g.next, t)
    outNodes := g.outNodes ++ (g.outputs.dedup.filter (· ∈ o.outs)).map fun t => (.op g.next, t)
    own := fun t => if t ∈ o.outs then some (.op g.next) else if t ∈ o.ins then some (ownIn g t) else g.own t
    next := g.next + 1 }

/-- `try_restore_edges` (graph.py 246-260). -/
def restore (g : G) : List (ℕ × ℕ) → Option G
  | [] => some g
  | (t, n) :: l =>
    if n ∈ g.ops.map Prod.fst then
      match g.own t with
      | none => none
      | some s => restore { g with edges := g.edges ++ [(s, n, t)] } l
    else restore g l

/-- A replacement: the operator whose result is kept, others that go with it (the matrix product of `fuse_bmm_add_pass`) and the new operators in order. -/
structure Item where
  main : ℕ
  also : List ℕ
  new : List Op

/-- The connections that are to be restored (optimize.py 2661-2671 and the like). -/
def mapping (g : G) (i : Item) : List (ℕ × ℕ) := (g.edges.filter fun e => e.1 = .op i.main).map fun e => (e.2.2, e.2.1)

/-- The tensors an operator writes. -/
def writes (g : G) (n : ℕ) : List ℕ := match g.ops.lookup n with
  | some o => o.outs
  | none => []

/-- Removing the operators (optimize.py 2671-2683): output vertices go with them, the producers of their results are forgotten. -/
def remove (g : G) (is : List Item) : G :=
  let gone := is.flatMap fun i => i.main :: i.also
  { g with
    ops := g.ops.filter fun v => v.1 ∉ gone
    edges := g.edges.filter fun e => (∀ d ∈ gone, e.1 ≠ .op d) ∧ e.2.1 ∉ gone
    outNodes := g.outNodes.filter fun e => ∀ i ∈ is, e.1 ≠ .op i.main
    own := fun t => if t ∈ is.flatMap (fun i => writes g i.main) then none else g.own t }

/-- Adding the new operators of one replacement and restoring connections (2638-2645). -/
def build (g : G) (new : List Op) (m : List (ℕ × ℕ)) : Option G := restore (new.foldl addOperator g) m

/-- All replacements, with the connections that go with each. -/
def builds (g : G) : List (List Op × List (ℕ × ℕ)) → Option G
  | [] => some g
  | (new, m) :: l => (build g new m).bind fun g' => builds g' l

/-- A pass: `is` in the order in which they were selected; they are replaced in the order of their numbers. -/
def rebuild (g : G) (is : List Item) : Option G :=
  builds (remove g is) (((is.insertionSort fun a b => a.main ≤ b.main).map Item.new).zip (is.map (mapping g)))

/-- `split_requantize` (658-704): the list of new operators is not emptied. -/
def rebuildMore (g : G) (is : List Item) : Option G :=
  let new := (is.insertionSort fun a b => a.main ≤ b.main).map Item.new
  builds (remove g is) (((List.range new.length).map fun k => (new.take (k + 1)).flatten).zip (is.map (mapping g)))

end Verif.Model.Rebuild
