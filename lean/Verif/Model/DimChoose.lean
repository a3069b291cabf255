import Mathlib.Data.List.Sort

/-!
Model of the choice of one dimension per tensor in the channel pruner, tinynn/graph/modifier.py: `DimensionChangeInfo.is_changes_conflict` (373-387) and `merge_t` (389-395),
`Modifier.dim_choose_traversal` (955-1028), `Modifier.calc_dim_choices` (1030-1076), `ReshapeModifier.dim_choose` (1369-1410), `MatMulModifier.dim_choose` (1520-1565),
`LinearChannelModifier.dim_choose` (1705-1750) and `SubGraph.eliminate_conflict` (3187-3210).

Tensors and operators are numbers.  A dictionary from tensors is a function into `Option`; a `KeyError` is `none`.  Simplified: tensors without axes (`non_constant`) are left out; a set of
dimensions is a list without repetitions (only its members are compared); what `init_dim_mapping` would compute is data of the operator.
-/

namespace Verif.Model.DimChoose

/-- `Modifier`, 632-672, as far as the choice is concerned. -/
structure Op where
  /-- `pre_tensors()` -/
  pre : List Nat
  /-- `next_tensors()` -/
  nxt : List Nat
  /-- `dim_changes_info.tensor_changes`: for every center that reaches the tensor, the dimensions it changes -/
  changes : Nat → Option (List (List Nat))
  /-- `forward_dim_mapping[input][dim][output]` -/
  fwd : Nat → Nat → Nat → List Nat
  /-- `backward_dim_mapping[output][dim][input]` -/
  bwd : Nat → Nat → Nat → List Nat
  /-- what `init_dim_mapping()` returns -/
  mappable : Bool
  /-- `constant_node` -/
  const : Bool

/-- The operators and, for each, the pairs `(m, t)` of `for m in self.pre_modifiers(): for t in self.pre_tensors(m)` followed by those of `next_modifiers`, 999-1018. -/
structure Graph where
  op : Nat → Op
  preN : Nat → List (Nat × Nat)
  nextN : Nat → List (Nat × Nat)

/-- `modifiers` and `tensor_choices`. -/
structure State where
  mods : List Nat
  choice : Nat → Option (List Nat)

/-- `dict.update`. -/
def update (f : Nat → Option (List Nat)) : List (Nat × List Nat) → Nat → Option (List Nat)
  | [] => f
  | (k, v) :: r => update (fun x => if x = k then some v else f x) r

/-- `del tensor_choices[k]` for the keys of `cur` that are there, 1022-1024. -/
def remove (f : Nat → Option (List Nat)) (cur : List (Nat × List Nat)) : Nat → Option (List Nat) :=
  fun x => if x ∈ cur.map Prod.fst then none else f x

/-- The union of sets of dimensions. -/
def union (l : List (List Nat)) : List Nat := l.flatten.dedup

/-- `calc_dim_choices`, 1030-1076. -/
def calcDims (o : Op) (t : Nat) (c : List Nat) : Option (List (Nat × List Nat)) :=
  if !o.mappable then some []
  else if t ∈ o.pre then
    if c = [] then some [] else some (o.pre.map (fun u => (u, c)) ++ o.nxt.map (fun u => (u, union (c.map (fun d => o.fwd t d u)))))
  else if t ∈ o.nxt then
    if c = [] then some [] else some (o.nxt.map (fun u => (u, c)) ++ o.pre.map (fun u => (u, union (c.map (fun d => o.bwd t d u)))))
  else none

/-- The loop of `is_changes_conflict`, 377-387. -/
def conflictLoop (o : Op) : List (Nat × List Nat) → Option Bool
  | [] => some false
  | (u, c) :: r => match o.changes u with
    | none => none
    | some cs => if c.all (fun d => d ∈ cs.flatten) then conflictLoop o r else some true

/-- `is_changes_conflict`, 373-387. -/
def conflict (o : Op) (cur : List (Nat × List Nat)) : Option Bool :=
  if cur = [] ∧ ∃ u ∈ o.pre ++ o.nxt, (o.changes u).isSome then some true else conflictLoop o cur

/-- The loops over the neighbours, 998-1018. -/
def visit (rec : State → Nat → Nat → Option (Bool × State)) (st : State) : List (Nat × Nat) → Option (Bool × State)
  | [] => some (true, st)
  | (m, t) :: r => match st.choice t with
    | none => visit rec st r
    | some _ => match rec st m t with
      | none => none
      | some (false, st') => some (false, st')
      | some (true, st') => visit rec st' r

/-- `dim_choose_traversal`, 955-1028.  The first argument bounds the depth of the recursion. -/
def traverse (G : Graph) : Nat → State → Nat → Nat → Option (Bool × State)
  | 0, _, _, _ => none
  | fuel + 1, st, m, t =>
    if m ∈ st.mods then some (true, st)
    else if (G.op m).const then some (true, st)
    else match st.choice t, (G.op m).changes t with
      | some c, some cs =>
        if cs.all (fun x => x = c) then some (true, st)
        else match calcDims (G.op m) t c with
          | none => none
          | some cur =>
            if cur = [] ∧ c ≠ [] then some (true, st)
            else match conflict (G.op m) cur with
              | none => none
              | some true => some (false, st)
              | some false =>
                match visit (traverse G fuel) ⟨st.mods ++ [m], update st.choice cur⟩ (G.preN m ++ G.nextN m) with
                | none => none
                | some (true, st') => some (true, st')
                | some (false, st') => some (false, ⟨st'.mods.erase m, remove st'.choice cur⟩)
      | _, _ => none

/-- `merge_t`, 389-395 (sorted). -/
def mergeT (cs : List (List Nat)) : List Nat := (union cs).insertionSort (· ≤ ·)

/-- One side of a `dim_choose`: the traversal is started at the operators on one tensor, without looking whether it has a choice (1390-1393). -/
def start (G : Graph) (fuel : Nat) (st : State) (t : Nat) : List Nat → Option (Bool × State)
  | [] => some (true, st)
  | m :: r => match traverse G fuel st m t with
    | none => none
    | some (false, st') => some (false, st')
    | some (true, st') => start G fuel st' t r

/-- Both sides, 1389-1399. -/
def startBoth (G : Graph) (fuel : Nat) (st : State) (ti tq : Nat) (before after : List Nat) : Option (Bool × State) :=
  match start G fuel st ti before with
  | some (true, st') => start G fuel st' tq after
  | r => r

/-- The operators on a tensor before and behind an operator: `pre_modifiers(edge)`, `next_modifiers(edge)`, 767-789. -/
def onEdge (l : List (Nat × Nat)) (t : Nat) : List Nat := (l.filter (fun p => p.2 = t)).map Prod.fst

/-- The loop of `ReshapeModifier.dim_choose`, 1376-1407, over the dimensions in the order tried. `size` is the shape of the input. -/
def reshapeLoop (G : Graph) (fuel m ti tq : Nat) (size : Nat → Nat) (choice : Nat → Option (List Nat)) : List Nat → Option (Bool × (Nat → Option (List Nat)))
  | [] => some (false, choice)
  | d :: r =>
    if size d ≤ 2 then reshapeLoop G fuel m ti tq size choice r
    else
      match startBoth G fuel ⟨[m], update choice [(ti, [d]), (tq, (G.op m).fwd ti d tq)]⟩ ti tq (onEdge (G.preN m) ti) (onEdge (G.nextN m) tq) with
      | none => none
      | some (true, st) => some (true, st.choice)
      | some (false, st) => reshapeLoop G fuel m ti tq size (remove st.choice [(ti, []), (tq, [])]) r

/-- `ReshapeModifier.dim_choose`, 1369-1410. -/
def reshapeChoose (G : Graph) (fuel m ti tq : Nat) (size : Nat → Nat) (choice : Nat → Option (List Nat)) : Option (Bool × (Nat → Option (List Nat))) :=
  match (choice ti).or (((G.op m).changes ti).map mergeT) with
  | none => none
  | some dims => if dims.length > 1 then reshapeLoop G fuel m ti tq size choice (dims.insertionSort (· ≤ ·)).reverse else some (true, choice)

/-- The loop of `MatMulModifier.dim_choose` over the dimensions of one operand, 1531-1557.  `t` is the operand, `t0` the first operand: the operators before the *first* operand are visited
whichever operand is being looked at (1537-1538), and both choices are deleted when the attempt fails (1556-1557), the second of which need not be there.  The first operand has an
operator before it (with none, `valid` would keep its value from the attempt before). -/
def matmulLoop (G : Graph) (fuel m t t0 tq : Nat) (choice : Nat → Option (List Nat)) : List Nat → Option (Bool × (Nat → Option (List Nat)))
  | [] => some (false, choice)
  | d :: r =>
    match start G fuel ⟨[m], update choice [(t, [d])]⟩ t0 (onEdge (G.preN m) t0) with
    | none => none
    | some (v, st) =>
      let many : Bool := decide (((((G.op m).changes tq).map mergeT).getD []).length > 1)
      let r1 : Option (Bool × State) := if many then
          let st1 : State := ⟨st.mods, update st.choice [(tq, (G.op m).fwd t d tq)]⟩
          if v then start G fuel st1 tq (onEdge (G.nextN m) tq) else some (v, st1)
        else some (v, st)
      match r1 with
      | none => none
      | some (true, st2) => some (true, st2.choice)
      | some (false, st2) => if (st2.choice t).isSome ∧ (st2.choice tq).isSome then matmulLoop G fuel m t t0 tq (remove st2.choice [(t, []), (tq, [])]) r else none

/-- `MatMulModifier.dim_choose`, 1520-1565: first the one operand, then the other. -/
def matmulChoose (G : Graph) (fuel m t0 t1 tq : Nat) (choice : Nat → Option (List Nat)) : Option (Bool × (Nat → Option (List Nat))) :=
  let one := fun (t : Nat) (choice : Nat → Option (List Nat)) =>
    match (choice t).or (((G.op m).changes t).map mergeT) with
    | none => none
    | some dims => if dims.length > 1 then matmulLoop G fuel m t t0 tq choice (dims.insertionSort (· ≤ ·)) else some (true, choice)
  match one t0 choice with
  | some (true, choice') => one t1 choice'
  | r => r

/-- `eliminate_conflict`, 3198-3206: what is recorded for a tensor of an operator once the choices have been made. -/
def recorded (choice : Nat → Option (List Nat)) (o : Op) (t : Nat) : Option (List Nat) := (choice t).or ((o.changes t).map mergeT)

end Verif.Model.DimChoose
