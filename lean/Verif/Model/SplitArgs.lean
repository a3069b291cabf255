import Verif.Spec.SplitArgs

/-!
Model of `SplitModifier` (`/repo/tinynn/graph/modifier.py` 1280-1343, used for `split` by 2545): the sizes written into a call of `split` after channels have been removed.
Tensors are known by their content, since `torch.equal` compares contents (1295).
Not modelled: the text of the arguments (`args_parsed`, `get_split_dim`, 1301-1309 and 1343).
-/

namespace Verif.Model.SplitArgs

/-- A node that reads chunks: its name and the contents of its operands, `node.next_nodes` and `prev_tensors` (`modifier.py` 1293-1294). -/
structure Reader where
  name : ℕ
  reads : List ℕ

/-- Assignment to an `OrderedDict`: a key keeps its place (`modifier.py` 1287, 1296). -/
def assign (d : List (ℕ × ℕ × ℕ)) (k : ℕ) (v : ℕ × ℕ) : List (ℕ × ℕ × ℕ) :=
  if d.any (fun e => e.1 = k) then d.map fun e => if e.1 = k then (k, v) else e else d ++ [(k, v)]

/-- `self.split_dict` (`modifier.py` 1290-1297) for chunks given by size and content. -/
def splitDict (readers : List Reader) : ℕ → List (ℕ × ℕ) → List (ℕ × ℕ × ℕ) → List (ℕ × ℕ × ℕ)
  | _, [], d => d
  | start, (n, t) :: chunks, d =>
    splitDict readers (start + n) chunks (readers.foldl (fun d r => r.reads.foldl (fun d t' => if t = t' then assign d r.name (start, start + n) else d) d) d)

/-- `ch_new` (`modifier.py` 1319-1328). -/
def newSizes (removed : List ℕ) (d : List (ℕ × ℕ × ℕ)) : List ℕ := d.map fun e => ((List.range' e.2.1 (e.2.2 - e.2.1)).filter fun i => i ∉ removed).length

/-- `apply_mask` for a list of sizes (`modifier.py` 1317-1334), whose sizes are those of the chunks; `none` is an `IndexError`. -/
def applyList (removed : List ℕ) (readers : List Reader) (chunks : List (ℕ × ℕ)) : Option (List ℕ) :=
  let ch := newSizes removed (splitDict readers 0 chunks [])
  if ch.length < chunks.length then none else some (List.zipWith min (chunks.map Prod.fst) ch)

/-- `apply_mask` for one size (`modifier.py` 1299, 1335-1337). -/
def applyNumber (removed : List ℕ) (sizes : List ℕ) : ℕ := sizes.getD 0 0 - removed.length / sizes.length

end Verif.Model.SplitArgs
