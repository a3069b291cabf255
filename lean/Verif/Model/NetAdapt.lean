import Mathlib.Data.Rat.Lemmas
import Mathlib.Algebra.Order.Field.Rat

/-!
Model of the NetAdapt search, `/repo/tinynn/prune/netadapt_pruner.py`: `find_prune_plan` 205-294 and `prune` 303-376.  Simplifications:
training and validation are the accuracy a plan gets (`Sub.acc`); `calc_flops` after masking a subgraph down to `c` channels is `Sub.flops c`;
how the subgraphs look in a round is any function of the plans taken so far; the target is computed exactly instead of in floats.
-/

namespace Verif.Model

/-- A subgraph as the search sees it: its number of output channels, the FLOPs of the model when it is masked down to a number of channels,
and the accuracy after pruning it to that number and fine-tuning. -/
structure Sub where
  channels : Nat
  flops : Nat → Int
  acc : Nat → ℚ

/-- `range(n // m * m, m - 1, -m)`, netadapt_pruner.py 219-225, for `m > 0`. -/
def candidateChannels (n m : Nat) : List Nat := (List.range (n / m)).reverse.map (fun i => (i + 1) * m)

/-- netadapt_pruner.py 235-294: the loop over the steps.  A step is a pair of successive candidates: `candidate_channels[idx]` and
`candidate_channels[idx + 1]`.  The result is the number of channels and the FLOPs reported for it. -/
def planLoop (F : Nat → Int) (target : ℚ) : Nat → Int → Option Int → Option Int → List (Nat × Nat) → Option (Nat × Int)
  | _, _, _, _, [] => none                                            -- 294
  | idx, post, some diff, poss, (_, c) :: rest =>                      -- 243-250: fast-forward
    let post := post - diff
    if ((post : Int) : ℚ) < target then some (c, post)
    else planLoop F target (idx + 1) post (some diff) poss rest
  | idx, post, none, poss, (prev, c) :: rest =>
    let next := F c                                                     -- 262
    let (diff, poss) : Option Int × Option Int :=
      if idx = 1 then
        if post % prev = 0 ∧ next % c = 0 ∧ post / prev = next / c then (some (post - next), poss)    -- 264-273
        else (none, some (post - next))                                                              -- 274-275
      else if idx = 2 then
        if some (post - next) = poss then (poss, none) else (none, poss)                             -- 276-280
      else (none, poss)
    if ((next : Int) : ℚ) < target then some (c, next)                   -- 281, 290-292
    else planLoop F target (idx + 1) next diff poss rest

/-- `find_prune_plan`, netadapt_pruner.py 205-294. -/
def findPlan (s : Sub) (m : Nat) (pre : Int) (target : ℚ) : Option (Nat × Int) :=
  let cands := candidateChannels s.channels m
  planLoop s.flops target 0 pre none none (cands.zip (cands.drop 1))

/-- `get_pruned_subgraph_info`, netadapt_pruner.py 142-203: the accuracy, and the plan if there is one; without a plan the accuracy
is -1. -/
def subInfo (m : Nat) (cur : Int) (target : ℚ) (s : Sub) : ℚ × Option (Nat × Int) :=
  match findPlan s m cur target with
  | none => (-1, none)
  | some p => (s.acc p.1, some p)

/-- Python `max(enumerate(results), key=...)`: the first of the largest; `none` is the ValueError for an empty sequence. -/
def bestOf : List (Nat × (ℚ × Option (Nat × Int))) → Option (Nat × (ℚ × Option (Nat × Int)))
  | [] => none
  | r :: rest => some (rest.foldl (fun b x => if x.2.1 > b.2.1 then x else b) r)

/-- A plan that was taken: subgraph, channels, FLOPs. -/
abbrev Step := Nat × Nat × Int

/-- How the search ends. -/
inductive NaEnd where
  /-- the loop condition became false (325-327) -/
  | done (hist : List Step) (iteration : Nat) (cur : Int)
  /-- the best result had no plan (353-355) -/
  | stuck (hist : List Step) (iteration : Nat) (cur : Int)
  /-- there was no subgraph: `max` raises -/
  | error (hist : List Step) (iteration : Nat) (cur : Int)

/-- The parameters of a search. -/
structure NaConfig where
  subs : List Step → List Sub
  minFeature : Nat
  rate : ℚ
  decay : ℚ
  budget : Int
  maxRounds : Int

/-- netadapt_pruner.py 332-334. -/
def NaConfig.target (cfg : NaConfig) (iteration : Nat) (cur : Int) : ℚ := cur - cfg.rate * cur * cfg.decay ^ (iteration - 1)

/-- netadapt_pruner.py 325-376: the main loop. -/
def naLoop (cfg : NaConfig) : Nat → List Step → Nat → Int → Option NaEnd
  | 0, _, _, _ => none
  | f + 1, hist, it, cur =>
    if (cfg.maxRounds = -1 ∨ (it : Int) ≤ cfg.maxRounds) ∧ cur > cfg.budget then
      match bestOf (((cfg.subs hist).map (subInfo cfg.minFeature cur (cfg.target it cur))).zipIdx.map (fun p => (p.2, p.1))) with
      | none => some (.error hist it cur)
      | some (_, _, none) => some (.stuck hist it cur)
      | some (i, _, some (c, fl)) => naLoop cfg f (hist ++ [(i, c, fl)]) (it + 1) fl
    else some (.done hist it cur)

end Verif.Model
