import Verif.Spec.PruneConfig

/-!
Model of how `OneShotChannelPruner` (`tinynn/prune/oneshot_pruner.py`) reads its configuration and writes it back.  Dictionaries are association lists
(the first entry of a key counts); the configuration object after the call is returned, because it is the object of the caller.
-/

namespace Verif.Model.PruneConfig
open Verif.Spec.PruneConfig

/-- The value under `sparsity`. -/
inductive Sparsity
  | num (q : ℚ)
  | dict (d : List (String × ℚ))
  | other
  deriving DecidableEq

/-- The configuration: `none` is a missing key.  -/
structure Config where
  sparsity : Option Sparsity
  metrics : Option String
  skipLastFc : Option Bool
  excludeOps : Option (List String)
  deriving DecidableEq

/-- The pruner: rates by name, the default, the operations to prune, and for every subgraph whether it is skipped. -/
structure Pruner where
  rates : List (String × ℚ)
  dflt : ℚ
  centers : List Op
  skip : List Bool
  deriving DecidableEq

/-- `d[k] = v`. -/
def put (d : List (String × ℚ)) (k : String) (v : ℚ) : List (String × ℚ) := (k, v) :: d.filter fun e => e.1 != k

/-- `d.update(e)`. -/
def update (d e : List (String × ℚ)) : List (String × ℚ) := e.foldr (fun x acc => put acc x.1 x.2) d

/-- `del d[k]`. -/
def del (d : List (String × ℚ)) (k : String) : List (String × ℚ) := d.filter fun e => e.1 != k

/-- `BasePruner.parse_config` (base_pruner.py:62-101) for the required keys, and `OneShotChannelPruner.parse_config` (oneshot_pruner.py:87-125): default rate, rates
given by name, and the configuration afterwards.  `known` are the functions of `modifier`. -/
def parse (known : String → Bool) (c : Config) : Except String (ℚ × List (String × ℚ) × Config) :=
  match c.sparsity, c.metrics with
  | none, _ => .error "Missing param"
  | _, none => .error "Missing param"
  | some .other, _ => .error "type"
  | some (.num q), some m => if known m then .ok (q, [], c) else .error "metrics"
  | some (.dict d), some m =>
    match d.lookup "default" with
    | none => .error "Please specify a default sparsity"
    | some q => if known m then .ok (q, update [] (del d "default"), { c with sparsity := some (.dict (del d "default")) }) else .error "metrics"

/-- The test of the loop (oneshot_pruner.py:52-59). -/
def isCenter (o : Op) : Bool :=
  (decide (o.kind ∈ [.conv2d, .convTranspose2d, .conv1d, .convTranspose1d]) && !o.dw) || decide (o.kind ∈ [Kind.linear]) ||
    (decide (o.kind ∈ [Kind.rnn, .gru, .lstm]) && decide (o.reads = 1))

/-- The loop (oneshot_pruner.py:50-62): operations to prune and their rates. -/
def collect (dflt : ℚ) (test : Op → Bool) : List Op → List Op × List (String × ℚ) → List Op × List (String × ℚ)
  | [], s => s
  | o :: ops, (cs, r) =>
    if test o then collect dflt test ops (cs ++ [o], if (r.lookup o.name).isSome then r else put r o.name dflt)
    else collect dflt test ops (cs, r)

/-- The name of a kind, as `exclude_ops` lists them. -/
def kindName : Kind → String
  | .conv1d => "Conv1d" | .conv2d => "Conv2d" | .convTranspose1d => "ConvTranspose1d" | .convTranspose2d => "ConvTranspose2d"
  | .linear => "Linear" | .rnn => "RNN" | .gru => "GRU" | .lstm => "LSTM" | .other n => n

/-- Whether a subgraph is left out (oneshot_pruner.py:79-92). -/
def excluded (exclude : List String) (sub : List Op) : Bool :=
  sub.any fun o => exclude.contains (kindName o.kind) || (decide (o.kind ∈ [Kind.rnn, .gru, .lstm]) && decide (1 < o.reads))

/-- `__init__` (oneshot_pruner.py:31-92).  `subs` are the subgraphs of the dependency analysis; `self.exclude_ops` is the list of the configuration, so the appended
`'weight'` ends up there. -/
def construct (known : String → Bool) (c : Config) (ops : List Op) (subs : List (List Op)) : Except String (Pruner × Config) :=
  match parse known c with
  | .error e => .error e
  | .ok (dflt, given, c') =>
    let (centers, rates) := collect dflt isCenter ops ([], given)
    match centers.getLast? with
    | none => .error "No operations to prune"
    | some last =>
      let rates :=
        if c.skipLastFc.getD true && decide (last.kind = .linear) then
          if rates.lookup last.name = some dflt then put rates last.name 0 else rates
        else rates
      .ok (⟨rates, dflt, centers, subs.map (excluded (c.excludeOps.getD [] ++ ["weight"]))⟩, { c' with excludeOps := c.excludeOps.map (· ++ ["weight"]) })

/-- `generate_config` (oneshot_pruner.py:172-180): the configuration that is written; reading the file back gives the same value. -/
def generateConfig (p : Pruner) (c : Config) : Config := { c with sparsity := some (.dict (update [("default", p.dflt)] p.rates)) }

/-- The test of the loop in `reset` (oneshot_pruner.py:188). -/
def isCenterReset (o : Op) : Bool := (decide (o.kind ∈ [Kind.conv2d, .convTranspose2d]) && !o.dw) || decide (o.kind ∈ [Kind.linear])

/-- `reset` (oneshot_pruner.py:182-193), which `calc_flops` runs after pruning (base_pruner.py:189-190): new operations and subgraphs; no subgraph of the new graph
modifier is skipped (modifier.py:2583). -/
def reset (p : Pruner) (ops : List Op) (subs : List (List Op)) : Pruner :=
  let (centers, rates) := collect p.dflt isCenterReset ops ([], p.rates)
  ⟨rates, p.dflt, centers, subs.map fun _ => false⟩

end Verif.Model.PruneConfig
