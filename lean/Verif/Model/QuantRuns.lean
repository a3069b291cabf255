import Verif.Spec.QuantRuns
import Verif.Model.Fusable
/-!
Model of the files and of the configuration of layers in `quantize()`, tinynn/graph/quantization/quantizer.py 459-535 and the parts of `rewrite_quantize_graph` 1529-2987 that read or change `self.layerwise_config`.
-/

namespace Verif.Model.QuantRuns
open Verif.Spec.QuantRuns Verif.Spec.FuseNet Verif.Model.Fusable

/-- `config.get(n, True)`; the order of entries is not modelled. -/
def getD (c : Conf) (n : String) : Bool := (c.lookup n).getD true

/-- `config.setdefault(n, b)` -/
def setdefault (c : Conf) (n : String) (b : Bool) : Conf := if (c.lookup n).isSome then c else (n, b) :: c

/-- `del config[n]`, if present. -/
def del (c : Conf) (n : String) : Conf := c.filter fun e => e.1 != n

/-- `config[n] = b` -/
def assign (c : Conf) (n : String) (b : Bool) : Conf := (n, b) :: del c n

/-- `_is_not_quantizable` 2667-2695; the entries it deletes are those of the nodes it answers `False` for before it looks at the configuration. -/
def notQuantizable (c : Conf) (x : CNode) : Bool :=
  if x.fixed || x.stub || x.shapeLike then false
  else if getD c x.node.name = false then true
  else !x.supported

/-- The nodes as `is_fusable` sees them with `check_node_quantized=False` 3011-3014: a node counts only if its entry is not `False`, and a missing entry is `False`. -/
def seen (c : Conf) (nodes : List CNode) : Net := nodes.map fun x => { x.node with quantized := (c.lookup x.node.name).getD false }

/-- 1555-1557: the default for the nodes of the given model. -/
def withDefault (deflt : Bool) (orig : List String) (c : Conf) : Conf := if deflt = false then orig.foldl (fun c n => setdefault c n false) c else c

/-- 2541-2544 -/
def listed (nodes : List CNode) (c : Conf) : Conf := nodes.foldl (fun c x => if x.stub then c else setdefault c x.node.name true) c

/-- 2550-2576: the groups of layers that are fused, and the entries of their members. -/
def groupsOf (fused : Bool) (rules : List (List String)) (nodes : List CNode) (c : Conf) : List (List String) := if fused then (quantList (seen c nodes) rules (List.range nodes.length)).reverse else []

def spread (groups : List (List String)) (c : Conf) : Conf :=
  groups.foldl (fun c g => match g with
    | [] => c
    | h :: t => t.foldl (fun c n => assign c n (getD c h)) c) c

/-- 2667-2702: entries deleted when looking for nodes that cannot be quantized. -/
def dropped (nodes off : List CNode) (c : Conf) : Conf :=
  off.foldl (fun c x => if x.skip = false ∧ c.lookup x.node.name = some true then del c x.node.name else c) ((nodes.filter (·.shapeLike)).foldl (fun c x => del c x.node.name) c)

/-- What `rewrite_quantize_graph` does with the configuration.  `passes` are the rewritings 1559-2540, which see the configuration through `get(name, True)` only; `targets` are the neighbours for which
2804 sets a default.  The result: the configuration that is written, the nodes, and the nodes kept in floating point. -/
def rewrite (passes : (String → Bool) → List CNode) (targets : List CNode → List CNode → List String) (fused : Bool) (rules : List (List String)) (orig : List String) (deflt : Bool) (c : Conf) :
    Except Err (Conf × List CNode × List CNode) :=
  let c1 := withDefault deflt orig c
  let nodes := passes (getD c1)
  let c2 := listed nodes c1
  let groups := groupsOf fused rules nodes c2
  let c3 := spread groups c2
  let off := nodes.filter (notQuantizable c3)
  let c4 := dropped nodes off c3
  let c5 := (targets nodes off).foldl (fun c n => setdefault c n true) c4
  let c6 := (groups.flatMap List.tail).foldl del c5
  if c6.all fun e => decide (e.1 ∈ nodes.map (·.node.name)) then .ok (c6, nodes, off) else .error .keyError

/-- 487-489: the entry `default` is taken out of the configuration. -/
def takeDefault (c : Conf) : Bool × Conf := ((c.lookup "default").getD true, del c "default")

/-- The options: `force_overwrite`, `remove_weights_after_load`, `ignore_layerwise_config` and the configuration given to the constructor. -/
structure Opts where
  force : Bool
  remove : Bool
  ignore : Bool
  conf : Conf

variable {M C W : Type}

def File.there {α : Type} : File α → Bool
  | .missing => false
  | _ => true

/-- 481-485: the configuration that is used; an empty file loads as `None`, on which `in` fails. -/
def loadConf (o : Opts) (fs : FS C W) : Except Err Conf :=
  if o.conf.isEmpty && !o.ignore then
    match fs.config with
    | .missing => .ok o.conf
    | .cut => .error .noneType
    | .full c => .ok c
  else .ok o.conf

/-- 514-521: importing the code and loading the weights. -/
def importModel (fs : FS C W) : Except Err (C × W) :=
  match fs.code with
  | .full c => match fs.weights with
    | .full w => .ok (c, w)
    | _ => .error .badWeights
  | _ => .error .badCode

/-- The states of the files while they are written: `generate_code` (tracer.py 2455-2483) saves the weights, removes the old code and writes the new one; then the configuration is written (506-508). -/
def writes (gen : Option (C × W)) (conf : Conf) (fs : FS C W) : List (FS C W) :=
  match gen with
  | none => [{ fs with config := .cut }, { fs with config := .full conf }]
  | some (c, w) =>
    [{ fs with weights := .cut }, { fs with weights := .full w }, { fs with weights := .full w, code := .missing }, { fs with weights := .full w, code := .cut },
      { fs with weights := .full w, code := .full c }, { code := .full c, weights := .full w, config := .cut }, { code := .full c, weights := .full w, config := .full conf }]

/-- `quantize` 459-535 (without `inplace`, with `rewrite_graph`) up to the second trace: every state of the files it goes through, at each of which it may be interrupted, and its result. `gen` is tracing,
rewriting and generating code: it gives the configuration afterwards, the code and the weights. -/
def quantize (gen : M → Bool → Conf → Except Err (Conf × C × W)) (o : Opts) (m : M) (fs : FS C W) : List (FS C W) × Except Err (C × W) :=
  match loadConf o fs with
  | .error e => ([fs], .error e)
  | .ok conf =>
    let deflt := (takeDefault conf).1
    let conf := (takeDefault conf).2
    if o.force || !File.there fs.code || !File.there fs.weights then
      match gen m deflt conf with
      | .error e => ([fs], .error e)
      | .ok (conf', c, w) =>
        let fs' : FS C W := { code := .full c, weights := .full w, config := .full conf' }
        (fs :: writes (some (c, w)) conf' fs ++ (if o.remove then [{ fs' with weights := .missing }] else []), importModel fs')
    else
      let fs' : FS C W := { fs with config := .full conf }
      match importModel fs' with
      | .error e => (fs :: writes none conf fs, .error e)
      | .ok r => (fs :: writes none conf fs ++ (if o.remove then [{ fs' with weights := .missing }] else []), .ok r)

end Verif.Model.QuantRuns
