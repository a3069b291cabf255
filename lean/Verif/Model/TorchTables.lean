/-!
Model of the changes that the quantizers make to tables and classes of PyTorch itself
(`/repo/tinynn/graph/quantization/quantizer.py`):

  QATQuantizer.prepare_qat     978-1014   (for PyTorch 1.13 and later; earlier versions change nothing)
  PostQuantizer.prepare_qat    3826-3868
  QATQuantizer.convert         3281-3298  (also used by PostQuantizer, where it changes nothing, 3297-3298)

PyTorch's own functions `add_observer_` and `convert` are the events "returns" or "raises".  Not modelled: what they do to the model.
`GRU.from_float = gru.from_float` (990) sets an attribute of this library's own class.
-/

namespace Verif.Model.TorchTables

/-- The function `no_observer_set` of PyTorch, or what it was replaced with by `patch_observer_set` (992-996, 3843-3847): a closure
that calls the function it was given and adds its own classes. -/
inductive Fn (C : Type) where
  | orig (s : List C)
  | patched (extra : List C) (inner : Fn C)
deriving DecidableEq

/-- Calling the function with room for `frames` further frames on Python's stack; `none` is `RecursionError`. -/
def Fn.call {C : Type} : Nat → Fn C → Option (List C)
  | 0, _ => none
  | _ + 1, .orig s => some s
  | n + 1, .patched e f => (f.call n).map (e ++ ·)

/-- What is shared by everything in the process: the attribute `from_float` of `torch.ao.nn.quantizable.LSTM`, the function
`no_observer_set` of `torch.ao.quantization.quantize` (`torch.quantization.quantization_mappings` before 1.10), the dictionary
`float_to_observed_custom_module_class` that `get_default_custom_config_dict()` returns without copying it, and the attribute
`_FLOAT_MODULE` of the quantized classes (`none`: the class has no such attribute). -/
structure Globals (C : Type) where
  fromFloat : C
  noObs : Fn C
  custom : C → Option C
  floatMod : C → Option C

/-- `LooseVersion(torch.__version__)` as far as it is looked at: before 1.8, 1.8, 1.9 to 1.12, 1.13 and later. -/
inductive Ver where
  | lt18 | v18 | v19 | v113
deriving DecidableEq

/-- The constants of the library: `lstm.from_float` (987-989), `FUSE_QAT_MODULES_CUSTOM` and `FUSE_PTQ_MODULES_CUSTOM` (132-139, which
are equal) and `FUSE_QAT_MODULES_CVT` (141-148). -/
structure Lib (C : Type) where
  lstmFromFloat : C
  custom : List (C × C)
  cvt : List (C × C)

variable {C : Type} [DecidableEq C]

/-- `dict.update`. -/
def update (m : C → Option C) (d : List (C × C)) : C → Option C := fun k => (d.lookup k).or (m k)

/-- The call of PyTorch's `add_observer_`: it raises when `raises`, or when it asks `no_observer_set` (it does when the model has a
custom module, `asks`) and the stack overflows. -/
def observed (frames : Nat) (raises asks : Bool) (f : Fn C) : Bool := !raises && (!asks || (f.call frames).isSome)

/-- `QATQuantizer.prepare_qat`, 978-1014.  Lines 1013-1014 are not reached if `add_observer_` raises; there is no `finally`. -/
def prepareQat (l : Lib C) (v : Ver) (frames : Nat) (raises asks : Bool) (g : Globals C) : Globals C :=
  if v = .v113 then
    let g1 := { g with custom := update g.custom l.custom, fromFloat := l.lstmFromFloat,
                       noObs := .patched (l.custom.map (·.2)) g.noObs }
    if observed frames raises asks g1.noObs then { g1 with fromFloat := g.fromFloat, noObs := g.noObs } else g1
  else g

/-- `PostQuantizer.prepare_qat`, 3826-3868.  Nothing puts `no_observer_set` back.  Before 1.13 the dictionary is a new one (3834-3836). -/
def preparePtq (l : Lib C) (v : Ver) (g : Globals C) : Globals C :=
  { g with
    custom := if v = .v113 then update g.custom l.custom else g.custom
    noObs := if v = .v113 ∨ v = .v19 then .patched (l.custom.map (·.2)) g.noObs else g.noObs }

/-- 3285-3289: one iteration; the state is the attribute `_FLOAT_MODULE` of the classes and the dictionary `float_mods`. -/
def cvtStep (s : (C → Option C) × (C → Option C)) (item : C × C) : (C → Option C) × (C → Option C) :=
  match s.1 item.2 with
  | some f => (fun c => if c = item.2 then some item.1 else s.1 c, fun c => if c = item.2 then some f else s.2 c)
  | none => s

/-- 3283-3289. -/
def cvtPatch (l : Lib C) (m : C → Option C) : (C → Option C) × (C → Option C) := l.cvt.foldl cvtStep (m, fun _ => none)

/-- `QATQuantizer.convert`, 3281-3296; 3293-3294 are not reached if `torch.quantization.convert` raises. -/
def convertQat (l : Lib C) (raises : Bool) (g : Globals C) : Globals C :=
  let p := cvtPatch l g.floatMod
  if raises then { g with floatMod := p.1 } else { g with floatMod := fun c => (p.2 c).or (p.1 c) }

/-- What a program does with the library. -/
inductive Ev where
  | qat (raises asks : Bool)
  | ptq
  | convert (raises : Bool)
deriving DecidableEq

/-- One call. -/
def step (l : Lib C) (v : Ver) (frames : Nat) (g : Globals C) : Ev → Globals C
  | .qat r a => prepareQat l v frames r a g
  | .ptq => preparePtq l v g
  | .convert r => convertQat l r g

/-- Whether `add_observer_` of the next post-training preparation returns; it is called after the replacement (3858-3862). -/
def ptqReturns (l : Lib C) (v : Ver) (frames : Nat) (asks : Bool) (g : Globals C) : Bool :=
  observed frames false asks (preparePtq l v g).noObs

end Verif.Model.TorchTables
