/-
How a quantizer decides, for each layer, with which settings it will be
quantized: the defaults derived from the options, the second set for
per-channel layers, the user's override function, and PyTorch's propagation
of settings from a module to the modules inside it.

Modelled code:
  tinynn/graph/quantization/quantizer.py
    QATQuantizer.__init__       (lines 346-351, the assertions for fbgemm)
    QATQuantizer.override_qconfig  (lines 731-752)
    QATQuantizer.prepare_qconfig   (lines 754-888)
    QATQuantizer.prepare_qat       (lines 968-974 propagation, 1025-1034 range)
    PostQuantizer.prepare_qconfig  (lines 3663-3771)
    PostQuantizer.prepare_qat      (lines 3809-3815 propagation)
  tinynn/graph/quantization/observer.py (lines 11-22)
-/
namespace Verif.Model.QConfigs

/-- The kind of statistics a range is derived from.
Simplification: one label for each family of observers used by
`prepare_qconfig`; `custom n` stands for whatever a user's own settings name. -/
inductive Obs
  | movingAvg | histogram | kl | minmax | dynamic | custom (n : Nat)
  deriving DecidableEq, Repr

/-- The part of a `QConfig` about activations
(quantizer.py 789-797, 820-829, 3680-3684): the observer, whether the scheme
is symmetric, and the integer range. -/
structure Act where
  obs : Obs
  sym : Bool
  qmin : Int
  qmax : Int
  deriving DecidableEq, Repr

/-- The part of a `QConfig` about weights (quantizer.py 798-808, 811-819). -/
structure Wt where
  obs : Obs
  perChannel : Bool
  qmin : Int
  qmax : Int
  deriving DecidableEq, Repr

/-- `torch.quantization.QConfig(activation, weight)`. -/
structure QCfg where
  act : Act
  wt : Wt
  deriving DecidableEq, Repr

/-- The backends that are accepted without a warning (quantizer.py 343). -/
inductive Backend
  | qnnpack | fbgemm | onnx | tensorrt
  deriving DecidableEq, Repr

/-- The options read by `prepare_qconfig`.  `kl` is `algorithm == 'kl'`, which
only exists for the post-training quantizer. -/
structure Settings where
  backend : Backend
  asymmetric : Bool
  perTensor : Bool
  kl : Bool := false
  dynLstm : Bool := false
  deriving DecidableEq, Repr

/-- The assertions of `__init__` (quantizer.py 346-350). -/
def Settings.ok (s : Settings) : Bool :=
  !(decide (s.backend = .fbgemm)) || (s.asymmetric && !s.perTensor)

/-- A module: its name in its parent, its type name, the `qconfig` attribute
it carries (if any), and its children. -/
inductive Mod
  | mk (name type : String) (own : Option QCfg) (kids : List Mod)

namespace Mod
def name : Mod → String | mk n _ _ _ => n
def type : Mod → String | mk _ t _ _ => t
def own : Mod → Option QCfg | mk _ _ o _ => o
def kids : Mod → List Mod | mk _ _ _ k => k
/-- `m.qconfig = c` -/
def setOwn (m : Mod) (c : QCfg) : Mod := mk m.name m.type (some c) m.kids
end Mod

/-- `torch_q.get_default_qat_qconfig(actual_backend)` (quantizer.py 763-779).
PyTorch's values: for qnnpack (which `onnx` and `tensorrt` are mapped to)
unsigned asymmetric activations and per-tensor weights in [-128, 127]; for
fbgemm per-channel weights.  The fused and the legacy fake-quantizers differ
only in implementation, and `rounding_mode` (784-787) only in rounding. -/
def defaultQat (b : Backend) : QCfg :=
  { act := { obs := .movingAvg, sym := false, qmin := 0, qmax := 255 },
    wt := { obs := .movingAvg, perChannel := decide (b = .fbgemm), qmin := -128, qmax := 127 } }

/-- `torch_q.get_default_qconfig(backend)` (quantizer.py 3672-3675), for the
two backends PyTorch knows. -/
def defaultPtq (b : Backend) : QCfg :=
  { act := { obs := .histogram, sym := false, qmin := 0, qmax := 255 },
    wt := { obs := .minmax, perChannel := decide (b = .fbgemm), qmin := -128, qmax := 127 } }

/-- The two sets of settings built by `QATQuantizer.prepare_qconfig`
(quantizer.py 763-838): the one for the whole model, and the one for the
special layers. -/
def qatPair (s : Settings) : QCfg × Option QCfg :=
  let d := defaultQat s.backend
  match s.backend with
  | .qnnpack =>
    -- 788-797
    let q : QCfg := if !s.asymmetric then
      { d with act := { obs := .movingAvg, sym := true, qmin := 0, qmax := 255 } } else d
    -- 798-808
    let qc : Option QCfg := if !s.perTensor then
      some { q with wt := { obs := .movingAvg, perChannel := true, qmin := -127, qmax := 127 } }
      else none
    (q, qc)
  | .fbgemm =>
    -- 809-819
    (d, some { d with wt := { obs := .movingAvg, perChannel := false, qmin := -128, qmax := 127 } })
  | _ =>
    -- 820-829
    let q : QCfg := if !s.asymmetric then
      { d with act := { obs := .movingAvg, sym := true, qmin := -128, qmax := 127 } } else d
    -- 830-840
    let qc : Option QCfg := if !s.perTensor then
      some { q with wt := { obs := .movingAvg, perChannel := true, qmin := -128, qmax := 127 } }
      else none
    (q, qc)

/-- The two sets built by `PostQuantizer.prepare_qconfig`
(quantizer.py 3672-3731) before the algorithm is looked at.
Simplification: `onnx` and `tensorrt` are not given to the post-training
quantizer (recent PyTorch rejects them in line 3673); the model leaves the
default there. -/
def ptqPair0 (s : Settings) : QCfg × Option QCfg :=
  let d := defaultPtq s.backend
  match s.backend with
  | .qnnpack =>
    -- 3678-3682
    let q : QCfg := if !s.asymmetric then
      { d with act := { obs := .histogram, sym := true, qmin := 0, qmax := 255 } } else d
    -- 3683-3691, with the ranges of observer.py 11-22
    if !s.perTensor then
      let q' : QCfg := { q with wt := { obs := .minmax, perChannel := false, qmin := -127, qmax := 127 } }
      (q', some { q' with wt := { obs := .minmax, perChannel := true, qmin := -127, qmax := 127 } })
    else (q, none)
  | .fbgemm =>
    -- 3692-3694
    (d, some { d with wt := { obs := .minmax, perChannel := false, qmin := -128, qmax := 127 } })
  | _ => (d, none)

/-- The choice of the calibration algorithm (quantizer.py 3713-3728): it
replaces the settings of the whole model, after the settings of the special
layers have been built. -/
def ptqPair (s : Settings) : QCfg × Option QCfg :=
  let p := ptqPair0 s
  if s.kl then
    match s.backend with
    | .qnnpack | .fbgemm =>
      ({ p.1 with act := { obs := .kl, sym := !s.asymmetric, qmin := 0, qmax := 255 } }, p.2)
    | _ => p
  else p

/-- The type names that get the second set for qnnpack
(quantizer.py 852-860, 3740-3748). -/
def convNames : List String :=
  ["Conv2d", "ConvBnReLU2d", "ConvBn2d", "ConvReLU2d", "Conv1d", "ConvBnReLU1d", "ConvBn1d"]

/-- The type names that get the second set for fbgemm
(quantizer.py 873, 3761). -/
def linearNames : List String := ["Linear", "LinearReLU"]

mutual
/-- The walk over the modules (quantizer.py 845-866, 868-879, 3733-3767): a
module of a listed type gets the settings, and is not entered; any other is.
Simplification: recursion over the tree instead of a queue; what a module gets
does not depend on the order. -/
def assign (names : List String) (c : QCfg) : Mod → Mod
  | .mk n t o ks =>
    if names.contains t then .mk n t (some c) ks else .mk n t o (assignL names c ks)
def assignL (names : List String) (c : QCfg) : List Mod → List Mod
  | [] => []
  | k :: ks => assign names c k :: assignL names c ks
end

mutual
/-- Every LSTM of the graph gets the dynamic settings
(quantizer.py 881-888, 3769-3776).
Simplification: all LSTM modules are taken to occur in the traced graph. -/
def assignLstm (c : QCfg) : Mod → Mod
  | .mk n t o ks => .mk n t (if t = "LSTM" then some c else o) (assignLstmL c ks)
def assignLstmL (c : QCfg) : List Mod → List Mod
  | [] => []
  | k :: ks => assignLstm c k :: assignLstmL c ks
end

mutual
/-- `override_qconfig` (quantizer.py 731-752): starting at the root, a module
for which the user's function returns settings gets them and is not entered;
otherwise its children are asked, with their full name.
Simplification: the function is given the name and the type of a module, where
the code gives it the name and the module. -/
def overrideWalk (f : String → String → Option QCfg) (n : String) : Mod → Mod
  | .mk nm t o ks =>
    match f n t with
    | some c => .mk nm t (some c) ks
    | none => .mk nm t o (overrideWalkL f n ks)
def overrideWalkL (f : String → String → Option QCfg) (n : String) : List Mod → List Mod
  | [] => []
  | k :: ks =>
    overrideWalk f (if n.length > 0 then n ++ "." ++ k.name else k.name) k :: overrideWalkL f n ks
end

mutual
/-- PyTorch's `propagate_qconfig_` (called in quantizer.py 969 and 3810): a
module without settings takes those of its parent. -/
def propagate (parent : Option QCfg) : Mod → Mod
  | .mk n t o ks =>
    let c := match o with | some c => some c | none => parent
    .mk n t c (propagateL c ks)
def propagateL (parent : Option QCfg) : List Mod → List Mod
  | [] => []
  | k :: ks => propagate parent k :: propagateL parent ks
end

/-- `torch_q.default_dynamic_qconfig`. -/
def dynCfg : QCfg :=
  { act := { obs := .dynamic, sym := false, qmin := 0, qmax := 255 },
    wt := { obs := .minmax, perChannel := false, qmin := -128, qmax := 127 } }

/-- `prepare_qconfig` on a module tree (quantizer.py 842-888, 3730-3776). -/
def prepareQConfig (qat : Bool) (s : Settings) (m : Mod) : Mod :=
  let p := if qat then qatPair s else ptqPair s
  let m1 := m.setOwn p.1
  let m2 := match s.backend, p.2 with
    | .qnnpack, some qc => assign convNames qc m1
    | .fbgemm, some qc => assign linearNames qc m1
    | _, _ => m1
  if s.dynLstm then assignLstm dynCfg m2 else m2

/-- The settings each module ends up with: the defaults, the user's function
(quantizer.py 728-729), and the propagation. -/
def settle (qat : Bool) (s : Settings) (f : Option (String → String → Option QCfg)) (m : Mod) : Mod :=
  let m1 := prepareQConfig qat s m
  let m2 := match f with
    | some f => overrideWalk f "" m1
    | none => m1
  propagate none m2

/-- The integer range the weights of a layer with given settings are quantized
to: after the layers have been swapped, quantization-aware training with
`per_tensor=False` rewrites the range of every weight quantizer
(quantizer.py 1025-1034). -/
def finalWt (qat : Bool) (s : Settings) (c : QCfg) : Wt :=
  if qat && !s.perTensor && decide (s.backend = .qnnpack) then
    { c.wt with qmin := -127, qmax := 127 }
  else c.wt

end Verif.Model.QConfigs
