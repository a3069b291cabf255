import Mathlib.Data.List.Basic

/-!
Quantized and unquantized regions of a model: which form a tensor has after QuantStub and DeQuantStub, which form every operation needs, and which nodes a
walk over the graph reaches.  Independent of the quantizer.
-/

namespace Verif.Spec.QRegion

/-- The form of a tensor: floating point, quantized, or not a floating point tensor to begin with. -/
inductive Form | float | quant | raw
deriving DecidableEq

/-- QuantStub and DeQuantStub. -/
inductive Stub | q | dq
deriving DecidableEq

/-- What a stub makes of a tensor: QuantStub needs a float tensor, DeQuantStub a quantized or float one. -/
def Stub.apply : Stub → Form → Option Form
  | .q, .float => some .quant
  | .q, _ => none
  | .dq, .quant => some .float
  | .dq, .float => some .float
  | .dq, .raw => none

/-- A chain of stubs, the first one first. -/
def applyStubs : List Stub → Form → Option Form
  | [], f => some f
  | s :: ss, f => (s.apply f).bind (applyStubs ss)

/-- The data type of a tensor: float, int32 or int64, or anything else, such as bool. -/
inductive DT | float | int | other
deriving DecidableEq

/-- A node: something that provides a tensor (input, constant, creation function), an operation, something that only looks at the shape or type of a tensor,
or a place where a float tensor is needed (an output of the model, a conversion to an integer type).  `disabled` says that the node has no quantized form. -/
inductive Role | source | op | prop | float
deriving DecidableEq

/-- A model: the nodes, whether a node gathers several tensors into the result of the model, what they read (node and place in its result), the type of every tensor. -/
structure Model where
  role : ℕ → Role
  disabled : ℕ → Bool
  multi : ℕ → Bool
  args : ℕ → List (ℕ × ℕ)
  dt : ℕ → ℕ → DT

/-- The form of a tensor when it is made. -/
def Model.made (m : Model) (u slot : ℕ) : Form :=
  if m.dt u slot = .float then
    if m.role u = .source ∨ m.disabled u = true then .float else .quant
  else .raw

/-- The form in which a node needs its float tensors. -/
def Model.needs (m : Model) (v : ℕ) : Form := if m.role v = .float ∨ m.disabled v = true then .float else .quant

/-- With these stubs between producer and consumer every node receives its float tensors in the form it needs, and all other tensors as they are. -/
def Fed (m : Model) (nodes : List ℕ) (chain : ℕ → ℕ → ℕ → List Stub) : Prop :=
  ∀ v ∈ nodes, m.role v ≠ .prop → ∀ a ∈ m.args v, applyStubs (chain a.1 a.2 v) (m.made a.1 a.2) = some (if m.dt a.1 a.2 = .float then m.needs v else .raw)

/-- `v` can be reached from the starting nodes along `follow`; the walk does not continue behind `stop`. -/
inductive Reach (starts : List ℕ) (follow : ℕ → List ℕ) (stop : ℕ → Bool) : ℕ → Prop
  | start (v : ℕ) : v ∈ starts → Reach starts follow stop v
  | step (u v : ℕ) : Reach starts follow stop u → stop u = false → v ∈ follow u → Reach starts follow stop v

end Verif.Spec.QRegion
