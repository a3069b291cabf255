import Mathlib.Data.Nat.Notation

/-! The parts of a quantized model that matter for concatenation: which operations have an observer and which tensors reach a concatenation unchanged in quantization. -/

namespace Verif.Spec.CatUnify

/-- An operation.  `site` is the place that holds its observer, `isStub` an operation between quantized and unquantized parts, `isSize` one that gives a shape, not a tensor. -/
structure Node where
  isCat : Bool
  isStub : Bool
  isSize : Bool
  site : Option ℕ
  prevs : List ℕ
  nexts : List ℕ

abbrev Graph := ℕ → Node

/-- The operation passes its operand on with the same quantization. -/
def Node.Through (n : Node) : Prop := n.isCat = false ∧ n.site = none ∧ n.isStub = false ∧ n.isSize = false

/-- The result of `m`, quantized as it is, is an operand of `c`: directly or through operations that have no observer. -/
inductive Feeds (g : Graph) : ℕ → ℕ → Prop
  | direct {m c : ℕ} : m ∈ (g c).prevs → (g m).isSize = false → Feeds g m c
  | through {m v c : ℕ} : Feeds g v c → (g v).Through → m ∈ (g v).prevs → (g m).isSize = false → Feeds g m c

end Verif.Spec.CatUnify
