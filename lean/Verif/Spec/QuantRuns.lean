import Verif.Spec.FuseNet
/-!
What is expected of `quantize()` over several runs: the configuration of layers, and the files it keeps.
-/

namespace Verif.Spec.QuantRuns

/-- A configuration of layers: names and whether they are to be quantized. -/
abbrev Conf := List (String × Bool)

/-- What the configuration says of a layer: its entry, or else the default, which holds for the layers of the given model. -/
def wanted (c : Conf) (deflt : Bool) (orig : List String) (n : String) : Bool := (c.lookup n).getD (if deflt = false ∧ n ∈ orig then false else true)

/-- A node of the rewritten graph.  `stub`: a quantize or dequantize stub; `shapeLike`: reads a shape, a size, a device or a type; `fixed`: a constant, or a division of a shape; `supported`: the backend can
quantize it; `skip`: a kind that is rewritten before conversion. -/
structure CNode where
  node : FuseNet.Node
  stub : Bool
  shapeLike : Bool
  fixed : Bool
  supported : Bool
  skip : Bool
  deriving DecidableEq

/-- A layer the configuration can decide about. -/
def CNode.layer (x : CNode) : Prop := x.stub = false ∧ x.shapeLike = false ∧ x.fixed = false

/-- A file: not there, there but not written to the end, or complete. -/
inductive File (α : Type) where
  | missing
  | cut
  | full (a : α)
  deriving DecidableEq

/-- The files `quantize()` keeps in its working directory. -/
structure FS (C W : Type) where
  code : File C
  weights : File W
  config : File Conf
  deriving DecidableEq

inductive Err where
  | noneType
  | keyError
  | badCode
  | badWeights
  deriving DecidableEq

end Verif.Spec.QuantRuns
