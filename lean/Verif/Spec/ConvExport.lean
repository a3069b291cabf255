import Verif.Model.ConverterConfig

/-! What `export_converter_files` promises: a model file, a configuration beside it and a path for the TFLite file, and one entry for every tensor the model returns. -/

namespace Verif.Spec.ConvExport
open Verif.Model

/-- What a model returns: a tensor, a tuple or list, or something else (a dict, a named tuple, a number). -/
inductive Out
  | tensor (t : ConfTensor)
  | seq (l : List Out)
  | other

mutual
/-- The tensors a model returns, from left to right. -/
def leaves : Out → List ConfTensor
  | .tensor t => [t]
  | .seq l => leavesAll l
  | .other => []
def leavesAll : List Out → List ConfTensor
  | [] => []
  | o :: l => leaves o ++ leavesAll l
end

/-- The result is a tensor, or a tuple of tensors and of tuples of tensors. -/
def Shallow : Out → Prop
  | .tensor _ => True
  | .seq l => ∀ o ∈ l, (∃ t, o = .tensor t) ∨ ∃ l', o = .seq l' ∧ ∀ o' ∈ l', ∃ t, o' = .tensor t
  | .other => False

/-- A text contains ".pt". -/
def HasPt (l : List Char) : Prop := ∃ a b, l = a ++ ['.', 'p', 't'] ++ b

/-- The files of an export with the path `base` (the directory and the name of the model). -/
structure Files where
  model : List Char
  config : List Char
  tflite : List Char
  deriving DecidableEq

/-- The files a user expects. -/
def wanted (base : List Char) : Files := ⟨base ++ ".pt".toList, base ++ ".json".toList, base ++ ".tflite".toList⟩

end Verif.Spec.ConvExport
