import Verif.Model.ConverterConfig

/-! What the configuration and the options mean to a user (documentation of `export_converter_files` and of `TFLiteConverter`). -/

namespace Verif.Spec
open Verif.Model

/-- The flags a user asks for: one per tensor; a single value is for all; the default is "true for four dimensions, false otherwise". -/
def wantedFlags (arg : TransArg) (tensors : List ConfTensor) (flags : List Bool) : Prop :=
  match arg with
  | .none => flags = tensors.map (fun t => t.shape.length == 4)
  | .one b => flags = tensors.map (fun _ => b)
  | .many l => flags.map some = l ∧ flags.length = tensors.length
  | .other => False

/-- The supported option combinations. -/
structure Supported (o : ConvOptions) : Prop where
  target : o.targetType = "uint8" ∨ o.targetType = "int8" ∨ o.targetType = "int16"
  int16 : o.targetType = "int16" → o.strictSymmetric = true
  inputOutput : ∀ t, o.inputOutputType = some t → o.fuseQuantDequant = true ∧ (t = "int8" ∨ t = "uint8" ∨ t = "int16") ∧ (t = "int16" → o.targetType = "int16")
  weightKnown : ∀ t, o.hybridWeightType = some t → t = "uint8" ∨ t = "int8" ∨ t = "int16"
  hybridInt8 : o.hybrid = true → o.hybridWeightType.getD o.targetType ≠ "int16"
  perChannelInt8 : o.hybrid = true → o.hybridPerChannel = true → o.hybridWeightType.getD o.targetType ≠ "uint8"
  dump : o.dumpConfig = true → o.dumpJit = true

end Verif.Spec
