import Verif.Spec.ConvExport

/-! Model of `export_converter_files` and of the paths of `generate_converter_config`, /repo/tinynn/util/converter_util.py: 90-104 and 109-165.  `none` is an exception.
The absolute path of the exported file without its last three characters is `base`. -/

namespace Verif.Model.ConvExport
open Verif.Model Verif.Spec.ConvExport

/-- `path.replace('.pt', new)` (converter_util.py:91 and 103): every occurrence, from left to right. -/
def replacePt (new : List Char) : List Char → List Char
  | '.' :: 'p' :: 't' :: r => new ++ replacePt new r
  | c :: r => c :: replacePt new r
  | [] => []

/-- The three paths (converter_util.py:135, 91 and 103). -/
def files (base : List Char) : Files :=
  ⟨base ++ ".pt".toList, replacePt ".json".toList (base ++ ".pt".toList), replacePt ".tflite".toList (base ++ ".pt".toList)⟩

/-- converter_util.py:156-163: tuples and lists inside of the result are spliced in, once. -/
def flattenOnce : Out → List Out
  | .seq l => l.flatMap fun o => match o with
    | .seq l' => l'
    | o => [o]
  | o => [o]

/-- What `tensor_config` can describe (converter_util.py:31-39): other objects have no `dtype`, the exception is not caught. -/
def tensorOf : Out → Option ConfTensor
  | .tensor t => some t
  | _ => none

/-- `export_converter_files` (converter_util.py:128-165): only the results that meet a flag are looked at, because of the `zip` in line 26. -/
def exportFiles (inputs : List ConfTensor) (out : Out) (inT outT : TransArg) (base : List Char) : Option (ConvConfig × List Char) :=
  (resolveFlags outT (flattenOnce out).length inputs.length).bind fun fo =>
    (((flattenOnce out).take fo.length).mapM tensorOf).bind fun ts =>
      (generateConfig inputs ts inT outT (String.ofList (files base).model) (String.ofList (files base).tflite)).map fun c => (c, (files base).config)

end Verif.Model.ConvExport
