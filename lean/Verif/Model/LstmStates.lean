import Verif.Spec.LstmStates
/-!
Model of `parse_lstm_states`, /repo/tinynn/converter/utils/tflite.py 12-41, on models the converter writes with `unroll_rnn=False`: the inputs of the LSTM operators
(/repo/tinynn/converter/operators/torch/aten.py 26-78, 105-168, 345-420) and the indices of their tensors (/repo/tinynn/converter/operators/graph.py 590-655).
Not modelled: the bytes of the file (C139), the loading by path or bytes (13-18), the order of the operators (any order here).
-/

namespace Verif.Model.LstmStates
open Verif.Spec.LstmStates

/-- aten.py:74 for states; weights and other attributes are no variables. -/
def isVariable : T → Bool
  | .state .. => true
  | .other _ v => v
  | _ => false

/-- An operator of the graph; `none` is the optional tensor. -/
structure Op where
  code : Nat
  inputs : List (Option T)

/-- Positions in the schema's `BuiltinOperator`. -/
def bidirectionalSequenceLstm : Nat := 52
def unidirectionalSequenceLstm : Nat := 44
def reverseV2 : Nat := 105
def concatenation : Nat := 2

/-- aten.py:26-51: weights of the input, of the hidden state, and biases, for four gates. -/
def inputHelper (m l : Nat) (back : Bool) (start : Nat) (inputs : List (Option T)) : List (Option T) :=
  let s1 := (List.range 4).foldl (fun s n => s.set (start + n) (some (.weight m l back n))) inputs
  let s2 := (List.range 4).foldl (fun s n => s.set (start + 4 + n) (some (.weight m l back (4 + n)))) s1
  (List.range 4).foldl (fun s n => s.set (start + 11 + n) (some (.weight m l back (11 + n)))) s2

/-- aten.py:105-117, 141-168: the inputs of a layer. -/
def layerInputs (m l : Nat) (bidir : Bool) : List (Option T) :=
  let dirs := if bidir then 2 else 1
  let stateStart := if bidir then 35 else 18
  let s0 : List (Option T) := some (.seq m l) :: List.replicate (24 * dirs - 1) none
  let s1 := (List.range dirs).foldl (fun s d => inputHelper m l (d == 1) (if d = 0 then 1 else 18) s) s0
  (List.range dirs).foldl (fun s d => (List.range 2).foldl (fun s k => s.set (stateStart + d * dirs + k) (some (.state m l (d == 1) (k == 1)))) s) s1

/-- aten.py:345-420: the operators of a layer. -/
def layerOps (mapBi : Bool) (m l : Nat) (bidir : Bool) : List Op :=
  let inputs := layerInputs m l bidir
  if bidir then
    if !mapBi then [⟨bidirectionalSequenceLstm, inputs⟩]
    else
      let fw := inputs.take 18 ++ (inputs.drop 35).take 2
      let bw := some (.reversed m l) :: (inputs.drop 18).take 17 ++ (inputs.drop 37).take 2
      [⟨unidirectionalSequenceLstm, fw⟩, ⟨reverseV2, [some (.seq m l)]⟩, ⟨unidirectionalSequenceLstm, bw⟩, ⟨reverseV2, []⟩, ⟨concatenation, []⟩]
  else [⟨unidirectionalSequenceLstm, inputs⟩]

/-- A part of the graph: a layer of an LSTM, or an operator of another kind. -/
inductive Part
  | lstm (m l : Nat) (bidir : Bool)
  | other (op : Op)

/-- The operators of the graph. -/
def opsOf (mapBi : Bool) : List Part → List Op
  | [] => []
  | .lstm m l bidir :: ps => layerOps mapBi m l bidir ++ opsOf mapBi ps
  | .other op :: ps => op :: opsOf mapBi ps

/-- What the file says of an operator: its code and the indices of its inputs, and of the tensors: whether they are variables. -/
structure File where
  ops : List (Nat × List Int)
  variables : List Bool

/-- graph.py:611-629: tensors are numbered in the order of the labels; optional tensors have the index -1 (tflite/base.py:310). -/
def write (labels : List T) (ops : List Op) : File :=
  ⟨ops.map fun o => (o.code, o.inputs.map fun i => match i with | none => -1 | some t => (labels.idxOf t : Int)), labels.map isVariable⟩

/-- `DeprecatedBuiltinCode`: one signed byte, larger codes are written as 127. -/
def deprecatedCode (c : Nat) : Nat := min c 127

/-- tflite.py:25-41. -/
def parseLstmStates (f : File) : List Int :=
  f.ops.flatMap fun o =>
    if deprecatedCode o.1 = bidirectionalSequenceLstm ∨ deprecatedCode o.1 = unidirectionalSequenceLstm then
      o.2.filter fun i => if i < 0 then false else f.variables.getD i.toNat false
    else []

end Verif.Model.LstmStates
