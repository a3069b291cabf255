import Verif.Spec.Rnn

/-! The lowering of LSTM and GRU, tinynn/converter/operators/torch/aten.py 25-870.  A 2-D tensor (batch, features) or a weight is a function of two indices, a
bias a matrix with one column.  Every `let` below is an operator the converter emits, evaluated.  Not modelled: quantized LSTM, dropout (the converter requires evaluation mode), the
recorded shapes. -/

namespace Verif.Model
open Verif.Spec Finset

variable {R : Type} [CommRing R] [DecidableEq R]

abbrev Mat (R : Type) := Nat → Nat → R

/-- An entry of the operator's input list: absent, a weight, a variable tensor with the data recorded at conversion, or a tensor computed at run time. -/
inductive Slot (R : Type) where
  | absent
  | const (m : Mat R)
  | var (m : Mat R)
  | run (m : Mat R)

/-- `Tensor.tensor`: the data the converter sees. -/
def Slot.data : Slot R → Mat R
  | .absent => fun _ _ => 0
  | .const m => m
  | .var m => m
  | .run m => m

/-- The contents at run time: operators/graph.py 618-630 gives a variable tensor no buffer, so it starts as zero. -/
def Slot.value : Slot R → Mat R
  | .var _ => fun _ _ => 0
  | s => s.data

/-- Lines 219-221 (`compute_h`, `compute_c`) and 681: no buffer, or some nonzero element of the `B x H` data. -/
def Slot.computed (B H : Nat) : Slot R → Bool
  | .run _ => true
  | s => (List.range B).any (fun b => (List.range H).any (fun j => decide (s.data b j ≠ 0)))

/-- The arguments of the operator: whether there are biases, layers, directions, layout, and the sizes of batch, time, input and hidden state. -/
structure RnnCfg where
  hasBias : Bool
  layers : Nat
  bidir : Bool
  batchFirst : Bool
  B : Nat
  T : Nat
  I : Nat
  H : Nat

def RnnCfg.dirs (c : RnnCfg) : Nat := if c.bidir then 2 else 1

/-- Lines 93-99 and the same lines of the GRU, 559-565: `params_step`. -/
def RnnCfg.step (c : RnnCfg) : Nat := if c.hasBias then 4 else 2

/-- Lines 93-103 and 559-569: the number of parameters that is expected. -/
def RnnCfg.numParams (c : RnnCfg) : Nat := 2 * c.layers * (if c.hasBias then 2 else 1) * (if c.bidir then 2 else 1)

/-- `torch.chunk(m, _, 0)[n]` with chunks of `H` rows. -/
def chunkRows (H n : Nat) (m : Mat R) : Mat R := fun j k => m (n * H + j) k

/-- `np.concatenate(ms, 0)` of matrices of `H` rows. -/
def catRows (H : Nat) (ms : List (Mat R)) : Mat R := fun j k => (ms.getD (j / H) (fun _ _ => 0)) (j % H) k

/-- `np.split(m, _, 1)[n]` with parts of `H` columns. -/
def splitCols (H n : Nat) (m : Mat R) : Mat R := fun b j => m b (n * H + j)

def addM (x y : Mat R) : Mat R := fun b j => x b j + y b j
def mulM (x y : Mat R) : Mat R := fun b j => x b j * y b j
def mapM1 (f : R → R) (x : Mat R) : Mat R := fun b j => f (x b j)
/-- FULLY_CONNECTED; the bias is a matrix with one column. -/
def fcM (K : Nat) (x w b : Mat R) : Mat R := tflFc K x w (fun j => b j 0)

/-- UNPACK of a sequence along the time axis, lines 179-188. -/
def unpackTs (c : RnnCfg) (x : Nat → Nat → Nat → R) : List (Mat R) := (List.range c.T).map (fun t => fun b k => if c.batchFirst then x b t k else x t b k)

/-- PACK along the time axis, lines 325-344. -/
def packTs (c : RnnCfg) (ts : List (Mat R)) : Nat → Nat → Nat → R := fun u v j => if c.batchFirst then (ts.getD v (fun _ _ => 0)) u j else (ts.getD u (fun _ _ => 0)) v j

/-- CONCATENATION along axis 2. -/
def catFeatures (H : Nat) (x y : Nat → Nat → Nat → R) : Nat → Nat → Nat → R := fun u v j => if j < H then x u v j else y u v (j - H)

/-- The loop over the time steps of one direction, lines 223-318 and 683-843: `step` emits the operators of a step, `first` is `i == 0`. -/
def unrollSteps {St : Type} (step : Bool → Mat R → St → Option St) (hOf : St → Mat R) : Bool → List (Mat R) → St → Option (List (Mat R) × St)
  | _, [], st => some ([], st)
  | first, t :: ts, st => do
    let st' ← step first t st
    let (hs, e) ← unrollSteps step hOf false ts st'
    some (hOf st' :: hs, e)

/-- One direction: `input_ts[::stride]`, the steps, `stacked_hs[::stride]`. -/
def unrollDir {St : Type} (step : Bool → Mat R → St → Option St) (hOf : St → Mat R) (back : Bool) (ts : List (Mat R)) (init : St) : Option (List (Mat R) × St) := do
  let (hs, e) ← unrollSteps step hOf true (if back then ts.reverse else ts) init
  some (if back then hs.reverse else hs, e)

/-- The loop over the layers, lines 140-344, 422-423 and 612-866.  `run l d off ts` is one direction of a layer with the parameter offset `off`; `cache` is `unpacked_tensors`.
The result has the output sequence and the final states, layer by layer and direction by direction. -/
def unrollLayers {St : Type} (c : RnnCfg) (run : Nat → Nat → Nat → List (Mat R) → Option (List (Mat R) × St)) :
    Nat → Nat → Nat → (Nat → Nat → Nat → R) → Option (List (Mat R)) → Option ((Nat → Nat → Nat → R) × List St)
  | 0, _, _, cur, _ => some (cur, [])
  | n + 1, l, off, cur, cache => do
    let inputTs := cache.getD (unpackTs c cur)
    let outs ← (List.range c.dirs).mapM (fun d => run l d off inputTs)
    let outputTs := (outs.map (·.1)).flatten
    let (cur', cache') :=
      if c.bidir then (catFeatures c.H (packTs c (outputTs.take c.T)) (packTs c (outputTs.drop c.T)), none)
      else if n ≠ 0 then (cur, some outputTs)
      else (packTs c outputTs, none)
    let (out, sts) ← unrollLayers c run n (l + 1) (off + c.step * c.dirs) cur' cache'
    some (out, outs.map (·.2) ++ sts)

/-! ### LSTM -/

/-- A state as it reaches the converter: a tensor of the graph, or a constant. -/
inductive StateIn (R : Type) where
  | tensor (m : Mat R)
  | constant (m : Mat R)

/-- Lines 69-78 (`lstm_hidden_state_helper`) and 534-542: a constant state becomes a variable tensor. -/
def StateIn.slot : StateIn R → Slot R
  | .tensor m => .run m
  | .constant m => .var m

/-- Lines 26-51 (`lstm_input_helper`). -/
def lstmInputHelper (c : RnnCfg) (params : Nat → Mat R) (pStart iStart : Nat) (slots : List (Slot R)) : List (Slot R) :=
  let s1 := (List.range 4).foldl (fun s n => s.set (iStart + n) (.const (chunkRows c.H n (params pStart)))) slots
  let s2 := (List.range 4).foldl (fun s n => s.set (iStart + 4 + n) (.const (chunkRows c.H n (params (pStart + 1))))) s1
  (List.range 4).foldl (fun s n => s.set (iStart + 11 + n) (.const (if c.hasBias then chunkRows c.H n (fun j k => params (pStart + 2) j k + params (pStart + 3) j k)
    else fun _ _ => 0))) s2

/-- `input_start_indices`, line 117. -/
def lstmInputStart (d : Nat) : Nat := if d = 0 then 1 else 18
/-- `state_start_index`, lines 107 and 112. -/
def lstmStateStart (c : RnnCfg) : Nat := if c.bidir then 35 else 18

/-- Lines 141-168: the input list of a layer (slot 0, the sequence, is kept apart).  `states kind (l * D + d)` are the initial states, kind 0 for `h`, 1 for `c`. -/
def lstmSlots (c : RnnCfg) (params : Nat → Mat R) (states : Nat → Nat → StateIn R) (l off : Nat) : List (Slot R) :=
  let s0 : List (Slot R) := List.replicate (24 * c.dirs) .absent
  let s1 := (List.range c.dirs).foldl (fun s d => lstmInputHelper c params (off + d * c.step) (lstmInputStart d) s) s0
  (List.range c.dirs).foldl (fun s d => (List.range 2).foldl (fun s k => s.set (lstmStateStart c + d * c.dirs + k) (states k (l * c.dirs + d)).slot) s) s1

def slotAt (slots : List (Slot R)) (i : Nat) : Slot R := slots.getD i .absent

/-- Lines 224-316: the operators of one step; `none` if an entry of `gate_outs` that is missing is used. -/
def lstmStep (sg th : R → R) (sep : Bool) (I H : Nat) (wi wr bi : List (Mat R)) (computeH computeC : Bool) (first : Bool) (t : Mat R) (st : Mat R × Mat R) : Option (Mat R × Mat R) := do
  let zero : Mat R := fun _ _ => 0
  let skipH := first && !computeH
  let skipC := first && !computeC
  let gateOuts : List (Option (Mat R)) :=
    if !sep then
      let inputMm := fcM I t (catRows H wi) (catRows H bi)                                             -- 226-229
      let addOut := if skipH then inputMm else addM inputMm (fcM H st.1 (catRows H wr) zero)           -- 242-250, 270-271
      (List.range 4).map (fun n => some (splitCols H n addOut))                                        -- 275-278
    else
      let ims := (List.range 4).map (fun j => if j == 1 && skipC then none else some (fcM I t (wi.getD j zero) (bi.getD j zero)))   -- 231-240
      if skipH then ims                                                                                -- 272-273
      else
        let hms := (List.range 4).map (fun j => if j == 1 && skipC then none else some (fcM H st.1 (wr.getD j zero) zero))          -- 252-261
        (ims.zip hms).filterMap (fun p => match p with | (some a, some b) => some (some (addM a b)) | _ => none)                    -- 263-268
  let g0 ← (gateOuts[0]?).join
  let gateI := mapM1 sg g0
  let gateF ← if skipC then some zero else (gateOuts[1]?).join.map (mapM1 sg)                           -- 285-289
  let g2 ← (gateOuts[2]?).join
  let gateG := mapM1 th g2
  let g3 ← (gateOuts[3]?).join
  let gateO := mapM1 sg g3
  let cRight := mulM gateI gateG
  let c' := if skipC then cRight else addM (mulM gateF st.2) cRight                                     -- 299-310
  let h' := mulM gateO (mapM1 th c')
  some (h', c')

/-- Lines 192-323: one direction of a layer, unrolled. -/
def lstmRun (sg th : R → R) (sep : Bool) (c : RnnCfg) (params : Nat → Mat R) (states : Nat → Nat → StateIn R) (l d off : Nat) (ts : List (Mat R)) :
    Option (List (Mat R) × (Mat R × Mat R)) :=
  let slots := lstmSlots c params states l off
  let s := lstmInputStart d
  let wi := (List.range 4).map (fun n => (slotAt slots (s + n)).data)
  let wr := (List.range 4).map (fun n => (slotAt slots (s + 4 + n)).data)
  let bi := (List.range 4).map (fun n => (slotAt slots (s + 11 + n)).data)
  let h := slotAt slots (lstmStateStart c + d * c.dirs)
  let cc := slotAt slots (lstmStateStart c + d * c.dirs + 1)
  unrollDir (lstmStep sg th sep (layerWidth c.I c.H c.bidir l) c.H wi wr bi (h.computed c.B c.H) (cc.computed c.B c.H)) (·.1) (d == 1) ts (h.value, cc.value)

/-- Lines 80-439 with `unroll_rnn=True`. -/
def convertLstm (sg th : R → R) (sep : Bool) (c : RnnCfg) (numParams : Nat) (params : Nat → Mat R) (states : Nat → Nat → StateIn R) (x : Nat → Nat → Nat → R) :
    Option ((Nat → Nat → Nat → R) × List (Mat R × Mat R)) :=
  if numParams ≠ c.numParams then none else unrollLayers c (lstmRun sg th sep c params states) c.layers 0 0 x none

/-- REVERSE_V2 along the time axis. -/
def reverseTs (c : RnnCfg) (x : Nat → Nat → Nat → R) : Nat → Nat → Nat → R := fun u v j => if c.batchFirst then x u (c.T - 1 - v) j else x (c.T - 1 - u) v j

/-- A fused kernel's output as a sequence tensor. -/
def ofTime (c : RnnCfg) (f : Nat → Nat → Nat → R) : Nat → Nat → Nat → R := fun u v j => if c.batchFirst then f v u j else f u v j
def toTime (c : RnnCfg) (x : Nat → Nat → Nat → R) : Nat → Nat → Nat → R := fun t b j => if c.batchFirst then x b t j else x t b j

/-- Lines 345-420, one layer without unrolling, on the first run after loading: the fused operators read the slots, the state tensors hold `Slot.value`. -/
def fusedLayer (sg th : R → R) (mapBi : Bool) (c : RnnCfg) (params : Nat → Mat R) (states : Nat → Nat → StateIn R) (l off : Nat) (x : Nat → Nat → Nat → R) : Nat → Nat → Nat → R :=
  let slots := lstmSlots c params states l off
  let I := layerWidth c.I c.H c.bidir l
  let val := fun (s : List (Slot R)) i => (slotAt s i).value
  if c.bidir then
    if !mapBi then
      ofTime c (tflBiLstm sg th (val slots) (val slots 35) (val slots 36) (val slots 37) (val slots 38) I c.H c.T (toTime c x))
    else
      let fw := slots.take 18 ++ (slots.drop 35).take 2                                                -- 360-366: inputs[:18] + inputs[35:37]
      let bw := slots.take 1 ++ (slots.drop 18).take 17 ++ (slots.drop 37).take 2                      -- 386-396: [bw_in] + inputs[18:35] + inputs[37:39]
      let fwOut := ofTime c (tflUniLstm sg th (val fw) (val fw 18) (val fw 19) I c.H (toTime c x))
      let bwIn := reverseTs c x
      let bwRaw := ofTime c (tflUniLstm sg th (val bw) (val bw 18) (val bw 19) I c.H (toTime c bwIn))
      catFeatures c.H fwOut (reverseTs c bwRaw)
  else ofTime c (tflUniLstm sg th (val slots) (val slots 18) (val slots 19) I c.H (toTime c x))

/-- The layers in turn. -/
def fusedLayers (sg th : R → R) (mapBi : Bool) (c : RnnCfg) (params : Nat → Mat R) (states : Nat → Nat → StateIn R) : Nat → Nat → Nat → (Nat → Nat → Nat → R) → Nat → Nat → Nat → R
  | 0, _, _, x => x
  | n + 1, l, off, x => fusedLayers sg th mapBi c params states n (l + 1) (off + c.step * c.dirs) (fusedLayer sg th mapBi c params states l off x)

/-- Lines 80-439 with `unroll_rnn=False`: states that are tensors of the graph are refused (line 77). -/
def convertLstmFused (sg th : R → R) (mapBi : Bool) (c : RnnCfg) (numParams : Nat) (params : Nat → Mat R) (states : Nat → Nat → StateIn R) (x : Nat → Nat → Nat → R) :
    Option (Nat → Nat → Nat → R) :=
  if numParams ≠ c.numParams then none
  else if (List.range (c.layers * c.dirs)).any (fun i => (List.range 2).any (fun k => match states k i with | .tensor _ => true | .constant _ => false)) then none
  else some (fusedLayers sg th mapBi c params states c.layers 0 0 x)

/-! ### GRU -/

/-- Lines 685-840: the operators of one step. -/
def gruStep (sg th : R → R) (sep : Bool) (I H : Nat) (wi wr bi br : List (Mat R)) (computeH : Bool) (first : Bool) (t h : Mat R) : Option (Mat R) :=
  let zero : Mat R := fun _ _ => 0
  let skipH := first && !computeH
  let (im, hm) : List (Mat R) × List (Mat R) :=
    if !sep then
      let inputMm := fcM I t (catRows H wi) (catRows H bi)
      let hiddenMm := fcM H h (catRows H wr) (catRows H br)
      ((List.range 3).map (fun n => splitCols H n inputMm), (List.range 3).map (fun n => splitCols H n hiddenMm))
    else
      ((List.range 3).map (fun n => fcM I t (wi.getD n zero) (bi.getD n zero)),
       if skipH then (List.range 3).map (fun n => fun _ j => (br.getD n zero) j 0) else (List.range 3).map (fun n => fcM H h (wr.getD n zero) (br.getD n zero)))
  let r := mapM1 sg (addM (im.getD 0 zero) (hm.getD 0 zero))
  let z := mapM1 sg (addM (im.getD 1 zero) (hm.getD 1 zero))
  let n := mapM1 th (addM (im.getD 2 zero) (mulM r (hm.getD 2 zero)))
  let hLeft := mulM (mapM1 (fun v => 1 - v) z) n
  some (if skipH then hLeft else addM hLeft (mulM z h))

/-- Lines 463-514 (`gru_input_helper`, the four lists) and 660-843: one direction of a layer. -/
def gruRun (sg th : R → R) (sep : Bool) (c : RnnCfg) (params : Nat → Mat R) (states : Nat → StateIn R) (l d off : Nat) (ts : List (Mat R)) : Option (List (Mat R) × Mat R) :=
  let p := off + d * c.step
  let wi := (List.range 3).map (fun n => chunkRows c.H n (params p))
  let wr := (List.range 3).map (fun n => chunkRows c.H n (params (p + 1)))
  let bi := (List.range 3).map (fun n => if c.hasBias then chunkRows c.H n (params (p + 2)) else fun _ _ => 0)
  let br := (List.range 3).map (fun n => if c.hasBias then chunkRows c.H n (params (p + 3)) else fun _ _ => 0)
  let h := (states (l * c.dirs + d)).slot
  unrollDir (gruStep sg th sep (layerWidth c.I c.H c.bidir l) c.H wi wr bi br (h.computed c.B c.H)) id (d == 1) ts h.value

/-- Lines 544-877 (a GRU is always unrolled, line 557). -/
def convertGru (sg th : R → R) (sep : Bool) (c : RnnCfg) (numParams : Nat) (params : Nat → Mat R) (states : Nat → StateIn R) (x : Nat → Nat → Nat → R) :
    Option ((Nat → Nat → Nat → R) × List (Mat R)) :=
  if numParams ≠ c.numParams then none else unrollLayers c (gruRun sg th sep c params states) c.layers 0 0 x none

end Verif.Model
