import Verif.Model.OpVersion
import Mathlib.Tactic.SplitIfs

/-! C21: operator versions. -/

namespace Verif.Props
open Verif.Spec Verif.Model

/-- The operators whose branch in the code is never taken. -/
def Misversioned (op : Builtin) : Prop :=
  op = .TILE ∨ op = .SPACE_TO_BATCH_ND ∨ op = .BATCH_TO_SPACE_ND ∨ op = .SUB

/-- C21, partial: the stamped version is the one of the table, for every operator and operand signature and every version found
on entry below 37 (operators are constructed with version 1).  Missing: the four operators of `Misversioned`
(`C21_tile_false`, `C21_space_batch_false`, `C21_sub_false`). -/
theorem C21_versions_partial (op : Builtin) (h : ¬ Misversioned op) (s : OpSig) (v : Nat) (hv : v < 37) :
    processOp op s v = requiredVersion op s := by
  have h1 : v ≠ codeTILE := by unfold codeTILE; omega
  have h2 : ¬ (v = codeSPACE_TO_BATCH_ND ∨ v = codeBATCH_TO_SPACE_ND) := by
    unfold codeSPACE_TO_BATCH_ND codeBATCH_TO_SPACE_ND; omega
  have h3 : v ≠ codeSUB := by unfold codeSUB; omega
  cases op <;>
    first
    | (exfalso; apply h; simp [Misversioned]; done)
    | simp [processOp, requiredVersion, versionRules, firstRule, lastList, h1, h2, h3, OpSig.int8, OpSig.hybrid, OpSig.hybridLstm,
        OpSig.in0Int8, OpSig.in0Byte, OpSig.int16InOut, OpSig.highRankBroadcast, OpSig.in0, OpSig.in1, OpSig.in2, OpSig.rank0,
        OpSig.rank1, and_assoc]

/-- A quantized convolution and a hybrid fully connected layer. -/
def sig0 : OpSig := { inTypes := [.int8, .int8, .int32], outType := .int8, inRanks := [4, 4, 1], dilated := false, narrowRange := false,
                      keepNumDims := false, shuffledWeights := false, lstmKernel := .full, halfPixelCenters := false,
                      rescaleGeOne := false }
example : ¬ Misversioned .CONV_2D ∧ processOp .CONV_2D sig0 1 = 3 := by
  refine ⟨by simp [Misversioned], by decide⟩

/-- C21 is false for SUB: an int8 subtraction is stamped 1, the table says 2 (and 3 for a broadcast above rank 4). -/
theorem C21_sub_false : ∃ s, requiredVersion .SUB s = 2 ∧ processOp .SUB s 1 = 1 := ⟨sig0, by decide, by decide⟩

/-- The four operators are stamped 1 whatever their operands are. -/
theorem C21_misversioned_one (op : Builtin) (h : Misversioned op) (s : OpSig) (v : Nat) (hv : v < 37) : processOp op s v = 1 := by
  have h1 : v ≠ codeTILE := by unfold codeTILE; omega
  have h2 : ¬ (v = codeSPACE_TO_BATCH_ND ∨ v = codeBATCH_TO_SPACE_ND) := by
    unfold codeSPACE_TO_BATCH_ND codeBATCH_TO_SPACE_ND; omega
  have h3 : v ≠ codeSUB := by unfold codeSUB; omega
  rcases h with rfl | rfl | rfl | rfl <;> simp [processOp, lastList, h1, h2, h3]

/-- C21 is false for TILE of strings. -/
theorem C21_tile_false : ∃ s, requiredVersion .TILE s = 2 ∧ processOp .TILE s 1 = 1 :=
  ⟨{ sig0 with inTypes := [.string, .int32] }, by decide, by decide⟩

/-- C21 is false for SPACE_TO_BATCH_ND and BATCH_TO_SPACE_ND: int8 operands, or a rank other than 4. -/
theorem C21_space_batch_false : ∃ s s', requiredVersion .SPACE_TO_BATCH_ND s = 2 ∧ processOp .SPACE_TO_BATCH_ND s 1 = 1 ∧
    requiredVersion .BATCH_TO_SPACE_ND s' = 3 ∧ processOp .BATCH_TO_SPACE_ND s' 1 = 1 :=
  ⟨sig0, { sig0 with inRanks := [3, 1, 2] }, by decide, by decide, by decide, by decide⟩

/-- C21, every stamped version lies between 1 and 6. -/
theorem C21_range (op : Builtin) (s : OpSig) (v : Nat) : 1 ≤ processOp op s v ∧ processOp op s v ≤ 6 := by
  unfold processOp
  cases op <;> simp only [reduceCtorEq, if_true, if_false, or_self, or_true, true_or] <;> split_ifs <;> omega

/-- C21, stamping twice is the same as stamping once, on whole graphs; nodes that are not operators are left alone. -/
theorem C21_process_idempotent (nodes : List VNode)
    (h : ∀ c s v, VNode.op c s v ∈ nodes → v < 37) :
    processGraph (processGraph nodes) = processGraph nodes := by
  unfold processGraph
  rw [List.map_map]
  apply List.map_congr_left
  intro n hn
  cases n with
  | special => rfl
  | op c s v =>
    simp only [Function.comp_apply]
    have hv := h c s v hn
    have hv' : processOp c s v < 37 := by have := (C21_range c s v).2; omega
    by_cases hm : Misversioned c
    · rw [C21_misversioned_one c hm s v hv, C21_misversioned_one c hm s 1 (by omega)]
    · rw [C21_versions_partial c hm s _ hv', C21_versions_partial c hm s v hv]

example : ∀ c s v, VNode.op c s v ∈ [VNode.special, .op .ADD sig0 1, .op .SUB sig0 1] → v < 37 := by
  intro c s v h
  simp at h
  omega

end Verif.Props
