import Verif.Model.BatchNorm
import Verif.Props.Norm
import Verif.Spec.Rounding
import Mathlib.Analysis.Real.Sqrt
import Mathlib.Tactic.Ring
import Mathlib.Tactic.FieldSimp

/-!
C104.  Batch normalization that is not fused into a neighbour.
-/

namespace Verif.Props
open Verif.Spec Verif.Lemmas Verif.Spec.BatchNorm Verif.Model.BatchNorm

variable {K : Type} [Field K]

/-- One number per channel, reshaped, meets the channel of every index. -/
theorem widen_bc (w : Tensor K) (s idx : List ℕ) (hr : 2 ≤ s.length) (hw : w.shape = [s.getD 1 0]) :
    ExpandOk (widen s.length w).shape s ∧ (InBounds s idx → bcGet (widen s.length w) idx = w.get [idx.getD 1 0]) := by
  obtain ⟨n, c, rest, rfl⟩ : ∃ n c rest, s = n :: c :: rest := by
    rcases s with _ | ⟨n, _ | ⟨c, rest⟩⟩
    · simp at hr
    · simp at hr
    · exact ⟨n, c, rest, rfl⟩
  have hsh : (widen (n :: c :: rest).length w).shape = 1 :: c :: List.replicate rest.length 1 := by simp [widen, reshape, hw]
  refine ⟨?_, ?_⟩
  · rw [hsh]
    refine ⟨by simp, ?_⟩
    have : (n :: c :: rest).length - (1 :: c :: List.replicate rest.length 1).length = 0 := by simp
    rw [this]
    refine .cons (Or.inr rfl) (.cons (Or.inl rfl) ?_)
    clear hr hw hsh this
    induction rest with
    | nil => exact .nil
    | cons d rest ih => exact .cons (Or.inr rfl) ih
  · intro hb
    have hl := inBounds_length hb
    obtain ⟨i, j, ks, rfl⟩ : ∃ i j ks, idx = i :: j :: ks := by
      rcases idx with _ | ⟨i, _ | ⟨j, ks⟩⟩
      · simp at hl
      · simp at hl
      · exact ⟨i, j, ks, rfl⟩
    have hks : ks.length = rest.length := by simpa using hl
    have hj : j < c := by
      cases hb with
      | cons _ hb => cases hb with
        | cons h _ => exact h
    rw [bcGet_eq _ _ (by rw [hsh]; simp; omega), hsh]
    have e1 : (i :: j :: ks).length - (1 :: c :: List.replicate rest.length 1).length = 0 := by simp; omega
    rw [e1]
    have e2 : ∀ (m : ℕ) (ks : List ℕ), ks.length = m → List.zipWith (fun d i => if d = 1 then 0 else i) (List.replicate m 1) ks = List.replicate m 0 := by
      intro m
      induction m with
      | zero => intro ks _; simp
      | succ m ih => intro ks h; cases ks with
        | nil => simp at h
        | cons x ks => simp [List.replicate_succ, ih ks (by simpa using h)]
    have e3 : ∀ m : ℕ, flat (List.replicate m 1) (List.replicate m 0) = 0 := by
      intro m
      induction m with
      | zero => rfl
      | succ m ih => simp [List.replicate_succ, flat, ih]
    have e4 : (if c = 1 then 0 else j) = j := by split <;> omega
    simp only [List.drop_zero, List.zipWith_cons_cons, e2 _ _ hks, e4, if_true]
    simp [widen, reshape, hw, flat, e3, unflat]

theorem transform_eq (sqrt : K → K) (eps : K) (act : K → K) (w b mean var x : Tensor K) (hr : 2 ≤ x.shape.length) (hw : w.shape = [x.shape.getD 1 0]) (hb : b.shape = [x.shape.getD 1 0]) :
    ∃ r, transform sqrt eps act w b mean var x = some r ∧
      Same r ⟨x.shape, fun idx => act ((torchBatchNorm sqrt eps (some w) (some b) mean var x).get idx)⟩ := by
  obtain ⟨m, m1, m2, m3⟩ := elementwise_left (· * ·) x (widen x.shape.length (newWeight sqrt eps w var)) (widen_bc _ x.shape [] hr hw).1
  obtain ⟨r, r1, r2, r3⟩ := elementwise_left (· + ·) m (widen x.shape.length (newBias b mean (newWeight sqrt eps w var))) (by rw [m2]; exact (widen_bc _ x.shape [] hr hb).1)
  refine ⟨⟨r.shape, fun i => act (r.get i)⟩, ?_, by simp only; rw [r2, m2], ?_⟩
  · simp only [transform, m1, Option.bind_eq_bind, Option.bind_some, r1]
  · intro idx hi
    simp only at hi ⊢
    rw [r2, m2] at hi
    rw [r3 idx (by rw [m2]; exact hi), m3 idx hi, (widen_bc (newWeight sqrt eps w var) x.shape idx hr hw).2 hi, (widen_bc (newBias b mean (newWeight sqrt eps w var)) x.shape idx hr hb).2 hi]
    simp only [newWeight, newBias, torchBatchNorm, Option.elim]
    congr 1
    ring

/-- C104: batch normalization in evaluation mode, with and without weight and bias, for inputs of any rank. -/
theorem C104_float (sqrt : K → K) (eps : K) (w b : Option (Tensor K)) (mean var x : Tensor K) (hr : 2 ≤ x.shape.length) (hw : ∀ t ∈ w, t.shape = [x.shape.getD 1 0])
    (hb : ∀ t ∈ b, t.shape = [x.shape.getD 1 0]) :
    ∃ r, convertBatchNorm sqrt eps w b (some mean) (some var) false x = some r ∧ Same r (torchBatchNorm sqrt eps w b mean var x) := by
  have hw' : (w.getD ⟨[x.shape.getD 1 0], fun _ => 1⟩).shape = [x.shape.getD 1 0] := by
    cases w with
    | none => rfl
    | some t => exact hw t rfl
  have hb' : (b.getD ⟨[x.shape.getD 1 0], fun _ => 0⟩).shape = [x.shape.getD 1 0] := by
    cases b with
    | none => rfl
    | some t => exact hb t rfl
  obtain ⟨r, hr1, hr2⟩ := transform_eq sqrt eps id _ _ mean var x hr hw' hb'
  refine ⟨r, hr1, hr2.trans ⟨rfl, fun idx _ => ?_⟩⟩
  cases w <;> cases b <;> rfl

/-- C104: in training mode the batch's own statistics should be used and the running ones are. -/
theorem C104_training_false : ∃ (eps : ℝ) (mean var x : Tensor ℝ) (r : Tensor ℝ), convertBatchNorm Real.sqrt eps none none (some mean) (some var) true x = some r ∧
    ¬ Same r (torchBatchNormTraining Real.sqrt eps none none x) := by
  refine ⟨1, ⟨[1], fun _ => 0⟩, ⟨[1], fun _ => 0⟩, ⟨[2, 1], fun _ => 1⟩, ?_⟩
  obtain ⟨r, h1, h2⟩ := C104_float Real.sqrt 1 none none (⟨[1], fun _ => 0⟩ : Tensor ℝ) ⟨[1], fun _ => 0⟩ ⟨[2, 1], fun _ => 1⟩ (by simp) (by simp) (by simp)
  refine ⟨r, h1, fun h => ?_⟩
  have hb : InBounds [2, 1] [0, 0] := by simp [InBounds]
  have h3 := (h2.symm.trans h).2 [0, 0] hb
  have hl : (allIndices [2, 1]).filter (fun j => decide (j.getD 1 0 = [0, 0].getD 1 0)) = [[0, 0], [1, 0]] := by decide
  simp only [torchBatchNorm, torchBatchNormTraining, normalised, hl] at h3
  simp [avg, variance] at h3

/-! ### Quantized -/

/-- C104: quantized batch normalization without activation. -/
theorem C104_quantized (rnd : ℝ → ℤ) (sqrt : ℝ → ℝ) (eps : ℝ) (w b mean var : Tensor ℝ) (p q : QP) (x : Tensor ℤ) (hr : 2 ≤ x.shape.length) (hw : w.shape = [x.shape.getD 1 0])
    (hb : b.shape = [x.shape.getD 1 0]) :
    ∃ r, convertQuantBatchNorm rnd sqrt false eps w b mean var p q x = some r ∧ Same r (torchQuantBatchNorm rnd false eps w b mean var p q x sqrt) := by
  obtain ⟨r, h1, h2⟩ := transform_eq sqrt eps id w b mean var ⟨x.shape, fun i => p.real (x.get i)⟩ hr hw hb
  refine ⟨⟨r.shape, fun i => q.quant rnd (r.get i)⟩, ?_, h2.1, fun idx hi => ?_⟩
  · simp only [convertQuantBatchNorm, quantAct, h1, Option.bind_eq_bind, Option.bind_some]
  · simp only [torchQuantBatchNorm]
    rw [h2.2 idx hi]
    rfl

/-- C104: with a ReLU the result is right when zero is the smallest number the output can stand for; otherwise see `C104_relu_false`. -/
theorem C104_relu_partial (rnd : ℝ → ℤ) (hrnd : ∀ r, Nearest r (rnd r)) (sqrt : ℝ → ℝ) (eps : ℝ) (w b mean var : Tensor ℝ) (p q : QP) (hq : q.Valid) (hz : q.zp = q.lo) (x : Tensor ℤ)
    (hr : 2 ≤ x.shape.length) (hw : w.shape = [x.shape.getD 1 0]) (hb : b.shape = [x.shape.getD 1 0]) :
    ∃ r, convertQuantBatchNorm rnd sqrt true eps w b mean var p q x = some r ∧ Same r (torchQuantBatchNorm rnd true eps w b mean var p q x sqrt) := by
  obtain ⟨r, h1, h2, h3⟩ := C104_quantized rnd sqrt eps w b mean var p q x hr hw hb
  refine ⟨r, h1, h2, fun idx hi => ?_⟩
  rw [h3 idx hi]
  simp only [torchQuantBatchNorm]
  generalize (torchBatchNorm sqrt eps (some w) (some b) mean var ⟨x.shape, fun i => p.real (x.get i)⟩).get idx = y
  simp only [if_true]
  by_cases hy : 0 ≤ y
  · rw [max_eq_left hy]; simp
  · have hy' : y < 0 := not_le.1 hy
    rw [max_eq_right hy'.le]
    have key : ∀ z : ℝ, z ≤ 0 → q.quant rnd z = q.lo := by
      intro z hz0
      have hd : z / q.scale ≤ 0 := div_nonpos_of_nonpos_of_nonneg hz0 hq.1.le
      have hn := hrnd (z / q.scale)
      unfold Nearest at hn
      have : ((rnd (z / q.scale) : ℤ) : ℝ) < 1 := by
        have := (abs_le.1 hn).1
        linarith
      have hi : rnd (z / q.scale) ≤ 0 := by
        have : rnd (z / q.scale) < 1 := by exact_mod_cast this
        omega
      unfold QP.quant
      have hle := hq.2
      rw [hz]
      omega
    simp only [Bool.false_eq_true, if_false]
    rw [key y hy'.le, key 0 le_rfl]

/-- C104: the ReLU of `quantized::batch_norm2d_relu` is lost when the output can stand for negative numbers. -/
theorem C104_relu_false : ∃ (rnd : ℝ → ℤ), (∀ r, Nearest r (rnd r)) ∧ ∃ (w b mean var : Tensor ℝ) (p q : QP) (x : Tensor ℤ) (r : Tensor ℤ), p.Valid ∧ q.Valid ∧
    convertQuantBatchNorm rnd Real.sqrt true 0 w b mean var p q x = some r ∧ ¬ Same r (torchQuantBatchNorm rnd true 0 w b mean var p q x Real.sqrt) := by
  refine ⟨fun r => round r, fun r => abs_sub_round r, ⟨[1], fun _ => 1⟩, ⟨[1], fun _ => 0⟩, ⟨[1], fun _ => 0⟩, ⟨[1], fun _ => 1⟩, u8 1 128, u8 1 128, ⟨[1, 1, 1, 1], fun _ => 100⟩, ?_⟩
  obtain ⟨r, h1, h2⟩ := C104_quantized (fun r => round r) Real.sqrt 0 ⟨[1], fun _ => 1⟩ ⟨[1], fun _ => 0⟩ ⟨[1], fun _ => 0⟩ ⟨[1], fun _ => 1⟩ (u8 1 128) (u8 1 128)
    ⟨[1, 1, 1, 1], fun _ => 100⟩ (by simp) rfl rfl
  refine ⟨r, by simp [QP.Valid, u8], by simp [QP.Valid, u8], h1, fun h => ?_⟩
  have h3 := (h2.symm.trans h).2 [0, 0, 0, 0] (show InBounds [1, 1, 1, 1] [0, 0, 0, 0] by simp [InBounds])
  have hr : round (-28 : ℝ) = -28 := by exact_mod_cast round_intCast (α := ℝ) (-28)
  have hm : max (-28 : ℝ) 0 = 0 := by norm_num
  simp only [torchQuantBatchNorm, torchBatchNorm, QP.quant, QP.real, u8, dequant, Option.elim] at h3
  norm_num [hr, hm] at h3

/-- Non-vacuity. -/
example : ∃ r, convertBatchNorm (K := ℚ) (fun x => x) 1 (some ⟨[2], fun i => if i = [0] then 1 else 3⟩) none (some ⟨[2], fun _ => 1⟩) (some ⟨[2], fun _ => 1⟩) false ⟨[1, 2, 1, 1], fun _ => 5⟩ = some r ∧
    r.get [0, 1, 0, 0] = 6 := by
  obtain ⟨r, h1, h2⟩ := C104_float (K := ℚ) (fun x => x) 1 (some ⟨[2], fun i => if i = [0] then 1 else 3⟩) none ⟨[2], fun _ => 1⟩ ⟨[2], fun _ => 1⟩ ⟨[1, 2, 1, 1], fun _ => 5⟩
    (by simp) (by simp) (by simp)
  refine ⟨r, h1, ?_⟩
  rw [h2.2 [0, 1, 0, 0] (by rw [h2.1]; exact (show InBounds [1, 2, 1, 1] [0, 1, 0, 0] by simp [InBounds]))]
  norm_num [torchBatchNorm]

end Verif.Props
