import Verif.Model.ActLower
import Verif.Lemmas.Bcast
import Verif.Props.QuantStore
import Mathlib.Tactic.Positivity

/-! C78: converted activation functions. -/

namespace Verif.Props

open Verif.Spec Verif.Spec.Activation Verif.Model Verif.Model.ActLower

/-- **C78, clamp** on float tensors: for all bounds, given or missing, crossing or not, and all inputs. -/
theorem C78_clamp (lo hi : Option ℝ) (x : ℝ) : clampFloat lo hi x = clamp lo hi x := by
  unfold clampFloat clamp relu6 ActLower.relu
  split_ifs with h1 h2
  · rw [h1.1, h1.2]
  · rw [h2.1, h2.2]
  · cases lo <;> cases hi <;> rfl

/-- Crossing bounds: the upper one wins. -/
example : clamp (some 3) (some 1) 2 = 1 ∧ clamp (some 0) none (-5) = 0 := by
  constructor <;> simp [clamp]

/-- **C78, hardtanh** on float tensors: for all bounds in order and all inputs. -/
theorem C78_hardtanh (lo hi x : ℝ) (h : lo ≤ hi) : hardtanhFloat lo hi x = hardtanh lo hi x := by
  unfold hardtanhFloat hardtanh relu6
  have key : min (max x lo) hi = if x < lo then lo else if hi < x then hi else x := by
    split_ifs with h1 h2
    · rw [max_eq_right (le_of_lt h1), min_eq_left h]
    · rw [max_eq_left (not_lt.1 h1), min_eq_right (le_of_lt h2)]
    · rw [max_eq_left (not_lt.1 h1), min_eq_left (not_lt.1 h2)]
  by_cases h1 : lo = 0 ∧ hi = 6
  · rw [if_pos h1, ← key, h1.1, h1.2]
  · rw [if_neg h1, ← key]

example : (-1 : ℝ) ≤ 1 ∧ hardtanh (-1) 1 5 = 1 := by
  refine ⟨by norm_num, ?_⟩
  unfold hardtanh; norm_num

/-- Moving the bounds of a clamp by at most `e` moves the result by at most `e`. -/
theorem clamp_lipschitz (e x a b a' b' : ℝ) (ha : |a - a'| ≤ e) (hb : |b - b'| ≤ e) :
    |min (max x a) b - min (max x a') b'| ≤ e := by
  have h1 : |max x a - max x a'| ≤ |a - a'| := by
    simpa using abs_max_sub_max_le_max x a x a'
  have h2 := abs_min_sub_min_le_max (max x a) b (max x a') b'
  exact h2.trans (max_le (h1.trans ha) hb)

/-- **C78, clamp on quantized tensors**: when each given bound lies in the range the tensor can represent, the stored result stands
for the clamped value to within half a step, for every scale, zero point, stored value and every way of breaking ties. Partial:
RELU and RELU6 (bounds 0 and 6) on quantized tensors, and bounds outside the range, are missing. -/
theorem C78_clamp_quant_partial (rnd : ℝ → Int) (hr : IsNearest rnd) (qlo qhi : Int) (scale : ℝ) (hs : 0 < scale) (zp : Int)
    (a b : ℝ) (ha : dequant scale zp qlo ≤ a ∧ a ≤ dequant scale zp qhi)
    (hb : dequant scale zp qlo ≤ b ∧ b ≤ dequant scale zp qhi) (q : Int) :
    |dequant scale zp (clampQuant rnd qlo qhi scale zp (some a) (some b) q)
      - clamp (some a) (some b) (dequant scale zp q)| ≤ scale / 2 := by
  -- the quantized bound stands for the bound to within half a step
  have hQ : ∀ v, dequant scale zp qlo ≤ v ∧ v ≤ dequant scale zp qhi →
      |dequant scale zp (quantizeNumpy rnd qlo qhi scale zp v) - v| ≤ scale / 2 := by
    intro v hv
    unfold dequant at hv
    have hn := abs_le.1 (hr (v / scale + zp))
    have l1 : (qlo : ℝ) ≤ v / scale + zp := by
      have : (qlo : ℝ) - zp ≤ v / scale := by rw [le_div_iff₀ hs]; linarith [hv.1]
      linarith
    have l2 : v / scale + zp ≤ qhi := by
      have : v / scale ≤ (qhi : ℝ) - zp := by rw [div_le_iff₀ hs]; linarith [hv.2]
      linarith
    have key : |((quantizeNumpy rnd qlo qhi scale zp v : Int) : ℝ) - (v / scale + zp)| ≤ 1 / 2 := by
      unfold quantizeNumpy
      have hlh : qlo ≤ qhi := by
        have : (qlo : ℝ) ≤ qhi := le_trans l1 l2
        exact_mod_cast this
      rw [abs_le]
      rcases le_total (rnd (v / scale + zp)) qhi with g | g
      · rcases le_total qlo (rnd (v / scale + zp)) with g' | g'
        · rw [min_eq_right g, max_eq_right g']; constructor <;> linarith
        · rw [min_eq_right g, max_eq_left g']
          have : (rnd (v / scale + zp) : ℝ) ≤ qlo := by exact_mod_cast g'
          constructor <;> linarith
      · have : (qhi : ℝ) ≤ rnd (v / scale + zp) := by exact_mod_cast g
        rw [min_eq_left g, max_eq_right hlh]
        constructor <;> linarith
    have e : dequant scale zp (quantizeNumpy rnd qlo qhi scale zp v) - v
        = scale * (((quantizeNumpy rnd qlo qhi scale zp v : Int) : ℝ) - (v / scale + zp)) := by
      unfold dequant; field_simp; ring
    rw [e, abs_mul, abs_of_pos hs]
    nlinarith
  -- dequantization is monotone
  have hmono : Monotone (fun n : Int => dequant scale zp n) := by
    intro m n hmn
    have : (m : ℝ) ≤ n := by exact_mod_cast hmn
    simp only [dequant]
    nlinarith
  simp only [clampQuant, clamp]
  have e1 := hmono.map_min (a := max q (quantizeNumpy rnd qlo qhi scale zp a)) (b := quantizeNumpy rnd qlo qhi scale zp b)
  have e2 := hmono.map_max (a := q) (b := quantizeNumpy rnd qlo qhi scale zp a)
  rw [e1, e2]
  exact clamp_lipschitz _ _ _ _ _ _ (hQ a ha) (hQ b hb)

example : IsNearest (fun x : ℝ => round x) ∧ dequant (1 / 10) 100 0 ≤ (-1 : ℝ) ∧ (-1 : ℝ) ≤ dequant (1 / 10) 100 255 := by
  refine ⟨exists_nearest, ?_, ?_⟩ <;> norm_num [dequant]

/-- **C78 is false for hardtanh on quantized tensors**: the bounds 0 and 1 are compared with the stored integers, so the value 5
(stored 150, scale 1/10, zero point 100) becomes −9.9, far outside the bounds. -/
theorem C78_hardtanh_quant_false :
    dequant (1 / 10) 100 150 = 5 ∧ hardtanh 0 1 5 = 1 ∧ dequant (1 / 10) 100 (hardtanhQuantU8 0 1 150) = -99 / 10 := by
  refine ⟨by norm_num [dequant], by unfold hardtanh; norm_num, ?_⟩
  have : hardtanhQuantU8 0 1 150 = 1 := by decide
  rw [this]; norm_num [dequant]

/-- The usual bounds −1 and 1 are stored as 255 and 1, so every stored value becomes 1: the result no longer depends on the input. -/
theorem C78_hardtanh_default_false (q : Int) (hq : q ≤ 255) : hardtanhQuantU8 (-1) 1 q = 1 := by
  have h1 : wrapU8 (-1) = 255 := by decide
  have h2 : wrapU8 1 = 1 := by decide
  unfold hardtanhQuantU8
  rw [h1, h2]
  omega

/-- **C78, hardsigmoid** for all inputs. -/
theorem C78_hardsigmoid (x : ℝ) : hardsigmoidOps x = hardsigmoid x := by
  unfold hardsigmoidOps hardsigmoid relu6
  split_ifs with h1 h2
  · rw [max_eq_right (by linarith)]; norm_num
  · rw [max_eq_left (by linarith), min_eq_right (by linarith)]; norm_num
  · push Not at h1 h2
    rw [max_eq_left (by linarith), min_eq_left (by linarith)]; ring

example : hardsigmoid 1 = 2 / 3 := by unfold hardsigmoid; norm_num

/-- **C78, softplus**: below the threshold, and where `exp x + 1` is a float, the result is PyTorch's; above the threshold without
overflow it differs by at most `exp (−threshold)`. Partial: inputs whose exponential overflows (`C78_softplus_overflow_false`). -/
theorem C78_softplus_partial (M threshold x : ℝ) (hM : Real.exp x + 1 ≤ M) :
    ∃ y, softplusOps M 1 threshold x = some (some y) ∧
      (x ≤ threshold → y = softplus 1 threshold x) ∧
      |y - softplus 1 threshold x| ≤ Real.exp (-threshold) := by
  have h1 : Real.exp x ≤ M := by linarith
  have hops : softplusOps M 1 threshold x = some (some (Real.log (Real.exp x + 1))) := by
    simp [softplusOps, fexp, fadd, flog, h1, hM]
  refine ⟨_, hops, ?_, ?_⟩
  · intro hx
    unfold softplus
    rw [if_neg (by linarith)]
    simp [add_comm]
  · unfold softplus
    split_ifs with h
    · have hx : threshold < x := by linarith
      have hpos : 0 < Real.exp x := Real.exp_pos x
      have e : Real.log (Real.exp x + 1) - x = Real.log (1 + Real.exp (-x)) := by
        have : Real.exp x + 1 = Real.exp x * (1 + Real.exp (-x)) := by
          rw [mul_add, ← Real.exp_add]; simp
        rw [this, Real.log_mul (ne_of_gt hpos) (by positivity), Real.log_exp]; ring
      rw [e, abs_of_nonneg (Real.log_nonneg (by linarith [Real.exp_pos (-x)]))]
      calc Real.log (1 + Real.exp (-x)) ≤ (1 + Real.exp (-x)) - 1 := Real.log_le_sub_one_of_pos (by positivity)
        _ = Real.exp (-x) := by ring
        _ ≤ Real.exp (-threshold) := Real.exp_le_exp.2 (by linarith)
    · simp [add_comm, (Real.exp_pos (-threshold)).le]

example : Real.exp 0 + 1 ≤ (3 : ℝ) := by simp; norm_num

/-- **C78 is false for softplus on large inputs**: once the exponential overflows the result is infinite, while PyTorch returns
the input. -/
theorem C78_softplus_overflow_false (M threshold x : ℝ) (hM : M < Real.exp x) (hx : threshold < x) :
    softplusOps M 1 threshold x = some none ∧ softplus 1 threshold x = x := by
  refine ⟨by simp [softplusOps, fexp, fadd, flog, not_le.2 hM], ?_⟩
  unfold softplus
  rw [if_pos (by linarith)]

example : (3 : ℝ) < Real.exp 20.5 ∧ (20 : ℝ) < 20.5 := by
  refine ⟨?_, by norm_num⟩
  have := Real.add_one_le_exp (20.5 : ℝ)
  linarith

/-- **C78 is false for softplus with another threshold**: the threshold is ignored, so every input above it gives a number that
is not the input. -/
theorem C78_softplus_threshold_false (M threshold x : ℝ) (hM : Real.exp x + 1 ≤ M) (hx : threshold < x) :
    ∃ y, softplusOps M 1 threshold x = some (some y) ∧ y ≠ softplus 1 threshold x := by
  have h1 : Real.exp x ≤ M := by linarith
  refine ⟨Real.log (Real.exp x + 1), by simp [softplusOps, fexp, fadd, flog, h1, hM], ?_⟩
  unfold softplus
  rw [if_pos (by linarith)]
  intro h
  have := Real.exp_log (show 0 < Real.exp x + 1 by positivity)
  rw [h] at this
  linarith

example : Real.exp 0 + 1 ≤ (3 : ℝ) ∧ (-1 : ℝ) < 0 := by constructor <;> simp <;> norm_num

/-- **C78, mish**: exact as long as `exp x + 1` is a float; beyond, off by at most `2 |x| / M²` for the largest float `M`. -/
theorem C78_mish (M x : ℝ) (hM : 0 < M) :
    (Real.exp x + 1 ≤ M → mishOps M x = mish x) ∧
    |mishOps M x - mish x| ≤ 2 * |x| / M ^ 2 := by
  have hexact : Real.exp x + 1 ≤ M → mishOps M x = mish x := by
    intro h
    have h1 : Real.exp x ≤ M := by linarith
    simp [mishOps, mish, fexp, fadd, flog, ftanh, h1, h, add_comm (1 : ℝ)]
  refine ⟨hexact, ?_⟩
  by_cases h : Real.exp x + 1 ≤ M
  · rw [hexact h]; simp; positivity
  · push Not at h
    have hov : mishOps M x = x := by
      unfold mishOps fexp
      split_ifs with g
      · simp [fadd, flog, ftanh, not_le.2 h]
      · simp [fadd, flog, ftanh]
    rw [hov]
    have hu : 0 < 1 + Real.exp x := by positivity
    have htanh : Real.tanh (Real.log (1 + Real.exp x)) = 1 - 2 / ((1 + Real.exp x) ^ 2 + 1) := by
      rw [Real.tanh_eq_sinh_div_cosh, Real.sinh_eq, Real.cosh_eq, Real.exp_neg, Real.exp_log hu]
      field_simp
      ring
    unfold mish
    rw [htanh]
    have e : x - x * (1 - 2 / ((1 + Real.exp x) ^ 2 + 1)) = 2 * x / ((1 + Real.exp x) ^ 2 + 1) := by ring
    rw [e, abs_div, abs_mul, abs_of_pos (show (0 : ℝ) < 2 by norm_num),
      abs_of_pos (show (0 : ℝ) < (1 + Real.exp x) ^ 2 + 1 by positivity)]
    apply div_le_div_of_nonneg_left (by positivity) (by positivity)
    nlinarith

example : (0 : ℝ) < 10 ∧ Real.exp 0 + 1 ≤ (10 : ℝ) := by constructor <;> norm_num

/-- **C78, ELU** on float tensors: whenever the conversion accepts the parameters. -/
theorem C78_elu (alpha scale inputScale x y : ℝ) (h : eluOps alpha scale inputScale x = some y) :
    y = elu alpha scale inputScale x := by
  unfold eluOps at h
  split_ifs at h with hp
  obtain ⟨rfl, rfl, rfl⟩ := hp
  simp only [Option.some.injEq] at h
  rw [← h]
  simp [tflElu, elu]

example : eluOps 1 1 1 (-1) = some (Real.exp (-1) - 1) := by simp [eluOps, tflElu]

/-- **C78 is false for quantized ELU**: the parameters are ignored without a check; with `alpha = 2` every negative input gives half
of PyTorch's result. -/
theorem C78_quantized_elu_false (x : ℝ) (hx : x < 0) :
    elu 2 1 1 x = 2 * quantizedEluOps 2 1 1 x ∧ quantizedEluOps 2 1 1 x ≠ elu 2 1 1 x := by
  have hle : ¬ 0 < x := by linarith
  have h1 : elu 2 1 1 x = 2 * quantizedEluOps 2 1 1 x := by simp [elu, quantizedEluOps, tflElu, hle]
  refine ⟨h1, ?_⟩
  rw [h1]
  have hlt : quantizedEluOps 2 1 1 x < 0 := by
    simp only [quantizedEluOps, tflElu, hle, if_false]
    have : Real.exp x < 1 := by simpa using hx
    linarith
  intro h
  linarith

/-- **C78 is false for GELU**: the flag handed to the operator is inverted, so both modes are converted to the formula of the
other one. -/
theorem C78_gelu_false : geluOps "none" ≠ gelu "none" ∧ geluOps "tanh" ≠ gelu "tanh" := by decide

/-- **C78, SiLU** for all inputs. -/
theorem C78_silu (x : ℝ) : siluOps x = silu x := rfl

/-- **C78, GLU** for all shapes with an even size along the axis, and all contents. -/
theorem C78_glu (dim : Nat) (t : Tensor ℝ) : ∃ r, gluOps dim t = some r ∧ Same r (glu dim t) := by
  unfold gluOps
  obtain ⟨r, h1, h2, h3⟩ := Lemmas.elementwise_left (fun a b : ℝ => a * b)
    (⟨t.shape.set dim (t.shape.getD dim 0 / 2), fun idx => t.get (idx.set dim (0 + idx.getD dim 0))⟩ : Tensor ℝ)
    (mapTensor sigmoid ⟨t.shape.set dim (t.shape.getD dim 0 / 2),
      fun idx => t.get (idx.set dim (t.shape.getD dim 0 / 2 + idx.getD dim 0))⟩)
    (Lemmas.expandOk_refl _)
  refine ⟨r, h1, h2, ?_⟩
  intro idx hidx
  rw [h2] at hidx
  rw [h3 idx hidx, Lemmas.bcGet_same (mapTensor sigmoid ⟨t.shape.set dim (t.shape.getD dim 0 / 2),
      fun idx => t.get (idx.set dim (t.shape.getD dim 0 / 2 + idx.getD dim 0))⟩) idx hidx]
  simp only [glu, mapTensor]
  have hset : idx.set dim (0 + idx.getD dim 0) = idx := by
    apply List.ext_getElem (by simp)
    intro i g1 g2
    rw [List.getElem_set]
    split_ifs with he
    · subst he; simp [g2]
    · rfl
  rw [hset, Nat.add_comm]

example : (glu 0 ⟨[4], fun i => (i.getD 0 0 : ℝ)⟩).shape = [2] := by simp [glu]

namespace PreluAux

theorem flat_zeros (n : Nat) (k c : Nat) : flat (c :: List.replicate n 1) (k :: List.replicate n 0) = k := by
  have h0 : ∀ n, flat (List.replicate n 1) (List.replicate n 0) = 0 := by
    intro n
    induction n with
    | zero => rfl
    | succ n ih => simp [List.replicate_succ, flat, ih]
  simp [flat, h0]

theorem expandOk_alpha (n c : Nat) (rest : List Nat) : ExpandOk (c :: List.replicate rest.length 1) (n :: c :: rest) := by
  refine ⟨by simp, ?_⟩
  have : (n :: c :: rest).length - (c :: List.replicate rest.length 1).length = 1 := by simp
  rw [this, List.drop_one, List.tail_cons]
  refine .cons (Or.inl rfl) ?_
  clear this
  induction rest with
  | nil => exact .nil
  | cons d rest ih => exact .cons (Or.inr rfl) ih

theorem zip_ones (rest r : List Nat) (h : r.length = rest.length) :
    List.zipWith (fun d i => if d = 1 then 0 else i) (List.replicate rest.length 1) r = List.replicate rest.length 0 := by
  induction rest generalizing r with
  | nil => simp
  | cons d rest ih =>
    cases r with
    | nil => simp at h
    | cons x r =>
      simp only [List.length_cons, List.replicate_succ, List.zipWith_cons_cons, if_true]
      rw [ih r (by simpa using h)]

/-- Reading the slope tensor at an index of the input. -/
theorem bcGet_alpha (a : Tensor ℝ) (n c : Nat) (rest idx : List Nat) (ha : a.shape = c :: List.replicate rest.length 1)
    (h : InBounds (n :: c :: rest) idx) :
    bcGet a idx = a.get ((if c = 1 then 0 else idx.getD 1 0) :: List.replicate rest.length 0) := by
  have hl := Lemmas.inBounds_length h
  rw [Lemmas.bcGet_eq a idx (by rw [ha, hl]; simp), ha]
  match idx, hl with
  | x :: k :: r, hl =>
    have : (x :: k :: r).length - (c :: List.replicate rest.length 1).length = 1 := by
      simp only [List.length_cons] at hl ⊢; simp; omega
    rw [this, List.drop_one, List.tail_cons, List.zipWith_cons_cons, zip_ones rest r (by simpa using hl)]
    rfl

end PreluAux

open PreluAux in
/-- **C78, PReLU**: for every input with a channel axis, one slope per channel or a single slope, when no slope tensor of another
rank is in the transform store. Partial: see `C78_prelu_store_false`. -/
theorem C78_prelu_partial (alpha : List ℝ) (t : Tensor ℝ) (n c : Nat) (rest : List Nat) (ht : t.shape = n :: c :: rest)
    (ha : alpha.length = c ∨ alpha.length = 1) :
    ∃ r, preluOps none alpha t = some r ∧ Same r (prelu alpha t) := by
  unfold preluOps preluAlpha
  rw [ht]
  simp only [List.getD_cons_succ, List.getD_cons_zero, Option.getD_none]
  by_cases hc : alpha.length = c
  · simp only [hc, if_true, Option.bind_some]
    obtain ⟨r, h1, h2, h3⟩ := Lemmas.elementwise_left (fun x a : ℝ => if 0 < x then x else a * x) t
      (reshape (c :: List.replicate rest.length 1) ⟨[c], fun i => alpha.getD (i.getD 0 0) 0⟩)
      (by rw [ht]; exact expandOk_alpha n c rest)
    refine ⟨r, h1, h2, ?_⟩
    intro idx hidx
    rw [h2] at hidx
    rw [h3 idx hidx, bcGet_alpha _ n c rest idx rfl (by rw [← ht]; exact hidx)]
    simp only [prelu, reshape, flat_zeros, unflat, List.prod_nil, Nat.div_one, List.getD_cons_zero, hc]
    split_ifs <;> rfl
  · have h1' : alpha.length = 1 := by rcases ha with h | h; exact absurd h hc; exact h
    simp only [hc, if_false, Option.bind_some]
    rw [h1']
    obtain ⟨r, h1, h2, h3⟩ := Lemmas.elementwise_left (fun x a : ℝ => if 0 < x then x else a * x) t
      (⟨(1 * c) :: List.replicate rest.length 1, fun i => alpha.getD (i.getD 0 0 % 1) 0⟩ : Tensor ℝ)
      (by rw [ht, Nat.one_mul]; exact expandOk_alpha n c rest)
    refine ⟨r, h1, h2, ?_⟩
    intro idx hidx
    rw [h2] at hidx
    rw [h3 idx hidx, bcGet_alpha _ n c rest idx (by simp) (by rw [← ht]; exact hidx)]
    simp only [prelu, h1', if_true, Nat.mod_one]

example : (prelu [1 / 2, 3] ⟨[1, 2], fun i => -(i.getD 1 0 : ℝ) - 1⟩).get [0, 1] = -6 := by
  simp [prelu]; norm_num

/-- **C78 is false for a single slope shared by inputs of different rank**: the slope tensor made for a rank-4 input is reused for a
rank-3 input with as many channels, and the result has the wrong shape. -/
theorem C78_prelu_store_false : ∃ (alpha : List ℝ) (t4 t3 : Tensor ℝ) (r : Tensor ℝ),
    t4.shape = [1, 2, 1, 1] ∧ t3.shape = [1, 2, 5] ∧
    preluOps (preluAlpha alpha t4.shape) alpha t3 = some r ∧ r.shape = [2, 2, 5] ∧ (prelu alpha t3).shape = [1, 2, 5] := by
  refine ⟨[1 / 4], ⟨[1, 2, 1, 1], fun _ => 0⟩, ⟨[1, 2, 5], fun _ => 0⟩, _, rfl, rfl, rfl, ?_, rfl⟩
  decide

end Verif.Props
