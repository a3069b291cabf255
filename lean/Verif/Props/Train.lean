import Verif.Spec.Mean
import Mathlib.Data.List.Induction
import Mathlib.Tactic.Linarith
import Mathlib.Tactic.NormNum
import Mathlib.Tactic.Ring

/-!
C41 (training returns the best epoch's model) and C42 (running averages).
-/

namespace Verif.Props
open Verif.Model Verif.Spec

/-- The weights after epoch `i`: all the training steps so far. -/
def weightsAfter {W : Type} (trainFunc : Nat → W → W) (start : W) : Nat → W
  | 0 => trainFunc 0 start
  | i + 1 => trainFunc (i + 1) (weightsAfter trainFunc start i)

/-- The state after `n` epochs without quantization-aware training. -/
private theorem train_inv {W : Type} (tf : Nat → W → W) (val : W → ℚ) (M : Nat) (start : W) (old : Option W) (n : Nat) :
    let s := (List.range n).foldl (trainEpoch tf val M false) ⟨start, old, none, 0, []⟩
    (n = 0 → s.model = start) ∧ (∀ i, n = i + 1 → s.model = weightsAfter tf start i) ∧ 0 ≤ s.bestAcc
    ∧ (∀ i < n, val (weightsAfter tf start i) ≤ s.bestAcc)
    ∧ ((s.bestAcc = 0 ∧ s.bestFile = old) ∨ (0 < s.bestAcc ∧ ∃ i < n, s.bestFile = some (weightsAfter tf start i) ∧ val (weightsAfter tf start i) = s.bestAcc
        ∧ ∀ j < i, val (weightsAfter tf start j) < s.bestAcc)) := by
  induction n with
  | zero => simp
  | succ n ih =>
    simp only [List.range_succ, List.foldl_append, List.foldl_cons, List.foldl_nil]
    simp only at ih
    set s := (List.range n).foldl (trainEpoch tf val M false) ⟨start, old, none, 0, []⟩ with hs
    obtain ⟨h0, hmod, hnn, hle, hbest⟩ := ih
    have hm : tf n s.model = weightsAfter tf start n := by
      cases n with
      | zero => rw [h0 rfl]; rfl
      | succ k => rw [hmod k rfl]; rfl
    by_cases hacc : val (weightsAfter tf start n) > s.bestAcc
    · have e : trainEpoch tf val M false s n = { s with model := weightsAfter tf start n, bestAcc := val (weightsAfter tf start n), bestFile := some (weightsAfter tf start n) } := by
        simp only [trainEpoch, hm, Bool.false_eq_true, if_false]
        rw [if_pos hacc]
      rw [e]
      refine ⟨by simp, ?_, by simp only; linarith, ?_, Or.inr ⟨by simp only; linarith, n, by omega, rfl, rfl, ?_⟩⟩
      · intro i hi
        have : i = n := by omega
        subst this; rfl
      · intro i hi
        simp only
        rcases Nat.lt_succ_iff_lt_or_eq.mp hi with h | h
        · have := hle i h; linarith
        · rw [h]
      · intro j hj
        have := hle j hj
        simp only; linarith
    · have e : trainEpoch tf val M false s n = { s with model := weightsAfter tf start n } := by
        simp only [trainEpoch, hm, Bool.false_eq_true, if_false]
        rw [if_neg hacc]
      rw [e]
      refine ⟨by simp, ?_, hnn, ?_, ?_⟩
      · intro i hi
        have : i = n := by omega
        subst this; rfl
      · intro i hi
        rcases Nat.lt_succ_iff_lt_or_eq.mp hi with h | h
        · exact hle i h
        · rw [h]; exact not_lt.mp hacc
      · rcases hbest with h | ⟨h1, i, hi, h2⟩
        · exact Or.inl h
        · exact Or.inr ⟨h1, i, by omega, h2⟩

/-- **C41** Without quantization-aware training the model finally holds the weights of the first epoch that reaches the best accuracy, whatever was in the
working directory.  Partial: some epoch must have a positive accuracy; otherwise see `C41_no_positive_false`. -/
theorem C41_best_epoch_partial {W : Type} (trainFunc : Nat → W → W) (validate : W → ℚ) (maxEpoch : Nat) (start : W) (oldFile : Option W)
    (hpos : ∃ i < maxEpoch, 0 < validate (weightsAfter trainFunc start i)) :
    ∃ s i, trainRun trainFunc validate maxEpoch false start oldFile = some s ∧ i < maxEpoch ∧ s.model = weightsAfter trainFunc start i
      ∧ (∀ j < maxEpoch, validate (weightsAfter trainFunc start j) ≤ validate (weightsAfter trainFunc start i))
      ∧ ∀ j < i, validate (weightsAfter trainFunc start j) < validate (weightsAfter trainFunc start i) := by
  obtain ⟨_, _, hnn, hle, hbest⟩ := train_inv trainFunc validate maxEpoch start oldFile maxEpoch
  set s := (List.range maxEpoch).foldl (trainEpoch trainFunc validate maxEpoch false) ⟨start, oldFile, none, 0, []⟩ with hs
  obtain ⟨k, hk, hk0⟩ := hpos
  rcases hbest with ⟨h0, _⟩ | ⟨_, i, hi, h1, h2, h3⟩
  · have := hle k hk; rw [h0] at this; exact absurd hk0 (not_lt.mpr this)
  · refine ⟨{ s with model := weightsAfter trainFunc start i }, i, ?_, hi, rfl, ?_, ?_⟩
    · simp only [trainRun, ← hs, h1, Bool.false_eq_true, if_false, Option.map_some]
    · intro j hj; rw [h2]; exact hle j hj
    · intro j hj; rw [h2]; exact h3 j hj

/-- Three epochs with accuracies 1, 3, 3: the second wins. -/
example : (trainRun (fun _ (w : Nat) => w + 1) (fun w => if w = 1 then 1 else 3) 3 false 0 none).map (·.model) = some 2 := by decide

/-- If no accuracy is positive (for example when the validation returns minus the loss) the run ends with an error, or with the model an earlier run left
in the working directory. -/
theorem C41_no_positive_false : trainRun (fun _ (w : Nat) => w + 1) (fun w => (w : ℚ) - 10) 3 false 0 none = none
    ∧ (trainRun (fun _ (w : Nat) => w + 1) (fun w => (w : ℚ) - 10) 3 false 0 (some 99)).map (·.model) = some 99 := by
  constructor <;> norm_num [trainRun, trainEpoch, List.range_succ]

private theorem qat_inv {W : Type} (tf : Nat → W → W) (val : W → ℚ) (M : Nat) (start : W) (old : Option W) (n : Nat) (hn : n ≤ M) :
    let s := (List.range n).foldl (trainEpoch tf val M true) ⟨start, old, none, 0, []⟩
    (n = 0 → s.model = start) ∧ (∀ i, n = i + 1 → s.model = weightsAfter tf start i)
    ∧ s.freezes = (if M / 3 < n then [(M / 3, true)] else []) ++ (if M / 3 ≠ 0 ∧ M / 3 * 2 < n then [(M / 3 * 2, false)] else [])
    ∧ s.lastFile = (if n = M ∧ 0 < M then some s.model else none) := by
  induction n with
  | zero => simp; omega
  | succ n ih =>
    simp only [List.range_succ, List.foldl_append, List.foldl_cons, List.foldl_nil]
    have ih := ih (by omega)
    simp only at ih
    set s := (List.range n).foldl (trainEpoch tf val M true) ⟨start, old, none, 0, []⟩ with hs
    obtain ⟨h0, hmod, hfr, hlast⟩ := ih
    have hm : tf n s.model = weightsAfter tf start n := by
      cases n with
      | zero => rw [h0 rfl]; rfl
      | succ k => rw [hmod k rfl]; rfl
    have hmodel : (trainEpoch tf val M true s n).model = weightsAfter tf start n := by
      unfold trainEpoch
      simp only [if_true, hm]
      split <;> split <;> (try split) <;> rfl
    have hlast0 : s.lastFile = none := by rw [hlast, if_neg (by omega)]
    refine ⟨by simp, ?_, ?_, ?_⟩
    · intro i hi
      have : i = n := by omega
      subst this; exact hmodel
    · have hfr' : (trainEpoch tf val M true s n).freezes = s.freezes ++ (if n = M / 3 then [(n, true)] else if n = M / 3 * 2 then [(n, false)] else []) := by
        unfold trainEpoch
        simp only [if_true]
        split <;> split <;> (try split) <;> simp
      rw [hfr', hfr]
      by_cases c1 : n = M / 3
      · by_cases c0 : M / 3 = 0
        · simp [c1, c0]
        · have a1 : ¬ M / 3 < n := by omega
          have a2 : ¬ (M / 3 ≠ 0 ∧ M / 3 * 2 < n) := by omega
          have a3 : M / 3 < n + 1 := by omega
          have a4 : ¬ (M / 3 ≠ 0 ∧ M / 3 * 2 < n + 1) := by omega
          rw [if_pos c1, if_neg a1, if_neg a2, if_pos a3, if_neg a4, c1]; rfl
      · by_cases c2 : n = M / 3 * 2
        · have a1 : M / 3 < n := by omega
          have a2 : ¬ (M / 3 ≠ 0 ∧ M / 3 * 2 < n) := by omega
          have a3 : M / 3 < n + 1 := by omega
          have a4 : M / 3 ≠ 0 ∧ M / 3 * 2 < n + 1 := by omega
          rw [if_neg c1, if_pos c2, if_pos a1, if_neg a2, if_pos a3, if_pos a4, ← c2]; rfl
        · rw [if_neg c1, if_neg c2, List.append_nil]
          congr 1
          · congr 1; simp only [eq_iff_iff]; omega
          · congr 1; simp only [eq_iff_iff]; omega
    · by_cases c : n + 1 = M
      · have : (trainEpoch tf val M true s n).lastFile = some (trainEpoch tf val M true s n).model := by
          unfold trainEpoch
          simp only [if_true, if_pos c]
        rw [this, if_pos (by omega)]
      · have : (trainEpoch tf val M true s n).lastFile = s.lastFile := by
          unfold trainEpoch
          simp only [if_true, if_neg c]
          split <;> [rfl; split <;> rfl]
        rw [this, hlast0, if_neg (by omega)]

/-- **C41** With quantization-aware training of at least three epochs the observers are frozen once, after a third of the epochs, and batch norm once, later,
after two thirds; the last epoch's weights are kept and saved. -/
theorem C41_qat_partial {W : Type} (trainFunc : Nat → W → W) (validate : W → ℚ) (maxEpoch : Nat) (start : W) (oldFile : Option W) (h3 : 3 ≤ maxEpoch) :
    ∃ s, trainRun trainFunc validate maxEpoch true start oldFile = some s ∧ s.model = weightsAfter trainFunc start (maxEpoch - 1)
      ∧ s.lastFile = some s.model
      ∧ ∃ a b, s.freezes = [(a, true), (b, false)] ∧ a < b ∧ b < maxEpoch ∧ a = maxEpoch / 3 ∧ b = 2 * (maxEpoch / 3) := by
  obtain ⟨_, hmod, hfr, hlast⟩ := qat_inv trainFunc validate maxEpoch start oldFile maxEpoch (le_refl _)
  refine ⟨_, by simp [trainRun], hmod (maxEpoch - 1) (by omega), by rw [hlast, if_pos (by omega)], maxEpoch / 3, maxEpoch / 3 * 2, ?_, by omega, by omega, rfl,
    by omega⟩
  rw [hfr, if_pos (by omega), if_pos (by omega)]
  rfl

/-- With one or two epochs batch norm is never frozen, and the model is the last epoch's, not the best's. -/
theorem C41_qat_false : (trainRun (fun _ (w : Nat) => w + 1) (fun w => 5 - (w : ℚ)) 2 true 0 none).map (fun s => (s.model, s.freezes)) = some (2, [(0, true)]) := by
  decide

private theorem recorded_append (ops : List MeterOp) (op : MeterOp) :
    recorded (ops ++ [op]) = match op with | .update v n => recorded ops ++ [(v, n)] | .reset => [] := by
  unfold recorded
  rw [List.foldl_append]
  cases op <;> rfl

/-- The meter after a history that raised no error. -/
private theorem meter_inv (ops : List MeterOp) : ∀ m, meterRun ops = some m →
    m.sum = ((recorded ops).map (fun p => p.1 * p.2)).sum ∧ m.count = totalWeight (recorded ops) ∧ m.avg = weightedMean (recorded ops)
      ∧ m.val = (match (recorded ops).getLast? with | none => 0 | some p => p.1) := by
  induction ops using List.reverseRecOn with
  | nil => intro m h; simp [meterRun, Meter.zero] at h; subst h; simp [recorded, totalWeight, weightedMean]
  | append_singleton ops op ih =>
    intro m h
    unfold meterRun at h
    rw [List.foldlM_append] at h
    cases h1 : ops.foldlM Meter.step .zero with
    | none => rw [h1] at h; cases h
    | some m0 =>
      rw [h1] at h
      obtain ⟨s1, s2, _, _⟩ := ih m0 h1
      have h : m0.step op = some m := by simpa using h
      rw [recorded_append]
      cases op with
      | reset => simp only [Meter.step, Option.some.injEq] at h; subst h; simp [Meter.zero, totalWeight, weightedMean]
      | update v n =>
        simp only [Meter.step, Meter.update] at h
        split at h
        · cases h
        · simp only [Option.some.injEq] at h
          subst h
          simp only [totalWeight, weightedMean, List.map_append, List.sum_append, List.map_cons, List.map_nil, List.sum_cons, List.sum_nil, add_zero,
            List.getLast?_append, List.getLast?_singleton, Option.some_or] at *
          rw [s1, s2]
          exact ⟨rfl, rfl, rfl, trivial⟩

/-- **C42** After any history of updates and resets that raised no error, the average is the weighted mean of what was recorded since the last reset (zero if
nothing), the sum and the count are the weighted sum and the total weight, and the value is the last one. -/
theorem C42_average (ops : List MeterOp) (m : Meter) (h : meterRun ops = some m) :
    m.avg = weightedMean (recorded ops) ∧ m.sum = ((recorded ops).map (fun p => p.1 * p.2)).sum ∧ m.count = totalWeight (recorded ops)
      ∧ m.val = (match (recorded ops).getLast? with | none => 0 | some p => p.1) :=
  let ⟨a, b, c, d⟩ := meter_inv ops m h
  ⟨c, a, b, d⟩

/-- **C42** The only error is a total weight of zero right after an update. -/
theorem C42_error (ops : List MeterOp) : meterRun ops = none ↔
    ∃ pre v n rest, ops = pre ++ MeterOp.update v n :: rest ∧ (∃ m, meterRun pre = some m) ∧ totalWeight (recorded (pre ++ [MeterOp.update v n])) = 0 := by
  induction ops using List.reverseRecOn with
  | nil => simp [meterRun]
  | append_singleton ops op ih =>
    have hrun : meterRun (ops ++ [op]) = (meterRun ops).bind (fun m => m.step op) := by
      unfold meterRun
      rw [List.foldlM_append]
      cases ops.foldlM Meter.step .zero <;> simp
    rw [hrun]
    cases hm : meterRun ops with
    | none =>
      simp only [Option.bind_none, true_iff]
      obtain ⟨pre, v, n, rest, h1, h2, h3⟩ := ih.mp hm
      exact ⟨pre, v, n, rest ++ [op], by rw [h1]; simp, h2, h3⟩
    | some m =>
      simp only [Option.bind_some]
      obtain ⟨_, hc, _, _⟩ := meter_inv ops m hm
      constructor
      · intro h
        cases op with
        | reset => simp [Meter.step] at h
        | update v n =>
          simp only [Meter.step, Meter.update] at h
          split at h
          · rename_i h0
            refine ⟨ops, v, n, [], rfl, ⟨m, hm⟩, ?_⟩
            rw [recorded_append]
            simp only [totalWeight, List.map_append, List.sum_append, List.map_cons, List.map_nil, List.sum_cons, List.sum_nil, add_zero] at hc ⊢
            rw [← hc]; exact h0
          · cases h
      · rintro ⟨pre, v, n, rest, h1, h2, h3⟩
        rcases List.eq_nil_or_concat rest with hr | ⟨rest', x, hr⟩
        · subst hr
          have h1' := List.append_inj' h1 rfl
          obtain ⟨e1, e2⟩ := h1'
          have e2 : op = MeterOp.update v n := by simpa using e2
          subst e1 e2
          rw [recorded_append] at h3
          simp only [totalWeight, List.map_append, List.sum_append, List.map_cons, List.map_nil, List.sum_cons, List.sum_nil, add_zero] at hc h3
          rw [← hc] at h3
          simp [Meter.step, Meter.update, h3]
        · exfalso
          subst hr
          have e : ops = pre ++ MeterOp.update v n :: rest' := by
            have : ops ++ [op] = (pre ++ MeterOp.update v n :: rest') ++ [x] := by rw [h1]; simp
            exact (List.append_inj' this rfl).1
          have := ih.mpr ⟨pre, v, n, rest', e, h2, h3⟩
          rw [hm] at this; cases this

/-- Positive weights never fail: two updates, a reset, another update. -/
example : (meterRun [.update 3 2, .update 6 1, .reset, .update 5 4, .update 10 1]).map (·.avg) = some 6 := by
  norm_num [meterRun, Meter.step, Meter.update, Meter.zero]

end Verif.Props
