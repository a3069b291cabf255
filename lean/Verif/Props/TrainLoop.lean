import Verif.Model.TrainLoop
import Mathlib.Tactic.Common
import Mathlib.Tactic.FieldSimp
import Mathlib.Tactic.Ring
import Mathlib.Tactic.NormNum
import Mathlib.Data.Rat.Cast.Order

/-!
C141: the steps of training, validation and calibration.
-/

namespace Verif.Props
open Verif.Spec.TrainLoop Verif.Model.TrainLoop

variable {P G B : Type} [AddMonoid G]

/-- The rates from a state on. -/
def ratesFrom (c : Cfg) (s : St P G) (t : ℕ) : Rate := rateAfter c.hasWarm c.hasIter c.warmup s.iteration s.rate t

theorem descend_congr (grad : P → B → G) (opt : Rate → P → G → P) (f g : ℕ → Rate) : ∀ (l : List B) (t u : ℕ) (p : P), (∀ i, f (t + i) = g (u + i)) → descend grad opt f t l p = descend grad opt g u l p
  | [], _, _, _, _ => rfl
  | b :: l, t, u, p, h => by
    unfold descend
    rw [descend_congr grad opt f g l (t + 1) (u + 1) _ fun i => by have := h (1 + i); rwa [← Nat.add_assoc, ← Nat.add_assoc] at this]
    have := h 0
    rw [Nat.add_zero, Nat.add_zero] at this
    rw [this]

theorem ratesFrom_batch (grad : P → B → G) (opt : Rate → P → G → P) (c : Cfg) (s : St P G) (b : B) (t : ℕ) : ratesFrom c (trainBatch grad opt c s b) t = ratesFrom c s (t + 1) := by
  unfold trainBatch ratesFrom rateAfter
  dsimp only
  by_cases h1 : c.hasWarm = true <;> by_cases h2 : c.hasIter = true <;> by_cases h3 : c.warmup > s.iteration <;> by_cases h4 : c.warmup ≤ s.iteration + 1 <;>
    simp only [h1, h2, h3, h4, true_and, false_and, and_true, and_false, if_true, if_false, Bool.false_eq_true] <;> congr 1 <;> omega

theorem loop_spec (grad : P → B → G) (opt : Rate → P → G → P) (c : Cfg) : ∀ (l : List B) (s : St P G),
    (trainLoop (trainBatch grad opt c) c l s).iteration = s.iteration + used c.max s.iteration l.length ∧
    (trainLoop (trainBatch grad opt c) c l s).params = descend grad opt (ratesFrom c s) 0 (l.take (used c.max s.iteration l.length)) s.params ∧
    (trainLoop (trainBatch grad opt c) c l s).rate = ratesFrom c s (used c.max s.iteration l.length)
  | [], s => by
    have hu : used c.max s.iteration 0 = 0 := by unfold used; cases c.max <;> simp
    rw [List.length_nil, hu]
    refine ⟨rfl, rfl, ?_⟩
    show s.rate = _
    unfold ratesFrom rateAfter
    by_cases h1 : c.hasWarm = true <;> by_cases h2 : c.hasIter = true <;> simp [h1, h2]
  | b :: l, s => by
    unfold trainLoop
    have hit : (trainBatch grad opt c s b).iteration = s.iteration + 1 := by
      unfold trainBatch
      dsimp only
      by_cases h1 : c.hasWarm = true ∧ c.warmup > s.iteration <;> by_cases h2 : c.hasIter = true ∧ c.warmup ≤ s.iteration + 1 <;> simp [h1, h2]
    have hpar : (trainBatch grad opt c s b).params = opt s.rate s.params (grad s.params b) := by
      unfold trainBatch
      dsimp only
      by_cases h1 : c.hasWarm = true ∧ c.warmup > s.iteration <;> by_cases h2 : c.hasIter = true ∧ c.warmup ≤ s.iteration + 1 <;> simp [h1, h2]
    by_cases hs : stops c s
    · rw [if_pos hs]
      have hu : used c.max s.iteration (b :: l).length = 0 := by
        unfold used
        unfold stops at hs
        cases hm : c.max with
        | none => rw [hm] at hs; simp at hs
        | some m =>
          rw [hm] at hs
          have : m ≤ s.iteration := of_decide_eq_true hs
          dsimp only
          omega
      rw [hu]
      refine ⟨rfl, rfl, ?_⟩
      unfold ratesFrom rateAfter
      by_cases h1 : c.hasWarm = true <;> by_cases h2 : c.hasIter = true <;> simp [h1, h2]
    · rw [if_neg hs]
      obtain ⟨h1, h2, h3⟩ := loop_spec grad opt c l (trainBatch grad opt c s b)
      have hu : used c.max s.iteration (b :: l).length = used c.max (s.iteration + 1) l.length + 1 := by
        unfold used
        unfold stops at hs
        cases hm : c.max with
        | none => rfl
        | some m =>
          rw [hm] at hs
          have : ¬ m ≤ s.iteration := fun h => hs (decide_eq_true h)
          dsimp only
          rw [List.length_cons]
          omega
      rw [h1, h2, h3, hit, hu, hpar]
      refine ⟨by omega, ?_, ratesFrom_batch grad opt c s b _⟩
      rw [List.take_succ_cons]
      conv_rhs => unfold descend
      have hr : ratesFrom c s 0 = s.rate := by
        unfold ratesFrom rateAfter
        by_cases h1 : c.hasWarm = true <;> by_cases h2 : c.hasIter = true <;> simp [h1, h2]
      rw [hr]
      exact descend_congr grad opt _ _ _ 0 (0 + 1) _ fun i => by rw [ratesFrom_batch, Nat.zero_add, Nat.zero_add, Nat.add_comm]

/-- C141: an epoch trains on the batches of the loader in order, up to the allowed number of iterations; every step uses the gradient of its batch alone, whatever gradients were left over; the warm-up is stepped
once per iteration of the warm-up. -/
theorem C141_epoch (grad : P → B → G) (opt : Rate → P → G → P) (c : Cfg) (l : List B) (s : St P G) :
    (trainEpoch grad opt c l s).iteration = s.iteration + used c.max s.iteration l.length ∧
    (trainEpoch grad opt c l s).params = descend grad opt (rateAfter c.hasWarm c.hasIter c.warmup s.iteration s.rate) 0 (l.take (used c.max s.iteration l.length)) s.params ∧
    (trainEpoch grad opt c l s).rate.epoch = s.rate.epoch + (if c.hasEpoch = true ∧ c.warmup ≤ (trainEpoch grad opt c l s).iteration then 1 else 0) := by
  obtain ⟨h1, h2, h3⟩ := loop_spec grad opt c l s
  have hi : (trainEpoch grad opt c l s).iteration = (trainLoop (trainBatch grad opt c) c l s).iteration := by
    unfold trainEpoch endEpoch
    by_cases h : c.hasEpoch = true ∧ c.warmup ≤ (trainLoop (trainBatch grad opt c) c l s).iteration
    · rw [if_pos h]
    · rw [if_neg h]
  refine ⟨hi.trans h1, ?_, ?_⟩
  · refine Eq.trans ?_ h2
    unfold trainEpoch endEpoch
    by_cases h : c.hasEpoch = true ∧ c.warmup ≤ (trainLoop (trainBatch grad opt c) c l s).iteration
    · rw [if_pos h]
    · rw [if_neg h]
  · rw [hi]
    unfold trainEpoch endEpoch
    by_cases h : c.hasEpoch = true ∧ c.warmup ≤ (trainLoop (trainBatch grad opt c) c l s).iteration
    · rw [if_pos h, if_pos h]
      show (trainLoop (trainBatch grad opt c) c l s).rate.epoch + 1 = _
      rw [h3]
      rfl
    · rw [if_neg h, if_neg h, h3]
      rfl

/-- A run of epochs from the beginning. -/
def runEpochs (grad : P → B → G) (opt : Rate → P → G → P) (c : Cfg) (loaders : List (List B)) (p : P) (g : G) : St P G := loaders.foldl (fun s l => trainEpoch grad opt c l s) ⟨p, g, 0, ⟨0, 0, 0⟩⟩

theorem run_counts (grad : P → B → G) (opt : Rate → P → G → P) (c : Cfg) : ∀ (loaders : List (List B)) (s : St P G), (∀ m, c.max = some m → s.iteration ≤ m) → s.rate.warm = (if c.hasWarm then min s.iteration c.warmup else 0) →
    s.rate.iter = (if c.hasIter then min s.iteration (s.iteration + 1 - c.warmup) else 0) →
    (loaders.foldl (fun s l => trainEpoch grad opt c l s) s).iteration = (match c.max with
      | none => s.iteration + (loaders.map List.length).sum
      | some m => min m (s.iteration + (loaders.map List.length).sum)) ∧
    (loaders.foldl (fun s l => trainEpoch grad opt c l s) s).rate.warm = (if c.hasWarm then min (loaders.foldl (fun s l => trainEpoch grad opt c l s) s).iteration c.warmup else 0) ∧
    (loaders.foldl (fun s l => trainEpoch grad opt c l s) s).rate.iter = (if c.hasIter then min (loaders.foldl (fun s l => trainEpoch grad opt c l s) s).iteration
      ((loaders.foldl (fun s l => trainEpoch grad opt c l s) s).iteration + 1 - c.warmup) else 0)
  | [], s, hm, hw, hi => by
    refine ⟨?_, hw, hi⟩
    cases hmax : c.max with
    | none => rfl
    | some m =>
      have := hm m hmax
      show s.iteration = min m (s.iteration + 0)
      omega
  | l :: loaders, s, hm, hw, hi => by
    rw [List.foldl_cons, List.map_cons, List.sum_cons]
    obtain ⟨e1, -, -⟩ := C141_epoch grad opt c l s
    obtain ⟨l1, -, l3⟩ := loop_spec grad opt c l s
    have er : (trainEpoch grad opt c l s).rate.warm = (ratesFrom c s (used c.max s.iteration l.length)).warm ∧ (trainEpoch grad opt c l s).rate.iter = (ratesFrom c s (used c.max s.iteration l.length)).iter := by
      unfold trainEpoch endEpoch
      by_cases h : c.hasEpoch = true ∧ c.warmup ≤ (trainLoop (trainBatch grad opt c) c l s).iteration
      · rw [if_pos h, ← l3]; exact ⟨rfl, rfl⟩
      · rw [if_neg h, ← l3]; exact ⟨rfl, rfl⟩
    have hused : ∀ m, c.max = some m → used c.max s.iteration l.length = min l.length (m - s.iteration) := fun m h => by unfold used; rw [h]
    have hused' : c.max = none → used c.max s.iteration l.length = l.length := fun h => by unfold used; rw [h]
    obtain ⟨h1, h2, h3⟩ := run_counts grad opt c loaders (trainEpoch grad opt c l s) (fun m h => by
        rw [e1, hused m h]
        have := hm m h
        omega) (by
        rw [er.1, e1]
        unfold ratesFrom rateAfter
        dsimp only
        rw [hw]
        by_cases h : c.hasWarm = true
        · simp only [h, if_true]; omega
        · simp [h]) (by
        rw [er.2, e1]
        unfold ratesFrom rateAfter
        dsimp only
        rw [hi]
        by_cases h : c.hasIter = true
        · simp only [h, if_true]; omega
        · simp [h])
    refine ⟨?_, h2, h3⟩
    rw [h1, e1]
    cases hmax : c.max with
    | none =>
      rw [hmax] at hused'
      rw [hused' rfl]
      dsimp only
      omega
    | some m =>
      rw [hmax] at hused
      rw [hused m rfl]
      have := hm m hmax
      dsimp only
      omega

/-- C141, in part: over any epochs, the number of iterations is that of the batches, limited by the allowed number; the warm-up is stepped once per iteration of the warm-up; without warm-up the scheduler per iteration
is stepped once per iteration.  Missing: that with a warm-up it starts when the warm-up is over (`C141_iter_false`), and training with a teacher (`C141_distill_false`). -/
theorem C141_schedule_partial (grad : P → B → G) (opt : Rate → P → G → P) (c : Cfg) (loaders : List (List B)) (p : P) (g : G) :
    (runEpochs grad opt c loaders p g).iteration = used c.max 0 (loaders.map List.length).sum ∧
    (c.hasWarm = true → (runEpochs grad opt c loaders p g).rate.warm = min (runEpochs grad opt c loaders p g).iteration c.warmup) ∧
    (c.hasIter = true → c.warmup = 0 → (runEpochs grad opt c loaders p g).rate.iter = (runEpochs grad opt c loaders p g).iteration) := by
  obtain ⟨h1, h2, h3⟩ := run_counts grad opt c loaders ⟨p, g, 0, ⟨0, 0, 0⟩⟩ (fun _ _ => Nat.zero_le _) (by simp) (by simp)
  refine ⟨?_, fun h => ?_, fun h h0 => ?_⟩
  · unfold runEpochs
    rw [h1]
    unfold used
    cases c.max with
    | none => simp
    | some m =>
      dsimp only
      omega
  · unfold runEpochs
    rw [h2, if_pos h]
  · unfold runEpochs
    rw [h3, if_pos h, h0]
    omega

/-- C141 fails: the scheduler per iteration is stepped already at the end of the last iteration of the warm-up, together with the warm-up: after a warm-up of one iteration and one iteration it was stepped. -/
theorem C141_iter_false : (runEpochs (fun (_ : ℤ) (b : ℤ) => b) (fun _ p g => p - g) ⟨1, none, true, true, false⟩ [[5]] 0 0).rate = ⟨1, 1, 0⟩ := by decide

/-- C141 fails: with a teacher the scheduler per iteration is never stepped. -/
theorem C141_distill_false (grad : P → B → G) (opt : Rate → P → G → P) (c : Cfg) (l : List B) (s : St P G) : (distillEpoch grad opt c l s).rate.iter = s.rate.iter := by
  have key : ∀ (l : List B) (s : St P G), (trainLoop (distillBatch grad opt c) c l s).rate.iter = s.rate.iter := by
    intro l
    induction l with
    | nil => intro s; rfl
    | cons b l ih =>
      intro s
      unfold trainLoop
      by_cases hs : stops c s
      · rw [if_pos hs]
      · rw [if_neg hs, ih]
        unfold distillBatch
        dsimp only
        by_cases h1 : c.hasWarm = true ∧ c.warmup > s.iteration <;> simp [h1]
  unfold distillEpoch endEpoch
  by_cases h : c.hasEpoch = true ∧ c.warmup ≤ (trainLoop (distillBatch grad opt c) c l s).iteration
  · rw [if_pos h]; exact key l s
  · rw [if_neg h]; exact key l s

/-- C141: apart from the scheduler per iteration, training with a teacher is training with the mixed loss. -/
theorem C141_distill_partial (grad : P → B → G) (opt : Rate → P → G → P) (c : Cfg) (hc : c.hasIter = false) (l : List B) (s : St P G) : distillEpoch grad opt c l s = trainEpoch grad opt c l s := by
  have : distillBatch grad opt c = trainBatch grad opt c := by
    funext s b
    unfold distillBatch trainBatch
    dsimp only
    rw [hc]
    simp
  unfold distillEpoch trainEpoch
  rw [this]

/-- C141: the mixed loss moves from the loss for the labels to that for the teacher, scaled by the square of the temperature. -/
theorem C141_loss (A T origin kl : ℚ) : mixedLoss A T origin kl = (1 - A) * origin + A * (T ^ 2 * kl) := by
  unfold mixedLoss
  ring

theorem meter_inv : ∀ (batches : List (List (ℕ × ℕ))) (m : Meter) (seen : List (ℕ × ℕ)), (∀ b ∈ batches, b ≠ []) → m.sum = 100 * (seen.countP fun p => p.1 = p.2 : ℕ) → m.count = seen.length → m.avg = m.sum / m.count →
    (batches.foldl (fun (m : Meter) b => m.update (computeAccuracy b) b.length) m).avg = 100 * ((seen ++ batches.flatten).countP fun p => p.1 = p.2 : ℕ) / ((seen ++ batches.flatten).length : ℕ)
  | [], m, seen, _, h1, h2, h3 => by
    show m.avg = _
    rw [h3, h1, h2, List.flatten_nil, List.append_nil]
  | b :: l, m, seen, hne, h1, h2, h3 => by
    rw [List.foldl_cons, List.flatten_cons, ← List.append_assoc]
    have hb : (b.length : ℚ) ≠ 0 := by
      have := hne b List.mem_cons_self
      exact_mod_cast fun h => this (List.length_eq_zero_iff.mp h)
    have hsw : (b.countP fun p => p.2 = p.1) = b.countP fun p => p.1 = p.2 := List.countP_congr fun p _ => by simp [eq_comm]
    refine meter_inv l _ (seen ++ b) (fun x hx => hne x (List.mem_cons_of_mem _ hx)) ?_ ?_ rfl
    · show m.sum + computeAccuracy b * b.length = _
      rw [h1, List.countP_append]
      unfold computeAccuracy
      rw [hsw]
      push_cast
      field_simp
    · show m.count + b.length = _
      rw [h2, List.length_append]

/-- C141: validation gives the accuracy over all samples, whatever the sizes of the batches. -/
theorem C141_validate (batches : List (List (ℕ × ℕ))) (h : ∀ b ∈ batches, b ≠ []) : validate batches = accuracy batches := by
  unfold validate accuracy
  rw [meter_inv batches ⟨0, 0, 0⟩ [] h (by simp) rfl (by simp), List.nil_append]

/-- C141: calibration shows the observers the first batches of the loader in order, as many as allowed. -/
theorem C141_calibrate {O : Type} (observe : O → B → O) (max : Option ℕ) (l : List B) (o : O) (n : ℕ) :
    calibrate observe max 0 l (o, n) = ((l.take (used max 0 l.length)).foldl observe o, n + used max 0 l.length) := by
  have key : ∀ (l : List B) (i : ℕ) (o : O) (n : ℕ), calibrate observe max i l (o, n) = ((l.take (used max i l.length)).foldl observe o, n + used max i l.length) := by
    intro l
    induction l with
    | nil =>
      intro i o n
      have hu : used max i 0 = 0 := by unfold used; cases max <;> simp
      show (o, n) = _
      rw [List.length_nil, hu]
      rfl
    | cons b l ih =>
      intro i o n
      unfold calibrate
      cases max with
      | none =>
        rw [if_neg (by simp), ih]
        show _ = ((List.take (l.length + 1) (b :: l)).foldl observe o, n + (l.length + 1))
        rw [List.take_succ_cons]
        show (_, n + 1 + l.length) = _
        rw [show n + 1 + l.length = n + (l.length + 1) by omega]
        rfl
      | some m =>
        by_cases h : i ≥ m
        · rw [if_pos (decide_eq_true h)]
          have hu : used (some m) i (b :: l).length = 0 := by
            show min (b :: l).length (m - i) = 0
            omega
          rw [hu]
          rfl
        · rw [if_neg (by simpa using h), ih]
          have hu : used (some m) i (b :: l).length = used (some m) (i + 1) l.length + 1 := by
            show min (l.length + 1) (m - i) = min l.length (m - (i + 1)) + 1
            omega
          rw [hu, List.take_succ_cons]
          rw [show n + 1 + used (some m) (i + 1) l.length = n + (used (some m) (i + 1) l.length + 1) by omega]
          rfl
  exact key l 0 o n

example : validate [[(1, 1), (2, 3), (0, 0), (5, 5)], [(4, 4), (4, 1)]] = 200 / 3 := by
  rw [C141_validate _ (by simp)]
  norm_num [accuracy]

example : (runEpochs (fun (_ : ℤ) (b : ℤ) => b) (fun _ p g => p - g) ⟨2, some 3, true, false, true⟩ [[1, 2], [3, 4]] 0 7).params = -6 ∧
    (runEpochs (fun (_ : ℤ) (b : ℤ) => b) (fun _ p g => p - g) ⟨2, some 3, true, false, true⟩ [[1, 2], [3, 4]] 0 7).rate = ⟨2, 0, 2⟩ := by decide

end Verif.Props
