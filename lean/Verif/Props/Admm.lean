import Verif.Model.Admm
import Mathlib.Algebra.Order.BigOperators.Group.Finset
import Mathlib.Algebra.BigOperators.Ring.Finset
import Mathlib.Tactic.Ring
import Mathlib.Tactic.Linarith
import Mathlib.Tactic.FieldSimp
import Mathlib.Tactic.NormNum
import Mathlib.Algebra.Order.Field.Basic
import Mathlib.Tactic.Positivity

/-!
C99: pruning with ADMM follows the method.
-/

namespace Verif.Props
open Verif.Spec.Admm Verif.Model.Admm

section
variable {α : Type} [Field α]

theorem mask_val (m : ℕ → Bool) (t : Ten α) : (mask m t).val = project m t.val := by
  funext i
  show t.val i * (if m i then 1 else 0) = if m i then t.val i else 0
  split <;> simp

/-- After any number of rounds the variables have the values of the method. -/
theorem C99_variables (keep : (ℕ → α) → ℕ → Bool) (w : ℕ → α) (rounds : List (ℕ → α)) :
    (pruneLoop keep w rounds).Z.val = (after keep w rounds).z ∧ (pruneLoop keep w rounds).U.val = (after keep w rounds).u := by
  unfold pruneLoop after
  have h : ∀ (rounds : List (ℕ → α)) (s : State α) (t : Vars α), s.Z.val = t.z → s.U.val = t.u →
      (rounds.foldl (paramsUpdate keep) s).Z.val = (rounds.foldl (next keep) t).z ∧ (rounds.foldl (paramsUpdate keep) s).U.val = (rounds.foldl (next keep) t).u := by
    intro rounds
    induction rounds with
    | nil => exact fun s t h1 h2 => ⟨h1, h2⟩
    | cons w rounds ih =>
      intro s t h1 h2
      have hz : (paramsUpdate keep s w).Z.val = (next keep t w).z := by
        unfold paramsUpdate next
        simp only [mask_val, detach, add, weight, h2]
      refine ih _ _ hz ?_
      funext i
      have hz' : (paramsUpdate keep s w).U.val i = w i - (paramsUpdate keep s w).Z.val i + s.U.val i := rfl
      have hn : (next keep t w).u i = t.u i + w i - (next keep t w).z i := rfl
      rw [hz', hn, hz, h2]
      ring
  refine h rounds _ _ ?_ rfl
  unfold register start
  simp only [mask_val, detach, weight]

/-- The criterion adds what the method adds. -/
theorem C99_criterion (keep : (ℕ → α) → ℕ → Bool) (w : ℕ → α) (rounds : List (ℕ → α)) (n : ℕ) (rho : α) (x : ℕ → α) :
    criterion n rho (pruneLoop keep w rounds) x = penalty n rho (after keep w rounds) x := by
  obtain ⟨h1, h2⟩ := C99_variables keep w rounds
  unfold criterion penalty
  simp only [add, sub, weight, h1, h2]
  congr 1
  ring

theorem slopes (keep : (ℕ → α) → ℕ → Bool) (w : ℕ → α) (rounds : List (ℕ → α)) (i : ℕ) :
    (pruneLoop keep w rounds).Z.slope i = 0 ∧ (pruneLoop keep w rounds).U.slope i = rounds.length := by
  unfold pruneLoop
  have h : ∀ (rounds : List (ℕ → α)) (s : State α), s.Z.slope i = 0 →
      (rounds.foldl (paramsUpdate keep) s).Z.slope i = 0 ∧ (rounds.foldl (paramsUpdate keep) s).U.slope i = rounds.length + s.U.slope i := by
    intro rounds
    induction rounds with
    | nil => exact fun s h1 => ⟨h1, by simp⟩
    | cons w rounds ih =>
      intro s h1
      have hz : (paramsUpdate keep s w).Z.slope i = 0 := by simp [paramsUpdate, mask, detach]
      have hu : (paramsUpdate keep s w).U.slope i = 1 + s.U.slope i := by
        have : (paramsUpdate keep s w).U.slope i = 1 - (paramsUpdate keep s w).Z.slope i + s.U.slope i := rfl
        rw [this, hz, sub_zero]
      obtain ⟨a, b⟩ := ih _ hz
      refine ⟨a, ?_⟩
      rw [List.foldl_cons, b, hu, List.length_cons]
      push_cast
      ring
  have h0 := h rounds (register keep w) (by simp [register, mask, detach])
  refine ⟨h0.1, ?_⟩
  rw [h0.2]
  simp [register]

theorem penalty_slope (n : ℕ) (rho : α) (h2 : (2 : α) ≠ 0) (s : Vars α) (w : ℕ → α) {i : ℕ} (hi : i < n) :
    IsSlope (penalty n rho s) w i (rho * (w i - s.z i + s.u i)) := by
  refine ⟨rho / 2, fun h => ?_⟩
  unfold penalty
  have hm : i ∈ Finset.range n := Finset.mem_range.2 hi
  rw [← Finset.add_sum_erase _ _ hm, ← Finset.add_sum_erase (Finset.range n) (fun i => (w i - s.z i + s.u i) ^ 2) hm]
  have e : ∑ x ∈ (Finset.range n).erase i, ((if x = i then w x + h else w x) - s.z x + s.u x) ^ 2 = ∑ x ∈ (Finset.range n).erase i, (w x - s.z x + s.u x) ^ 2 := by
    apply Finset.sum_congr rfl
    intro x hx
    rw [if_neg (Finset.ne_of_mem_erase hx)]
  rw [e]
  simp only [if_true]
  field_simp
  ring

/-- What training goes down along, after `k` rounds: `k + 1` times the slope of what the method adds to the loss. -/
theorem C99_gradient (keep : (ℕ → α) → ℕ → Bool) (w : ℕ → α) (rounds : List (ℕ → α)) (n : ℕ) (rho : α) (h2 : (2 : α) ≠ 0) (x : ℕ → α) {i : ℕ} (hi : i < n) :
    ∃ g, IsSlope (penalty n rho (after keep w rounds)) x i g ∧ backward rho (pruneLoop keep w rounds) x i = (rounds.length + 1) * g := by
  refine ⟨_, penalty_slope n rho h2 _ x hi, ?_⟩
  obtain ⟨h1, h3⟩ := C99_variables keep w rounds
  obtain ⟨h4, h5⟩ := slopes keep w rounds i
  unfold backward
  simp only [add, sub, weight, h1, h3, h4, h5]
  field_simp
  ring

/-- In the first round training goes down along the slope of the penalty.  Missing from the full statement: every later round (`C99_gradient_false`). -/
theorem C99_gradient_partial (keep : (ℕ → α) → ℕ → Bool) (w : ℕ → α) (n : ℕ) (rho : α) (h2 : (2 : α) ≠ 0) (x : ℕ → α) {i : ℕ} (hi : i < n) :
    IsSlope (penalty n rho (after keep w [])) x i (backward rho (pruneLoop keep w []) x i) := by
  obtain ⟨g, hg, hb⟩ := C99_gradient keep w [] n rho h2 x hi
  rw [hb]
  simpa using hg

end

example : (2 : ℚ) ≠ 0 ∧ 0 < 3 := ⟨by norm_num, by norm_num⟩

theorem slope_unique {f : (ℕ → ℚ) → ℚ} {w : ℕ → ℚ} {i : ℕ} {g g' : ℚ} (h : IsSlope f w i g) (h' : IsSlope f w i g') : g = g' := by
  obtain ⟨c, hc⟩ := h
  obtain ⟨c', hc'⟩ := h'
  have a := hc 1
  have b := hc (-1)
  have a' := hc' 1
  have b' := hc' (-1)
  linarith

/-- After one round the dual variable still hangs on the parameter: training goes down along twice the slope of the penalty. -/
theorem C99_gradient_false : ∃ (keep : (ℕ → ℚ) → ℕ → Bool) (w : ℕ → ℚ) (rounds : List (ℕ → ℚ)) (x : ℕ → ℚ),
    ¬IsSlope (penalty 1 1 (after keep w rounds)) x 0 (backward 1 (pruneLoop keep w rounds) x 0) := by
  refine ⟨fun _ _ => true, fun _ => 1, [fun _ => 1], fun _ => 2, fun h => ?_⟩
  have e := slope_unique h (penalty_slope 1 1 (by norm_num) _ _ (by norm_num))
  simp [backward, pruneLoop, register, paramsUpdate, after, next, start, project, mask, detach, add, Verif.Model.Admm.sub, weight] at e
  norm_num at e

section
variable {α : Type} [Field α] [LinearOrder α] [IsStrictOrderedRing α]

/-- `z` has only entries that stay, it is the nearest to `w + u` of all that have, and `z` and the new `u` share `w + u` between them. -/
theorem C99_projection (keep : (ℕ → α) → ℕ → Bool) (w0 : ℕ → α) (rounds : List (ℕ → α)) (w : ℕ → α) (n : ℕ) :
    let s := pruneLoop keep w0 rounds
    let t := pruneLoop keep w0 (rounds ++ [w])
    let v := fun i => w i + s.U.val i
    (∀ i, keep v i = false → t.Z.val i = 0) ∧ (∀ i, t.Z.val i + t.U.val i = v i) ∧
      ∀ y : ℕ → α, (∀ i, keep v i = false → y i = 0) → ∑ i ∈ Finset.range n, (t.Z.val i - v i) ^ 2 ≤ ∑ i ∈ Finset.range n, (y i - v i) ^ 2 := by
  intro s t v
  have ht : t = paramsUpdate keep s w := by
    simp only [t, s, pruneLoop, List.foldl_append, List.foldl_cons, List.foldl_nil]
  have hz : t.Z.val = project (keep v) v := by
    rw [ht]
    unfold paramsUpdate
    simp only [mask_val, detach, add, weight]
    rfl
  have hu : ∀ i, t.U.val i = w i - t.Z.val i + s.U.val i := by
    rw [ht]
    exact fun _ => rfl
  refine ⟨fun i hi => by rw [hz]; simp [project, hi], fun i => by rw [hu]; ring, fun y hy => ?_⟩
  apply Finset.sum_le_sum
  intro i _
  rw [hz]
  unfold project
  cases hk : keep v i with
  | true => simpa using sq_nonneg (y i - v i)
  | false => rw [hy i hk]; simp

end

example : ((pruneLoop (fun _ i => decide (i = 0)) (fun i => if i = 0 then (3 : ℚ) else 1) [fun i => if i = 0 then 2 else 5]).Z.val 0,
    (pruneLoop (fun _ i => decide (i = 0)) (fun i => if i = 0 then (3 : ℚ) else 1) [fun i => if i = 0 then 2 else 5]).Z.val 1,
    (pruneLoop (fun _ i => decide (i = 0)) (fun i => if i = 0 then (3 : ℚ) else 1) [fun i => if i = 0 then 2 else 5]).U.val 1) = (2, 0, 5) := by
  decide +kernel

/-- The learning rate starts every round at the configured one and falls to a tenth when a third, and again when two thirds of the round are over. -/
theorem C99_learning_rate (lr : ℚ) (epochs : ℕ) (hE : 0 < epochs) (round offset : ℕ) (ho : offset < epochs) :
    learningRate lr epochs (round * epochs + offset + 1) = lr * (1 / 10) ^ thirds offset epochs := by
  have hm : (round * epochs + offset + 1 - 1) % epochs = offset := by
    rw [Nat.add_sub_cancel, Nat.add_comm, Nat.add_mul_mod_self_right, Nat.mod_eq_of_lt ho]
  unfold learningRate
  rw [hm]
  have hEq : (0 : ℚ) < epochs := by exact_mod_cast hE
  have hfl : ⌊((offset : ℕ) : ℚ) / ((epochs : ℚ) / 3)⌋ = (thirds offset epochs : ℤ) := by
    rw [Int.floor_eq_iff]
    have ho' : (offset : ℚ) < epochs := by exact_mod_cast ho
    have e : (offset : ℚ) / ((epochs : ℚ) / 3) = 3 * offset / epochs := by field_simp
    rw [e]
    unfold thirds
    by_cases h2 : 2 * epochs ≤ 3 * offset
    · have h2' : (2 : ℚ) * epochs ≤ 3 * offset := by exact_mod_cast h2
      rw [if_pos h2]
      push_cast
      refine ⟨by rw [le_div_iff₀ hEq]; exact h2', by rw [div_lt_iff₀ hEq]; linarith⟩
    · have h2' : (3 : ℚ) * offset < 2 * epochs := by exact_mod_cast Nat.lt_of_not_le h2
      rw [if_neg h2]
      by_cases h1 : epochs ≤ 3 * offset
      · have h1' : (epochs : ℚ) ≤ 3 * offset := by exact_mod_cast h1
        rw [if_pos h1]
        push_cast
        refine ⟨by rw [le_div_iff₀ hEq]; linarith, by rw [div_lt_iff₀ hEq]; linarith⟩
      · have h1' : (3 : ℚ) * offset < epochs := by exact_mod_cast Nat.lt_of_not_le h1
        rw [if_neg h1]
        push_cast
        refine ⟨by positivity, by rw [div_lt_iff₀ hEq]; linarith⟩
  by_cases h0 : offset = 0
  · rw [if_pos h0]
    subst h0
    have : thirds 0 epochs = 0 := by
      unfold thirds
      rw [if_neg (by omega), if_neg (by omega)]
    rw [this]
    simp
  · rw [if_neg h0, hfl, Int.toNat_natCast]

example : (learningRate 1 10 13, learningRate 1 10 15, learningRate 1 10 18) = (1, 1/10, 1/100) := by
  decide +kernel

theorem pruneIdx_of_all {imp : List String} {s : Sub} (h : ∀ c ∈ s.centers, c ∈ imp) : pruneIdx imp s = some (if s.zero then [] else s.centers) := by
  unfold pruneIdx
  by_cases hz : s.zero = true
  · rw [if_pos hz, if_pos hz]
  · rw [if_neg hz, if_neg hz, if_pos]
    simpa using h

/-- If no subgraph is skipped, an update prunes the layers the first mask pruned.  Missing from the full statement: skipped subgraphs (`C99_skip_false`). -/
theorem C99_update_partial (subs : List Sub) (hs : ∀ s ∈ subs, s.skip = false) :
    ∃ u, registerSubs [] subs = some u ∧ updateSubs u [] subs = some u := by
  have h1 : ∀ (subs : List Sub) (imp : List String), (∀ s ∈ subs, s.skip = false) →
      registerSubs imp subs = some (subs.flatMap fun s => if s.zero then [] else s.centers) := by
    intro subs
    induction subs with
    | nil => exact fun _ _ => rfl
    | cons s ss ih =>
      intro imp h
      unfold registerSubs
      rw [if_neg (by rw [h s (by simp)]; simp)]
      simp only
      rw [ih _ fun t ht => h t (by simp [ht])]
      rw [pruneIdx_of_all (fun c hc => by simp [hc])]
      rfl
  refine ⟨_, h1 subs [] hs, ?_⟩
  have h2 : ∀ (ss : List Sub) (imp : List String), (∀ s ∈ ss, s ∈ subs) →
      updateSubs (subs.flatMap fun s => if s.zero then [] else s.centers) imp ss = some (ss.flatMap fun s => if s.zero then [] else s.centers) := by
    intro ss
    induction ss with
    | nil => exact fun _ _ => rfl
    | cons s ss ih =>
      intro imp h
      unfold updateSubs
      simp only
      rw [ih _ fun t ht => h t (by simp [ht])]
      have hc : pruneIdx (imp ++ s.centers.filter fun c => (subs.flatMap fun s => if s.zero then [] else s.centers).contains c) s = some (if s.zero then [] else s.centers) := by
        by_cases hz : s.zero = true
        · unfold pruneIdx
          rw [if_pos hz, if_pos hz]
        · apply pruneIdx_of_all
          intro c hc
          rw [List.mem_append, List.mem_filter]
          right
          refine ⟨hc, ?_⟩
          simp only [List.contains_eq_mem, decide_eq_true_eq, List.mem_flatMap]
          exact ⟨s, h s (by simp), by rw [if_neg hz]; exact hc⟩
      rw [hc]
      rfl
  exact h2 subs [] fun s hs => hs

example : ∃ subs : List Sub, subs.length = 2 ∧ ∀ s ∈ subs, s.skip = false := ⟨[⟨["a"], false, false⟩, ⟨["b", "c"], false, true⟩], rfl, by decide⟩

/-- A subgraph the configuration excludes is looked at all the same, and there is no importance for it. -/
theorem C99_skip_false : ∃ (subs : List Sub) (u : List String), registerSubs [] subs = some u ∧ updateSubs u [] subs = none :=
  ⟨[⟨["a"], false, false⟩, ⟨["b"], true, false⟩], ["a"], by decide, by decide⟩

end Verif.Props
