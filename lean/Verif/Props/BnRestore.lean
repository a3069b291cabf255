import Verif.Model.BnRestore
import Mathlib.Analysis.SpecificLimits.Basic
import Mathlib.Tactic.Ring
import Mathlib.Tactic.Linarith
import Mathlib.Tactic.NormNum
import Mathlib.Tactic.FieldSimp
import Mathlib.Tactic.Positivity

/-!
C101: restoring batch normalization keeps the model.
-/

namespace Verif.Props
open Verif.Spec.BnRestore Verif.Model.BnRestore

/-- During the calibration every layer computes what it computed before. -/
theorem C101_calibration (g : Net) (layers : List String) (call : ℕ → ℝ → ℝ) (p : String × ℕ) (x : ℝ) : callCollect g layers call p x = call p.2 x := by
  unfold callCollect forwardCollect
  split <;> rfl

theorem running_eq (m : ℝ) : ∀ (xs : List ℝ) (a : ℝ), running m a xs = (1 - m) ^ xs.length * a + running m 0 xs
  | [], a => by simp [running]
  | x :: xs, a => by
    rw [running, running_eq m xs, running, running_eq m xs ((1 - m) * 0 + m * x)]
    rw [List.length_cons, pow_succ]
    ring

theorem running_nonneg {m : ℝ} (h0 : 0 ≤ m) (h1 : m ≤ 1) : ∀ (xs : List ℝ) (a : ℝ), 0 ≤ a → (∀ x ∈ xs, 0 ≤ x) → 0 ≤ running m a xs
  | [], a, ha, _ => ha
  | x :: xs, a, ha, hx => by
    rw [running]
    refine running_nonneg h0 h1 xs _ ?_ fun y hy => hx y (by simp [hy])
    have := hx x (by simp)
    have h2 : 0 ≤ (1 - m) * a := mul_nonneg (by linarith) ha
    have h3 : 0 ≤ m * x := mul_nonneg h0 this
    linarith

/-- After any calibration the variance is positive, also if a channel never varied. -/
theorem collect_var_pos (bs : List (ℝ × ℝ)) (h : ∀ b ∈ bs, 0 ≤ b.2) : 0 < (collect bs).var := by
  unfold collect
  simp only
  rw [running_eq]
  have h1 : (0 : ℝ) < (1 - 0.1) ^ (bs.map Prod.snd).length * 1 := by
    norm_num
  have h2 := running_nonneg (m := 0.1) (by norm_num) (by norm_num) (bs.map Prod.snd) 0 (le_refl _) (by simpa using fun a b hab => h _ hab)
  linarith

theorem restored_eq (s : Stats) (conv : ℝ → ℝ) (x : ℝ) : forwardRestored s conv x - s.mean = (conv x - s.mean) * (Real.sqrt s.var / Real.sqrt (s.var + 0.00001)) := by
  unfold forwardRestored batchNorm
  ring

/-- A layer of the returned model is as far from the original as `eps / (var + eps)` of the distance of its output from the mean it collected; where no batch normalization was asked for, nothing changes. -/
theorem C101_restored (g : Net) (layers : List String) (hist : String → List (ℝ × ℝ)) (hh : ∀ n, ∀ b ∈ hist n, 0 ≤ b.2) (call : ℕ → ℝ → ℝ) (p : String × ℕ) (x : ℝ) :
    |callRestored g layers (fun n => collect (hist n)) call p x - call p.2 x| ≤ |call p.2 x - (collect (hist p.1)).mean| * (0.00001 / ((collect (hist p.1)).var + 0.00001)) ∧
    (p.1 ∉ layers → callRestored g layers (fun n => collect (hist n)) call p x = call p.2 x) := by
  have hv := collect_var_pos (hist p.1) (hh p.1)
  have hnn : 0 ≤ |call p.2 x - (collect (hist p.1)).mean| * (0.00001 / ((collect (hist p.1)).var + 0.00001)) := by positivity
  refine ⟨?_, ?_⟩
  · unfold callRestored
    split
    · set s := collect (hist p.1) with hs
      have he := restored_eq s (call p.2) x
      have h1 : forwardRestored s (call p.2) x - call p.2 x = (call p.2 x - s.mean) * (Real.sqrt s.var / Real.sqrt (s.var + 0.00001) - 1) := by linarith
      rw [h1, abs_mul]
      refine mul_le_mul_of_nonneg_left ?_ (abs_nonneg _)
      have hpos : 0 < s.var + 0.00001 := by positivity
      rw [← Real.sqrt_div hv.le]
      have ht0 : 0 ≤ s.var / (s.var + 0.00001) := by positivity
      have ht1 : s.var / (s.var + 0.00001) ≤ 1 := by
        rw [div_le_one hpos]
        norm_num
      have hle : Real.sqrt (s.var / (s.var + 0.00001)) ≤ 1 := Real.sqrt_le_one.2 ht1
      have hge : s.var / (s.var + 0.00001) ≤ Real.sqrt (s.var / (s.var + 0.00001)) := by
        apply Real.le_sqrt_of_sq_le
        nlinarith
      rw [abs_of_nonpos (by linarith)]
      have : 0.00001 / (s.var + 0.00001) = 1 - s.var / (s.var + 0.00001) := by
        field_simp
        ring
      rw [this]
      linarith
    · simpa using hnn
  · intro hp
    unfold callRestored
    rw [if_neg]
    intro hc
    rw [List.contains_eq_mem, decide_eq_true_eq] at hc
    obtain ⟨q, hq, e⟩ := List.mem_map.1 hc
    obtain ⟨_, hq2⟩ := List.mem_filter.1 hq
    rw [Bool.and_eq_true] at hq2
    apply hp
    rw [← e]
    simpa using hq2.2

theorem namedModules_mem {seen : List ℕ} {ps : List (String × ℕ)} {p : String × ℕ} (h : p ∈ namedModules seen ps) : p ∈ ps ∧ p.2 ∉ seen := by
  induction ps generalizing seen with
  | nil => simp [namedModules] at h
  | cons q ps ih =>
    unfold namedModules at h
    split at h
    · exact ⟨List.mem_cons_of_mem _ (ih h).1, (ih h).2⟩
    · rename_i hs
      rcases List.mem_cons.1 h with rfl | h
      · exact ⟨by simp, by simpa using hs⟩
      · exact ⟨List.mem_cons_of_mem _ (ih h).1, fun hm => (ih h).2 (List.mem_cons_of_mem _ hm)⟩

theorem namedModules_of_nodup {seen : List ℕ} {ps : List (String × ℕ)} (h : (ps.map Prod.snd).Nodup) (hs : ∀ p ∈ ps, p.2 ∉ seen) : namedModules seen ps = ps := by
  induction ps generalizing seen with
  | nil => rfl
  | cons q ps ih =>
    rw [List.map_cons, List.nodup_cons] at h
    unfold namedModules
    rw [if_neg (by simpa using hs q (by simp)), ih h.2]
    intro p hp hm
    rcases List.mem_cons.1 hm with e | hm
    · exact h.1 (List.mem_map.2 ⟨p, hp, e⟩)
    · exact hs p (by simp [hp]) hm

/-- Without shared modules, exactly the convolutions asked for get a batch normalization; by default all of them. -/
theorem C101_layers_partial (g : Net) (hn : (g.paths.map Prod.snd).Nodup) (layers : List String) (n : String) :
    (n ∈ wrapped g layers ↔ n ∈ layers ∧ ∃ o, (n, o) ∈ g.paths ∧ g.conv o = true) ∧
    (n ∈ wrapped g (defaultLayers g) ↔ ∃ o, (n, o) ∈ g.paths ∧ g.conv o = true) := by
  have hnm : namedModules [] g.paths = g.paths := namedModules_of_nodup hn (by simp)
  have key : ∀ ls : List String, n ∈ wrapped g ls ↔ n ∈ ls ∧ ∃ o, (n, o) ∈ g.paths ∧ g.conv o = true := by
    intro ls
    unfold wrapped
    rw [hnm, List.mem_map]
    constructor
    · rintro ⟨p, hp, rfl⟩
      obtain ⟨h1, h2⟩ := List.mem_filter.1 hp
      rw [Bool.and_eq_true] at h2
      exact ⟨by simpa using h2.2, p.2, h1, h2.1⟩
    · rintro ⟨hl, o, ho, hc⟩
      exact ⟨(n, o), List.mem_filter.2 ⟨ho, by simp [hc, hl]⟩, rfl⟩
  refine ⟨key layers, ?_⟩
  rw [key]
  constructor
  · exact fun h => h.2
  · rintro ⟨o, ho, hc⟩
    refine ⟨?_, o, ho, hc⟩
    unfold defaultLayers
    rw [hnm]
    exact List.mem_map.2 ⟨(n, o), List.mem_filter.2 ⟨ho, hc⟩, rfl⟩

/-- A convolution with two paths gets a batch normalization at one of them only, even if both are asked for. -/
theorem C101_shared_false : ∃ (g : Net) (layers : List String) (a b : String) (o : ℕ), (a, o) ∈ g.paths ∧ (b, o) ∈ g.paths ∧ g.conv o = true ∧ a ∈ layers ∧ b ∈ layers ∧
    a ∈ wrapped g layers ∧ b ∉ wrapped g layers :=
  ⟨⟨[("", 0), ("head", 1), ("tail", 1)], fun o => o == 1⟩, ["head", "tail"], "head", "tail", 1, by decide +kernel⟩

theorem running_const (m c : ℝ) : ∀ (n : ℕ) (a : ℝ), running m a (List.replicate n c) = (1 - m) ^ n * a + (1 - (1 - m) ^ n) * c
  | 0, a => by simp [running]
  | n + 1, a => by
    rw [List.replicate_succ, running, running_const m c n, pow_succ]
    ring

/-- A channel that is constant on the calibration data is all but switched off: whatever the tolerance, after enough batches its output is within the tolerance of that constant, for any input it gets later. -/
theorem C101_constant_false (c y δ : ℝ) (hδ : 0 < δ) : ∃ n : ℕ, ∀ k, n ≤ k → |forwardRestored (collect (List.replicate k (c, 0))) (fun _ => y) 0 - c| < δ := by
  have hm : ∀ k, (collect (List.replicate k (c, 0))).mean = (1 - 0.9 ^ k) * c := by
    intro k
    simp only [collect, List.map_replicate]
    rw [running_const]
    norm_num
  have hv : ∀ k, (collect (List.replicate k (c, 0))).var = 0.9 ^ k := by
    intro k
    simp only [collect, List.map_replicate]
    rw [running_const]
    norm_num
  have hlim : Filter.Tendsto (fun k : ℕ => forwardRestored (collect (List.replicate k (c, 0))) (fun _ => y) 0 - c) Filter.atTop (nhds 0) := by
    have hp : Filter.Tendsto (fun k : ℕ => (0.9 : ℝ) ^ k) Filter.atTop (nhds 0) := tendsto_pow_atTop_nhds_zero_of_lt_one (by norm_num) (by norm_num)
    have he : (fun k : ℕ => forwardRestored (collect (List.replicate k (c, 0))) (fun _ => y) 0 - c) =
        fun k : ℕ => (y - (1 - 0.9 ^ k) * c) * (Real.sqrt (0.9 ^ k) / Real.sqrt (0.9 ^ k + 0.00001)) + -(0.9 ^ k * c) := by
      funext k
      have := restored_eq (collect (List.replicate k (c, 0))) (fun _ => y) 0
      rw [hm, hv] at this
      linarith
    rw [he]
    have hs : Filter.Tendsto (fun k : ℕ => Real.sqrt ((0.9 : ℝ) ^ k)) Filter.atTop (nhds 0) := by
      have := (Real.continuous_sqrt.tendsto 0).comp hp
      rwa [Real.sqrt_zero] at this
    have hd : Filter.Tendsto (fun k : ℕ => Real.sqrt ((0.9 : ℝ) ^ k + 0.00001)) Filter.atTop (nhds (Real.sqrt (0 + 0.00001))) :=
      (Real.continuous_sqrt.tendsto _).comp (hp.add_const _)
    have hq := hs.div hd (by
      rw [Real.sqrt_ne_zero (by norm_num)]
      norm_num)
    have hf : Filter.Tendsto (fun k : ℕ => y - (1 - (0.9 : ℝ) ^ k) * c) Filter.atTop (nhds (y - (1 - 0) * c)) :=
      tendsto_const_nhds.sub ((tendsto_const_nhds.sub hp).mul_const c)
    have := (hf.mul hq).add (hp.mul_const c).neg
    simpa using this
  obtain ⟨n, hn⟩ := Metric.tendsto_atTop.1 hlim δ hδ
  refine ⟨n, fun k hk => ?_⟩
  have := hn k hk
  rwa [Real.dist_eq, sub_zero] at this

/-- Example: two batches. -/
example : (collect [(2, 1), (4, 1)]).mean = 0.58 ∧ (collect [(2, 1), (4, 1)]).var = 1 := by
  constructor <;> (simp only [collect, running, List.map_cons, List.map_nil]; norm_num)

end Verif.Props
