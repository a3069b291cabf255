import Verif.Model.NetAdaptInit
import Mathlib.Tactic.Linarith
import Mathlib.Algebra.Order.Floor.Ring

/-!
C167: the NetAdapt pruner can be constructed with the settings it documents.
-/

namespace Verif.Props
open Verif.Spec.NetAdaptInit Verif.Model.NetAdaptInit

theorem ni_filled (c : Config) (k : String) (h : defaults.lookup k = none) : filled c k = c k := by
  unfold filled
  cases h' : c k with
  | some v => rfl
  | none => simp [h]

/-- Every documented configuration is read, and the budget is the one asked for. -/
theorem C167_read (known : String → Bool) (flops : ℕ) (c : Config) (h : Wellformed known c) :
    ∃ set b, parse known flops c = .ok (set, b) ∧ Budget c flops b := by
  obtain ⟨m, hm, hk⟩ := h.metrics
  obtain ⟨n, hn, hn0⟩ := h.iter
  obtain ⟨q1, hq1, h10, h11⟩ := h.rate
  obtain ⟨q2, hq2, h20, h21⟩ := h.decay
  obtain ⟨q3, hq3, h30, h31⟩ := h.lr
  have hkind := h.kind
  have e : ∀ k, defaults.lookup k = none → filled c k = c k := ni_filled c
  have e1 := (e "metrics" (by decide)).trans hm
  have e2 := (e "netadapt_max_iter" (by decide)).trans hn
  have e3 := (e "budget_reduce_rate_init" (by decide)).trans hq1
  have e4 := (e "budget_reduce_rate_decay" (by decide)).trans hq2
  have e5 := (e "netadapt_lr" (by decide)).trans hq3
  have e6 := (e "budget_type" (by decide)).trans hkind
  have o := fun k hk => h.others k hk
  have o1 := (e "sparsity" (by decide)).trans (o _ (by decide))
  have o2 := (e "default_sparsity" (by decide)).trans (o _ (by decide))
  have o3 := (e "metric_func" (by decide)).trans (o _ (by decide))
  have o4 := (e "skip_last_fc" (by decide)).trans (o _ (by decide))
  have o5 := (e "bn_compensation" (by decide)).trans (o _ (by decide))
  have o6 := (e "exclude_ops" (by decide)).trans (o _ (by decide))
  have o7 := (e "multiple" (by decide)).trans (o _ (by decide))
  have o8 := (e "init_flops" (by decide)).trans (o _ (by decide))
  have hr : ∃ n, filled c "netadapt_max_rounds" = some (.int n) ∧ -1 ≤ n := by
    rcases h.rounds with h | ⟨n, h, h'⟩
    · exact ⟨-1, by simp [filled, h, defaults, List.lookup], by omega⟩
    · exact ⟨n, by simp [filled, h], h'⟩
  have hs : ∃ n, filled c "netadapt_min_feature_size" = some (.int n) := by
    rcases h.size with h | ⟨n, h⟩
    · exact ⟨8, by simp [filled, h, defaults, List.lookup]⟩
    · exact ⟨n, by simp [filled, h]⟩
  have hd : ∃ s, filled c "netadapt_dir" = some (.str s) := by
    rcases h.dir with h | ⟨n, h⟩
    · exact ⟨"netadapt_train/", by simp [filled, h, defaults, List.lookup]⟩
    · exact ⟨n, by simp [filled, h]⟩
  obtain ⟨r, hr, hr'⟩ := hr
  obtain ⟨s, hs⟩ := hs
  obtain ⟨d, hd⟩ := hd
  have hreq : (required.all fun k => (c k).isSome) = true := by simp [required, hm, hn, hq1, hq2, hq3, hkind]
  have hcond : conditions (filled c) = true := by
    have hn0' : (0 : ℚ) < n := by exact_mod_cast hn0
    have hr'' : (-1 : ℚ) ≤ r := by exact_mod_cast hr'
    simp [conditions, at', e2, e3, e4, e5, e6, hr, num, h10, h11, h20, h21, h30, h31, hn0', hr'', hn0]
  rcases h.budget with ⟨b, hb, hb0, hbr⟩ | ⟨q, hb, hb0, hb1, hbr⟩
  · have b1 := (e "budget" (by decide)).trans hb
    have b2 := (e "budget_ratio" (by decide)).trans hbr
    have hty : typed (filled c) = true := by
      simp [typed, annotations, e1, e2, e3, e4, e5, e6, o1, o2, o3, o4, o5, o6, o7, o8, hr, hs, hd, b1, b2, isInstance]
    have hbud : budgetOf (filled c) flops = .ok b := by simp [budgetOf, b1, b2, not_lt.2 hb0]
    refine ⟨(required ++ defaults.map Prod.fst).filter (fun k => !["sparsity", "metrics"].contains k) ++ ["metric_func", "init_flops", "budget"], b, ?_, Or.inl ⟨hb, hb0, hbr⟩⟩
    unfold parse
    rw [hreq, hty, hcond, e1, e6, hbud]
    simp only [hk, Bool.not_true, Bool.false_eq_true, if_false, ne_eq, not_true_eq_false]
  · have b1 := (e "budget" (by decide)).trans hbr
    have b2 := (e "budget_ratio" (by decide)).trans hb
    have hty : typed (filled c) = true := by
      simp [typed, annotations, e1, e2, e3, e4, e5, e6, o1, o2, o3, o4, o5, o6, o7, o8, hr, hs, hd, b1, b2, isInstance]
    have hbud : budgetOf (filled c) flops = .ok ⌊q * flops⌋ := by simp [budgetOf, b1, b2, not_lt.2 hb0, not_lt.2 hb1]
    refine ⟨(required ++ defaults.map Prod.fst).filter (fun k => !["sparsity", "metrics"].contains k) ++ ["metric_func", "init_flops", "budget"], _, ?_, Or.inr ⟨q, hb, hb0, hb1, hbr, rfl⟩⟩
    unfold parse
    rw [hreq, hty, hcond, e1, e6, hbud]
    simp only [hk, Bool.not_true, Bool.false_eq_true, if_false, ne_eq, not_true_eq_false]

/-- A budget is never negative, and one given as a ratio is at most what the model needs. -/
theorem C167_budget (c : Config) (flops : ℕ) (b : ℤ) (h : Budget c flops b) : 0 ≤ b ∧ (c "budget" = none → b ≤ flops) := by
  rcases h with ⟨h, h0, _⟩ | ⟨r, _, h0, h1, _, rfl⟩
  · exact ⟨h0, fun h' => by rw [h] at h'; cases h'⟩
  · have hf : (0 : ℚ) ≤ flops := Nat.cast_nonneg _
    refine ⟨Int.floor_nonneg.2 (mul_nonneg h0 hf), fun _ => ?_⟩
    have : ⌊r * flops⌋ ≤ ⌊(flops : ℚ)⌋ := Int.floor_le_floor (by nlinarith)
    simpa using this

/-- What is read otherwise: a configuration that is accepted has positive iterations, rates between 0 and 1 and a known budget type. -/
theorem C167_checked (known : String → Bool) (flops : ℕ) (c : Config) (set : List String) (b : ℤ) (h : parse known flops c = .ok (set, b)) :
    (∀ k ∈ required, (c k).isSome = true) ∧ 0 < at' c "netadapt_max_iter" ∧ (0 ≤ at' c "budget_reduce_rate_init" ∧ at' c "budget_reduce_rate_init" ≤ 1) ∧
    (0 ≤ at' c "budget_reduce_rate_decay" ∧ at' c "budget_reduce_rate_decay" ≤ 1) ∧ (0 < at' c "netadapt_lr" ∧ at' c "netadapt_lr" < 1) ∧
    c "budget_type" = some (.str "flops") := by
  unfold parse at h
  by_cases h1 : (required.all fun k => (c k).isSome) = true
  · by_cases h3 : conditions (filled c) = true
    · have e : ∀ k, defaults.lookup k = none → filled c k = c k := ni_filled c
      have hbt : c "budget_type" = some (.str "flops") := by
        by_cases hb : filled c "budget_type" = some (.str "flops")
        · rw [← e _ (by decide)]; exact hb
        · exfalso
          revert h
          rw [h1, h3]
          simp only [Bool.not_true, Bool.false_eq_true, if_false, ne_eq, hb, not_false_eq_true, if_true]
          split_ifs
          · simp
          · split
            · split_ifs <;> simp
            · simp
      simp only [conditions, Bool.and_eq_true, decide_eq_true_eq] at h3
      have ea : ∀ k, defaults.lookup k = none → at' (filled c) k = at' c k := fun k hk => by unfold at'; rw [e k hk]
      rw [ea _ (by decide), ea _ (by decide), ea _ (by decide), ea _ (by decide)] at h3
      exact ⟨fun k hk => List.all_eq_true.1 h1 k hk, h3.1.1.1.1.1, h3.1.1.1.1.2, h3.1.1.1.2, h3.1.1.2, hbt⟩
    · exfalso
      revert h
      simp only [Bool.not_eq_true] at h3
      rw [h1, h3]
      simp only [Bool.not_true, Bool.false_eq_true, if_false, Bool.not_false, if_true]
      split_ifs <;> simp
  · exfalso
    simp only [Bool.not_eq_true] at h1
    rw [h1] at h
    simp at h

theorem ni_attr (known : String → Bool) (flops : ℕ) (c : Config) (set : List String) (b : ℤ) (h : parse known flops c = .ok (set, b)) :
    (before ++ set).contains "skip_last_fc" = false := by
  have : set = (required ++ defaults.map Prod.fst).filter (fun k => !["sparsity", "metrics"].contains k) ++ ["metric_func", "init_flops", "budget"] := by
    unfold parse at h
    split_ifs at h
    · split at h
      · split_ifs at h
      · simp at h
    · split at h
      · split_ifs at h
        split at h
        · simp at h
        · simp only [Except.ok.injEq, Prod.mk.injEq] at h
          exact h.1.symm
      · simp at h
  rw [this]
  decide

/-- The pruner can be constructed for no configuration and no model: the setting for the last layer is read but was never stored. -/
theorem C167_construct_false (known : String → Bool) (flops : ℕ) (c : Config) (ops : List Verif.Spec.PruneConfig.Op) : ∃ e, construct known flops c ops = .error e := by
  unfold construct
  cases h : parse known flops c with
  | error e => exact ⟨e, rfl⟩
  | ok p =>
    obtain ⟨set, b⟩ := p
    simp only
    by_cases h0 : (ops.filter Verif.Model.PruneConfig.isCenter).isEmpty = true
    · rw [if_pos h0]; exact ⟨_, rfl⟩
    · rw [if_neg h0, ni_attr known flops c set b h]
      exact ⟨_, rfl⟩

/-- It is this setting, and not the configuration, that stops it: for every documented configuration and every model with an operation to prune. -/
theorem C167_attribute_false (known : String → Bool) (flops : ℕ) (c : Config) (hc : Wellformed known c) (ops : List Verif.Spec.PruneConfig.Op)
    (ho : ∃ o ∈ ops, Verif.Model.PruneConfig.isCenter o = true) : construct known flops c ops = .error "AttributeError: skip_last_fc" := by
  obtain ⟨set, b, h, _⟩ := C167_read known flops c hc
  unfold construct
  rw [h]
  simp only
  have h0 : ¬ (ops.filter Verif.Model.PruneConfig.isCenter).isEmpty = true := by
    obtain ⟨o, ho, hoc⟩ := ho
    rw [List.isEmpty_iff]
    intro he
    have : o ∈ ops.filter Verif.Model.PruneConfig.isCenter := List.mem_filter.2 ⟨ho, hoc⟩
    rw [he] at this
    cases this
  rw [if_neg h0, ni_attr known flops c set b h]
  rfl

/-- The example of the repository: a budget of half the operations. -/
def niConfig : Config := fun k =>
  [("budget_type", Val.str "flops"), ("metrics", .str "l2_norm"), ("netadapt_max_iter", .int 500), ("budget_reduce_rate_init", .float (1/20)),
    ("budget_reduce_rate_decay", .float (49/50)), ("netadapt_lr", .float (1/100)), ("budget_ratio", .float (1/2))].lookup k

/-- Hypotheses met. -/
theorem ni_example : Wellformed (fun m => m = "l2_norm") niConfig :=
  ⟨⟨"l2_norm", rfl, by decide⟩, rfl, ⟨500, rfl, by decide⟩, ⟨1/20, rfl, by norm_num, by norm_num⟩, ⟨49/50, rfl, by norm_num, by norm_num⟩, ⟨1/100, rfl, by norm_num, by norm_num⟩,
    Or.inl rfl, Or.inl rfl, Or.inl rfl, by decide, Or.inr ⟨1/2, rfl, by norm_num, by norm_num, rfl⟩⟩

example : construct (fun m => m = "l2_norm") 1000 niConfig [⟨"conv", .conv2d, false, 1⟩] = .error "AttributeError: skip_last_fc" :=
  C167_attribute_false _ _ _ ni_example _ ⟨_, List.mem_cons_self, by decide⟩

/-- A smallest number of channels of zero, by which the search divides, is read without complaint. -/
theorem C167_size_false : ∃ c : Config, c "netadapt_min_feature_size" = some (.int 0) ∧ Wellformed (fun m => m = "l2_norm") c ∧
    ∃ set b, parse (fun m => m = "l2_norm") 1000 c = .ok (set, b) := by
  have hw : Wellformed (fun m => m = "l2_norm") (fun k => if k = "netadapt_min_feature_size" then some (.int 0) else niConfig k) :=
    ⟨⟨"l2_norm", rfl, by decide⟩, rfl, ⟨500, rfl, by decide⟩, ⟨1/20, rfl, by norm_num, by norm_num⟩, ⟨49/50, rfl, by norm_num, by norm_num⟩, ⟨1/100, rfl, by norm_num, by norm_num⟩,
      Or.inl rfl, Or.inr ⟨0, rfl⟩, Or.inl rfl, by decide, Or.inr ⟨1/2, rfl, by norm_num, by norm_num, rfl⟩⟩
  obtain ⟨set, b, h, _⟩ := C167_read _ 1000 _ hw
  exact ⟨_, rfl, hw, set, b, h⟩

end Verif.Props
