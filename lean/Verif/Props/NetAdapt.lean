import Verif.Model.NetAdapt
import Mathlib.Tactic.Linarith
import Mathlib.Tactic.Ring
import Mathlib.Tactic.Positivity
import Mathlib.Tactic.NormNum

/-!
C34: the NetAdapt search terminates, lowers the FLOPs in every round, and stops only for one of the three stated reasons.
-/

namespace Verif.Props
open Verif.Model

/-- A plan meets the target it was computed for. -/
private theorem planLoop_lt (F : Nat → Int) (target : ℚ) (steps : List (Nat × Nat)) :
    ∀ (idx : Nat) (post : Int) (diff poss : Option Int) (r : Nat × Int), planLoop F target idx post diff poss steps = some r →
      ((r.2 : Int) : ℚ) < target ∧ r.1 ∈ steps.map Prod.snd := by
  induction steps with
  | nil => intro idx post diff poss r h; simp [planLoop] at h
  | cons p rest ih =>
    obtain ⟨prev, c⟩ := p
    intro idx post diff poss r h
    cases diff with
    | some d =>
      simp only [planLoop] at h
      split at h
      · next hlt => cases h; exact ⟨hlt, by simp⟩
      · obtain ⟨h1, h2⟩ := ih _ _ _ _ _ h
        exact ⟨h1, by rw [List.map_cons]; exact List.mem_cons_of_mem _ h2⟩
    | none =>
      simp only [planLoop] at h
      split at h
      · next hlt => cases h; exact ⟨hlt, by simp⟩
      · obtain ⟨h1, h2⟩ := ih _ _ _ _ _ h
        exact ⟨h1, by rw [List.map_cons]; exact List.mem_cons_of_mem _ h2⟩

/-- **C34** A plan found for a subgraph reports fewer FLOPs than the target, and keeps a positive multiple of the minimum feature size,
smaller than the number of channels there is. -/
theorem C34_plan_meets_target (s : Sub) (m : Nat) (hm : 0 < m) (pre : Int) (target : ℚ) (c : Nat) (fl : Int)
    (h : findPlan s m pre target = some (c, fl)) :
    ((fl : Int) : ℚ) < target ∧ m ∣ c ∧ 0 < c ∧ c < s.channels := by
  obtain ⟨h1, h2⟩ := planLoop_lt _ _ _ _ _ _ _ _ h
  refine ⟨h1, ?_⟩
  have hs : ∀ l : List Nat, (l.zip (l.drop 1)).map Prod.snd = l.drop 1 := by
    intro l
    rw [List.map_snd_zip]
    simp
  rw [hs] at h2
  simp only [candidateChannels] at h2
  generalize hq : s.channels / m = q at h2
  cases q with
  | zero => simp at h2
  | succ q =>
    rw [List.range_succ, List.reverse_append, List.map_append] at h2
    simp only [List.reverse_cons, List.reverse_nil, List.nil_append, List.map_cons, List.map_nil, List.cons_append, List.drop_succ_cons,
      List.drop_zero, List.mem_map, List.mem_reverse, List.mem_range] at h2
    obtain ⟨i, hi, rfl⟩ := h2
    refine ⟨⟨i + 1, by ring⟩, by positivity, ?_⟩
    have : (q + 1) * m ≤ s.channels := by rw [← hq]; exact Nat.div_mul_le_self _ _
    nlinarith

example : findPlan ⟨40, fun c => 100 + 10 * c, fun _ => 1/2⟩ 8 500 300 = some (16, 260) := by
  norm_num [findPlan, candidateChannels, planLoop, List.range_succ]

/-- Successive candidates are `m` apart. -/
private def Spaced (m : Nat) (steps : List (Nat × Nat)) : Prop :=
  (∀ p ∈ steps, p.1 = p.2 + m) ∧ steps.IsChain (fun p q => p.2 = q.1)

private theorem planLoop_affine (F : Nat → Int) (a b : Int) (hF : ∀ c, F c = a + b * c) (m : Nat) (target : ℚ) (steps : List (Nat × Nat)) :
    ∀ (idx : Nat) (post : Int) (diff poss : Option Int), Spaced m steps → (∀ d ∈ diff, d = b * m ∧ 1 ≤ idx) → (∀ d ∈ poss, d = b * m) →
      (1 ≤ idx → ∀ p ∈ steps.head?, post = F p.1) →
      planLoop F target idx post diff poss steps
        = (steps.find? (fun p => decide (((F p.2 : Int) : ℚ) < target))).map (fun p => (p.2, F p.2)) := by
  induction steps with
  | nil => intros; rfl
  | cons p rest ih =>
    obtain ⟨prev, c⟩ := p
    intro idx post diff poss hsp hd hp hpost
    have hprev : prev = c + m := hsp.1 (prev, c) (by simp)
    have hsp' : Spaced m rest := ⟨fun q hq => hsp.1 q (by simp [hq]), hsp.2.tail⟩
    have hhead : ∀ q ∈ rest.head?, F c = F q.1 := by
      intro q hq
      have hch := hsp.2
      cases rest with
      | nil => simp at hq
      | cons r rr =>
        simp only [List.head?_cons, Option.mem_some_iff] at hq
        subst hq
        rw [List.isChain_cons_cons] at hch
        rw [show c = r.1 from hch.1]
    cases diff with
    | some d =>
      obtain ⟨hdv, hidx⟩ := hd d rfl
      have hpv : post = F prev := hpost hidx (prev, c) rfl
      have hnext : post - d = F c := by
        rw [hpv, hdv, hF, hF, hprev]; push_cast; ring
      simp only [planLoop, hnext, List.find?_cons]
      by_cases hlt : ((F c : Int) : ℚ) < target
      · simp [hlt]
      · simp only [hlt, if_false, decide_false]
        exact ih (idx + 1) (F c) (some d) poss hsp' (fun d' hd' => ⟨(hd d' hd').1, by omega⟩) hp (fun _ => hhead)
    | none =>
      have hdiff : 1 ≤ idx → post - F c = b * m := by
        intro hidx
        rw [hpost hidx (prev, c) rfl, hF, hF, hprev]; push_cast; ring
      simp only [planLoop, List.find?_cons]
      by_cases hlt : ((F c : Int) : ℚ) < target
      · simp [hlt]
      · simp only [hlt, if_false, decide_false]
        refine ih (idx + 1) (F c) _ _ hsp' ?_ ?_ (fun _ => hhead)
        · intro d hdm
          refine ⟨?_, by omega⟩
          by_cases h1 : idx = 1
          · simp only [h1, if_true] at hdm
            split at hdm
            · simp only [Option.mem_some_iff] at hdm
              rw [← hdm]; exact hdiff (by omega)
            · simp at hdm
          · by_cases h2 : idx = 2
            · simp only [h2, if_true, show ¬ (2 : Nat) = 1 by omega, if_false] at hdm
              split at hdm
              · exact hp d hdm
              · simp at hdm
            · simp [h1, h2] at hdm
        · intro d hdm
          by_cases h1 : idx = 1
          · simp only [h1, if_true] at hdm
            split at hdm
            · exact hp d hdm
            · simp only [Option.mem_some_iff] at hdm
              rw [← hdm]; exact hdiff (by omega)
          · by_cases h2 : idx = 2
            · simp only [h2, if_true, show ¬ (2 : Nat) = 1 by omega, if_false] at hdm
              split at hdm
              · simp at hdm
              · exact hp d hdm
            · simp only [h1, h2, if_false] at hdm
              exact hp d hdm

private theorem spaced_candidates (n m : Nat) :
    Spaced m ((candidateChannels n m).zip ((candidateChannels n m).drop 1)) := by
  unfold candidateChannels
  generalize n / m = q
  cases q with
  | zero => exact ⟨by simp, by simp⟩
  | succ q =>
    have key : ∀ q : Nat, Spaced m ((((List.range (q + 1)).reverse.map (fun i => (i + 1) * m)).zip
        (((List.range q).reverse.map (fun i => (i + 1) * m))))) := by
      intro q
      induction q with
      | zero => exact ⟨by simp, by simp⟩
      | succ q ih =>
        rw [List.range_succ, List.reverse_append, List.range_succ (n := q), List.reverse_append]
        simp only [List.reverse_cons, List.reverse_nil, List.nil_append, List.map_cons, List.cons_append, List.zip_cons_cons]
        rw [List.range_succ, List.reverse_append] at ih
        simp only [List.reverse_cons, List.reverse_nil, List.nil_append, List.map_cons, List.cons_append] at ih
        refine ⟨?_, ?_⟩
        · intro p hp
          rcases List.mem_cons.mp hp with rfl | hp
          · ring
          · exact ih.1 p hp
        · cases hz : (((q + 1) * m) :: (List.range q).reverse.map (fun i => (i + 1) * m)).zip ((List.range q).reverse.map (fun i => (i + 1) * m)) with
          | nil => exact List.isChain_singleton _
          | cons r rr =>
            rw [List.isChain_cons_cons]
            refine ⟨?_, by rw [← hz]; exact ih.2⟩
            cases hq : (List.range q).reverse.map (fun i => (i + 1) * m) with
            | nil => rw [hq] at hz; simp at hz
            | cons y yy =>
              rw [hq] at hz
              simp only [List.zip_cons_cons, List.cons.injEq] at hz
              rw [← hz.1]
    have e : ((List.range (q + 1)).reverse.map (fun i => (i + 1) * m)).drop 1 = (List.range q).reverse.map (fun i => (i + 1) * m) := by
      rw [List.range_succ, List.reverse_append]
      simp
    rw [e]
    exact key q

/-- The channel counts the search considers, in the order in which it tries them: the multiples of `m` below the largest one. -/
def tried (n m : Nat) : List Nat := (List.range (n / m - 1)).reverse.map (fun i => (i + 1) * m)

/-- **C34** When the FLOPs depend linearly on the number of channels, the plan is the first candidate that meets the target (the one that
keeps most channels), the FLOPs reported are those of that candidate, and there is no plan only if no candidate meets the target. -/
theorem C34_plan_exact_partial (s : Sub) (m : Nat) (a b : Int) (hF : ∀ c, s.flops c = a + b * c) (pre : Int) (target : ℚ) :
    findPlan s m pre target
      = ((tried s.channels m).find? (fun c => decide (((s.flops c : Int) : ℚ) < target))).map (fun c => (c, s.flops c)) := by
  unfold findPlan
  rw [planLoop_affine s.flops a b hF m target _ 0 pre none none (spaced_candidates _ _) (by simp) (by simp) (by omega)]
  have hs : ∀ l : List Nat, (l.zip (l.drop 1)).map Prod.snd = l.drop 1 := by
    intro l
    rw [List.map_snd_zip]
    simp
  have he : (candidateChannels s.channels m).drop 1 = tried s.channels m := by
    unfold candidateChannels tried
    generalize s.channels / m = q
    cases q with
    | zero => rfl
    | succ q => rw [List.range_succ, List.reverse_append]; simp
  have he2 : tried s.channels m = ((candidateChannels s.channels m).zip ((candidateChannels s.channels m).drop 1)).map Prod.snd := by
    rw [hs, he]
  rw [he2, List.find?_map, Option.map_map]
  rfl

example : findPlan ⟨40, fun c => 100 + 10 * c, fun _ => 1/2⟩ 8 500 300 = some (16, 260) ∧ tried 40 8 = [32, 24, 16, 8] := by
  refine ⟨?_, by decide⟩
  norm_num [findPlan, candidateChannels, planLoop, List.range_succ]

/-- In general it is not so: a convolution whose input and output are both pruned has quadratic cost, and if the first two candidates happen
to look proportional the rest is extrapolated.  Here the plan claims 320 FLOPs, below the target 400, and the model has 448. -/
theorem C34_plan_exact_false : ∃ (s : Sub) (m : Nat) (pre : Int) (target : ℚ) (c : Nat) (fl : Int),
    (∀ c, s.flops c = (c : Int) * c + 384) ∧ findPlan s m pre target = some (c, fl) ∧ ((fl : Int) : ℚ) < target
      ∧ target ≤ ((s.flops c : Int) : ℚ) := by
  refine ⟨⟨32, fun c => (c : Int) * c + 384, fun _ => 1/2⟩, 8, 1408, 400, 8, 320, fun _ => rfl, ?_, by norm_num, by norm_num⟩
  norm_num [findPlan, candidateChannels, planLoop, List.range_succ]

private theorem bestFold (l : List (Nat × (ℚ × Option (Nat × Int)))) : ∀ b,
    let r := l.foldl (fun b x => if x.2.1 > b.2.1 then x else b) b
    (r = b ∨ r ∈ l) ∧ b.2.1 ≤ r.2.1 ∧ ∀ x ∈ l, x.2.1 ≤ r.2.1 := by
  induction l with
  | nil => intro b; simp
  | cons y l ih =>
    intro b
    simp only [List.foldl_cons]
    by_cases h : y.2.1 > b.2.1
    · rw [if_pos h]
      obtain ⟨h1, h2, h3⟩ := ih y
      refine ⟨Or.inr ?_, le_trans (le_of_lt h) h2, ?_⟩
      · rcases h1 with h1 | h1
        · rw [h1]; simp
        · exact List.mem_cons_of_mem _ h1
      · intro x hx
        rcases List.mem_cons.mp hx with rfl | hx
        · exact h2
        · exact h3 x hx
    · rw [if_neg h]
      obtain ⟨h1, h2, h3⟩ := ih b
      refine ⟨?_, h2, ?_⟩
      · rcases h1 with h1 | h1
        · exact Or.inl h1
        · exact Or.inr (List.mem_cons_of_mem _ h1)
      · intro x hx
        rcases List.mem_cons.mp hx with rfl | hx
        · exact le_trans (not_lt.mp h) h2
        · exact h3 x hx

private theorem bestOf_spec (l : List (Nat × (ℚ × Option (Nat × Int)))) (r) (h : bestOf l = some r) :
    r ∈ l ∧ ∀ x ∈ l, x.2.1 ≤ r.2.1 := by
  cases l with
  | nil => simp [bestOf] at h
  | cons b l =>
    simp only [bestOf, Option.some.injEq] at h
    obtain ⟨h1, h2, h3⟩ := bestFold l b
    rw [h] at h1 h2 h3
    refine ⟨?_, ?_⟩
    · rcases h1 with h1 | h1
      · rw [h1]; simp
      · exact List.mem_cons_of_mem _ h1
    · intro x hx
      rcases List.mem_cons.mp hx with rfl | hx
      · exact h2
      · exact h3 x hx

/-- What is true when a search that started at `start` FLOPs has ended: the plans taken lowered the FLOPs strictly every time, and the
reason of the end is one of three. -/
def EndsWell (cfg : NaConfig) (start : Int) : NaEnd → Prop
  | .done hist it cur => it = hist.length + 1 ∧ (start :: hist.map (fun s => s.2.2)).Pairwise (· > ·)
      ∧ (start :: hist.map (fun s => s.2.2)).getLast? = some cur
      ∧ (cur ≤ cfg.budget ∨ (cfg.maxRounds ≠ -1 ∧ (hist.length : Int) ≥ cfg.maxRounds))
  | .stuck hist it cur => it = hist.length + 1 ∧ (start :: hist.map (fun s => s.2.2)).Pairwise (· > ·)
      ∧ (start :: hist.map (fun s => s.2.2)).getLast? = some cur
      ∧ ∀ s ∈ cfg.subs hist, findPlan s cfg.minFeature cur (cfg.target it cur) = none
  | .error hist _ _ => cfg.subs hist = []

private theorem naLoop_ends (cfg : NaConfig) (start : Int) (hb : 0 ≤ cfg.budget) (hr : 0 ≤ cfg.rate) (hdec : 0 ≤ cfg.decay)
    (hacc : ∀ hist, ∀ s ∈ cfg.subs hist, ∀ c, -1 < s.acc c) :
    ∀ (fuel : Nat) (hist : List Step) (it : Nat) (cur : Int), (cur - cfg.budget).toNat < fuel → it = hist.length + 1 →
      (start :: hist.map (fun s => s.2.2)).Pairwise (· > ·) → (start :: hist.map (fun s => s.2.2)).getLast? = some cur →
      ∃ o, naLoop cfg fuel hist it cur = some o ∧ EndsWell cfg start o := by
  intro fuel
  induction fuel with
  | zero => intro hist it cur hf; omega
  | succ fuel ih =>
    intro hist it cur hf hit hpw hlast
    simp only [naLoop]
    by_cases hc : (cfg.maxRounds = -1 ∨ (it : Int) ≤ cfg.maxRounds) ∧ cur > cfg.budget
    · rw [if_pos hc]
      have htarget : cfg.target it cur ≤ cur := by
        unfold NaConfig.target
        have : (0 : ℚ) ≤ cur := by exact_mod_cast (by omega : (0 : Int) ≤ cur)
        have : 0 ≤ cfg.rate * cur * cfg.decay ^ (it - 1) := by positivity
        linarith
      cases hbest : bestOf (((cfg.subs hist).map (subInfo cfg.minFeature cur (cfg.target it cur))).zipIdx.map (fun p => (p.2, p.1))) with
      | none =>
        refine ⟨_, rfl, ?_⟩
        show cfg.subs hist = []
        cases hs : cfg.subs hist with
        | nil => rfl
        | cons a t => rw [hs] at hbest; simp [List.zipIdx_cons, bestOf] at hbest
      | some r =>
        obtain ⟨i, acc, plan⟩ := r
        obtain ⟨hmem, hmax⟩ := bestOf_spec _ _ hbest
        obtain ⟨⟨q, j⟩, hq, hqe⟩ := List.mem_map.mp hmem
        have hq' : q ∈ (cfg.subs hist).map (subInfo cfg.minFeature cur (cfg.target it cur)) := (List.mem_zipIdx hq).2.2 ▸ List.getElem_mem _
        obtain ⟨s, hs, hsq⟩ := List.mem_map.mp hq'
        simp only [Prod.mk.injEq] at hqe
        obtain ⟨-, hqe⟩ := hqe
        rw [hqe] at hsq
        cases plan with
        | none =>
          refine ⟨_, rfl, hit, hpw, hlast, ?_⟩
          have hacc1 : acc = -1 := by
            unfold subInfo at hsq
            split at hsq
            · simp at hsq; exact hsq.symm
            · simp at hsq
          intro s' hs'
          by_contra hne
          obtain ⟨p, hp⟩ := Option.ne_none_iff_exists'.mp hne
          have hinfo : subInfo cfg.minFeature cur (cfg.target it cur) s' = (s'.acc p.1, some p) := by simp [subInfo, hp]
          obtain ⟨k, hk, hke⟩ := List.getElem_of_mem hs'
          have hin : (k, subInfo cfg.minFeature cur (cfg.target it cur) s')
              ∈ ((cfg.subs hist).map (subInfo cfg.minFeature cur (cfg.target it cur))).zipIdx.map (fun p => (p.2, p.1)) := by
            refine List.mem_map.mpr ⟨(subInfo cfg.minFeature cur (cfg.target it cur) s', k), ?_, rfl⟩
            rw [List.mem_zipIdx_iff_getElem?]
            simp [hk, hke]
          have := hmax _ hin
          rw [hinfo] at this
          have h2 := hacc hist s' hs' p.1
          simp only at this
          rw [hacc1] at this
          exact absurd this (not_le.mpr h2)
        | some p =>
          obtain ⟨c, fl⟩ := p
          have hfind : findPlan s cfg.minFeature cur (cfg.target it cur) = some (c, fl) := by
            unfold subInfo at hsq
            split at hsq
            · simp at hsq
            · next p hp => simp only [Prod.mk.injEq, Option.some.injEq] at hsq; rw [hp, hsq.2]
          have hlt : ((fl : Int) : ℚ) < cfg.target it cur := (planLoop_lt _ _ _ _ _ _ _ _ hfind).1
          have hfl : fl < cur := by exact_mod_cast lt_of_lt_of_le hlt htarget
          have hcurin : ∀ x ∈ (start :: hist.map (fun s => s.2.2)), cur ≤ x := by
            intro x hx
            obtain ⟨init, hinit⟩ : ∃ init, (start :: hist.map (fun s => s.2.2)) = init ++ [cur] := by
              rw [List.getLast?_eq_some_iff] at hlast
              exact hlast
            rw [hinit] at hx hpw
            rw [List.pairwise_append] at hpw
            rcases List.mem_append.mp hx with h | h
            · exact le_of_lt (hpw.2.2 x h cur (by simp))
            · simp at h; omega
          refine ih _ _ _ (by omega) (by simp [hit]) ?_ ?_
          · rw [List.map_append, ← List.cons_append, List.pairwise_append]
            refine ⟨hpw, by simp, ?_⟩
            intro x hx y hy
            simp at hy
            have := hcurin x hx
            subst hy
            omega
          · rw [List.map_append, ← List.cons_append]
            exact List.getLast?_concat
    · rw [if_neg hc]
      refine ⟨_, rfl, hit, hpw, hlast, ?_⟩
      by_cases hbud : cur ≤ cfg.budget
      · exact Or.inl hbud
      · right
        have h1 : ¬ (cfg.maxRounds = -1 ∨ (it : Int) ≤ cfg.maxRounds) := fun h => hc ⟨h, by omega⟩
        push Not at h1
        exact ⟨h1.1, by omega⟩

/-- **C34** For every budget, every reduction rate and decay, every way the subgraphs change from round to round and every accuracy
function with values above -1, the search ends after at most as many rounds as there are FLOPs above the budget; every round lowers the
FLOPs; and it ends at or below the budget, or at the limit of rounds, or in a round in which no subgraph has a plan. -/
theorem C34_search_partial (cfg : NaConfig) (start : Int) (hb : 0 ≤ cfg.budget) (hr : 0 ≤ cfg.rate) (hdec : 0 ≤ cfg.decay)
    (hacc : ∀ hist, ∀ s ∈ cfg.subs hist, ∀ c, -1 < s.acc c) (fuel : Nat) (hf : (start - cfg.budget).toNat < fuel) :
    ∃ o, naLoop cfg fuel [] 1 start = some o ∧ EndsWell cfg start o :=
  naLoop_ends cfg start hb hr hdec hacc fuel [] 1 start hf rfl (by simp) rfl

/-- A search over one subgraph: two rounds, and the budget is met. -/
example : naLoop ⟨fun _ => [⟨40, fun c => 10 * c, fun _ => 1/2⟩], 8, 1/10, 1, 250, -1⟩ 200 [] 1 400
    = some (.done [(0, 32, 320), (0, 24, 240)] 3 240) := by
  norm_num [naLoop, bestOf, subInfo, findPlan, candidateChannels, planLoop, List.range_succ, NaConfig.target, List.zipIdx_cons]

/-- When the metric can be -1 or less (for example a negated loss), the search stops in a round in which a subgraph has a plan, far above the
budget and without reaching a limit of rounds. -/
theorem C34_negative_metric_false : ∃ (cfg : NaConfig) (s s' : Sub), 0 ≤ cfg.budget ∧ cfg.maxRounds = -1 ∧ cfg.subs [] = [s, s']
    ∧ findPlan s' cfg.minFeature 400 (cfg.target 1 400) = some (32, 320)
    ∧ ∀ fuel, 0 < fuel → naLoop cfg fuel [] 1 400 = some (.stuck [] 1 400) := by
  refine ⟨⟨fun _ => [⟨8, fun c => 10 * c, fun _ => -2⟩, ⟨40, fun c => 10 * c, fun _ => -2⟩], 8, 1/10, 1, 250, -1⟩,
    ⟨8, fun c => 10 * c, fun _ => -2⟩, ⟨40, fun c => 10 * c, fun _ => -2⟩, by norm_num, rfl, rfl, ?_, ?_⟩
  · norm_num [findPlan, candidateChannels, planLoop, List.range_succ, NaConfig.target]
  · intro fuel hf
    obtain ⟨f, rfl⟩ := Nat.exists_eq_succ_of_ne_zero (by omega : fuel ≠ 0)
    norm_num [naLoop, bestOf, subInfo, findPlan, candidateChannels, planLoop, List.range_succ, NaConfig.target, List.zipIdx_cons]

end Verif.Props
