import Verif.Model.PruneConfig
import Mathlib.Data.List.Basic
import Mathlib.Data.List.Induction
import Mathlib.Tactic.NormNum
import Mathlib.Algebra.Order.Field.Rat

/-!
C98: a channel pruner prunes what its configuration asks for, and its configuration can be written and used again.
-/

namespace Verif.Props
open Verif.Spec.PruneConfig Verif.Model.PruneConfig

theorem pc_lookup_del (d : List (String × ℚ)) (k k' : String) : (del d k).lookup k' = if k' = k then none else d.lookup k' := by
  unfold del
  induction d with
  | nil => simp
  | cons e d ih =>
    obtain ⟨a, v⟩ := e
    by_cases hk : a = k
    · subst hk
      rw [List.filter_cons_of_neg (by simp), ih]
      by_cases h : k' = a
      · rw [if_pos h, if_pos h]
      · rw [if_neg h, if_neg h, List.lookup_cons, beq_false_of_ne h]
    · rw [List.filter_cons_of_pos (by simpa using hk), List.lookup_cons, List.lookup_cons, ih]
      by_cases h : k' = a
      · subst h
        simp [hk]
      · rw [beq_false_of_ne h]

theorem pc_lookup_set (d : List (String × ℚ)) (k : String) (v : ℚ) (k' : String) : (put d k v).lookup k' = if k' = k then some v else d.lookup k' := by
  unfold put
  rw [List.lookup_cons]
  by_cases h : k' = k
  · subst h
    simp
  · rw [beq_false_of_ne h, if_neg h]
    have := pc_lookup_del d k k'
    rw [if_neg h] at this
    exact this

theorem pc_lookup_update (d e : List (String × ℚ)) (k : String) : (update d e).lookup k = (e.lookup k).or (d.lookup k) := by
  unfold update
  induction e with
  | nil => simp
  | cons x e ih =>
    rw [List.foldr_cons, pc_lookup_set, ih, List.lookup_cons]
    by_cases h : k = x.1
    · simp [h]
    · rw [if_neg h, beq_false_of_ne h]

theorem pc_collect (dflt : ℚ) (test : Op → Bool) : ∀ (ops cs : List Op) (r : List (String × ℚ)),
    (collect dflt test ops (cs, r)).1 = cs ++ ops.filter test ∧
      ∀ k, (collect dflt test ops (cs, r)).2.lookup k = (r.lookup k).or (if k ∈ (ops.filter test).map Op.name then some dflt else none)
  | [], cs, r => by simp [collect]
  | o :: ops, cs, r => by
    unfold collect
    by_cases h : test o = true
    · rw [if_pos h]
      have ih := pc_collect dflt test ops (cs ++ [o]) (if (r.lookup o.name).isSome then r else put r o.name dflt)
      refine ⟨?_, fun k => ?_⟩
      · rw [ih.1, List.filter_cons_of_pos h]
        simp
      · rw [ih.2, List.filter_cons_of_pos h]
        by_cases hs : (r.lookup o.name).isSome = true
        · rw [if_pos hs]
          by_cases hk : k = o.name
          · subst hk
            obtain ⟨v, hv⟩ := Option.isSome_iff_exists.1 hs
            rw [hv]
            simp
          · simp only [List.map_cons, List.mem_cons, hk, false_or]
        · rw [if_neg hs, pc_lookup_set]
          have hn : r.lookup o.name = none := Option.not_isSome_iff_eq_none.1 hs
          by_cases hk : k = o.name
          · subst hk
            rw [hn]
            simp
          · simp only [List.map_cons, List.mem_cons, hk, false_or, if_false]
    · rw [if_neg h]
      have ih := pc_collect dflt test ops cs r
      rw [List.filter_cons_of_neg h]
      exact ih

theorem isCenter_iff (o : Op) : isCenter o = true ↔ Prunable o := by
  unfold isCenter Prunable
  simp only [Bool.or_eq_true, Bool.and_eq_true, decide_eq_true_eq, List.mem_cons, List.not_mem_nil, or_false, Bool.not_eq_true']
  constructor
  · rintro ((⟨h, d⟩ | h) | ⟨h, d⟩)
    · left
      refine ⟨?_, d⟩
      rcases h with h | h | h | h <;> simp [h]
    · right; left; exact h
    · right; right; exact ⟨h, d⟩
  · rintro (⟨h, d⟩ | h | ⟨h, d⟩)
    · left; left
      refine ⟨?_, d⟩
      rcases h with h | h | h | h <;> simp [h]
    · left; right; exact h
    · right; exact ⟨h, d⟩

/-- What a configuration asks for: a number is the default of all; a dictionary has the default under `default`, every other key is the name of an operation. -/
def request (c : Config) : Option Request :=
  match c.sparsity with
  | some (.num q) => some ⟨q, fun _ => none, c.skipLastFc.getD true⟩
  | some (.dict d) => (d.lookup "default").map fun q => ⟨q, fun k => if k = "default" then none else d.lookup k, c.skipLastFc.getD true⟩
  | _ => none

theorem parse_request {known : String → Bool} {c : Config} {x : ℚ × List (String × ℚ) × Config} (h : parse known c = .ok x) :
    ∃ r, request c = some r ∧ x.1 = r.dflt ∧ (∀ k, x.2.1.lookup k = r.given k) ∧ r.skipLastFc = c.skipLastFc.getD true ∧ x.2.2.metrics = c.metrics ∧
      x.2.2.skipLastFc = c.skipLastFc ∧ (∃ m, c.metrics = some m ∧ known m = true) := by
  unfold parse at h
  unfold request
  cases hs : c.sparsity with
  | none => rw [hs] at h; simp at h
  | some s =>
    cases hm : c.metrics with
    | none => rw [hs, hm] at h; cases s <;> simp at h
    | some m =>
      rw [hs, hm] at h
      cases s with
      | other => simp at h
      | num q =>
        simp only at h
        by_cases hk : known m = true
        · rw [if_pos hk] at h
          injection h with h
          subst h
          exact ⟨_, rfl, rfl, fun k => rfl, rfl, hm, rfl, m, rfl, hk⟩
        · rw [if_neg hk] at h
          cases h
      | dict d =>
        simp only at h
        cases hd : d.lookup "default" with
        | none => rw [hd] at h; simp at h
        | some q =>
          rw [hd] at h
          simp only at h
          by_cases hk : known m = true
          · rw [if_pos hk] at h
            injection h with h
            subst h
            refine ⟨⟨q, fun k => if k = "default" then none else d.lookup k, c.skipLastFc.getD true⟩, by simp [hd], rfl, fun k => ?_, rfl, rfl, rfl, m, rfl, hk⟩
            simp only [pc_lookup_update, pc_lookup_del]
            simp
          · rw [if_neg hk] at h
            cases h

/-- Everything about a successful construction. -/
theorem construct_ok {known : String → Bool} {c : Config} {ops : List Op} {subs : List (List Op)} {p : Pruner} {c' : Config}
    (h : construct known c ops subs = .ok (p, c')) :
    ∃ r last, request c = some r ∧ (ops.filter isCenter).getLast? = some last ∧ p.centers = ops.filter isCenter ∧ p.dflt = r.dflt ∧
      (∀ k, p.rates.lookup k = if r.skipLastFc = true ∧ last.kind = .linear ∧ k = last.name ∧ ((r.given k).getD r.dflt = r.dflt) then some 0
        else (r.given k).or (if k ∈ (ops.filter isCenter).map Op.name then some r.dflt else none)) ∧
      p.skip = subs.map (excluded (c.excludeOps.getD [] ++ ["weight"])) ∧ c'.metrics = c.metrics ∧ c'.skipLastFc = c.skipLastFc ∧ r.skipLastFc = c.skipLastFc.getD true ∧
      (∃ m, c.metrics = some m ∧ known m = true) ∧ c'.excludeOps = c.excludeOps.map (· ++ ["weight"]) := by
  unfold construct at h
  cases hp : parse known c with
  | error e => rw [hp] at h; cases h
  | ok x =>
    obtain ⟨r, hr, hd, hg, hsk, hm, hs', hmk⟩ := parse_request hp
    obtain ⟨dflt, given, c1⟩ := x
    rw [hp] at h
    simp only at h hd hg hm hs'
    obtain ⟨h1, h2⟩ := pc_collect dflt isCenter ops [] given
    generalize hcol : collect dflt isCenter ops ([], given) = col at h h1 h2
    obtain ⟨centers, rates⟩ := col
    simp only [List.nil_append] at h h1 h2
    subst h1
    cases hl : (ops.filter isCenter).getLast? with
    | none => rw [hl] at h; cases h
    | some last =>
      rw [hl] at h
      injection h with h
      injection h with h3 h4
      have hlm : last.name ∈ (ops.filter isCenter).map Op.name := List.mem_map_of_mem (List.mem_of_getLast? hl)
      subst hd
      refine ⟨r, last, hr, rfl, ?_, ?_, ?_, ?_, ?_, ?_, hsk, hmk, ?_⟩
      · rw [← h3]
      · rw [← h3]
      · intro k
        rw [← h3]
        simp only [← hsk]
        have hlast : rates.lookup last.name = some r.dflt ↔ (r.given last.name).getD r.dflt = r.dflt := by
          rw [h2, if_pos hlm, hg]
          cases r.given last.name <;> simp
        by_cases hc : r.skipLastFc = true ∧ last.kind = .linear
        · rw [if_pos (by simp [hc.1, hc.2])]
          by_cases hv : rates.lookup last.name = some r.dflt
          · rw [if_pos hv, pc_lookup_set]
            by_cases hk : k = last.name
            · subst hk
              rw [if_pos rfl, if_pos ⟨hc.1, hc.2, rfl, hlast.1 hv⟩]
            · rw [if_neg hk, if_neg (fun hh => hk hh.2.2.1), h2, hg]
          · rw [if_neg hv, if_neg, h2, hg]
            rintro ⟨_, _, hk, hh⟩
            subst hk
            exact hv (hlast.2 hh)
        · rw [if_neg (by simpa using hc), if_neg (fun hh => hc ⟨hh.1, hh.2.1⟩), h2, hg]
      · rw [← h3]
      · rw [← h4]; exact hm
      · rw [← h4]; exact hs'
      · rw [← h4]

theorem last_of_filter {ops : List Op} {last : Op} (h : (ops.filter isCenter).getLast? = some last) : IsLast ops last := by
  induction ops using List.reverseRec with
  | nil => simp at h
  | append_singleton ops o ih =>
    rw [List.filter_append] at h
    by_cases hc : isCenter o = true
    · rw [List.filter_cons_of_pos hc, List.filter_nil, List.getLast?_append] at h
      simp at h
      subst h
      exact ⟨ops, [], rfl, (isCenter_iff o).1 hc, by simp⟩
    · rw [List.filter_cons_of_neg hc, List.filter_nil, List.append_nil] at h
      obtain ⟨a, b, e, hp, hb⟩ := ih h
      refine ⟨a, b ++ [o], by simp [e], hp, ?_⟩
      intro x hx
      rcases List.mem_append.1 hx with hx | hx
      · exact hb x hx
      · rw [List.mem_singleton.1 hx]
        exact fun hh => hc ((isCenter_iff o).2 hh)

/-- A pruner that is constructed prunes exactly the prunable operations, each with the rate asked for.  Missing from the full statement: a rate given for the last
linear layer that equals the default (`C98_last_layer_false`). -/
theorem C98_rates_partial {known : String → Bool} {c : Config} {ops : List Op} {subs : List (List Op)} {p : Pruner} {c' : Config}
    (h : construct known c ops subs = .ok (p, c')) :
    ∃ r last, request c = some r ∧ IsLast ops last ∧ (∀ o, o ∈ p.centers ↔ o ∈ ops ∧ Prunable o) ∧
      ((r.skipLastFc = true → last.kind = .linear → r.given last.name ≠ some r.dflt ∨ r.dflt = 0) →
        ∀ o ∈ ops, Prunable o → ∃ v, p.rates.lookup o.name = some v ∧ Wanted r last o v) := by
  obtain ⟨r, last, hr, hl, hc, hd, hrates, _⟩ := construct_ok h
  refine ⟨r, last, hr, last_of_filter hl, fun o => ?_, fun hlast o ho hp => ?_⟩
  · rw [hc, List.mem_filter, isCenter_iff]
  · have hm : o.name ∈ (ops.filter isCenter).map Op.name := List.mem_map_of_mem (List.mem_filter.2 ⟨ho, (isCenter_iff o).2 hp⟩)
    rw [hrates, if_pos hm]
    unfold Wanted
    cases hg : r.given o.name with
    | some w =>
      by_cases hz : r.skipLastFc = true ∧ last.kind = .linear ∧ o.name = last.name ∧ ((some w).getD r.dflt = r.dflt)
      · rw [if_pos hz]
        obtain ⟨h1, h2, h3, h4⟩ := hz
        simp only [Option.getD_some] at h4
        rcases hlast h1 h2 with hh | hh
        · exact absurd (by rw [← h3, hg, h4]) hh
        · exact ⟨0, rfl, by rw [h4, hh]⟩
      · rw [if_neg hz]
        exact ⟨w, rfl, rfl⟩
    | none =>
      by_cases hz : r.skipLastFc = true ∧ last.kind = .linear ∧ o.name = last.name ∧ ((none : Option ℚ).getD r.dflt = r.dflt)
      · rw [if_pos hz]
        exact ⟨0, rfl, fun _ => rfl, fun hn => absurd ⟨hz.1, hz.2.1, hz.2.2.1⟩ hn⟩
      · rw [if_neg hz]
        exact ⟨r.dflt, rfl, fun hn => absurd ⟨hn.1, hn.2.1, hn.2.2, rfl⟩ hz, fun _ => rfl⟩

/-- Construction fails only for a configuration without a default rate, an unknown metric, or a model with nothing to prune. -/
theorem C98_accepts {known : String → Bool} {c : Config} {ops : List Op} {subs : List (List Op)} {r : Request} {m : String} (hr : request c = some r)
    (hm : c.metrics = some m) (hk : known m = true) {o : Op} (ho : o ∈ ops) (hp : Prunable o) : ∃ p c', construct known c ops subs = .ok (p, c') := by
  have hx : ∃ x, parse known c = .ok x := by
    unfold request at hr
    unfold parse
    cases hs : c.sparsity with
    | none => rw [hs] at hr; cases hr
    | some s =>
      cases s with
      | other => rw [hs] at hr; cases hr
      | num q => simp only [hm, hk, if_true]; exact ⟨_, rfl⟩
      | dict d =>
        rw [hs] at hr
        simp only at hr
        cases hd : d.lookup "default" with
        | none => rw [hd] at hr; cases hr
        | some q => simp only [hm, hd, hk, if_true]; exact ⟨_, rfl⟩
  obtain ⟨⟨dflt, given, c1⟩, hx⟩ := hx
  have h1 := (pc_collect dflt isCenter ops [] given).1
  unfold construct
  rw [hx]
  simp only
  generalize collect dflt isCenter ops ([], given) = col at h1
  obtain ⟨centers, rates⟩ := col
  simp only [List.nil_append] at h1
  subst h1
  have hne : ops.filter isCenter ≠ [] := List.ne_nil_of_mem (List.mem_filter.2 ⟨ho, (isCenter_iff o).2 hp⟩)
  rw [List.getLast?_eq_getLast_of_ne_nil hne]
  exact ⟨_, _, rfl⟩

/-- The configuration a pruner writes gives a pruner with the same operations and the same rates, if no operation is called `default`. -/
theorem C98_reload {known : String → Bool} {c : Config} {ops : List Op} {subs : List (List Op)} {p : Pruner} {c' : Config}
    (h : construct known c ops subs = .ok (p, c')) (hdef : ∀ o ∈ ops, o.name ≠ "default") :
    ∃ p' c'', construct known (generateConfig p c') ops subs = .ok (p', c'') ∧ p'.dflt = p.dflt ∧ p'.centers = p.centers ∧ p'.skip = p.skip ∧
      ∀ k, p'.rates.lookup k = p.rates.lookup k := by
  obtain ⟨r, last, hr, hl, hc, hd, hrates, hskip, hm, hs, hrs, ⟨m, hm1, hm2⟩, hex⟩ := construct_ok h
  have hlm : last ∈ ops.filter isCenter := List.mem_of_getLast? hl
  have hg0 : r.given "default" = none := by
    unfold request at hr
    cases hsp : c.sparsity with
    | none => rw [hsp] at hr; cases hr
    | some s =>
      rw [hsp] at hr
      cases s with
      | other => cases hr
      | num q => simp only [Option.some.injEq] at hr; rw [← hr]
      | dict d =>
        simp only at hr
        obtain ⟨q, _, hq⟩ := Option.map_eq_some_iff.1 hr
        rw [← hq]
        simp
  have hnd : ∀ (l : List Op), (∀ o ∈ l, o ∈ ops) → "default" ∉ l.map Op.name := by
    intro l hl hmem
    obtain ⟨o, ho, he⟩ := List.mem_map.1 hmem
    exact hdef o (hl o ho) he
  have hp0 : p.rates.lookup "default" = none := by
    rw [hrates, if_neg, hg0, if_neg (hnd _ fun o ho => (List.mem_filter.1 ho).1)]
    · rfl
    · rintro ⟨_, _, hk, _⟩
      exact hdef last (List.mem_filter.1 hlm).1 hk.symm
  have hreq : request (generateConfig p c') = some ⟨p.dflt, fun k => if k = "default" then none else (update [("default", p.dflt)] p.rates).lookup k, c.skipLastFc.getD true⟩ := by
    unfold request generateConfig
    simp only [pc_lookup_update, hp0, hs]
    rfl
  have hgiven : ∀ k, (if k = "default" then none else (update [("default", p.dflt)] p.rates).lookup k) = p.rates.lookup k := by
    intro k
    by_cases hk : k = "default"
    · rw [if_pos hk, hk, hp0]
    · rw [if_neg hk, pc_lookup_update, List.lookup_cons, beq_false_of_ne hk]
      simp
  obtain ⟨p', c'', hok⟩ := C98_accepts (known := known) (subs := subs) hreq (m := m) (by unfold generateConfig; rw [← hm1, ← hm]) hm2 (List.mem_filter.1 hlm).1
    ((isCenter_iff last).1 (List.mem_filter.1 hlm).2)
  obtain ⟨r2, last2, hr2, hl2, hc2, hd2, hrates2, hskip2, _⟩ := construct_ok hok
  rw [hreq] at hr2
  injection hr2 with hr2
  subst hr2
  rw [hl] at hl2
  injection hl2 with hl2
  subst hl2
  refine ⟨p', c'', hok, hd2, by rw [hc2, hc], ?_, ?_⟩
  · rw [hskip2, hskip]
    apply List.map_congr_left
    intro s _
    unfold generateConfig excluded
    simp only [hex]
    cases c.excludeOps with
    | none => rfl
    | some l =>
      simp only [Option.map_some, Option.getD_some]
      congr 1
      funext o
      simp [List.contains_eq_mem, or_assoc]
  · intro k
    rw [hrates2]
    simp only [hgiven]
    rw [hd, ← hrs]
    by_cases hz : r.skipLastFc = true ∧ last.kind = .linear ∧ k = last.name ∧ (r.given k).getD r.dflt = r.dflt
    · have e : p.rates.lookup k = some 0 := by rw [hrates, if_pos hz]
      rw [e]
      by_cases hy : r.skipLastFc = true ∧ last.kind = .linear ∧ k = last.name ∧ (some (0 : ℚ)).getD r.dflt = r.dflt
      · rw [if_pos hy]
      · rw [if_neg hy, Option.some_or]
    · have e : p.rates.lookup k = (r.given k).or (if k ∈ (ops.filter isCenter).map Op.name then some r.dflt else none) := by rw [hrates, if_neg hz]
      rw [if_neg, e]
      · cases r.given k with
        | some w => rw [Option.some_or, Option.some_or]
        | none =>
          rw [Option.none_or]
          by_cases hk : k ∈ (ops.filter isCenter).map Op.name
          · rw [if_pos hk, Option.some_or]
          · rw [if_neg hk, Option.none_or]
      · rintro ⟨h1, h2, h3, h4⟩
        apply hz
        refine ⟨h1, h2, h3, ?_⟩
        rw [e, h3, if_pos (List.mem_map_of_mem hlm)] at h4
        rw [h3]
        cases hgv : r.given last.name with
        | none => rfl
        | some w => rw [hgv] at h4; simpa using h4

/-- A model for the examples: a convolution, a depthwise convolution and a linear layer. -/
def pcOps : List Op := [⟨"conv", .conv2d, false, 1⟩, ⟨"dw", .conv2d, true, 1⟩, ⟨"fc", .linear, false, 1⟩]

/-- A configuration for the examples. -/
def pcConfig (d : List (String × ℚ)) : Config := ⟨some (.dict d), some "l2_norm", none, some ["mul"]⟩

example : (construct (fun _ => true) (pcConfig [("default", 1/4), ("conv", 1/2)]) pcOps []).toOption.map (fun x => (x.1.rates.lookup "conv", x.1.rates.lookup "fc", x.1.rates.lookup "dw")) =
    some (some (1/2), some 0, none) := by decide +kernel

example : ∀ o ∈ pcOps, o.name ≠ "default" := by decide

/-- A rate given for the last layer is dropped if it equals the default. -/
theorem C98_last_layer_false : ∃ (c : Config) (p : Pruner) (c' : Config) (r : Request), construct (fun _ => true) c pcOps [] = .ok (p, c') ∧ request c = some r ∧
    r.given "fc" = some (1/2) ∧ p.rates.lookup "fc" = some 0 :=
  ⟨pcConfig [("default", 1/2), ("fc", 1/2)], ⟨[("fc", 0), ("conv", 1/2)], 1/2, [⟨"conv", .conv2d, false, 1⟩, ⟨"fc", .linear, false, 1⟩], []⟩,
    ⟨some (.dict [("fc", 1/2)]), some "l2_norm", none, some ["mul", "weight"]⟩, ⟨1/2, fun k => if k = "default" then none else List.lookup k [("default", 1/2), ("fc", 1/2)], true⟩,
    by decide +kernel, rfl, by decide +kernel, by decide +kernel⟩

/-- Constructing a pruner takes the default out of the dictionary of the caller: the same configuration does not give a second pruner. -/
theorem C98_second_false : ∃ (c : Config) (p : Pruner) (c' : Config), construct (fun _ => true) c pcOps [] = .ok (p, c') ∧
    construct (fun _ => true) c' pcOps [] = .error "Please specify a default sparsity" :=
  ⟨pcConfig [("default", 1/2)], ⟨[("fc", 0), ("conv", 1/2)], 1/2, [⟨"conv", .conv2d, false, 1⟩, ⟨"fc", .linear, false, 1⟩], []⟩,
    ⟨some (.dict []), some "l2_norm", none, some ["mul", "weight"]⟩, by decide +kernel, by decide +kernel⟩

/-- With a number a second pruner is the same as the first. -/
theorem C98_second {known : String → Bool} {c : Config} {q : ℚ} (hq : c.sparsity = some (.num q)) {ops : List Op} {subs : List (List Op)} {p : Pruner} {c' : Config}
    (h : construct known c ops subs = .ok (p, c')) : ∃ c'', construct known c' ops subs = .ok (p, c'') := by
  obtain ⟨r, last, hr, hl, hc, hd, hrates, hskip, hm, hs, hrs, ⟨m, hm1, hm2⟩, hex⟩ := construct_ok h
  unfold construct parse at h ⊢
  rw [hq, hm1] at h
  simp only [hm2, if_true] at h
  have hsp : c'.sparsity = some (.num q) := by
    revert h
    generalize collect q isCenter ops ([], []) = col
    obtain ⟨centers, rates⟩ := col
    simp only
    cases centers.getLast? with
    | none => intro h; cases h
    | some l =>
      intro h
      injection h with h
      injection h with _ h4
      rw [← h4]
      exact hq
  rw [hsp, hm, hm1]
  simp only [hm2, if_true]
  revert h
  generalize collect q isCenter ops ([], []) = col
  obtain ⟨centers, rates⟩ := col
  simp only
  cases centers.getLast? with
  | none => intro h; cases h
  | some l =>
    intro h
    injection h with h
    injection h with h3 h4
    have e : (subs.map (excluded (c'.excludeOps.getD [] ++ ["weight"]))) = subs.map (excluded (c.excludeOps.getD [] ++ ["weight"])) := by
      apply List.map_congr_left
      intro s _
      unfold excluded
      rw [hex]
      cases c.excludeOps with
      | none => rfl
      | some l =>
        simp only [Option.map_some, Option.getD_some]
        congr 1
        funext o
        simp [List.contains_eq_mem, or_assoc]
    simp only [hs, e, h3]
    exact ⟨_, rfl⟩

/-- A subgraph is left out iff it has an operation of an excluded kind, a constant, or a recurrent layer that is given a state. -/
theorem C98_excluded {known : String → Bool} {c : Config} {ops : List Op} {subs : List (List Op)} {p : Pruner} {c' : Config}
    (h : construct known c ops subs = .ok (p, c')) (i : ℕ) (s : List Op) (hs : subs[i]? = some s) :
    p.skip[i]? = some true ↔ ∃ o ∈ s, kindName o.kind ∈ c.excludeOps.getD [] ∨ kindName o.kind = "weight" ∨ ((o.kind = .rnn ∨ o.kind = .gru ∨ o.kind = .lstm) ∧ 1 < o.reads) := by
  obtain ⟨_, _, _, _, _, _, _, hskip, _⟩ := construct_ok h
  rw [hskip, List.getElem?_map, hs]
  simp only [Option.map_some, Option.some.injEq, excluded, List.any_eq_true, Bool.or_eq_true, Bool.and_eq_true, decide_eq_true_eq, List.contains_eq_mem,
    List.mem_append, List.mem_singleton, List.mem_cons, List.not_mem_nil, or_false, or_assoc]

/-- After pruning, asking for the number of operations makes the pruner forget what was excluded, and which operations it prunes. -/
theorem C98_reset_false : ∃ (c : Config) (ops : List Op) (subs : List (List Op)) (p : Pruner) (c' : Config), construct (fun _ => true) c ops subs = .ok (p, c') ∧
    p.skip = [true] ∧ (reset p ops subs).skip = [false] ∧ p.centers.length = 2 ∧ (reset p ops subs).centers.length = 1 :=
  ⟨pcConfig [("default", 1/2)], [⟨"conv", .conv2d, false, 1⟩, ⟨"c1", .conv1d, false, 1⟩], [[⟨"conv", .conv2d, false, 1⟩, ⟨"mul_0", .other "mul", false, 2⟩]],
    ⟨[("c1", 1/2), ("conv", 1/2)], 1/2, [⟨"conv", .conv2d, false, 1⟩, ⟨"c1", .conv1d, false, 1⟩], [true]⟩,
    ⟨some (.dict []), some "l2_norm", none, some ["mul", "weight"]⟩, by decide +kernel, by decide +kernel, by decide +kernel, by decide, by decide +kernel⟩

/-- The rates survive it: an operation that had a rate keeps it, also a rate of zero, and an operation that is found anew gets the default. -/
theorem C98_reset_rates (p : Pruner) (ops : List Op) (subs : List (List Op)) :
    (∀ n q, p.rates.lookup n = some q → (reset p ops subs).rates.lookup n = some q) ∧
    (∀ o ∈ (reset p ops subs).centers, p.rates.lookup o.name = none → (reset p ops subs).rates.lookup o.name = some p.dflt) ∧
    (reset p ops subs).dflt = p.dflt := by
  have h := pc_collect p.dflt isCenterReset ops [] p.rates
  refine ⟨fun n q hq => ?_, fun o ho hn => ?_, rfl⟩
  · show (collect p.dflt isCenterReset ops ([], p.rates)).2.lookup n = _
    rw [h.2, hq]; rfl
  · have ho' : o ∈ (collect p.dflt isCenterReset ops ([], p.rates)).1 := ho
    rw [h.1, List.nil_append] at ho'
    show (collect p.dflt isCenterReset ops ([], p.rates)).2.lookup o.name = _
    rw [h.2, hn, if_pos (List.mem_map_of_mem ho')]; rfl

/-- Hypotheses met: the last layer keeps the rate of zero. -/
example : ((reset ⟨[("fc", 0), ("conv", 1/2)], 1/2, [], []⟩ [⟨"conv", .conv2d, false, 1⟩, ⟨"fc", .linear, false, 1⟩] []).rates.lookup "fc") = some 0 := by decide +kernel

/-- The operations pruned after it are the two-dimensional convolutions that are not depthwise and the linear layers of the model, all of which were prunable before. -/
theorem C98_reset_centers (p : Pruner) (ops : List Op) (subs : List (List Op)) (o : Op) :
    (o ∈ (reset p ops subs).centers ↔ o ∈ ops ∧ (((o.kind = .conv2d ∨ o.kind = .convTranspose2d) ∧ o.dw = false) ∨ o.kind = .linear)) ∧
    (o ∈ (reset p ops subs).centers → Prunable o) := by
  have h := (pc_collect p.dflt isCenterReset ops [] p.rates).1
  have h1 : o ∈ (reset p ops subs).centers ↔ o ∈ ops ∧ (((o.kind = .conv2d ∨ o.kind = .convTranspose2d) ∧ o.dw = false) ∨ o.kind = .linear) := by
    show o ∈ (collect p.dflt isCenterReset ops ([], p.rates)).1 ↔ _
    rw [h, List.nil_append, List.mem_filter]
    simp [isCenterReset]
  refine ⟨h1, fun ho => (isCenter_iff o).1 ?_⟩
  rcases (h1.1 ho).2 with ⟨h | h, hd⟩ | h <;> simp [isCenter, *]

end Verif.Props
