import Verif.Model.GreedyPrune
import Mathlib.Tactic.Linarith
import Mathlib.Tactic.Ring
import Mathlib.Tactic.FieldSimp
import Mathlib.Tactic.NormNum
import Mathlib.Algebra.Order.Field.Basic
import Mathlib.Algebra.Order.Field.Rat
import Mathlib.Tactic.Positivity
import Mathlib.Algebra.Order.BigOperators.Group.List

/-! C28: greedy selection of the least important channels. -/

namespace Verif.Props
open Verif.Model

/-- Number of channels in a list of dependency sets. -/
def channels (l : List LeafSet) : Nat := (l.map (fun c => c.idx.card)).sum

private theorem loop_prefix (sp total delta : ℚ) (prior : Option Prior) : ∀ (l : List LeafSet) (cur : ℚ) (P : Finset Nat),
    (greedyLoop sp total delta prior l cur P).2 <+: l := by
  intro l
  induction l with
  | nil => intro cur P; simp [greedyLoop]
  | cons c l ih =>
    intro cur P
    unfold greedyLoop
    split
    · split
      · simp
      · simpa using ih _ _
    · simp

private theorem loop_card (sp total delta : ℚ) (prior : Option Prior) : ∀ (l : List LeafSet) (cur : ℚ) (P : Finset Nat),
    l.Pairwise (fun a b => Disjoint a.idx b.idx) → (∀ c ∈ l, Disjoint P c.idx) →
    (greedyLoop sp total delta prior l cur P).1.card = P.card + channels (greedyLoop sp total delta prior l cur P).2 := by
  intro l
  induction l with
  | nil => intro cur P _ _; simp [greedyLoop, channels]
  | cons c l ih =>
    intro cur P hp hd
    rw [List.pairwise_cons] at hp
    unfold greedyLoop
    split
    · split
      · simp [channels]
      · simp only
        rw [ih _ _ hp.2 (fun d hd' => Finset.disjoint_union_left.2 ⟨hd d (by simp [hd']), hp.1 d hd'⟩),
          Finset.card_union_of_disjoint (hd c (by simp))]
        simp [channels]; omega
    · simp [channels]

private theorem loop_enough (sp total delta : ℚ) : ∀ (l : List LeafSet) (cur : ℚ) (P : Finset Nat),
    l.Pairwise (fun a b => Disjoint a.idx b.idx) → (∀ c ∈ l, Disjoint P c.idx) →
    (greedyLoop sp total delta none l cur P).2 = l ∨
      sp ≤ (if (greedyLoop sp total delta none l cur P).2 = [] then cur
        else ((P.card + channels (greedyLoop sp total delta none l cur P).2 : Nat) + delta) / total) := by
  intro l
  induction l with
  | nil => intro cur P _ _; simp [greedyLoop]
  | cons c l ih =>
    intro cur P hp hd
    rw [List.pairwise_cons] at hp
    by_cases hc : cur < sp
    · have e : greedyLoop sp total delta none (c :: l) cur P =
          ((greedyLoop sp total delta none l ((P.card + c.idx.card + delta) / total) (P ∪ c.idx)).1,
            c :: (greedyLoop sp total delta none l ((P.card + c.idx.card + delta) / total) (P ∪ c.idx)).2) := by
        rw [greedyLoop]; simp [hc, globalStop]
      rw [e]
      have := ih ((P.card + c.idx.card + delta) / total) (P ∪ c.idx) hp.2
        (fun d hd' => Finset.disjoint_union_left.2 ⟨hd d (by simp [hd']), hp.1 d hd'⟩)
      rcases this with h | h
      · left; simp [h]
      · right
        simp only [List.cons_ne_nil, if_false]
        rw [Finset.card_union_of_disjoint (hd c (by simp))] at h
        split at h
        · next hnil => simpa [hnil, channels] using h
        · simp only [channels, List.map_cons, List.sum_cons] at h ⊢
          push_cast at h ⊢
          convert h using 2
          ring
    · right
      have e : greedyLoop sp total delta none (c :: l) cur P = (P, []) := by rw [greedyLoop]; simp [hc]
      rw [e]
      simpa using hc

private theorem loop_min (sp total delta : ℚ) (prior : Option Prior) : ∀ (l : List LeafSet) (cur : ℚ) (P : Finset Nat),
    l.Pairwise (fun a b => Disjoint a.idx b.idx) → (∀ c ∈ l, Disjoint P c.idx) →
    ∀ q c, (greedyLoop sp total delta prior l cur P).2 = q ++ [c] →
      (if q = [] then cur else ((P.card + channels q : Nat) + delta) / total) < sp := by
  intro l
  induction l with
  | nil => intro cur P _ _ q c h; simp [greedyLoop] at h
  | cons d l ih =>
    intro cur P hp hd q c h
    rw [List.pairwise_cons] at hp
    unfold greedyLoop at h
    by_cases hc : cur < sp
    · simp only [hc, if_true] at h
      split at h
      · simp at h
      · simp only at h
        cases q with
        | nil => simpa using hc
        | cons e q =>
          simp only [List.cons_append, List.cons.injEq] at h
          obtain ⟨rfl, h⟩ := h
          have := ih _ _ hp.2 (fun d' hd' => Finset.disjoint_union_left.2 ⟨hd d' (by simp [hd']), hp.1 d' hd'⟩) q c h
          rw [Finset.card_union_of_disjoint (hd d (by simp))] at this
          simp only [List.cons_ne_nil, if_false]
          split at this
          · next hnil =>
            subst hnil
            simpa [channels] using this
          · simp only [channels, List.map_cons, List.sum_cons] at this ⊢
            push_cast at this ⊢
            convert this using 2
            ring
    · rw [if_neg hc] at h; simp at h

/-- What one group with a result satisfies. -/
private structure GroupOk (sp : ℚ) (sets : List LeafSet) (g : GroupResult) : Prop where
  ne : g.valid ≠ []
  perm : g.valid.Perm (sets.filter (fun c => decide (0 < (c.idx ∩ g.group).card)))
  inside : ∀ c ∈ g.valid, c.idx ⊆ g.group
  order : ∃ kept, g.valid = g.pruned ++ kept ∧ ∀ p ∈ g.pruned, ∀ k ∈ kept, p.imp ≤ k.imp
  up : ∀ q c, g.pruned = q ++ [c] → (channels q : ℚ) < sp * channels g.valid

private theorem channels_pos {l : List LeafSet} (hne : l ≠ []) (h : ∀ c ∈ l, 0 < c.idx.card) : 0 < channels l := by
  cases l with
  | nil => exact absurd rfl hne
  | cons c l => have := h c (by simp); simp only [channels, List.map_cons, List.sum_cons]; omega

private theorem group_spec (sp : ℚ) (hsp : 0 < sp) (hsp1 : sp ≤ 1) (sets : List LeafSet)
    (hdis : sets.Pairwise (fun a b => Disjoint a.idx b.idx)) (delta : ℚ) (hdelta : 0 ≤ delta) (group : Finset Nat)
    {delta' : ℚ} {res : List GroupResult} (h : pruneGroup sp none sets delta group = some (delta', res)) :
    0 ≤ delta' ∧ (∀ g ∈ res, GroupOk sp sets g ∧ g.group = group) ∧
      delta' - delta = (res.map (fun g => (channels g.pruned : ℚ))).sum - sp * (res.map (fun g => (channels g.valid : ℚ))).sum := by
  unfold pruneGroup at h
  simp only at h
  split at h
  · next hall =>
    split at h
    · obtain ⟨rfl, rfl⟩ := by simpa using h
      simp [hdelta]
    · next hne =>
      simp only [Option.some.injEq, Prod.mk.injEq] at h
      obtain ⟨hd', rfl⟩ := h
      set valid := sets.filter (fun c => decide (0 < (c.idx ∩ group).card)) with hvalid
      set sorted := valid.insertionSort (fun a b => a.imp ≤ b.imp) with hsorted
      have hperm : sorted.Perm valid := List.perm_insertionSort _ _
      have hsdis : sorted.Pairwise (fun a b => Disjoint a.idx b.idx) := by
        refine List.Perm.pairwise (hperm.symm) (hdis.filter _) ?_
        intro a b hab; exact hab.symm
      have hempty : ∀ c ∈ sorted, Disjoint (∅ : Finset Nat) c.idx := fun c _ => Finset.disjoint_empty_left _
      have hpos : ∀ c ∈ sorted, 0 < c.idx.card := by
        intro c hc
        have := (List.mem_filter.1 (hperm.mem_iff.1 hc)).2
        simp only [decide_eq_true_eq] at this
        exact lt_of_lt_of_le this (Finset.card_le_card Finset.inter_subset_left)
      have hsne : sorted ≠ [] := by
        intro hh
        have := hperm.length_eq
        rw [hh] at this
        have hv : valid = [] := List.length_eq_zero_iff.1 this.symm
        exact hne (by simp [hv])
      have htot : (0 : ℚ) < channels sorted := by exact_mod_cast channels_pos hsne hpos
      have hcard := loop_card sp (channels sorted) delta none sorted 0 ∅ hsdis hempty
      have henough := loop_enough sp (channels sorted) delta sorted 0 ∅ hsdis hempty
      have hmin := loop_min sp (channels sorted) delta none sorted 0 ∅ hsdis hempty
      have hpre := loop_prefix sp (channels sorted) delta none sorted 0 ∅
      change delta + (((greedyLoop sp (channels sorted) delta none sorted 0 ∅).1.card : ℚ) - (channels sorted) * sp) = delta' at hd'
      change _ ∧ (∀ g ∈ [(⟨group, sorted, (greedyLoop sp (channels sorted) delta none sorted 0 ∅).2⟩ : GroupResult)], _) ∧
        _ = ([(⟨group, sorted, (greedyLoop sp (channels sorted) delta none sorted 0 ∅).2⟩ : GroupResult)].map _).sum -
          sp * ([(⟨group, sorted, (greedyLoop sp (channels sorted) delta none sorted 0 ∅).2⟩ : GroupResult)].map _).sum
      generalize greedyLoop sp (channels sorted) delta none sorted 0 ∅ = r at *
      simp only [Finset.card_empty, Nat.zero_add] at hcard henough hmin
      refine ⟨?_, ?_, ?_⟩
      · rw [← hd', hcard]
        rcases henough with hh | hh
        · rw [hh]
          have : (channels sorted : ℚ) * sp ≤ channels sorted := by nlinarith
          linarith
        · split at hh
          · linarith
          · rw [le_div_iff₀ htot] at hh
            linarith
      · intro g hg
        simp only [List.mem_singleton] at hg
        subst hg
        refine ⟨⟨hsne, hperm, ?_, ?_, ?_⟩, rfl⟩
        · intro c hc
          have := List.all_eq_true.1 hall c (hperm.mem_iff.1 hc)
          simpa using this
        · obtain ⟨kept, hk⟩ := hpre
          refine ⟨kept, hk.symm, ?_⟩
          have hs : sorted.Pairwise (fun a b => a.imp ≤ b.imp) := by
            have : Std.Total (fun a b : LeafSet => a.imp ≤ b.imp) := ⟨fun a b => le_total _ _⟩
            have : IsTrans LeafSet (fun a b => a.imp ≤ b.imp) := ⟨fun a b c => le_trans⟩
            exact List.pairwise_insertionSort _ _
          rw [← hk, List.pairwise_append] at hs
          exact hs.2.2
        · intro q c hq
          have := hmin q c hq
          show (channels q : ℚ) < sp * channels sorted
          split at this
          · next hnil => subst hnil; simp only [channels, List.map_nil, List.sum_nil, Nat.cast_zero] at *; positivity
          · rw [div_lt_iff₀ htot] at this
            linarith
      · simp only [List.map_cons, List.map_nil, List.sum_cons, List.sum_nil]
        rw [← hd', hcard]
        ring
  · simp at h

private theorem leaf_spec (sp : ℚ) (hsp : 0 < sp) (hsp1 : sp ≤ 1) (sets : List LeafSet)
    (hdis : sets.Pairwise (fun a b => Disjoint a.idx b.idx)) : ∀ (groups : List (Finset Nat)) (delta : ℚ), 0 ≤ delta →
    ∀ delta' res, pruneLeaf sp none sets groups delta = some (delta', res) →
    0 ≤ delta' ∧ (∀ g ∈ res, GroupOk sp sets g ∧ g.group ∈ groups) ∧
      delta' - delta = (res.map (fun g => (channels g.pruned : ℚ))).sum - sp * (res.map (fun g => (channels g.valid : ℚ))).sum := by
  intro groups
  induction groups with
  | nil =>
    intro delta hd delta' res h
    obtain ⟨rfl, rfl⟩ := by simpa [pruneLeaf] using h
    simp [hd]
  | cons g gs ih =>
    intro delta hd delta' res h
    unfold pruneLeaf at h
    split at h
    · simp at h
    · next d1 r1 h1 =>
      split at h
      · simp at h
      · next d2 r2 h2 =>
        obtain ⟨rfl, rfl⟩ := by simpa using h
        obtain ⟨a1, a2, a3⟩ := group_spec sp hsp hsp1 sets hdis delta hd g h1
        obtain ⟨b1, b2, b3⟩ := ih d1 a1 _ _ h2
        refine ⟨b1, ?_, ?_⟩
        · intro x hx
          rcases List.mem_append.1 hx with hx | hx
          · exact ⟨(a2 x hx).1, by simp [(a2 x hx).2]⟩
          · exact ⟨(b2 x hx).1, by simp [(b2 x hx).2]⟩
        · simp only [List.map_append, List.sum_append]
          linarith

/-- C28.  For a leaf that is the first to prune its centres, with pairwise disjoint dependency sets, any importances, groups and any
sparsity in (0, 1]: in every group the pruned sets are least important first; dropping the last of them would go below the requested
fraction; and over the whole leaf at least the requested fraction of the channels is pruned.  A channel is left in every group in which
no dependency set is larger than the fraction to be kept.  Missing for the full property: groups with larger sets, in which all
channels can be pruned (`C28_all_pruned_false`), and leaves whose centres have been pruned through another leaf. -/
theorem C28_greedy_partial (sp : ℚ) (hsp : 0 < sp) (hsp1 : sp ≤ 1) (sets : List LeafSet)
    (hdis : sets.Pairwise (fun a b => Disjoint a.idx b.idx)) (groups : List (Finset Nat)) (delta : ℚ) (res : List GroupResult)
    (h : pruneLeaf sp none sets groups 0 = some (delta, res)) :
    (∀ g ∈ res, g.group ∈ groups ∧
      g.valid.Perm (sets.filter (fun c => decide (0 < (c.idx ∩ g.group).card))) ∧
      (∃ kept, g.valid = g.pruned ++ kept ∧ ∀ p ∈ g.pruned, ∀ k ∈ kept, p.imp ≤ k.imp) ∧
      (∀ q c, g.pruned = q ++ [c] → (channels q : ℚ) < sp * channels g.valid) ∧
      ((∀ c ∈ g.valid, (c.idx.card : ℚ) ≤ (1 - sp) * channels g.valid) → ∃ c ∈ g.valid, c ∉ g.pruned)) ∧
    sp * (res.map (fun g => (channels g.valid : ℚ))).sum ≤ (res.map (fun g => (channels g.pruned : ℚ))).sum := by
  obtain ⟨h1, h2, h3⟩ := leaf_spec sp hsp hsp1 sets hdis groups 0 (le_refl _) delta res h
  refine ⟨?_, by linarith⟩
  intro g hg
  obtain ⟨hok, hin⟩ := h2 g hg
  refine ⟨hin, hok.perm, hok.order, hok.up, ?_⟩
  intro hsmall
  obtain ⟨kept, hk, _⟩ := hok.order
  have hnd : g.valid.Nodup ∨ ∃ c ∈ g.valid, c.idx.card = 0 := by
    by_contra hcon
    push Not at hcon
    refine hcon.1 ?_
    have hp : g.valid.Pairwise (fun a b => Disjoint a.idx b.idx) :=
      List.Perm.pairwise hok.perm.symm (hdis.filter _) (fun {a b} hab => Disjoint.symm hab)
    refine hp.imp_of_mem ?_
    intro a b ha hb hab heq
    subst heq
    have := Finset.disjoint_self_iff_empty _ |>.1 hab
    exact hcon.2 a ha (by simp [this])
  have hposv : ∀ c ∈ g.valid, 0 < c.idx.card := by
    intro c hc
    have := (List.mem_filter.1 (hok.perm.mem_iff.1 hc)).2
    simp only [decide_eq_true_eq] at this
    exact lt_of_lt_of_le this (Finset.card_le_card Finset.inter_subset_left)
  have hnd : g.valid.Nodup := by
    rcases hnd with h | ⟨c, hc, h0⟩
    · exact h
    · exact absurd (hposv c hc) (by omega)
  have hkne : kept ≠ [] := by
    intro hnil
    subst hnil
    rw [List.append_nil] at hk
    rcases List.eq_nil_or_concat g.pruned with hp | ⟨q, c, hp⟩
    · exact hok.ne (hk.trans hp)
    · rw [List.concat_eq_append] at hp
      have hq := hok.up q c hp
      have hc := hsmall c (by rw [hk, hp]; simp)
      have : (channels g.valid : ℚ) = channels q + c.idx.card := by
        rw [hk, hp]; simp [channels]
      rw [this] at hq hc
      linarith
  obtain ⟨c, hc⟩ := List.exists_mem_of_ne_nil _ hkne
  refine ⟨c, by rw [hk]; simp [hc], ?_⟩
  intro hcp
  rw [hk, List.nodup_append] at hnd
  exact hnd.2.2 c hcp c hc rfl

/-- The hypotheses are met: four channels in sets {0, 1}, {2}, {3} in one group, a quarter requested: {2} is pruned. -/
example : ∃ delta res, pruneLeaf (1 / 4) none [⟨{0, 1}, 3⟩, ⟨{2}, 1⟩, ⟨{3}, 2⟩] [{0, 1, 2, 3}] 0 = some (delta, res) ∧
    res.map (fun g => g.pruned) = [[⟨{2}, 1⟩]] := by
  refine ⟨_, _, rfl, ?_⟩
  have hs : ([⟨{0, 1}, 3⟩, ⟨{2}, 1⟩, ⟨{3}, 2⟩].filter
      (fun c : LeafSet => decide (0 < (c.idx ∩ {0, 1, 2, 3}).card))).insertionSort (fun a b => a.imp ≤ b.imp) =
      [⟨{2}, 1⟩, ⟨{3}, 2⟩, ⟨{0, 1}, 3⟩] := by decide
  simp only [List.map_append, List.map_cons, List.map_nil, List.append_nil, hs]
  norm_num [greedyLoop, globalStop]

/-- C28 fails when a dependency set is larger than the fraction to be kept: with half of ten channels requested and sets of one and nine
channels, all ten channels are pruned; and with 95% of three independent channels requested, all three are pruned as well. -/
theorem C28_all_pruned_false :
    (∃ delta res, pruneLeaf (1 / 2) none [⟨{0}, 1⟩, ⟨{1, 2, 3, 4, 5, 6, 7, 8, 9}, 2⟩] [Finset.range 10] 0 = some (delta, res) ∧
      ∃ g ∈ res, g.valid ≠ [] ∧ g.pruned = g.valid) ∧
    (∃ delta res, pruneLeaf (19 / 20) none [⟨{0}, 1⟩, ⟨{1}, 2⟩, ⟨{2}, 3⟩] [Finset.range 3] 0 = some (delta, res) ∧
      ∃ g ∈ res, g.valid ≠ [] ∧ g.pruned = g.valid) := by
  constructor
  · refine ⟨_, _, rfl, _, List.mem_singleton.2 rfl, by decide, ?_⟩
    have hs : ([⟨{0}, 1⟩, ⟨{1, 2, 3, 4, 5, 6, 7, 8, 9}, 2⟩].filter
        (fun c : LeafSet => decide (0 < (c.idx ∩ Finset.range 10).card))).insertionSort (fun a b => a.imp ≤ b.imp) =
        [⟨{0}, 1⟩, ⟨{1, 2, 3, 4, 5, 6, 7, 8, 9}, 2⟩] := by decide
    simp only [hs]
    norm_num [greedyLoop, globalStop]
  · refine ⟨_, _, rfl, _, List.mem_singleton.2 rfl, by decide, ?_⟩
    have hs : ([⟨{0}, 1⟩, ⟨{1}, 2⟩, ⟨{2}, 3⟩].filter
        (fun c : LeafSet => decide (0 < (c.idx ∩ Finset.range 3).card))).insertionSort (fun a b => a.imp ≤ b.imp) =
        [⟨{0}, 1⟩, ⟨{1}, 2⟩, ⟨{2}, 3⟩] := by decide
    simp only [hs]
    norm_num [greedyLoop, globalStop]

/-- A layer that has already been pruned through another leaf: every further set keeps the layer within the rate, counting what was pruned before, what has been taken so far and the set itself. -/
theorem C28_shared (sp total delta : ℚ) (p : Prior) : ∀ (l : List LeafSet) (cur : ℚ) (P : Finset Nat) (pre post : List LeafSet) (c : LeafSet),
    (greedyLoop sp total delta (some p) l cur P).2 = pre ++ c :: post →
    (p.prunedLen + (pre.foldl (fun s d => s ∪ d.idx) P).card + (p.toCenter c.idx).card) / p.constraintLen ≤ sp := by
  intro l
  induction l with
  | nil => intro cur P pre post c h; simp [greedyLoop] at h
  | cons d l ih =>
    intro cur P pre post c h
    rw [greedyLoop] at h
    by_cases hc : cur < sp
    · rw [if_pos hc] at h
      by_cases hg : globalStop sp (some p) P d.idx = true
      · rw [if_pos hg] at h; simp at h
      · rw [if_neg hg] at h
        cases pre with
        | nil =>
          simp only [List.nil_append, List.cons.injEq] at h
          rw [← h.1]
          simpa [globalStop] using hg
        | cons e pre =>
          simp only [List.cons_append, List.cons.injEq] at h
          rw [← h.1]
          exact ih _ _ pre post c h.2
    · rw [if_neg hc] at h; simp at h

/-- And it stops only if the rate of the leaf is reached or the next set would exceed the rate of the layer. -/
theorem C28_shared_stop (sp total delta : ℚ) (p : Prior) (c : LeafSet) (l : List LeafSet) (cur : ℚ) (P : Finset Nat) :
    (greedyLoop sp total delta (some p) (c :: l) cur P).2 = [] ↔ sp ≤ cur ∨ sp < (p.prunedLen + P.card + (p.toCenter c.idx).card) / p.constraintLen := by
  rw [greedyLoop]
  by_cases hc : cur < sp
  · rw [if_pos hc]
    by_cases hg : globalStop sp (some p) P c.idx = true
    · rw [if_pos hg]
      simp only [true_iff]
      exact Or.inr (by simpa [globalStop] using hg)
    · rw [if_neg hg]
      simp only [globalStop, decide_eq_true_eq] at hg
      simp [hc, hg]
  · rw [if_neg hc]
    simp only [true_iff]
    exact Or.inl (not_lt.1 hc)

/-- Two of four channels may go and one is gone: of the sets {2} and {3} one is taken. -/
example : (greedyLoop (1 / 2) 2 0 (some ⟨4, 1, fun s => s⟩) [⟨{2}, 1⟩, ⟨{3}, 2⟩] 0 ∅).2 = [⟨{2}, 1⟩] := by
  norm_num [greedyLoop, globalStop]

end Verif.Props
