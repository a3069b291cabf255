import Verif.Model.CrossLayer
import Mathlib.Tactic.Linarith
import Mathlib.Tactic.Ring
import Mathlib.Tactic.FieldSimp
import Mathlib.Tactic.NormNum
import Mathlib.Tactic.Positivity
import Mathlib.Algebra.BigOperators.Module

/-!
C35: cross-layer equalization keeps the function of a pair of layers and balances their weight ranges; the pairs it is applied to are
connected only by positively homogeneous operators.
-/

namespace Verif.Props
open Verif.Model Verif.Spec

variable {M : Type} [AddCommGroup M] [Module ℝ M]

private theorem first_scaled (s : Nat → ℝ) (p : ConvParams) (T : Nat → M →ₗ[ℝ] M) (one : M) (x : Nat → M) (o : Nat) :
    (scaleFirst s p).apply T one x o = (s o)⁻¹ • p.apply T one x o := by
  unfold ConvParams.apply scaleFirst
  simp only [smul_add, Finset.smul_sum, smul_smul]
  congr 1
  · refine Finset.sum_congr rfl (fun i _ => Finset.sum_congr rfl (fun t _ => ?_))
    rw [div_eq_inv_mul]
  · cases p.b with
    | none => simp
    | some b => simp only [Option.map_some, smul_smul, div_eq_inv_mul]

private theorem pair_scaled (s : Nat → ℝ) (hs : ∀ c, 0 < s c) (p q : ConvParams) (T U : Nat → M →ₗ[ℝ] M) (one : M) (act : Nat → M → M)
    (hact : PosHom act) (x : Nat → M) (o : Nat) :
    pairApply (scaleFirst s p) (scaleSecond s q) T U one act x o = pairApply p q T U one act x o := by
  unfold pairApply
  have h1 : (fun c => act c ((scaleFirst s p).apply T one x c)) = fun c => (s c)⁻¹ • act c (p.apply T one x c) := by
    funext c
    rw [first_scaled, hact c _ _ (inv_pos.mpr (hs c))]
  rw [h1]
  unfold ConvParams.apply scaleSecond
  simp only
  congr 1
  refine Finset.sum_congr rfl (fun i _ => Finset.sum_congr rfl (fun t _ => ?_))
  rw [map_smul, smul_smul]
  congr 1
  have := (hs (o / q.outPer * q.inPer + i)).ne'
  field_simp

private theorem toReal_pos (threshold r1 r2 x : ℝ) (h : (equalizeChannel threshold r1 r2).toReal? = some x) : 0 < x := by
  unfold equalizeChannel at h
  split at h
  · simp only [XReal.toReal?, Option.some.injEq] at h
    rw [← h]; norm_num
  · unfold clampScale at h
    split at h
    · simp [XReal.toReal?] at h
    · simp only [XReal.toReal?, Option.some.injEq] at h
      rw [← h]; norm_num
    · simp only [XReal.toReal?, Option.some.injEq] at h
      rw [← h]
      refine lt_min (lt_of_lt_of_le (by norm_num) (le_max_right _ _)) (by norm_num)

private theorem mapM_get {α β : Type} (f : α → Option β) : ∀ (l : List α) (r : List β), l.mapM f = some r →
    r.length = l.length ∧ ∀ (i : Nat) (a : α) (b : β), l[i]? = some a → r[i]? = some b → f a = some b := by
  intro l
  induction l with
  | nil => intro r h; simp at h; subst h; simp
  | cons a l ih =>
    intro r h
    simp only [List.mapM_cons, Option.bind_eq_bind, Option.pure_def] at h
    cases hf : f a with
    | none => rw [hf] at h; simp at h
    | some b =>
      cases hm : l.mapM f with
      | none => rw [hf, hm] at h; simp at h
      | some t =>
        rw [hf, hm] at h
        simp only [Option.bind_some, Option.some.injEq] at h
        subst h
        obtain ⟨h1, h2⟩ := ih t hm
        refine ⟨by simp [h1], ?_⟩
        intro i x y hx hy
        cases i with
        | zero => simp at hx hy; rw [← hx, ← hy]; exact hf
        | succ i => exact h2 i x y (by simpa using hx) (by simpa using hy)

private theorem scales_pos (threshold : ℝ) (p q : ConvParams) (n : Nat) (l : List ℝ) (h : equalizeScales threshold p q n = some l) (c : Nat) :
    0 < l.getD c 1 := by
  obtain ⟨hlen, hget⟩ := mapM_get _ _ _ h
  by_cases hc : c < n
  · have h1 : (List.range n)[c]? = some c := by simp [hc]
    have hl : c < l.length := by rw [hlen]; simpa using hc
    have h2 : l[c]? = some l[c] := List.getElem?_eq_getElem hl
    have := toReal_pos _ _ _ _ (hget c c _ h1 h2)
    simpa [List.getD, hl] using this
  · have hl : ¬ c < l.length := by rw [hlen]; simpa using hc
    simp [List.getD, hl]

/-- **C35** Equalizing a pair of layers, any number of times, with any threshold, does not change what the pair computes, for every input and
every positively homogeneous activation between them, provided no scale is NaN (`weightEqual` succeeds).  Groups of either layer, biases or
none, kernels, strides and zero padding are arbitrary. -/
theorem C35_function_partial (threshold : ℝ) (n : Nat) (p q p' q' : ConvParams) (h : equalizeIters threshold n (p, q) = some (p', q'))
    (T U : Nat → M →ₗ[ℝ] M) (one : M) (act : Nat → M → M) (hact : PosHom act) (x : Nat → M) (o : Nat) :
    pairApply p' q' T U one act x o = pairApply p q T U one act x o := by
  induction n generalizing p q with
  | zero => simp only [equalizeIters, Option.some.injEq, Prod.mk.injEq] at h; rw [h.1, h.2]
  | succ n ih =>
    simp only [equalizeIters, weightEqual, Option.bind_eq_some_iff, Option.map_eq_some_iff] at h
    obtain ⟨⟨p1, q1⟩, ⟨l, hl, hpq⟩, h2⟩ := h
    rw [ih p1 q1 h2]
    simp only [Prod.mk.injEq] at hpq
    rw [← hpq.1, ← hpq.2]
    exact pair_scaled _ (scales_pos threshold p q _ l hl) p q T U one act hact x o

private theorem maxAbs_nonneg (l : List ℝ) : 0 ≤ maxAbs l := by
  induction l with
  | nil => exact le_refl _
  | cons a l ih => exact le_trans (abs_nonneg a) (le_max_left _ _)

private theorem maxAbs_scale (l : List ℝ) (a : ℝ) (ha : 0 < a) : maxAbs (l.map (fun v => v * a)) = maxAbs l * a := by
  induction l with
  | nil => simp [maxAbs]
  | cons v l ih =>
    have e : maxAbs (v :: l) = max |v| (maxAbs l) := rfl
    have e' : maxAbs ((v :: l).map (fun v => v * a)) = max |v * a| (maxAbs (l.map (fun v => v * a))) := rfl
    rw [e, e', ih, abs_mul, abs_of_pos ha, max_mul_of_nonneg _ _ ha.le]

private theorem range1_scaled (s : Nat → ℝ) (p : ConvParams) (c : Nat) (hs : 0 < s c) : range1 (scaleFirst s p) c = range1 p c / s c := by
  unfold range1 scaleFirst
  simp only [div_eq_mul_inv]
  rw [← maxAbs_scale _ _ (inv_pos.mpr hs), List.map_flatMap]
  simp only [List.map_map]
  rfl

/-- The weights of the second layer that multiply channel `c`, and the largest absolute value of them. -/
noncomputable def columnRange (q : ConvParams) (c : Nat) : ℝ :=
  maxAbs ((List.range q.outPer).flatMap (fun o => (List.range q.k).map (fun t => q.w ((c / q.inPer) * q.outPer + o) (c % q.inPer) t)))

private theorem column_scaled (s : Nat → ℝ) (q : ConvParams) (c : Nat) (hs : 0 < s c) (hi : 0 < q.inPer) :
    columnRange (scaleSecond s q) c = columnRange q c * s c := by
  unfold columnRange scaleSecond
  simp only
  rw [← maxAbs_scale _ _ hs, List.map_flatMap]
  congr 1
  simp only [List.flatMap_def]
  congr 1
  apply List.map_congr_left
  intro o ho
  have ho' := List.mem_range.mp ho
  rw [List.map_map]
  apply List.map_congr_left
  intro t _
  have hdiv : (c / q.inPer * q.outPer + o) / q.outPer = c / q.inPer := by
    rw [Nat.mul_comm, Nat.mul_add_div (by omega), Nat.div_eq_of_lt ho', Nat.add_zero]
  simp only [Function.comp, hdiv]
  rw [show c / q.inPer * q.inPer + c % q.inPer = c from Nat.div_add_mod' c q.inPer]

/-- For a second layer without groups, and for a depthwise one, the range `equalize` uses is that of the weights which multiply the channel. -/
private theorem range2_eq (q : ConvParams) (h : q.groups = 1 ∨ q.inPer = 1) (c : Nat) (hc : c < q.groups * q.inPer) :
    range2 q c = columnRange q c := by
  unfold range2 columnRange
  rcases h with h | h
  · rw [h] at hc ⊢
    rw [Nat.one_mul] at hc
    simp [Nat.mod_one, Nat.div_eq_of_lt hc, Nat.mod_eq_of_lt hc]
  · rw [h] at hc ⊢
    rw [Nat.mul_one] at hc
    simp [Nat.mod_one, Nat.div_eq_of_lt hc, Nat.mod_eq_of_lt hc]

/-- **C35** After one step, for a channel that is not below the threshold and whose scale is not clamped, the largest weight that produces the
channel equals the largest weight that consumes it.  The second layer has one group, or is depthwise. -/
theorem C35_balanced_partial (threshold : ℝ) (p q p' q' : ConvParams) (h : weightEqual threshold p q = some (p', q'))
    (hq : q.groups = 1 ∨ q.inPer = 1) (c : Nat) (hc : c < p.groups * p.outPer) (hcq : c < q.groups * q.inPer)
    (h1 : 0 < range1 p c) (h2 : 0 < columnRange q c) (hth : threshold ≤ range1 p c + columnRange q c)
    (hlo : columnRange q c ≤ range1 p c * 1000000 ^ 2) (hhi : range1 p c ≤ columnRange q c * 1000000 ^ 2) :
    range1 p' c = columnRange q' c ∧ range1 p' c = Real.sqrt (range1 p c * columnRange q c) := by
  simp only [weightEqual, Option.map_eq_some_iff] at h
  obtain ⟨l, hl, hpq⟩ := h
  simp only [Prod.mk.injEq] at hpq
  have hpos := scales_pos threshold p q _ l hl c
  have hi : 0 < q.inPer := by
    rcases Nat.eq_zero_or_pos q.inPer with h0 | h0
    · rw [h0] at hcq; simp at hcq
    · exact h0
  obtain ⟨hlen, hget⟩ := mapM_get _ _ _ hl
  have hcl : c < l.length := by rw [hlen]; simpa using hc
  have hs : (equalizeChannel threshold (range1 p c) (range2 q c)).toReal? = some (l.getD c 1) := by
    refine hget c c _ (by simp [hc]) ?_
    simp [List.getD, hcl]
  rw [range2_eq q hq c hcq] at hs
  set a := range1 p c
  set b := columnRange q c
  have hab : 0 < a * b := mul_pos h1 h2
  have hsq : 0 < Real.sqrt (a * b) := Real.sqrt_pos.mpr hab
  have hsq2 : Real.sqrt (a * b) * Real.sqrt (a * b) = a * b := Real.mul_self_sqrt hab.le
  have hlo' : 1 / 1000000 ≤ a / Real.sqrt (a * b) := by
    rw [div_le_div_iff₀ (by norm_num) hsq, one_mul]
    rw [show a * 1000000 = Real.sqrt ((a * 1000000) ^ 2) from (Real.sqrt_sq (by positivity)).symm]
    apply Real.sqrt_le_sqrt
    nlinarith
  have hhi' : a / Real.sqrt (a * b) ≤ 1000000 := by
    rw [div_le_iff₀ hsq]
    rw [show a = Real.sqrt (a ^ 2) from (Real.sqrt_sq h1.le).symm]
    rw [show (1000000 : ℝ) = Real.sqrt (1000000 ^ 2) from (Real.sqrt_sq (by norm_num)).symm, ← Real.sqrt_mul (by positivity)]
    apply Real.sqrt_le_sqrt
    rw [Real.sqrt_sq h1.le]
    nlinarith
  have hval : l.getD c 1 = a / Real.sqrt (a * b) := by
    unfold equalizeChannel at hs
    rw [if_neg (not_lt.mpr hth)] at hs
    simp only [rawScale, hab.ne', if_false, clampScale, XReal.toReal?, Option.some.injEq] at hs
    rw [← hs, max_eq_left hlo', min_eq_left hhi']
  have e1 : range1 p' c = Real.sqrt (a * b) := by
    rw [← hpq.1, range1_scaled _ _ _ hpos, hval]
    have := hsq.ne'
    have := h1.ne'
    show a / (a / Real.sqrt (a * b)) = _
    field_simp
  have e2 : columnRange q' c = Real.sqrt (a * b) := by
    rw [← hpq.2, column_scaled _ _ _ hpos hi, hval]
    have := hsq.ne'
    show b * (a / Real.sqrt (a * b)) = _
    rw [← mul_div_assoc, div_eq_iff this, hsq2, mul_comm]
  exact ⟨by rw [e1, e2], e1⟩

/-- A pair that meets the hypotheses of both theorems: two channels with ranges 4, 1 and 1, 9. -/
noncomputable def sampleP : ConvParams := ⟨1, 1, 2, 1, fun o _ _ => if o = 0 then 4 else 1, some (fun _ => 3)⟩
noncomputable def sampleQ : ConvParams := ⟨1, 2, 1, 1, fun _ i _ => if i = 0 then 1 else 9, none⟩

private theorem sqrt4 : Real.sqrt 4 = 2 := by
  rw [show (4 : ℝ) = 2 ^ 2 by norm_num, Real.sqrt_sq (by norm_num)]
private theorem sqrt9 : Real.sqrt 9 = 3 := by
  rw [show (9 : ℝ) = 3 ^ 2 by norm_num, Real.sqrt_sq (by norm_num)]

example : weightEqual (1 / 2) sampleP sampleQ
    = some (scaleFirst (fun c => [2, 1 / 3].getD c 1) sampleP, scaleSecond (fun c => [2, 1 / 3].getD c 1) sampleQ)
    ∧ range1 sampleP 0 = 4 ∧ columnRange sampleQ 0 = 1 := by
  refine ⟨?_, ?_, ?_⟩
  · simp only [weightEqual, equalizeScales, sampleP, sampleQ, range1, range2]
    norm_num [List.range_succ, maxAbs, equalizeChannel, rawScale, clampScale, XReal.toReal?, sqrt4, sqrt9]
  · norm_num [range1, sampleP, maxAbs, List.range_succ]
  · norm_num [columnRange, sampleQ, maxAbs, List.range_succ]

/-- A channel of the first layer whose weights are all zero, with a second layer whose weights are not small, gets the scale 0/0: the
equalized weights are NaN and the function is lost. -/
theorem C35_dead_channel_false : ∃ p q : ConvParams, range1 p 0 = 0 ∧ columnRange q 0 = 1 ∧ weightEqual (1 / 2) p q = none := by
  refine ⟨⟨1, 1, 1, 1, fun _ _ _ => 0, some (fun _ => 3)⟩, ⟨1, 1, 1, 1, fun _ _ _ => 1, none⟩, ?_, ?_, ?_⟩
  · norm_num [range1, maxAbs, List.range_succ]
  · norm_num [columnRange, maxAbs, List.range_succ]
  · norm_num [weightEqual, equalizeScales, range1, range2, List.range_succ, maxAbs, equalizeChannel, rawScale, clampScale, XReal.toReal?]

/-- With a grouped second layer that is not depthwise the ranges of the channels are mixed up: channel 1 is not balanced. -/
theorem C35_grouped_balance_false : ∃ (p q p' q' : ConvParams), weightEqual (1 / 2) p q = some (p', q') ∧ q.groups = 2 ∧ q.inPer = 2
    ∧ (∀ c < 4, range1 p c = 4) ∧ columnRange q 1 = 1 ∧ columnRange q 2 = 4 ∧ range1 p' 1 = 4 ∧ columnRange q' 1 = 1 := by
  refine ⟨⟨1, 1, 4, 1, fun _ _ _ => 4, none⟩, ⟨2, 2, 1, 1, fun o _ _ => if o = 0 then 1 else 4, none⟩,
    scaleFirst (fun c => [2, 1, 2, 1].getD c 1) ⟨1, 1, 4, 1, fun _ _ _ => 4, none⟩,
    scaleSecond (fun c => [2, 1, 2, 1].getD c 1) ⟨2, 2, 1, 1, fun o _ _ => if o = 0 then 1 else 4, none⟩, ?_, rfl, rfl, ?_, ?_, ?_, ?_, ?_⟩
  · have s16 : Real.sqrt 16 = 4 := by rw [show (16 : ℝ) = 4 ^ 2 by norm_num, Real.sqrt_sq (by norm_num)]
    simp only [weightEqual, equalizeScales, range1, range2]
    norm_num [List.range_succ, maxAbs, equalizeChannel, rawScale, clampScale, XReal.toReal?, sqrt4, s16]
  · intro c _; norm_num [range1, maxAbs, List.range_succ]
  · norm_num [columnRange, maxAbs, List.range_succ]
  · norm_num [columnRange, maxAbs, List.range_succ]
  · norm_num [range1, scaleFirst, maxAbs, List.range_succ]
  · norm_num [columnRange, scaleSecond, maxAbs, List.range_succ]

/-- From `a` to `b` there is a path on which every node (except `b`) has no other consumer and every node between is positively homogeneous. -/
inductive OnlyPath (g : ClsGraph) : Nat → Nat → Prop
  | one {a b : Nat} : g.next a = [b] → OnlyPath g a b
  | cons {a m b : Nat} : g.next a = [m] → g.kind m = .scalable → OnlyPath g m b → OnlyPath g a b

private theorem OnlyPath.snoc {g : ClsGraph} {a m b : Nat} (h : OnlyPath g a m) (hm : g.kind m = .scalable) (hb : g.next m = [b]) :
    OnlyPath g a b := by
  induction h with
  | one h => exact .cons h hm (.one hb)
  | cons h1 h2 _ ih => exact .cons h1 h2 (ih hm hb)

/-- The group is a pair of layers with nothing but such a path between them. -/
def SafePair (g : ClsGraph) (grp : List Nat) : Prop :=
  ∃ a b, grp = [a, b] ∧ g.kind a = .conv ∧ g.kind b = .conv ∧ OnlyPath g a b

private theorem addGroup_safe (g : ClsGraph) (st : ClsState) (cur : List Nat) (hst : ∀ grp ∈ st.groups, SafePair g grp)
    (hcur : ∀ a b, cur = [a, b] → OnlyPath g a b) :
    (∀ grp ∈ (addGroup g st cur).1.groups, SafePair g grp) ∧ ((addGroup g st cur).2 = true → ∃ a b, cur = [a, b]) := by
  unfold addGroup
  split
  · next h =>
    simp only [Bool.and_eq_true] at h
    have hsup := h.1
    unfold groupSupported at hsup
    split at hsup
    · next a b =>
      simp only [Bool.and_eq_true, beq_iff_eq] at hsup
      refine ⟨?_, fun _ => ⟨a, b, rfl⟩⟩
      intro grp hg
      rcases List.mem_append.mp hg with hg | hg
      · exact hst grp hg
      · rw [List.mem_singleton] at hg
        exact ⟨a, b, hg, hsup.1, hsup.2, hcur a b rfl⟩
    · simp at hsup
  · exact ⟨hst, by simp⟩

private theorem traverse_safe (g : ClsGraph) : ∀ (fuel n : Nat) (cur : List Nat) (st : ClsState), (∀ grp ∈ st.groups, SafePair g grp) →
    (∀ a b, cur = [a, b] → OnlyPath g a b) → (∀ a ∈ cur.getLast?, OnlyPath g a n) →
    ∀ grp ∈ (graphTraverse g fuel n cur st).groups, SafePair g grp := by
  intro fuel
  induction fuel with
  | zero => intro n cur st hst _ _; exact hst
  | succ f ih =>
    intro n cur st hst hc1 hc2
    -- a fold over successors with an empty group keeps the invariant
    have hfold : ∀ (ms : List Nat) (st : ClsState), (∀ grp ∈ st.groups, SafePair g grp) →
        ∀ grp ∈ (ms.foldl (fun (a : ClsState × List Nat) m => (graphTraverse g f m a.2 a.1, [])) (st, [])).1.groups, SafePair g grp := by
      intro ms
      induction ms with
      | nil => intro st h; exact h
      | cons m ms ihm =>
        intro st h
        rw [List.foldl_cons]
        exact ihm _ (ih m [] st h (by simp) (by simp))
    rw [graphTraverse]
    split
    · exact hst
    · obtain ⟨hs1, hs2⟩ := addGroup_safe g st cur hst hc1
      simp only
      set cur1 := if (addGroup g st cur).2 = true then cur.drop 1 else cur with hcur1
      have hlast1 : ∀ a ∈ cur1.getLast?, OnlyPath g a n := by
        intro a ha
        apply hc2 a
        rw [hcur1] at ha
        split at ha
        · next h =>
          obtain ⟨x, y, rfl⟩ := hs2 h
          simpa using ha
        · exact ha
      have hpair1 : ∀ a b, cur1 = [a, b] → OnlyPath g a b := by
        intro a b h
        rw [hcur1] at h
        split at h
        · next h' =>
          obtain ⟨x, y, rfl⟩ := hs2 h'
          simp at h
        · exact hc1 a b h
      set cur2 := if g.kind n = .conv then cur1 ++ [n] else cur1 with hcur2
      have hpair2 : ∀ a b, cur2 = [a, b] → OnlyPath g a b := by
        intro a b h
        rw [hcur2] at h
        split at h
        · rcases cur1 with _ | ⟨x, _ | ⟨y, t⟩⟩
          · simp at h
          · simp only [List.cons_append, List.nil_append, List.cons.injEq, and_true] at h
            rw [← h.1, ← h.2]
            exact hlast1 x (by simp)
          · simp at h
        · exact hpair1 a b h
      by_cases hbr : (g.next n).length > 1 ∨ g.kind n = .other
      · simp only [hbr, if_true]
        refine hfold _ _ (addGroup_safe g ⟨_, _⟩ cur2 ?_ hpair2).1
        exact hs1
      · simp only [hbr, if_false]
        push Not at hbr
        rcases hnext : g.next n with _ | ⟨m, _ | ⟨m', t⟩⟩
        · exact hs1
        · simp only [List.foldl_cons, List.foldl_nil]
          refine ih m cur2 _ hs1 hpair2 ?_
          intro a ha
          rw [hcur2] at ha
          split at ha
          · next hk =>
            simp at ha
            rw [← ha]
            exact .one hnext
          · next hk =>
            have hsc : g.kind n = .scalable := by
              cases hkn : g.kind n <;> simp_all
            exact (hlast1 a ha).snoc hsc hnext
        · rw [hnext] at hbr; simp at hbr

/-- **C35** For every graph, every pair of layers that is equalized is connected by a path on which no node has another consumer and every
operator between the two layers is positively homogeneous. -/
theorem C35_groups_safe (g : ClsGraph) (fuel : Nat) (nodes : List Nat) : ∀ grp ∈ getClsSet g fuel nodes, SafePair g grp := by
  unfold getClsSet
  have : ∀ (st : ClsState), (∀ grp ∈ st.groups, SafePair g grp) →
      ∀ grp ∈ (nodes.foldl (fun st n => graphTraverse g fuel n [] st) st).groups, SafePair g grp := by
    induction nodes with
    | nil => intro st h; exact h
    | cons n nodes ih =>
      intro st h
      rw [List.foldl_cons]
      exact ih _ (traverse_safe g fuel n [] st h (by simp) (by simp))
  exact this ⟨[], []⟩ (by simp)

/-- conv 0, ReLU 1, conv 2 with two consumers: conv 3 (behind it conv 5), and an addition 4. -/
def sampleGraph : ClsGraph where
  kind := fun n => [ClsKind.conv, .scalable, .conv, .conv, .other, .conv].getD n .other
  next := fun n => [[1], [2], [3, 4], [5], [], [4]].getD n []

example : getClsSet sampleGraph 10 [0, 1, 2, 3, 4, 5] = [[0, 2], [3, 5]] := by decide

/-- A module that occurs twice in the network breaks the property.  In this graph (conv 0, ReLU 1, conv 2, addition 6; conv 3, ReLU 4, conv 5,
addition 6) the first pair is equalized; when nodes 0 and 3 are one module `A`, followed by `B` and by `C`, the second branch no longer computes
what it did. -/
theorem C35_shared_module_false : ∃ (g : ClsGraph) (A B C A1 B1 : ConvParams), getClsSet g 10 [0, 1, 2, 3, 4, 5, 6] = [[0, 2]]
    ∧ weightEqual (1 / 2) A B = some (A1, B1)
    ∧ ∃ x : Nat → ℝ, pairApply A1 C (fun _ => LinearMap.id) (fun _ => LinearMap.id) 1 (fun _ v => max v 0) x 0
        ≠ pairApply A C (fun _ => LinearMap.id) (fun _ => LinearMap.id) 1 (fun _ v => max v 0) x 0 := by
  let cst : ℝ → ConvParams := fun v => ⟨1, 1, 1, 1, fun _ _ _ => v, none⟩
  refine ⟨⟨fun n => [ClsKind.conv, .scalable, .conv, .conv, .scalable, .conv, .other].getD n .other,
      fun n => [[1], [2], [6], [4], [5], [6], []].getD n []⟩,
    cst 4, cst 1, cst 2, scaleFirst (fun c => [2].getD c 1) (cst 4), scaleSecond (fun c => [2].getD c 1) (cst 1),
    by decide, ?_, fun _ => 1, ?_⟩
  · simp only [weightEqual, equalizeScales, range1, range2, cst]
    norm_num [List.range_succ, maxAbs, equalizeChannel, rawScale, clampScale, XReal.toReal?, sqrt4]
  · norm_num [pairApply, ConvParams.apply, cst, scaleFirst]

end Verif.Props
