import Verif.Model.ActFold
import Mathlib.Tactic.Linarith
import Mathlib.Tactic.NormNum
import Mathlib.Tactic.FieldSimp
import Mathlib.Tactic.Ring
import Mathlib.Algebra.Order.Round

/-!
C134: a layer that takes over the activation behind it computes, after `convert`, what the prepared model computes.
-/

namespace Verif.Props
open Verif.Spec Verif.Spec.ActFold Verif.Model.ActFold

/-- The numbers an activation can deliver. -/
def Clip.Has (a : Clip) (x : ℝ) : Prop := a.low ≤ x ∧ ∀ b, a.high = some b → x ≤ b

/-- The bounds of a `clamp` are in order. -/
def Clip.Ordered (a : Clip) : Prop := ∀ b, a.high = some b → a.low ≤ b

theorem clip_has (a : Clip) (h : Clip.Ordered a) (x : ℝ) : Clip.Has a (a.real x) := by
  cases a with
  | relu => exact ⟨le_max_left _ _, fun b hb => by simp [Clip.high] at hb⟩
  | relu6 =>
    refine ⟨le_max_left _ _, fun b hb => ?_⟩
    simp only [Clip.high, Option.some.injEq] at hb
    subst hb
    exact max_le (by norm_num) (min_le_left _ _)
  | clamp l u =>
    refine ⟨le_max_left _ _, fun b hb => ?_⟩
    have := h b hb
    simp only [Clip.high, Option.some.injEq] at hb
    subst hb
    exact max_le this (min_le_left _ _)

theorem clip_same (a : Clip) (x : ℝ) (h : Clip.Has a x) : a.real x = x := by
  cases a with
  | relu => exact max_eq_right h.1
  | relu6 => rw [Clip.real, min_eq_right (h.2 6 rfl)]; exact max_eq_right h.1
  | clamp l u => rw [Clip.real, min_eq_right (h.2 u rfl)]; exact max_eq_right h.1

theorem clip_below (a : Clip) (h : Clip.Ordered a) (x : ℝ) (hx : x ≤ a.low) : a.real x = a.low := by
  cases a with
  | relu => exact max_eq_left hx
  | relu6 => exact max_eq_left (le_trans (min_le_right _ _) hx)
  | clamp l u => exact max_eq_left (le_trans (min_le_right _ _) hx)

theorem clip_above (a : Clip) (h : Clip.Ordered a) (x b : ℝ) (hb : a.high = some b) (hx : b ≤ x) : a.real x = b := by
  have ho := h b hb
  cases a with
  | relu => simp [Clip.high] at hb
  | relu6 =>
    simp only [Clip.high, Option.some.injEq] at hb
    subst hb
    rw [Clip.real, min_eq_left hx]; exact max_eq_right ho
  | clamp l u =>
    simp only [Clip.high, Option.some.injEq] at hb
    subst hb
    rw [Clip.real, min_eq_left hx]; exact max_eq_right ho

theorem foldl_min_has (a : Clip) : ∀ (t : List ℝ) (y : ℝ), Clip.Has a y → (∀ z ∈ t, Clip.Has a z) → Clip.Has a (t.foldl min y)
  | [], _, hy, _ => hy
  | z :: t, y, hy, ht => by
    refine foldl_min_has a t (min y z) ?_ (fun w hw => ht w (List.mem_cons_of_mem _ hw))
    have hz := ht z List.mem_cons_self
    exact ⟨le_min hy.1 hz.1, fun b hb => le_trans (min_le_left _ _) (hy.2 b hb)⟩

theorem foldl_max_has (a : Clip) : ∀ (t : List ℝ) (y : ℝ), Clip.Has a y → (∀ z ∈ t, Clip.Has a z) → Clip.Has a (t.foldl max y)
  | [], _, hy, _ => hy
  | z :: t, y, hy, ht => by
    refine foldl_max_has a t (max y z) ?_ (fun w hw => ht w (List.mem_cons_of_mem _ hw))
    have hz := ht z List.mem_cons_self
    exact ⟨le_trans hy.1 (le_max_left _ _), fun b hb => max_le (hy.2 b hb) (hz.2 b hb)⟩

theorem average_has (a : Clip) (c x y : ℝ) (h0 : 0 ≤ c) (h1 : c ≤ 1) (hx : Clip.Has a x) (hy : Clip.Has a y) : Clip.Has a (x + c * (y - x)) := by
  refine ⟨?_, fun b hb => ?_⟩
  · have := mul_nonneg h0 (sub_nonneg.mpr hy.1)
    have := mul_nonneg (sub_nonneg.mpr h1) (sub_nonneg.mpr hx.1)
    nlinarith
  · have := mul_nonneg h0 (sub_nonneg.mpr (hy.2 b hb))
    have := mul_nonneg (sub_nonneg.mpr h1) (sub_nonneg.mpr (hx.2 b hb))
    nlinarith

/-- An observed range that the activation allows. -/
def RangeOk (a : Clip) (r : Option (ℝ × ℝ)) : Prop := ∀ q, r = some q → Clip.Has a q.1 ∧ Clip.Has a q.2

theorem nextRange_ok (a : Clip) (c : ℝ) (h0 : 0 ≤ c) (h1 : c ≤ 1) (r : Option (ℝ × ℝ)) (hr : RangeOk a r) (ys : List ℝ) (hy : ∀ y ∈ ys, Clip.Has a y) : RangeOk a (nextRange c r ys) := by
  cases ys with
  | nil => exact hr
  | cons y t =>
    have hmin := foldl_min_has a t y (hy y List.mem_cons_self) (fun z hz => hy z (List.mem_cons_of_mem _ hz))
    have hmax := foldl_max_has a t y (hy y List.mem_cons_self) (fun z hz => hy z (List.mem_cons_of_mem _ hz))
    intro q hq
    cases r with
    | none =>
      simp only [nextRange, Option.some.injEq] at hq
      subst hq
      exact ⟨hmin, hmax⟩
    | some r =>
      simp only [nextRange, Option.some.injEq] at hq
      subst hq
      have := hr r rfl
      exact ⟨average_has a c _ _ h0 h1 this.1 hmin, average_has a c _ _ h0 h1 this.2 hmax⟩

/-- Both quantizers have the same scheme and storage type. -/
def SameKind (s : Site) : Prop := s.acp.sym = s.post.sym ∧ s.acp.lo = s.post.lo ∧ s.acp.hi = s.post.hi ∧ s.acp.symZp = s.post.symZp

/-- A site as `prepare` makes it, before anything is observed. -/
structure FreshSite (s : Site) : Prop where
  same : SameKind s
  storage : s.post.lo < s.post.hi
  centre : s.post.lo ≤ s.post.symZp ∧ s.post.symZp ≤ s.post.hi
  fake : s.post.fake = true
  nothing : s.post.range = none
  scale : s.post.scale = 1
  zp : s.post.zp = 0
  actOn : s.actOn = true
  stubs : s.stubs = true
  ordered : Clip.Ordered s.act

/-- Batches, and switching observers off for good: nothing that turns the quantizer of the layer on again, or quantization off. -/
def Usual (h : List Event) : Prop := ∀ e ∈ h, match e with
  | .batch _ => True
  | .setFake _ => False
  | .setObserver on => on = false

/-- What stays true while batches go through. -/
structure Steady (rnd : ℝ → ℤ) (eps : ℝ) (s0 s : Site) : Prop where
  same : SameKind s
  lo : s.post.lo = s0.post.lo
  hi : s.post.hi = s0.post.hi
  sym : s.post.sym = s0.post.sym
  symZp : s.post.symZp = s0.post.symZp
  off : s.acp.fake = false ∧ s.acp.observing = false
  fake : s.post.fake = true
  params : s.post.scale = (s.post.qparams rnd eps).1 ∧ s.post.zp = (s.post.qparams rnd eps).2
  range : RangeOk s0.act s.post.range
  act : s.act = s0.act
  isModule : s.isModule = s0.isModule
  actOn : s.actOn = true
  stubs : s.stubs = true

theorem steady_start (rnd : ℝ → ℤ) (eps : ℝ) (s : Site) (h : FreshSite s) : Steady rnd eps s (postprocess s) where
  same := h.same
  lo := rfl
  hi := rfl
  sym := rfl
  symZp := rfl
  off := ⟨rfl, rfl⟩
  fake := h.fake
  params := by
    have hq : (postprocess s).post.qparams rnd eps = (1, 0) := by
      unfold Fq.qparams postprocess
      rw [h.nothing]
    rw [hq]
    exact ⟨h.scale, h.zp⟩
  range := fun q hq => by
    have : s.post.range = some q := hq
    rw [h.nothing] at this
    cases this
  act := rfl
  isModule := rfl
  actOn := h.actOn
  stubs := h.stubs

theorem steady_step (rnd : ℝ → ℤ) (eps c : ℝ) (h0 : 0 ≤ c) (h1 : c ≤ 1) (s0 s : Site) (ho : Clip.Ordered s0.act) (hs : Steady rnd eps s0 s) (e : Event) (he : Usual [e]) :
    Steady rnd eps s0 (step rnd eps c s e) := by
  have he := he e (by simp)
  cases e with
  | setFake on => exact absurd he (by simp)
  | setObserver on =>
    have he : on = false := he
    subst he
    exact ⟨hs.same, hs.lo, hs.hi, hs.sym, hs.symZp, ⟨hs.off.1, rfl⟩, hs.fake, hs.params, hs.range, hs.act, hs.isModule, hs.actOn, hs.stubs⟩
  | batch ys =>
    have hacp : s.acp.seen rnd eps c ys = s.acp := by
      unfold Fq.seen
      rw [if_neg (by simp [hs.off.2])]
    have hval : ∀ y, s.acp.value rnd y = y := by
      intro y
      unfold Fq.value
      rw [if_neg (by simp [hs.off.1])]
    have hstep : step rnd eps c s (.batch ys) = { s with acp := s.acp, post := s.post.seen rnd eps c (ys.map fun y => s.act.real y) } := by
      simp only [step, hacp, hval]
    rw [hstep]
    by_cases hob : s.post.observing = true
    · have hseen : ∀ zs, s.post.seen rnd eps c zs = { { s.post with range := nextRange c s.post.range zs } with
          scale := (({ s.post with range := nextRange c s.post.range zs } : Fq).qparams rnd eps).1
          zp := (({ s.post with range := nextRange c s.post.range zs } : Fq).qparams rnd eps).2 } := by
        intro zs
        unfold Fq.seen
        rw [if_pos hob]
      rw [hseen]
      refine ⟨hs.same, hs.lo, hs.hi, hs.sym, hs.symZp, hs.off, hs.fake, ⟨rfl, rfl⟩, ?_, hs.act, hs.isModule, hs.actOn, hs.stubs⟩
      refine nextRange_ok s0.act c h0 h1 _ hs.range _ ?_
      intro y hy
      obtain ⟨x, _, rfl⟩ := List.mem_map.mp hy
      rw [hs.act]
      exact clip_has s0.act ho x
    · have hseen : ∀ zs, s.post.seen rnd eps c zs = s.post := by
        intro zs
        unfold Fq.seen
        rw [if_neg hob]
      rw [hseen]
      exact hs

theorem steady_run (rnd : ℝ → ℤ) (eps c : ℝ) (h0 : 0 ≤ c) (h1 : c ≤ 1) (s0 : Site) (ho : Clip.Ordered s0.act) : ∀ (h : List Event) (s : Site), Steady rnd eps s0 s → Usual h →
    Steady rnd eps s0 (run rnd eps c s h)
  | [], _, hs, _ => hs
  | e :: h, s, hs, hu => by
    refine steady_run rnd eps c h0 h1 s0 ho h _ (steady_step rnd eps c h0 h1 s0 s ho hs e ?_) (fun e' he' => hu e' (List.mem_cons_of_mem _ he'))
    intro e' he'
    rw [List.mem_singleton.mp he']
    exact hu e List.mem_cons_self

theorem nearest_zero {rnd : ℝ → ℤ} (hr : IsNearest rnd) : rnd 0 = 0 := by
  have h := hr 0
  rw [sub_zero] at h
  have h1 := abs_le.mp h
  have h2 : (rnd 0 : ℝ) < 1 := by linarith
  have h3 : (-1 : ℝ) < rnd 0 := by linarith
  have h2' : rnd 0 < 1 := by exact_mod_cast h2
  have h3' : -1 < rnd 0 := by exact_mod_cast h3
  omega

theorem quant_monotone {rnd : ℝ → ℤ} (hm : Monotone rnd) (p : QP) (hs : 0 < p.scale) (x y : ℝ) (h : x ≤ y) : p.quant rnd x ≤ p.quant rnd y := by
  unfold QP.quant
  have h1 : rnd (x / p.scale) ≤ rnd (y / p.scale) := hm (div_le_div_of_nonneg_right h hs.le)
  exact max_le_max le_rfl (min_le_min le_rfl (by omega))

/-- The parameters of the prepared model's quantizer, for a range that was observed. -/
theorem steady_params {rnd : ℝ → ℤ} {eps : ℝ} {s0 s : Site} (hs : Steady rnd eps s0 s) (ha : s0.post.sym = false) (r : ℝ × ℝ) (hr : s.post.range = some r) :
    s.post.scale = max ((max r.2 0 - min r.1 0) / ((s.post.hi : ℝ) - s.post.lo)) eps ∧
    s.post.zp = max s.post.lo (min s.post.hi (s.post.lo - rnd (min r.1 0 / s.post.scale))) := by
  have hq := hs.params
  have hsym : s.post.sym = false := by rw [hs.sym]; exact ha
  have hqp : s.post.qparams rnd eps = (max ((max r.2 0 - min r.1 0) / ((s.post.hi : ℝ) - s.post.lo)) eps,
      max s.post.lo (min s.post.hi (s.post.lo - rnd (min r.1 0 / max ((max r.2 0 - min r.1 0) / ((s.post.hi : ℝ) - s.post.lo)) eps)))) := by
    unfold Fq.qparams
    rw [hr]
    simp only [hsym, Bool.false_eq_true, if_false]
  rw [hqp] at hq
  refine ⟨hq.1, ?_⟩
  rw [hq.2, hq.1]

/-- Below the lower bound, clipping first makes no difference. -/
theorem quant_clip_low {rnd : ℝ → ℤ} (hn : IsNearest rnd) (hm : Monotone rnd) {eps : ℝ} (he : 0 < eps) {s0 s : Site} (hs : Steady rnd eps s0 s) (ha : s0.post.sym = false) (ho : Clip.Ordered s0.act)
    (hl : s0.act.low ≤ 0) (r : ℝ × ℝ) (hr : s.post.range = some r) (y : ℝ) (hy : y ≤ s0.act.low) : s.post.qp.quant rnd (s0.act.real y) = s.post.qp.quant rnd y := by
  obtain ⟨h1, h2⟩ := steady_params hs ha r hr
  have hpos : 0 < s.post.scale := by rw [h1]; exact lt_of_lt_of_le he (le_max_right _ _)
  rw [clip_below _ ho y hy]
  have hlow : s.post.qp.quant rnd s0.act.low = s.post.lo := by
    have hrange := (hs.range r hr).1
    have h3 : s0.act.low / s.post.scale ≤ min r.1 0 / s.post.scale := div_le_div_of_nonneg_right (le_min hrange.1 hl) hpos.le
    have h4 := hm h3
    have h5 : rnd (min r.1 0 / s.post.scale) ≤ 0 := by
      rw [← nearest_zero hn]
      exact hm (div_nonpos_of_nonpos_of_nonneg (min_le_right _ _) hpos.le)
    show max s.post.lo (min s.post.hi (rnd (s0.act.low / s.post.scale) + s.post.zp)) = s.post.lo
    omega
  have h6 := quant_monotone hm s.post.qp hpos y s0.act.low hy
  have h7 : s.post.lo ≤ s.post.qp.quant rnd y := le_max_left _ _
  rw [hlow] at h6 ⊢
  omega

/-- At the upper bound, the largest number or the one before it is stored, if the range is not tiny. -/
theorem quant_high {rnd : ℝ → ℤ} (hn : IsNearest rnd) (hm : Monotone rnd) {eps : ℝ} (he : 0 < eps) {s0 s : Site} (hs : Steady rnd eps s0 s) (ha : s0.post.sym = false) (hst : s0.post.lo < s0.post.hi)
    (b : ℝ) (hb : s0.act.high = some b) (hb0 : 0 ≤ b) (r : ℝ × ℝ) (hr : s.post.range = some r) (hw : eps * ((s.post.hi : ℝ) - s.post.lo) ≤ max r.2 0 - min r.1 0) :
    s.post.hi - 1 ≤ s.post.qp.quant rnd b := by
  obtain ⟨h1, h2⟩ := steady_params hs ha r hr
  have hN : (0 : ℝ) < (s.post.hi : ℝ) - s.post.lo := by
    rw [hs.hi, hs.lo]
    have : (s0.post.lo : ℝ) < s0.post.hi := by exact_mod_cast hst
    linarith
  have hsc : s.post.scale = (max r.2 0 - min r.1 0) / ((s.post.hi : ℝ) - s.post.lo) := by
    rw [h1]
    exact max_eq_left ((le_div_iff₀ hN).mpr hw)
  have hpos : 0 < s.post.scale := by rw [h1]; exact lt_of_lt_of_le he (le_max_right _ _)
  have hM : max r.2 0 / s.post.scale = min r.1 0 / s.post.scale + ((s.post.hi : ℝ) - s.post.lo) := by
    have h3 : s.post.scale * ((s.post.hi : ℝ) - s.post.lo) = max r.2 0 - min r.1 0 := by rw [hsc]; field_simp
    field_simp
    linarith
  have h4 : rnd (max r.2 0 / s.post.scale) ≤ rnd (b / s.post.scale) :=
    hm (div_le_div_of_nonneg_right (max_le ((hs.range r hr).2.2 b hb) hb0) hpos.le)
  have h5 := abs_le.mp (hn (max r.2 0 / s.post.scale))
  have h6 := abs_le.mp (hn (min r.1 0 / s.post.scale))
  have h7 : (rnd (min r.1 0 / s.post.scale) : ℝ) - 1 + ((s.post.hi : ℝ) - s.post.lo) ≤ rnd (max r.2 0 / s.post.scale) := by
    rw [hM] at h5 ⊢
    linarith [h5.1, h6.2]
  have h8 : rnd (min r.1 0 / s.post.scale) - 1 + (s.post.hi - s.post.lo) ≤ rnd (max r.2 0 / s.post.scale) := by exact_mod_cast h7
  have h9 : 0 ≤ rnd (b / s.post.scale) := by
    rw [← nearest_zero hn]
    exact hm (div_nonneg hb0 hpos.le)
  show s.post.hi - 1 ≤ max s.post.lo (min s.post.hi (rnd (b / s.post.scale) + s.post.zp))
  have hst' : s.post.lo < s.post.hi := by rw [hs.hi, hs.lo]; exact hst
  omega

/-- The converted model with its activation taken over. -/
theorem converted_eq {rnd : ℝ → ℤ} {eps : ℝ} {s0 s : Site} (hs : Steady rnd eps s0 s) (b : Backend) (hb : b = .pytorch ∨ isRelu s0.act = false) (y : ℝ) :
    converted rnd eps (convert b s) y = s.post.qp.real (if s0.isModule then s.post.qp.quant rnd y else clipQ rnd s.post.qp s0.act (s.post.qp.quant rnd y)) := by
  have hc : convert b s = { s with
      acp := { s.acp with scale := s.post.scale, zp := s.post.zp, range := s.post.range }
      stubs := false
      actOn := if s.isModule then false else s.actOn } := by
    unfold convert
    rw [if_neg]
    rintro ⟨h1, h2⟩
    rcases hb with h | h
    · exact h1 h
    · rw [hs.act, h] at h2
      cases h2
  have hq : ({ s.acp with scale := s.post.scale, zp := s.post.zp, range := s.post.range } : Fq).qparams rnd eps = s.post.qparams rnd eps := by
    unfold Fq.qparams
    simp only [hs.same.1, hs.same.2.1, hs.same.2.2.1, hs.same.2.2.2]
  have hp : (⟨(s.post.qparams rnd eps).1, (s.post.qparams rnd eps).2, s.acp.lo, s.acp.hi⟩ : QP) = s.post.qp := by
    rw [← hs.params.1, ← hs.params.2, hs.same.2.1, hs.same.2.2.1]
    rfl
  rw [hc]
  unfold converted
  simp only [hq, hp, hs.isModule, hs.actOn, hs.act]
  cases s0.isModule <;> simp

theorem prepared_eq {rnd : ℝ → ℤ} {eps : ℝ} {s0 s : Site} (hs : Steady rnd eps s0 s) (y : ℝ) : prepared rnd s y = s.post.qp.real (s.post.qp.quant rnd (s0.act.real y)) := by
  unfold prepared Fq.value
  rw [if_pos hs.fake, if_neg (by simp [hs.off.1]), hs.act]

/-- **C134** (asymmetric quantization; zero among the results of the activation).  However many batches went through, after `convert` the layer computes what the prepared model computes: exactly up to the upper
bound of the activation, and above it with an error of at most one step. -/
theorem C134_folded_partial {rnd : ℝ → ℤ} (hn : IsNearest rnd) (hm : Monotone rnd) (eps c : ℝ) (he : 0 < eps) (h0 : 0 ≤ c) (h1 : c ≤ 1) (s : Site) (hf : FreshSite s) (ha : s.post.sym = false)
    (hl : s.act.low ≤ 0) (hh : ∀ b, s.act.high = some b → 0 ≤ b) (b : Backend) (hfold : s.isModule = true ∨ isRelu s.act = false) (hb : b = .pytorch ∨ isRelu s.act = false) (h : List Event) (hu : Usual h)
    (r : ℝ × ℝ) (hr : (run rnd eps c (postprocess s) h).post.range = some r) (y : ℝ) :
    ((∀ u, s.act.high = some u → y ≤ u) → converted rnd eps (convert b (run rnd eps c (postprocess s) h)) y = prepared rnd (run rnd eps c (postprocess s) h) y) ∧
    (eps * ((s.post.hi : ℝ) - s.post.lo) ≤ max r.2 0 - min r.1 0 →
      |converted rnd eps (convert b (run rnd eps c (postprocess s) h)) y - prepared rnd (run rnd eps c (postprocess s) h) y| ≤ (run rnd eps c (postprocess s) h).post.scale) := by
  have hs := steady_run rnd eps c h0 h1 s hf.ordered h _ (steady_start rnd eps s hf) hu
  generalize hS : run rnd eps c (postprocess s) h = S at hs hr ⊢
  obtain ⟨hp1, hp2⟩ := steady_params hs ha r hr
  have hpos : 0 < S.post.scale := by rw [hp1]; exact lt_of_lt_of_le he (le_max_right _ _)
  have hconv : converted rnd eps (convert b S) y = S.post.qp.real (S.post.qp.quant rnd y) := by
    rw [converted_eq hs b hb y]
    rcases hfold with h | h
    · rw [if_pos h]
    · have : clipQ rnd S.post.qp s.act (S.post.qp.quant rnd y) = S.post.qp.quant rnd y := by
        cases hact : s.act with
        | relu => rw [hact] at h; cases h
        | relu6 => rw [hact] at h; cases h
        | clamp l u => rfl
      rw [this, ite_self]
  have hprep := prepared_eq hs y
  have hexact : (∀ u, s.act.high = some u → y ≤ u) → S.post.qp.quant rnd (s.act.real y) = S.post.qp.quant rnd y := by
    intro hyu
    by_cases hyl : y ≤ s.act.low
    · exact quant_clip_low hn hm he hs ha hf.ordered hl r hr y hyl
    · rw [clip_same s.act y ⟨(not_le.mp hyl).le, hyu⟩]
  refine ⟨fun hyu => by rw [hconv, hprep, hexact hyu], fun hw => ?_⟩
  by_cases hyu : ∀ u, s.act.high = some u → y ≤ u
  · rw [hconv, hprep, hexact hyu, sub_self, abs_zero]
    exact hpos.le
  · obtain ⟨u, hu1, hu2⟩ : ∃ u, s.act.high = some u ∧ u < y := by
      by_contra hno
      apply hyu
      intro u hu1
      by_contra hlt
      exact hno ⟨u, hu1, not_le.mp hlt⟩
    rw [hconv, hprep, clip_above s.act hf.ordered y u hu1 hu2.le]
    have h5 := quant_high hn hm he hs ha hf.storage u hu1 (hh u hu1) r hr (by rw [hs.hi, hs.lo]; exact hw)
    have h6 := quant_monotone hm S.post.qp hpos u y hu2.le
    have h7 : S.post.qp.quant rnd y ≤ S.post.hi := by
      have hst' : S.post.lo < S.post.hi := by rw [hs.hi, hs.lo]; exact hf.storage
      exact max_le hst'.le (min_le_left _ _)
    have h8 : S.post.qp.quant rnd y = S.post.qp.quant rnd u ∨ S.post.qp.quant rnd y = S.post.qp.quant rnd u + 1 := by omega
    rcases h8 with h8 | h8
    · rw [h8, sub_self, abs_zero]
      exact hpos.le
    · have : S.post.qp.real (S.post.qp.quant rnd y) - S.post.qp.real (S.post.qp.quant rnd u) = S.post.scale := by
        rw [h8]
        show S.post.scale * (((S.post.qp.quant rnd u + 1 : ℤ) : ℝ) - S.post.zp) - S.post.scale * ((S.post.qp.quant rnd u : ℝ) - S.post.zp) = S.post.scale
        push_cast
        ring
      rw [this, abs_of_pos hpos]

/-- **C134** (`relu` and `relu6` as functions).  They stay in the converted model, which then computes exactly what the prepared one does, with any scheme. -/
theorem C134_function {rnd : ℝ → ℤ} (hn : IsNearest rnd) (hm : Monotone rnd) (eps c : ℝ) (he : 0 < eps) (h0 : 0 ≤ c) (h1 : c ≤ 1) (s : Site) (hf : FreshSite s) (hrelu : isRelu s.act = true)
    (hmod : s.isModule = false) (h : List Event) (hu : Usual h) (r : ℝ × ℝ) (hr : (run rnd eps c (postprocess s) h).post.range = some r) (y : ℝ) :
    converted rnd eps (convert .pytorch (run rnd eps c (postprocess s) h)) y = prepared rnd (run rnd eps c (postprocess s) h) y := by
  have hs := steady_run rnd eps c h0 h1 s hf.ordered h _ (steady_start rnd eps s hf) hu
  generalize hS : run rnd eps c (postprocess s) h = S at hs hr ⊢
  have hst' : S.post.lo < S.post.hi := by rw [hs.hi, hs.lo]; exact hf.storage
  have hpz : 0 < S.post.scale ∧ S.post.lo ≤ S.post.zp ∧ S.post.zp ≤ S.post.hi := by
    rw [hs.params.1, hs.params.2]
    unfold Fq.qparams
    rw [hr]
    have hc := hf.centre
    rw [← hs.lo, ← hs.hi, ← hs.symZp] at hc
    by_cases hsym : S.post.sym = true
    · simp only [hsym, if_true]
      exact ⟨lt_of_lt_of_le he (le_max_right _ _), hc⟩
    · simp only [hsym]
      exact ⟨lt_of_lt_of_le he (le_max_right _ _), le_max_left _ _, max_le hst'.le (min_le_left _ _)⟩
  obtain ⟨hpos, hz1, hz2⟩ := hpz
  rw [converted_eq hs .pytorch (Or.inl rfl) y, prepared_eq hs y, hmod]
  simp only [Bool.false_eq_true, if_false]
  congr 1
  have hzero : S.post.qp.quant rnd 0 = S.post.zp := by
    show max S.post.lo (min S.post.hi (rnd (0 / S.post.scale) + S.post.zp)) = S.post.zp
    rw [zero_div, nearest_zero hn]
    omega
  have hmono : Monotone (S.post.qp.quant rnd) := fun x z hxz => quant_monotone hm S.post.qp hpos x z hxz
  cases hact : s.act with
  | clamp l u => rw [hact] at hrelu; cases hrelu
  | relu =>
    show max S.post.zp (S.post.qp.quant rnd y) = S.post.qp.quant rnd (max 0 y)
    rw [hmono.map_max, hzero]
  | relu6 =>
    show max S.post.zp (min (S.post.qp.quant rnd 6) (S.post.qp.quant rnd y)) = S.post.qp.quant rnd (max 0 (min 6 y))
    rw [hmono.map_max, hmono.map_min, hzero]

/-- A quantizer for numbers from 0 to 255, before anything is observed. -/
noncomputable def newFq (sym : Bool) : Fq := ⟨true, true, sym, 0, 255, 128, none, 1, 0⟩

/-- A layer with an activation, as `prepare` makes it. -/
noncomputable def newSite (sym : Bool) (a : Clip) (isModule : Bool) : Site := ⟨newFq sym, newFq sym, a, isModule, true, true⟩

theorem newSite_fresh (sym : Bool) (a : Clip) (m : Bool) (h : Clip.Ordered a) : FreshSite (newSite sym a m) :=
  ⟨⟨rfl, rfl, rfl, rfl⟩, by show (0 : ℤ) < 255; decide, by show (0 : ℤ) ≤ 128 ∧ (128 : ℤ) ≤ 255; decide, rfl, rfl, rfl, rfl, rfl, rfl, h⟩

theorem clamp_ordered (a b : ℝ) (h : a ≤ b) : Clip.Ordered (.clamp a b) := by
  intro u hu
  simp only [Clip.high, Option.some.injEq] at hu
  subst hu
  exact h

theorem relu_ordered : Clip.Ordered .relu := fun u hu => by simp [Clip.high] at hu

theorem nearest_near {rnd : ℝ → ℤ} (hr : IsNearest rnd) (x : ℝ) (n : ℤ) (h : |x - n| < 1 / 2) : rnd x = n := by
  have h1 := abs_le.mp (hr x)
  have h2 := abs_lt.mp h
  have h3 : (rnd x : ℝ) < n + 1 := by linarith
  have h4 : (n : ℝ) - 1 < rnd x := by linarith
  have h3' : rnd x < n + 1 := by exact_mod_cast h3
  have h4' : n - 1 < rnd x := by exact_mod_cast h4
  omega

/-- A `clamp` between -5 and 5 behind a convolution, after two batches. -/
example {rnd : ℝ → ℤ} (hn : IsNearest rnd) (hm : Monotone rnd) (y : ℝ) (hy : y ≤ 5) :
    ∃ r, (run rnd (1 / 1000000) (1 / 100) (postprocess (newSite false (.clamp (-5) 5) false)) [.batch [-7, 1], .batch [2, 8, 1], .setObserver false]).post.range = some r ∧
      converted rnd (1 / 1000000) (convert .tflite (run rnd (1 / 1000000) (1 / 100) (postprocess (newSite false (.clamp (-5) 5) false)) [.batch [-7, 1], .batch [2, 8, 1], .setObserver false])) y =
        prepared rnd (run rnd (1 / 1000000) (1 / 100) (postprocess (newSite false (.clamp (-5) 5) false)) [.batch [-7, 1], .batch [2, 8, 1], .setObserver false]) y := by
  refine ⟨_, rfl, ?_⟩
  refine (C134_folded_partial hn hm (1 / 1000000) (1 / 100) (by norm_num) (by norm_num) (by norm_num) (newSite false (.clamp (-5) 5) false) (newSite_fresh _ _ _ (clamp_ordered _ _ (by norm_num))) rfl (by show (-5 : ℝ) ≤ 0; norm_num)
    ?_ .tflite (Or.inr rfl) (Or.inr rfl) [.batch [-7, 1], .batch [2, 8, 1], .setObserver false] ?_ _ rfl y).1 ?_
  · intro b hb
    simp only [newSite, Clip.high, Option.some.injEq] at hb
    subst hb
    norm_num
  · intro e he
    simp only [List.mem_cons, List.not_mem_nil, or_false] at he
    rcases he with rfl | rfl | rfl <;> simp
  · intro u hu
    simp only [newSite, Clip.high, Option.some.injEq] at hu
    subst hu
    exact hy

/-- `relu` behind a layer with symmetric quantization, after a batch. -/
example {rnd : ℝ → ℤ} (hn : IsNearest rnd) (hm : Monotone rnd) (y : ℝ) :
    converted rnd (1 / 1000000) (convert .pytorch (run rnd (1 / 1000000) (1 / 100) (postprocess (newSite true .relu false)) [.batch [-7, 5]])) y =
      prepared rnd (run rnd (1 / 1000000) (1 / 100) (postprocess (newSite true .relu false)) [.batch [-7, 5]]) y :=
  C134_function hn hm _ _ (by norm_num) (by norm_num) (by norm_num) _ (newSite_fresh _ _ _ relu_ordered) rfl rfl _
    (fun e he => by
      simp only [List.mem_cons, List.not_mem_nil, or_false] at he
      subst he
      simp) _ rfl y

/-- Without zero among the results it fails: the range is widened to hold zero.  Behind `clamp(x, 100, 255)`, the prepared model gives 100 and the converted one 0. -/
theorem C134_positive_clamp_false {rnd : ℝ → ℤ} (hn : IsNearest rnd) : ∃ (s : Site) (h : List Event) (y : ℝ), FreshSite s ∧ s.post.sym = false ∧ Usual h ∧ s.act = .clamp 100 255 ∧
    prepared rnd (run rnd (1 / 1000000) (1 / 100) (postprocess s) h) y = 100 ∧ converted rnd (1 / 1000000) (convert .pytorch (run rnd (1 / 1000000) (1 / 100) (postprocess s) h)) y = 0 := by
  refine ⟨newSite false (.clamp 100 255) false, [.batch [255]], 0, newSite_fresh _ _ _ (clamp_ordered _ _ (by norm_num)), rfl, ?_, rfl, ?_, ?_⟩
  · intro e he
    simp only [List.mem_cons, List.not_mem_nil, or_false] at he
    subst he
    simp
  · have h0 := nearest_zero hn
    have h1 := nearest_near hn 100 100 (by norm_num)
    norm_num [prepared, run, step, postprocess, newSite, newFq, Fq.seen, Fq.value, Fq.qparams, nextRange, Clip.real, Fq.qp, QP.quant, QP.real, dequant, h0, h1]
  · have h0 := nearest_zero hn
    norm_num [converted, convert, isRelu, clipQ, run, step, postprocess, newSite, newFq, Fq.seen, Fq.value, Fq.qparams, nextRange, Clip.real, Fq.qp, QP.quant, QP.real, dequant, h0]

/-- With symmetric quantization it fails for modules: a `ReLU` module is dropped, and nothing keeps the layer from delivering -3. -/
theorem C134_symmetric_false {rnd : ℝ → ℤ} (hn : IsNearest rnd) : ∃ (s : Site) (h : List Event) (y : ℝ), FreshSite s ∧ Usual h ∧ s.act = .relu ∧ s.isModule = true ∧
    prepared rnd (run rnd (1 / 1000000) (1 / 100) (postprocess s) h) y = 0 ∧ converted rnd (1 / 1000000) (convert .pytorch (run rnd (1 / 1000000) (1 / 100) (postprocess s) h)) y = -3 := by
  refine ⟨newSite true .relu true, [.batch [255 / 2]], -3, newSite_fresh _ _ _ relu_ordered, ?_, rfl, rfl, ?_, ?_⟩
  · intro e he
    simp only [List.mem_cons, List.not_mem_nil, or_false] at he
    subst he
    simp
  · have h0 := nearest_zero hn
    norm_num [prepared, run, step, postprocess, newSite, newFq, Fq.seen, Fq.value, Fq.qparams, nextRange, Clip.real, Fq.qp, QP.quant, QP.real, dequant, h0]
  · have h1 := nearest_near hn (-3) (-3) (by norm_num)
    norm_num [converted, convert, isRelu, clipQ, run, step, postprocess, newSite, newFq, Fq.seen, Fq.value, Fq.qparams, nextRange, Clip.real, Fq.qp, QP.quant, QP.real, dequant, h1]

/-- Switching all observers and fake quantizers on again, as some of the examples do, turns the quantizer of the layer on as well: the prepared model rounds twice, the converted one once. -/
theorem C134_switched_on_false {rnd : ℝ → ℤ} (hn : IsNearest rnd) : ∃ (s : Site) (h : List Event) (y : ℝ), FreshSite s ∧ s.post.sym = false ∧ s.act = .clamp 0 255 ∧
    (∀ e ∈ h, e = .setFake true ∨ e = .setObserver true ∨ ∃ ys, e = .batch ys) ∧
    prepared rnd (run rnd (1 / 1000000) (1 / 100) (postprocess s) h) y = 0 ∧ converted rnd (1 / 1000000) (convert .pytorch (run rnd (1 / 1000000) (1 / 100) (postprocess s) h)) y = 40 := by
  refine ⟨newSite false (.clamp 0 255) false, [.setFake true, .setObserver true, .batch [25500]], 40, newSite_fresh _ _ _ (clamp_ordered _ _ (by norm_num)), rfl, rfl, ?_, ?_, ?_⟩
  · intro e he
    simp only [List.mem_cons, List.not_mem_nil, or_false] at he
    rcases he with rfl | rfl | rfl <;> simp
  · have h0 := nearest_zero hn
    have h1 := nearest_near hn 255 255 (by norm_num)
    have h2 := nearest_near hn (2 / 5) 0 (by norm_num [abs_lt])
    norm_num [prepared, run, step, postprocess, newSite, newFq, Fq.seen, Fq.value, Fq.qparams, nextRange, Clip.real, Fq.qp, QP.quant, QP.real, dequant, h0, h1, h2]
  · have h0 := nearest_zero hn
    have h1 := nearest_near hn 255 255 (by norm_num)
    have h2 := nearest_near hn 40 40 (by norm_num)
    norm_num [converted, convert, isRelu, clipQ, run, step, postprocess, newSite, newFq, Fq.seen, Fq.value, Fq.qparams, nextRange, Clip.real, Fq.qp, QP.quant, QP.real, dequant, h0, h1, h2]

/-- With the backend left at its default, a `ReLU` is not taken over, and the layer in front of it keeps the parameters of a quantizer that never saw anything: run in PyTorch, 0.4 becomes 0. -/
theorem C134_default_backend_false {rnd : ℝ → ℤ} (hn : IsNearest rnd) : ∃ (s : Site) (h : List Event) (y : ℝ), FreshSite s ∧ s.post.sym = false ∧ Usual h ∧ s.act = .relu ∧
    prepared rnd (run rnd (1 / 1000000) (1 / 100) (postprocess s) h) y = 2 / 5 ∧ converted rnd (1 / 1000000) (convert .tflite (run rnd (1 / 1000000) (1 / 100) (postprocess s) h)) y = 0 := by
  refine ⟨newSite false .relu true, [.batch [51 / 2]], 2 / 5, newSite_fresh _ _ _ relu_ordered, rfl, ?_, rfl, ?_, ?_⟩
  · intro e he
    simp only [List.mem_cons, List.not_mem_nil, or_false] at he
    subst he
    simp
  · have h0 := nearest_zero hn
    have h1 := nearest_near hn 4 4 (by norm_num)
    norm_num [prepared, run, step, postprocess, newSite, newFq, Fq.seen, Fq.value, Fq.qparams, nextRange, Clip.real, Fq.qp, QP.quant, QP.real, dequant, h0, h1]
  · have h0 := nearest_zero hn
    have h2 := nearest_near hn (2 / 5) 0 (by norm_num [abs_lt])
    have hne : Backend.tflite ≠ Backend.pytorch := by decide
    have hc : ∀ S : Site, S.act = .relu → convert .tflite S = S := fun S hS => by
      unfold convert
      rw [if_pos ⟨hne, by rw [hS]; rfl⟩]
    rw [hc _ rfl]
    norm_num [converted, clipQ, run, step, postprocess, newSite, newFq, Fq.seen, Fq.value, Fq.qparams, nextRange, Clip.real, Fq.qp, QP.quant, QP.real, dequant, h0, h2]

end Verif.Props
