import Verif.Model.Requant
import Mathlib.Algebra.Order.Round
import Mathlib.Algebra.Order.Archimedean.Real.Basic
import Mathlib.Tactic.Linarith
import Mathlib.Tactic.NormNum
import Mathlib.Tactic.FieldSimp
import Mathlib.Tactic.Ring
import Mathlib.Algebra.Order.BigOperators.Group.Finset

/-!
C90: merging a change of quantization into the operator that produces the tensor, merging chains of quantization nodes and fusing activations
change what the readers receive by no more than a few rounding steps.
-/

namespace Verif.Props
open Verif.Spec Verif.Model.Requant

/-- Saturation never moves two numbers apart. -/
theorem satInt_lipschitz (lo hi a b : ℤ) : |max lo (min hi a) - max lo (min hi b)| ≤ |a - b| := by
  rcases abs_cases (a - b) with ⟨h, _⟩ | ⟨h, _⟩ <;> rw [h, abs_le] <;>
  constructor <;> omega

theorem rnd_lipschitz {rnd : ℝ → ℤ} (h : IsNearest rnd) (x y : ℝ) : |((rnd x - rnd y : ℤ) : ℝ)| ≤ |x - y| + 1 := by
  have hx := abs_le.1 (h x)
  have hy := abs_le.1 (h y)
  push_cast
  rcases abs_cases (x - y) with ⟨e, _⟩ | ⟨e, _⟩ <;> rw [e, abs_le] <;> constructor <;> linarith [hx.1, hx.2, hy.1, hy.2]

theorem rnd_int {rnd : ℝ → ℤ} (h : IsNearest rnd) (n : ℤ) : rnd (n : ℝ) = n := by
  have := abs_le.1 (h (n : ℝ))
  have h1 : ((rnd n : ℤ) : ℝ) < n + 1 := by linarith [this.2]
  have h2 : ((n : ℤ) : ℝ) - 1 < rnd (n : ℝ) := by linarith [this.1]
  have h1' : rnd (n : ℝ) < n + 1 := by exact_mod_cast h1
  have h2' : n - 1 < rnd (n : ℝ) := by exact_mod_cast h2
  omega

/-- Two numbers quantized alike: clamped to any interval of integers. -/
theorem clampQuant_lipschitz {rnd : ℝ → ℤ} (h : IsNearest rnd) {p : QP} (hp : 0 < p.scale) (lo hi : ℤ) (x y : ℝ) :
    |p.real (max lo (min hi (rnd (x / p.scale) + p.zp))) - p.real (max lo (min hi (rnd (y / p.scale) + p.zp)))| ≤ |x - y| + p.scale := by
  unfold QP.real dequant
  rw [← mul_sub, abs_mul, abs_of_pos hp]
  have h1 := satInt_lipschitz lo hi (rnd (x / p.scale) + p.zp) (rnd (y / p.scale) + p.zp)
  rw [add_sub_add_right_eq_sub] at h1
  have h2 := rnd_lipschitz h (x / p.scale) (y / p.scale)
  have h3 : |((max lo (min hi (rnd (x / p.scale) + p.zp)) : ℤ) : ℝ) - p.zp - (((max lo (min hi (rnd (y / p.scale) + p.zp)) : ℤ) : ℝ) - p.zp)| ≤
      |x / p.scale - y / p.scale| + 1 := by
    refine le_trans ?_ h2
    rw [sub_sub_sub_cancel_right]
    exact_mod_cast h1
  have h4 : |x / p.scale - y / p.scale| = |x - y| / p.scale := by
    rw [← sub_div, abs_div, abs_of_pos hp]
  rw [h4] at h3
  calc p.scale * _ ≤ p.scale * (|x - y| / p.scale + 1) := mul_le_mul_of_nonneg_left h3 hp.le
    _ = |x - y| + p.scale := by field_simp

theorem quant_lipschitz {rnd : ℝ → ℤ} (h : IsNearest rnd) {p : QP} (hp : 0 < p.scale) (x y : ℝ) :
    |p.real (p.quant rnd x) - p.real (p.quant rnd y)| ≤ |x - y| + p.scale := clampQuant_lipschitz h hp _ _ x y

theorem quant_holds {rnd : ℝ → ℤ} {p : QP} (hp : p.Valid) (x : ℝ) : p.Holds (p.quant rnd x) := by
  have := hp.2
  unfold QP.Holds QP.quant
  omega

/-- A number that can be represented is quantized to within half a step. -/
theorem quant_near {rnd : ℝ → ℤ} (h : IsNearest rnd) {p : QP} (hp : p.Valid) {x : ℝ} (hx : p.Covers x) :
    |p.real (p.quant rnd x) - x| ≤ p.scale / 2 := by
  obtain ⟨hs, hl⟩ := hp
  obtain ⟨h1, h2⟩ := hx
  unfold QP.real dequant at *
  unfold QP.quant
  have hr := abs_le.1 (h (x / p.scale))
  have e : x = p.scale * (x / p.scale) := by field_simp
  have l1 : ((p.lo : ℤ) : ℝ) - p.zp ≤ x / p.scale := by rw [le_div_iff₀ hs]; linarith
  have l2 : x / p.scale ≤ ((p.hi : ℤ) : ℝ) - p.zp := by rw [div_le_iff₀ hs]; linarith
  have key : |((max p.lo (min p.hi (rnd (x / p.scale) + p.zp)) : ℤ) : ℝ) - p.zp - x / p.scale| ≤ 1 / 2 := by
    rcases le_total p.hi (rnd (x / p.scale) + p.zp) with c | c
    · rw [min_eq_left c, max_eq_right hl]
      have c' : ((p.hi : ℤ) : ℝ) ≤ rnd (x / p.scale) + p.zp := by exact_mod_cast c
      rw [abs_le]; constructor <;> linarith [hr.1, hr.2]
    · rw [min_eq_right c]
      rcases le_total p.lo (rnd (x / p.scale) + p.zp) with d | d
      · rw [max_eq_right d]; push_cast; rw [abs_le]; constructor <;> linarith [hr.1, hr.2]
      · rw [max_eq_left d]
        have d' : ((rnd (x / p.scale) : ℤ) : ℝ) + p.zp ≤ p.lo := by exact_mod_cast d
        rw [abs_le]; constructor <;> linarith [hr.1, hr.2]
  calc _ = |p.scale * (((max p.lo (min p.hi (rnd (x / p.scale) + p.zp)) : ℤ) : ℝ) - p.zp - x / p.scale)| := by
        congr 1; rw [mul_sub p.scale (_ - _), ← e]
    _ = p.scale * |((max p.lo (min p.hi (rnd (x / p.scale) + p.zp)) : ℤ) : ℝ) - p.zp - x / p.scale| := by rw [abs_mul, abs_of_pos hs]
    _ ≤ p.scale * (1 / 2) := mul_le_mul_of_nonneg_left key hs.le
    _ = p.scale / 2 := by ring

/-- A stored integer survives being read and quantized again alike. -/
theorem quant_real {rnd : ℝ → ℤ} (h : IsNearest rnd) {p : QP} (hp : p.Valid) {q : ℤ} (hq : p.Holds q) : p.quant rnd (p.real q) = q := by
  obtain ⟨hs, _⟩ := hp
  obtain ⟨h1, h2⟩ := hq
  unfold QP.quant QP.real dequant
  have e : p.scale * ((q : ℝ) - p.zp) / p.scale = ((q - p.zp : ℤ) : ℝ) := by push_cast; field_simp
  rw [e, rnd_int h]
  omega

theorem near_trans {a b r s t : ℝ} (h1 : |a - r| ≤ s) (h2 : |b - r| ≤ t) : |a - b| ≤ s + t := by
  have := abs_sub_le a r b
  rw [abs_sub_comm r b] at this
  linarith

/-! ### The requantization merged into its producer -/

/-- What `fuseOne` leaves behind: either nothing changed, or branch `k` was a QUANTIZE and the operator now writes its quantization. -/
theorem fuseOne_cases (s : Site) (k : ℕ) : fuseOne s k = s ∨
    ∃ p, s.branches[k]? = some ⟨[], .quantize p⟩ ∧ s.kind.fusable = true ∧ fuseOne s k = { s with label := p, branches := s.branches.set k ⟨[], .direct⟩ } ∧
      (1 < s.branches.length → ∃ o, scan none s.branches = some o) := by
  cases hb : s.branches[k]? with
  | none => left; simp [fuseOne, hb]
  | some b =>
    obtain ⟨steps, last⟩ := b
    cases steps with
    | cons a l => left; simp [fuseOne, hb]
    | nil =>
      cases last with
      | dequantize => left; simp [fuseOne, hb]
      | direct => left; simp [fuseOne, hb]
      | quantize p =>
        by_cases hf : s.kind.fusable = true
        · by_cases hl : 1 < s.branches.length
          · cases hs : scan none s.branches with
            | none => left; simp [fuseOne, hb, hl, hs]
            | some o => right; exact ⟨p, rfl, hf, by simp [fuseOne, hb, hf, hl, hs], fun _ => ⟨o, rfl⟩⟩
          · right; exact ⟨p, rfl, hf, by simp [fuseOne, hb, hf, hl], fun h => absurd h hl⟩
        · left; simp [fuseOne, hb, hf]

/-- A scan that succeeds: no branch ends in another reader, and all QUANTIZE nodes have the same scale and zero point. -/
theorem scan_some : ∀ (bs : List Branch) (pre o : Option QP), scan pre bs = some o →
    ∀ b ∈ bs, b.last ≠ .direct ∧ ∀ p, b.last = .quantize p → ∃ p0, o = some p0 ∧ p0.scale = p.scale ∧ p0.zp = p.zp := by
  have keep : ∀ (bs : List Branch) (p0 : QP) (o : Option QP), scan (some p0) bs = some o → o = some p0 := by
    intro bs
    induction bs with
    | nil => intro p0 o h; simpa [scan] using h.symm
    | cons b bs ih =>
      intro p0 o h
      unfold scan at h
      cases hb : b.found with
      | none => rw [hb] at h; cases h
      | some x =>
        rw [hb] at h
        cases x with
        | none => exact ih p0 o h
        | some cur =>
          simp only at h
          split_ifs at h
          exact ih p0 o h
  have fd : ∀ (b : Branch) (x : Option QP), b.found = some x → b.last ≠ .direct ∧ ∀ p, b.last = .quantize p → x = some p := by
    intro b x h
    unfold Branch.found at h
    split_ifs at h
    cases hl : b.last with
    | direct => rw [hl] at h; cases h
    | dequantize => exact ⟨by simp, fun p hp => by cases hp⟩
    | quantize p => rw [hl] at h; cases h; exact ⟨by simp, fun p' hp => by cases hp; rfl⟩
  intro bs
  induction bs with
  | nil => intro pre o _ b hb; cases hb
  | cons a bs ih =>
    intro pre o h b hb
    unfold scan at h
    cases ha : a.found with
    | none => rw [ha] at h; cases h
    | some x =>
      rw [ha] at h
      cases x with
      | none =>
        rcases List.mem_cons.1 hb with rfl | hb
        · exact ⟨(fd _ _ ha).1, fun p hp => by have := (fd _ _ ha).2 p hp; cases this⟩
        · exact ih pre o h b hb
      | some cur =>
        cases pre with
        | none =>
          rcases List.mem_cons.1 hb with rfl | hb
          · refine ⟨(fd _ _ ha).1, fun p hp => ?_⟩
            have e := (fd _ _ ha).2 p hp
            cases e
            exact ⟨_, keep bs _ o h, rfl, rfl⟩
          · exact ih _ o h b hb
        | some p0 =>
          simp only at h
          split_ifs at h with hc
          rcases List.mem_cons.1 hb with rfl | hb
          · refine ⟨(fd _ _ ha).1, fun p hp => ?_⟩
            have e := (fd _ _ ha).2 p hp
            rw [Option.some.injEq] at e
            rw [e] at hc
            refine ⟨p0, keep bs _ o h, ?_⟩
            by_contra hcon
            exact hc (by by_cases e1 : p0.scale = p.scale
                         · exact Or.inr fun e2 => hcon ⟨e1, e2⟩
                         · exact Or.inl e1)
          · exact ih _ o h b hb

/-- The QUANTIZE is the operator's only reader and the operator's exact result can be represented in its own output: the readers behind the QUANTIZE
receive the same numbers up to half an old step and one new step.
Missing from the full statement: results the old output would have cut off. -/
theorem C90_requantize_partial {rnd : ℝ → ℤ} (h : IsNearest rnd) (s : Site) (p : QP) (hs : s.label.Valid) (hp : p.Valid)
    (hb : s.branches = [⟨[], .quantize p⟩]) (r : ℕ → ℝ) (hr : ∀ i, s.label.Covers (r i)) (i : ℕ) (a b : ℝ)
    (ha : s.sees rnd r 0 i = some a) (hb' : (fuseOne s 0).sees rnd r 0 i = some b) :
    |a - b| ≤ s.label.scale / 2 + p.scale := by
  have hpos := hp.1
  have hpos' := hs.1
  rcases fuseOne_cases s 0 with e | ⟨p', e1, -, e2, -⟩
  · rw [e, ha] at hb'
    cases hb'
    rw [sub_self, abs_zero]
    linarith
  · rw [hb] at e1
    simp only [List.getElem?_cons_zero, Option.some.injEq, Branch.mk.injEq, End.quantize.injEq, true_and] at e1
    subst e1
    rw [e2] at hb'
    simp only [Site.sees, hb, List.set_cons_zero, List.getElem?_cons_zero, Option.map_some, pathEnd, Option.some.injEq] at ha hb'
    subst ha hb'
    have := quant_lipschitz h hpos (s.label.real (s.label.quant rnd (r i))) (r i)
    have h2 := quant_near h hs (hr i)
    linarith

/-- What the readers behind a merged QUANTIZE receive is within half a step of the operator's exact result, wherever the new quantization can
represent it. -/
theorem C90_requantize_direct {rnd : ℝ → ℤ} (h : IsNearest rnd) (s : Site) (k : ℕ) (p : QP) (hp : p.Valid) (hk : s.branches[k]? = some ⟨[], .quantize p⟩)
    (hne : fuseOne s k ≠ s) (r : ℕ → ℝ) (i : ℕ) (hr : p.Covers (r i)) :
    ∃ b, (fuseOne s k).sees rnd r k i = some b ∧ |b - r i| ≤ p.scale / 2 := by
  rcases fuseOne_cases s k with e | ⟨p', e1, -, e2, -⟩
  · exact absurd e hne
  · rw [hk] at e1
    simp only [Option.some.injEq, Branch.mk.injEq, End.quantize.injEq, true_and] at e1
    subst e1
    have hlt : k < s.branches.length := by
      by_contra hc
      rw [List.getElem?_eq_none (by omega)] at hk
      cases hk
    refine ⟨p.real (p.quant rnd (r i)), ?_, quant_near h hp hr⟩
    rw [e2]
    simp [Site.sees, hlt, pathEnd]

/-- Several readers, none behind a RESHAPE or TRANSPOSE: every reader receives the same number up to half an old step and one and a half new steps,
wherever both quantizations can represent the operator's exact result.
Missing from the full statement: results outside either range, and readers behind a RESHAPE or TRANSPOSE. -/
theorem C90_shared_requantize_partial {rnd : ℝ → ℤ} (h : IsNearest rnd) (s : Site) (k : ℕ) (hs : s.label.Valid) (hk : k < s.branches.length)
    (hsteps : ∀ b ∈ s.branches, b.steps = []) (hq : ∀ b ∈ s.branches, ∀ p, b.last = .quantize p → p.Valid) (r : ℕ → ℝ)
    (hr : ∀ i, s.label.Covers (r i)) (hr' : ∀ i, (fuseOne s k).label.Covers (r i)) (j i : ℕ) (hj : j < s.branches.length) :
    ∃ a b, s.sees rnd r j i = some a ∧ (fuseOne s k).sees rnd r j i = some b ∧
      |a - b| ≤ s.label.scale / 2 + 3 / 2 * (fuseOne s k).label.scale := by
  have hpos := hs.1
  have hj' : s.branches[j]? = some s.branches[j] := List.getElem?_eq_getElem hj
  rcases fuseOne_cases s k with e | ⟨p, e1, -, e2, e3⟩
  · rw [e]
    refine ⟨_, _, by simp only [Site.sees, hj', Option.map_some]; rfl, by simp only [Site.sees, hj', Option.map_some]; rfl, ?_⟩
    rw [sub_self, abs_zero]; linarith
  · have hmem : (⟨[], .quantize p⟩ : Branch) ∈ s.branches := List.mem_of_getElem? e1
    have hp : p.Valid := hq _ hmem p rfl
    have hpp := hp.1
    rw [e2] at hr' ⊢
    simp only at hr' ⊢
    have A := quant_near h hs (hr i)
    have B := quant_near h hp (hr' i)
    by_cases hjk : j = k
    · subst hjk
      refine ⟨_, _, by simp only [Site.sees, e1, Option.map_some]; rfl, by simp only [Site.sees, List.getElem?_set_self hj, Option.map_some]; rfl, ?_⟩
      simp only [pathEnd]
      have := quant_lipschitz h hpp (s.label.real (s.label.quant rnd (r i))) (r i)
      linarith
    · have hbm := List.getElem_mem hj
      have hst := hsteps _ hbm
      obtain ⟨o, ho⟩ := e3 (by omega)
      have sc := scan_some s.branches none o ho _ hbm
      obtain ⟨p0, ep0, es, -⟩ := (scan_some s.branches none o ho _ hmem).2 p rfl
      refine ⟨_, _, by simp only [Site.sees, hj', Option.map_some]; rfl, by
        simp only [Site.sees, List.getElem?_set_ne (Ne.symm hjk), hj', Option.map_some]; rfl, ?_⟩
      rw [hst]
      cases hl : s.branches[j].last with
      | direct => exact absurd hl sc.1
      | dequantize =>
        simp only [pathEnd]
        have := near_trans A B
        linarith
      | quantize p' =>
        simp only [pathEnd]
        have hp' := (hq _ hbm p' hl).1
        have L := quant_lipschitz h hp' (s.label.real (s.label.quant rnd (r i))) (p.real (p.quant rnd (r i)))
        have T := near_trans A B
        obtain ⟨p1, e1', e2', -⟩ := sc.2 p' hl
        rw [ep0] at e1'
        cases e1'
        have : p'.scale = p.scale := by rw [← e2', es]
        linarith

/-- Merging a QUANTIZE that keeps the operator's quantization changes nothing for any reader, whatever lies between. -/
theorem C90_requantize_again {rnd : ℝ → ℤ} (h : IsNearest rnd) (s : Site) (k : ℕ) (hs : s.label.Valid)
    (hk : s.branches[k]? = some ⟨[], .quantize s.label⟩) (r : ℕ → ℝ) (j i : ℕ) : (fuseOne s k).sees rnd r j i = s.sees rnd r j i := by
  rcases fuseOne_cases s k with e | ⟨p, e1, -, e2, -⟩
  · rw [e]
  · rw [hk] at e1
    simp only [Option.some.injEq, Branch.mk.injEq, End.quantize.injEq, true_and] at e1
    subst e1
    have hlt : k < s.branches.length := by
      by_contra hc
      rw [List.getElem?_eq_none (by omega)] at hk
      cases hk
    rw [e2]
    by_cases hjk : j = k
    · subst hjk
      simp only [Site.sees, hk, List.getElem?_set_self hlt, Option.map_some, pathEnd]
      rw [quant_real h hs (quant_holds hs _)]
    · simp only [Site.sees, List.getElem?_set_ne (Ne.symm hjk)]

theorem round_nearest : IsNearest (round : ℝ → ℤ) := fun x => by rw [abs_sub_comm]; exact abs_sub_round x

/-- A site that meets the hypotheses: an addition read by a QUANTIZE to a step of 2 and by a DEQUANTIZE; the merge happens. -/
example : (fuseOne ⟨.add, u8 1 0, [⟨[], .quantize (u8 2 0)⟩, ⟨[], .dequantize⟩]⟩ 0).label = u8 2 0 ∧
    (∀ i : ℕ, (u8 1 0).Covers ((fun _ => 100 : ℕ → ℝ) i)) ∧ (∀ i : ℕ, (u8 2 0).Covers ((fun _ => 100 : ℕ → ℝ) i)) ∧ (u8 1 0).Valid := by
  refine ⟨by simp [fuseOne, OpKind.fusable, scan, Branch.found], ?_, ?_, ?_⟩ <;>
    norm_num [QP.Covers, QP.real, dequant, u8, QP.Valid]

/-- Saturation to the operator's own range is lost: a sum of 600 arrives as 510 before and as 600 after the merge. -/
theorem C90_requantize_false : ∃ (s : Site) (p : QP) (r : ℕ → ℝ) (a b : ℝ), s.label.Valid ∧ p.Valid ∧ s.branches = [⟨[], .quantize p⟩] ∧
    s.sees round r 0 0 = some a ∧ (fuseOne s 0).sees round r 0 0 = some b ∧ ¬ |a - b| ≤ s.label.scale / 2 + p.scale := by
  refine ⟨⟨.add, u8 2 0, [⟨[], .quantize (u8 3 0)⟩]⟩, u8 3 0, fun _ => 600, 510, 600, ?_, ?_, rfl, ?_, ?_, ?_⟩
  · norm_num [QP.Valid, u8]
  · norm_num [QP.Valid, u8]
  · have h1 : round (300 : ℝ) = 300 := round_ofNat 300
    have h2 : round (170 : ℝ) = 170 := round_ofNat 170
    norm_num [Site.sees, pathEnd, QP.real, QP.quant, dequant, u8, h1, h2]
  · have h1 : round (200 : ℝ) = 200 := round_ofNat 200
    norm_num [Site.sees, fuseOne, OpKind.fusable, pathEnd, QP.real, QP.quant, dequant, u8, h1]
  · norm_num [u8, abs_of_nonneg, abs_of_nonpos]

/-- A reader behind a RESHAPE receives a wrong number: the RESHAPE's output keeps the old label, so the integer 50 of the merged operator, which stands
for 100, is read as 50. -/
theorem C90_reshape_reader_false : ∃ (s : Site) (r : ℕ → ℝ) (a b : ℝ), s.label.Valid ∧ (∀ i, s.label.Covers (r i)) ∧
    (∀ i, (fuseOne s 0).label.Covers (r i)) ∧ (∀ b ∈ s.branches, ∀ t ∈ b.steps, t.label = s.label) ∧
    s.sees round r 1 0 = some a ∧ (fuseOne s 0).sees round r 1 0 = some b ∧ ¬ |a - b| ≤ s.label.scale / 2 + 3 / 2 * (fuseOne s 0).label.scale := by
  have e : (fuseOne ⟨.add, u8 1 0, [⟨[], .quantize (u8 2 0)⟩, ⟨[⟨id, u8 1 0, 1⟩], .dequantize⟩]⟩ 0) =
      ⟨.add, u8 2 0, [⟨[], .direct⟩, ⟨[⟨id, u8 1 0, 1⟩], .dequantize⟩]⟩ := by
    simp [fuseOne, OpKind.fusable, scan, Branch.found]
  refine ⟨⟨.add, u8 1 0, [⟨[], .quantize (u8 2 0)⟩, ⟨[⟨id, u8 1 0, 1⟩], .dequantize⟩]⟩, fun _ => 100, 100, 50, ?_, ?_, ?_, ?_, ?_, ?_, ?_⟩
  · norm_num [QP.Valid, u8]
  · norm_num [QP.Covers, QP.real, dequant, u8]
  · rw [e]; norm_num [QP.Covers, QP.real, dequant, u8]
  · intro b hb t ht
    simp only [List.mem_cons, List.not_mem_nil, or_false] at hb
    rcases hb with rfl | rfl
    · cases ht
    · simp only [List.mem_cons, List.not_mem_nil, or_false] at ht; subst ht; rfl
  · have h1 : round (100 : ℝ) = 100 := round_ofNat 100
    norm_num [Site.sees, pathEnd, QP.real, QP.quant, dequant, u8, h1]
  · rw [e]
    have h1 : round (50 : ℝ) = 50 := round_ofNat 50
    norm_num [Site.sees, pathEnd, QP.real, QP.quant, dequant, u8, h1]
  · rw [e]; norm_num [u8, abs_of_nonneg]

/-- A DEQUANTIZE beside the QUANTIZE loses the numbers the QUANTIZE's narrower range cuts off: 100 arrives as 25. -/
theorem C90_dequantize_reader_false : ∃ (s : Site) (r : ℕ → ℝ) (a b : ℝ), s.label.Valid ∧ (∀ b ∈ s.branches, b.steps = []) ∧ (∀ i, s.label.Covers (r i)) ∧
    s.branches[1]? = some ⟨[], .dequantize⟩ ∧
    s.sees round r 1 0 = some a ∧ (fuseOne s 0).sees round r 1 0 = some b ∧ ¬ |a - b| ≤ s.label.scale / 2 + 3 / 2 * (fuseOne s 0).label.scale := by
  have e' : (fuseOne ⟨.conv, u8 1 0, [⟨[], .quantize (u8 (1 / 10) 0)⟩, ⟨[], .dequantize⟩]⟩ 0) =
      ⟨.conv, u8 (1 / 10) 0, [⟨[], .direct⟩, ⟨[], .dequantize⟩]⟩ := by
    simp [fuseOne, OpKind.fusable, scan, Branch.found]
  refine ⟨⟨.conv, u8 1 0, [⟨[], .quantize (u8 (1 / 10) 0)⟩, ⟨[], .dequantize⟩]⟩, fun _ => 100, 100, 255 / 10, ?_, ?_, ?_, rfl, ?_, ?_, ?_⟩
  · norm_num [QP.Valid, u8]
  · intro b hb
    simp only [List.mem_cons, List.not_mem_nil, or_false] at hb
    rcases hb with rfl | rfl <;> rfl
  · norm_num [QP.Covers, QP.real, dequant, u8]
  · have h1 : round (100 : ℝ) = 100 := round_ofNat 100
    norm_num [Site.sees, pathEnd, QP.real, QP.quant, dequant, u8, h1]
  · rw [e']
    have h1 : round (1000 : ℝ) = 1000 := round_ofNat 1000
    norm_num [Site.sees, pathEnd, QP.real, QP.quant, dequant, u8, h1]
  · rw [e']; norm_num [u8, abs_of_nonneg]

/-- A pooling operator that the runtime accepts is refused after the merge: pooling cannot change the quantization. -/
theorem C90_pooling_false : ∃ (s : Site) (input : QP), s.kind.accepts input s.label ∧ ¬ (fuseOne s 0).kind.accepts input (fuseOne s 0).label := by
  have e : (fuseOne ⟨.maxPool, u8 1 0, [⟨[], .quantize (u8 2 0)⟩]⟩ 0) = ⟨.maxPool, u8 2 0, [⟨[], .direct⟩]⟩ := by
    simp [fuseOne, OpKind.fusable]
  refine ⟨⟨.maxPool, u8 1 0, [⟨[], .quantize (u8 2 0)⟩]⟩, u8 1 0, fun _ => ⟨rfl, rfl⟩, ?_⟩
  rw [e]
  intro h
  have := (h (Or.inl rfl)).1
  norm_num [u8] at this

/-! ### Chains of quantization nodes -/

theorem runNodes_append (rnd : ℝ → ℤ) (a b : List QNode) (v : QVal) : runNodes rnd (a ++ b) v = runNodes rnd b (runNodes rnd a v) := by
  simp [runNodes]

theorem unsaturated_append (rnd : ℝ → ℤ) : ∀ (a b : List QNode) (v : QVal), Unsaturated rnd (a ++ b) v ↔ Unsaturated rnd a v ∧ Unsaturated rnd b (runNodes rnd a v)
  | [], b, v => by simp [Unsaturated, runNodes]
  | .dequantize :: a, b, v => by
    simp only [List.cons_append, Unsaturated, unsaturated_append rnd a b, runNodes, List.foldl_cons]
  | .quantize p :: a, b, v => by
    simp only [List.cons_append, Unsaturated, unsaturated_append rnd a b, runNodes, List.foldl_cons, and_assoc]

theorem stepSum_append : ∀ (a b : List QNode), stepSum (a ++ b) = stepSum a + stepSum b
  | [], b => by simp [stepSum]
  | .dequantize :: a, b => by simp [stepSum, stepSum_append a b]
  | .quantize p :: a, b => by simp [stepSum, stepSum_append a b, add_assoc]

theorem stepSum_nonneg : ∀ (a : List QNode), (∀ p, QNode.quantize p ∈ a → p.Valid) → 0 ≤ stepSum a
  | [], _ => le_refl _
  | .dequantize :: a, h => stepSum_nonneg a fun p hp => h p (List.mem_cons_of_mem _ hp)
  | .quantize p :: a, h => add_nonneg (h p (List.mem_cons_self)).1.le (stepSum_nonneg a fun p hp => h p (List.mem_cons_of_mem _ hp))

/-- An unsaturated chain moves a number by at most half of its steps. -/
theorem chain_drift {rnd : ℝ → ℤ} (h : IsNearest rnd) : ∀ (a : List QNode) (v : QVal), (∀ p, QNode.quantize p ∈ a → p.Valid) → Unsaturated rnd a v →
    |(runNodes rnd a v).real - v.real| ≤ stepSum a / 2
  | [], v, _, _ => by simp [runNodes, stepSum]
  | .dequantize :: a, v, hv, hu => by
    have := chain_drift h a (QNode.run rnd .dequantize v) (fun p hp => hv p (List.mem_cons_of_mem _ hp)) hu
    simpa [runNodes, stepSum, QNode.run, QVal.real] using this
  | .quantize p :: a, v, hv, hu => by
    have h1 := chain_drift h a (QNode.run rnd (.quantize p) v) (fun p hp => hv p (List.mem_cons_of_mem _ hp)) hu.2
    have h2 := quant_near h (hv p List.mem_cons_self) hu.1
    have e : runNodes rnd (.quantize p :: a) v = runNodes rnd a (QNode.run rnd (.quantize p) v) := rfl
    rw [e]
    have e2 : (QNode.run rnd (.quantize p) v).real = p.real (p.quant rnd v.real) := rfl
    rw [e2] at h1
    have := abs_sub_le (runNodes rnd a (QNode.run rnd (.quantize p) v)).real (p.real (p.quant rnd v.real)) v.real
    simp only [stepSum]
    linarith

/-- A chain moves two numbers apart by at most its steps. -/
theorem chain_lipschitz {rnd : ℝ → ℤ} (h : IsNearest rnd) : ∀ (a : List QNode) (v w : QVal), (∀ p, QNode.quantize p ∈ a → p.Valid) →
    |(runNodes rnd a v).real - (runNodes rnd a w).real| ≤ |v.real - w.real| + stepSum a
  | [], v, w, _ => by simp [runNodes, stepSum]
  | .dequantize :: a, v, w, hv => by
    have := chain_lipschitz h a (QNode.run rnd .dequantize v) (QNode.run rnd .dequantize w) (fun p hp => hv p (List.mem_cons_of_mem _ hp))
    simpa [runNodes, stepSum, QNode.run, QVal.real] using this
  | .quantize p :: a, v, w, hv => by
    have h1 := chain_lipschitz h a (QNode.run rnd (.quantize p) v) (QNode.run rnd (.quantize p) w) (fun p hp => hv p (List.mem_cons_of_mem _ hp))
    have h2 := quant_lipschitz h (hv p List.mem_cons_self).1 v.real w.real
    have e : ∀ u, runNodes rnd (.quantize p :: a) u = runNodes rnd a (QNode.run rnd (.quantize p) u) := fun _ => rfl
    rw [e, e]
    have e2 : ∀ u, (QNode.run rnd (.quantize p) u).real = p.real (p.quant rnd u.real) := fun _ => rfl
    rw [e2, e2] at h1
    simp only [stepSum]
    linarith

theorem cut_append (qFirst : Bool) (seq : List CNode) (h2 : 2 ≤ (cut qFirst seq).2.1.length) :
    (cut qFirst seq).1 ++ (cut qFirst seq).2.1 ++ (cut qFirst seq).2.2 = seq := by
  unfold cut at h2 ⊢
  simp only at h2 ⊢
  generalize hs : (if (seq.head?.map fun n => isQ n.node) == some qFirst then 0 else 1) = start at h2 ⊢
  generalize he : (if (seq.getLast?.map fun n => isQ n.node) == some (!qFirst) then seq.length else seq.length - 1) = stop at h2 ⊢
  simp only [List.length_drop, List.length_take] at h2
  have : seq.take start = (seq.take stop).take start := by rw [List.take_take, min_eq_left (by omega)]
  rw [this, List.take_append_drop, List.take_append_drop]

/-- The merged part of a chain. -/
theorem merge_near {rnd : ℝ → ℤ} (h : IsNearest rnd) (seq : List CNode) (v : QVal) (hv : ∀ p, QNode.quantize p ∈ seq.map CNode.node → p.Valid)
    (hu : Unsaturated rnd (seq.map CNode.node) v) : |(runNodes rnd (seq.map CNode.node) v).real - (runNodes rnd (merge seq) v).real| ≤ stepSum (seq.map CNode.node) := by
  have hd := chain_drift h _ v hv hu
  have hn := stepSum_nonneg _ hv
  have base : |(runNodes rnd (seq.map CNode.node) v).real - (runNodes rnd [] v).real| ≤ stepSum (seq.map CNode.node) := by
    simp only [runNodes, List.foldl_nil] at hd ⊢
    linarith
  unfold merge
  split
  · rename_i p p' x hh hl
    split_ifs with hc
    · exact base
    · obtain ⟨init, hinit⟩ := List.getLast?_eq_some_iff.1 hl
      subst hinit
      simp only [List.map_append, List.map_cons, List.map_nil] at hv hu hn ⊢
      rw [runNodes_append, stepSum_append]
      rw [unsaturated_append] at hu
      have h1 := chain_drift h (init.map CNode.node) v (fun p hp => hv p (List.mem_append_left _ hp)) hu.1
      have h2 := chain_lipschitz h [.quantize p'] (runNodes rnd (init.map CNode.node) v) v
        (fun p hp => hv p (List.mem_append_right _ hp))
      have h3 := stepSum_nonneg (init.map CNode.node) (fun p hp => hv p (List.mem_append_left _ hp))
      linarith
  · exact base

/-- A chain of alternating quantization nodes none of which saturates, on a number of any kind: merging it changes the number delivered by at most the
sum of the chain's steps.
Missing from the full statement: chains that cut numbers off. -/
theorem C90_chain_partial {rnd : ℝ → ℤ} (h : IsNearest rnd) (qFirst : Bool) (seq : List CNode) (v : QVal)
    (hv : ∀ p, QNode.quantize p ∈ seq.map CNode.node → p.Valid) (hu : Unsaturated rnd (seq.map CNode.node) v) :
    |(runNodes rnd (seq.map CNode.node) v).real - (runNodes rnd (fuseChain qFirst seq) v).real| ≤ stepSum (seq.map CNode.node) := by
  have hn := stepSum_nonneg _ hv
  unfold fuseChain
  simp only
  split_ifs with h2
  · have e := cut_append qFirst seq h2
    generalize cut qFirst seq = c at e h2 ⊢
    obtain ⟨a, b, d⟩ := c
    simp only at e h2 ⊢
    subst e
    simp only [List.map_append] at hv hu hn ⊢
    simp only [runNodes_append]
    rw [unsaturated_append, unsaturated_append] at hu
    have hb := merge_near h b (runNodes rnd (a.map CNode.node) v) (fun p hp => hv p (List.mem_append_left _ (List.mem_append_right _ hp))) (hu.1.2)
    have hd := chain_lipschitz h (d.map CNode.node) (runNodes rnd (b.map CNode.node) (runNodes rnd (a.map CNode.node) v))
      (runNodes rnd (merge b) (runNodes rnd (a.map CNode.node) v)) (fun p hp => hv p (List.mem_append_right _ hp))
    have ha := stepSum_nonneg (a.map CNode.node) (fun p hp => hv p (List.mem_append_left _ (List.mem_append_left _ hp)))
    rw [stepSum_append, stepSum_append]
    linarith
  · rw [sub_self, abs_zero]; exact hn

/-- DEQUANTIZE followed by QUANTIZE of the same storage type: the merged chain delivers exactly the same integer. -/
theorem C90_dequantize_quantize {rnd : ℝ → ℤ} (h : IsNearest rnd) (p p' : QP) (q : ℤ) (hp : p.Valid) (hq : p.Holds q) (ht : p'.lo = p.lo ∧ p'.hi = p.hi) :
    runNodes rnd (fuseChain false [⟨.dequantize, some p⟩, ⟨.quantize p', none⟩]) (.int p q) = runNodes rnd [.dequantize, .quantize p'] (.int p q) := by
  have e : fuseChain false [⟨.dequantize, some p⟩, ⟨.quantize p', none⟩] = merge [⟨.dequantize, some p⟩, ⟨.quantize p', none⟩] := by
    simp [fuseChain, cut, isQ]
  rw [e]
  simp only [merge, List.head?_cons, List.getLast?_cons_cons, List.getLast?_singleton]
  split_ifs with hc
  · have : p' = p := by cases p; cases p'; simp_all
    subst this
    simp only [runNodes, List.foldl_nil, List.foldl_cons, QNode.run, QVal.real]
    rw [quant_real h hp hq]
  · simp only [runNodes, List.foldl_nil, List.foldl_cons, QNode.run, QVal.real]

/-- A chain that meets the hypotheses: 7 in steps of 1, through a float tensor, to steps of 2; not of the same scale, so that it becomes one QUANTIZE. -/
example : fuseChain false [⟨.dequantize, some (u8 1 0)⟩, ⟨.quantize (u8 2 0), none⟩] = [.quantize (u8 2 0)] ∧
    Unsaturated round [.dequantize, .quantize (u8 2 0)] (.int (u8 1 0) 7) := by
  constructor
  · have : ¬ ((u8 2 0).scale = (u8 1 0).scale ∧ (u8 2 0).zp = (u8 1 0).zp) := by norm_num [u8]
    simp [fuseChain, cut, isQ, merge, this]
  · norm_num [Unsaturated, QNode.run, QVal.real, QP.Covers, QP.real, dequant, u8]

/-- A QUANTIZE and DEQUANTIZE that limit a float to 0 … 255 disappear, and with them the limit. -/
theorem C90_chain_false : ∃ (seq : List CNode) (v : QVal), (∀ p, QNode.quantize p ∈ seq.map CNode.node → p.Valid) ∧
    ¬ |(runNodes round (seq.map CNode.node) v).real - (runNodes round (fuseChain true seq) v).real| ≤ stepSum (seq.map CNode.node) := by
  refine ⟨[⟨.quantize (u8 1 0), none⟩, ⟨.dequantize, some (u8 1 0)⟩], .float 300, ?_, ?_⟩
  · intro p hp
    simp only [List.map_cons, List.map_nil, List.mem_cons, QNode.quantize.injEq, reduceCtorEq, List.not_mem_nil, or_false] at hp
    subst hp
    norm_num [QP.Valid, u8]
  · have e : fuseChain true [⟨.quantize (u8 1 0), none⟩, ⟨.dequantize, some (u8 1 0)⟩] = [] := by
      simp [fuseChain, cut, isQ, merge]
    have h1 : round (300 : ℝ) = 300 := round_ofNat 300
    rw [e]
    norm_num [runNodes, QNode.run, QVal.real, QP.real, QP.quant, dequant, u8, stepSum, h1, abs_of_nonpos]

/-- The storage type is not compared: an 8-bit tensor widened to 16 bits with the same scale and zero point stays an 8-bit tensor. -/
theorem C90_storage_type_false : ∃ (p p' : QP) (q : ℤ), p.Valid ∧ p'.Valid ∧ p.Holds q ∧
    (∃ n, runNodes round [.dequantize, .quantize p'] (.int p q) = .int (i16 1 0) n) ∧
    ∃ n, runNodes round (fuseChain false [⟨.dequantize, some p⟩, ⟨.quantize p', none⟩]) (.int p q) = .int (i8 1 0) n := by
  refine ⟨i8 1 0, i16 1 0, 3, by norm_num [QP.Valid, i8], by norm_num [QP.Valid, i16], by norm_num [QP.Holds, i8], ⟨_, rfl⟩, 3, ?_⟩
  simp [fuseChain, cut, isQ, merge, runNodes, i8, i16]

/-! ### Activations merged into a quantized operator -/

/-- Merging RELU or RELU6 into a quantized operator whose exact result its old output can represent: the activation's readers receive the same numbers
up to half an old step and one new step.
Missing from the full statement: results the old output would have cut off. -/
theorem C90_activation_partial {rnd : ℝ → ℤ} (h : IsNearest rnd) (a : Act) (p p' : QP) (hp : p.Valid) (hp' : p'.Valid) (x : ℝ) (hx : p.Covers x) :
    |p'.real (beforeActivation rnd a p p' x) - p'.real (afterActivation rnd a p' x)| ≤ p.scale / 2 + p'.scale := by
  have h1 := clampQuant_lipschitz h hp'.1 (a.range rnd p').1 (a.range rnd p').2 (p.real (p.quant rnd x)) x
  have h2 := quant_near h hp hx
  unfold beforeActivation afterActivation actQuant
  linarith

/-- A fused RELU or RELU6 delivers the activation of the operator's exact result up to half a step, wherever its output can represent it. -/
theorem C90_activation_value {rnd : ℝ → ℤ} (h : IsNearest rnd) (a : Act) (p : QP) (hp : p.Valid) (x : ℝ) (hx : p.Covers (a.real x)) :
    |p.real (afterActivation rnd a p x) - a.real x| ≤ p.scale / 2 := by
  obtain ⟨hs, hl⟩ := hp
  have h0 : rnd 0 = 0 := by simpa using rnd_int h 0
  have hr := abs_le.1 (h (x / p.scale))
  have h6 := abs_le.1 (h (6 / p.scale))
  obtain ⟨c1, c2⟩ := hx
  have key : ∀ (n : ℤ) (y : ℝ), |((n : ℤ) : ℝ) - p.zp - y / p.scale| ≤ 1 / 2 → |p.real n - y| ≤ p.scale / 2 := by
    intro n y hn
    have e : p.real n - y = p.scale * ((n : ℝ) - p.zp - y / p.scale) := by
      unfold QP.real dequant; field_simp
    rw [e, abs_mul, abs_of_pos hs]
    nlinarith [hn]
  apply key
  unfold QP.real dequant at c1 c2
  have l1 : ((p.lo : ℤ) : ℝ) - p.zp ≤ a.real x / p.scale := by rw [le_div_iff₀ hs]; linarith
  have l2 : a.real x / p.scale ≤ ((p.hi : ℤ) : ℝ) - p.zp := by rw [div_le_iff₀ hs]; linarith
  have six : (0 : ℝ) < 6 / p.scale := by positivity
  have mono : ∀ u v : ℝ, u ≤ v → u / p.scale ≤ v / p.scale := fun u v huv => by
    rw [div_le_div_iff_of_pos_right hs]; exact huv
  generalize hX : rnd (x / p.scale) = X at hr
  generalize hS : rnd (6 / p.scale) = S at h6
  have out : ∀ n : ℤ, (max p.lo (min p.hi n) = n) ∨ (max p.lo (min p.hi n) = p.lo ∧ n ≤ p.lo) ∨ (max p.lo (min p.hi n) = p.hi ∧ p.hi ≤ n) := by
    intro n; omega
  cases a with
  | none =>
    simp only [Act.real] at l1 l2 ⊢
    simp only [afterActivation, actQuant, Act.range, hX]
    rcases out (X + p.zp) with e | ⟨e, o⟩ | ⟨e, o⟩
    · rw [e]; push_cast; rw [abs_le]; constructor <;> linarith [hr.1, hr.2]
    · rw [e]; have o' : ((X : ℤ) : ℝ) + p.zp ≤ p.lo := by exact_mod_cast o
      rw [abs_le]; constructor <;> linarith [hr.1, hr.2]
    · rw [e]; have o' : ((p.hi : ℤ) : ℝ) ≤ X + p.zp := by exact_mod_cast o
      rw [abs_le]; constructor <;> linarith [hr.1, hr.2]
  | relu =>
    simp only [Act.real] at l1 l2 ⊢
    simp only [afterActivation, actQuant, Act.range, hX, zero_div, h0, zero_add]
    rcases le_total 0 x with hx0 | hx0
    · rw [max_eq_right hx0] at l1 l2 ⊢
      have hx1 : 0 ≤ x / p.scale := by positivity
      have hX0 : 0 ≤ X := by
        have : (-1 : ℝ) < X := by linarith [hr.1]
        have : (-1 : ℤ) < X := by exact_mod_cast this
        omega
      have e' : max (max p.lo p.zp) (min p.hi (X + p.zp)) = max p.lo (min p.hi (X + p.zp)) ∨ (max (max p.lo p.zp) (min p.hi (X + p.zp)) = p.zp ∧ p.hi ≤ p.zp) := by omega
      rcases e' with e' | ⟨e', o⟩
      · rw [e']
        rcases out (X + p.zp) with e | ⟨e, o⟩ | ⟨e, o⟩
        · rw [e]; push_cast; rw [abs_le]; constructor <;> linarith [hr.1, hr.2]
        · rw [e]; have o' : ((X : ℤ) : ℝ) + p.zp ≤ p.lo := by exact_mod_cast o
          rw [abs_le]; constructor <;> linarith [hr.1, hr.2]
        · rw [e]; have o' : ((p.hi : ℤ) : ℝ) ≤ X + p.zp := by exact_mod_cast o
          rw [abs_le]; constructor <;> linarith [hr.1, hr.2]
      · rw [e']; have o' : ((p.hi : ℤ) : ℝ) ≤ p.zp := by exact_mod_cast o
        rw [abs_le]; constructor <;> linarith
    · rw [max_eq_left hx0, zero_div] at l1 l2 ⊢
      have hx1 : x / p.scale ≤ 0 := by rw [div_le_iff₀ hs]; linarith
      have hX0 : X ≤ 0 := by
        have : ((X : ℤ) : ℝ) < 1 := by linarith [hr.2]
        have : X < 1 := by exact_mod_cast this
        omega
      have z1 : p.lo ≤ p.zp := by
        have : ((p.lo : ℤ) : ℝ) ≤ p.zp := by linarith
        exact_mod_cast this
      have : max (max p.lo p.zp) (min p.hi (X + p.zp)) = p.zp := by omega
      rw [this]; norm_num
  | relu6 =>
    simp only [Act.real] at l1 l2 ⊢
    simp only [afterActivation, actQuant, Act.range, hX, hS, zero_div, h0, zero_add]
    have hS0 : 0 ≤ S := by
      have : (-1 : ℝ) < S := by linarith [h6.1]
      have : (-1 : ℤ) < S := by exact_mod_cast this
      omega
    rcases le_total x 0 with hx0 | hx0
    · rw [min_eq_right (by linarith : x ≤ 6), max_eq_left hx0, zero_div] at l1 l2 ⊢
      have hx1 : x / p.scale ≤ 0 := by rw [div_le_iff₀ hs]; linarith
      have hX0 : X ≤ 0 := by
        have : ((X : ℤ) : ℝ) < 1 := by linarith [hr.2]
        have : X < 1 := by exact_mod_cast this
        omega
      have z1 : p.lo ≤ p.zp := by
        have : ((p.lo : ℤ) : ℝ) ≤ p.zp := by linarith
        exact_mod_cast this
      have : max (max p.lo p.zp) (min (min p.hi (S + p.zp)) (X + p.zp)) = p.zp := by omega
      rw [this]; norm_num
    · have hx1 : 0 ≤ x / p.scale := by positivity
      have hX0 : 0 ≤ X := by
        have : (-1 : ℝ) < X := by linarith [hr.1]
        have : (-1 : ℤ) < X := by exact_mod_cast this
        omega
      have hmin : 0 ≤ min 6 x := by rw [le_min_iff]; exact ⟨by norm_num, hx0⟩
      rw [max_eq_right hmin] at l1 l2 ⊢
      -- the unclamped result is a nearest integer to the limited number
      have near : |((min S X : ℤ) : ℝ) - min 6 x / p.scale| ≤ 1 / 2 := by
        rcases le_total 6 x with h6x | h6x
        · have m := mono 6 x h6x
          rw [min_eq_left h6x]
          rcases le_total S X with o | o
          · rw [min_eq_left o, abs_le]; constructor <;> linarith [h6.1, h6.2]
          · rw [min_eq_right o]
            have o' : ((X : ℤ) : ℝ) ≤ S := by exact_mod_cast o
            rw [abs_le]; constructor <;> linarith [h6.1, h6.2, hr.1, hr.2]
        · have m := mono x 6 h6x
          rw [min_eq_right h6x]
          rcases le_total S X with o | o
          · rw [min_eq_left o]
            have o' : ((S : ℤ) : ℝ) ≤ X := by exact_mod_cast o
            rw [abs_le]; constructor <;> linarith [h6.1, h6.2, hr.1, hr.2]
          · rw [min_eq_right o, abs_le]; constructor <;> linarith [hr.1, hr.2]
      have near := abs_le.1 near
      have M0 : 0 ≤ min S X := by omega
      have hq0 : 0 ≤ min 6 x / p.scale := by positivity
      have e' : max (max p.lo p.zp) (min (min p.hi (S + p.zp)) (X + p.zp)) = max p.lo (min p.hi (min S X + p.zp)) ∨
          (max (max p.lo p.zp) (min (min p.hi (S + p.zp)) (X + p.zp)) = p.zp ∧ p.hi ≤ p.zp) := by omega
      rcases e' with e' | ⟨e', o⟩
      · rw [e']
        rcases out (min S X + p.zp) with e | ⟨e, o⟩ | ⟨e, o⟩
        · rw [e, Int.cast_add, abs_le]; constructor <;> linarith [near.1, near.2]
        · rw [e]; have o' : ((min S X : ℤ) : ℝ) + p.zp ≤ p.lo := by exact_mod_cast o
          rw [abs_le]; constructor <;> linarith [near.1, near.2]
        · rw [e]; have o' : ((p.hi : ℤ) : ℝ) ≤ (min S X : ℤ) + p.zp := by exact_mod_cast o
          rw [abs_le]; constructor <;> linarith [near.1, near.2]
      · rw [e']; have o' : ((p.hi : ℤ) : ℝ) ≤ p.zp := by exact_mod_cast o
        rw [abs_le]; constructor <;> linarith

/-- Numbers that meet the hypotheses. -/
example : (u8 (1 / 10) 0).Valid ∧ (u8 (1 / 10) 0).Covers (Act.relu6.real 7) ∧ (i8 1 0).Covers 7 := by
  norm_num [QP.Valid, QP.Covers, QP.real, dequant, u8, i8, Act.real]

end Verif.Props
