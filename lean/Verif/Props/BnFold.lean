import Verif.Model.BnFold
import Verif.Lemmas.Tensor
import Mathlib.Tactic.Common
import Mathlib.Tactic.Ring
import Mathlib.Tactic.Linarith
import Mathlib.Algebra.BigOperators.Group.List.Lemmas
import Mathlib.Algebra.BigOperators.Ring.List

/-! C12, C13 (batch-norm folding) and C14 (gathers around a convolution). -/

namespace Verif.Props
open Verif.Model Verif.Spec Verif.Lemmas

theorem getD_zipWith' {α β γ : Type} (f : α → β → γ) (l : List α) (m : List β) (a : Nat) (d : γ) (dl : α) (dm : β)
    (hl : a < l.length) (hm : a < m.length) :
    (List.zipWith f l m).getD a d = f (l.getD a dl) (m.getD a dm) := by
  rw [getD_eq_getElem (List.zipWith f l m) _ _ (by simp; omega), getD_eq_getElem _ _ _ hl, getD_eq_getElem _ _ _ hm]
  simp

theorem sum_sum_mul {R β : Type} [Semiring R] (l : List β) (n : Nat) (f : β → Nat → R) (c : R) :
    (l.map (fun κ => ((List.range n).map (fun i => f κ i)).sum)).sum * c =
      (l.map (fun κ => ((List.range n).map (fun i => f κ i * c)).sum)).sum := by
  rw [← List.sum_map_mul_right]
  congr 1
  apply List.map_congr_left
  intro κ _
  rw [← List.sum_map_mul_right]

theorem bnGain_getD (eps : ℝ) (scale var : List ℝ) (o : Nat) (h1 : o < scale.length) (h2 : o < var.length) :
    (bnGain eps scale var).getD o 0 = scale.getD o 0 * (1 / Real.sqrt (var.getD o 0 + eps)) := by
  unfold bnGain
  rw [getD_zipWith' _ _ _ _ _ 0 0 h1 h2]

theorem repeatBias_spec (b mean : List ℝ) (hb : b.length = mean.length ∨ b.length = 1) :
    (repeatBias b mean).length = mean.length ∧
    ∀ o < mean.length, (repeatBias b mean).getD o 0 = biasAt (some b) o := by
  unfold repeatBias
  split
  · rename_i h
    refine ⟨by simp, ?_⟩
    intro o ho
    obtain ⟨v, rfl⟩ := List.length_eq_one_iff.1 h.2
    rw [getD_eq_getElem _ _ _ (by simpa using ho)]
    simp [biasAt]
  · rename_i h
    have hl : b.length = mean.length := by
      rcases hb with h' | h'
      · exact h'
      · by_contra hc; exact h ⟨hc, h'⟩
    refine ⟨hl, ?_⟩
    intro o ho
    match b with
    | [] => simp at hl; omega
    | [v] =>
      have : o = 0 := by simp at hl; omega
      subst this; simp [biasAt]
    | _ :: _ :: _ => rfl

theorem biasAt_full (l : List ℝ) (o : Nat) (ho : o < l.length) : biasAt (some l) o = l.getD o 0 := by
  match l with
  | [] => simp at ho
  | [v] =>
    have : o = 0 := by simp at ho; omega
    subst this; simp [biasAt]
  | _ :: _ :: _ => rfl

/-- The folded bias is the batch norm of the original bias. -/
theorem fuseBnBias_spec (eps : ℝ) (scale var mean shift : List ℝ) (b : Option (List ℝ)) (C : Nat)
    (h1 : scale.length = C) (h2 : var.length = C) (h3 : mean.length = C) (h4 : shift.length = C)
    (hb : ∀ l, b = some l → l.length = C ∨ l.length = 1) :
    (fuseBnBias eps scale var mean shift b).length = C ∧
    ∀ o < C, biasAt (some (fuseBnBias eps scale var mean shift b)) o =
      batchNorm eps scale shift mean var o (biasAt b o) := by
  have key : ∀ centered : List ℝ, centered.length = C →
      (∀ o < C, centered.getD o 0 = biasAt b o - mean.getD o 0) →
      (List.zipWith (· + ·) (List.zipWith (· * ·) (List.zipWith (fun c v => c * (1 / Real.sqrt (v + eps))) centered var) scale) shift).length = C ∧
      ∀ o < C, biasAt (some (List.zipWith (· + ·) (List.zipWith (· * ·) (List.zipWith (fun c v => c * (1 / Real.sqrt (v + eps))) centered var) scale) shift)) o =
        batchNorm eps scale shift mean var o (biasAt b o) := by
    intro centered hc hv
    have hl : (List.zipWith (· + ·) (List.zipWith (· * ·) (List.zipWith (fun c v => c * (1 / Real.sqrt (v + eps))) centered var) scale) shift).length = C := by
      simp; omega
    refine ⟨hl, ?_⟩
    intro o ho
    rw [biasAt_full _ _ (by omega), getD_zipWith' _ _ _ _ _ 0 0 (by simp; omega) (by omega),
      getD_zipWith' _ _ _ _ _ 0 0 (by simp; omega) (by omega), getD_zipWith' _ _ _ _ _ 0 0 (by omega) (by omega),
      hv o ho]
    unfold batchNorm
    ring
  unfold fuseBnBias
  cases b with
  | none =>
    apply key
    · simpa using h3
    · intro o ho
      rw [getD_map_lt _ _ _ _ 0 (by omega)]
      simp [biasAt]
  | some l =>
    obtain ⟨r1, r2⟩ := repeatBias_spec l mean (by rw [h3]; exact hb l rfl)
    apply key
    · simp; omega
    · intro o ho
      rw [getD_zipWith' _ _ _ _ _ 0 0 (by omega) (by omega), r2 o (by omega)]

/-- C12, convolutions of any rank, grouping, padding, stride and dilation, and fully-connected layers
(`n = 0`), with or without bias: the folded layer has a weight of the same shape and one bias per
channel, and its output is the batch norm of the original output, for every input. -/
theorem C12_conv_bn (n : Nat) (w : Window) (pad : Nat → Nat) (cin : Nat) (grp : Nat → Nat) (wt : Tensor ℝ)
    (cout : Nat) (ks : List Nat) (hw : wt.shape = cout :: cin :: ks)
    (bias : Option (List ℝ)) (hb : ∀ l, bias = some l → l.length = cout ∨ l.length = 1)
    (eps : ℝ) (scale var mean shift : List ℝ) (h1 : scale.length = cout) (h2 : var.length = cout)
    (h3 : mean.length = cout) (h4 : shift.length = cout) :
    ∃ wt', fuseBnWeight eps scale var wt false = some wt' ∧ wt'.shape = wt.shape ∧
      (fuseBnBias eps scale var mean shift bias).length = cout ∧
      ∀ (x : Nat → Tensor ℝ) (o : Nat) (pos : List Nat), o < cout →
        convOut n w pad cin grp wt' (some (fuseBnBias eps scale var mean shift bias)) x o pos =
          batchNorm eps scale shift mean var o (convOut n w pad cin grp wt bias x o pos) := by
  obtain ⟨hl, hbias⟩ := fuseBnBias_spec eps scale var mean shift bias cout h1 h2 h3 h4 hb
  have hg : (bnGain eps scale var).length = cout := by simp [bnGain]; omega
  refine ⟨⟨wt.shape, fun idx => wt.get idx * (bnGain eps scale var).getD (idx.getD 0 0) 0⟩, ?_, rfl, hl, ?_⟩
  · unfold fuseBnWeight bcMul
    rw [if_pos]
    · rfl
    · simp [hw, hg]
  · intro x o pos ho
    unfold convOut
    rw [hbias o ho]
    simp only [List.getD_cons_zero]
    rw [bnGain_getD _ _ _ _ (by omega) (by omega)]
    have : ∀ κ i, wt.get (o :: i :: κ) * (scale.getD o 0 * (1 / Real.sqrt (var.getD o 0 + eps))) *
        getOr (x (grp o * cin + i)) 0 (readPos w pad n pos κ) =
        wt.get (o :: i :: κ) * getOr (x (grp o * cin + i)) 0 (readPos w pad n pos κ) *
          (scale.getD o 0 * (1 / Real.sqrt (var.getD o 0 + eps))) := by intros; ring
    simp only [this]
    rw [← sum_sum_mul]
    unfold batchNorm
    ring

/-- C12, transposed convolutions without groups. -/
theorem C12_deconv_bn_partial (n : Nat) (w : Window) (pad : Nat → Nat) (cin cout : Nat) (wt : Tensor ℝ)
    (ks : List Nat) (hw : wt.shape = cin :: cout :: ks)
    (bias : Option (List ℝ)) (hb : ∀ l, bias = some l → l.length = cout ∨ l.length = 1)
    (eps : ℝ) (scale var mean shift : List ℝ) (h1 : scale.length = cout) (h2 : var.length = cout)
    (h3 : mean.length = cout) (h4 : shift.length = cout) :
    ∃ wt', fuseBnWeight eps scale var wt true = some wt' ∧ wt'.shape = wt.shape ∧
      (fuseBnBias eps scale var mean shift bias).length = cout ∧
      ∀ (x : Nat → Tensor ℝ) (o : Nat) (pos : List Nat), o < cout →
        deconvOut n w pad cin cout wt' (some (fuseBnBias eps scale var mean shift bias)) x o pos =
          batchNorm eps scale shift mean var o (deconvOut n w pad cin cout wt bias x o pos) := by
  obtain ⟨hl, hbias⟩ := fuseBnBias_spec eps scale var mean shift bias cout h1 h2 h3 h4 hb
  have hg : (bnGain eps scale var).length = cout := by simp [bnGain]; omega
  refine ⟨⟨wt.shape, fun idx => wt.get idx * (bnGain eps scale var).getD (idx.getD 1 0) 0⟩, ?_, rfl, hl, ?_⟩
  · unfold fuseBnWeight bcMul
    simp [hw, hg]
  · intro x o pos ho
    unfold deconvOut
    rw [hbias o ho]
    have hmod : o % cout = o := Nat.mod_eq_of_lt ho
    simp only [List.getD_cons_zero, List.getD_cons_succ, hmod]
    rw [bnGain_getD _ _ _ _ (by omega) (by omega)]
    have : ∀ (a : List Nat) (z : ℝ), wt.get a * (scale.getD o 0 * (1 / Real.sqrt (var.getD o 0 + eps))) * z =
        wt.get a * z * (scale.getD o 0 * (1 / Real.sqrt (var.getD o 0 + eps))) := by intros; ring
    simp only [this]
    rw [← sum_sum_mul]
    unfold batchNorm
    ring

/-- The hypotheses are met: a 3-output, 2-input, 3×3 convolution without bias. -/
example : ∃ wt : Tensor ℝ, wt.shape = 3 :: 2 :: [3, 3] ∧ ([1, 2, 3] : List ℝ).length = 3 := ⟨⟨[3, 2, 3, 3], fun _ => 1⟩, rfl, rfl⟩

/-- C12 is false for depthwise transposed convolutions (`groups = C > 1`, weight `(C, 1, k...)`): the folded
weight has shape `(C, C, k...)`, so it is not a weight of that operator. -/
theorem C12_depthwise_deconv_false (C : Nat) (hC : 1 < C) (ks : List Nat) (wt : Tensor ℝ)
    (hw : wt.shape = C :: 1 :: ks) (eps : ℝ) (scale var : List ℝ) (h1 : scale.length = C) (h2 : var.length = C) :
    ∃ wt', fuseBnWeight eps scale var wt true = some wt' ∧ wt'.shape = C :: C :: ks ∧ wt'.shape ≠ wt.shape := by
  have hg : (bnGain eps scale var).length = C := by simp [bnGain]; omega
  refine ⟨⟨wt.shape.set 1 C, fun idx => wt.get (idx.set 1 0) * (bnGain eps scale var).getD (idx.getD 1 0) 0⟩, ?_, ?_, ?_⟩
  · unfold fuseBnWeight bcMul
    have : ¬ (1 = C) := by omega
    simp [hw, hg, this]
  · simp [hw]
  · simp [hw]; omega

/-- C12 for the other grouped transposed convolutions: the folding aborts with a broadcasting error. -/
theorem C12_grouped_deconv_aborts (cin coutG g : Nat) (hg : 1 < g) (hc : 1 < coutG) (ks : List Nat) (wt : Tensor ℝ)
    (hw : wt.shape = cin :: coutG :: ks) (eps : ℝ) (scale var : List ℝ) (h1 : scale.length = coutG * g)
    (h2 : var.length = coutG * g) : fuseBnWeight eps scale var wt true = none := by
  have hl : (bnGain eps scale var).length = coutG * g := by simp [bnGain, h1, h2]
  have h3 : coutG * 2 ≤ coutG * g := Nat.mul_le_mul_left _ hg
  unfold fuseBnWeight bcMul
  simp only [if_true, hw, hl, List.getD_cons_succ, List.getD_cons_zero]
  rw [if_neg (by omega), if_neg (by omega), if_neg (by omega)]

/-! ### C13 -/

theorem kernelIdx_spec (k : Nat → Nat) (n : Nat) :
    ∀ κ ∈ kernelIdx k n, κ.length = n ∧ ∀ a < n, κ.getD a 0 < k a := by
  induction n with
  | zero => simp [kernelIdx]
  | succ n ih =>
    intro κ h
    simp only [kernelIdx, List.mem_flatMap, List.mem_map, List.mem_range] at h
    obtain ⟨p, hp, i, hi, rfl⟩ := h
    obtain ⟨h1, h2⟩ := ih p hp
    refine ⟨by simp [h1], ?_⟩
    intro a ha
    by_cases hlt : a < n
    · have : (p ++ [i]).getD a 0 = p.getD a 0 := by simp [List.getD, List.getElem?_append_left (by omega : a < p.length)]
      rw [this]; exact h2 a hlt
    · have : a = n := by omega
      subst this
      simpa [List.getD, h1] using hi

theorem kernelIdx_congr (k k' : Nat → Nat) (n : Nat) (h : ∀ a < n, k a = k' a) : kernelIdx k n = kernelIdx k' n := by
  induction n with
  | zero => rfl
  | succ n ih => simp only [kernelIdx]; rw [ih (fun a ha => h a (by omega)), h n (by omega)]

/-- A VALID window never reads outside. -/
theorem valid_inside {α : Type} (t : Tensor α) (w : Window) (pos κ : List Nat)
    (hs : ∀ a < t.shape.length, 0 < w.stride a) (hκ : ∀ a < t.shape.length, κ.getD a 0 < w.kernel a)
    (hpos : ∀ a < t.shape.length, pos.getD a 0 < validOut (t.shape.getD a 0) (w.kernel a) (w.stride a) (w.dilation a)) :
    inside t (readPos w (fun _ => 0) t.shape.length pos κ) = true := by
  unfold inside
  rw [List.all_eq_true]
  intro a ha
  have ha : a < t.shape.length := by simpa using ha
  rw [decide_eq_true_eq]
  unfold readPos
  rw [getD_range_map _ _ _ _ ha]
  have h1 := hpos a ha
  unfold validOut at h1
  rw [Nat.lt_div_iff_mul_lt (hs a ha)] at h1
  have h2 : κ.getD a 0 * w.dilation a ≤ (w.kernel a - 1) * w.dilation a :=
    Nat.mul_le_mul_right _ (by have := hκ a ha; omega)
  generalize κ.getD a 0 * w.dilation a = A at h2 ⊢
  generalize (w.kernel a - 1) * w.dilation a = B at h1 h2
  generalize pos.getD a 0 * w.stride a = P at h1 ⊢
  have := hs a ha
  simp only [Nat.cast_zero, Int.sub_zero]
  omega

theorem sum_zipIdx_bn {β : Type} (l : List β) (n : Nat) (f g h : β → Nat → ℝ) (hfg : ∀ κ ∈ l, ∀ i < n, f κ i = g κ i + h κ i) :
    (l.map (fun κ => ((List.range n).map (fun i => f κ i)).sum)).sum =
      (l.map (fun κ => ((List.range n).map (fun i => g κ i)).sum)).sum +
      (l.map (fun κ => ((List.range n).map (fun i => h κ i)).sum)).sum := by
  rw [← List.sum_map_add]
  congr 1
  apply List.map_congr_left
  intro κ hκ
  rw [← List.sum_map_add]
  congr 1
  apply List.map_congr_left
  intro i hi
  exact hfg κ hκ i (by simpa using hi)

theorem sum_swap {β : Type} (l : List β) (n : Nat) (f : β → Nat → ℝ) :
    (l.map (fun κ => ((List.range n).map (fun i => f κ i)).sum)).sum =
      ((List.range n).map (fun i => (l.map (fun κ => f κ i)).sum)).sum := by
  induction l with
  | nil => simp
  | cons b l ih =>
    simp only [List.map_cons, List.sum_cons]
    rw [ih, ← List.sum_map_add]

/-- C13, partial.  A batch norm folded into the following convolution (no groups, **no padding**, and not the
combination of a single output channel with a bias and several input channels): the folded convolution on
the raw input equals the original convolution on the normalised input, at every output position.
Missing: padded convolutions, where the code is wrong at the border (`C13_padding_false`), and the
single-output case, where the bias gets the wrong length (`C13_bias_length_false`). -/
theorem C13_bn_conv_partial (w : Window) (cin cout : Nat) (sp ks : List Nat) (hks : ks.length = sp.length)
    (wt : Tensor ℝ) (hw : wt.shape = cout :: cin :: ks) (hk : ∀ a < sp.length, ks.getD a 0 = w.kernel a)
    (hs : ∀ a < sp.length, 0 < w.stride a)
    (bias : Option (List ℝ)) (hb : ∀ l, bias = some l → l.length = cout ∧ (cout ≠ 1 ∨ cin = 1))
    (eps : ℝ) (scale var mean shift : List ℝ) (h1 : scale.length = cin) (h2 : var.length = cin)
    (h3 : mean.length = cin) (h4 : shift.length = cin) :
    ∃ wt' b', fuseRevBnWeight eps scale var wt = some wt' ∧ wt'.shape = wt.shape ∧
      fuseRevBnBias eps scale var mean shift bias wt = some b' ∧ b'.length = cout ∧
      ∀ (x : Nat → Tensor ℝ) (o : Nat) (pos : List Nat), (∀ c, (x c).shape = sp) → o < cout →
        (∀ a < sp.length, pos.getD a 0 < validOut (sp.getD a 0) (w.kernel a) (w.stride a) (w.dilation a)) →
        convOut sp.length w (fun _ => 0) cin (fun _ => 0) wt' (some b') x o pos =
          convOut sp.length w (fun _ => 0) cin (fun _ => 0) wt bias
            (fun c => ⟨(x c).shape, fun idx => batchNorm eps scale shift mean var c ((x c).get idx)⟩) o pos := by
  have hg : (bnGain eps scale var).length = cin := by simp [bnGain]; omega
  set fused : List ℝ := List.zipWith (fun s (p : ℝ × ℝ × ℝ) => s - p.1 * (1 / Real.sqrt (p.2.1 + eps)) * p.2.2) shift
    (List.zip mean (List.zip var scale)) with hfused
  have hfl : fused.length = cin := by simp [hfused]; omega
  have hfv : ∀ i < cin, fused.getD i 0 =
      shift.getD i 0 - mean.getD i 0 * (1 / Real.sqrt (var.getD i 0 + eps)) * scale.getD i 0 := by
    intro i hi
    rw [hfused, getD_zipWith' _ _ _ _ _ 0 (0, 0, 0) (by omega) (by simp; omega)]
    have : (List.zip mean (List.zip var scale)).getD i (0, 0, 0) = (mean.getD i 0, var.getD i 0, scale.getD i 0) := by
      rw [List.zip, getD_zipWith' _ _ _ _ _ 0 (0, 0) (by omega) (by simp; omega), List.zip,
        getD_zipWith' _ _ _ _ _ 0 0 (by omega) (by omega)]
    rw [this]
  set off : List ℝ := (List.range cout).map (fun o =>
        ((List.range fused.length).map (fun i => sumKernel wt o i * fused.getD i 0)).sum) with hoff
  have hw0 : wt.shape.getD 0 0 = cout := by simp [hw]
  have hw1 : wt.shape.getD 1 0 = cin := by simp [hw]
  have hoffset : (if wt.shape.getD 1 0 = 1 ∧ 1 < mean.length then
      if wt.shape.getD 0 0 = fused.length then some ((List.range (wt.shape.getD 0 0)).map (fun o => sumKernel wt o 0 * fused.getD o 0))
      else if wt.shape.getD 0 0 = 1 then some (fused.map (fun f => sumKernel wt 0 0 * f))
      else none
    else if wt.shape.getD 1 0 = fused.length then
      some ((List.range (wt.shape.getD 0 0)).map (fun o =>
        ((List.range fused.length).map (fun i => sumKernel wt o i * fused.getD i 0)).sum))
    else none) = some off := by
    rw [if_neg (by omega), if_pos (by omega), hw0]
  have hoffl : off.length = cout := by simp [hoff]
  -- the new bias
  have hbias : ∃ b', fuseRevBnBias eps scale var mean shift bias wt = some b' ∧ b'.length = cout ∧
      ∀ o < cout, biasAt (some b') o = biasAt bias o + off.getD o 0 := by
    unfold fuseRevBnBias
    simp only
    rw [← hfused, hoffset, Option.bind_some]
    cases bias with
    | none =>
      refine ⟨off, rfl, hoffl, ?_⟩
      intro o ho
      rw [biasAt_full _ _ (by omega)]; simp [biasAt]
    | some b =>
      obtain ⟨hbl, hcase⟩ := hb b rfl
      have hrep : repeatBias b mean = b := by
        unfold repeatBias
        rw [if_neg]
        rintro ⟨ha, hb1⟩
        rcases hcase with h | h <;> omega
      simp only [hrep]
      unfold bcAdd
      rw [if_pos (by omega)]
      refine ⟨_, rfl, by simp; omega, ?_⟩
      intro o ho
      rw [biasAt_full _ _ (by simp; omega), getD_zipWith' _ _ _ _ _ 0 0 (by omega) (by omega), biasAt_full b o (by omega)]
  obtain ⟨b', hb1, hb2, hb3⟩ := hbias
  refine ⟨⟨wt.shape, fun idx => wt.get idx * (bnGain eps scale var).getD (idx.getD 1 0) 0⟩, b', ?_, rfl, hb1, hb2, ?_⟩
  · unfold fuseRevBnWeight bcMul
    rw [if_pos (by omega)]
  · intro x o pos hx ho hpos
    unfold convOut
    rw [hb3 o ho]
    simp only [Nat.zero_mul, Nat.zero_add, List.getD_cons_zero, List.getD_cons_succ]
    have hread : ∀ κ ∈ kernelIdx w.kernel sp.length, ∀ i < cin,
        wt.get (o :: i :: κ) * getOr (⟨(x i).shape, fun idx => batchNorm eps scale shift mean var i ((x i).get idx)⟩ : Tensor ℝ) 0
            (readPos w (fun _ => 0) sp.length pos κ) =
        wt.get (o :: i :: κ) * (bnGain eps scale var).getD i 0 * getOr (x i) 0 (readPos w (fun _ => 0) sp.length pos κ) +
        wt.get (o :: i :: κ) * fused.getD i 0 := by
      intro κ hκ i hi
      have hin := valid_inside (x i) w pos κ (by rw [hx i]; exact hs)
        (by rw [hx i]; exact (kernelIdx_spec _ _ κ hκ).2) (by rw [hx i]; exact hpos)
      rw [hx i] at hin
      have e1 : getOr (x i) 0 (readPos w (fun _ => 0) sp.length pos κ) =
          (x i).get ((readPos w (fun _ => 0) sp.length pos κ).map Int.toNat) := by
        show (if inside (x i) _ then _ else _) = _
        rw [if_pos hin]
      have e2 : getOr (⟨(x i).shape, fun idx => batchNorm eps scale shift mean var i ((x i).get idx)⟩ : Tensor ℝ) 0
          (readPos w (fun _ => 0) sp.length pos κ) =
          batchNorm eps scale shift mean var i ((x i).get ((readPos w (fun _ => 0) sp.length pos κ).map Int.toNat)) := by
        show (if inside (x i) _ then _ else _) = _
        rw [if_pos hin]
      rw [e1, e2, hfv i hi, bnGain_getD _ _ _ _ (by omega) (by omega)]
      unfold batchNorm
      ring
    rw [sum_zipIdx_bn _ cin _ _ _ hread]
    have hsum : ((kernelIdx w.kernel sp.length).map (fun κ => ((List.range cin).map
        (fun i => wt.get (o :: i :: κ) * fused.getD i 0)).sum)).sum = off.getD o 0 := by
      rw [sum_swap, hoff, getD_range_map _ _ _ _ ho, hfl]
      congr 1
      apply List.map_congr_left
      intro i _
      rw [List.sum_map_mul_right]
      congr 1
      unfold sumKernel
      rw [hw]
      congr 2
      simp only [List.length_cons, Nat.add_sub_cancel, hks]
      apply kernelIdx_congr
      intro a ha
      rw [List.getD_cons_succ, List.getD_cons_succ, hk a ha]
    rw [hsum]
    ring

/-- The hypotheses are met by a 2-output, 3-input, 3×3 convolution with bias on an 8×8 input. -/
example : ∃ wt : Tensor ℝ, wt.shape = 2 :: 3 :: [3, 3] ∧ ([3, 3] : List Nat).length = ([8, 8] : List Nat).length ∧
    validOut 8 3 1 1 = 6 := ⟨⟨[2, 3, 3, 3], fun _ => 1⟩, rfl, rfl, by decide⟩

/-- C13 is false with padding.  A 1-tap convolution with padding 1 and weight 1, after a batch norm that
adds 1: at the border the original output is the padding value 0, the folded output is 1.  Nothing in the
fusion predicate looks at the padding. -/
theorem C13_padding_false : ∃ (w : Window) (pad : Nat → Nat) (wt : Tensor ℝ) (eps : ℝ) (scale var mean shift b' : List ℝ)
    (wt' : Tensor ℝ) (x : Nat → Tensor ℝ) (pos : List Nat),
    revBnSkip wt.shape 1 = false ∧ fuseRevBnWeight eps scale var wt = some wt' ∧
    fuseRevBnBias eps scale var mean shift none wt = some b' ∧
    convOut 1 w pad 1 (fun _ => 0) wt' (some b') x 0 pos ≠
      convOut 1 w pad 1 (fun _ => 0) wt none
        (fun c => ⟨(x c).shape, fun idx => batchNorm eps scale shift mean var c ((x c).get idx)⟩) 0 pos := by
  refine ⟨⟨fun _ => 1, fun _ => 1, fun _ => 1⟩, fun _ => 1, ⟨[1, 1, 1], fun _ => 1⟩, 0, [1], [1], [0], [1], [1],
    ⟨[1, 1, 1], fun idx => 1 * (bnGain 0 [1] [1]).getD (idx.getD 1 0) 0⟩,
    fun _ => ⟨[5], fun _ => 7⟩, [0], by decide, ?_, ?_, ?_⟩
  · simp [fuseRevBnWeight, bcMul, bnGain]
  · simp [fuseRevBnBias, sumKernel, kernelIdx]
  · simp [convOut, biasAt, kernelIdx, readPos, getOr]

/-- C13 is false for a single output channel with bias and several input channels: the folded bias has one
entry per *input* channel. -/
theorem C13_bias_length_false : ∃ (wt : Tensor ℝ) (scale var mean shift b b' : List ℝ),
    wt.shape = [1, 2, 1] ∧ revBnSkip wt.shape 1 = false ∧ b.length = 1 ∧ mean.length = 2 ∧
    fuseRevBnBias 0 scale var mean shift (some b) wt = some b' ∧ b'.length = 2 := by
  refine ⟨⟨[1, 2, 1], fun _ => 1⟩, [1, 1], [1, 1], [0, 0], [1, 1], [3], [5, 5], rfl, by decide, rfl, rfl, ?_, rfl⟩
  simp [fuseRevBnBias, sumKernel, kernelIdx, repeatBias, bcAdd, List.range_succ]
  norm_num

/-! ### C14 -/

/-- C14, gather behind a convolution: for every index vector accepted by the predicate (repetitions
allowed) the convolution with selected weights and biases produces channel `o` = original channel
`ix[o]`. -/
theorem C14_conv_gather {R : Type} [Semiring R] (n : Nat) (w : Window) (pad : Nat → Nat) (cin : Nat)
    (wt : Tensor R) (b : List R) (ix : List Nat) (hok : convGatherOk wt.shape ix = true) (hne : wt.shape ≠ [])
    (x : Nat → Tensor R) (pos : List Nat) :
    (convGatherWeight wt ix).shape = wt.shape ∧ (convGatherBias b ix).length = ix.length ∧
    ∀ o < ix.length, convNHWC n w pad cin (convGatherWeight wt ix) (convGatherBias b ix) x o pos =
      convNHWC n w pad cin wt b x (ix.getD o 0) pos := by
  refine ⟨?_, by simp [convGatherBias], ?_⟩
  · obtain ⟨d, s, hs⟩ := List.exists_cons_of_ne_nil hne
    simp [convGatherOk, hs] at hok
    simp [convGatherWeight, gather, hs, hok]
  · intro o ho
    unfold convNHWC convGatherWeight convGatherBias gather
    rw [getD_map_lt _ _ _ _ 0 ho]
    simp

example : convGatherOk [4, 3, 3, 2] [3, 0, 0, 1] = true := by decide

/-- The result of `np.argsort`: an ordering of the positions that sorts the keys. -/
def IsArgsort (ix order : List Nat) : Prop :=
  IsPerm ix.length order ∧ (order.map (fun k => ix.getD k 0)).Pairwise (· ≤ ·)

/-- C14, gather in front of a convolution, partial: correct when the gather permutes the channels.
Missing: selections that are not permutations (`C14_gather_conv_false`). -/
theorem C14_gather_conv_partial {R : Type} [Semiring R] (n : Nat) (w : Window) (pad : Nat → Nat) (cin : Nat)
    (ks : List Nat) (hks : ks.length = n) (cout : Nat) (wt : Tensor R) (hw : wt.shape = cout :: ks ++ [cin])
    (b : List R) (ix order : List Nat) (hok : gatherConvOk (n + 1) wt.shape ix = true)
    (hperm : IsPerm ix.length ix) (hord : IsArgsort ix order)
    (x : Nat → Tensor R) (o : Nat) (pos : List Nat) :
    (gatherConvWeight (n + 1) wt order).shape = wt.shape ∧
    convNHWC n w pad cin (gatherConvWeight (n + 1) wt order) b x o pos =
      convNHWC n w pad cin wt b (fun i => x (ix.getD i 0)) o pos := by
  have hcin : ix.length = cin := by
    have : wt.shape.getD (n + 1) 0 = cin := by rw [hw]; simp [List.getD, hks]
    simp only [gatherConvOk, this, beq_iff_eq] at hok
    exact hok.symm
  obtain ⟨ho1, ho2⟩ := hord
  have hol : order.length = cin := by rw [ho1.length, hcin]
  -- sorting a permutation gives the identity
  have hrange : order.map (fun k => ix.getD k 0) = List.range cin := by
    have hp : (order.map (fun k => ix.getD k 0)).Perm (List.range cin) := by
      have := IsPerm.comp hperm ho1
      rw [hcin] at this
      exact this
    exact List.Perm.eq_of_pairwise (fun a b _ _ h1 h2 => le_antisymm h1 h2) ho2
      (List.pairwise_lt_range.imp (fun h => le_of_lt h)) hp
  have hj : ∀ j < cin, ix.getD (order.getD j 0) 0 = j := by
    intro j hj
    have := congrArg (fun l => l.getD j 0) hrange
    rw [getD_map_lt _ _ _ _ 0 (by omega)] at this
    rw [this]
    simp [List.getD, hj]
  refine ⟨?_, ?_⟩
  · simp only [gatherConvWeight, gather, hw, hol]
    simp [← hks]
  · unfold convNHWC
    congr 1
    congr 1
    apply List.map_congr_left
    intro κ hκ
    have hκl : κ.length = n := (kernelIdx_spec _ _ κ hκ).1
    have e : ∀ i, (gatherConvWeight (n + 1) wt order).get (o :: κ ++ [i]) = wt.get (o :: κ ++ [order.getD i 0]) := by
      intro i
      simp only [gatherConvWeight, gather]
      congr 1
      rw [← hκl]
      simp [List.getD]
    simp only [e]
    have h1 : (List.range cin).map (fun i => wt.get (o :: κ ++ [order.getD i 0]) * getOr (x i) 0 (readPos w pad n pos κ)) =
        order.map (fun k => wt.get (o :: κ ++ [k]) * getOr (x (ix.getD k 0)) 0 (readPos w pad n pos κ)) := by
      apply List.ext_getElem (by simp [hol])
      intro j h1 h2
      have hj' : j < cin := by simpa using h1
      simp only [List.getElem_map, List.getElem_range]
      have : order[j]'(by omega) = order.getD j 0 := (getD_eq_getElem _ _ _ (by omega)).symm
      rw [this, hj j hj']
    rw [h1]
    apply List.Perm.sum_eq
    apply List.Perm.map
    have := ho1
    rw [hcin] at this
    exact this

example : IsPerm [2, 0, 1].length [2, 0, 1] ∧ IsArgsort [2, 0, 1] [1, 2, 0] := by
  refine ⟨?_, ?_, ?_⟩
  · unfold IsPerm; decide
  · unfold IsPerm; decide
  · decide

/-- C14 is false for a gather that repeats a channel: whatever ordering `argsort` returns, a 1×1
convolution with weights (1, 2) behind the gather `[1, 1]` gives a different result on the channels
(10, 100). -/
theorem C14_gather_conv_false : ∃ (wt : Tensor Int) (ix : List Nat) (x : Nat → Tensor Int),
    gatherConvOk 3 wt.shape ix = true ∧ (∀ k ∈ ix, k < 2) ∧
    ∀ order, IsArgsort ix order →
      convNHWC 2 ⟨fun _ => 1, fun _ => 1, fun _ => 1⟩ (fun _ => 0) 2 (gatherConvWeight 3 wt order) [0] x 0 [0, 0] ≠
      convNHWC 2 ⟨fun _ => 1, fun _ => 1, fun _ => 1⟩ (fun _ => 0) 2 wt [0] (fun i => x (ix.getD i 0)) 0 [0, 0] := by
  refine ⟨⟨[1, 1, 1, 2], fun idx => idx.getD 3 0 + 1⟩, [1, 1],
    fun c => ⟨[1, 1], fun _ => if c = 0 then 10 else 100⟩, by decide, by decide, ?_⟩
  rintro order ⟨h, _⟩
  have hcases : order = [0, 1] ∨ order = [1, 0] := by
    have hl : order.length = 2 := h.length
    match order, hl with
    | [a, b], _ =>
      have ha := (h.mem a).1 (by simp)
      have hb := (h.mem b).1 (by simp)
      have hn := h.nodup
      simp at ha hb hn
      have : (a = 0 ∧ b = 1) ∨ (a = 1 ∧ b = 0) := by omega
      rcases this with ⟨rfl, rfl⟩ | ⟨rfl, rfl⟩ <;> simp
  rcases hcases with rfl | rfl <;> decide

/-- C14 is also false when the gather drops channels: selecting channels `[0, 2]` of three yields weights for
two input channels, applied to an input with three. -/
theorem C14_gather_subset_false : ∃ (wt : Tensor Int) (ix : List Nat) (x : Nat → Tensor Int),
    gatherConvOk 3 wt.shape ix = true ∧ (∀ k ∈ ix, k < 3) ∧ ix.Nodup ∧ npArgsort ix = [0, 1] ∧
    convNHWC 2 ⟨fun _ => 1, fun _ => 1, fun _ => 1⟩ (fun _ => 0) 2 (gatherConvWeight 3 wt (npArgsort ix)) [0] x 0 [0, 0] ≠
    convNHWC 2 ⟨fun _ => 1, fun _ => 1, fun _ => 1⟩ (fun _ => 0) 2 wt [0] (fun i => x (ix.getD i 0)) 0 [0, 0] := by
  refine ⟨⟨[1, 1, 1, 2], fun _ => 1⟩, [0, 2], fun c => ⟨[1, 1], fun _ => c⟩, by decide, by decide, by decide, by decide, by decide⟩

end Verif.Props
