import Verif.Model.Pool
import Verif.Props.SamePad
import Mathlib.Tactic.IntervalCases

/-!
C45: conversion of max pooling, with and without ceil mode.
-/

namespace Verif.Props
open Verif.Model Verif.Spec Verif.Lemmas

/-- `y` is `x` with `b` cells of `v` in front and `a` behind, on the indices that exist. -/
def IsPad {α : Type} (v : α) (b a : Nat → Nat) (y x : Tensor α) : Prop :=
  y.shape = (List.range x.shape.length).map (fun i => b i + x.shape.getD i 0 + a i)
  ∧ ∀ idx, InBounds y.shape idx → y.get idx = getOr x v ((List.range x.shape.length).map (fun i => (idx.getD i 0 : Int) - b i))

private theorem inBounds_iff (shape idx : List Nat) : InBounds shape idx ↔ idx.length = shape.length ∧ ∀ i < shape.length, idx.getD i 0 < shape.getD i 0 := by
  unfold InBounds
  rw [List.forall₂_iff_get]
  constructor
  · rintro ⟨h1, h2⟩
    refine ⟨h1, fun i hi => ?_⟩
    have := h2 i (by omega) hi
    simpa [List.getD, hi, show i < idx.length by omega] using this
  · rintro ⟨h1, h2⟩
    refine ⟨h1, fun i hi hi' => ?_⟩
    have := h2 i hi'
    simpa [List.getD, hi, hi'] using this

private theorem inside_of {α : Type} (t : Tensor α) (idx : List Nat) (h : InBounds t.shape idx) :
    (List.range t.shape.length).map (fun i => (idx.getD i 0 : Int) - (0 : Nat)) = idx.map (fun n : Nat => (n : Int))
    ∧ inside t (idx.map (fun n : Nat => (n : Int))) = true := by
  obtain ⟨hl, hb⟩ := (inBounds_iff _ _).mp h
  constructor
  · apply List.ext_getElem
    · simp [hl]
    · intro i h1 h2
      have : i < idx.length := by simpa using h2
      simp [List.getD, this]
  · unfold inside
    rw [List.all_eq_true]
    intro i hi
    have hi : i < t.shape.length := by simpa using hi
    have := hb i hi
    have hid : i < idx.length := by omega
    simp only [List.getD, List.getElem?_map, hid, List.getElem?_eq_getElem, Option.map_some, Option.getD_some, decide_eq_true_eq] at this ⊢
    exact ⟨Int.natCast_nonneg _, by exact_mod_cast this⟩

theorem isPad_refl {α : Type} (v : α) (x : Tensor α) : IsPad v (fun _ => 0) (fun _ => 0) x x := by
  constructor
  · apply List.ext_getElem
    · simp
    · intro i h1 h2; simp [List.getD, h1]
  · intro idx h
    obtain ⟨h1, h2⟩ := inside_of x idx h
    simp only at h1 ⊢
    rw [h1, getOr_inside, if_pos h2, List.map_map]
    congr 1
    conv_lhs => rw [← List.map_id idx]
    apply List.map_congr_left; intro a _; simp

theorem isPad_congr {α : Type} (v : α) (b a b' a' : Nat → Nat) (y x : Tensor α) (hb : ∀ i < x.shape.length, b i = b' i)
    (ha : ∀ i < x.shape.length, a i = a' i) (h : IsPad v b a y x) : IsPad v b' a' y x := by
  constructor
  · rw [h.1]
    apply List.map_congr_left
    intro i hi
    rw [hb i (by simpa using hi), ha i (by simpa using hi)]
  · intro idx hi
    rw [h.2 idx hi]
    congr 1
    apply List.map_congr_left
    intro i hi
    rw [hb i (by simpa using hi)]

private theorem isPad_after {α : Type} (v : α) (b a c : Nat → Nat) (y x : Tensor α) (h : IsPad v b a y x) :
    IsPad v b (fun i => a i + c i) (padT v (fun _ => 0) c y) x := by
  have hl : y.shape.length = x.shape.length := by rw [h.1]; simp
  constructor
  · simp only [padT, hl]
    apply List.map_congr_left
    intro i hi
    rw [h.1, getD_range_map _ _ _ _ (by simpa using hi)]
    omega
  · intro idx hi
    have hb := (inBounds_iff _ _).mp hi
    have hidl : idx.length = y.shape.length := by rw [hb.1]; simp [padT]
    simp only [padT]
    by_cases hin : InBounds y.shape idx
    · obtain ⟨h1, h2⟩ := inside_of y idx hin
      rw [h1, getOr_inside, if_pos h2, List.map_map]
      have e : idx.map (Int.toNat ∘ fun n : Nat => (n : Int)) = idx := by
        conv_rhs => rw [← List.map_id idx]
        apply List.map_congr_left; intro a _; simp
      rw [e, h.2 idx hin]
    · rw [getOr_inside, getOr_inside]
      rw [inBounds_iff] at hin
      push Not at hin
      obtain ⟨i, hi1, hi2⟩ := hin hidl
      have n1 : ¬ inside y ((List.range y.shape.length).map (fun i => (idx.getD i 0 : Int) - (0 : Nat))) = true := by
        unfold inside
        rw [List.all_eq_true]
        intro hall
        have := hall i (by simpa using hi1)
        rw [getD_range_map _ _ _ _ hi1] at this
        simp only [decide_eq_true_eq] at this
        omega
      have n2 : ¬ inside x ((List.range x.shape.length).map (fun i => (idx.getD i 0 : Int) - b i)) = true := by
        unfold inside
        rw [List.all_eq_true]
        intro hall
        have hi3 : i < x.shape.length := by omega
        have := hall i (by simpa using hi3)
        rw [getD_range_map _ _ _ _ hi3] at this
        simp only [decide_eq_true_eq] at this
        rw [h.1, getD_range_map _ _ _ _ hi3] at hi2
        omega
      rw [if_neg n1, if_neg n2]

theorem mem_kernelIdx (k : Nat → Nat) (n : Nat) : ∀ κ ∈ kernelIdx k n, κ.length = n ∧ ∀ a < n, κ.getD a 0 < k a := by
  induction n with
  | zero => intro κ h; simp [kernelIdx] at h; subst h; simp
  | succ n ih =>
    intro κ h
    simp only [kernelIdx, List.mem_flatMap, List.mem_map, List.mem_range] at h
    obtain ⟨p, hp, i, hi, rfl⟩ := h
    obtain ⟨h1, h2⟩ := ih p hp
    refine ⟨by simp [h1], fun a ha => ?_⟩
    by_cases haa : a < n
    · have := h2 a haa
      simpa [List.getD, List.getElem?_append_left (show a < p.length by omega)] using this
    · have : a = n := by omega
      subst this
      simpa [List.getD, List.getElem?_append_right (show p.length ≤ a by omega), h1] using hi

private theorem pool_isPad {R : Type} [LinearOrder R] (ceil : Bool) (lowest : R) (w : Window) (b a : Nat → Nat) (y x : Tensor R)
    (hd : ∀ i < x.shape.length, 0 < w.stride i) (h : IsPad lowest b a y x)
    (hout : ∀ i < x.shape.length, validOut (b i + x.shape.getD i 0 + a i) (w.kernel i) (w.stride i) (w.dilation i)
      = torchPoolOut ceil (x.shape.getD i 0) (w.kernel i) (w.stride i) (b i)) :
    Same (poolValid lowest w y) (maxPoolTorch ceil lowest w b x) := by
  have hl : y.shape.length = x.shape.length := by rw [h.1]; simp
  constructor
  · simp only [poolValid, maxPoolTorch, hl]
    apply List.map_congr_left
    intro i hi
    have hi : i < x.shape.length := by simpa using hi
    rw [← hout i hi, h.1, getD_range_map _ _ _ _ hi]
  · intro o ho
    have hob := (inBounds_iff _ _).mp ho
    simp only [poolValid, maxPoolTorch, hl] at hob ⊢
    rw [List.map_congr_left (g := fun κ => if inside x (readPos w b x.shape.length o κ) then
      x.get ((readPos w b x.shape.length o κ).map Int.toNat) else lowest)]
    · rw [show (List.map (fun κ => if inside x (readPos w b x.shape.length o κ) then x.get ((readPos w b x.shape.length o κ).map Int.toNat) else lowest)
          (kernelIdx w.kernel x.shape.length))
        = ((kernelIdx w.kernel x.shape.length).map (fun κ => readPos w b x.shape.length o κ)).map
          (fun pos => if inside x pos then x.get (pos.map Int.toNat) else lowest) by rw [List.map_map]; rfl]
      exact foldl_max_filter lowest _ _ _ lowest (le_refl _)
    · intro κ hκ
      obtain ⟨hk1, hk2⟩ := mem_kernelIdx _ _ _ hκ
      have e : (readPos w (fun _ => 0) x.shape.length o κ).map Int.toNat
          = (List.range x.shape.length).map (fun i => o.getD i 0 * w.stride i + κ.getD i 0 * w.dilation i) := by
        unfold readPos
        rw [List.map_map]
        apply List.map_congr_left
        intro i _
        simp only [Function.comp, Nat.cast_zero, Int.sub_zero, Int.toNat_natCast]
      rw [e, h.2, getOr_inside]
      · have e2 : ((List.range x.shape.length).map (fun i => ((((List.range x.shape.length).map (fun i => o.getD i 0 * w.stride i + κ.getD i 0 * w.dilation i)).getD i 0 : Nat) : Int) - b i))
            = readPos w b x.shape.length o κ := by
          unfold readPos
          apply List.map_congr_left
          intro i hi
          rw [getD_range_map _ _ _ _ (by simpa using hi)]
        rw [e2]
      · rw [inBounds_iff]
        refine ⟨by simp [hl], fun i hi => ?_⟩
        rw [hl] at hi
        rw [getD_range_map _ _ _ _ hi]
        have hoi := hob.2 i (by simpa using hi)
        rw [getD_range_map _ _ _ _ hi] at hoi
        unfold validOut at hoi
        have h1 := Nat.div_mul_le_self (y.shape.getD i 0 + w.stride i - ((w.kernel i - 1) * w.dilation i + 1)) (w.stride i)
        have h2 : (o.getD i 0 + 1) * w.stride i ≤ (y.shape.getD i 0 + w.stride i - ((w.kernel i - 1) * w.dilation i + 1)) / w.stride i * w.stride i :=
          Nat.mul_le_mul_right _ hoi
        have h3 : κ.getD i 0 * w.dilation i ≤ (w.kernel i - 1) * w.dilation i := Nat.mul_le_mul_right _ (by have := hk2 i hi; omega)
        rw [Nat.add_mul, Nat.one_mul] at h2
        have hs := hd i hi
        omega

/-- The number of windows: if `T + extra` lies in the stride that starts at `q * s`, there are `q + 1`. -/
theorem validOut_eq (L k s q : Nat) (hk : 1 ≤ k) (h1 : q * s + k ≤ L) (h2 : L < q * s + s + k) (hs : 0 < s) : validOut L k s 1 = q + 1 := by
  unfold validOut
  rw [Nat.mul_one, Nat.sub_add_cancel hk, Nat.div_eq_of_lt_le]
  · rw [Nat.add_mul]; omega
  · rw [Nat.add_mul, Nat.add_mul]; omega

theorem validOut_floor (i k s p : Nat) (hk : 1 ≤ k) (hs : 0 < s) (hi : k ≤ i + 2 * p) :
    validOut (p + i + p) k s 1 = torchPoolOut false i k s p := by
  have h := Nat.div_add_mod (i + 2 * p - k) s
  have hm := Nat.mod_lt (i + 2 * p - k) hs
  rw [validOut_eq _ k s ((i + 2 * p - k) / s) hk (by rw [Nat.mul_comm]; omega) (by rw [Nat.mul_comm]; omega) hs]
  simp [torchPoolOut]

private theorem ceil_div (T s : Nat) (hs : 0 < s) : T ≤ (T + (s - 1)) / s * s ∧ (T + (s - 1)) / s * s < T + s := by
  have h := Nat.div_add_mod (T + (s - 1)) s
  have hm := Nat.mod_lt (T + (s - 1)) hs
  rw [Nat.mul_comm] at h
  omega

/-- PyTorch's ceil-mode count `q + 1`, characterised. -/
private theorem torch_ceil (i k s p : Nat) (hk : 1 ≤ k) (hs : 0 < s) (hi : k ≤ i + 2 * p) (hp : 2 * p ≤ k) (hi0 : 1 ≤ i) :
    ∃ q0 : Nat, i + 2 * p - k ≤ q0 * s ∧ q0 * s < i + 2 * p - k + s
      ∧ torchPoolOut true i k s p = (if i + p ≤ q0 * s then q0 else q0 + 1) ∧ (i + p ≤ q0 * s → 1 ≤ q0) := by
  refine ⟨(i + 2 * p - k + (s - 1)) / s, ?_, ?_, ?_, ?_⟩
  · exact (ceil_div _ s hs).1
  · exact (ceil_div _ s hs).2
  · simp only [torchPoolOut, Nat.add_sub_cancel, if_true, Bool.true_and, decide_eq_true_eq]
  · intro hle
    rcases Nat.eq_zero_or_pos ((i + 2 * p - k + (s - 1)) / s) with h0 | h0
    · rw [h0] at hle; omega
    · exact h0

private theorem int_ceil (T s q0 : Nat) (hs : 0 < s) (h1 : T ≤ q0 * s) (h2 : q0 * s < T + s) : -((-(T : Int)) / s) = q0 := by
  have hs' : (0 : Int) < s := by exact_mod_cast hs
  have h1' : (T : Int) ≤ q0 * s := by exact_mod_cast h1
  have h2' : (q0 : Int) * s < T + s := by exact_mod_cast h2
  have : (-(T : Int)) / s = -(q0 : Int) := by
    apply le_antisymm
    · rw [← Int.lt_add_one_iff]
      apply Int.ediv_lt_of_lt_mul hs'
      linarith
    · apply Int.le_ediv_of_mul_le hs'
      linarith
  rw [this, Int.neg_neg]

/-- The padding is right, and can be written, when the padding is smaller than the stride by two. -/
private theorem ceil_axis (i k s p : Nat) (hk : 1 ≤ k) (hs : 0 < s) (hi : k ≤ i + 2 * p) (hp : 2 * p ≤ k) (hi0 : 1 ≤ i)
    (h1 : s = 1 → p = 0) (h2 : 2 ≤ s → p + 1 < s) (h3 : s ≤ k + 1) :
    0 ≤ ceilPadAxis i k s p + p ∧ validOut (p + i + (p + (ceilPadAxis i k s p + p).toNat)) k s 1 = torchPoolOut true i k s p := by
  obtain ⟨q0, ha, hb, hc, hd⟩ := torch_ceil i k s p hk hs hi hp hi0
  have hT : ((i : Int) + 2 * p - k) = ((i + 2 * p - k : Nat) : Int) := by omega
  -- the code's count
  obtain ⟨q, hq1, hq2, hq3, hq4⟩ : ∃ q : Nat, torchPoolOut true i k s p = q + 1 ∧ q * s < i + p ∧ q * s + s ≥ i + 2 * p - k ∧
      (ceilPadAxis i k s p = (let pc : Int := if s = 1 then 0 else k - (i + 2 * p - ((q : Int) * s + 1))
        if pc + 2 * p ≥ k then (if pc < k - 1 then pc else k - 1) else pc)
       ∧ ((i + 2 * p - k ≤ q * s ∧ q * s < i + 2 * p - k + s) ∨ (q * s < i + 2 * p - k ∧ i + p ≤ q * s + s))) := by
    have hce : -((-((i : Int) + 2 * p - k)) / (s : Int)) = q0 := by rw [hT]; exact int_ceil _ s q0 hs ha hb
    by_cases hdec : i + p ≤ q0 * s
    · have h0 := hd hdec
      obtain ⟨q, rfl⟩ : ∃ q, q0 = q + 1 := ⟨q0 - 1, by omega⟩
      rw [if_pos hdec] at hc
      rw [Nat.add_mul, Nat.one_mul] at ha hb hdec
      refine ⟨q, hc, by omega, by omega, ?_, Or.inr ⟨by omega, hdec⟩⟩
      have hdec' : ((q + 1 : Nat) : Int) * s ≥ i + p := by push_cast; rw [Int.add_mul, Int.one_mul]; exact_mod_cast hdec
      simp only [ceilPadAxis, hce, Int.add_sub_cancel]
      rw [if_pos hdec']
      push_cast
      simp only [Int.add_sub_cancel]
    · rw [if_neg hdec] at hc
      refine ⟨q0, hc, by omega, by omega, ?_, Or.inl ⟨ha, hb⟩⟩
      have hdec' : ¬ ((q0 : Int) * s ≥ i + p) := by intro h; apply hdec; exact_mod_cast h
      simp only [ceilPadAxis, hce, Int.add_sub_cancel]
      rw [if_neg hdec']
      simp only [Int.add_sub_cancel]
  rw [hq1]
  have hqs : ((q * s : Nat) : Int) = (q : Int) * s := by push_cast; rfl
  rw [← hqs] at hq4
  obtain ⟨hcp, hcase⟩ := hq4
  by_cases hs1 : s = 1
  · have hp0 := h1 hs1
    subst hs1 hp0
    have hz : ceilPadAxis i k 1 0 = 0 := by rw [hcp]; simp; omega
    rw [hz]
    refine ⟨by norm_num, validOut_eq _ k 1 q hk ?_ ?_ hs⟩ <;> simp <;> omega
  · have hps := h2 (by omega)
    simp only [hs1, if_false] at hcp
    have hpc : 0 ≤ ceilPadAxis i k s p + p ∧ (q * s : Nat) ≤ ((i + 2 * p - k : Nat) : Int) + (ceilPadAxis i k s p + p)
        ∧ ((i + 2 * p - k : Nat) : Int) + (ceilPadAxis i k s p + p) < (q * s : Nat) + s := by
      rw [hcp]
      split <;> [split; skip] <;> omega
    obtain ⟨g1, g2, g3⟩ := hpc
    refine ⟨g1, validOut_eq _ k s q hk ?_ ?_ hs⟩ <;> omega

theorem exact_axis (i k s p : Nat) (hk : 1 ≤ k) (hs : 0 < s) (hi : k ≤ i + 2 * p) (hp : 2 * p ≤ k) (hi0 : 1 ≤ i)
    (he : ((i : Int) + 2 * p - k) % s = 0) : validOut (p + i + p) k s 1 = torchPoolOut true i k s p := by
  obtain ⟨q0, ha, hb, hc, _⟩ := torch_ceil i k s p hk hs hi hp hi0
  have hT : ((i : Int) + 2 * p - k) = ((i + 2 * p - k : Nat) : Int) := by omega
  rw [hT] at he
  have he' : (i + 2 * p - k) % s = 0 := by exact_mod_cast he
  have hdm := Nat.div_add_mod (i + 2 * p - k) s
  rw [he', Nat.add_zero, Nat.mul_comm] at hdm
  have hq : q0 = (i + 2 * p - k) / s := by
    rw [← hdm] at ha hb
    rw [← Nat.succ_mul] at hb
    have h1 := Nat.le_of_mul_le_mul_right ha hs
    have h2 := Nat.lt_of_mul_lt_mul_right hb
    omega
  rw [← hq] at hdm
  rw [hc, if_neg (by omega)]
  exact validOut_eq _ k s q0 hk (by omega) (by omega) hs

/-- **C45** Max pooling is converted to operators that compute PyTorch's result, with the same size and values.  The parameters are those PyTorch accepts
(`2 * pad ≤ kernel`, non-empty windows).  Partial: with ceil mode, the padding must be at most the stride minus two (zero for stride one) and the stride at
most the kernel plus one; the shortcut to SAME needs odd kernels.  Outside these the statement is false, see below. -/
theorem C45_max_pool_partial {R : Type} [LinearOrder R] (lowest : R) (w : Window) (pad : Nat → Nat) (ceil : Bool) (x : Tensor R) (hrank : x.shape.length = 2)
    (hdil : ∀ a < 2, w.dilation a = 1)
    (hw : ∀ a < 2, 1 ≤ w.kernel a ∧ 1 ≤ w.stride a ∧ 2 * pad a ≤ w.kernel a ∧ 1 ≤ x.shape.getD a 0 ∧ w.kernel a ≤ x.shape.getD a 0 + 2 * pad a)
    (hodd : ceil = false → (∀ a < 2, w.stride a = 1 ∧ pad a = w.kernel a / 2) → ∀ a < 2, w.kernel a % 2 = 1)
    (hceil : ceil = true → ∀ a < 2, (w.stride a = 1 → pad a = 0) ∧ (2 ≤ w.stride a → pad a + 1 < w.stride a) ∧ w.stride a ≤ w.kernel a + 1) :
    ∃ y, maxPoolConvert lowest w pad ceil x = some y ∧ Same y (maxPoolTorch ceil lowest w pad x) := by
  have hst : ∀ i < x.shape.length, 0 < w.stride i := by intro i hi; rw [hrank] at hi; exact (hw i hi).2.1
  by_cases hsame : poolUsesSame w pad ceil = true
  · refine ⟨_, by simp only [maxPoolConvert, hsame, if_true]; rfl, ?_⟩
    simp only [poolUsesSame, Bool.and_eq_true, beq_iff_eq, Bool.not_eq_true'] at hsame
    obtain ⟨⟨⟨⟨s0, s1⟩, p0⟩, p1⟩, hc⟩ := hsame
    subst hc
    have hall : ∀ a < 2, w.stride a = 1 ∧ pad a = w.kernel a / 2 := by
      intro a ha
      interval_cases a
      · exact ⟨s0, p0⟩
      · exact ⟨s1, p1⟩
    have hk := hodd rfl hall
    have hbefore : ∀ a < 2, samePadBefore (x.shape.getD a 0) (w.kernel a) (w.stride a) (w.dilation a) = pad a ∧
        sameOut (x.shape.getD a 0) (w.stride a) = torchPoolOut false (x.shape.getD a 0) (w.kernel a) (w.stride a) (pad a) := by
      intro a ha
      obtain ⟨h1, h2⟩ := hall a ha
      obtain ⟨g1, g2, g3, g4, g5⟩ := hw a ha
      have hd := hk a ha
      rw [h1, hdil a ha]
      simp only [samePadBefore, samePadTotal, sameOut, torchPoolOut, Nat.div_one, Nat.mul_one, Bool.false_and, Bool.false_eq_true, if_false]
      omega
    constructor
    · simp only [poolSame, maxPoolTorch, hrank]
      apply List.map_congr_left
      intro a ha
      exact (hbefore a (by simpa using ha)).2
    · intro o _
      simp only [poolSame, maxPoolTorch, hrank]
      congr 3
      apply List.map_congr_left
      intro κ _
      unfold readPos
      apply List.map_congr_left
      intro a ha
      simp only [(hbefore a (by simpa using ha)).1]
  · have hx1 : IsPad lowest pad pad (if pad 0 + pad 1 > 0 then padT lowest pad pad x else x) x := by
      by_cases hp : pad 0 + pad 1 > 0
      · rw [if_pos hp]; exact ⟨rfl, fun _ _ => rfl⟩
      · rw [if_neg hp]
        refine isPad_congr _ (fun _ => 0) (fun _ => 0) _ _ x x ?_ ?_ (isPad_refl lowest x) <;>
          · intro i hi
            rw [hrank] at hi
            interval_cases i <;> omega
    by_cases hfill : (ceil && !poolExact x.shape w pad) = true
    · simp only [Bool.and_eq_true, Bool.not_eq_true'] at hfill
      obtain ⟨hc, hex⟩ := hfill
      subst hc
      have hax : ∀ a < 2, 0 ≤ ceilPads x.shape w pad a ∧ validOut (pad a + x.shape.getD a 0 + (pad a + (ceilPads x.shape w pad a).toNat)) (w.kernel a) (w.stride a) (w.dilation a)
          = torchPoolOut true (x.shape.getD a 0) (w.kernel a) (w.stride a) (pad a) := by
        intro a ha
        obtain ⟨g1, g2, g3, g4, g5⟩ := hw a ha
        obtain ⟨c1, c2, c3⟩ := hceil rfl a ha
        rw [hdil a ha]
        exact ceil_axis _ _ _ _ g1 g2 g5 g3 g4 c1 c2 c3
      have hall : (List.range x.shape.length).all (fun a => decide (0 ≤ ceilPads x.shape w pad a)) = true := by
        rw [List.all_eq_true, hrank]
        intro a ha
        exact decide_eq_true (hax a (by simpa using ha)).1
      refine ⟨poolValid lowest w (padT lowest (fun _ => 0) (fun a => (ceilPads x.shape w pad a).toNat) (if pad 0 + pad 1 > 0 then padT lowest pad pad x else x)), ?_, ?_⟩
      · simp only [maxPoolConvert, hsame, Bool.false_eq_true, if_false, handlePadding, hex, Bool.not_false, Bool.and_true, if_true, hall, Option.map_some]
      · refine pool_isPad true lowest w pad _ _ x hst (isPad_after lowest pad pad (fun a => (ceilPads x.shape w pad a).toNat) _ x hx1) ?_
        intro i hi
        rw [hrank] at hi
        exact (hax i hi).2
    · refine ⟨poolValid lowest w (if pad 0 + pad 1 > 0 then padT lowest pad pad x else x), ?_, ?_⟩
      · simp only [maxPoolConvert, hsame, Bool.false_eq_true, if_false, handlePadding, hfill, Option.map_some]
      · refine pool_isPad ceil lowest w pad pad _ x hst hx1 ?_
        intro i hi
        rw [hrank] at hi
        obtain ⟨g1, g2, g3, g4, g5⟩ := hw i hi
        rw [hdil i hi]
        cases ceil
        · exact validOut_floor _ _ _ _ g1 g2 g5
        · simp only [Bool.true_and, Bool.not_eq_true', Bool.not_eq_false] at hfill
          unfold poolExact at hfill
          rw [List.all_eq_true] at hfill
          have := hfill i (by simpa [hrank] using hi)
          exact exact_axis _ _ _ _ g1 g2 g5 g3 g4 (by simpa using this)

/-- SqueezeNet's pooling (kernel 3, stride 2, no padding, ceil mode) on a map of 6 x 7 meets the hypotheses, and ceil mode matters for it. -/
example : let w : Window := ⟨fun _ => 3, fun _ => 2, fun _ => 1⟩
    (∀ a < 2, 1 ≤ w.kernel a ∧ 1 ≤ w.stride a ∧ 2 * 0 ≤ w.kernel a ∧ 1 ≤ [6, 7].getD a 0 ∧ w.kernel a ≤ [6, 7].getD a 0 + 2 * 0)
    ∧ torchPoolOut true 6 3 2 0 = 3 ∧ torchPoolOut false 6 3 2 0 = 2 := by
  simp only
  refine ⟨?_, by decide, by decide⟩
  decide

/-- With padding one and stride two (ResNet's pooling) ceil mode gives one row too many: 58 instead of PyTorch's 57 for an input of 112. -/
theorem C45_ceil_padding_false : ∃ (w : Window) (x : Tensor Int) (y : Tensor Int), maxPoolConvert 0 w (fun _ => 1) true x = some y
    ∧ y.shape = [58, 58] ∧ (maxPoolTorch true 0 w (fun _ => 1) x).shape = [57, 57] :=
  ⟨⟨fun _ => 3, fun _ => 2, fun _ => 1⟩, ⟨[112, 112], fun _ => 0⟩, _, rfl, by decide, by decide⟩

/-- An even kernel takes the SAME shortcut and loses a row: kernel 2, stride 1, padding 1 on 4 x 4 gives 4 instead of 5. -/
theorem C45_even_kernel_false : ∃ (w : Window) (x : Tensor Int) (y : Tensor Int), maxPoolConvert 0 w (fun _ => 1) false x = some y
    ∧ y.shape = [4, 4] ∧ (maxPoolTorch false 0 w (fun _ => 1) x).shape = [5, 5] :=
  ⟨⟨fun _ => 2, fun _ => 1, fun _ => 1⟩, ⟨[4, 4], fun _ => 0⟩, _, rfl, by decide, by decide⟩

/-- A stride larger than the kernel by two or more can ask for a negative padding. -/
theorem C45_negative_padding_false : ∃ (w : Window) (x : Tensor Int), maxPoolConvert 0 w (fun _ => 0) true x = none
    ∧ (maxPoolTorch true 0 w (fun _ => 0) x).shape = [1, 1] :=
  ⟨⟨fun _ => 1, fun _ => 4, fun _ => 1⟩, ⟨[3, 3], fun _ => 0⟩, by decide, by decide⟩

/-- For 16-bit models the padding value -128 is not the least value: a padded pooling over values below it returns the padding. -/
theorem C45_int16_padding_false : ∃ (w : Window) (x y : Tensor Int), maxPoolConvert (minimumConstant .int16) w (fun _ => 1) false x = some y
    ∧ y.get [0, 0] = -128 ∧ (maxPoolTorch false (-32768) w (fun _ => 1) x).get [0, 0] = -1000 :=
  ⟨⟨fun _ => 3, fun _ => 2, fun _ => 1⟩, ⟨[4, 4], fun _ => -1000⟩, _, rfl, by decide, by decide⟩

end Verif.Props
