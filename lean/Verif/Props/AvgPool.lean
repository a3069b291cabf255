import Verif.Model.AvgPool
import Verif.Props.Pool
import Mathlib.Tactic.FieldSimp

/-! C57: average and adaptive pooling. -/

namespace Verif.Props
open Verif.Model Verif.Spec

theorem kernelIdx_mem_iff (k : Nat → Nat) (n : Nat) (κ : List Nat) : κ ∈ kernelIdx k n ↔ κ.length = n ∧ ∀ a < n, κ.getD a 0 < k a := by
  refine ⟨mem_kernelIdx k n κ, ?_⟩
  induction n generalizing κ with
  | zero => rintro ⟨h, _⟩; simp [kernelIdx, List.length_eq_zero_iff.mp h]
  | succ n ih =>
    rintro ⟨hl, hb⟩
    simp only [kernelIdx, List.mem_flatMap, List.mem_map, List.mem_range]
    have hne : κ ≠ [] := by intro h; simp [h] at hl
    refine ⟨κ.dropLast, ih _ ⟨by simp [hl], fun a ha => ?_⟩, κ.getLast hne, ?_, List.dropLast_append_getLast hne⟩
    · have := hb a (by omega)
      rw [Lemmas.getD_eq_getElem _ _ _ (by omega)] at this
      rw [Lemmas.getD_eq_getElem _ _ _ (by simp [hl]; exact ha)]
      simpa using this
    · have := hb n (by omega)
      rw [Lemmas.getD_eq_getElem _ _ _ (by omega)] at this
      rw [List.getLast_eq_getElem]
      simpa [hl] using this

theorem kernelIdx_nodup (k : Nat → Nat) (n : Nat) : (kernelIdx k n).Nodup := by
  induction n with
  | zero => simp [kernelIdx]
  | succ n ih =>
    simp only [kernelIdx]
    rw [List.nodup_flatMap]
    refine ⟨fun p _ => ?_, ?_⟩
    · exact List.Nodup.map (fun i j h => by simpa using h) List.nodup_range
    · refine List.Pairwise.imp_of_mem ?_ ih
      intro p q hp hq hne
      have h1 := (mem_kernelIdx k n p hp).1
      have h2 := (mem_kernelIdx k n q hq).1
      simp only [Function.onFun, List.disjoint_left, List.mem_map]
      rintro _ ⟨i, _, rfl⟩ ⟨j, _, h⟩
      exact hne (List.append_inj_left h (by omega)).symm

/-- The elements a VALID window of a padded tensor reads. -/
theorem window_isPad {R : Type} (v : R) (w : Window) (b a : Nat → Nat) (y x : Tensor R) (hd : ∀ i < x.shape.length, 0 < w.stride i) (h : IsPad v b a y x) (o : List Nat)
    (ho : ∀ i < x.shape.length, o.getD i 0 < validOut (b i + x.shape.getD i 0 + a i) (w.kernel i) (w.stride i) (w.dilation i)) :
    (kernelIdx w.kernel y.shape.length).map (fun κ => y.get ((readPos w (fun _ => 0) y.shape.length o κ).map Int.toNat))
      = (kernelIdx w.kernel x.shape.length).map (fun κ => if inside x (readPos w b x.shape.length o κ) then x.get ((readPos w b x.shape.length o κ).map Int.toNat) else v)
    ∧ ∀ κ ∈ kernelIdx w.kernel x.shape.length, ∀ i < x.shape.length,
        o.getD i 0 * w.stride i + κ.getD i 0 * w.dilation i < b i + x.shape.getD i 0 + a i := by
  have hl : y.shape.length = x.shape.length := by rw [h.1]; simp
  have hin : ∀ κ ∈ kernelIdx w.kernel x.shape.length, ∀ i < x.shape.length,
        o.getD i 0 * w.stride i + κ.getD i 0 * w.dilation i < b i + x.shape.getD i 0 + a i := by
    intro κ hκ i hi
    obtain ⟨hk1, hk2⟩ := mem_kernelIdx _ _ _ hκ
    have hoi := ho i hi
    unfold validOut at hoi
    set L := b i + x.shape.getD i 0 + a i
    have h1 := Nat.div_mul_le_self (L + w.stride i - ((w.kernel i - 1) * w.dilation i + 1)) (w.stride i)
    have h2 : (o.getD i 0 + 1) * w.stride i ≤ (L + w.stride i - ((w.kernel i - 1) * w.dilation i + 1)) / w.stride i * w.stride i :=
      Nat.mul_le_mul_right _ hoi
    have h3 : κ.getD i 0 * w.dilation i ≤ (w.kernel i - 1) * w.dilation i := Nat.mul_le_mul_right _ (by have := hk2 i hi; omega)
    rw [Nat.add_mul, Nat.one_mul] at h2
    have hs := hd i hi
    omega
  refine ⟨?_, hin⟩
  rw [hl]
  apply List.map_congr_left
  intro κ hκ
  have e : (readPos w (fun _ => 0) x.shape.length o κ).map Int.toNat
      = (List.range x.shape.length).map (fun i => o.getD i 0 * w.stride i + κ.getD i 0 * w.dilation i) := by
    unfold readPos
    rw [List.map_map]
    apply List.map_congr_left
    intro i _
    simp only [Function.comp, Nat.cast_zero, Int.sub_zero, Int.toNat_natCast]
  rw [e, h.2, getOr_inside]
  · have e2 : ((List.range x.shape.length).map (fun i => ((((List.range x.shape.length).map (fun i => o.getD i 0 * w.stride i + κ.getD i 0 * w.dilation i)).getD i 0 : Nat) : Int) - b i))
        = readPos w b x.shape.length o κ := by
      unfold readPos
      apply List.map_congr_left
      intro i hi
      rw [Lemmas.getD_range_map _ _ _ _ (by simpa using hi)]
    rw [e2]
  · rw [Lemmas.inBounds_iff]
    refine ⟨by simp [hl], fun i hi => ?_⟩
    rw [hl] at hi
    rw [Lemmas.getD_range_map _ _ _ _ hi, h.1, Lemmas.getD_range_map _ _ _ _ hi]
    exact hin κ hκ i hi

theorem sum_filter_ite {β : Type} (l : List β) (p : β → Bool) (f : β → ℚ) : (l.map (fun b => if p b then f b else 0)).sum = ((l.filter p).map f).sum := by
  induction l with
  | nil => rfl
  | cons b l ih => by_cases h : p b <;> simp [h, ih]

/-- A pooling PyTorch accepts: kernels and strides at least 1, padding at most half the kernel, and the input at least as large as the window. -/
structure PoolOk (w : Window) (pad : Nat → Nat) (shape : List Nat) : Prop where
  rank : shape.length = 2
  dil : ∀ a < 2, w.dilation a = 1
  kernel : ∀ a < 2, 1 ≤ w.kernel a
  stride : ∀ a < 2, 1 ≤ w.stride a
  half : ∀ a < 2, 2 * pad a ≤ w.kernel a
  size : ∀ a < 2, 1 ≤ shape.getD a 0
  fits : ∀ a < 2, w.kernel a ≤ shape.getD a 0 + 2 * pad a

theorem isPad_pair {R : Type} (v : R) (pad : Nat → Nat) (x : Tensor R) (hr : x.shape.length = 2) :
    IsPad v pad pad (if pad 0 + pad 1 > 0 then padT v pad pad x else x) x := by
  by_cases hp : pad 0 + pad 1 > 0
  · rw [if_pos hp]; exact ⟨rfl, fun _ _ => rfl⟩
  · rw [if_neg hp]
    refine isPad_congr _ (fun _ => 0) (fun _ => 0) _ _ x x ?_ ?_ (isPad_refl v x) <;>
      · intro i hi
        rw [hr] at hi
        interval_cases i <;> omega

/-- Number of output positions per axis. -/
theorem pool_out (ceil : Bool) (w : Window) (pad : Nat → Nat) (shape : List Nat) (hok : PoolOk w pad shape) (hex : ceil = true → poolExact shape w pad = true) :
    ∀ i < 2, validOut (pad i + shape.getD i 0 + pad i) (w.kernel i) (w.stride i) (w.dilation i) = torchPoolOut ceil (shape.getD i 0) (w.kernel i) (w.stride i) (pad i) := by
  intro i hi
  rw [hok.dil i hi]
  cases ceil
  · exact validOut_floor _ _ _ _ (hok.kernel i hi) (hok.stride i hi) (hok.fits i hi)
  · have := hex rfl
    unfold poolExact at this
    rw [List.all_eq_true] at this
    have := this i (by simpa [hok.rank] using hi)
    exact exact_axis _ _ _ _ (hok.kernel i hi) (hok.stride i hi) (hok.fits i hi) (hok.half i hi) (hok.size i hi) (by simpa using this)

theorem readPos_getD (w : Window) (b : Nat → Nat) (n : Nat) (o κ : List Nat) (i : Nat) (hi : i < n) :
    (readPos w b n o κ).getD i 0 = (o.getD i 0 * w.stride i + κ.getD i 0 * w.dilation i : Nat) - (b i : Int) := by
  unfold readPos; rw [Lemmas.getD_range_map _ _ _ _ hi]

/-- Every window position lies in the padded input. -/
theorem all_padded (w : Window) (pad : Nat → Nat) (x : Tensor ℚ) (o : List Nat)
    (hin : ∀ κ ∈ kernelIdx w.kernel x.shape.length, ∀ i < x.shape.length, o.getD i 0 * w.stride i + κ.getD i 0 * w.dilation i < pad i + x.shape.getD i 0 + pad i) :
    ((kernelIdx w.kernel x.shape.length).map (fun κ => readPos w pad x.shape.length o κ)).filter (fun p => insidePadded x pad p)
      = (kernelIdx w.kernel x.shape.length).map (fun κ => readPos w pad x.shape.length o κ) := by
  rw [List.filter_eq_self]
  intro p hp
  obtain ⟨κ, hκ, rfl⟩ := List.mem_map.mp hp
  unfold insidePadded
  rw [List.all_eq_true]
  intro i hi
  have hi : i < x.shape.length := by simpa using hi
  have := hin κ hκ i hi
  rw [readPos_getD _ _ _ _ _ _ hi, decide_eq_true_eq]
  omega

/-- A window contains at least one element of the input. -/
theorem window_nonempty (w : Window) (pad : Nat → Nat) (x : Tensor ℚ) (hok : PoolOk w pad x.shape) (o : List Nat)
    (ho : ∀ i < 2, o.getD i 0 < validOut (pad i + x.shape.getD i 0 + pad i) (w.kernel i) (w.stride i) (w.dilation i)) :
    0 < (((kernelIdx w.kernel x.shape.length).map (fun κ => readPos w pad x.shape.length o κ)).filter (fun p => inside x p)).length := by
  rw [List.length_pos_iff_exists_mem]
  set κ := (List.range 2).map (fun a => pad a - o.getD a 0 * w.stride a) with hκ
  refine ⟨readPos w pad x.shape.length o κ, List.mem_filter.mpr ⟨List.mem_map.mpr ⟨κ, ?_, rfl⟩, ?_⟩⟩
  · rw [kernelIdx_mem_iff, hok.rank]
    refine ⟨by simp [hκ], fun a ha => ?_⟩
    rw [hκ, Lemmas.getD_range_map _ _ _ _ ha]
    have := hok.half a ha
    have := hok.kernel a ha
    omega
  · unfold inside
    rw [List.all_eq_true]
    intro a ha
    have ha : a < 2 := by simpa [hok.rank] using ha
    rw [readPos_getD _ _ _ _ _ _ (by rw [hok.rank]; exact ha), decide_eq_true_eq, hκ, Lemmas.getD_range_map _ _ _ _ ha, hok.dil a ha]
    have h1 := ho a ha
    unfold validOut at h1
    rw [hok.dil a ha] at h1
    have h2 := Nat.div_mul_le_self (pad a + x.shape.getD a 0 + pad a + w.stride a - ((w.kernel a - 1) * 1 + 1)) (w.stride a)
    have h3 : (o.getD a 0 + 1) * w.stride a ≤ _ := (Nat.mul_le_mul_right (w.stride a) h1).trans h2
    rw [Nat.add_mul, Nat.one_mul] at h3
    have := hok.half a ha
    have := hok.kernel a ha
    have := hok.size a ha
    have := hok.stride a ha
    generalize o.getD a 0 * w.stride a = q at *
    omega

/-- **C57** Average pooling without `divisor_override`: the converted operators compute PyTorch's result, with the same size, for both settings of
`count_include_pad` (and for `ceil_mode` when the windows fit exactly, the only case the converter accepts).  The count PyTorch divides by is positive. -/
theorem C57_avg_pool_partial (ceil includePad : Bool) (w : Window) (pad : Nat → Nat) (x : Tensor ℚ) (hok : PoolOk w pad x.shape)
    (hex : ceil = true → poolExact x.shape w pad = true) :
    ∃ y, avgPoolConvert ceil includePad none w pad x = some y ∧ Same y (avgPoolTorch ceil includePad none w pad x) := by
  have hr := hok.rank
  have hst : ∀ i < x.shape.length, 0 < w.stride i := by intro i hi; rw [hr] at hi; exact hok.stride i hi
  have hpad := isPad_pair (0 : ℚ) pad x hr
  set x1 := (if pad 0 + pad 1 > 0 then padT 0 pad pad x else x) with hx1
  have hl : x1.shape.length = x.shape.length := by rw [hpad.1]; simp
  have hshape : (windowValid meanL w x1).shape = (avgPoolTorch ceil includePad none w pad x).shape := by
    simp only [windowValid, avgPoolTorch, hl]
    apply List.map_congr_left
    intro i hi
    have hi : i < x.shape.length := by simpa using hi
    rw [hpad.1, Lemmas.getD_range_map _ _ _ _ hi]
    exact pool_out ceil w pad x.shape hok hex i (by rw [hr] at hi; exact hi)
  have hvals : ∀ o, InBounds (windowValid meanL w x1).shape o → ∃ P : List (List Int), P = (kernelIdx w.kernel x.shape.length).map (fun κ => readPos w pad x.shape.length o κ) ∧
      (windowValid meanL w x1).get o = ((P.filter (fun p => inside x p)).map (fun p => x.get (p.map Int.toNat))).sum / P.length ∧
      P.filter (fun p => insidePadded x pad p) = P ∧ 0 < (P.filter (fun p => inside x p)).length := by
    intro o ho
    refine ⟨_, rfl, ?_⟩
    have hob := ((Lemmas.inBounds_iff _ _).mp ho).2
    simp only [windowValid, hl, List.length_map, List.length_range] at hob
    have ho' : ∀ i < x.shape.length, o.getD i 0 < validOut (pad i + x.shape.getD i 0 + pad i) (w.kernel i) (w.stride i) (w.dilation i) := by
      intro i hi
      have := hob i hi
      rw [Lemmas.getD_range_map _ _ _ _ hi, hpad.1, Lemmas.getD_range_map _ _ _ _ hi] at this
      exact this
    obtain ⟨h1, h2⟩ := window_isPad 0 w pad pad x1 x hst hpad o ho'
    refine ⟨?_, all_padded w pad x o h2, window_nonempty w pad x hok o (by rw [hr] at ho'; exact ho')⟩
    rw [hl] at h1
    simp only [windowValid, meanL, List.length_map, hl, h1]
    congr 1
    rw [show (List.map (fun κ => if inside x (readPos w pad x.shape.length o κ) = true then x.get (List.map Int.toNat (readPos w pad x.shape.length o κ)) else 0) (kernelIdx w.kernel x.shape.length))
        = ((kernelIdx w.kernel x.shape.length).map (fun κ => readPos w pad x.shape.length o κ)).map (fun p => if inside x p then x.get (p.map Int.toNat) else 0) by
      rw [List.map_map]; rfl]
    exact sum_filter_ite _ _ _
  have hne : (ceil && !poolExact x.shape w pad) = false := by
    cases ceil
    · rfl
    · simp [hex rfl]
  cases includePad
  · refine ⟨⟨(windowValid meanL w x1).shape, fun o => (windowValid meanL w x1).get o * avgMask ceil w pad x.shape o⟩, ?_, hshape, fun o ho => ?_⟩
    · simp only [avgPoolConvert, Option.all_none, hne, ← hx1]; rfl
    · obtain ⟨P, hP, h1, h2, h3⟩ := hvals o ho
      have h2' : P.filter (fun p => insidePadded (⟨x.shape, fun _ => 1⟩ : Tensor ℚ) pad p) = P := h2
      simp only [h1, avgMask, avgPoolTorch, ← hP, h2', if_true, Bool.false_eq_true, if_false]
      have h4 : (fun p => inside (⟨x.shape, fun _ => 1⟩ : Tensor ℚ) p) = (fun p => inside x p) := rfl
      rw [h4]
      set Q := P.filter (fun p => inside x p)
      have hQ : (0 : ℚ) < Q.length := by exact_mod_cast h3
      have hPp : (0 : ℚ) < P.length := lt_of_lt_of_le hQ (by exact_mod_cast List.length_filter_le _ _)
      simp only [List.map_const', List.sum_replicate, nsmul_eq_mul, mul_one]
      field_simp
  · refine ⟨windowValid meanL w x1, ?_, hshape, fun o ho => ?_⟩
    · simp only [avgPoolConvert, Option.all_none, hne, ← hx1]; rfl
    · obtain ⟨P, hP, h1, h2, _⟩ := hvals o ho
      simp only [h1, avgPoolTorch, ← hP, h2, if_true]

/-- **C57** Whenever the converter accepts an average pooling without `divisor_override`, in either rounding mode, the result is PyTorch's: a
`ceil_mode` that adds windows is refused. -/
theorem C57_avg_pool_accepted_partial (ceil includePad : Bool) (w : Window) (pad : Nat → Nat) (x y : Tensor ℚ) (hok : PoolOk w pad x.shape)
    (h : avgPoolConvert ceil includePad none w pad x = some y) : Same y (avgPoolTorch ceil includePad none w pad x) := by
  have hex : ceil = true → poolExact x.shape w pad = true := by
    intro hc
    subst hc
    by_contra hne
    simp [avgPoolConvert, Option.all_none, hne] at h
  obtain ⟨y', h1, h2⟩ := C57_avg_pool_partial ceil includePad w pad x hok hex
  rw [h1, Option.some.injEq] at h
  rw [← h]; exact h2

/-- Kernel 3, stride 2, padding 1 on 5 x 6, not counting the padding: the hypotheses hold, and the corner divides by 4. -/
example : PoolOk ⟨fun _ => 3, fun _ => 2, fun _ => 1⟩ (fun _ => 1) [5, 6] ∧
    (avgPoolTorch false false none ⟨fun _ => 3, fun _ => 2, fun _ => 1⟩ (fun _ => 1) ⟨[5, 6], fun _ => 8⟩).get [0, 0] = 8 ∧
    (avgPoolTorch false true none ⟨fun _ => 3, fun _ => 2, fun _ => 1⟩ (fun _ => 1) ⟨[5, 6], fun _ => 9⟩).get [0, 0] = 4 := by
  refine ⟨⟨rfl, by simp, by simp, by simp, by simp, by decide, by decide⟩, ?_, ?_⟩
  · simp [avgPoolTorch, kernelIdx, readPos, inside, List.range_succ]; try norm_num
  · simp [avgPoolTorch, kernelIdx, readPos, inside, insidePadded, List.range_succ]; try norm_num

/-- `divisor_override` is accepted only when it equals the (square) kernel's side, but then the operator divides by the kernel's area: with a kernel of 2 x 2 and
`divisor_override=2`, PyTorch returns 2 for an input of ones, the converted model 1. -/
theorem C57_divisor_false : ∃ (w : Window) (x y : Tensor ℚ), PoolOk w (fun _ => 0) x.shape ∧ avgPoolConvert false true (some 2) w (fun _ => 0) x = some y ∧
    y.get [0, 0] = 1 ∧ (avgPoolTorch false true (some 2) w (fun _ => 0) x).get [0, 0] = 2 := by
  refine ⟨⟨fun _ => 2, fun _ => 2, fun _ => 1⟩, ⟨[2, 2], fun _ => 1⟩, _, ⟨rfl, by simp, by simp, by simp, by simp, by decide, by decide⟩, rfl, ?_, ?_⟩
  · simp [windowValid, meanL, kernelIdx, List.range_succ]; norm_num
  · simp [avgPoolTorch, kernelIdx, readPos, inside, List.range_succ]; norm_num

/-- One-dimensional pooling with padding pads the channels instead of the positions: for an input `(1, 3, 8)` with padding 1 the pooling reads
`(1, 8, 1, 5)`; it should read `(1, 10, 1, 3)`. -/
theorem C57_pool1d_padding_false : pool1dInputShape 1 3 8 1 = [1, 8, 1, 5] ∧ pool1dInputShape 1 3 8 1 ≠ [1, 8 + 2 * 1, 1, 3] := by decide

/-- Without padding it is right. -/
theorem C57_pool1d_partial (n c l : Nat) : pool1dInputShape n c l 0 = [n, l, 1, c] := by simp [pool1dInputShape]

theorem adaptive_window (inp out i : Nat) (hdiv : inp % out = 0) (ho : 0 < out) :
    adaptiveStart inp out i = i * (inp / out) ∧ adaptiveEnd inp out i = (i + 1) * (inp / out) := by
  obtain ⟨q, rfl⟩ := Nat.dvd_of_mod_eq_zero hdiv
  rw [Nat.mul_div_cancel_left q ho]
  unfold adaptiveStart adaptiveEnd
  constructor
  · rw [show i * (out * q) = i * q * out by ring, Nat.mul_div_cancel _ ho]
  · rw [show (i + 1) * (out * q) + out - 1 = (out - 1) + (i + 1) * q * out by
      have : (i + 1) * (out * q) = (i + 1) * q * out := by ring
      omega]
    rw [Nat.add_mul_div_right _ _ ho, Nat.div_eq_of_lt (by omega), Nat.zero_add]

theorem allIndices_mem_iff (s idx : List Nat) : idx ∈ allIndices s ↔ InBounds s idx := by
  unfold allIndices
  rw [List.mem_map]
  constructor
  · rintro ⟨k, hk, rfl⟩
    exact Lemmas.unflat_inBounds (by simpa using hk)
  · intro h
    exact ⟨flat s idx, by simpa using Lemmas.flat_lt h, Lemmas.unflat_flat h⟩

theorem allIndices_nodup (s : List Nat) : (allIndices s).Nodup := by
  unfold allIndices
  refine List.Nodup.map_on ?_ List.nodup_range
  intro a ha b hb h
  rw [← Lemmas.flat_unflat (s := s) (k := a) (by simpa using ha), ← Lemmas.flat_unflat (s := s) (k := b) (by simpa using hb), h]

/-- All positions of a two-axis tensor, in either order. -/
theorem kernelIdx_perm (s : List Nat) (hs : s.length = 2) : (kernelIdx (fun a => s.getD a 0) 2).Perm (allIndices s) := by
  rw [List.perm_ext_iff_of_nodup (kernelIdx_nodup _ _) (allIndices_nodup s)]
  intro κ
  rw [kernelIdx_mem_iff, allIndices_mem_iff, Lemmas.inBounds_iff, hs]

/-- **C57** Adaptive pooling, for every way to combine a window's elements that does not depend on their order: whenever the converter accepts the
sizes, the converted operators compute PyTorch's windows. -/
theorem C57_adaptive_pool (red : List ℚ → ℚ) (hred : ∀ l l', l.Perm l' → red l = red l') (outs : List Nat) (x y : Tensor ℚ) (hx : x.shape.length = 2) (ho : outs.length = 2)
    (hpos : ∀ a < 2, 0 < outs.getD a 0 ∧ 0 < x.shape.getD a 0) (hy : adaptiveConvert red outs x = some y) : Same y (adaptiveTorch red outs x) := by
  unfold adaptiveConvert at hy
  by_cases hd : x.shape.getD 0 0 % outs.getD 0 0 = 0 ∧ x.shape.getD 1 0 % outs.getD 1 0 = 0
  · simp only [hd, and_self, not_true_eq_false, if_false] at hy
    have hdiv : ∀ a < 2, x.shape.getD a 0 % outs.getD a 0 = 0 := by
      intro a ha; interval_cases a
      · exact hd.1
      · exact hd.2
    have hle : ∀ a < 2, outs.getD a 0 ≤ x.shape.getD a 0 := fun a ha => Nat.le_of_dvd (hpos a ha).2 (Nat.dvd_of_mod_eq_zero (hdiv a ha))
    by_cases h1 : outs.getD 0 0 = 1 ∧ outs.getD 1 0 = 1
    · rw [if_pos h1] at hy
      simp only [Option.some.injEq] at hy
      subst hy
      have houts : outs = [1, 1] := by
        match outs, ho with
        | [a, b], _ => simp at h1; simp [h1]
      subst houts
      refine ⟨by simp [reduceKeep, adaptiveTorch, hx, List.range_succ], fun o hob => ?_⟩
      have hob := ((Lemmas.inBounds_iff _ _).mp hob)
      simp only [reduceKeep, hx, List.range_succ, List.range_zero, List.nil_append, List.length_map, List.map_append, List.map_cons, List.map_nil,
        List.length_append, List.length_cons, List.length_nil] at hob
      have o0 : o.getD 0 0 = 0 := by have := hob.2 0 (by omega); simpa using this
      have o1 : o.getD 1 0 = 0 := by have := hob.2 1 (by omega); simpa using this
      simp only [reduceKeep, adaptiveTorch]
      apply hred
      have e1 : (allIndices x.shape).filter (fun j => (List.range x.shape.length).all (fun a => decide (a ∈ [0, 1] ∨ j.getD a 0 = o.getD a 0))) = allIndices x.shape := by
        rw [List.filter_eq_self]
        intro j _
        rw [hx]; simp [List.range_succ]
      rw [e1, hx]
      have hk : kernelIdx (fun a => adaptiveEnd (x.shape.getD a 0) ([1, 1].getD a 0) (o.getD a 0) - adaptiveStart (x.shape.getD a 0) ([1, 1].getD a 0) (o.getD a 0)) 2
          = kernelIdx (fun a => x.shape.getD a 0) 2 := by
        simp only [kernelIdx, o0, o1, adaptiveEnd, adaptiveStart, List.getD_cons_zero, List.getD_cons_succ]
        simp
      rw [hk]
      refine ((kernelIdx_perm x.shape hx).map x.get).symm.trans (List.Perm.of_eq ?_)
      apply List.map_congr_left
      intro κ hκ
      congr 1
      obtain ⟨hl, _⟩ := mem_kernelIdx _ _ _ hκ
      match κ, hl with
      | [a, b], _ => simp only [List.range_succ, List.range_zero, List.nil_append, List.map_append, List.map_cons, List.map_nil, adaptiveStart, o0, o1]; simp
    · rw [if_neg h1] at hy
      simp only [Option.some.injEq] at hy
      subst hy
      have hq : ∀ a < 2, 0 < x.shape.getD a 0 / outs.getD a 0 := fun a ha => Nat.div_pos (hle a ha) (hpos a ha).1
      have hk : ∀ a < 2, x.shape.getD a 0 - (outs.getD a 0 - 1) * (x.shape.getD a 0 / outs.getD a 0) = x.shape.getD a 0 / outs.getD a 0 := by
        intro a ha
        have := Nat.div_add_mod (x.shape.getD a 0) (outs.getD a 0)
        rw [hdiv a ha] at this
        have h2 := (hpos a ha).1
        obtain ⟨m, hm⟩ : ∃ m, outs.getD a 0 = m + 1 := ⟨outs.getD a 0 - 1, by omega⟩
        rw [hm] at this ⊢
        rw [Nat.add_sub_cancel]
        generalize x.shape.getD a 0 / (m + 1) = q at *
        rw [Nat.add_mul, Nat.one_mul] at this
        omega
      constructor
      · simp only [windowValid, adaptiveTorch, hx]
        match outs, ho with
        | [p, q], _ =>
          have k0 := hk 0 (by omega)
          have k1 := hk 1 (by omega)
          have q0 := hq 0 (by omega)
          have q1 := hq 1 (by omega)
          have d0 := hdiv 0 (by omega)
          have d1 := hdiv 1 (by omega)
          have p0 := hpos 0 (by omega)
          have p1 := hpos 1 (by omega)
          simp only [List.getD_cons_zero, List.getD_cons_succ] at *
          simp only [List.range_succ, List.range_zero, List.nil_append, List.map_append, List.map_cons, List.map_nil, List.cons_append, List.getD_cons_zero, List.getD_cons_succ]
          rw [k0, k1]
          have aux : ∀ n m : Nat, 0 < m → 0 < n / m → n % m = 0 → validOut n (n / m) (n / m) 1 = m := by
            intro n m hm hnm hmod
            have := Nat.div_add_mod n m
            rw [hmod, Nat.add_zero] at this
            unfold validOut
            rw [Nat.mul_one, Nat.sub_add_cancel hnm, Nat.add_sub_cancel]
            conv_lhs => rw [← this]
            rw [Nat.mul_div_cancel_left _ hm, Nat.mul_div_cancel _ hnm]
          rw [aux _ _ p0.1 q0 d0, aux _ _ p1.1 q1 d1]
      · intro o hob
        simp only [windowValid, adaptiveTorch]
        congr 1
        have hw := fun a (ha : a < 2) => adaptive_window (x.shape.getD a 0) (outs.getD a 0) (o.getD a 0) (hdiv a ha) (hpos a ha).1
        have hkk : kernelIdx (fun a => x.shape.getD a 0 - (outs.getD a 0 - 1) * (x.shape.getD a 0 / outs.getD a 0)) x.shape.length
            = kernelIdx (fun a => adaptiveEnd (x.shape.getD a 0) (outs.getD a 0) (o.getD a 0) - adaptiveStart (x.shape.getD a 0) (outs.getD a 0) (o.getD a 0)) x.shape.length := by
          rw [hx]
          have e : ∀ a < 2, adaptiveEnd (x.shape.getD a 0) (outs.getD a 0) (o.getD a 0) - adaptiveStart (x.shape.getD a 0) (outs.getD a 0) (o.getD a 0)
              = x.shape.getD a 0 / outs.getD a 0 := by
            intro a ha
            rw [(hw a ha).1, (hw a ha).2, Nat.add_mul, Nat.one_mul, Nat.add_sub_cancel_left]
          simp only [kernelIdx]
          rw [hk 0 (by omega), hk 1 (by omega), e 0 (by omega), e 1 (by omega)]
        rw [hkk]
        apply List.map_congr_left
        intro κ hκ
        congr 1
        unfold readPos
        rw [List.map_map]
        apply List.map_congr_left
        intro a ha
        have ha : a < 2 := by simpa [hx] using ha
        simp only [Function.comp, Nat.cast_zero, Int.sub_zero, Int.toNat_natCast, Nat.mul_one]
        rw [(hw a ha).1]
  · rw [if_pos hd] at hy; simp at hy

theorem meanL_perm (l l' : List ℚ) (h : l.Perm l') : meanL l = meanL l' := by unfold meanL; rw [h.sum_eq, h.length_eq]

theorem maxL_spec (l : List ℚ) (hl : l ≠ []) : maxL l ∈ l ∧ ∀ v ∈ l, v ≤ maxL l := by
  have aux : ∀ (m : List ℚ) (d : ℚ), (m.foldr max d = d ∨ m.foldr max d ∈ m) ∧ d ≤ m.foldr max d ∧ ∀ v ∈ m, v ≤ m.foldr max d := by
    intro m d
    induction m with
    | nil => simp
    | cons a m ih =>
      obtain ⟨h1, h2, h3⟩ := ih
      refine ⟨?_, le_trans h2 (le_max_right _ _), ?_⟩
      · rcases max_choice a (m.foldr max d) with h | h
        · right; simp [h]
        · simp only [List.foldr_cons, h]
          rcases h1 with h1 | h1
          · left; exact h1
          · right; simp [h1]
      · intro v hv
        rcases List.mem_cons.mp hv with rfl | hv
        · exact le_max_left _ _
        · exact le_trans (h3 v hv) (le_max_right _ _)
  match l, hl with
  | a :: l, _ =>
    obtain ⟨h1, h2, h3⟩ := aux (a :: l) a
    refine ⟨?_, h3⟩
    unfold maxL
    rcases h1 with h1 | h1
    · simp only [List.headD_cons]; rw [h1]; simp
    · exact h1

theorem maxL_perm (l l' : List ℚ) (h : l.Perm l') : maxL l = maxL l' := by
  by_cases hl : l = []
  · subst hl; rw [List.nil_perm.mp h]
  · have hl' : l' ≠ [] := by rintro rfl; exact hl (List.perm_nil.mp h)
    obtain ⟨a1, a2⟩ := maxL_spec l hl
    obtain ⟨b1, b2⟩ := maxL_spec l' hl'
    exact le_antisymm (b2 _ (h.mem_iff.mp a1)) (a2 _ (h.mem_iff.mpr b1))

/-- The two adaptive poolings, from 6 x 4 to 3 x 2. -/
example (x : Tensor ℚ) (hx : x.shape = [6, 4]) : (∃ y, adaptiveConvert meanL [3, 2] x = some y ∧ Same y (adaptiveTorch meanL [3, 2] x)) ∧
    (∃ y, adaptiveConvert maxL [3, 2] x = some y ∧ Same y (adaptiveTorch maxL [3, 2] x)) := by
  have hp : ∀ a < 2, 0 < [3, 2].getD a 0 ∧ 0 < x.shape.getD a 0 := by rw [hx]; decide
  have h : ∀ red, (∃ y, adaptiveConvert red [3, 2] x = some y) := fun red => by simp [adaptiveConvert, hx]
  obtain ⟨y, hy⟩ := h meanL
  obtain ⟨z, hz⟩ := h maxL
  exact ⟨⟨y, hy, C57_adaptive_pool meanL meanL_perm [3, 2] x y (by rw [hx]; rfl) rfl hp hy⟩, ⟨z, hz, C57_adaptive_pool maxL maxL_perm [3, 2] x z (by rw [hx]; rfl) rfl hp hz⟩⟩

end Verif.Props
