import Verif.Model.SamePad
import Verif.Lemmas.Tensor
import Mathlib.Tactic.Common
import Mathlib.Tactic.Ring
import Mathlib.Tactic.Linarith
import Mathlib.Algebra.Order.Ring.Int

/-! C10 (SAME padding arguments) and C11 (absorbing explicit padding). -/

namespace Verif.Props
open Verif.Model Verif.Spec Verif.Lemmas

/-! ### C10 -/

theorem sameOut_eq (input s : Nat) (hs : 0 < s) :
    sameOut input s = if input % s = 0 then input / s else input / s + 1 := by
  unfold sameOut
  have h := Nat.div_add_mod input s
  have hm := Nat.mod_lt input hs
  split
  · rename_i h0
    rw [Nat.div_eq_of_lt_le]
    · rw [Nat.mul_comm]; omega
    · rw [Nat.add_mul, Nat.mul_comm]; omega
  · rename_i h0
    rw [Nat.div_eq_of_lt_le]
    · rw [Nat.add_mul, Nat.mul_comm]; omega
    · rw [Nat.add_mul, Nat.add_mul, Nat.mul_comm]; omega

/-- The padding of one axis is TensorFlow's. -/
theorem samePaddingAxis_eq (input k s d : Nat) (hi : 0 < input) (hk : 0 < k) (hs : 0 < s) :
    samePaddingAxis input k s d = (samePadTotal input k s d : Int) := by
  unfold samePaddingAxis samePadTotal
  rw [sameOut_eq input s hs]
  have h := Nat.div_add_mod input s
  obtain ⟨k', rfl⟩ : ∃ k', k = k' + 1 := ⟨k - 1, by omega⟩
  have hk' : ((k' + 1 : Nat) : Int) - 1 = (k' : Int) := by push_cast; ring
  rw [hk', Nat.add_sub_cancel, ← Nat.cast_mul k' d]
  generalize k' * d = e
  split
  · rename_i h0
    have hq : 0 < input / s := by
      rcases Nat.eq_zero_or_pos (input / s) with hz | hz
      · rw [hz] at h; omega
      · exact hz
    obtain ⟨q, hq'⟩ : ∃ q, input / s = q + 1 := ⟨input / s - 1, by omega⟩
    rw [hq'] at h ⊢
    rw [Nat.add_sub_cancel, Nat.mul_comm q s]
    rw [Nat.mul_add] at h
    omega
  · rename_i h0
    rw [Nat.add_sub_cancel, Nat.mul_comm (input / s) s]
    omega

/-- C10.  The padding array for which an operator is switched to SAME is exactly the padding of
TensorFlow's SAME rule, on every spatial axis; batch and channel axes are not padded. -/
theorem C10_same_padding (input filter strides dilation : List Nat)
    (hpos : ∀ i < input.length, 0 < input.getD i 0 ∧ 0 < filter.getD i 0 ∧ 0 < strides.getD i 0) :
    getSamePaddingArgs input filter strides dilation =
      [[0, 0]] ++ (List.range input.length).map (fun i =>
        [(samePadBefore (input.getD i 0) (filter.getD i 0) (strides.getD i 0) (dilation.getD i 0) : Int),
         (samePadAfter (input.getD i 0) (filter.getD i 0) (strides.getD i 0) (dilation.getD i 0) : Int)]) ++
      [[0, 0]] := by
  unfold getSamePaddingArgs
  congr 2
  apply List.map_congr_left
  intro i hi
  have hi : i < input.length := by simpa using hi
  obtain ⟨h1, h2, h3⟩ := hpos i hi
  simp only
  rw [samePaddingAxis_eq _ _ _ _ h1 h2 h3]
  unfold samePadAfter samePadBefore
  congr 1
  congr 1
  omega

/-- C10, output length: with that padding made explicit, a VALID window has `ceil(input / stride)`
positions, as many as SAME. -/
theorem C10_output_length (input k s d : Nat) (hi : 0 < input) (hs : 0 < s) :
    validOut (samePadBefore input k s d + input + samePadAfter input k s d) k s d = sameOut input s := by
  unfold validOut
  have hb : samePadBefore input k s d + input + samePadAfter input k s d = input + samePadTotal input k s d := by
    unfold samePadAfter samePadBefore; omega
  rw [hb]
  unfold samePadTotal
  generalize (k - 1) * d = e
  have ho := sameOut_eq input s hs
  have h := Nat.div_add_mod input s
  have hm := Nat.mod_lt input hs
  have hlow : 0 < sameOut input s := by
    rw [ho]; split
    · rename_i h0
      rcases Nat.eq_zero_or_pos (input / s) with hz | hz
      · rw [hz] at h; omega
      · exact hz
    · exact Nat.succ_pos _
  have hub : input ≤ sameOut input s * s := by
    rw [ho]; split
    · rw [Nat.mul_comm]; omega
    · rw [Nat.add_mul, Nat.mul_comm]; omega
  obtain ⟨q, hq⟩ : ∃ q, sameOut input s = q + 1 := ⟨sameOut input s - 1, by omega⟩
  rw [hq] at hub ⊢
  rw [Nat.add_sub_cancel]
  rw [Nat.add_mul] at hub
  rw [Nat.div_eq_of_lt_le]
  · rw [Nat.add_mul]; omega
  · rw [Nat.add_mul, Nat.add_mul]; omega

/-- C10 for transposed convolutions.  When the slice behind a VALID transposed convolution cuts away
exactly the SAME padding of the sliced length `o`, then the convolution's input length is
`ceil(o / stride)`, as SAME requires, and the cut parts are TensorFlow's before/after padding. -/
theorem C10_transpose_conv_slice (i k s d o start : Nat) (hi : 0 < i) (hk : 0 < k) (hs : 0 < s) (ho : 0 < o)
    (hfit : slicedPadAxis ((i - 1) * s + ((k - 1) * d + 1)) start o =
      (let x := samePaddingAxis o k s d; [x / 2, x - x / 2])) :
    i = sameOut o s ∧ start = samePadBefore o k s d ∧
      (i - 1) * s + ((k - 1) * d + 1) = start + o + samePadAfter o k s d := by
  simp only [slicedPadAxis, List.cons.injEq, and_true] at hfit
  obtain ⟨h1, h2⟩ := hfit
  rw [samePaddingAxis_eq _ _ _ _ ho hk hs] at h1 h2
  have hstart : start = samePadBefore o k s d := by
    unfold samePadBefore
    omega
  have hrest : (i - 1) * s + ((k - 1) * d + 1) = start + o + samePadAfter o k s d := by
    unfold samePadAfter
    rw [← hstart]
    unfold samePadBefore at hstart
    omega
  refine ⟨?_, hstart, hrest⟩
  have hsum : (i - 1) * s + ((k - 1) * d + 1) = o + samePadTotal o k s d := by
    unfold samePadAfter at hrest
    unfold samePadBefore at hstart hrest
    omega
  have hlen := C10_output_length o k s d ho hs
  have hb : samePadBefore o k s d + o + samePadAfter o k s d = (i - 1) * s + ((k - 1) * d + 1) := by
    rw [hrest, hstart]
  rw [hb] at hlen
  unfold validOut at hlen
  rw [show (i - 1) * s + ((k - 1) * d + 1) + s - ((k - 1) * d + 1) = (i - 1) * s + s by omega,
    ← Nat.succ_mul, Nat.mul_div_cancel _ hs] at hlen
  omega

example : getSamePaddingArgs [7, 8] [3, 3] [2, 2] [1, 2] = [[0, 0], [1, 1], [1, 2], [0, 0]] := by decide
example : slicedPadAxis ((4 - 1) * 2 + ((3 - 1) * 1 + 1)) 0 8 = (let x := samePaddingAxis 8 3 2 1; [x / 2, x - x / 2]) ∧
    sameOut 8 2 = 4 := by decide

/-! ### C11 -/

theorem getOr_inside {α : Type} (t : Tensor α) (v : α) (pos : List Int) :
    getOr t v pos = if inside t pos then t.get (pos.map Int.toNat) else v := rfl

/-- Reading the explicitly padded tensor where the VALID window reads it. -/
theorem padT_read {α : Type} (v : α) (before after : Nat → Nat) (t : Tensor α) (w : Window) (o κ : List Nat) :
    (padT v before after t).get ((readPos w (fun _ => 0) t.shape.length o κ).map Int.toNat) =
      getOr t v (readPos w before t.shape.length o κ) := by
  simp only [padT]
  congr 1
  unfold readPos
  apply List.map_congr_left
  intro a ha
  have ha : a < t.shape.length := by simpa using ha
  rw [List.map_map, getD_range_map _ _ _ _ ha]
  simp only [Function.comp, Nat.cast_zero, Int.sub_zero, Int.toNat_natCast]

theorem pad_conv {R : Type} [Semiring R] (w : Window) (ch : Nat) (wt : List Nat → Nat → R) (shape : List Nat)
    (x : Nat → Tensor R) (hx : ∀ c, (x c).shape = shape) (hin : ∀ a < shape.length, 0 < shape.getD a 0)
    (hs : ∀ a < shape.length, 0 < w.stride a) (before after : Nat → Nat)
    (hb : ∀ a < shape.length, before a = samePadBefore (shape.getD a 0) (w.kernel a) (w.stride a) (w.dilation a))
    (ha : ∀ a < shape.length, after a = samePadAfter (shape.getD a 0) (w.kernel a) (w.stride a) (w.dilation a)) :
    Same (convValid w ch wt ((List.range shape.length).map (fun a => before a + shape.getD a 0 + after a))
        (fun c => padT 0 before after (x c)))
      (convSame w ch wt shape x) := by
  constructor
  · simp only [convValid, convSame, List.length_map, List.length_range]
    apply List.map_congr_left
    intro a h
    have h : a < shape.length := by simpa using h
    rw [getD_range_map _ _ _ _ h, hb a h, ha a h, C10_output_length _ _ _ _ (hin a h) (hs a h)]
  · intro o _
    simp only [convValid, convSame, List.length_map, List.length_range]
    congr 1
    apply List.map_congr_left
    intro κ _
    congr 1
    apply List.map_congr_left
    intro c _
    have := padT_read (0 : R) before after (x c) w o κ
    rw [hx c] at this
    rw [this]
    congr 2
    unfold readPos
    apply List.map_congr_left
    intro a h
    rw [hb a (by simpa using h)]

theorem foldl_max_filter {R β : Type} [LinearOrder R] (lowest : R) (P : β → Bool) (f : β → R) (l : List β) :
    ∀ init, lowest ≤ init →
      (l.map (fun b => if P b then f b else lowest)).foldl max init = ((l.filter P).map f).foldl max init := by
  induction l with
  | nil => intro init _; rfl
  | cons b l ih =>
    intro init hi
    by_cases hp : P b = true
    · rw [List.filter_cons_of_pos hp, List.map_cons, List.map_cons, List.foldl_cons, List.foldl_cons, if_pos hp]
      exact ih _ (le_trans hi (le_max_left _ _))
    · rw [List.filter_cons_of_neg hp, List.map_cons, List.foldl_cons, if_neg hp, max_eq_left hi]
      exact ih _ hi

theorem pad_pool {R : Type} [LinearOrder R] (lowest : R) (w : Window) (x : Tensor R)
    (hin : ∀ a < x.shape.length, 0 < x.shape.getD a 0) (hs : ∀ a < x.shape.length, 0 < w.stride a)
    (before after : Nat → Nat)
    (hb : ∀ a < x.shape.length, before a = samePadBefore (x.shape.getD a 0) (w.kernel a) (w.stride a) (w.dilation a))
    (ha : ∀ a < x.shape.length, after a = samePadAfter (x.shape.getD a 0) (w.kernel a) (w.stride a) (w.dilation a)) :
    Same (poolValid lowest w (padT lowest before after x)) (poolSame lowest w x) := by
  have hl : (padT lowest before after x).shape.length = x.shape.length := by simp [padT]
  constructor
  · simp only [poolValid, poolSame, hl]
    apply List.map_congr_left
    intro a h
    have h : a < x.shape.length := by simpa using h
    simp only [padT]
    rw [getD_range_map _ _ _ _ h, hb a h, ha a h, C10_output_length _ _ _ _ (hin a h) (hs a h)]
  · intro o _
    simp only [poolValid, poolSame, hl]
    have e : (kernelIdx w.kernel x.shape.length).map (fun κ =>
        (padT lowest before after x).get ((readPos w (fun _ => 0) x.shape.length o κ).map Int.toNat)) =
        ((kernelIdx w.kernel x.shape.length).map (fun κ => readPos w
          (fun a => samePadBefore (x.shape.getD a 0) (w.kernel a) (w.stride a) (w.dilation a)) x.shape.length o κ)).map
          (fun pos => if inside x pos then x.get (pos.map Int.toNat) else lowest) := by
      rw [List.map_map]
      apply List.map_congr_left
      intro κ _
      rw [padT_read, getOr_inside]
      simp only [Function.comp]
      have : readPos w before x.shape.length o κ = readPos w
          (fun a => samePadBefore (x.shape.getD a 0) (w.kernel a) (w.stride a) (w.dilation a)) x.shape.length o κ := by
        unfold readPos
        apply List.map_congr_left
        intro a h
        rw [hb a (by simpa using h)]
      rw [this]
    rw [e]
    exact foldl_max_filter lowest _ _ _ lowest (le_refl _)

/-- What the recorded padding array says about each axis when the fusion is not skipped. -/
theorem padArrMatches_axis (shape : List Nat) (w : Window) (before after : Nat → Nat)
    (hin : ∀ a < shape.length, 0 < shape.getD a 0 ∧ 0 < w.kernel a ∧ 0 < w.stride a)
    (hm : padArrMatches shape ((List.range shape.length).map w.kernel) ((List.range shape.length).map w.stride)
      ((List.range shape.length).map w.dilation)
      ([[0, 0]] ++ (List.range shape.length).map (fun a => [(before a : Int), (after a : Int)]) ++ [[0, 0]]) = true) :
    ∀ a < shape.length,
      before a = samePadBefore (shape.getD a 0) (w.kernel a) (w.stride a) (w.dilation a) ∧
      after a = samePadAfter (shape.getD a 0) (w.kernel a) (w.stride a) (w.dilation a) := by
  intro a ha
  unfold padArrMatches at hm
  rw [beq_iff_eq, C10_same_padding] at hm
  · have h1 := List.append_cancel_right hm
    have h2 := List.append_cancel_left h1
    have h3 := congrArg (fun l => l.getD a []) h2
    rw [getD_range_map _ _ _ _ ha, getD_range_map _ _ _ _ ha, getD_range_map _ _ _ _ ha,
      getD_range_map _ _ _ _ ha, getD_range_map _ _ _ _ ha] at h3
    simp only [List.cons.injEq, and_true] at h3
    omega
  · intro i hi
    rw [getD_range_map _ _ _ _ hi, getD_range_map _ _ _ _ hi]
    exact hin i hi

/-- C11, convolutions (2-D, 3-D and depthwise; PAD or PADV2 with 0): absorbing the explicit padding gives
the same output for all inputs and weights, over any ring. -/
theorem C11_pad_conv {R : Type} [Semiring R] (v : PadValue) (tgt : PadTarget)
    (hf : isPaddingFusable v tgt = true) (htgt : tgt ≠ .maxPool)
    (w : Window) (ch : Nat) (wt : List Nat → Nat → R) (shape : List Nat)
    (x : Nat → Tensor R) (hx : ∀ c, (x c).shape = shape) (before after : Nat → Nat)
    (hpos : ∀ a < shape.length, 0 < shape.getD a 0 ∧ 0 < w.kernel a ∧ 0 < w.stride a)
    (hm : padArrMatches shape ((List.range shape.length).map w.kernel) ((List.range shape.length).map w.stride)
      ((List.range shape.length).map w.dilation)
      ([[0, 0]] ++ (List.range shape.length).map (fun a => [(before a : Int), (after a : Int)]) ++ [[0, 0]]) = true) :
    (v = .absent ∨ v = .zero) ∧
    Same (convValid w ch wt ((List.range shape.length).map (fun a => before a + shape.getD a 0 + after a))
        (fun c => padT 0 before after (x c)))
      (convSame w ch wt shape x) := by
  have hax := padArrMatches_axis shape w before after hpos hm
  refine ⟨?_, pad_conv w ch wt shape x hx (fun a h => (hpos a h).1) (fun a h => (hpos a h).2.2) before after
    (fun a h => (hax a h).1) (fun a h => (hax a h).2)⟩
  cases v <;> cases tgt <;> simp_all [isPaddingFusable]

/-- C11, max pooling, partial: a PADV2 that pads with the lowest number is absorbed correctly.  Missing:
the two-input PAD (zeros), which the predicate also accepts in front of a max pooling
(`C11_pad_max_pool_false`). -/
theorem C11_pad_max_pool_partial {R : Type} [LinearOrder R] (v : PadValue) (hf : isPaddingFusable v .maxPool = true)
    (hv : v ≠ .absent) (lowest : R) (w : Window) (x : Tensor R) (before after : Nat → Nat)
    (hpos : ∀ a < x.shape.length, 0 < x.shape.getD a 0 ∧ 0 < w.kernel a ∧ 0 < w.stride a)
    (hm : padArrMatches x.shape ((List.range x.shape.length).map w.kernel)
      ((List.range x.shape.length).map w.stride) ((List.range x.shape.length).map w.dilation)
      ([[0, 0]] ++ (List.range x.shape.length).map (fun a => [(before a : Int), (after a : Int)]) ++ [[0, 0]]) = true) :
    v = .lowest ∧ Same (poolValid lowest w (padT lowest before after x)) (poolSame lowest w x) := by
  have hax := padArrMatches_axis x.shape w before after hpos hm
  refine ⟨?_, pad_pool lowest w x (fun a h => (hpos a h).1) (fun a h => (hpos a h).2.2) before after
    (fun a h => (hax a h).1) (fun a h => (hax a h).2)⟩
  cases v <;> simp_all [isPaddingFusable]

/-- The hypotheses are met by a 3×3 stride-2 window on a 7×8 input. -/
example : padArrMatches [7, 8] [3, 3] [2, 2] [1, 1] [[0, 0], [1, 1], [0, 1], [0, 0]] = true ∧
    isPaddingFusable .zero .conv2d = true ∧ isPaddingFusable .lowest .maxPool = true := by decide

/-- C11 is false for a zero PAD in front of a max pooling: on the single value `-5` with a window of 3 the
padded network outputs 0, the fused one −5. -/
theorem C11_pad_max_pool_false : ∃ (w : Window) (x : Tensor Int) (before after : Nat → Nat) (lowest : Int),
    isPaddingFusable .absent .maxPool = true ∧
    padArrMatches x.shape ((List.range x.shape.length).map w.kernel)
      ((List.range x.shape.length).map w.stride) ((List.range x.shape.length).map w.dilation)
      ([[0, 0]] ++ (List.range x.shape.length).map (fun a => [(before a : Int), (after a : Int)]) ++ [[0, 0]]) = true ∧
    (∀ idx, lowest ≤ x.get idx) ∧
    ¬ Same (poolValid lowest w (padT 0 before after x)) (poolSame lowest w x) := by
  refine ⟨⟨fun _ => 3, fun _ => 1, fun _ => 1⟩, ⟨[1], fun _ => -5⟩, fun _ => 1, fun _ => 1, -100, rfl, by decide,
    fun _ => by simp, ?_⟩
  rintro ⟨_, h⟩
  have := h [0] (by simp [poolValid, padT, InBounds, validOut])
  revert this
  decide

end Verif.Props
