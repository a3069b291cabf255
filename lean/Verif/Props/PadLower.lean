import Verif.Spec.TorchPad
import Verif.Model.PadLower
import Verif.Lemmas.Tensor
import Verif.Props.QuantStore
import Mathlib.Tactic.Linarith

/-! C77: converted padding. -/

namespace Verif.Props

open Verif.Spec Verif.Model Verif.Model.PadLower

namespace PadAux

theorem pairs_spec : ∀ (k : Nat) (pads : List Int), pads.length = 2 * k →
    ∃ l, pairs pads = some l ∧ l.length = k ∧ ∀ j, l.getD j (0, 0) = (pads.getD (2 * j) 0, pads.getD (2 * j + 1) 0) := by
  intro k
  induction k with
  | zero =>
    intro pads h
    obtain rfl := List.eq_nil_of_length_eq_zero (by omega)
    exact ⟨[], rfl, rfl, by simp⟩
  | succ k ih =>
    intro pads h
    match pads, h with
    | x :: y :: rest, h =>
      obtain ⟨l, h1, h2, h3⟩ := ih rest (by simp at h; omega)
      refine ⟨(x, y) :: l, by simp [pairs, h1], by simp [h2], ?_⟩
      intro j
      cases j with
      | zero => simp
      | succ j =>
        have := h3 j
        simp only [List.getD_cons_succ, show 2 * (j + 1) = 2 * j + 1 + 1 by ring]
        exact this

theorem padMatrix_spec (pads : List Int) (r k : Nat) (h : pads.length = 2 * k) (hk : k ≤ r) :
    ∃ m, padMatrix r pads = some m ∧ m.length = r ∧
      ∀ a < r, m.getD a (0, 0) = (padFront pads r a, padBehind pads r a) := by
  obtain ⟨l, h1, h2, h3⟩ := pairs_spec k pads h
  refine ⟨(l ++ List.replicate (r - l.length) (0, 0)).reverse, ?_, ?_, ?_⟩
  · simp [padMatrix, h1, h2, hk]
  · simp [h2]; omega
  · intro a ha
    have hlen : (l ++ List.replicate (r - l.length) ((0 : Int), (0 : Int))).length = r := by simp [h2]; omega
    have : (l ++ List.replicate (r - l.length) ((0 : Int), (0 : Int))).reverse.getD a (0, 0)
        = (l ++ List.replicate (r - l.length) ((0 : Int), (0 : Int))).getD (r - 1 - a) (0, 0) := by
      rw [List.getD_eq_getElem?_getD, List.getElem?_reverse (by rw [hlen]; exact ha), hlen, List.getD_eq_getElem?_getD]
    rw [this]
    have e : (l ++ List.replicate (r - l.length) ((0 : Int), (0 : Int))).getD (r - 1 - a) (0, 0)
        = l.getD (r - 1 - a) (0, 0) := by
      by_cases hlt : r - 1 - a < l.length
      · simp only [List.getD_eq_getElem?_getD, List.getElem?_append_left hlt]
      · simp only [List.getD_eq_getElem?_getD]
        rw [List.getElem?_append_right (by omega), List.getElem?_eq_none_iff.mpr (by omega : l.length ≤ r - 1 - a),
          List.getElem?_replicate]
        split_ifs <;> rfl
    rw [e, h3]
    rfl

theorem map_fst_getD (m : List (Int × Int)) (a : Nat) :
    (m.map (fun p => p.1.toNat)).getD a 0 = (m.getD a (0, 0)).1.toNat := by
  simp only [List.getD_eq_getElem?_getD, List.getElem?_map]
  cases m[a]? <;> simp

theorem map_snd_getD (m : List (Int × Int)) (a : Nat) :
    (m.map (fun p => p.2.toNat)).getD a 0 = (m.getD a (0, 0)).2.toNat := by
  simp only [List.getD_eq_getElem?_getD, List.getElem?_map]
  cases m[a]? <;> simp

/-- Nonnegative amounts: TFLite's padding is PyTorch's. -/
theorem pad_eq {α : Type} (pads : List Int) (m : List (Int × Int)) (v : α) (t : Tensor α)
    (hm : ∀ a < t.shape.length, m.getD a (0, 0) = (padFront pads t.shape.length a, padBehind pads t.shape.length a))
    (hp : ∀ p ∈ pads, 0 ≤ p) :
    pad (m.map (fun p => p.1.toNat)) (m.map (fun p => p.2.toNat)) v t = torchPad pads v t := by
  have hnn : ∀ i, 0 ≤ pads.getD i 0 := by
    intro i
    by_cases h : i < pads.length
    · simpa [h] using hp _ (List.getElem_mem h)
    · simp [List.getElem?_eq_none_iff.mpr (not_lt.mp h)]
  have hf : ∀ a, 0 ≤ padFront pads t.shape.length a := fun a => hnn _
  have hb : ∀ a, 0 ≤ padBehind pads t.shape.length a := fun a => hnn _
  have hfst : ∀ a < t.shape.length, (m.map (fun p => p.1.toNat)).getD a 0 = (padFront pads t.shape.length a).toNat := by
    intro a ha; rw [map_fst_getD, hm a ha]
  have hsnd : ∀ a < t.shape.length, (m.map (fun p => p.2.toNat)).getD a 0 = (padBehind pads t.shape.length a).toNat := by
    intro a ha; rw [map_snd_getD, hm a ha]
  unfold pad torchPad
  congr 1
  · unfold torchPadShape
    apply List.map_congr_left
    intro a ha
    have ha' : a < t.shape.length := by simpa using ha
    rw [hfst a ha', hsnd a ha']
    have := hf a; have := hb a
    omega
  · funext idx
    have hcond : (∀ a < t.shape.length, (m.map (fun p => p.1.toNat)).getD a 0 ≤ idx.getD a 0 ∧
          idx.getD a 0 < (m.map (fun p => p.1.toNat)).getD a 0 + t.shape.getD a 0) ↔
        (∀ a < t.shape.length, 0 ≤ (idx.getD a 0 : Int) - padFront pads t.shape.length a ∧
          (idx.getD a 0 : Int) - padFront pads t.shape.length a < t.shape.getD a 0) := by
      constructor
      · intro h a ha
        have := h a ha
        rw [hfst a ha] at this
        have := hf a
        omega
      · intro h a ha
        have := h a ha
        rw [hfst a ha]
        have := hf a
        omega
    by_cases h : ∀ a < t.shape.length, 0 ≤ (idx.getD a 0 : Int) - padFront pads t.shape.length a ∧
          (idx.getD a 0 : Int) - padFront pads t.shape.length a < t.shape.getD a 0
    · rw [if_pos h, if_pos (hcond.mpr h)]
      congr 1
      apply List.map_congr_left
      intro a ha
      have ha' : a < t.shape.length := by simpa using ha
      rw [hfst a ha']
      have := hf a
      omega
    · rw [if_neg h, if_neg (fun g => h (hcond.mp g))]

theorem tflPad_eq {α : Type} (pads : List Int) (k : Nat) (v : α) (t : Tensor α) (h : pads.length = 2 * k)
    (hk : k ≤ t.shape.length) (hp : ∀ p ∈ pads, 0 ≤ p) :
    (padMatrix t.shape.length pads).bind (fun m => tflPad m v t) = some (torchPad pads v t) := by
  obtain ⟨m, h1, h2, h3⟩ := padMatrix_spec pads _ k h hk
  have hnn : ∀ i, 0 ≤ pads.getD i 0 := by
    intro i
    by_cases h : i < pads.length
    · simpa [h] using hp _ (List.getElem_mem h)
    · simp [List.getElem?_eq_none_iff.mpr (not_lt.mp h)]
  rw [h1]
  simp only [Option.bind_some, tflPad]
  rw [if_pos, pad_eq pads m v t h3 hp]
  refine ⟨h2, ?_⟩
  rw [List.all_eq_true]
  intro p hpm
  obtain ⟨a, ha, rfl⟩ := List.getElem_of_mem hpm
  have := h3 a (by omega)
  simp only [List.getD_eq_getElem?_getD, List.getElem?_eq_getElem ha, Option.getD_some] at this
  rw [this]
  simp only [decide_eq_true_eq]
  exact ⟨hnn _, hnn _⟩

end PadAux

open PadAux

/-- **C77, constant padding of float tensors.** For every shape, every list of nonnegative amounts for the last axes, every fill
value and content: the converted model gives PyTorch's padded tensor. Partial: negative amounts (`C77_crop_false`) are missing. -/
theorem C77_float_partial (rnd : ℝ → Int) (pads : List Int) (k : Nat) (c : ℝ) (t : Tensor ℝ) (h : pads.length = 2 * k)
    (hk : k ≤ t.shape.length) (hp : ∀ p ∈ pads, 0 ≤ p) :
    constantPad rnd .float pads c t = some (torchPad pads c t) := by
  unfold constantPad fillRaw
  have : (if c = 0 then 0 else c) = c := by split_ifs with h0 <;> simp [h0]
  simp only [this, Option.bind_some]
  exact tflPad_eq pads k c t h hk hp

/-- **C77, padding integer tensors with zero.** -/
theorem C77_int_partial (rnd : ℝ → Int) (pads : List Int) (k : Nat) (t : Tensor ℝ) (h : pads.length = 2 * k)
    (hk : k ≤ t.shape.length) (hp : ∀ p ∈ pads, 0 ≤ p) :
    constantPad rnd .int pads 0 t = some (torchPad pads 0 t) := by
  unfold constantPad fillRaw
  simp only [if_true, Option.bind_some]
  exact tflPad_eq pads k 0 t h hk hp

/-- A 1×2×2 tensor padded by 1 in front of the last axis and 2 behind the one before. -/
example : (∀ p ∈ ([1, 0, 0, 2] : List Int), 0 ≤ p) ∧ torchPadShape [1, 0, 0, 2] [1, 2, 2] = [1, 4, 3] ∧
    (torchPad [1, 0, 0, 2] (9 : Int) ⟨[1, 2, 2], fun i => 10 * i.getD 1 0 + i.getD 2 0⟩).get [0, 1, 0] = 9 ∧
    (torchPad [1, 0, 0, 2] (9 : Int) ⟨[1, 2, 2], fun i => 10 * i.getD 1 0 + i.getD 2 0⟩).get [0, 1, 2] = 11 := by
  decide

/-- **C77, quantized tensors with unsigned storage.** The padded tensor holds exactly the integers PyTorch stores, for every fill
value: the fill is quantized with the tensor's own parameters. -/
theorem C77_quint8_partial (rnd : ℝ → Int) (hr : IsNearest rnd) (scale : ℝ) (zp : Int) (hz : InU8 zp) (pads : List Int) (k : Nat)
    (c : ℝ) (t : Tensor ℝ) (h : pads.length = 2 * k) (hk : k ≤ t.shape.length) (hp : ∀ p ∈ pads, 0 ≤ p) :
    constantPad rnd (.quant .u8 scale zp) pads c t = some (torchPad pads ((torchQuantize rnd 0 255 scale zp c : Int) : ℝ) t) := by
  obtain ⟨z1, z2⟩ := hz
  have hfill : fillRaw rnd (.quant .u8 scale zp) c = some ((torchQuantize rnd 0 255 scale zp c : Int) : ℝ) := by
    unfold fillRaw
    simp only [storeQuint8, if_true]
    split_ifs with h0 h1
    · have : rnd (0 / scale) = 0 := by
        have := nearest_int hr 0
        simpa using this
      simp only [torchQuantize, h0, this]
      congr 2
      omega
    · rfl
    · exact absurd ⟨z1, z2⟩ h1
  unfold constantPad
  rw [hfill]
  simp only [Option.bind_some]
  exact tflPad_eq pads k _ t h hk hp

/-- **C77, quantized tensors padded with zero, any 8-bit storage.** The added elements stand for the number 0. -/
theorem C77_quant_zero_partial (rnd : ℝ → Int) (qt : QType) (scale : ℝ) (zp : Int) (pads : List Int) (k : Nat)
    (t : Tensor ℝ) (h : pads.length = 2 * k) (hk : k ≤ t.shape.length) (hp : ∀ p ∈ pads, 0 ≤ p) :
    constantPad rnd (.quant qt scale zp) pads 0 t = some (torchPad pads ((storeQuint8 qt true scale zp 0).zp : ℝ) t) ∧
    dequant (storeQuint8 qt true scale zp 0).scale (storeQuint8 qt true scale zp 0).zp (storeQuint8 qt true scale zp 0).zp = 0 := by
  refine ⟨?_, by simp [dequant]⟩
  unfold constantPad fillRaw
  simp only [if_true, Option.bind_some]
  exact tflPad_eq pads k _ t h hk hp

example : InU8 3 ∧ torchQuantize (fun x => round x) 0 255 (1 / 2) 3 2 = 7 ∧
    (torchPadShape [0, 1] [2, 2]) = [2, 3] := by
  refine ⟨by simp [InU8], ?_, by decide⟩
  have : (2 : ℝ) / (1 / 2) = ((4 : Int) : ℝ) := by norm_num
  simp only [torchQuantize, this, round_intCast]
  decide

/-- **C77 is false for negative amounts**: cropping by padding is well defined in PyTorch, but the converted operator is refused
for every tensor as soon as one amount is negative. -/
theorem C77_crop_false (rnd : ℝ → Int) (c : ℝ) (t : Tensor ℝ) (ht : t.shape ≠ []) :
    constantPad rnd .float [-1, 0] c t = none ∧
    (torchPad [-1, 0] c ⟨[2], fun i => (i.getD 0 0 : ℝ)⟩).shape = [1] ∧
    (torchPad [-1, 0] c ⟨[2], fun i => (i.getD 0 0 : ℝ)⟩).get [0] = 1 := by
  refine ⟨?_, by simp [torchPad, torchPadShape, padFront, padBehind], ?_⟩
  · have hpos : 1 ≤ t.shape.length := by
      cases hs : t.shape with
      | nil => exact absurd hs ht
      | cons a l => simp
    unfold constantPad
    have : padMatrix t.shape.length [-1, 0] = some ((([(-1, 0)] : List (Int × Int)) ++
        List.replicate (t.shape.length - 1) (0, 0)).reverse) := by
      simp [padMatrix, pairs, hpos]
    rw [this]
    simp only [Option.bind_some, fillRaw, tflPad]
    rw [if_neg]
    rintro ⟨-, h⟩
    rw [List.all_eq_true] at h
    have := h (-1, 0) (by simp)
    simp at this
  · simp [torchPad, padFront]

/-- **C77 is false for integer tensors with a nonzero fill**: the fill constant is always written as float32, which PADV2
refuses beside an integer tensor. -/
theorem C77_int_fill_false (rnd : ℝ → Int) (pads : List Int) (c : ℝ) (hc : c ≠ 0) (t : Tensor ℝ) :
    constantPad rnd .int pads c t = none := by
  unfold constantPad fillRaw
  simp only [hc, if_false]
  cases padMatrix t.shape.length pads <;> rfl

example : (5 : ℝ) ≠ 0 ∧ (torchPad [1, 0] (5 : ℝ) ⟨[1], fun _ => 2⟩).get [0] = 5 := by
  refine ⟨by norm_num, ?_⟩
  simp [torchPad, padFront]

/-- **C77 is false for signed quantized storage with a nonzero fill**: the fill is quantized as `quint8` with the already shifted
zero point, so quantizing raises, or the constant is shifted a second time and no longer has the output's zero point. -/
theorem C77_int8_fill_false (rnd : ℝ → Int) (qt : QType) (hqt : qt ≠ .u8) (scale : ℝ) (zp : Int) (pads : List Int)
    (c : ℝ) (hc : c ≠ 0) (t : Tensor ℝ) : constantPad rnd (.quant qt scale zp) pads c t = none := by
  have : fillRaw rnd (.quant qt scale zp) c = none := by
    unfold fillRaw
    simp only [hc, if_false]
    split_ifs with h1 h2
    · exfalso
      cases qt with
      | u8 => exact hqt rfl
      | i8 => simp [storeQuint8] at h2
      | i16 => simp [storeQuint8] at h2
    · rfl
    · rfl
  unfold constantPad
  rw [this]
  cases padMatrix t.shape.length pads <;> rfl

example : (QType.i8 ≠ .u8) ∧ torchQuantize (fun x => round x) 0 255 (1 / 2) 130 2 = 134 := by
  refine ⟨by simp, ?_⟩
  have : (2 : ℝ) / (1 / 2) = ((4 : Int) : ℝ) := by norm_num
  simp only [torchQuantize, this, round_intCast]
  decide

namespace PadAux

theorem mirror_eq {α : Type} (pads : List Int) (m : List (Int × Int)) (t : Tensor α) (hlen : m.length = t.shape.length)
    (hm : ∀ a < t.shape.length, m.getD a (0, 0) = (padFront pads t.shape.length a, padBehind pads t.shape.length a))
    (hp : ∀ a < t.shape.length, 0 ≤ padFront pads t.shape.length a ∧ 0 ≤ padBehind pads t.shape.length a ∧
      padFront pads t.shape.length a ≤ (t.shape.getD a 0 : Int) - 1 ∧
      padBehind pads t.shape.length a ≤ (t.shape.getD a 0 : Int) - 1) :
    ∃ r, tflMirror m t = some r ∧ Same r (torchReflect pads t) := by
  have hfst : ∀ a < t.shape.length, (m.map (fun p => p.1.toNat)).getD a 0 = (padFront pads t.shape.length a).toNat := by
    intro a ha; rw [map_fst_getD, hm a ha]
  have hsnd : ∀ a < t.shape.length, (m.map (fun p => p.2.toNat)).getD a 0 = (padBehind pads t.shape.length a).toNat := by
    intro a ha; rw [map_snd_getD, hm a ha]
  refine ⟨mirrorPad (m.map (fun p => p.1.toNat)) (m.map (fun p => p.2.toNat)) t, ?_, ?_, ?_⟩
  · unfold tflMirror
    rw [if_pos]
    refine ⟨hlen, ?_⟩
    rw [List.all_eq_true]
    intro a ha
    have ha' : a < t.shape.length := by rw [← hlen]; simpa using ha
    rw [hm a ha']
    simpa using hp a ha'
  · show (mirrorPad _ _ t).shape = torchPadShape pads t.shape
    unfold mirrorPad torchPadShape
    apply List.map_congr_left
    intro a ha
    have ha' : a < t.shape.length := by simpa using ha
    rw [hfst a ha', hsnd a ha']
    have := hp a ha'
    omega
  · intro idx hidx
    show t.get _ = t.get _
    congr 1
    apply List.map_congr_left
    intro a ha
    have ha' : a < t.shape.length := by simpa using ha
    have hlt := (Lemmas.inBounds_iff _ _).mp hidx
    have hb : idx.getD a 0 < (mirrorPad (m.map (fun p => p.1.toNat)) (m.map (fun p => p.2.toNat)) t).shape.getD a 0 := by
      exact hlt.2 a (by simpa [mirrorPad] using ha')
    have hsh : (mirrorPad (m.map (fun p => p.1.toNat)) (m.map (fun p => p.2.toNat)) t).shape.getD a 0
        = (padFront pads t.shape.length a).toNat + t.shape.getD a 0 + (padBehind pads t.shape.length a).toNat := by
      simp only [mirrorPad]
      rw [List.getD_eq_getElem?_getD, List.getElem?_map, List.getElem?_range ha']
      simp only [Option.map_some, Option.getD_some]
      rw [hfst a ha', hsnd a ha']
    rw [hsh] at hb
    rw [hfst a ha']
    have := hp a ha'
    simp only
    split_ifs <;> omega

end PadAux

/-- The amounts are nonnegative and smaller than the sizes, as PyTorch demands of reflection padding. -/
def ReflectOK (pads : List Int) (shape : List Nat) : Prop :=
  ∀ a < shape.length, 0 ≤ padFront pads shape.length a ∧ 0 ≤ padBehind pads shape.length a ∧
    padFront pads shape.length a ≤ (shape.getD a 0 : Int) - 1 ∧ padBehind pads shape.length a ≤ (shape.getD a 0 : Int) - 1

/-- **C77, reflection padding** through `aten::pad`, for every rank. -/
theorem C77_reflect {α : Type} (pads : List Int) (k : Nat) (t : Tensor α) (h : pads.length = 2 * k) (hk : k ≤ t.shape.length)
    (hp : ReflectOK pads t.shape) : ∃ r, reflectPad pads t = some r ∧ Same r (torchReflect pads t) := by
  obtain ⟨m, h1, h2, h3⟩ := padMatrix_spec pads _ k h hk
  unfold reflectPad
  rw [h1]
  exact mirror_eq pads m t h2 h3 hp

/-- **C77, `aten::reflection_pad2d`** on batched images. Partial: unbatched ones are refused (`C77_reflect_unbatched_false`). -/
theorem C77_reflect2d_partial {α : Type} (l r u d : Int) (t : Tensor α) (h4 : t.shape.length = 4)
    (hp : ReflectOK [l, r, u, d] t.shape) : ∃ y, reflectPad2d [l, r, u, d] t = some y ∧ Same y (torchReflect [l, r, u, d] t) := by
  refine mirror_eq _ _ t (by simp [h4]) ?_ hp
  intro a ha
  rw [h4] at ha ⊢
  obtain rfl | rfl | rfl | rfl : a = 0 ∨ a = 1 ∨ a = 2 ∨ a = 3 := by omega
  all_goals rfl

/-- **C77, `aten::reflection_pad1d`** on batched sequences. -/
theorem C77_reflect1d_partial {α : Type} (l r : Int) (t : Tensor α) (h3 : t.shape.length = 3)
    (hp : ReflectOK [l, r] t.shape) : ∃ y, reflectPad1d [l, r] t = some y ∧ Same y (torchReflect [l, r] t) := by
  refine mirror_eq _ _ t (by simp [h3]) ?_ hp
  intro a ha
  rw [h3] at ha ⊢
  obtain rfl | rfl | rfl : a = 0 ∨ a = 1 ∨ a = 2 := by omega
  all_goals rfl

example : ReflectOK [1, 2] [1, 1, 3] ∧
    (List.range 6).map (fun i => (torchReflect [1, 2] ⟨[1, 1, 3], fun i => i.getD 2 0⟩).get [0, 0, i]) = [1, 0, 1, 2, 1, 0] := by
  refine ⟨?_, by decide⟩
  unfold ReflectOK; decide

example : ReflectOK [1, 0, 0, 1] [1, 1, 2, 2] := by
  unfold ReflectOK; decide

/-- **C77 is false for unbatched images and sequences**: the table of amounts has one row too many, and the operator is refused,
whatever the amounts. -/
theorem C77_reflect_unbatched_false {α : Type} (pads : List Int) (t : Tensor α) :
    (t.shape.length = 3 → reflectPad2d pads t = none) ∧ (t.shape.length = 2 → reflectPad1d pads t = none) := by
  constructor
  · intro h
    unfold reflectPad2d tflMirror
    rw [if_neg]
    rintro ⟨h1, -⟩
    simp [h] at h1
  · intro h
    unfold reflectPad1d tflMirror
    rw [if_neg]
    rintro ⟨h1, -⟩
    simp [h] at h1

example : ReflectOK [1, 1, 1, 1] [1, 3, 3] ∧ (torchReflect [1, 1, 1, 1] ⟨[1, 3, 3], fun i => i.getD 1 0⟩).get [0, 0, 0] = 1 := by
  refine ⟨?_, by decide⟩
  unfold ReflectOK; decide

end Verif.Props
