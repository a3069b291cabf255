import Verif.Model.ConvLower
import Verif.Lemmas.Tensor
import Mathlib.Tactic.IntervalCases
import Mathlib.Tactic.Ring
import Mathlib.Tactic.Linarith

/-! C70: convolutions keep their result in the channels-last layout. -/

namespace Verif.Props
open Verif.Spec Verif.Model Verif.Lemmas

variable {R : Type} [Semiring R]

theorem getOr4 (t : Tensor R) {a b c d : Nat} (h : t.shape = [a, b, c, d]) (p q r s : Int) :
    getOr t 0 [p, q, r, s] = if (0 ≤ p ∧ p < a) ∧ (0 ≤ q ∧ q < b) ∧ (0 ≤ r ∧ r < c) ∧ (0 ≤ s ∧ s < d) then t.get [p.toNat, q.toNat, r.toNat, s.toNat] else 0 := by
  unfold getOr
  rw [h]
  have : (List.range [a, b, c, d].length).all (fun i => decide (0 ≤ [p, q, r, s].getD i 0 ∧ [p, q, r, s].getD i 0 < ([a, b, c, d].getD i 0 : Nat)))
      = decide ((0 ≤ p ∧ p < a) ∧ (0 ≤ q ∧ q < b) ∧ (0 ≤ r ∧ r < c) ∧ (0 ≤ s ∧ s < d)) := by
    simp [List.range_succ, Bool.and_assoc]
  rw [this]
  simp

theorem getOr5 (t : Tensor R) {a b c d e : Nat} (h : t.shape = [a, b, c, d, e]) (p q r s u : Int) :
    getOr t 0 [p, q, r, s, u] = if (0 ≤ p ∧ p < a) ∧ (0 ≤ q ∧ q < b) ∧ (0 ≤ r ∧ r < c) ∧ (0 ≤ s ∧ s < d) ∧ (0 ≤ u ∧ u < e) then
      t.get [p.toNat, q.toNat, r.toNat, s.toNat, u.toNat] else 0 := by
  unfold getOr
  rw [h]
  have : (List.range [a, b, c, d, e].length).all (fun i => decide (0 ≤ [p, q, r, s, u].getD i 0 ∧ [p, q, r, s, u].getD i 0 < ([a, b, c, d, e].getD i 0 : Nat)))
      = decide ((0 ≤ p ∧ p < a) ∧ (0 ≤ q ∧ q < b) ∧ (0 ≤ r ∧ r < c) ∧ (0 ≤ s ∧ s < d) ∧ (0 ≤ u ∧ u < e)) := by
    simp [List.range_succ, Bool.and_assoc]
  rw [this]
  simp

theorem getOr3 (t : Tensor R) {a b c : Nat} (h : t.shape = [a, b, c]) (p q r : Int) :
    getOr t 0 [p, q, r] = if (0 ≤ p ∧ p < a) ∧ (0 ≤ q ∧ q < b) ∧ (0 ≤ r ∧ r < c) then t.get [p.toNat, q.toNat, r.toNat] else 0 := by
  unfold getOr
  rw [h]
  have : (List.range [a, b, c].length).all (fun i => decide (0 ≤ [p, q, r].getD i 0 ∧ [p, q, r].getD i 0 < ([a, b, c].getD i 0 : Nat)))
      = decide ((0 ≤ p ∧ p < a) ∧ (0 ≤ q ∧ q < b) ∧ (0 ≤ r ∧ r < c)) := by
    simp [List.range_succ, Bool.and_assoc]
  rw [this]
  simp

omit [Semiring R] in
theorem transpose_nhwc (x : Tensor R) {a b c d : Nat} (h : x.shape = [a, b, c, d]) : (transpose [0, 2, 3, 1] x).shape = [a, c, d, b] ∧
    ∀ i j k l, (transpose [0, 2, 3, 1] x).get [i, j, k, l] = x.get [i, l, j, k] := by
  constructor
  · simp [transpose, h]
  · intro i j k l
    simp only [transpose, h]
    rfl

omit [Semiring R] in
theorem transpose_chwn (x : Tensor R) {a b c d : Nat} (h : x.shape = [a, b, c, d]) : (transpose [1, 2, 3, 0] x).shape = [b, c, d, a] ∧
    ∀ i j k l, (transpose [1, 2, 3, 0] x).get [i, j, k, l] = x.get [l, i, j, k] := by
  constructor
  · simp [transpose, h]
  · intro i j k l
    simp only [transpose, h]
    rfl

omit [Semiring R] in
theorem transpose_nchw (x : Tensor R) {a b c d : Nat} (h : x.shape = [a, b, c, d]) : (transpose [0, 3, 1, 2] x).shape = [a, d, b, c] ∧
    ∀ i j k l, (transpose [0, 3, 1, 2] x).get [i, j, k, l] = x.get [i, k, l, j] := by
  constructor
  · simp [transpose, h]
  · intro i j k l
    simp only [transpose, h]
    rfl

/-- Reading the padded channels-last input. -/
theorem getOr_padInput (x : Tensor R) {N C H W : Nat} (h : x.shape = [N, C, H, W]) (pH pW : Nat) (n c : Nat) (y z : Int) :
    (padInput pH pW (transpose [0, 2, 3, 1] x)).shape = [N, H + 2 * pH, W + 2 * pW, C] ∧
    getOr (padInput pH pW (transpose [0, 2, 3, 1] x)) 0 [(n : Int), y, z, (c : Int)] = getOr x 0 [(n : Int), (c : Int), y - pH, z - pW] := by
  obtain ⟨ht, hg⟩ := transpose_nhwc x h
  unfold padInput
  by_cases hp : 0 < pH + pW
  · rw [if_pos hp]
    have hs : (pad [0, pH, pW, 0] [0, pH, pW, 0] 0 (transpose [0, 2, 3, 1] x)).shape = [N, H + 2 * pH, W + 2 * pW, C] := by
      simp only [pad, ht]
      simp [List.range_succ]
      omega
    refine ⟨hs, ?_⟩
    rw [getOr4 _ hs, getOr4 x h]
    simp only [pad, ht]
    simp only [List.length_cons, List.length_nil, zero_add, Nat.reduceAdd]
    have hall : ∀ (P : Nat → Prop), (∀ a < 4, P a) ↔ P 0 ∧ P 1 ∧ P 2 ∧ P 3 := by
      intro P
      constructor
      · intro h; exact ⟨h 0 (by omega), h 1 (by omega), h 2 (by omega), h 3 (by omega)⟩
      · rintro ⟨h0, h1, h2, h3⟩ a ha
        interval_cases a <;> assumption
    simp only [hall]
    simp only [List.getD_cons_zero, List.getD_cons_succ, List.range_succ, List.range_zero, List.nil_append, List.cons_append, List.map_cons, List.map_nil]
    rw [hg]
    by_cases h1 : (0 ≤ (n : Int) ∧ (n : Int) < N) ∧ (0 ≤ (c : Int) ∧ (c : Int) < C) ∧ (0 ≤ y - pH ∧ y - pH < H) ∧ (0 ≤ z - pW ∧ z - pW < W)
    · rw [if_pos h1, if_pos (by omega), if_pos (by omega)]
      congr 1
      simp only [Int.toNat_natCast, Nat.sub_zero, List.cons.injEq, and_true, true_and]
      omega
    · rw [if_neg h1]
      split
      · rw [if_neg]
        omega
      · rfl
  · have h0 : pH = 0 ∧ pW = 0 := by omega
    rw [if_neg hp, h0.1, h0.2]
    refine ⟨by simpa using ht, ?_⟩
    rw [getOr4 _ ht, getOr4 x h, hg]
    simp only [Nat.cast_zero, sub_zero]
    congr 1
    simp only [eq_iff_iff]
    tauto

theorem biasOperand_getD (b : Option (List R)) (k o : Nat) : ((biasOperand b k).map (fun b => b.getD o 0)).getD 0 = biasOf b o := by
  cases b with
  | none =>
    simp only [biasOperand, biasOf, Option.map_some, Option.getD_some, Option.map_none, Option.getD_none]
    simp only [List.getD_eq_getElem?_getD, List.getElem?_replicate]
    split <;> rfl
  | some l => rfl

theorem validOut_axis (a : ConvAxis) (len k : Nat) (hs : 0 < a.stride) (hfit : a.dil * (k - 1) + 1 ≤ len + 2 * a.pad) : validOut (len + 2 * a.pad) k a.stride a.dil = a.out len k := by
  unfold validOut ConvAxis.out
  rw [Nat.mul_comm (k - 1), show len + 2 * a.pad + a.stride - (a.dil * (k - 1) + 1) = (len + 2 * a.pad - (a.dil * (k - 1) + 1)) + a.stride by omega, Nat.add_div_right _ hs]

/-- A 2-D convolution, with any number of groups. -/
theorem C70_conv2d (a₁ a₂ : ConvAxis) (groups : Nat) (act : R → R) (x w : Tensor R) (b : Option (List R)) (N C H W O I KH KW : Nat) (hx : x.shape = [N, C, H, W]) (hw : w.shape = [O, I, KH, KW])
    (hI : 0 < I) (hC : C = groups * I) (hs₁ : 0 < a₁.stride) (hs₂ : 0 < a₂.stride) (hf₁ : a₁.dil * (KH - 1) + 1 ≤ H + 2 * a₁.pad) (hf₂ : a₂.dil * (KW - 1) + 1 ≤ W + 2 * a₂.pad) :
    Same (lowerConv2d a₁ a₂ groups act x w b) (mapTensor act (torchConv2d a₁ a₂ groups x w b)) := by
  have hxs := (getOr_padInput x hx a₁.pad a₂.pad 0 0 0 0).1
  have hread := fun n c y z => (getOr_padInput x hx a₁.pad a₂.pad n c y z).2
  unfold lowerConv2d
  by_cases hdw : w.size 1 = 1 ∧ w.size 0 = groups
  · simp only [if_pos hdw]
    have hI1 : I = 1 := by have := hdw.1; simpa [Tensor.size, hw] using this
    have hO : O = groups := by have := hdw.2; simpa [Tensor.size, hw] using this
    obtain ⟨hws, hwg⟩ := transpose_chwn w hw
    set X := padInput a₁.pad a₂.pad (transpose [0, 2, 3, 1] x)
    set V := transpose [1, 2, 3, 0] w
    have hys : (depthwise2d a₁.stride a₂.stride a₁.dil a₂.dil 1 act X V (biasOperand b (V.size 3))).shape = [N, a₁.out H KH, a₂.out W KW, O] := by
      simp only [depthwise2d, Tensor.size, hxs, hws, List.getD_cons_zero, List.getD_cons_succ]
      rw [validOut_axis a₁ H KH hs₁ hf₁, validOut_axis a₂ W KW hs₂ hf₂]
    obtain ⟨hts, htg⟩ := transpose_nchw _ hys
    refine ⟨by rw [hts]; simp [mapTensor, torchConv2d, Tensor.size, hx, hw], fun idx hi => ?_⟩
    rw [hts] at hi
    obtain ⟨n, o, y, z, rfl, hn, ho, hy, hz⟩ : ∃ n o y z, idx = [n, o, y, z] ∧ n < N ∧ o < O ∧ y < a₁.out H KH ∧ z < a₂.out W KW := by
      rcases hi with _ | ⟨h1, _ | ⟨h2, _ | ⟨h3, _ | ⟨h4, _ | _⟩⟩⟩⟩
      exact ⟨_, _, _, _, rfl, h1, h2, h3, h4⟩
    rw [htg]
    simp only [mapTensor, depthwise2d, torchConv2d, Tensor.size, hx, hw, hws, List.getD_cons_zero, List.getD_cons_succ]
    congr 1
    have hb := biasOperand_getD b O o
    unfold biasOf at hb ⊢
    rw [hb]
    congr 3
    funext ky
    congr 2
    funext kx
    rw [hI1, hwg, hread]
    have hO0 : 0 < O := by omega
    simp [ConvAxis.src, ← hO, Nat.div_self hO0]
  · simp only [if_neg hdw]
    obtain ⟨hws, hwg⟩ := transpose_nhwc w hw
    set X := padInput a₁.pad a₂.pad (transpose [0, 2, 3, 1] x)
    set V := transpose [0, 2, 3, 1] w
    have hys : (conv2d ⟨a₁.stride, a₂.stride, a₁.dil, a₂.dil, false⟩ act X V (biasOperand b (V.size 0))).shape = [N, a₁.out H KH, a₂.out W KW, O] := by
      simp only [conv2d, convOutLen, Tensor.size, hxs, hws, List.getD_cons_zero, List.getD_cons_succ]
      simp only [Bool.false_eq_true, if_false]
      rw [validOut_axis a₁ H KH hs₁ hf₁, validOut_axis a₂ W KW hs₂ hf₂]
    obtain ⟨hts, htg⟩ := transpose_nchw _ hys
    refine ⟨by rw [hts]; simp [mapTensor, torchConv2d, Tensor.size, hx, hw], fun idx hi => ?_⟩
    rw [hts] at hi
    obtain ⟨n, o, y, z, rfl, hn, ho, hy, hz⟩ : ∃ n o y z, idx = [n, o, y, z] ∧ n < N ∧ o < O ∧ y < a₁.out H KH ∧ z < a₂.out W KW := by
      rcases hi with _ | ⟨h1, _ | ⟨h2, _ | ⟨h3, _ | ⟨h4, _ | _⟩⟩⟩⟩
      exact ⟨_, _, _, _, rfl, h1, h2, h3, h4⟩
    rw [htg]
    simp only [mapTensor, conv2d, torchConv2d, Tensor.size, hx, hw, hws, hxs, List.getD_cons_zero, List.getD_cons_succ, convPadBefore]
    congr 1
    have hb := biasOperand_getD b O o
    rw [hb]
    congr 3
    funext ky
    congr 2
    funext kx
    congr 2
    funext i
    rw [hwg, hread, hC, Nat.mul_div_cancel _ hI]
    simp [ConvAxis.src]

omit [Semiring R] in
/-- An axis of size 1 in third place. -/
theorem reshape_line (x : Tensor R) {a b c : Nat} (h : x.shape = [a, b, c]) (i j k : Nat) (hj : j < b) (hk : k < c) (hi : i < a) : (reshape [a, b, 1, c] x).get [i, j, 0, k] = x.get [i, j, k] := by
  have hb : InBounds x.shape [i, j, k] := by rw [h]; exact .cons hi (.cons hj (.cons hk .nil))
  have : flat [a, b, 1, c] [i, j, 0, k] = flat x.shape [i, j, k] := by rw [h]; simp [flat]
  simp only [reshape]
  rw [this, unflat_flat hb]

theorem getOr_line (x : Tensor R) {a b c : Nat} (h : x.shape = [a, b, c]) (p q s : Int) : getOr (reshape [a, b, 1, c] x) 0 [p, q, 0, s] = getOr x 0 [p, q, s] := by
  rw [getOr4 (reshape [a, b, 1, c] x) rfl, getOr3 x h]
  by_cases hc : (0 ≤ p ∧ p < a) ∧ (0 ≤ q ∧ q < b) ∧ (0 ≤ s ∧ s < c)
  · rw [if_pos hc, if_pos ⟨hc.1, hc.2.1, by omega, hc.2.2⟩]
    exact reshape_line x h _ _ _ (by omega) (by omega) (by omega)
  · rw [if_neg hc, if_neg]
    rintro ⟨h1, h2, -, h4⟩
    exact hc ⟨h1, h2, h4⟩

/-- A 1-D convolution. -/
theorem C70_conv1d (a : ConvAxis) (groups : Nat) (act : R → R) (x w : Tensor R) (b : Option (List R)) (N C L O I K : Nat) (hx : x.shape = [N, C, L]) (hw : w.shape = [O, I, K])
    (hI : 0 < I) (hC : C = groups * I) (hs : 0 < a.stride) (hf : a.dil * (K - 1) + 1 ≤ L + 2 * a.pad) :
    Same (lowerConv1d a groups act (torchConv1d a groups x w b).shape x w b) (mapTensor act (torchConv1d a groups x w b)) := by
  have hout : (torchConv1d a groups x w b).shape = [N, O, a.out L K] := by simp [torchConv1d, Tensor.size, hx, hw]
  have hx4 : x.shape.insertIdx 2 1 = [N, C, 1, L] := by rw [hx]; rfl
  have hw4 : w.shape.insertIdx 2 1 = [O, I, 1, K] := by rw [hw]; rfl
  have h2 := C70_conv2d ⟨1, 0, 1⟩ a groups act (reshape [N, C, 1, L] x) (reshape [O, I, 1, K] w) b N C 1 L O I 1 K rfl rfl hI hC (by norm_num) hs (by norm_num) hf
  have h2s : (mapTensor act (torchConv2d ⟨1, 0, 1⟩ a groups (reshape [N, C, 1, L] x) (reshape [O, I, 1, K] w) b)).shape = [N, O, 1, a.out L K] := by
    simp [mapTensor, torchConv2d, Tensor.size, reshape, ConvAxis.out]
  unfold lowerConv1d
  rw [hout, hx4, hw4]
  refine ⟨by simp [reshape, mapTensor, hout], fun idx hi => ?_⟩
  have hi' : InBounds [N, O, a.out L K] idx := hi
  obtain ⟨n, o, z, rfl, hn, ho, hz⟩ : ∃ n o z, idx = [n, o, z] ∧ n < N ∧ o < O ∧ z < a.out L K := by
    rcases hi' with _ | ⟨h1, _ | ⟨h2, _ | ⟨h3, _ | _⟩⟩⟩
    exact ⟨_, _, _, rfl, h1, h2, h3⟩
  have hb4 : InBounds [N, O, 1, a.out L K] [n, o, 0, z] := .cons hn (.cons ho (.cons (by norm_num) (.cons hz .nil)))
  have hget : (reshape [N, O, a.out L K] (lowerConv2d ⟨1, 0, 1⟩ a groups act (reshape [N, C, 1, L] x) (reshape [O, I, 1, K] w) b)).get [n, o, z]
      = (lowerConv2d ⟨1, 0, 1⟩ a groups act (reshape [N, C, 1, L] x) (reshape [O, I, 1, K] w) b).get [n, o, 0, z] := by
    have : flat [N, O, a.out L K] [n, o, z] = flat [N, O, 1, a.out L K] [n, o, 0, z] := by simp [flat]
    show (lowerConv2d _ _ _ _ _ _ _).get (unflat (lowerConv2d _ _ _ _ _ _ _).shape _) = _
    rw [h2.1, h2s, this, unflat_flat hb4]
  rw [hget, h2.2 _ (by rw [h2.1, h2s]; exact hb4)]
  simp only [mapTensor, torchConv2d, torchConv1d, Tensor.size, reshape, hx, hw, List.getD_cons_zero, List.getD_cons_succ]
  congr 2
  simp only [List.range_one, List.map_cons, List.map_nil, List.sum_cons, List.sum_nil, add_zero]
  congr 1
  apply List.map_congr_left
  intro k hk
  congr 1
  apply List.map_congr_left
  intro i hi
  have e1 := reshape_line w hw o i k (List.mem_range.1 hi) (List.mem_range.1 hk) ho
  have e2 := getOr_line x hx (n : Int) ((o / (O / groups) * I + i : Nat) : Int) (a.src z k)
  have e3 : ConvAxis.src ⟨1, 0, 1⟩ 0 0 = 0 := by simp [ConvAxis.src]
  simp only [reshape, hx, hw] at e1 e2
  rw [e1, e3, e2]

/-- The layout changes of 5-D tensors. -/
theorem transpose5 (x : Tensor R) {a b c d e : Nat} (h : x.shape = [a, b, c, d, e]) :
    ((transpose [0, 2, 3, 4, 1] x).shape = [a, c, d, e, b] ∧ ∀ i j k l m, (transpose [0, 2, 3, 4, 1] x).get [i, j, k, l, m] = x.get [i, m, j, k, l]) ∧
    ((transpose [0, 4, 1, 2, 3] x).shape = [a, e, b, c, d] ∧ ∀ i j k l m, (transpose [0, 4, 1, 2, 3] x).get [i, j, k, l, m] = x.get [i, k, l, m, j]) ∧
    ((transpose [2, 3, 4, 1, 0] x).shape = [c, d, e, b, a] ∧ ∀ i j k l m, (transpose [2, 3, 4, 1, 0] x).get [i, j, k, l, m] = x.get [m, l, i, j, k]) := by
  refine ⟨⟨by simp [transpose, h], fun i j k l m => ?_⟩, ⟨by simp [transpose, h], fun i j k l m => ?_⟩, by simp [transpose, h], fun i j k l m => ?_⟩ <;>
    (simp only [transpose, h]; rfl)

theorem getOr_pad5 (x : Tensor R) {N C D H W : Nat} (h : x.shape = [N, C, D, H, W]) (p₁ p₂ p₃ : Nat) (n c : Nat) (u y z : Int) :
    let X := transpose [0, 2, 3, 4, 1] x
    let X' := if 0 < p₁ + p₂ + p₃ then pad [0, p₁, p₂, p₃, 0] [0, p₁, p₂, p₃, 0] 0 X else X
    X'.shape = [N, D + 2 * p₁, H + 2 * p₂, W + 2 * p₃, C] ∧
    getOr X' 0 [(n : Int), u, y, z, (c : Int)] = getOr x 0 [(n : Int), (c : Int), u - p₁, y - p₂, z - p₃] := by
  obtain ⟨⟨ht, hg⟩, -⟩ := transpose5 x h
  dsimp only
  by_cases hp : 0 < p₁ + p₂ + p₃
  · rw [if_pos hp]
    have hs : (pad [0, p₁, p₂, p₃, 0] [0, p₁, p₂, p₃, 0] 0 (transpose [0, 2, 3, 4, 1] x)).shape = [N, D + 2 * p₁, H + 2 * p₂, W + 2 * p₃, C] := by
      simp only [pad, ht]
      simp [List.range_succ]
      omega
    refine ⟨hs, ?_⟩
    rw [getOr5 _ hs, getOr5 x h]
    simp only [pad, ht]
    simp only [List.length_cons, List.length_nil, zero_add, Nat.reduceAdd]
    have hall : ∀ (P : Nat → Prop), (∀ a < 5, P a) ↔ P 0 ∧ P 1 ∧ P 2 ∧ P 3 ∧ P 4 := by
      intro P
      constructor
      · intro h; exact ⟨h 0 (by omega), h 1 (by omega), h 2 (by omega), h 3 (by omega), h 4 (by omega)⟩
      · rintro ⟨h0, h1, h2, h3, h4⟩ a ha
        interval_cases a <;> assumption
    simp only [hall]
    simp only [List.getD_cons_zero, List.getD_cons_succ, List.range_succ, List.range_zero, List.nil_append, List.cons_append, List.map_cons, List.map_nil]
    rw [hg]
    by_cases h1 : (0 ≤ (n : Int) ∧ (n : Int) < N) ∧ (0 ≤ (c : Int) ∧ (c : Int) < C) ∧ (0 ≤ u - p₁ ∧ u - p₁ < D) ∧ (0 ≤ y - p₂ ∧ y - p₂ < H) ∧ (0 ≤ z - p₃ ∧ z - p₃ < W)
    · rw [if_pos h1, if_pos (by omega), if_pos (by omega)]
      congr 1
      simp only [Int.toNat_natCast, Nat.sub_zero, List.cons.injEq, and_true, true_and]
      omega
    · rw [if_neg h1]
      split
      · rw [if_neg]
        omega
      · rfl
  · have h0 : p₁ = 0 ∧ p₂ = 0 ∧ p₃ = 0 := by omega
    rw [if_neg hp, h0.1, h0.2.1, h0.2.2]
    refine ⟨by simpa using ht, ?_⟩
    rw [getOr5 _ ht, getOr5 x h, hg]
    simp only [Nat.cast_zero, sub_zero]
    congr 1
    simp only [eq_iff_iff]
    tauto

/-- A 3-D convolution with one group. -/
theorem C70_conv3d (a₁ a₂ a₃ : ConvAxis) (act : R → R) (x w : Tensor R) (b : Option (List R)) (N C D H W O KD KH KW : Nat) (hx : x.shape = [N, C, D, H, W]) (hw : w.shape = [O, C, KD, KH, KW])
    (hs₁ : 0 < a₁.stride) (hs₂ : 0 < a₂.stride) (hs₃ : 0 < a₃.stride) (hf₁ : a₁.dil * (KD - 1) + 1 ≤ D + 2 * a₁.pad) (hf₂ : a₂.dil * (KH - 1) + 1 ≤ H + 2 * a₂.pad)
    (hf₃ : a₃.dil * (KW - 1) + 1 ≤ W + 2 * a₃.pad) : Same (lowerConv3d a₁ a₂ a₃ act x w b) (mapTensor act (torchConv3d a₁ a₂ a₃ x w b)) := by
  have hxs := (getOr_pad5 x hx a₁.pad a₂.pad a₃.pad 0 0 0 0 0).1
  have hread := fun n c u y z => (getOr_pad5 x hx a₁.pad a₂.pad a₃.pad n c u y z).2
  obtain ⟨-, -, hws, hwg⟩ := transpose5 w hw
  unfold lowerConv3d
  dsimp only at hxs hread ⊢
  set X := if 0 < a₁.pad + a₂.pad + a₃.pad then pad [0, a₁.pad, a₂.pad, a₃.pad, 0] [0, a₁.pad, a₂.pad, a₃.pad, 0] 0 (transpose [0, 2, 3, 4, 1] x) else transpose [0, 2, 3, 4, 1] x
  set V := transpose [2, 3, 4, 1, 0] w
  have hys : (conv3d (fun i : Fin 3 => if i = 0 then a₁.stride else if i = 1 then a₂.stride else a₃.stride) (fun i : Fin 3 => if i = 0 then a₁.dil else if i = 1 then a₂.dil else a₃.dil)
      act X V (biasOperand b (V.size 4))).shape = [N, a₁.out D KD, a₂.out H KH, a₃.out W KW, O] := by
    simp only [conv3d, Tensor.size, hxs, hws, List.getD_cons_zero, List.getD_cons_succ]
    have e1 := validOut_axis a₁ D KD hs₁ hf₁
    have e2 := validOut_axis a₂ H KH hs₂ hf₂
    have e3 := validOut_axis a₃ W KW hs₃ hf₃
    simp [e1, e2, e3]
  obtain ⟨-, ⟨hts, htg⟩, -⟩ := transpose5 _ hys
  refine ⟨by rw [hts]; simp [mapTensor, torchConv3d, Tensor.size, hx, hw], fun idx hi => ?_⟩
  rw [hts] at hi
  obtain ⟨n, o, u, y, z, rfl, hn, ho, hu, hy, hz⟩ : ∃ n o u y z, idx = [n, o, u, y, z] ∧ n < N ∧ o < O ∧ u < a₁.out D KD ∧ y < a₂.out H KH ∧ z < a₃.out W KW := by
    rcases hi with _ | ⟨h1, _ | ⟨h2, _ | ⟨h3, _ | ⟨h4, _ | ⟨h5, _ | _⟩⟩⟩⟩⟩
    exact ⟨_, _, _, _, _, rfl, h1, h2, h3, h4, h5⟩
  rw [htg]
  simp only [mapTensor, conv3d, torchConv3d, Tensor.size, hx, hw, hws, List.getD_cons_zero, List.getD_cons_succ]
  congr 1
  have hb := biasOperand_getD b O o
  unfold biasOf at hb ⊢
  rw [hb]
  congr 3
  funext kz
  congr 2
  funext ky
  congr 2
  funext kx
  congr 2
  funext i
  rw [hwg, hread]
  simp [ConvAxis.src]

theorem deconvPos_shift (s p y k : Nat) : deconvPos s 0 (p + y) k = deconvPos s p y k := by
  unfold deconvPos
  rw [Nat.add_zero, Nat.add_comm]

/-- A transposed 2-D convolution with any number of groups (for the runtime that accepts them), output padding included. -/
theorem C70_deconv2d (sH sW pH pW oH oW groups : Nat) (act : R → R) (withBias : Bool) (hact : withBias = false → ∀ v, act v = v) (x w : Tensor R) (b : Option (List R)) (N C H W J KH KW : Nat)
    (hx : x.shape = [N, C, H, W]) (hw : w.shape = [C, J, KH, KW]) (hJ : 0 < J) (hg : groups ∣ C) (hg0 : 0 < groups) :
    Same (lowerDeconv2d sH sW pH pW act withBias (torchDeconv2d sH sW pH pW oH oW groups x w b).shape x w b) (mapTensor act (torchDeconv2d sH sW pH pW oH oW groups x w b)) := by
  obtain ⟨hxs, hxg⟩ := transpose_nhwc x hx
  obtain ⟨hws, hwg⟩ := transpose_chwn w hw
  have hout : (torchDeconv2d sH sW pH pW oH oW groups x w b).shape = [N, J * groups, deconvLen sH pH oH H KH, deconvLen sW pW oW W KW] := by
    simp [torchDeconv2d, Tensor.size, hx, hw]
  set OH := deconvLen sH pH oH H KH
  set OW := deconvLen sW pW oW W KW
  have hread : ∀ (n c : Nat) (y z : Int), getOr (transpose [0, 2, 3, 1] x) 0 [(n : Int), y, z, (c : Int)] = getOr x 0 [(n : Int), (c : Int), y, z] := by
    intro n c y z
    rw [getOr4 _ hxs, getOr4 x hx, hxg]
    congr 1
    simp only [eq_iff_iff]
    tauto
  unfold lowerDeconv2d deconvShape
  rw [hout]
  simp only [List.getD_cons_zero, List.getD_cons_succ]
  -- the value of the operator at a position shifted by the padding
  have hval : ∀ (os : List Nat) (hos : os.getD 3 0 = J * groups) (bb : Option (List R)) (n o y z : Nat),
      (deconv2d sH sW 0 0 act os (transpose [1, 2, 3, 0] w) (transpose [0, 2, 3, 1] x) bb).get [n, pH + y, pW + z, o] =
        act ((bb.map (fun b => b.getD o 0)).getD 0 + ((List.range KH).map (fun ky => ((List.range KW).map (fun kx => ((List.range (C / groups)).map (fun i =>
      match deconvPos sH pH y ky, deconvPos sW pW z kx with
      | some py, some px => w.get [o / J * (C / groups) + i, o % J, ky, kx] * getOr x 0 [(n : Nat), (o / J * (C / groups) + i : Nat), py, px]
      | _, _ => 0)).sum)).sum)).sum) := by
    intro os hos bb n o y z
    simp only [deconv2d, Tensor.size, hxs, hws, hos, List.getD_cons_zero, List.getD_cons_succ, deconvPos_shift, Nat.mul_div_cancel_left _ hJ]
    congr 4
    funext ky
    congr 2
    funext kx
    congr 2
    funext i
    cases deconvPos sH pH y ky <;> cases deconvPos sW pW z kx <;> simp only [hwg, hread]
  set bb : Option (List R) := if withBias then biasOperand b (J * groups) else none with hbb
  set os : List Nat := if 0 < pH + pW then [N, OH + 2 * pH, OW + 2 * pW, J * groups] else [N, OH, OW, J * groups] with hosd
  have hos3 : os.getD 3 0 = J * groups := by rw [hosd]; split <;> rfl
  set Y := deconv2d sH sW 0 0 act os (transpose [1, 2, 3, 0] w) (transpose [0, 2, 3, 1] x) bb with hY
  set Z := if 0 < pH + pW then SliceOp.run (.slice [0, pH, pW, 0] [N, OH, OW, J * groups]) Y else Y with hZ
  have hZs : Z.shape = [N, OH, OW, J * groups] := by
    rw [hZ]
    split
    · rfl
    · rename_i h0
      show os = _
      rw [hosd, if_neg h0]
  have hZg : ∀ n o y z, Z.get [n, y, z, o] = Y.get [n, pH + y, pW + z, o] := by
    intro n o y z
    rw [hZ]
    split
    · rename_i h0
      have : Y.shape = [N, OH + 2 * pH, OW + 2 * pW, J * groups] := by show os = _; rw [hosd, if_pos h0]
      simp [SliceOp.run, this, List.range_succ]
    · rename_i h0
      have : pH = 0 ∧ pW = 0 := by omega
      simp [this.1, this.2]
  have key : ∀ T : Tensor R, T.shape = [N, OH, OW, J * groups] →
      (∀ n o y z, o < J * groups → T.get [n, y, z, o] = act ((torchDeconv2d sH sW pH pW oH oW groups x w b).get [n, o, y, z])) →
      Same (transpose [0, 3, 1, 2] T) (mapTensor act (torchDeconv2d sH sW pH pW oH oW groups x w b)) := by
    intro T hT hTg
    obtain ⟨h1, h2⟩ := transpose_nchw T hT
    refine ⟨by rw [h1]; simp [mapTensor, hout, OH, OW], fun idx hi => ?_⟩
    rw [h1] at hi
    obtain ⟨n, o, y, z, rfl, ho⟩ : ∃ n o y z, idx = [n, o, y, z] ∧ o < J * groups := by
      rcases hi with _ | ⟨_, _ | ⟨h2, _ | ⟨_, _ | ⟨_, _ | _⟩⟩⟩⟩
      exact ⟨_, _, _, _, rfl, h2⟩
    rw [h2, hTg _ _ _ _ ho]
    rfl
  have hspec : ∀ n o y z, (torchDeconv2d sH sW pH pW oH oW groups x w b).get [n, o, y, z] = biasOf b o + ((List.range KH).map (fun ky => ((List.range KW).map (fun kx => ((List.range (C / groups)).map (fun i =>
      match deconvPos sH pH y ky, deconvPos sW pW z kx with
      | some py, some px => w.get [o / J * (C / groups) + i, o % J, ky, kx] * getOr x 0 [(n : Nat), (o / J * (C / groups) + i : Nat), py, px]
      | _, _ => 0)).sum)).sum)).sum := by
    intro n o y z
    simp only [torchDeconv2d, Tensor.size, hx, hw, List.getD_cons_zero, List.getD_cons_succ]
    rfl
  cases hwb : withBias with
  | true =>
    apply key _ hZs
    intro n o y z ho
    rw [hZg, hY, hval os hos3, hspec]
    congr 2
    have := biasOperand_getD b (J * groups) o
    rw [hbb, hwb]
    exact this
  | false =>
    have hact' := hact hwb
    have hb0 : bb = none := by rw [hbb, hwb]; rfl
    cases b with
    | none =>
      apply key _ hZs
      intro n o y z ho
      rw [hZg, hY, hval os hos3, hspec, hb0]
      simp [biasOf]
    | some l =>
      refine key ⟨Z.shape, fun idx => Z.get idx + l.getD (idx.getD 3 0) 0⟩ hZs ?_
      intro n o y z ho
      simp only [List.getD_cons_zero, List.getD_cons_succ]
      rw [hZg, hY, hval os hos3, hspec, hb0, hact', hact']
      simp [biasOf, add_comm]

/-- The output shape given to the operator is the size of the full result of the transposed convolution (plus the output padding), and the part taken out of it lies inside, for every axis
whose full result is larger than its padding. -/
theorem C70_deconv_shape (sH sW pH pW oH oW groups : Nat) (x w : Tensor R) (b : Option (List R)) (N C H W J KH KW : Nat)
    (hx : x.shape = [N, C, H, W]) (hw : w.shape = [C, J, KH, KW]) (h1 : 2 * pH ≤ (H - 1) * sH + KH + oH) (h2 : 2 * pW ≤ (W - 1) * sW + KW + oW) :
    deconvShape pH pW (torchDeconv2d sH sW pH pW oH oW groups x w b).shape = [N, (H - 1) * sH + KH + oH, (W - 1) * sW + KW + oW, J * groups] ∧
    (0 < pH + pW → ∀ a < 4, ([0, pH, pW, 0] : List Nat).getD a 0 + [N, deconvLen sH pH oH H KH, deconvLen sW pW oW W KW, J * groups].getD a 0 ≤
      (deconvShape pH pW (torchDeconv2d sH sW pH pW oH oW groups x w b).shape).getD a 0) := by
  have hs : deconvShape pH pW (torchDeconv2d sH sW pH pW oH oW groups x w b).shape = [N, (H - 1) * sH + KH + oH, (W - 1) * sW + KW + oW, J * groups] := by
    simp only [deconvShape, torchDeconv2d, Tensor.size, hx, hw, List.getD_cons_zero, List.getD_cons_succ, deconvLen]
    split
    · congr 2
      · omega
      · congr 1
        omega
    · have : pH = 0 ∧ pW = 0 := by omega
      simp [this.1, this.2]
  refine ⟨hs, fun _ a ha => ?_⟩
  rw [hs]
  interval_cases a <;> simp [deconvLen] <;> omega

/-- The hypotheses hold for a kernel of 3 with stride 2, padding 1 and output padding 1. -/
example : 2 * 1 ≤ (2 - 1) * 2 + 3 + 1 ∧ deconvShape 1 1 (torchDeconv2d (R := Int) 2 2 1 1 1 1 1 ⟨[1, 1, 2, 2], fun _ => 1⟩ ⟨[1, 1, 3, 3], fun _ => 1⟩ none).shape = [1, 6, 6, 1] := by decide

/-- A transposed 1-D convolution. -/
theorem C70_deconv1d (s p op groups : Nat) (act : R → R) (withBias : Bool) (hact : withBias = false → ∀ v, act v = v) (x w : Tensor R) (b : Option (List R)) (N C L J K : Nat)
    (hx : x.shape = [N, C, L]) (hw : w.shape = [C, J, K]) (hJ : 0 < J) (hg : groups ∣ C) (hg0 : 0 < groups) :
    Same (lowerDeconv1d s p act withBias (torchDeconv1d s p op groups x w b).shape x w b) (mapTensor act (torchDeconv1d s p op groups x w b)) := by
  have hout : (torchDeconv1d s p op groups x w b).shape = [N, J * groups, deconvLen s p op L K] := by simp [torchDeconv1d, Tensor.size, hx, hw]
  have hx4 : x.shape.insertIdx 2 1 = [N, C, 1, L] := by rw [hx]; rfl
  have hw4 : w.shape.insertIdx 2 1 = [C, J, 1, K] := by rw [hw]; rfl
  set Q := deconvLen s p op L K
  have h2 := C70_deconv2d 1 s 0 p 0 op groups act withBias hact (reshape [N, C, 1, L] x) (reshape [C, J, 1, K] w) b N C 1 L J 1 K rfl rfl hJ hg hg0
  have hout2 : (torchDeconv2d 1 s 0 p 0 op groups (reshape [N, C, 1, L] x) (reshape [C, J, 1, K] w) b).shape = [N, J * groups, 1, Q] := by
    simp [torchDeconv2d, Tensor.size, reshape, deconvLen, Q]
  have h2s : (mapTensor act (torchDeconv2d 1 s 0 p 0 op groups (reshape [N, C, 1, L] x) (reshape [C, J, 1, K] w) b)).shape = [N, J * groups, 1, Q] := hout2
  rw [hout2] at h2
  unfold lowerDeconv1d
  rw [hout, hx4, hw4]
  refine ⟨by simp [reshape, mapTensor, hout], fun idx hi => ?_⟩
  have hi' : InBounds [N, J * groups, Q] idx := hi
  obtain ⟨n, o, z, rfl, hn, ho, hz⟩ : ∃ n o z, idx = [n, o, z] ∧ n < N ∧ o < J * groups ∧ z < Q := by
    rcases hi' with _ | ⟨h1, _ | ⟨h2, _ | ⟨h3, _ | _⟩⟩⟩
    exact ⟨_, _, _, rfl, h1, h2, h3⟩
  have hb4 : InBounds [N, J * groups, 1, Q] [n, o, 0, z] := .cons hn (.cons ho (.cons (by norm_num) (.cons hz .nil)))
  have hins : [N, J * groups, Q].insertIdx 2 1 = [N, J * groups, 1, Q] := rfl
  rw [hins]
  have hget : (reshape [N, J * groups, Q] (lowerDeconv2d 1 s 0 p act withBias [N, J * groups, 1, Q] (reshape [N, C, 1, L] x) (reshape [C, J, 1, K] w) b)).get [n, o, z]
      = (lowerDeconv2d 1 s 0 p act withBias [N, J * groups, 1, Q] (reshape [N, C, 1, L] x) (reshape [C, J, 1, K] w) b).get [n, o, 0, z] := by
    have : flat [N, J * groups, Q] [n, o, z] = flat [N, J * groups, 1, Q] [n, o, 0, z] := by simp [flat]
    show (lowerDeconv2d _ _ _ _ _ _ _ _ _ _).get (unflat (lowerDeconv2d _ _ _ _ _ _ _ _ _ _).shape _) = _
    rw [h2.1, h2s, this, unflat_flat hb4]
  rw [hget, h2.2 _ (by rw [h2.1, h2s]; exact hb4)]
  have hcin : ∀ i, i < C / groups → o / J * (C / groups) + i < C := by
    intro i hi
    have h1 : o / J < groups := Nat.div_lt_of_lt_mul ho
    calc o / J * (C / groups) + i < (o / J + 1) * (C / groups) := by rw [Nat.add_mul]; omega
      _ ≤ groups * (C / groups) := Nat.mul_le_mul_right _ h1
      _ = C := Nat.mul_div_cancel' hg
  simp only [mapTensor, torchDeconv2d, torchDeconv1d, Tensor.size, reshape, hx, hw, List.getD_cons_zero, List.getD_cons_succ]
  congr 2
  simp only [List.range_one, List.map_cons, List.map_nil, List.sum_cons, List.sum_nil, add_zero]
  congr 1
  apply List.map_congr_left
  intro k hk
  congr 1
  apply List.map_congr_left
  intro i hi
  have e3 : deconvPos 1 0 0 0 = some 0 := by simp [deconvPos]
  rw [e3]
  cases deconvPos s p z k with
  | none => rfl
  | some q =>
    have e1 := reshape_line w hw (o / J * (C / groups) + i) (o % J) k (Nat.mod_lt _ hJ) (List.mem_range.1 hk) (hcin i (List.mem_range.1 hi))
    have e2 := getOr_line x hx (n : Int) ((o / J * (C / groups) + i : Nat) : Int) (q : Int)
    simp only [reshape, hx, hw] at e1 e2
    dsimp only
    rw [e1]
    congr 1

/-- The hypotheses hold for a strided, padded, dilated, grouped convolution with a bias. -/
example : (0 < 2 ∧ 4 = 2 * 2) ∧ 2 * (3 - 1) + 1 ≤ 5 + 2 * 1 ∧ (torchConv2d (R := Int) ⟨2, 1, 2⟩ ⟨1, 0, 1⟩ 2 ⟨[1, 4, 5, 3], fun i => (flat [1, 4, 5, 3] i : Int)⟩
    ⟨[2, 2, 3, 2], fun i => (flat [2, 2, 3, 2] i : Int)⟩ (some [7, 9])).shape = [1, 2, 2, 2] := by decide

/-- And the operator does compute something: one output of a transposed convolution with stride 2, padding 1 and output padding 1. -/
example : (lowerDeconv2d (R := Int) 2 2 1 1 (fun v => v) true [1, 1, 4, 4] ⟨[1, 1, 2, 2], fun i => (1 + flat [1, 1, 2, 2] i : Int)⟩ ⟨[1, 1, 3, 3], fun i => (1 + flat [1, 1, 3, 3] i : Int)⟩ (some [5])).get [0, 0, 0, 1] = 19 := by
  decide

/-- With the custom operators of one vendor a fused activation is lost: a transposed convolution followed by a ReLU gives negative values. -/
theorem C70_mtk_false : ¬ ∀ (act : Int → Int) (x w : Tensor Int) (b : Option (List Int)),
    Same (lowerDeconv2dMtk 1 1 0 0 act (torchDeconv2d 1 1 0 0 0 0 1 x w b).shape x w b) (mapTensor act (torchDeconv2d 1 1 0 0 0 0 1 x w b)) := by
  intro h
  have := (h (fun v => max v 0) ⟨[1, 1, 1, 1], fun _ => -1⟩ ⟨[1, 1, 1, 1], fun _ => 1⟩ none).2 [0, 0, 0, 0] (by simp [InBounds, lowerDeconv2dMtk, lowerDeconv2d, deconvShape, torchDeconv2d, transpose, deconv2d, Tensor.size, deconvLen])
  revert this
  decide

/-- Without a fused activation the vendor's operator gives the right result. -/
theorem C70_mtk_partial (sH sW pH pW oH oW groups : Nat) (x w : Tensor R) (b : Option (List R)) (N C H W J KH KW : Nat)
    (hx : x.shape = [N, C, H, W]) (hw : w.shape = [C, J, KH, KW]) (hJ : 0 < J) (hg : groups ∣ C) (hg0 : 0 < groups) :
    Same (lowerDeconv2dMtk sH sW pH pW (fun v => v) (torchDeconv2d sH sW pH pW oH oW groups x w b).shape x w b) (torchDeconv2d sH sW pH pW oH oW groups x w b) :=
  C70_deconv2d sH sW pH pW oH oW groups (fun v => v) true (by simp) x w b N C H W J KH KW hx hw hJ hg hg0

end Verif.Props
