import Verif.Model.GroupConv
import Mathlib.Tactic.Ring
import Mathlib.Algebra.Ring.Int.Defs

/-! C23: grouped convolutions as split, convolutions per group, concatenation. -/

namespace Verif.Props
open Verif.Spec Verif.Model

section
variable {α : Type} [Inhabited α]

/-- Element of a concatenation of parts of equal size `m`. -/
theorem concatGet_uniform (a m : Nat) (f : Nat → Tensor α) (idx : List Nat) (hf : ∀ k, (f k).size a = m) :
    ∀ (n s x : Nat), x < n * m → concatGet a ((List.range' s n).map f) x idx = (f (s + x / m)).get (idx.set a (x % m)) := by
  intro n
  induction n with
  | zero => intro s x h; omega
  | succ n ih =>
    intro s x h
    simp only [List.range'_succ, List.map_cons, concatGet, hf]
    by_cases hx : x < m
    · rw [if_pos hx, Nat.div_eq_of_lt hx, Nat.mod_eq_of_lt hx]; rfl
    · rw [if_neg hx]
      have hm : 0 < m := by
        rcases Nat.eq_zero_or_pos m with h0 | h0
        · subst h0; omega
        · exact h0
      have h1 : x - m < n * m := by
        have : (n + 1) * m = n * m + m := by ring
        omega
      rw [ih (s + 1) (x - m) h1]
      have h2 : x / m = (x - m) / m + 1 := by
        rw [← Nat.add_div_right _ hm]; congr 1; omega
      have h3 : x % m = (x - m) % m := by
        rw [← Nat.add_mod_right (x - m) m]; congr 1; omega
      rw [h3, h2]
      congr 2
      omega

private theorem sum_uniform (a m : Nat) (f : Nat → Tensor α) (hf : ∀ k, (f k).size a = m) (n : Nat) :
    (((List.range n).map f).map (fun u => u.size a)).sum = n * m := by
  induction n with
  | zero => simp
  | succ n ih =>
    rw [List.range_succ]
    simp only [List.map_append, List.sum_append, ih]
    simp [hf]; ring

end

variable {R : Type} [Semiring R] [Inhabited R]

private theorem zipWith_zip_range {β γ δ : Type} (n : Nat) (g : Nat → β) (h : Nat → γ) (F : Nat → β × γ → δ) :
    List.zipWith F (List.range n) (((List.range n).map g).zip ((List.range n).map h)) =
      (List.range n).map (fun k => F k (g k, h k)) := by
  apply List.ext_getElem <;> simp

private theorem size_split_same (t : Tensor R) (a n k : Nat) (h : a < t.shape.length) : (split a n t k).size a = t.size a / n := by
  simp [split, Tensor.size, h]

private theorem size_split_other (t : Tensor R) (a c n k : Nat) (h : a ≠ c) : (split a n t k).size c = t.size c := by
  simp [split, Tensor.size, List.getD, List.getElem?_set, h]

private theorem splitBias_eq (b : Option (List R)) (n : Nat) (hn : n ≠ 0) (hb : ∀ l, b = some l → l.length % n = 0) :
    splitBias b n = some ((List.range n).map (fun k => b.map (fun b => (b.drop (k * (b.length / n))).take (b.length / n)))) := by
  cases b with
  | none =>
    simp only [splitBias, Option.map_none]
    congr 1
    apply List.ext_getElem <;> simp
  | some l =>
    simp [splitBias, npSplit1, hn, hb l rfl]

private theorem bias_chunk (l : List R) (n m o : Nat) (hl : l.length = n * m) (hn : 0 < n) (ho : o < n * m) :
    ((l.drop (o / m * (l.length / n))).take (l.length / n)).getD (o % m) 0 = l.getD o 0 := by
  have hm : 0 < m := by
    rcases Nat.eq_zero_or_pos m with h | h
    · subst h; omega
    · exact h
  have h1 : l.length / n = m := by rw [hl, Nat.mul_div_cancel_left _ hn]
  have h2 := Nat.mod_lt o hm
  have h3 : o / m * m + o % m = o := by
    have := Nat.div_add_mod o m
    rw [Nat.mul_comm] at this
    exact this
  rw [h1]
  simp only [List.getD, List.getElem?_take, h2, if_true, List.getElem?_drop, h3]

/-- Reading a channel of one part is reading the corresponding channel of the whole. -/
private theorem getOr_split (x : Tensor R) {N H W G I k i : Nat} (hx : x.shape = [N, H, W, G * I]) (hk : k < G) (hi : i < I)
    (hG : 0 < G) (p q r : Int) :
    getOr (split 3 G x k) 0 [p, q, r, (i : Nat)] = getOr x 0 [p, q, r, (k * I + i : Nat)] := by
  have hki : k * I + i < G * I := by
    have : (k + 1) * I ≤ G * I := Nat.mul_le_mul_right _ hk
    have e : (k + 1) * I = k * I + I := by ring
    omega
  have ex : x.size 3 / G = I := by simp [Tensor.size, hx, Nat.mul_div_cancel_left _ hG]
  have e1 : (split 3 G x k).shape = [N, H, W, I] := by simp [split, hx, ex]
  have h1 : (i : Int) < (I : Int) := by exact_mod_cast hi
  have h2 : ((k * I + i : Nat) : Int) < ((G * I : Nat) : Int) := by exact_mod_cast hki
  have h3 : (0 : Int) ≤ ((k * I + i : Nat) : Int) := Int.natCast_nonneg _
  have h4 : (0 : Int) ≤ ((i : Nat) : Int) := Int.natCast_nonneg _
  unfold getOr
  rw [e1, hx]
  have c : (List.range ([N, H, W, I] : List Nat).length).all (fun a => decide (0 ≤ ([p, q, r, (i : Nat)] : List Int).getD a 0 ∧
        ([p, q, r, (i : Nat)] : List Int).getD a 0 < (([N, H, W, I] : List Nat).getD a 0 : Nat))) =
      (List.range ([N, H, W, G * I] : List Nat).length).all (fun a => decide
        (0 ≤ ([p, q, r, ((k * I + i : Nat) : Int)] : List Int).getD a 0 ∧
        ([p, q, r, ((k * I + i : Nat) : Int)] : List Int).getD a 0 < (([N, H, W, G * I] : List Nat).getD a 0 : Nat))) := by
    rw [show (List.range ([N, H, W, I] : List Nat).length) = [0, 1, 2, 3] from rfl,
      show (List.range ([N, H, W, G * I] : List Nat).length) = [0, 1, 2, 3] from rfl]
    simp only [List.all_cons, List.all_nil, List.getD_cons_zero, List.getD_cons_succ, h1, h2, h3, h4]
  rw [c]
  congr 1
  simp only [split, ex, List.map_cons, List.map_nil, List.getD_cons_succ, List.getD_cons_zero, Int.toNat_natCast]
  rfl

/-- C23, convolutions.  For every input `(N, H, W, G * I)` and weight `(G * J, kh, kw, I)`, every bias, attributes and fused
activation: the rewriting succeeds and the emitted SPLIT, CONV_2Ds and CONCATENATION compute the tensor of the grouped
convolution. -/
theorem C23_group_conv (att : ConvAttrs) (act : R → R) (x w : Tensor R) (b : Option (List R)) (N H W KH KW G I J : Nat)
    (hx : x.shape = [N, H, W, G * I]) (hw : w.shape = [G * J, KH, KW, I]) (hG : 0 < G) (hI : 0 < I)
    (hb : ∀ l, b = some l → l.length = G * J) :
    ∃ p, groupConvRewrite x w b = some p ∧ p.chunks = G ∧
      (∀ c ∈ p.convs, isGroupConv (split p.axis p.chunks x 0).shape c.1.shape = false) ∧
      Same (runGroupConv att act p x) (conv2d att act x w b) := by
  have hx3 : x.size 3 = G * I := by simp [Tensor.size, hx]
  have hw3 : w.size 3 = I := by simp [Tensor.size, hw]
  have hw0 : w.size 0 = G * J := by simp [Tensor.size, hw]
  have hch : x.size 3 / w.size 3 = G := by rw [hx3, hw3, Nat.mul_div_cancel _ hI]
  have hbs := splitBias_eq b G (by omega) (fun l hl => by rw [hb l hl]; simp)
  refine ⟨{ chunks := G, axis := 3, convs := ((List.range G).map (split 0 G w)).zip ((List.range G).map (fun k =>
      b.map (fun b => (b.drop (k * (b.length / G))).take (b.length / G)))) }, ?_, rfl, ?_, ?_⟩
  · have hch' : G * I / w.size 3 = G := by rw [← hx3, hch]
    simp only [groupConvRewrite, npSplit, hx3, hw0, hch']
    rw [if_pos ⟨by omega, by simp⟩, if_pos ⟨by omega, by simp⟩, hbs]
  · intro c hc
    obtain ⟨hc1, -⟩ := List.of_mem_zip (a := c.1) (b := c.2) hc
    obtain ⟨k, _, hk⟩ := List.mem_map.1 hc1
    rw [← hk]
    simp [isGroupConv, split, hx, hw, Tensor.size, Nat.mul_div_cancel_left _ hG]
  · simp only [runGroupConv, zipWith_zip_range]
    set f : Nat → Tensor R := fun k => conv2d att act (split 3 G x k) (split 0 G w k)
      (b.map (fun b => (b.drop (k * (b.length / G))).take (b.length / G))) with hf
    have hws0 : ∀ k, (split 0 G w k).size 0 = J := fun k => by
      rw [size_split_same _ _ _ _ (by simp [hw]), hw0, Nat.mul_div_cancel_left _ hG]
    have hfs : ∀ k, (f k).size 3 = J := fun k => by
      show (split 0 G w k).size 0 = J
      exact hws0 k
    have hshape : ∀ k c, c ≠ 3 → (f k).size c = (conv2d att act x w b).size c := by
      intro k c hc
      rcases c with _ | _ | _ | _ | c
      · show (split 3 G x k).size 0 = x.size 0
        exact size_split_other _ _ _ _ _ (by decide)
      · show convOutLen _ ((split 3 G x k).size 1) ((split 0 G w k).size 1) _ _ = convOutLen _ (x.size 1) (w.size 1) _ _
        rw [size_split_other _ _ _ _ _ (by decide), size_split_other _ _ _ _ _ (by decide)]
      · show convOutLen _ ((split 3 G x k).size 2) ((split 0 G w k).size 2) _ _ = convOutLen _ (x.size 2) (w.size 2) _ _
        rw [size_split_other _ _ _ _ _ (by decide), size_split_other _ _ _ _ _ (by decide)]
      · exact absurd rfl hc
      · simp [Tensor.size, hf, conv2d, List.getD]
    have hsame : (concat 3 ((List.range G).map f)).shape = (conv2d att act x w b).shape := by
      obtain ⟨g, rfl⟩ : ∃ g, G = g + 1 := ⟨G - 1, by omega⟩
      have hs := sum_uniform 3 J f hfs (g + 1)
      have e : (List.range (g + 1)).map f = f 0 :: (List.range g).map (fun k => f (k + 1)) := by
        rw [List.range_succ_eq_map]; simp
      rw [e] at hs ⊢
      simp only [concat]
      rw [hs]
      have e0 := hshape 0 0 (by decide)
      have e1 := hshape 0 1 (by decide)
      have e2 := hshape 0 2 (by decide)
      rw [show (f 0).shape = [(f 0).size 0, (f 0).size 1, (f 0).size 2, (f 0).size 3] from rfl, e0, e1, e2]
      rw [show (conv2d att act x w b).shape = [(conv2d att act x w b).size 0, (conv2d att act x w b).size 1,
        (conv2d att act x w b).size 2, w.size 0] from rfl, hw0]
      rfl
    refine ⟨hsame, ?_⟩
    intro idx hidx
    rw [hsame] at hidx
    rw [show (conv2d att act x w b).shape = [(conv2d att act x w b).size 0, (conv2d att act x w b).size 1,
      (conv2d att act x w b).size 2, w.size 0] from rfl] at hidx
    obtain ⟨n, y, q, o, rfl, ho⟩ : ∃ n y q o, idx = [n, y, q, o] ∧ o < G * J := by
      unfold InBounds at hidx
      cases hidx with | cons h0 h => cases h with | cons h1 h => cases h with | cons h2 h => cases h with | cons h3 h =>
        cases h
        exact ⟨_, _, _, _, rfl, by rw [← hw0]; exact h3⟩
    show concatGet 3 ((List.range G).map f) o [n, y, q, o] = _
    rw [List.range_eq_range', concatGet_uniform 3 J f _ hfs G 0 o ho, Nat.zero_add]
    have hJ : 0 < J := by
      rcases Nat.eq_zero_or_pos J with h | h
      · subst h; simp at ho
      · exact h
    have hmod := Nat.mod_lt o hJ
    have hkG : o / J < G := (Nat.div_lt_iff_lt_mul hJ).2 ho
    have hdm : o / J * J + o % J = o := by
      have := Nat.div_add_mod o J
      rw [Nat.mul_comm] at this
      exact this
    generalize hk : o / J = k at hkG hdm
    have hx' : (split 3 G x k).size 3 = I := by
      rw [size_split_same _ _ _ _ (by simp [hx]), hx3, Nat.mul_div_cancel_left _ hG]
    have hw3' : (split 0 G w k).size 3 = I := by rw [size_split_other _ _ _ _ _ (by decide), hw3]
    have es : ([n, y, q, o] : List Nat).set 3 (o % J) = [n, y, q, o % J] := rfl
    rw [es]
    simp only [hf, conv2d, hx', hw3', hws0, hx3, hw3, hw0]
    rw [Nat.div_self hI, Nat.mul_div_cancel _ hI, Nat.mul_div_cancel_left _ hG]
    simp only [List.getD_cons_succ, List.getD_cons_zero, Nat.div_one, Nat.div_eq_of_lt hmod, Nat.zero_mul, Nat.zero_add, hk]
    rw [size_split_other (k := k) (t := x) (a := 3) (c := 1) (n := G) (by decide),
      size_split_other (k := k) (t := x) (a := 3) (c := 2) (n := G) (by decide),
      size_split_other (k := k) (t := w) (a := 0) (c := 1) (n := G) (by decide),
      size_split_other (k := k) (t := w) (a := 0) (c := 2) (n := G) (by decide)]
    congr 2
    · cases b with
      | none => rfl
      | some l =>
        simp only [Option.map_some, Option.getD_some]
        have := bias_chunk l G J o (hb l rfl) hG ho
        rw [hk] at this
        exact this
    · congr 1
      refine List.map_congr_left ?_
      intro ky _
      congr 1
      refine List.map_congr_left ?_
      intro kx _
      congr 1
      refine List.map_congr_left ?_
      intro i hi
      rw [List.mem_range] at hi
      congr 1
      · show w.get [k * (w.size 0 / G) + o % J, ky, kx, i] = _
        rw [hw0, Nat.mul_div_cancel_left _ hG, hdm]
      · exact getOr_split x hx hkG hi hG _ _ _

/-- The hypotheses are met by two groups of one input and two output channels. -/
example : ∃ (x w : Tensor Int), x.shape = [1, 4, 4, 2 * 1] ∧ w.shape = [2 * 2, 3, 3, 1] ∧
    isGroupConv x.shape w.shape = true :=
  ⟨⟨[1, 4, 4, 2], fun i => i.sum⟩, ⟨[4, 3, 3, 1], fun i => i.sum⟩, rfl, rfl, rfl⟩

/-- C23, transposed convolutions without a fused activation.  Missing for the full property: a fused activation, which the
rewriting drops (`C23_group_deconv_false`). -/
theorem C23_group_deconv_partial (sH sW pH pW : Nat) (x w : Tensor R) (b : Option (List R)) (N H W OH OW KH KW G I J : Nat)
    (hx : x.shape = [N, H, W, G * I]) (hw : w.shape = [J, KH, KW, G * I]) (hG : 0 < G) (hJ : 0 < J)
    (hb : ∀ l, b = some l → l.length = G * J) :
    ∃ p, groupDeconvRewrite [N, OH, OW, G * J] w x b = some p ∧ p.1.chunks = G ∧
      (∀ c ∈ p.1.convs, isGroupDeconv p.2 c.1.shape = false) ∧
      Same (runGroupDeconv sH sW pH pW p x) (deconv2d sH sW pH pW id [N, OH, OW, G * J] w x b) := by
  have hx3 : x.size 3 = G * I := by simp [Tensor.size, hx]
  have hw3 : w.size 3 = G * I := by simp [Tensor.size, hw]
  have hw0 : w.size 0 = J := by simp [Tensor.size, hw]
  have hch : ([N, OH, OW, G * J] : List Nat).getD 3 0 / w.size 0 = G := by
    rw [hw0]; exact Nat.mul_div_cancel _ hJ
  have hbs := splitBias_eq b G (by omega) (fun l hl => by rw [hb l hl]; simp)
  refine ⟨({ chunks := G, axis := 3, convs := ((List.range G).map (split 3 G w)).zip ((List.range G).map (fun k =>
      b.map (fun b => (b.drop (k * (b.length / G))).take (b.length / G)))) }, [N, OH, OW, J]), ?_, rfl, ?_, ?_⟩
  · simp only [groupDeconvRewrite, npSplit, hch, hx3, hw3]
    rw [if_pos ⟨by omega, by simp⟩, if_pos ⟨by omega, by simp⟩, hbs, hw0]
    rfl
  · intro c hc
    obtain ⟨hc1, -⟩ := List.of_mem_zip (a := c.1) (b := c.2) hc
    obtain ⟨k, _, hk⟩ := List.mem_map.1 hc1
    rw [← hk]
    simp [isGroupDeconv, split, hw]
  · simp only [runGroupDeconv, zipWith_zip_range]
    set f : Nat → Tensor R := fun k => deconv2d sH sW pH pW id [N, OH, OW, J] (split 3 G w k) (split 3 G x k)
      (b.map (fun b => (b.drop (k * (b.length / G))).take (b.length / G))) with hf
    have hfs : ∀ k, (f k).size 3 = J := fun k => rfl
    have hsame : (concat 3 ((List.range G).map f)).shape = [N, OH, OW, G * J] := by
      obtain ⟨g, rfl⟩ : ∃ g, G = g + 1 := ⟨G - 1, by omega⟩
      have hs := sum_uniform 3 J f hfs (g + 1)
      have e : (List.range (g + 1)).map f = f 0 :: (List.range g).map (fun k => f (k + 1)) := by
        rw [List.range_succ_eq_map]; simp
      rw [e] at hs ⊢
      simp only [concat]
      rw [hs]
      rfl
    refine ⟨hsame, ?_⟩
    intro idx hidx
    rw [hsame] at hidx
    obtain ⟨n, y, q, o, rfl, ho⟩ : ∃ n y q o, idx = [n, y, q, o] ∧ o < G * J := by
      unfold InBounds at hidx
      cases hidx with | cons h0 h => cases h with | cons h1 h => cases h with | cons h2 h => cases h with | cons h3 h =>
        cases h
        exact ⟨_, _, _, _, rfl, h3⟩
    show concatGet 3 ((List.range G).map f) o [n, y, q, o] = _
    rw [List.range_eq_range', concatGet_uniform 3 J f _ hfs G 0 o ho, Nat.zero_add]
    have hmod := Nat.mod_lt o hJ
    have hkG : o / J < G := (Nat.div_lt_iff_lt_mul hJ).2 ho
    generalize hk : o / J = k at hkG
    have hx' : (split 3 G x k).size 3 = I := by
      rw [size_split_same _ _ _ _ (by simp [hx]), hx3, Nat.mul_div_cancel_left _ hG]
    have hw0' : (split 3 G w k).size 0 = J := by rw [size_split_other _ _ _ _ _ (by decide), hw0]
    have es : ([n, y, q, o] : List Nat).set 3 (o % J) = [n, y, q, o % J] := rfl
    rw [es]
    simp only [hf, deconv2d, hx', hw0', hx3, hw0]
    simp only [List.getD_cons_succ, List.getD_cons_zero]
    rw [Nat.div_self hJ, Nat.mul_div_cancel _ hJ, Nat.mul_div_cancel_left _ hG]
    simp only [Nat.div_one, Nat.div_eq_of_lt hmod, Nat.zero_mul, Nat.zero_add, hk, Nat.mod_mod]
    rw [size_split_other (k := k) (t := w) (a := 3) (c := 1) (n := G) (by decide),
      size_split_other (k := k) (t := w) (a := 3) (c := 2) (n := G) (by decide)]
    congr 2
    · cases b with
      | none => rfl
      | some l =>
        simp only [Option.map_some, Option.getD_some]
        have := bias_chunk l G J o (hb l rfl) hG ho
        rw [hk] at this
        exact this
    · congr 1
      refine List.map_congr_left ?_
      intro ky _
      congr 1
      refine List.map_congr_left ?_
      intro kx _
      congr 1
      refine List.map_congr_left ?_
      intro i hi
      rw [List.mem_range] at hi
      cases deconvPos sH pH y ky with
      | none => rfl
      | some py => cases deconvPos sW pW q kx with
        | none => rfl
        | some px =>
          simp only
          rw [getOr_split x hx hkG hi hG]
          congr 1
          show w.get [o % J, ky, kx, k * (w.size 3 / G) + i] = _
          rw [hw3, Nat.mul_div_cancel_left _ hG]

/-- The hypotheses are met by two groups of one input and two output channels. -/
example : ∃ (x w : Tensor Int), x.shape = [1, 2, 2, 2 * 1] ∧ w.shape = [2, 3, 3, 2 * 1] ∧
    isGroupDeconv [1, 5, 5, 2 * 2] w.shape = true :=
  ⟨⟨[1, 2, 2, 2], fun i => i.sum⟩, ⟨[2, 3, 3, 2], fun i => i.sum⟩, rfl, rfl, rfl⟩

/-- C23 fails for a grouped transposed convolution with a fused ReLU: the rewritten operators have no activation.  The example is a
1 x 1 kernel with weight -1 on two groups of one channel. -/
theorem C23_group_deconv_false :
    ∃ (x w : Tensor Int) (p : GroupProgram Int × List Nat), groupDeconvRewrite [1, 1, 1, 2] w x none = some p ∧
      ¬ Same (runGroupDeconv 1 1 0 0 p x) (deconv2d 1 1 0 0 (max 0) [1, 1, 1, 2] w x none) := by
  refine ⟨⟨[1, 1, 1, 2], fun _ => 1⟩, ⟨[1, 1, 1, 2], fun _ => -1⟩, _, rfl, ?_⟩
  rintro ⟨-, h⟩
  have := h [0, 0, 0, 0] (by
    show List.Forall₂ _ [0, 0, 0, 0] [1, 1, 1, 2]
    simp)
  revert this
  decide

/-- C23 also fails for weights quantized per output channel: the weight of a group keeps the list of all scales, so the channel `o` of
group `k` is read with the scale of channel `o` of the whole weight instead of channel `k * (O / G) + o`. -/
theorem C23_per_channel_false :
    ∃ (w : Tensor Int) (scales : List Int) (G k o : Nat), w.shape = [4, 1, 1, 1] ∧ scales.length = w.size 0 ∧ 0 < G ∧ k < G ∧
      o < w.size 0 / G ∧ (split 0 G w k).get [o, 0, 0, 0] * chunkScale scales k o ≠
        w.get [k * (w.size 0 / G) + o, 0, 0, 0] * scales.getD (k * (w.size 0 / G) + o) 0 :=
  ⟨⟨[4, 1, 1, 1], fun _ => 1⟩, [1, 2, 3, 4], 2, 1, 0, rfl, rfl, by decide, by decide, by decide, by decide⟩

end Verif.Props
