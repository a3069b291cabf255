import Verif.Model.BmmAdd
import Verif.Props.Matmul

/-! C112: fusing an addition into a matrix product. -/

namespace Verif.Props
open Verif.Spec Verif.Lemmas Verif.Spec.BmmAdd Verif.Model.BmmAdd

variable {R : Type} [CommRing R] [LinearOrder R]

namespace BmmAdd

/-- FULLY_CONNECTED with another bias. -/
theorem fc_bias {keep : Bool} {x w b₀ p : Tensor R} (h : fullyConnected keep x w b₀ = some p) {b : Tensor R} (hb : b.shape.prod = w.shape.getD 0 0) :
    ∃ lead r, fullyConnected keep x w b = some r ∧ b₀.shape.prod = w.shape.getD 0 0 ∧ r.shape = p.shape ∧ p.shape = lead ++ [w.shape.getD 0 0] ∧
      ∀ l o, l.length = lead.length → r.get (l ++ [o]) - b.get (unflat b.shape o) = p.get (l ++ [o]) - b₀.get (unflat b₀.shape o) := by
  unfold fullyConnected at h ⊢
  simp only at h ⊢
  split at h
  · rename_i hc
    rw [if_pos ⟨hc.1, hc.2.1, hb, hc.2.2.2⟩]
    cases h
    refine ⟨if keep = true then x.shape.dropLast else [x.shape.prod / w.shape.getD 1 0], _, rfl, hc.2.2.1, rfl, rfl, fun l o hl => ?_⟩
    have e : (l ++ [o]).getD (if keep = true then x.shape.dropLast else [x.shape.prod / w.shape.getD 1 0]).length 0 = o := by
      rw [← hl]
      simp [List.getD_eq_getElem?_getD]
    simp only [e, add_sub_cancel_right]
  · cases h

/-- For a matrix the flag does not matter. -/
theorem fc_keep {x w b p : Tensor R} (h : fullyConnected true x w b = some p) (hx : x.shape.length = 2) : fullyConnected false x w b = some p := by
  unfold fullyConnected at h ⊢
  simp only at h ⊢
  split at h
  · rename_i hc
    rw [if_pos ⟨hc.1, hc.2.1, hc.2.2.1, hc.2.2.2.1, by simp⟩]
    have h2 := (hc.2.2.2.2 trivial).2
    obtain ⟨m, k, hs⟩ : ∃ m k, x.shape = [m, k] := by
      match hs : x.shape, hx with
      | [m, k], _ => exact ⟨m, k, rfl⟩
    rw [hs] at h2 h ⊢
    simp only [List.length_cons, List.length_nil] at h2
    change k = _ at h2
    have hm : [m, k].prod / w.shape.getD 1 0 = m := by
      rw [← h2]
      have : 0 < k := by rw [h2]; exact hc.2.1
      simp [Nat.mul_div_cancel _ this]
    rw [← h]
    simp only [Bool.false_eq_true, if_false, if_true, hm]
    rfl
  · cases h

/-- Adding a vector to the last axis. -/
theorem add_vec (p b : Tensor R) (lead : List ℕ) (n : ℕ) (hp : p.shape = lead ++ [n]) (hb : b.shape = [n]) :
    ∃ t, elementwise (· + ·) p b = some t ∧ t.shape = p.shape ∧ ∀ l o, InBounds lead l → o < n → t.get (l ++ [o]) = p.get (l ++ [o]) + b.get [o] := by
  obtain ⟨t, t1, t2, t3⟩ := elementwise_left (· + ·) p b (by
    rw [hb, hp]
    refine ⟨by simp, ?_⟩
    have : (lead ++ [n]).length - [n].length = lead.length := by simp
    rw [this, List.drop_left]
    exact .cons (Or.inl rfl) .nil)
  refine ⟨t, t1, t2, fun l o hl ho => ?_⟩
  rw [t3 _ (by rw [hp]; exact inBounds_append_mk hl (.cons ho .nil))]
  have hbc : bcGet b (l ++ [o]) = b.get [o] := by
    have hd : InBounds b.shape [o] := by rw [hb]; exact .cons ho .nil
    rw [← bcGet_same b [o] hd, bcGet_eq b _ (by rw [hb]; simp), bcGet_eq b _ (by rw [hb]; simp), hb]
    have : (l ++ [o]).length - [n].length = l.length := by simp
    rw [this, List.drop_left]
    rfl
  rw [hbc]

theorem unflat_one (n o : ℕ) : unflat [n] o = [o] := by simp [unflat]

end BmmAdd

open BmmAdd

/-- C112, in part: if the product has no activation of its own and all operands are real numbers, the one operator computes what both computed, whatever the shapes, the flag of the product and the
activation of the addition.  Missing: a product with an activation (`C112_act_false`) and quantized operands (`C112_quantized_false`). -/
theorem C112_partial (k : Kind R) (x w b t : Tensor R) (act : Act) (hf : fusable k x w b) (hact : ∀ keep b₀ a, k = .fc keep b₀ a → a = .none) (hk : ∀ d ∈ x.shape, 0 < d)
    (ht : productAdd k x w b act = some t) : ∃ r, fused k x w b act t.shape.length = some r ∧ Same r t := by
  obtain ⟨hx, hw, hb, hk'⟩ := hf
  obtain ⟨n, hbs⟩ : ∃ n, b.shape = [n] := by
    match hs : b.shape, hb with
    | [n], _ => exact ⟨n, rfl⟩
  obtain ⟨w0, w1, hws⟩ : ∃ w0 w1, w.shape = [w0, w1] := by
    match hs : w.shape, hw with
    | [m, k], _ => exact ⟨m, k, rfl⟩
  unfold productAdd at ht
  cases k with
  | bmm =>
    have hn : n = w1 := by simpa [hbs, hws] using hk'
    subst hn
    obtain ⟨ba, m, k, hxs⟩ := matmul_split_last2 x.shape hx
    simp only [product] at ht
    have hkw : k = w0 := by
      by_contra hc
      unfold batchMatmul at ht
      rw [if_neg (by rw [hxs, hws]; simp [List.getD_eq_getElem?_getD, hc])] at ht
      cases ht
    subst hkw
    obtain ⟨p, p1, p2, p3⟩ := matmul_bmm_matrix x w ba m n k hxs hws
    rw [p1] at ht
    obtain ⟨tw, tg⟩ := matmul_transpose2 w k n hws
    obtain ⟨s, s1, s2, s3⟩ := add_vec p b (ba ++ [m]) n (by rw [p2]; simp) hbs
    simp only [Option.bind_eq_bind, Option.bind_some, s1, Option.map_some, Option.some.injEq] at ht
    subst ht
    obtain ⟨r, r1, r2, r3⟩ := matmul_fc_rows (decide (2 < (mapTensor act.fn s).shape.length)) x (transpose [1, 0] w) b (ba ++ [m]) n k (by rw [hxs]; simp) (hk k (by rw [hxs]; simp)) tw (by rw [hbs]; simp) (by
      show _ ∨ _
      by_cases h : 2 < s.shape.length
      · exact Or.inl (decide_eq_true h)
      · refine Or.inr ⟨m, ?_⟩
        have : ba.length = 0 := by
          rw [s2, p2] at h
          simp only [List.length_append, List.length_cons, List.length_nil] at h
          omega
        rw [List.length_eq_zero_iff.1 this]
        rfl)
    refine ⟨mapTensor act.fn r, by simp only [fused, r1]; rfl, ?_, fun idx hi => ?_⟩
    · show r.shape = s.shape
      rw [r2, s2, p2]
      simp
    · change InBounds r.shape idx at hi
      rw [r2] at hi
      obtain ⟨l1, ro, rfl, hl1, hro⟩ := inBounds_append hi
      have hl1' := hl1
      obtain ⟨l, ri, rfl, hl, hri⟩ := inBounds_append hl1
      cases hro with
      | @cons o _ _ _ ho hro =>
        cases hro
        cases hri with
        | @cons i _ _ _ hii hri =>
          cases hri
          show act.fn (r.get _) = act.fn (s.get _)
          rw [r3 _ _ hl1' ho, s3 _ _ hl1' ho]
          have e : ∀ y, l ++ [i] ++ [y] = l ++ [i, y] := by simp
          rw [e, p3 _ _ _ hl, hbs, unflat_one]
          simp only [e, tg]
  | fc keep bias a =>
    obtain ⟨hn, hz⟩ := hk'
    have hn : n = w0 := by simpa [hbs, hws] using hn
    subst hn
    have := hact keep bias a rfl
    subst this
    simp only [product] at ht
    cases hp : fullyConnected keep x w (bias.getD ⟨[w.shape.getD 0 0], fun _ => 0⟩) with
    | none => rw [hp] at ht; cases ht
    | some p =>
      rw [hp] at ht
      have hb0 : ∀ idx, InBounds (bias.getD ⟨[w.shape.getD 0 0], fun _ => 0⟩).shape idx → (bias.getD ⟨[w.shape.getD 0 0], fun _ => 0⟩).get idx = 0 := by
        cases bias with
        | none => intro idx _; rfl
        | some b₀ => exact hz b₀ rfl
      obtain ⟨lead, r, r1, r2, r3, r4, r5⟩ := fc_bias hp (b := b) (by rw [hbs, hws]; simp)
      have hw0 : w.shape.getD 0 0 = n := by rw [hws]; rfl
      rw [hw0] at r4
      obtain ⟨s, s1, s2, s3⟩ := add_vec (mapTensor Act.none.fn p) b lead n r4 hbs
      simp only [Option.bind_eq_bind, Option.bind_some, Option.map_some, s1, Option.some.injEq] at ht
      subst ht
      have hr : fullyConnected (decide (2 < (mapTensor act.fn s).shape.length)) x w b = some r := by
        show fullyConnected (decide (2 < s.shape.length)) x w b = some r
        rw [s2]
        show fullyConnected (decide (2 < p.shape.length)) x w b = some r
        cases keep with
        | true =>
          by_cases h2 : x.shape.length = 2
          · have hpl : p.shape.length = 2 := by
              have := fc_keep hp h2
              unfold fullyConnected at this
              simp only at this
              split at this
              · cases this
                rfl
              · cases this
            rw [hpl]
            exact fc_keep r1 h2
          · have hpl : p.shape.length = x.shape.length := by
              have := hp
              unfold fullyConnected at this
              simp only at this
              split at this
              · cases this
                simp
                omega
              · cases this
            rw [hpl, decide_eq_true (by omega)]
            exact r1
        | false =>
          have hpl : p.shape.length = 2 := by
            have := hp
            unfold fullyConnected at this
            simp only at this
            split at this
            · cases this
              rfl
            · cases this
          rw [hpl]
          exact r1
      refine ⟨mapTensor act.fn r, by simp only [fused, hr]; rfl, ?_, fun idx hi => ?_⟩
      · show r.shape = s.shape
        rw [r3, s2]
        rfl
      · change InBounds r.shape idx at hi
        rw [r3, r4] at hi
        obtain ⟨l, ro, rfl, hl, hro⟩ := inBounds_append hi
        cases hro with
        | @cons o _ _ _ ho hro =>
          cases hro
          show act.fn (r.get _) = act.fn (s.get _)
          rw [s3 _ _ hl ho]
          have h5 := r5 l o (inBounds_length hl)
          rw [hb0 _ (unflat_inBounds (by rw [r2, hw0]; exact ho)), hbs, unflat_one, sub_zero] at h5
          congr 1
          show _ = p.get _ + _
          rw [← h5]
          ring

/-- An activation of the product is lost: `relu(-1) + 1` becomes `-1 + 1`. -/
theorem C112_act_false : ∃ (k : Kind ℤ) (x w b t r : Tensor ℤ), fusable k x w b ∧ (∀ d ∈ x.shape, 0 < d) ∧ productAdd k x w b .none = some t ∧ fused k x w b .none t.shape.length = some r ∧
    t.shape = [1, 1] ∧ r.shape = [1, 1] ∧ t.get [0, 0] = 1 ∧ r.get [0, 0] = 0 := by
  refine ⟨.fc false none .relu, ⟨[1, 1], fun _ => -1⟩, ⟨[1, 1], fun _ => 1⟩, ⟨[1], fun _ => 1⟩, _, _, ⟨by decide, rfl, rfl, rfl, by simp⟩, by decide, rfl, rfl, rfl, rfl, ?_, ?_⟩ <;> decide

/-- Types are not looked at: if the addition of quantized tensors was accepted, the operator that replaces it is not. -/
theorem C112_quantized_false (x b : DType) (hq : x ≠ .float) (hadd : addAccepts x b) : ¬ fcAccepts x b := by
  subst hadd
  cases x <;> simp_all [fcAccepts]

/-- The hypotheses of `C112_partial` hold of a stack of matrices and a product with a zero bias. -/
example : ∃ (x w b t : Tensor ℤ), fusable (.fc true (some ⟨[2], fun _ => 0⟩) .none) x w b ∧ (∀ d ∈ x.shape, 0 < d) ∧ productAdd (.fc true (some ⟨[2], fun _ => 0⟩) .none) x w b .relu = some t ∧
    t.shape = [2, 1, 2] ∧ t.get [1, 0, 1] = 9 :=
  ⟨⟨[2, 1, 3], fun i => (i.getD 2 0 : ℤ)⟩, ⟨[2, 3], fun i => (i.getD 1 0 : ℤ)⟩, ⟨[2], fun i => 4 * (i.getD 0 0 : ℤ)⟩, _, ⟨by decide, rfl, rfl, rfl, fun b₀ h idx _ => by cases h; rfl⟩, by decide, rfl, rfl, by decide⟩

example : ∃ (x w b t : Tensor ℤ), fusable .bmm x w b ∧ (∀ d ∈ x.shape, 0 < d) ∧ productAdd .bmm x w b .relu6 = some t ∧ t.shape = [2, 1, 3] ∧ t.get [1, 0, 1] = 5 :=
  ⟨⟨[2, 1, 2], fun i => (i.getD 2 0 : ℤ)⟩, ⟨[2, 3], fun i => (i.getD 1 0 : ℤ)⟩, ⟨[3], fun i => 4 * (i.getD 0 0 : ℤ)⟩, _, ⟨by decide, rfl, rfl, rfl⟩, by decide, rfl, rfl, by decide⟩

end Verif.Props
