import Verif.Model.Matmul
import Verif.Lemmas.Bcast
import Verif.Lemmas.Regroup
import Verif.Props.AvgPool
import Mathlib.Algebra.BigOperators.Group.List.Lemmas

/-! C69: matrix products. -/

namespace Verif.Props
open Verif.Spec Verif.Model Verif.Lemmas

section
variable {R : Type} [CommRing R]

private theorem bcIndex_same {s idx : List Nat} (h : InBounds s idx) : bcIndex s idx = idx := bcGet_same (⟨s, fun i => i⟩ : Tensor (List Nat)) idx h

private theorem getD_app0 (l : List Nat) (i : Nat) (r : List Nat) : (l ++ i :: r).getD l.length 0 = i := by simp [List.getD_eq_getElem?_getD]
private theorem getD_app1 (l : List Nat) (i o : Nat) (r : List Nat) : (l ++ i :: o :: r).getD (l.length + 1) 0 = o := by simp [List.getD_eq_getElem?_getD]

/-- The rows of a FULLY_CONNECTED operator. -/
theorem matmul_fc_rows (keep : Bool) (x w b : Tensor R) (lead : List Nat) (n k : Nat) (hx : x.shape = lead ++ [k]) (hk : 0 < k) (hw : w.shape = [n, k]) (hb : b.shape.prod = n)
    (hkeep : keep = true ∨ ∃ m, lead = [m]) :
    ∃ r, fullyConnected keep x w b = some r ∧ r.shape = lead ++ [n] ∧ ∀ l o, InBounds lead l → o < n →
      r.get (l ++ [o]) = ((List.range k).map (fun j => x.get (l ++ [j]) * w.get [o, j])).sum + b.get (unflat b.shape o) := by
  have hlast : x.shape.getD (x.shape.length - 1) 0 = k := by
    rw [hx]
    have : (lead ++ [k]).length - 1 = lead.length := by simp
    rw [this, getD_app0]
  have hprod : x.shape.prod = lead.prod * k := by rw [hx, List.prod_append, List.prod_singleton]
  have hlead : (if keep then x.shape.dropLast else [x.shape.prod / k]) = lead := by
    rcases hkeep with h | ⟨m, rfl⟩
    · rw [if_pos h, hx, List.dropLast_concat]
    · split
      · rw [hx]; rfl
      · rw [hprod, Nat.mul_div_cancel _ hk]; simp
  unfold fullyConnected
  rw [hw]
  simp only [List.getD_cons_zero, List.getD_cons_succ]
  rw [if_pos ⟨rfl, hk, hb, ⟨lead.prod, by rw [hprod, Nat.mul_comm]⟩, fun _ => ⟨by rw [hx]; simp, hlast⟩⟩]
  rw [hlead]
  refine ⟨_, rfl, rfl, ?_⟩
  intro l o hl ho
  have hll := inBounds_length hl
  simp only [← hll, List.take_left, getD_app0]
  congr 2
  refine List.map_congr_left ?_
  intro j hj
  rw [List.mem_range] at hj
  congr 2
  have hin : InBounds (lead ++ [k]) (l ++ [j]) := inBounds_append_mk hl (.cons hj .nil)
  have e : flat (lead ++ [k]) (l ++ [j]) = flat lead l * k + j := by
    rw [flat_append hll]
    simp [flat]
  rw [hx, ← e, unflat_flat hin]

/-- A stack of matrices times one matrix. -/
theorem matmul_bmm_matrix (x w : Tensor R) (ba : List Nat) (m n k : Nat) (hx : x.shape = ba ++ [m, k]) (hw : w.shape = [k, n]) :
    ∃ r, batchMatmul x w = some r ∧ r.shape = ba ++ [m, n] ∧ ∀ l i o, InBounds ba l →
      r.get (l ++ [i, o]) = ((List.range k).map (fun j => x.get (l ++ [i, j]) * w.get [j, o])).sum := by
  have h1 : (ba ++ [m, k]).length - 2 = ba.length := by simp
  have h2 : (ba ++ [m, k]).length - 1 = ba.length + 1 := by simp
  have hbc : bcShape ba [] = some ba := bcShape_left ba [] ⟨by simp, by simp⟩
  unfold batchMatmul
  rw [hx, hw, h1, h2, List.take_left, getD_app0, getD_app1]
  simp only [List.length_cons, List.length_nil, List.getD_cons_zero, List.getD_cons_succ, List.take_zero, Nat.reduceAdd, Nat.reduceSub]
  rw [if_pos ⟨by simp, by decide, trivial⟩, hbc]
  refine ⟨_, rfl, rfl, ?_⟩
  intro l i o hl
  have hll := inBounds_length hl
  simp only [← hll, List.take_left, getD_app0, getD_app1, bcIndex_same hl]
  rfl

theorem matmul_transpose2 (w : Tensor R) (k n : Nat) (hw : w.shape = [k, n]) : (transpose [1, 0] w).shape = [n, k] ∧ ∀ o j, (transpose [1, 0] w).get [o, j] = w.get [j, o] := by
  refine ⟨by simp [transpose, hw], ?_⟩
  intro o j
  simp [transpose, hw, List.range_succ]

theorem matmul_split_last2 (s : List Nat) (h : 2 ≤ s.length) : ∃ ba m k, s = ba ++ [m, k] := by
  refine ⟨s.take (s.length - 2), s.getD (s.length - 2) 0, s.getD (s.length - 1) 0, ?_⟩
  conv_lhs => rw [← List.take_append_drop (s.length - 2) s]
  congr 1
  refine ext_getD (by simp; omega) ?_
  intro i hi
  simp only [List.length_drop] at hi
  have : i = 0 ∨ i = 1 := by omega
  rcases this with rfl | rfl
  · simp [List.getD_eq_getElem?_getD]
  · simp only [List.getD_eq_getElem?_getD, List.getElem?_drop, List.getElem?_cons_succ, List.getElem?_cons_zero]
    rw [show s.length - 2 + 1 = s.length - 1 by omega]
    simp

/-- C69 for `matmul`, `mm` and `bmm` of operands with two to five axes, with and without broadcasting of the leading ones. -/
theorem C69_matmul_partial (x w t : Tensor R) (hx : 2 ≤ x.shape.length ∧ x.shape.length ≤ 5) (hw : 2 ≤ w.shape.length ∧ w.shape.length ≤ 5) (hk : 0 < x.shape.getD (x.shape.length - 1) 0)
    (ht : torchMatmul x w = some t) : ∃ r, convertMatmul x w = .ops (some r) ∧ Same r t := by
  have ht' : batchMatmul x w = some t := by
    unfold torchMatmul at ht
    rw [if_neg (by omega), if_neg (by omega)] at ht
    rw [Option.map_eq_some_iff] at ht
    obtain ⟨r, h1, h2⟩ := ht
    rw [if_neg (by omega), if_neg (by omega)] at h2
    rw [h1, h2]
  unfold convertMatmul
  rw [if_pos hx]
  by_cases h2 : w.shape.length = 2
  · rw [if_pos h2]
    obtain ⟨ba, m, k, hxs⟩ := matmul_split_last2 x.shape hx.1
    obtain ⟨k', n, hws⟩ : ∃ k' n, w.shape = [k', n] := List.length_eq_two.1 h2
    have hl1 : (ba ++ [m, k]).length - 1 = ba.length + 1 := by simp
    have hkk : k = k' := by
      have := ht'
      unfold batchMatmul at this
      simp only at this
      split at this
      · next h =>
        have := h.2.2
        rw [hxs, hws, hl1, getD_app1] at this
        exact this
      · cases this
    subst hkk
    rw [hxs, hl1, getD_app1] at hk
    obtain ⟨r', h1, hs, hg⟩ := matmul_bmm_matrix x w ba m n k hxs hws
    rw [ht'] at h1
    cases h1
    obtain ⟨tw, tg⟩ := matmul_transpose2 w k n hws
    obtain ⟨r, f1, f2, f3⟩ := matmul_fc_rows (decide (x.shape.length > 2)) x (transpose [1, 0] w) ⟨[w.shape.getD 1 0], fun _ => 0⟩ (ba ++ [m]) n k (by rw [hxs]; simp) hk tw
      (by rw [hws]; simp) (by
        by_cases h : x.shape.length > 2
        · exact Or.inl (by simpa using h)
        · refine Or.inr ⟨m, ?_⟩
          have : ba.length = 0 := by
            have := congrArg List.length hxs
            simp at this
            omega
          rw [List.length_eq_zero_iff.1 this]
          rfl)
    refine ⟨r, congrArg Emitted.ops f1, ?_, ?_⟩
    · rw [f2, hs]; simp
    · intro idx hi
      rw [f2] at hi
      obtain ⟨l1, ro, rfl, hl1, hro⟩ := inBounds_append hi
      obtain ⟨l, ri, rfl, hl, hri⟩ := inBounds_append hl1
      cases hro with
      | cons ho hro =>
        cases hro
        cases hri with
        | @cons i _ _ _ hii hri =>
          cases hri
          rw [f3 _ _ hl1 ho]
          have e : ∀ y, l ++ [i] ++ [y] = l ++ [i, y] := by simp
          rw [e, hg _ _ _ hl]
          simp only [e, tg, add_zero]
  · rw [if_neg h2, if_pos ⟨by omega, hw.2⟩, ht']
    exact ⟨t, rfl, rfl, fun _ _ => rfl⟩

/-- A matrix (or a stack of matrices) times a vector has a result in PyTorch, but nothing at all is emitted for it. -/
theorem C69_matmul_vector_false (x w : Tensor R) (hx : 2 ≤ x.shape.length ∧ x.shape.length ≤ 5) (hw : w.shape = [x.shape.getD (x.shape.length - 1) 0]) :
    (∃ t, torchMatmul x w = some t) ∧ convertMatmul x w = .nothing := by
  constructor
  · obtain ⟨ba, m, k, hxs⟩ := matmul_split_last2 x.shape hx.1
    have hl1 : (ba ++ [m, k]).length - 1 = ba.length + 1 := by simp
    rw [hxs, hl1, getD_app1] at hw
    obtain ⟨r, h1, _, _⟩ := matmul_bmm_matrix x (reshape [w.shape.getD 0 0, 1] w) ba m 1 k hxs (by simp [reshape, hw])
    unfold torchMatmul
    rw [if_neg (by omega), if_pos (by rw [hw]; rfl)]
    simp only [h1]
    exact ⟨_, rfl⟩
  · unfold convertMatmul
    rw [if_pos hx, if_neg (by rw [hw]; simp), if_neg (by rw [hw]; simp)]

/-- A vector on the left is refused. -/
theorem C69_vector_matmul_refused (x w : Tensor R) (hx : x.shape.length = 1) : convertMatmul x w = .error := by
  unfold convertMatmul
  rw [if_neg (by omega)]

/-- C69 for `linear` with inputs of two to five axes, with and without bias. -/
theorem C69_linear (x w : Tensor R) (b : Option (Tensor R)) (n k : Nat) (hx : 2 ≤ x.shape.length ∧ x.shape.length ≤ 5) (hk : 0 < k) (hxk : x.shape.getD (x.shape.length - 1) 0 = k) (hw : w.shape = [n, k])
    (hb : ∀ b', b = some b' → b'.shape = [n]) : ∃ r t, convertLinear x w b = .ops (some r) ∧ torchLinear x w b = some t ∧ Same r t := by
  obtain ⟨ba, m, k', hxs⟩ := matmul_split_last2 x.shape hx.1
  have hl1 : (ba ++ [m, k']).length - 1 = ba.length + 1 := by simp
  rw [hxs, hl1, getD_app1] at hxk
  subst hxk
  obtain ⟨tw, tg⟩ := matmul_transpose2 w n k' hw
  obtain ⟨p, p1, ps, pg⟩ := matmul_bmm_matrix x (transpose [1, 0] w) ba m n k' hxs tw
  have hmm : torchMatmul x (transpose [1, 0] w) = some p := by
    unfold torchMatmul
    rw [if_neg (by omega), if_neg (by rw [tw]; simp)]
    simp only [p1, Option.map_some]
    rw [if_neg (by omega), if_neg (by rw [tw]; simp)]
  have hkeep : decide (x.shape.length > 2) = true ∨ ∃ m', ba ++ [m] = [m'] := by
    by_cases h : x.shape.length > 2
    · exact Or.inl (by simpa using h)
    · refine Or.inr ⟨m, ?_⟩
      have : ba.length = 0 := by
        have := congrArg List.length hxs
        simp at this
        omega
      rw [List.length_eq_zero_iff.1 this]
      rfl
  have hsplit : ∀ idx, InBounds (ba ++ [m] ++ [n]) idx → ∃ l i o, idx = l ++ [i] ++ [o] ∧ InBounds ba l ∧ InBounds (ba ++ [m]) (l ++ [i]) ∧ o < n := by
    intro idx hi
    obtain ⟨l1, ro, rfl, hl1, hro⟩ := inBounds_append hi
    have hl1' := hl1
    obtain ⟨l, ri, rfl, hl, hri⟩ := inBounds_append hl1
    cases hro with
    | @cons o _ _ _ ho hro =>
      cases hro
      cases hri with
      | @cons i _ _ _ hii hri =>
        cases hri
        exact ⟨l, i, o, rfl, hl, hl1', ho⟩
  unfold convertLinear torchLinear
  rw [if_pos hx, if_pos (by rw [hw]; rfl), hmm]
  cases b with
  | none =>
    obtain ⟨r, f1, f2, f3⟩ := matmul_fc_rows (decide (x.shape.length > 2)) x w ⟨[w.shape.getD 0 0], fun _ => 0⟩ (ba ++ [m]) n k' (by rw [hxs]; simp) hk hw (by rw [hw]; simp) hkeep
    refine ⟨r, p, congrArg Emitted.ops f1, rfl, by rw [f2, ps]; simp, ?_⟩
    intro idx hi
    rw [f2] at hi
    obtain ⟨l, i, o, rfl, hl, hli, ho⟩ := hsplit idx hi
    rw [f3 _ _ hli ho]
    have e : ∀ y, l ++ [i] ++ [y] = l ++ [i, y] := by simp
    rw [e, pg _ _ _ hl]
    simp only [e, tg, add_zero]
  | some b =>
    have hbs := hb b rfl
    obtain ⟨r, f1, f2, f3⟩ := matmul_fc_rows (decide (x.shape.length > 2)) x w b (ba ++ [m]) n k' (by rw [hxs]; simp) hk hw (by rw [hbs]; simp) hkeep
    obtain ⟨t, t1, t2, t3⟩ := elementwise_left (· + ·) p b (by
      rw [hbs, ps]
      refine ⟨by simp, ?_⟩
      have : (ba ++ [m, n]).length - [n].length = (ba ++ [m]).length := by simp
      rw [this, show ba ++ [m, n] = (ba ++ [m]) ++ [n] by simp, List.drop_left]
      exact .cons (Or.inl rfl) .nil)
    refine ⟨r, t, congrArg Emitted.ops f1, t1, by rw [f2, t2, ps]; simp, ?_⟩
    intro idx hi
    rw [f2] at hi
    have hi' : InBounds p.shape idx := by rw [ps]; simpa using hi
    rw [t3 idx hi']
    obtain ⟨l, i, o, rfl, hl, hli, ho⟩ := hsplit idx hi
    rw [f3 _ _ hli ho]
    have e : ∀ y, l ++ [i] ++ [y] = l ++ [i, y] := by simp
    have hbc : bcGet b (l ++ [i] ++ [o]) = b.get [o] := by
      have hd : InBounds b.shape [o] := by rw [hbs]; exact .cons ho .nil
      rw [← bcGet_same b [o] hd, bcGet_eq b _ (by rw [hbs]; simp), bcGet_eq b _ (by rw [hbs]; simp), hbs]
      have : (l ++ [i] ++ [o]).length - [n].length = (l ++ [i]).length := by simp
      rw [this, List.drop_left]
      rfl
    rw [hbc]
    simp only [e]
    rw [pg _ _ _ hl, hbs]
    simp only [tg, unflat, List.prod_nil, Nat.div_one]

/-- C69 for `addmm` with `beta = alpha = 1` and a bias with one element per column. -/
theorem C69_addmm_partial (bias x w : Tensor R) (m n k : Nat) (hx : x.shape = [m, k]) (hw : w.shape = [k, n]) (hk : 0 < k) (hb : bias.shape = [n] ∨ bias.shape = [1, n]) :
    ∃ r t, convertAddmm 1 1 bias x w = .ops (some r) ∧ torchAddmm 1 1 bias x w = some t ∧ Same r t := by
  obtain ⟨tw, tg⟩ := matmul_transpose2 w k n hw
  obtain ⟨p, p1, ps, pg⟩ := matmul_bmm_matrix x w [] m n k hx hw
  obtain ⟨r, f1, f2, f3⟩ := matmul_fc_rows false x (transpose [1, 0] w) bias [m] n k hx hk tw (by rcases hb with h | h <;> rw [h] <;> simp) (Or.inr ⟨m, rfl⟩)
  obtain ⟨t, t1, t2, t3⟩ := elementwise_right (fun i q => 1 * i + 1 * q) bias p (by
    rw [ps]
    rcases hb with h | h
    · rw [h]; exact ⟨by simp, .cons (Or.inl rfl) .nil⟩
    · rw [h]; exact ⟨by simp, .cons (Or.inr rfl) (.cons (Or.inl rfl) .nil)⟩)
  refine ⟨r, t, ?_, ?_, by rw [f2, t2, ps]; rfl, ?_⟩
  · unfold convertAddmm
    rw [if_pos (by rw [hw]; rfl), f1]
  · simp only [torchAddmm, p1, Option.bind_eq_bind, Option.bind_some]
    exact t1
  · intro idx hi
    rw [f2] at hi
    rw [t3 idx (by rw [ps]; exact hi)]
    cases hi with
    | @cons i _ _ _ hi hi' =>
      cases hi' with
      | @cons o _ _ _ ho hi' =>
        cases hi'
        have e1 := f3 [i] o (.cons hi .nil) ho
        have e2 := pg [] i o .nil
        simp only [List.nil_append, List.cons_append] at e1 e2
        rw [e1, e2]
        have hbc : bcGet bias [i, o] = bias.get (unflat bias.shape o) := by
          have ho' : (if n = 1 then 0 else o) = o := by split <;> omega
          rcases hb with h | h
          · simp [bcGet, h, unflat, ho']
          · simp [bcGet, h, unflat, ho', Nat.div_eq_of_lt ho, Nat.mod_eq_of_lt ho]
        rw [hbc]
        simp only [one_mul, tg]
        rw [add_comm]

/-- C69 for `baddbmm` with `beta = alpha = 1`: whenever PyTorch has a result, the emitted operators compute it. -/
theorem C69_baddbmm_partial (input b1 b2 t : Tensor R) (h1 : b1.shape.length = 3) (h2 : b2.shape.length = 3) (ht : torchBaddbmm 1 1 input b1 b2 = some t) :
    ∃ r, convertBaddbmm 1 1 input b1 b2 = .ops (some r) ∧ Same r t := by
  unfold convertBaddbmm
  rw [if_pos ⟨h1, h2⟩]
  unfold torchBaddbmm torchAddmm at ht
  simp only [one_mul] at ht
  exact ⟨t, congrArg Emitted.ops ht, rfl, fun _ _ => rfl⟩

/-- The elements that agree with an index on all axes but the first one. -/
private theorem filter_axis0 (d : Nat) (s idx : List Nat) (hi : InBounds s idx) (v : Nat) :
    ((allIndices (d :: s)).filter (fun j => (List.range (d :: s).length).all (fun a => decide (a ∈ [0] ∨ j.getD a 0 = (v :: idx).getD a 0)))).Perm ((List.range d).map (fun t => t :: idx)) := by
  have hl := inBounds_length hi
  rw [List.perm_ext_iff_of_nodup ((allIndices_nodup _).filter _) (List.nodup_range.map (fun a b h => by cases h; rfl))]
  intro j
  simp only [List.mem_filter, allIndices_mem_iff, List.all_eq_true, List.mem_range, decide_eq_true_eq, List.mem_map, List.mem_singleton]
  constructor
  · rintro ⟨hj, ha⟩
    cases hj with
    | @cons t _ js _ ht hj =>
      have hjl := inBounds_length hj
      refine ⟨t, ht, ?_⟩
      congr 1
      refine ext_getD (by omega) ?_
      intro a h
      have := (ha (a + 1) (by simp; omega)).resolve_left (by omega)
      simpa using this.symm
  · rintro ⟨t, ht, rfl⟩
    refine ⟨.cons ht hi, ?_⟩
    intro a ha
    cases a with
    | zero => exact Or.inl rfl
    | succ a => exact Or.inr (by simp)

/-- SUM over the first axis without keeping it. -/
private theorem sum_axis0 (p : Tensor R) (d : Nat) (s : List Nat) (hp : p.shape = d :: s) :
    Same (reshape (p.shape.drop 1) (reduceKeep [0] List.sum p)) (⟨p.shape.drop 1, fun idx => ((List.range (p.shape.getD 0 0)).map (fun t => p.get (t :: idx))).sum⟩ : Tensor R) := by
  refine ⟨rfl, ?_⟩
  intro idx hi
  rw [show (reshape (p.shape.drop 1) (reduceKeep [0] List.sum p)).shape = s by simp [reshape, hp]] at hi
  have hsh : (reduceKeep [0] List.sum p).shape = 1 :: s := by
    unfold reduceKeep
    rw [hp]
    refine ext_getD (by simp) ?_
    intro a ha
    simp only [List.length_map, List.length_range] at ha
    rw [getD_range_map _ _ _ _ ha]
    cases a with
    | zero => rfl
    | succ a => simp
  show (reduceKeep [0] List.sum p).get (unflat (reduceKeep [0] List.sum p).shape (flat (p.shape.drop 1) idx)) = _
  have e : unflat (1 :: s) (flat s idx) = 0 :: idx := by
    simp only [unflat]
    rw [Nat.div_eq_of_lt (flat_lt hi), Nat.mod_eq_of_lt (flat_lt hi), unflat_flat hi]
  rw [hsh, hp, List.drop_one, List.tail_cons, e]
  unfold reduceKeep
  simp only [hp]
  rw [((filter_axis0 d s idx hi 0).map p.get).sum_eq, List.map_map]
  rfl

/-- C69 for `addbmm` with `beta = alpha = 1`. -/
theorem C69_addbmm_partial (input b1 b2 : Tensor R) (c m k n : Nat) (h1 : b1.shape = [c, m, k]) (h2 : b2.shape = [c, k, n]) (hin : ExpandOk input.shape [m, n]) :
    ∃ r t, convertAddbmm 1 1 input b1 b2 = .ops (some r) ∧ torchAddbmm 1 1 input b1 b2 = some t ∧ Same r t := by
  obtain ⟨p, p1, hp⟩ : ∃ p, batchMatmul b1 b2 = some p ∧ p.shape = [c, m, n] := by
    unfold batchMatmul
    rw [h1, h2]
    have : bcShape [c] [c] = some [c] := bcShape_left [c] [c] (expandOk_refl _)
    simp only [List.length_cons, List.length_nil, Nat.reduceAdd, Nat.reduceSub, List.take_succ_cons, List.take_zero, this]
    rw [if_pos ⟨by decide, by decide, rfl⟩]
    exact ⟨_, rfl, rfl⟩
  obtain ⟨hs, hg⟩ := sum_axis0 p c [m, n] hp
  have hsh : (reshape (p.shape.drop 1) (reduceKeep [0] List.sum p)).shape = [m, n] := by simp [reshape, hp]
  obtain ⟨r, r1, r2, r3⟩ := elementwise_right (· + ·) input (reshape (p.shape.drop 1) (reduceKeep [0] List.sum p)) (by rw [hsh]; exact hin)
  obtain ⟨t, t1, t2, t3⟩ := elementwise_right (fun i q => 1 * i + 1 * q) input (⟨p.shape.drop 1, fun idx => ((List.range (p.shape.getD 0 0)).map (fun t => p.get (t :: idx))).sum⟩ : Tensor R)
    (by rw [← hs, hsh]; exact hin)
  refine ⟨r, t, ?_, ?_, by rw [r2, t2, hs], ?_⟩
  · unfold convertAddbmm
    rw [if_pos ⟨by rw [h1]; rfl, by rw [h2]; rfl⟩]
    simp only [p1, Option.bind_eq_bind, Option.bind_some, r1]
  · simp only [torchAddbmm, p1, Option.bind_eq_bind, Option.bind_some]
    exact t1
  · intro idx hi
    rw [r2] at hi
    rw [r3 idx hi, t3 idx (by rw [← hs]; exact hi), hg idx hi, one_mul, one_mul]

end

private def row12 : Tensor ℤ := ⟨[1, 2], fun idx => [3, 5].getD (idx.getD 1 0) 0⟩
private def eye2 : Tensor ℤ := ⟨[2, 2], fun idx => if idx.getD 0 0 = idx.getD 1 0 then 1 else 0⟩

/-- The full claim is false: `alpha` and `beta` are not used. -/
theorem C69_alpha_false : ∃ (beta alpha : ℤ) (bias x w r t : Tensor ℤ), convertAddmm beta alpha bias x w = .ops (some r) ∧ torchAddmm beta alpha bias x w = some t ∧ r.shape = t.shape ∧
    r.get [0, 0] = 4 ∧ t.get [0, 0] = 8 := by
  refine ⟨2, 2, ⟨[2], fun _ => 1⟩, row12, eye2, _, _, rfl, rfl, rfl, ?_, ?_⟩ <;> decide

/-- The full claim is false: a bias with one element per row of a square product is read as one element per column. -/
theorem C69_addmm_row_bias_false : ∃ (bias x w r t : Tensor ℤ), convertAddmm 1 1 bias x w = .ops (some r) ∧ torchAddmm 1 1 bias x w = some t ∧ r.shape = [2, 2] ∧ t.shape = [2, 2] ∧
    r.get [0, 1] = 2 ∧ t.get [0, 1] = 1 := by
  refine ⟨⟨[2, 1], fun idx => [1, 2].getD (idx.getD 0 0) 0⟩, eye2, eye2, _, _, rfl, rfl, rfl, rfl, ?_, ?_⟩ <;> decide

/-- A full matrix as the added operand is rejected by the emitted operator. -/
theorem C69_addmm_matrix_bias_false : ∃ (bias x w t : Tensor ℤ), convertAddmm 1 1 bias x w = .ops none ∧ torchAddmm 1 1 bias x w = some t :=
  ⟨eye2, eye2, eye2, _, rfl, rfl⟩

example : ∃ (x w t : Tensor ℤ), (2 ≤ x.shape.length ∧ x.shape.length ≤ 5) ∧ (2 ≤ w.shape.length ∧ w.shape.length ≤ 5) ∧ 0 < x.shape.getD (x.shape.length - 1) 0 ∧ torchMatmul x w = some t ∧ t.shape = [3, 1, 2] :=
  ⟨⟨[3, 1, 2], fun idx => (idx.getD 0 0 : ℤ)⟩, eye2, _, by decide, by decide, by decide, rfl, rfl⟩

example : ∃ (input b1 b2 : Tensor ℤ), b1.shape = [4, 2, 3] ∧ b2.shape = [4, 3, 5] ∧ ExpandOk input.shape [2, 5] :=
  ⟨⟨[1, 5], fun _ => 1⟩, ⟨[4, 2, 3], fun _ => 2⟩, ⟨[4, 3, 5], fun _ => 3⟩, rfl, rfl, by decide, .cons (Or.inr rfl) (.cons (Or.inl rfl) .nil)⟩

end Verif.Props
