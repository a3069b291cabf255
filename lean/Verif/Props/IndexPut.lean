import Verif.Props.AtenIndex

/-! C64: assigning to an indexed tensor. -/

namespace Verif.Props
open Verif.Spec Verif.Model Verif.Lemmas

private theorem mem_all' {s idx : List Nat} : idx ∈ allIndices s ↔ InBounds s idx := by
  unfold allIndices
  constructor
  · intro h
    obtain ⟨k, hk, rfl⟩ := List.mem_map.1 h
    exact unflat_inBounds (by simpa using hk)
  · intro h
    exact List.mem_map.2 ⟨flat s idx, by simpa using flat_lt h, unflat_flat h⟩

/-- Rows of the flattened index operand are the index vectors of the positions in row-major order. -/
theorem indexVectors_flat {α : Type} (B : List Nat) (xs : List (Tensor Int)) (t : Tensor α) (k : Nat) (hk : k < (B ++ t.shape.drop xs.length).prod) :
    rowVector t.shape.length (indexVectors t.shape xs [(B ++ t.shape.drop xs.length).prod]) [k] =
      rowVector t.shape.length (indexVectors t.shape xs (B ++ t.shape.drop xs.length)) (unflat (B ++ t.shape.drop xs.length) k) := by
  unfold rowVector
  apply List.map_congr_left
  intro j _
  have h1 : flat [(B ++ t.shape.drop xs.length).prod] [k] = k := by simp [flat]
  have h2 : (unflat (B ++ t.shape.drop xs.length) k ++ [j]).getD (B ++ t.shape.drop xs.length).length 0 = j := by
    rw [← unflat_length (B ++ t.shape.drop xs.length) k]; simp
  have h3 : ([k] ++ [j]).getD [(B ++ t.shape.drop xs.length).prod].length 0 = j := rfl
  have h4 : ([k] ++ [j]).dropLast = [k] := rfl
  simp only [indexVectors, List.dropLast_concat, flat_unflat hk, h2, h3, h4, h1]

/-- A value the converter accepts: a number, one element, one element per position of the innermost axis (only if it is computed by the model), or one per row. -/
def PutOk {α : Type} (dynamic : Bool) (v : Tensor α) (S : List Nat) : Prop :=
  v.shape = [] ∨ v.shape = [1] ∨ ∃ P n, S = P ++ [n] ∧ v.shape = [n] ∧ (dynamic = true ∨ S.prod = n)

theorem putOk_flat {α : Type} {dynamic : Bool} {v : Tensor α} {S : List Nat} (hS : 0 < S.length) (h : PutOk dynamic v S) : FlatBroadcast v.shape S := by
  rcases h with h | h | ⟨P, n, hP, h, _⟩
  · exact ⟨0, S, [], by simp [h], by simp, by simp⟩
  · exact ⟨1, S, [], by simp [h], by simp, hS⟩
  · exact ⟨0, P, [n], by simp [h], hP, by simp⟩

theorem putValue_spec {α : Type} (dynamic : Bool) (v : Tensor α) (S : List Nat) (hpos : 0 < S.prod) (h : PutOk dynamic v S) :
    ∃ r, putValue dynamic S.prod v = some r ∧ ∀ k < S.prod, r.get [k] = v.get (unflat v.shape (k % v.shape.prod)) := by
  rcases h with h | h | ⟨P, n, hP, h, hd⟩
  · refine ⟨_, by simp only [putValue, h]; rfl, fun k _ => by simp [h, unflat]⟩
  · by_cases h1 : 1 = S.prod
    · refine ⟨v, by simp only [putValue, h]; rw [if_pos h1], fun k hk => ?_⟩
      have : k = 0 := by omega
      subst this
      simp [h, unflat]
    · cases dynamic with
      | true =>
        refine ⟨tile [S.prod / 1] v, by simp only [putValue, h]; rw [if_neg h1]; simp [tile, h], fun k _ => ?_⟩
        simp [tile, h, unflat]
      | false =>
        refine ⟨_, by simp only [putValue, h]; rw [if_neg h1]; rfl, fun k _ => ?_⟩
        simp [h, unflat, Nat.mod_one]
  · have hSn : S.prod = P.prod * n := by rw [hP]; simp
    by_cases h1 : n = S.prod
    · refine ⟨v, by simp only [putValue, h]; rw [if_pos h1], fun k hk => ?_⟩
      simp [h, unflat, Nat.mod_eq_of_lt (h1 ▸ hk)]
    · have hd : dynamic = true := by
        rcases hd with hd | hd
        · exact hd
        · exact absurd hd.symm h1
      subst hd
      have hn : 0 < n := Nat.pos_of_ne_zero (fun h0 => by subst h0; omega)
      refine ⟨tile [S.prod / n] v, by
        simp only [putValue, h]; rw [if_neg h1]
        simp only [tile, h, if_true]
        rw [if_pos]
        rw [hSn, Nat.mul_div_cancel _ hn]; simp [Nat.mul_comm], fun k _ => ?_⟩
      simp [tile, h, unflat]

/-- C64, assignment, except for repeated targets, negative indices, index shapes that are not repeated in row-major order, constant values for a varying input and values of
higher rank: the converted assignment is accepted and changes exactly the addressed elements. -/
theorem C64_put_partial {α : Type} [AddCommGroup α] (dynamic : Bool) (B : List Nat) (xs : List (Tensor Int)) (v traced t : Tensor α) (hm : xs.length ≤ t.shape.length)
    (hpos : 0 < (B ++ t.shape.drop xs.length).prod) (hrank : 0 < (B ++ t.shape.drop xs.length).length) (hfb : ∀ x ∈ xs, FlatBroadcast x.shape B) (hfull : ∃ x ∈ xs, x.shape.prod = B.prod)
    (hin : ∀ i < xs.length, ∀ b, InBounds B b → 0 ≤ bcGet (xs.getD i ⟨[], fun _ => 0⟩) b ∧ bcGet (xs.getD i ⟨[], fun _ => 0⟩) b < (t.shape.getD i 0 : Int))
    (hinj : ∀ i j, InBounds (B ++ t.shape.drop xs.length) i → InBounds (B ++ t.shape.drop xs.length) j → indexTarget B t.shape xs i = indexTarget B t.shape xs j → i = j)
    (hv : PutOk dynamic v (B ++ t.shape.drop xs.length)) (htr : dynamic = false → Same traced t) :
    ∃ r, convertIndexPut dynamic xs v traced t = some r ∧ IsIndexPut B xs v t r := by
  set S := B ++ t.shape.drop xs.length with hS
  have hB : 0 < B.prod := by rw [hS, List.prod_append] at hpos; exact Nat.pos_of_mul_pos_right hpos
  -- the gather of `C64_index_partial`, for the number of rows and for the index vectors
  have hmax : (xs.map (fun x => x.shape.prod)).foldr max 0 * (t.shape.drop xs.length).prod = S.prod := by
    obtain ⟨r, hr, _⟩ := C64_index_partial B xs t hm hB hfb hfull hin
    unfold convertIndex at hr
    by_contra hne
    simp only at hr
    rw [if_pos (by exact hne)] at hr
    exact absurd hr (by simp)
  have hrow : ∀ k < S.prod, (rowVector t.shape.length (indexVectors t.shape xs [S.prod]) [k]).map Int.toNat = indexTarget B t.shape xs (unflat S k) := by
    intro k hk
    rw [indexVectors_flat B xs t k hk, indexVectors_row B xs t hm hfb _ (unflat_inBounds hk)]
    obtain ⟨hbB, _⟩ := inBounds_split (unflat_inBounds hk)
    unfold indexTarget
    rw [List.map_append, List.map_map, List.map_map]
    congr 1
    · apply List.map_congr_left
      intro i hi
      have hi : i < xs.length := by simpa using hi
      have := hin i hi ((unflat S k).take B.length) hbB
      simp only [Function.comp_def, normDim]
      rw [if_neg (by omega)]
    · simp [Function.comp_def]; rfl
  have hok : ∀ idx ∈ allIndices [S.prod], vectorOk t.shape (rowVector t.shape.length (indexVectors t.shape xs [S.prod]) idx) = true := by
    intro idx hidx
    rw [mem_all'] at hidx
    have hl := inBounds_length hidx
    obtain ⟨k, rfl⟩ : ∃ k, idx = [k] := List.length_eq_one_iff.1 hl
    have hk : k < S.prod := by simpa using ((inBounds_iff _ _).1 hidx).2 0 (by simp)
    rw [indexVectors_flat B xs t k hk]
    obtain ⟨r, hr, _⟩ := C64_index_partial B xs t hm hB hfb hfull hin
    unfold convertIndex tflGatherNd at hr
    simp only at hr
    split at hr
    · exact absurd hr (by simp)
    · have hsh2 : (indexVectors t.shape xs (torchIndex B xs t).shape).shape.dropLast = S := by
        simp only [indexVectors]; exact List.dropLast_concat
      rw [hsh2] at hr
      split at hr
      · next hall =>
        rw [List.all_eq_true] at hall
        exact hall _ (mem_all'.2 (unflat_inBounds hk))
      · exact absurd hr (by simp)
  have hshape1 : (indexVectors t.shape xs [S.prod]).shape.dropLast = [S.prod] := rfl
  obtain ⟨val, hval, hvalget⟩ := putValue_spec dynamic v S hpos hv
  have htarget : ∀ k < S.prod, InBounds t.shape (indexTarget B t.shape xs (unflat S k)) := by
    intro k hk
    have hb := unflat_inBounds hk
    obtain ⟨hbB, hbR⟩ := inBounds_split hb
    unfold indexTarget
    have hsplit : t.shape = t.shape.take xs.length ++ t.shape.drop xs.length := (List.take_append_drop _ _).symm
    conv_lhs => rw [hsplit]
    unfold InBounds
    apply List.rel_append _ hbR
    change InBounds _ _
    rw [inBounds_iff]
    refine ⟨by simp; omega, fun i hi => ?_⟩
    have hi : i < xs.length := by simp at hi; omega
    rw [getD_range_map _ _ _ _ hi]
    have := hin i hi _ hbB
    have e : (t.shape.take xs.length).getD i 0 = t.shape.getD i 0 := by
      rw [List.getD_eq_getElem?_getD, List.getElem?_take_of_lt hi, List.getD_eq_getElem?_getD]
    rw [e]
    simp only [normDim]
    rw [if_neg (by omega)]
    omega
  have htsh : (if dynamic = true then t else traced).shape = t.shape := by
    cases dynamic with
    | true => rfl
    | false => exact (htr rfl).1
  have htget : ∀ p, InBounds t.shape p → (if dynamic = true then t else traced).get p = t.get p := by
    intro p hp
    cases dynamic with
    | true => rfl
    | false => exact (htr rfl).2 p (by rw [(htr rfl).1]; exact hp)
  have hgather : tflGatherNd (indexVectors t.shape xs [S.prod]) (if dynamic = true then t else traced) =
      some ⟨[S.prod], fun idx => (if dynamic = true then t else traced).get ((rowVector t.shape.length (indexVectors t.shape xs [S.prod]) idx).map Int.toNat)⟩ := by
    unfold tflGatherNd
    rw [htsh, hshape1, if_pos (List.all_eq_true.2 hok)]
  unfold convertIndexPut
  simp only [hmax, hval, hgather, Option.bind_eq_bind, Option.bind_some]
  unfold tflScatterNd
  rw [hshape1, if_pos (List.all_eq_true.2 hok)]
  refine ⟨_, rfl, rfl, fun p hp => ?_⟩
  simp only
  by_cases hex : ∃ idx, InBounds S idx ∧ indexTarget B t.shape xs idx = p
  · obtain ⟨idx, hb, hpe⟩ := hex
    left
    refine ⟨idx, hb, hpe, ?_⟩
    have hk := flat_lt hb
    have hf : (allIndices [S.prod]).filter (fun j => (rowVector t.shape.length (indexVectors t.shape xs [S.prod]) j).map Int.toNat = p) = [[flat S idx]] := by
      have hnd : ((allIndices [S.prod]).filter (fun j => decide ((rowVector t.shape.length (indexVectors t.shape xs [S.prod]) j).map Int.toNat = p))).Nodup := by
        apply List.Nodup.filter
        unfold allIndices
        refine (List.nodup_map_iff_inj_on List.nodup_range).2 ?_
        intro x hx y hy hxy
        rw [← flat_unflat (List.mem_range.1 hx), hxy, flat_unflat (List.mem_range.1 hy)]
      have hmem : ∀ j, j ∈ (allIndices [S.prod]).filter (fun j => decide ((rowVector t.shape.length (indexVectors t.shape xs [S.prod]) j).map Int.toNat = p)) ↔ j = [flat S idx] := by
        intro j
        rw [List.mem_filter, mem_all', decide_eq_true_eq]
        constructor
        · rintro ⟨hj, hv⟩
          obtain ⟨k, rfl⟩ : ∃ k, j = [k] := List.length_eq_one_iff.1 (inBounds_length hj)
          have hk' : k < S.prod := by simpa using ((inBounds_iff _ _).1 hj).2 0 (by simp)
          rw [hrow k hk'] at hv
          have := hinj _ _ (unflat_inBounds hk') hb (hv.trans hpe.symm)
          rw [← this, flat_unflat hk']
        · rintro rfl
          refine ⟨by rw [inBounds_iff]; simpa using hk, ?_⟩
          rw [hrow _ hk, unflat_flat hb, hpe]
      generalize (allIndices [S.prod]).filter (fun j => decide ((rowVector t.shape.length (indexVectors t.shape xs [S.prod]) j).map Int.toNat = p)) = L at *
      match L, hnd, hmem with
      | [], _, hm => exact absurd ((hm _).2 rfl) (by simp)
      | [x], _, hm => rw [(hm x).1 (by simp)]
      | x :: y :: L, hnd, hm =>
        have e1 := (hm x).1 (by simp)
        have e2 := (hm y).1 (by simp)
        rw [e1, e2] at hnd
        simp at hnd
    rw [hf]
    simp only [List.map_cons, List.map_nil, List.sum_cons, List.sum_nil, add_zero]
    rw [hvalget _ hk, hrow _ hk, unflat_flat hb, hpe, htget p hp, flatBroadcast_get v S idx (putOk_flat hrank hv) hb]
    exact add_sub_cancel _ _
  · right
    push Not at hex
    refine ⟨hex, ?_⟩
    have hf : (allIndices [S.prod]).filter (fun j => (rowVector t.shape.length (indexVectors t.shape xs [S.prod]) j).map Int.toNat = p) = [] := by
      rw [List.filter_eq_nil_iff]
      intro j hj
      rw [mem_all'] at hj
      obtain ⟨k, rfl⟩ : ∃ k, j = [k] := List.length_eq_one_iff.1 (inBounds_length hj)
      have hk' : k < S.prod := by simpa using ((inBounds_iff _ _).1 hj).2 0 (by simp)
      rw [hrow k hk', decide_eq_true_eq]
      exact hex _ (unflat_inBounds hk')
    rw [hf]
    simp

/-- `t[[0, 2]] = v` with a row `v` computed by the model, on a 3 by 2 tensor. -/
example : PutOk true (⟨[2], fun i => (i.getD 0 0 : Int)⟩ : Tensor Int) [2, 2] ∧ FlatBroadcast [2] [2] ∧
    ((convertIndexPut true [⟨[2], fun i => (2 * i.getD 0 0 : Int)⟩] ⟨[2], fun i => (i.getD 0 0 : Int) + 100⟩ ⟨[3, 2], fun _ => 0⟩
      (⟨[3, 2], fun i => (i.getD 0 0 * 2 + i.getD 1 0 : Int)⟩ : Tensor Int)).map (fun r => [r.get [0, 1], r.get [1, 1], r.get [2, 0]])) = some [101, 3, 100] := by
  refine ⟨Or.inr (Or.inr ⟨[2], 2, rfl, rfl, Or.inl rfl⟩), ⟨0, [], [2], rfl, rfl, by simp⟩, by decide⟩

/-- C64 fails for a constant value and a varying input: the difference is taken from the traced input.  Setting element 0 to 5 turns `[7]` into `[12]` if the model was traced
with `[0]`. -/
theorem C64_put_constant_false :
    ∃ (traced t : Tensor Int), traced.shape = t.shape ∧ ∃ r, convertIndexPut false [⟨[1], fun _ => 0⟩] ⟨[1], fun _ => 5⟩ traced t = some r ∧
      ¬ IsIndexPut [1] [⟨[1], fun _ => 0⟩] ⟨[1], fun _ => 5⟩ t r := by
  refine ⟨⟨[1], fun _ => 0⟩, ⟨[1], fun _ => 7⟩, rfl, _, rfl, ?_⟩
  intro h
  rcases h.2 [0] (by simp [InBounds]) with ⟨idx, _, _, hv⟩ | ⟨hno, _⟩
  · revert hv
    simp [bcGet]
    decide
  · exact hno [0] (by simp [InBounds]) (by decide)

/-- C64 fails for repeated targets: writing 5 twice to element 0 of `[1]` gives 9. -/
theorem C64_put_repeated_false :
    ∃ (t : Tensor Int), ∃ r, convertIndexPut true [⟨[2], fun _ => 0⟩] ⟨[2], fun _ => 5⟩ t t = some r ∧
      ¬ IsIndexPut [2] [⟨[2], fun _ => 0⟩] ⟨[2], fun _ => 5⟩ t r := by
  refine ⟨⟨[1], fun _ => 1⟩, _, rfl, ?_⟩
  intro h
  rcases h.2 [0] (by simp [InBounds]) with ⟨idx, _, _, hv⟩ | ⟨hno, _⟩
  · revert hv
    simp [bcGet]
    decide
  · exact hno [0] (by simp [InBounds]) (by decide)

/-- C64 fails for constant values of more than one element: a constant row assigned to two rows cannot be converted. -/
theorem C64_put_row_false (t traced : Tensor Int) (v : Tensor Int) (x : Tensor Int) (ht : t.shape = [3, 2]) (hv : v.shape = [2]) (hx : x.shape = [2]) :
    convertIndexPut false [x] v traced t = none := by
  simp [convertIndexPut, ht, hx, putValue, hv]

end Verif.Props
