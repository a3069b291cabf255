import Verif.Model.AxisArg
import Verif.Props.Layout
import Verif.Props.AtenExpand
import Verif.Lemmas.Bcast

/-! C106: operations that take axes work on the axes PyTorch means. -/

namespace Verif.Props
open Verif.Spec Verif.Spec.AxisArg Verif.Model Verif.Model.AxisArg Verif.Lemmas

namespace AxisArg

theorem axisOf_lt {n a : ℕ} {d : ℤ} (h : axisOf n d = some a) : a < n := by
  unfold axisOf at h
  split at h
  · cases h; omega
  · split at h
    · cases h; omega
    · cases h

theorem npIndex_eq (n : ℕ) (d : ℤ) : npIndex n d = axisOf n d := by
  unfold npIndex axisOf
  by_cases h0 : d < 0
  · rw [if_pos h0, if_neg (show ¬ (0 ≤ d ∧ d < n) by omega)]
    by_cases h1 : -(n : ℤ) ≤ d
    · rw [if_pos ⟨h1, by omega⟩, if_pos ⟨h1, h0⟩]
    · rw [if_neg (by omega), if_neg (by omega)]
  · rw [if_neg h0]
    by_cases h1 : d < n
    · rw [if_pos ⟨by omega, h1⟩, if_pos ⟨by omega, h1⟩]
    · rw [if_neg (by omega), if_neg (by omega), if_neg (by omega)]

theorem addRank_eq {n a : ℕ} {d : ℤ} (h : axisOf n d = some a) : addRank n d = a := by
  unfold axisOf at h
  unfold addRank
  split at h
  · cases h; split <;> omega
  · split at h
    · cases h; split <;> omega
    · cases h

theorem swapPerm_eq {n a b : ℕ} {d1 d2 : ℤ} (h1 : axisOf n d1 = some a) (h2 : axisOf n d2 = some b) : swapPerm n d1 d2 = some ((List.range n).map (swapAxes a b)) := by
  have ha := axisOf_lt h1
  have hb := axisOf_lt h2
  unfold swapPerm
  rw [npIndex_eq, npIndex_eq, h1, h2]
  simp only [Option.bind_eq_bind, Option.bind_some, Option.some.injEq]
  refine ext_getD (by simp) fun i hi => ?_
  have hi' : i < n := by simpa using hi
  rw [getD_range_map _ _ _ _ hi']
  simp only [List.getD_eq_getElem?_getD, List.getElem?_set, List.length_set, List.length_range, List.getElem?_range, ha, hb, hi', swapAxes]
  by_cases hib : b = i
  · subst hib; by_cases hab : b = a
    · subst hab; simp
    · simp [hab]
  · by_cases hia : a = i
    · subst hia; simp [hib]
    · simp [hib, hia, Ne.symm hib, Ne.symm hia, hi']

theorem swapAxes_swapAxes (a b j : ℕ) : swapAxes a b (swapAxes a b j) = j := by
  unfold swapAxes
  split_ifs <;> omega

theorem swapAxes_lt {n a b j : ℕ} (ha : a < n) (hb : b < n) (hj : j < n) : swapAxes a b j < n := by
  unfold swapAxes
  split_ifs <;> omega

theorem swap_isPerm {n a b : ℕ} (ha : a < n) (hb : b < n) : IsPerm n ((List.range n).map (swapAxes a b)) := by
  refine isPerm_of_nodup (by simp) ?_ ?_
  · refine (List.nodup_map_iff_inj_on List.nodup_range).2 fun x _ y _ h => ?_
    rw [← swapAxes_swapAxes a b x, h, swapAxes_swapAxes]
  · intro x hx
    obtain ⟨j, hj, rfl⟩ := List.mem_map.1 hx
    exact swapAxes_lt ha hb (List.mem_range.1 hj)

theorem swap_idxOf {n a b j : ℕ} (ha : a < n) (hb : b < n) (hj : j < n) : ((List.range n).map (swapAxes a b)).idxOf j = swapAxes a b j := by
  have h := (swap_isPerm ha hb).idxOf_get (swapAxes_lt ha hb hj)
  rwa [getD_range_map _ _ _ _ (swapAxes_lt ha hb hj), swapAxes_swapAxes] at h

variable {α : Type}

theorem tflTranspose_nat (p : List ℕ) (t : Tensor α) (hp : IsPerm t.shape.length p) : tflTranspose (p.map fun (k : ℕ) => (k : ℤ)) t = some (transpose p t) := by
  unfold tflTranspose
  rw [if_pos]
  · simp [Function.comp_def]
  · refine ⟨by simpa using hp.length, fun d hd => ?_⟩
    obtain ⟨k, hk, rfl⟩ := List.mem_map.1 hd
    have := (hp.mem k).1 hk
    omega

end AxisArg
open AxisArg

/-- C106.  `t.transpose(d1, d2)`, also with axes counted from the end. -/
theorem C106_transpose {α : Type} (d1 d2 : ℤ) (t : Tensor α) (a b : ℕ) (h1 : axisOf t.shape.length d1 = some a) (h2 : axisOf t.shape.length d2 = some b) :
    ∃ r, convertTranspose d1 d2 t = some r ∧ IsTranspose a b t r := by
  have ha := axisOf_lt h1
  have hb := axisOf_lt h2
  refine ⟨transpose ((List.range t.shape.length).map (swapAxes a b)) t, ?_, ?_, ?_, ?_⟩
  · simp only [convertTranspose, swapPerm_eq h1 h2, Option.bind_eq_bind, Option.bind_some]
    exact tflTranspose_nat _ t (swap_isPerm ha hb)
  · simp [transpose]
  · intro j hj
    simp only [transpose, List.map_map]
    rw [getD_range_map _ _ _ _ hj]
    rfl
  · intro idx hi
    have hl : idx.length = t.shape.length := by rw [inBounds_length hi]; simp [transpose]
    show t.get _ = t.get _
    rw [hl]
    congr 1
    refine List.map_congr_left fun j hj => ?_
    rw [swap_idxOf ha hb (List.mem_range.1 hj)]

example : axisOf 3 (-1) = some 2 ∧ axisOf 3 0 = some 0 ∧ swapPerm 3 (-1) 0 = some [2, 1, 0] := by decide

/-- C106.  `t.t()` exchanges the axes of a matrix and leaves tensors with fewer axes alone. -/
theorem C106_t {α : Type} (t : Tensor α) (h : t.shape.length ≤ 2) :
    ∃ r, convertT t = some r ∧ (t.shape.length = 2 → IsTranspose 0 1 t r) ∧ (t.shape.length < 2 → Same r t) := by
  unfold convertT
  split
  · next h2 =>
    have h2 : t.shape.length = 2 := by omega
    have hr : (List.range t.shape.length).reverse = (List.range t.shape.length).map (swapAxes 0 1) := by rw [h2]; decide
    obtain ⟨r, hr', hT⟩ := C106_transpose 0 1 t 0 1 (by rw [h2]; decide) (by rw [h2]; decide)
    refine ⟨r, ?_, fun _ => hT, fun hlt => by omega⟩
    rw [hr, ← hr', convertTranspose, swapPerm_eq (a := 0) (b := 1) (by rw [h2]; decide) (by rw [h2]; decide)]
    rfl
  · exact ⟨_, rfl, fun h2 => by omega, fun _ => reshape_self t⟩

/-- C106.  `t.permute(dims)` with axes counted from the front.  Missing: axes counted from the end, for which the model is invalid (`C106_permute_false`). -/
theorem C106_permute_partial {α : Type} (axes : List ℕ) (t : Tensor α) (h : IsPerm t.shape.length axes) :
    ∃ r, convertPermute (axes.map fun (k : ℕ) => (k : ℤ)) t = some r ∧ IsPermute axes t r := by
  refine ⟨_, tflTranspose_nat axes t h, rfl, fun idx hi => ?_⟩
  have hl := inBounds_length hi
  show t.get _ = t.get _
  congr 1
  refine ext_getD (by simp [hl]) fun j hj => ?_
  have hj' : j < t.shape.length := by simpa using hj
  rw [getD_range_map _ _ _ _ hj', getD_map_lt _ _ _ _ 0 (by rw [h.length]; exact h.idxOf_lt hj'), h.get_idxOf hj']

example : IsPerm 3 [2, 0, 1] := by unfold IsPerm; decide

/-- The statement for `permute`: whatever way the axes are given, the model permutes them. -/
def C106_permute_statement : Prop :=
  ∀ (dims : List ℤ) (t : Tensor ℕ) (axes : List ℕ), dims.map (axisOf t.shape.length) = axes.map some → IsPerm t.shape.length axes → ∃ r, convertPermute dims t = some r ∧ IsPermute axes t r

/-- C106.  `x.permute(0, -1, 1)` gives a model TFLite rejects: the axes are written as they are. -/
theorem C106_permute_false : ¬ C106_permute_statement := by
  intro h
  obtain ⟨r, hr, _⟩ := h [0, -1, 1] ⟨[2, 3, 4], fun _ => 0⟩ [0, 2, 1] (by decide) (by unfold IsPerm; decide)
  simp [convertPermute, tflTranspose] at hr

/-- C106.  Softmax and log-softmax work along the axis meant. -/
theorem C106_along {α : Type} (f : List α → ℕ → α) (d : ℤ) (t : Tensor α) (a : ℕ) (h : axisOf t.shape.length d = some a) : Same (convertAlong f d t) (alongAxis a f t) := by
  unfold convertAlong
  rw [addRank_eq h]
  exact (C02_last_dim_wrapping t a (axisOf_lt h)).2 f

/-- C106.  So does the cumulative sum. -/
theorem C106_cumsum {α : Type} (f : List α → ℕ → α) (d : ℤ) (t : Tensor α) (a : ℕ) (h : axisOf t.shape.length d = some a) : convertCumsum f d t = alongAxis a f t := by
  unfold convertCumsum
  rw [addRank_eq h]
  rfl

example : axisOf 4 (-3) = some 1 ∧ addRank 4 (-3) = 1 := by decide

/-- C106.  `torch.cat` of tensors that can be concatenated, none of them the empty one-dimensional tensor PyTorch leaves out.  Missing: those (`C106_cat_false`). -/
theorem C106_cat_partial {α : Type} [Inhabited α] (d : ℤ) (t : Tensor α) (ts : List (Tensor α)) (a : ℕ) (h : axisOf t.shape.length d = some a) (hc : Concatenable a (t :: ts))
    (hne : ∀ u ∈ t :: ts, u.shape ≠ [0]) : convertCat d (t :: ts) = some (concat a (catParts (t :: ts))) := by
  have hp : catParts (t :: ts) = t :: ts := List.filter_eq_self.2 fun u hu => by simpa using hne u hu
  have ha := axisOf_lt h
  obtain ⟨s, _, hs⟩ := hc
  rw [hp]
  simp only [convertCat, tflConcat, addRank_eq h]
  rw [if_pos]
  · simp
  · refine ⟨fun u hu => ?_, by omega, by omega⟩
    rw [hs u hu, hs t (by simp)]
    simp

example : Concatenable 1 [(⟨[2, 3], fun _ => 0⟩ : Tensor ℕ), ⟨[2, 5], fun _ => 1⟩] := ⟨[2, 0], by decide, by simp [Tensor.size]⟩

/-- The statement for `cat`: the tensors PyTorch leaves out do not matter. -/
def C106_cat_statement : Prop :=
  ∀ (d : ℤ) (ts : List (Tensor ℕ)) (t : Tensor ℕ) (a : ℕ), t ∈ catParts ts → axisOf t.shape.length d = some a → Concatenable a (catParts ts) →
    ∃ r, convertCat d ts = some r ∧ Same r (concat a (catParts ts))

/-- C106.  `torch.cat([torch.zeros(0), x], 1)` gives a model TFLite rejects. -/
theorem C106_cat_false : ¬ C106_cat_statement := by
  intro h
  obtain ⟨r, hr, _⟩ := h 1 [⟨[0], fun _ => 0⟩, ⟨[2, 3], fun _ => 0⟩] ⟨[2, 3], fun _ => 0⟩ 1 (by simp [catParts]) (by decide) ⟨[2, 3], by decide, by simp [catParts, Tensor.size]⟩
  simp [convertCat, tflConcat] at hr

namespace AxisArg

/-- `ExpandOk` with the last axis first. -/
def Fits (s o : List ℕ) : Prop := s.length ≤ o.length ∧ List.Forall₂ (fun d e => d = e ∨ d = 1) s (o.take s.length)

theorem fits_rev (s o : List ℕ) : Fits s.reverse o.reverse ↔ ExpandOk s o := by
  unfold Fits ExpandOk
  simp only [List.length_reverse, List.take_reverse, List.forall₂_reverse_iff]

theorem fits_refl (s : List ℕ) : Fits s s := ⟨le_refl _, by simpa using List.forall₂_same.2 fun _ _ => Or.inl rfl⟩

theorem fits_cons {a b : ℕ} {s o : List ℕ} : Fits (a :: s) (b :: o) ↔ (a = b ∨ a = 1) ∧ Fits s o := by
  simp only [Fits, List.length_cons, List.take_succ_cons, List.forall₂_cons, Nat.add_le_add_iff_right]
  tauto

theorem fits_nil (o : List ℕ) : Fits [] o := ⟨by simp, by simp⟩

theorem fits_trans : ∀ {r s o : List ℕ}, Fits r s → Fits s o → Fits r o
  | [], _, o, _, _ => fits_nil o
  | _ :: _, [], _, h, _ => by have := h.1; simp at this
  | _ :: _, _ :: _, [], _, h => by have := h.1; simp at this
  | a :: r, b :: s, c :: o, h, h' => by
    rw [fits_cons] at h h' ⊢
    refine ⟨?_, fits_trans h.2 h'.2⟩
    rcases h.1 with rfl | rfl
    · exact h'.1
    · exact Or.inr rfl

theorem bcRev_fits : ∀ (s t o : List ℕ), bcRev s t = some o → Fits s o ∧ Fits t o
  | [], t, o, h => by simp only [bcRev, Option.some.injEq] at h; subst h; exact ⟨fits_nil _, fits_refl _⟩
  | a :: s, [], o, h => by simp only [bcRev, Option.some.injEq] at h; subst h; exact ⟨fits_refl _, fits_nil _⟩
  | a :: s, b :: t, o, h => by
    unfold bcRev at h
    split at h
    · next hab =>
      obtain ⟨o', ho, rfl⟩ := Option.map_eq_some_iff.1 h
      obtain ⟨h1, h2⟩ := bcRev_fits s t o' ho
      exact ⟨fits_cons.2 ⟨Or.inl rfl, h1⟩, fits_cons.2 ⟨Or.inl hab.symm, h2⟩⟩
    · split at h
      · next ha =>
        obtain ⟨o', ho, rfl⟩ := Option.map_eq_some_iff.1 h
        obtain ⟨h1, h2⟩ := bcRev_fits s t o' ho
        exact ⟨fits_cons.2 ⟨Or.inr ha, h1⟩, fits_cons.2 ⟨Or.inl rfl, h2⟩⟩
      · split at h
        · next hb =>
          obtain ⟨o', ho, rfl⟩ := Option.map_eq_some_iff.1 h
          obtain ⟨h1, h2⟩ := bcRev_fits s t o' ho
          exact ⟨fits_cons.2 ⟨Or.inl rfl, h1⟩, fits_cons.2 ⟨Or.inr hb, h2⟩⟩
        · cases h

theorem bcAll_fits : ∀ (ss : List (List ℕ)) (o : List ℕ), bcAll ss = some o → ∀ s ∈ ss, ExpandOk s o
  | [], _, _, _, hs => by simp at hs
  | s :: ss, o, h, u, hu => by
    simp only [bcAll, Option.bind_eq_some_iff] at h
    obtain ⟨o', ho', h⟩ := h
    simp only [bcShape, Option.map_eq_some_iff] at h
    obtain ⟨r, hr, rfl⟩ := h
    obtain ⟨h1, h2⟩ := bcRev_fits _ _ _ hr
    rcases List.mem_cons.1 hu with rfl | hu
    · rw [← fits_rev]; simpa using h1
    · have := (fits_rev _ _).2 (bcAll_fits ss o' ho' u hu)
      rw [← fits_rev]
      simpa using fits_trans this h2

end AxisArg

/-- C106.  `torch.broadcast_tensors`: every tensor is expanded to the common shape. -/
theorem C106_broadcast {α : Type} (ts : List (Tensor α)) (out : List ℕ) (h : bcAll (ts.map fun t => t.shape) = some out) :
    ∃ rs, convertBroadcast ts = some rs ∧ List.Forall₂ (fun t r => Same r (torchExpand out t)) ts rs := by
  refine ⟨ts.map (broadcastOne out), by simp [convertBroadcast, h], ?_⟩
  rw [List.forall₂_map_right_iff, List.forall₂_same]
  intro t ht
  have ho := bcAll_fits _ _ h t.shape (List.mem_map_of_mem ht)
  have he := C71_expand out t ho
  unfold broadcastOne
  unfold convertExpand leadingOnes at he
  split
  · next heq =>
    rw [if_pos heq] at he
    exact (reshape_self t).trans he
  · next hne =>
    rw [if_neg hne] at he
    exact he

example : bcAll [[3, 1], [2, 1, 4], [4]] = some [2, 3, 4] := by decide

end Verif.Props
