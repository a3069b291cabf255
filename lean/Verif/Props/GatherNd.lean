import Verif.Model.GatherNd
import Verif.Props.PixelShuffle
import Verif.Lemmas.Squeeze

/-! C63: gather and scatter. -/

namespace Verif.Props
open Verif.Spec Verif.Model Verif.Lemmas

theorem indexOk_target {s : List Nat} {dim : Nat} {index : Tensor Nat} (h : IndexOk s dim index) {idx : List Nat} (hb : InBounds index.shape idx) :
    InBounds s (idx.set dim (index.get idx)) := by
  obtain ⟨hd, hl, hle, hv⟩ := h
  have hlen := inBounds_length hb
  have hb' := (inBounds_iff _ _).1 hb
  rw [inBounds_iff]
  refine ⟨by simp; omega, fun a ha => ?_⟩
  rw [set_getD (by omega)]
  split
  · next h => subst h; exact hv idx hb
  · next h => exact lt_of_lt_of_le (hb'.2 a (by omega)) (hle a ha h)

theorem allIndices_getD (s : List Nat) (k : Nat) (h : k < s.prod) : (allIndices s).getD k [] = unflat s k := by
  unfold allIndices
  exact getD_range_map _ _ _ _ h

theorem tracedIndices_vector {s : List Nat} {dim : Nat} {index : Tensor Nat} (h : IndexOk s dim index) {idx : List Nat} (hb : InBounds index.shape idx) (k : Nat) :
    (tracedIndices s dim index).get (idx ++ [k]) = (idx.set dim (index.get idx)).getD k 0 := by
  have ht := indexOk_target h hb
  have hlen := inBounds_length hb
  simp only [tracedIndices, torchGather, arange_reshape, List.dropLast_concat]
  rw [allIndices_getD _ _ (flat_lt ht), unflat_flat ht]
  congr 1
  rw [← hlen]
  simp

private theorem concatGet_singles {α : Type} [Inhabited α] (a : Nat) (ts : List (Tensor α)) (hs : ∀ t ∈ ts, t.size a = 1) (x : Nat) (idx : List Nat) (hx : x < ts.length) (d : Tensor α) :
    concatGet a ts x idx = (ts.getD x d).get (idx.set a 0) := by
  induction ts generalizing x with
  | nil => simp at hx
  | cons t ts ih =>
    simp only [concatGet, hs t (by simp)]
    cases x with
    | zero => simp
    | succ x =>
      rw [if_neg (by omega)]
      simp only [Nat.add_sub_cancel, List.getD_cons_succ]
      exact ih (fun u hu => hs u (by simp [hu])) x (by simpa using hx)

private theorem flat_snoc_one (s idx : List Nat) (hl : idx.length = s.length) : flat (s ++ [1]) (idx ++ [0]) = flat s idx := by
  have := flat_insert_one s idx s.length hl
  rw [List.insertIdx_length_self] at this
  rw [← hl, List.insertIdx_length_self] at this
  exact this

/-- Both index operands have one vector per element of the index, the coordinates of the element addressed. -/
theorem indicesFor_vector (dynamic : Bool) {s : List Nat} {dim : Nat} {traced index : Tensor Nat} (h : IndexOk s dim index)
    (htr : dynamic = true → IndexOk s dim traced ∧ traced.shape = index.shape) :
    (indicesFor dynamic s dim traced index).shape = index.shape ++ [s.length] ∧
    ∀ idx, InBounds index.shape idx → indexVector (indicesFor dynamic s dim traced index) idx = idx.set dim (index.get idx) := by
  have hd := h.1
  have hrank := h.2.1
  have key : ∀ I : Tensor Nat, I.shape = index.shape ++ [s.length] → (∀ idx, InBounds index.shape idx → ∀ k < s.length, I.get (idx ++ [k]) = (idx.set dim (index.get idx)).getD k 0) →
      ∀ idx, InBounds index.shape idx → indexVector I idx = idx.set dim (index.get idx) := by
    intro I hI hget idx hb
    have hlen := inBounds_length hb
    unfold indexVector
    rw [hI]
    have h1 : (index.shape ++ [s.length]).getD ((index.shape ++ [s.length]).length - 1) 0 = s.length := by simp
    rw [h1]
    apply ext_getD (by simp; omega)
    intro k hk
    have hk : k < s.length := by simpa using hk
    rw [getD_range_map _ _ _ _ hk, hget idx hb k hk]
  cases dynamic with
  | false =>
    have : indicesFor false s dim traced index = tracedIndices s dim index := rfl
    rw [this]
    exact ⟨rfl, key _ rfl (fun idx hb k _ => tracedIndices_vector h hb k)⟩
  | true =>
    obtain ⟨htr, hsh⟩ := htr rfl
    have : indicesFor true s dim traced index = dynamicIndices s dim traced index := rfl
    rw [this]
    unfold dynamicIndices
    simp only
    set a := index.shape.length with ha
    have htS : (tracedIndices s dim traced).shape = index.shape ++ [s.length] := by simp [tracedIndices, hsh]
    have hparts : ∀ t ∈ (splitEven a s.length (tracedIndices s dim traced)).set dim (reshape (index.shape ++ [1]) index), t.shape = index.shape ++ [1] := by
      intro t ht
      rcases List.mem_or_eq_of_mem_set ht with ht | ht
      · unfold splitEven at ht
        obtain ⟨k, _, rfl⟩ := List.mem_map.1 ht
        have hsz : (tracedIndices s dim traced).size a = s.length := by simp [Tensor.size, htS, ha]
        simp only [split, hsz, htS]
        rw [Nat.div_self (by omega), List.set_append_right _ _ (by omega)]
        simp [ha]
      · rw [ht]; rfl
    have hone : ∀ t ∈ (splitEven a s.length (tracedIndices s dim traced)).set dim (reshape (index.shape ++ [1]) index), t.size a = 1 := by
      intro t ht
      simp [Tensor.size, hparts t ht, ha]
    have hlenp : ((splitEven a s.length (tracedIndices s dim traced)).set dim (reshape (index.shape ++ [1]) index)).length = s.length := by simp [splitEven]
    generalize hP : (splitEven a s.length (tracedIndices s dim traced)).set dim (reshape (index.shape ++ [1]) index) = P at hparts hone hlenp ⊢
    have hshape : (concat a P).shape = index.shape ++ [s.length] := by
      cases P with
      | nil => simp at hlenp; omega
      | cons t ts =>
        simp only [concat]
        rw [List.map_congr_left hone, hparts t (by simp), List.map_const', List.sum_replicate, hlenp, List.set_append_right _ _ (by omega)]
        simp [ha]
    refine ⟨hshape, key _ hshape ?_⟩
    intro idx hb k hk
    have hlen := inBounds_length hb
    simp only [concat]
    have hk' : (idx ++ [k]).getD a 0 = k := by rw [ha, ← hlen]; simp
    rw [hk', concatGet_singles a P hone k _ (by omega) (reshape (index.shape ++ [1]) index)]
    have hset0 : (idx ++ [k]).set a 0 = idx ++ [0] := by rw [ha, ← hlen, List.set_append_right _ _ (by omega)]; simp
    rw [hset0, ← hP]
    by_cases hkd : k = dim
    · subst hkd
      rw [set_getD_self _ _ _ _ (by simp [splitEven]; omega), set_getD_self _ _ _ _ (by omega)]
      simp only [reshape]
      rw [flat_snoc_one _ _ hlen, unflat_flat hb]
    · rw [set_getD_ne _ _ _ _ _ hkd, set_getD_ne _ _ _ _ _ hkd]
      unfold splitEven
      rw [getD_range_map _ _ _ _ hk]
      have hsz : (tracedIndices s dim traced).size a = s.length := by simp [Tensor.size, htS, ha]
      simp only [split, hsz]
      rw [Nat.div_self (by omega)]
      have e1 : (idx ++ [0]).getD a 0 = 0 := by rw [ha, ← hlen]; simp
      have e2 : (idx ++ [0]).set a (k * 1 + (idx ++ [0]).getD a 0) = idx ++ [k] := by
        rw [e1, ha, ← hlen, List.set_append_right _ _ (by omega)]; simp
      rw [e2, tracedIndices_vector htr (by rw [hsh]; exact hb), set_getD_ne _ _ _ _ _ hkd]

/-- C63: converted `torch.gather` reads the element PyTorch reads, whether the index is a constant or computed by the model (in which case the traced index may be
any valid index of the same shape). -/
theorem C63_gather {α : Type} (dynamic : Bool) (dim : Int) (traced index : Tensor Nat) (t : Tensor α) (h : IndexOk t.shape (normDim t.shape.length dim) index)
    (htr : dynamic = true → IndexOk t.shape (normDim t.shape.length dim) traced ∧ traced.shape = index.shape) :
    Same (convertGather dynamic dim traced index t) (torchGather (normDim t.shape.length dim) index t) := by
  obtain ⟨h1, h2⟩ := indicesFor_vector dynamic h htr
  have hd : fixDim t.shape.length dim = normDim t.shape.length dim := rfl
  unfold convertGather
  rw [hd]
  refine ⟨by simp [gatherNd, h1, torchGather], fun idx hb => ?_⟩
  simp only [gatherNd, h1, List.dropLast_concat] at hb
  simp only [gatherNd, torchGather]
  rw [h2 idx hb]

/-- A 2 by 3 tensor gathered along its last axis with a 2 by 2 index; the traced index was all zero. -/
example : IndexOk [2, 3] 1 ⟨[2, 2], fun i => i.getD 0 0 + i.getD 1 0⟩ ∧
    (convertGather true (-1) ⟨[2, 2], fun _ => 0⟩ ⟨[2, 2], fun i => i.getD 0 0 + i.getD 1 0⟩ (⟨[2, 3], fun i => i.getD 0 0 * 3 + i.getD 1 0⟩ : Tensor Nat)).get [1, 1] = 5 := by
  refine ⟨⟨by decide, rfl, ?_, ?_⟩, by decide⟩
  · intro a ha hne
    have : a = 0 := by simp at ha; omega
    subst this; decide
  · intro idx hb
    have h0 := ((inBounds_iff _ _).1 hb).2 0 (by simp)
    have h1 := ((inBounds_iff _ _).1 hb).2 1 (by simp)
    simp at h0 h1 ⊢
    omega

private theorem mem_all {s idx : List Nat} : idx ∈ allIndices s ↔ InBounds s idx := by
  unfold allIndices
  constructor
  · intro h
    obtain ⟨k, hk, rfl⟩ := List.mem_map.1 h
    exact unflat_inBounds (by simpa using hk)
  · intro h
    exact List.mem_map.2 ⟨flat s idx, by simpa using flat_lt h, unflat_flat h⟩

private theorem nodup_all (s : List Nat) : (allIndices s).Nodup := by
  unfold allIndices
  refine (List.nodup_map_iff_inj_on List.nodup_range).2 ?_
  intro x hx y hy hxy
  rw [← flat_unflat (List.mem_range.1 hx), hxy, flat_unflat (List.mem_range.1 hy)]

/-- The source covers the index. -/
def SrcOk {α : Type} (src : ScatterSrc α) (index : Tensor Nat) : Prop :=
  match src with
  | .num _ => True
  | .tensor t => t.shape.length = index.shape.length ∧ ∀ a < index.shape.length, index.shape.getD a 0 ≤ t.shape.getD a 0

theorem fillTensor_get {α : Type} (src : ScatterSrc α) (index indices : Tensor Nat) (r : Nat) (hs : SrcOk src index) (hsh : indices.shape = index.shape ++ [r]) (idx : List Nat)
    (hb : InBounds index.shape idx) : (fillTensor src indices).get idx = (src.asTensor index.shape).get idx := by
  cases src with
  | num v => rfl
  | tensor t =>
    have hlen := inBounds_length hb
    simp only [fillTensor, SliceOp.run, ScatterSrc.asTensor, hsh]
    congr 1
    simp only [SrcOk] at hs
    apply ext_getD (by simp; omega)
    intro a ha
    have ha : a < t.shape.length := by simpa using ha
    rw [getD_range_map _ _ _ _ ha, getD_eq_getElem _ _ _ (by simp; omega)]
    simp

/-- The values handed to SCATTER_ND have the shape of the index, as the operator requires. -/
theorem C63_scatter_updates_shape {α : Type} (src : ScatterSrc α) (index indices : Tensor Nat) (r : Nat) (hs : SrcOk src index)
    (hsh : indices.shape = index.shape ++ [r]) : (fillTensor src indices).shape = index.shape := by
  cases src with
  | num v => simp [fillTensor, hsh]
  | tensor t =>
    simp only [SrcOk] at hs
    simp only [fillTensor, SliceOp.run, hsh]
    simp

/-- C63, scatter, except for repeated targets: converted `torch.scatter` writes what PyTorch writes if no two entries of the index address the same element. -/
theorem C63_scatter_partial {α : Type} [AddCommMonoid α] (dynamic : Bool) (s : List Nat) (dim : Int) (traced index : Tensor Nat) (src : ScatterSrc α)
    (h : IndexOk s (normDim s.length dim) index) (hs : SrcOk src index)
    (htr : dynamic = true → IndexOk s (normDim s.length dim) traced ∧ traced.shape = index.shape)
    (hinj : ∀ i j, InBounds index.shape i → InBounds index.shape j → i.set (normDim s.length dim) (index.get i) = j.set (normDim s.length dim) (index.get j) → i = j) :
    IsScatter s (normDim s.length dim) index (src.asTensor index.shape) (convertScatter dynamic s dim traced index src) := by
  obtain ⟨h1, h2⟩ := indicesFor_vector dynamic h htr
  have hd : fixDim s.length dim = normDim s.length dim := rfl
  unfold convertScatter
  rw [hd]
  simp only
  set d := normDim s.length dim
  refine ⟨rfl, fun p hp => ?_⟩
  simp only [scatterNd]
  rw [h1, List.dropLast_concat]
  by_cases hex : ∃ idx, InBounds index.shape idx ∧ idx.set d (index.get idx) = p
  · obtain ⟨idx, hb, hpe⟩ := hex
    left
    refine ⟨idx, hb, hpe, ?_⟩
    have hf : (allIndices index.shape).filter (fun j => indexVector (indicesFor dynamic s d traced index) j = p) = [idx] := by
      have hnd := (nodup_all index.shape).filter (fun j => decide (indexVector (indicesFor dynamic s d traced index) j = p))
      have hmem : ∀ j, j ∈ (allIndices index.shape).filter (fun j => decide (indexVector (indicesFor dynamic s d traced index) j = p)) ↔ j = idx := by
        intro j
        rw [List.mem_filter, mem_all, decide_eq_true_eq]
        constructor
        · rintro ⟨hj, hv⟩
          rw [h2 j hj] at hv
          exact hinj j idx hj hb (hv.trans hpe.symm)
        · rintro rfl
          exact ⟨hb, by rw [h2 j hb, hpe]⟩
      generalize (allIndices index.shape).filter (fun j => decide (indexVector (indicesFor dynamic s d traced index) j = p)) = L at *
      match L, hnd, hmem with
      | [], _, hm => exact absurd ((hm idx).2 rfl) (by simp)
      | [x], _, hm => rw [(hm x).1 (by simp)]
      | x :: y :: L, hnd, hm =>
        have e1 := (hm x).1 (by simp)
        have e2 := (hm y).1 (by simp)
        subst e1
        simp [e2] at hnd
    rw [hf]
    simp only [List.map_cons, List.map_nil, List.sum_cons, List.sum_nil, add_zero]
    exact fillTensor_get src index _ _ hs h1 idx hb
  · right
    push Not at hex
    refine ⟨hex, ?_⟩
    have hf : (allIndices index.shape).filter (fun j => indexVector (indicesFor dynamic s d traced index) j = p) = [] := by
      rw [List.filter_eq_nil_iff]
      intro j hj
      rw [mem_all] at hj
      rw [h2 j hj, decide_eq_true_eq]
      exact hex j hj
    rw [hf]
    rfl

/-- C63 fails for scatter when two entries address the same element: SCATTER_ND adds the values, PyTorch keeps one of them.  Here both entries of a vector are
written to position 0, the values 1 and 2 become 3. -/
theorem C63_scatter_repeated_false :
    ∃ (index : Tensor Nat) (src : ScatterSrc Int), IndexOk [2] 0 index ∧ SrcOk src index ∧
      ¬ IsScatter [2] 0 index (src.asTensor index.shape) (convertScatter false [2] 0 index index src) := by
  refine ⟨⟨[2], fun _ => 0⟩, .tensor ⟨[2], fun i => (i.getD 0 0 : Int) + 1⟩, ⟨by decide, rfl, ?_, ?_⟩, ⟨rfl, fun a ha => le_refl _⟩, ?_⟩
  · intro a ha hne; simp at ha; omega
  · intro idx _; simp
  · intro hsc
    have h3 : (convertScatter false [2] 0 (⟨[2], fun _ => 0⟩ : Tensor Nat) ⟨[2], fun _ => 0⟩ (.tensor ⟨[2], fun i => (i.getD 0 0 : Int) + 1⟩)).get [0] = 3 := by decide
    rcases hsc.2 [0] (by simp [InBounds]) with ⟨idx, hb, _, hv⟩ | ⟨hno, _⟩
    · rw [h3] at hv
      have := ((inBounds_iff _ _).1 hb).2 0 (by simp)
      simp [ScatterSrc.asTensor] at hv this
      omega
    · exact hno [0] (by simp [InBounds]) rfl

end Verif.Props
