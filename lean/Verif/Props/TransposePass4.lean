import Verif.Props.TransposePass3

/-!
C47, continued: reductions, PRELU, and the cases in which the rewriting fails or changes the result.
-/

namespace Verif.Props
open Verif.Model Verif.Spec Verif.Lemmas

/-! ### reductions -/

private def src (q : List Nat) (n : Nat) (idx : List Nat) : List Nat := (List.range n).map (fun j => idx.getD (q.idxOf j) 0)

private theorem src_getD {q : List Nat} {n : Nat} {idx : List Nat} {j : Nat} (hj : j < n) : (src q n idx).getD j 0 = idx.getD (q.idxOf j) 0 := by
  unfold src; rw [getD_range_map _ _ _ _ hj]

private theorem mem_allIndices (s j : List Nat) : j ∈ allIndices s ↔ InBounds s j := by
  unfold allIndices
  rw [List.mem_map]
  constructor
  · rintro ⟨k, hk, rfl⟩; exact unflat_inBounds (by simpa using hk)
  · intro h; exact ⟨flat s j, by simpa using flat_lt h, unflat_flat h⟩

private theorem nodup_allIndices (s : List Nat) : (allIndices s).Nodup := by
  unfold allIndices
  refine List.Nodup.map_on ?_ List.nodup_range
  intro x hx y hy h
  have hx' : x < s.prod := by simpa using hx
  have hy' : y < s.prod := by simpa using hy
  rw [← flat_unflat hx', ← flat_unflat hy', h]

private theorem passAxes_eq {n : Nat} {q : List Nat} (hq : IsPerm n q) : ∀ axes : List Nat, (∀ a ∈ axes, a < n) → passAxes q axes = some (axes.map (fun a => q.idxOf a)) := by
  intro axes
  unfold passAxes
  induction axes with
  | nil => intro _; rfl
  | cons a axes ih =>
    intro h
    have ha : a ∈ q := (IsPerm.mem hq a).mpr (h a (by simp))
    rw [List.mapM_cons, ih (fun x hx => h x (by simp [hx]))]
    simp [passAxis, ha]

/-- **C47** reductions (MEAN, SUM, REDUCE_MAX, ...) that keep the reduced axes, for every function of the reduced elements that does not depend on their
order. -/
theorem C47_reduce {α β : Type} (f : List α → β) (hf : ∀ l₁ l₂, l₁.Perm l₂ → f l₁ = f l₂) (t : Tensor α) (p : List Nat) (hp : IsPerm t.shape.length p)
    (axes : List Nat) (ha : ∀ a ∈ axes, a < t.shape.length) :
    ∃ axes', passAxes (passInv p) axes = some axes' ∧ Same (transpose p (reduceKeep axes' f (transpose (passInv p) t))) (reduceKeep axes f t) := by
  have hq : IsPerm t.shape.length (passInv p) := argsort_isPerm (IsPerm.length hp)
  refine ⟨_, passAxes_eq hq axes ha, ?_⟩
  refine pass_of_commute' hp _ _ (by simp [reduceKeep]) ?_
  generalize hqq : passInv p = q at hq
  generalize hn : t.shape.length = n at hq ha
  have hql := IsPerm.length hq
  have htl : (transpose q t).shape.length = n := transpose_shape_length hq t
  have htg : ∀ i < n, (transpose q t).shape.getD i 0 = t.shape.getD (q.getD i 0) 0 := by
    intro i hi; simp only [transpose]; rw [getD_map_lt _ _ _ _ 0 (by rw [hql]; exact hi)]
  have hmem : ∀ i < n, (i ∈ axes.map (fun a => q.idxOf a) ↔ q.getD i 0 ∈ axes) := by
    intro i hi
    rw [List.mem_map]
    constructor
    · rintro ⟨a, hax, rfl⟩; rwa [IsPerm.get_idxOf hq (ha a hax)]
    · intro h; exact ⟨_, h, IsPerm.idxOf_get hq hi⟩
  have hmem' : ∀ j < n, (q.idxOf j ∈ axes.map (fun a => q.idxOf a) ↔ j ∈ axes) := by
    intro j hj
    rw [hmem _ (IsPerm.idxOf_lt hq hj), IsPerm.get_idxOf hq hj]
  refine ⟨?_, ?_⟩
  · apply ext_getD
    · simp [reduceKeep, transpose, hql]
    · intro i hi
      have hi' : i < n := by simpa [reduceKeep, htl] using hi
      have hg := IsPerm.get_lt hq hi'
      simp only [reduceKeep]
      rw [htl, getD_range_map _ _ _ _ hi']
      conv_rhs => simp only [transpose]
      rw [getD_map_lt _ _ _ _ 0 (by rw [hql]; exact hi'), hn, getD_range_map _ _ _ _ hg, htg i hi']
      simp only [hmem i hi']
  · intro idx hidx
    have hl : idx.length = n := by have := inBounds_length hidx; simpa [reduceKeep, htl] using this
    simp only [reduceKeep, transpose, List.length_map, List.length_range, hql, hn]
    apply hf
    have hget : ∀ l : List (List Nat), l.map (fun idx => t.get ((List.range n).map (fun j => idx.getD (q.idxOf j) 0))) = (l.map (src q n)).map t.get := by
      intro l; rw [List.map_map]; rfl
    rw [hget]
    apply List.Perm.map
    have hinj : ∀ i j : List Nat, i.length = n → j.length = n → src q n i = src q n j → i = j := by
      intro i j hi hj h
      apply ext_getD (by rw [hi, hj])
      intro k hk
      have hk' : k < n := by omega
      have := congrArg (fun l => l.getD (q.getD k 0) 0) h
      rw [src_getD (IsPerm.get_lt hq hk'), src_getD (IsPerm.get_lt hq hk'), IsPerm.idxOf_get hq hk'] at this
      exact this
    have hsl : ∀ i, InBounds (q.map (fun k => t.shape.getD k 0)) i → i.length = n := by
      intro i hi; have := inBounds_length hi; simpa [hql] using this
    rw [List.perm_ext_iff_of_nodup]
    · intro j
      simp only [List.mem_map, List.mem_filter, mem_allIndices, List.all_eq_true, List.mem_range, decide_eq_true_eq]
      constructor
      · rintro ⟨i, ⟨hi, hcond⟩, rfl⟩
        refine ⟨by have := transpose_src_inBounds hq hn hi; rw [hn] at this; exact this, ?_⟩
        intro a haa
        have h1 := hcond (q.idxOf a) (IsPerm.idxOf_lt hq haa)
        rw [← List.mem_map, hmem' a haa] at h1
        rw [src_getD haa, getD_range_map _ _ _ _ haa]
        exact h1
      · rintro ⟨hj, hcond⟩
        have hjl : j.length = n := by rw [inBounds_length hj, hn]
        refine ⟨q.map (fun k => j.getD k 0), ⟨?_, ?_⟩, ?_⟩
        · rw [inBounds_iff]
          refine ⟨by simp, ?_⟩
          intro i hi
          have hi' : i < n := by simpa [hql] using hi
          rw [getD_map_lt _ _ _ _ 0 (by rw [hql]; exact hi'), getD_map_lt _ _ _ _ 0 (by rw [hql]; exact hi')]
          exact ((inBounds_iff _ _).mp hj).2 _ (by rw [hn]; exact IsPerm.get_lt hq hi')
        · intro i hi
          have h1 := hcond (q.getD i 0) (IsPerm.get_lt hq hi)
          rw [getD_range_map _ _ _ _ (IsPerm.get_lt hq hi), IsPerm.idxOf_get hq hi] at h1
          rw [← List.mem_map, hmem i hi, getD_map_lt _ _ _ _ 0 (by rw [hql]; exact hi)]
          exact h1
        · apply ext_getD (by simp [src, hjl])
          intro k hk
          have hk' : k < n := by simpa [src] using hk
          rw [src_getD hk', getD_map_lt _ _ _ _ 0 (by rw [hql]; exact IsPerm.idxOf_lt hq hk'), IsPerm.get_idxOf hq hk']
    · refine List.Nodup.map_on ?_ ((nodup_allIndices _).filter _)
      intro i hi j hj h
      rw [List.mem_filter, mem_allIndices] at hi hj
      exact hinj i j (hsl i hi.1) (hsl j hj.1) h
    · exact (nodup_allIndices _).filter _

/-- A sum over the last two axes of a `(2, 3, 4)` tensor, across the permutation `(0, 2, 1)`. -/
example : ∃ axes', passAxes (passInv [0, 2, 1]) [1] = some axes' ∧
    Same (transpose [0, 2, 1] (reduceKeep axes' List.sum (transpose (passInv [0, 2, 1]) (⟨[2, 3, 4], fun i => flat [2, 3, 4] i⟩ : Tensor Nat))))
      (reduceKeep [1] List.sum ⟨[2, 3, 4], fun i => flat [2, 3, 4] i⟩) :=
  C47_reduce List.sum (fun _ _ h => h.sum_eq) ⟨[2, 3, 4], fun i => flat [2, 3, 4] i⟩ [0, 2, 1] (by unfold IsPerm; decide) [1] (by simp)

/-! ### the permutations chosen for PACK -/

/-- The permutation that the pass derives from a transposed input of PACK keeps the packed axis in place, so `C47_pack_partial` applies to it. -/
theorem C47_pack_input_perm (n axis : Nat) (ha : axis ≤ n) (r : List Nat) (hr : IsPerm n r) :
    IsPerm (n + 1) (liftPerm axis r) ∧ (liftPerm axis r).getD axis 0 = axis := by
  have hl := IsPerm.length hr
  have hlen : (r.map (fun i => if i < axis then i else i + 1)).length = n := by simp [hl]
  have hperm : (liftPerm axis r).Perm (axis :: r.map (fun i => if i < axis then i else i + 1)) := by
    unfold liftPerm
    exact List.perm_insertIdx _ _ (by rw [hlen]; exact ha)
  refine ⟨?_, ?_⟩
  · apply isPerm_of_nodup
    · rw [hperm.length_eq]; simp [hl]
    · rw [hperm.nodup_iff, List.nodup_cons]
      refine ⟨?_, List.Nodup.map_on ?_ (IsPerm.nodup hr)⟩
      · intro h
        obtain ⟨i, _, e⟩ := List.mem_map.mp h
        split at e <;> omega
      · intro x _ y _ e
        split at e <;> split at e <;> omega
    · intro x hx
      rw [hperm.mem_iff, List.mem_cons] at hx
      rcases hx with rfl | hx
      · omega
      · obtain ⟨i, hi, e⟩ := List.mem_map.mp hx
        have := (IsPerm.mem hr i).mp hi
        split at e <;> omega
  · unfold liftPerm
    simp [List.getD, List.getElem?_insertIdx_self, hlen, ha]

/-- Three matrices packed along a new middle axis, with the matrices transposed. -/
example : ∃ axis', passAxis (passInv (passPermsPack 1 (liftPerm 1 [1, 0])).2) 1 = some axis'
      ∧ Same (transpose (passPermsPack 1 (liftPerm 1 [1, 0])).2 (pack axis' 3 ((passPermsPack 1 (liftPerm 1 [1, 0])).1.map (fun k => [2, 4].getD k 0))
        (fun k => transpose (passPermsPack 1 (liftPerm 1 [1, 0])).1 (⟨[2, 4], fun i => flat [3, 2, 4] (k :: i)⟩ : Tensor Nat))))
        (pack 1 3 [2, 4] (fun k => ⟨[2, 4], fun i => flat [3, 2, 4] (k :: i)⟩)) :=
  C47_pack_partial 3 [2, 4] (fun k => ⟨[2, 4], fun i => flat [3, 2, 4] (k :: i)⟩) (fun _ => rfl) (liftPerm 1 [1, 0])
    (C47_pack_input_perm 2 1 (by decide) [1, 0] (by unfold IsPerm; decide)).1 1 (by decide)
    (C47_pack_input_perm 2 1 (by decide) [1, 0] (by unfold IsPerm; decide)).2

/-! ### cases in which the rewriting is wrong -/

/-- PACK of two `(2, 3)` tensors along axis 0 followed by the transpose `(1, 2, 0)`-inverse: the rewritten graph gives another shape. -/
theorem C47_pack_false : ¬ ∀ (m : Nat) (s : List Nat) (x : Nat → Tensor Nat) (_ : ∀ k, (x k).shape = s) (p : List Nat) (_ : IsPerm (s.length + 1) p)
    (axis : Nat) (_ : axis < s.length + 1), ∃ axis', passAxis (passInv (passPermsPack axis p).2) axis = some axis'
      ∧ Same (transpose (passPermsPack axis p).2 (pack axis' m ((passPermsPack axis p).1.map (fun k => s.getD k 0)) (fun k => transpose (passPermsPack axis p).1 (x k))))
        (pack axis m s x) := by
  intro h
  obtain ⟨axis', h1, h2⟩ := h 2 [2, 3] (fun _ => ⟨[2, 3], fun _ => 0⟩) (fun _ => rfl) [1, 2, 0] (by unfold IsPerm; decide) 0 (by decide)
  have e : axis' = 1 := by
    have : passAxis (passInv (passPermsPack 0 [1, 2, 0]).2) 0 = some 1 := by decide
    rw [this] at h1; exact (Option.some.inj h1).symm
  subst e
  have h3 := h2.1
  revert h3
  decide

/-- PRELU with one slope per channel in the last axis: the slopes are not rewritten, and the operator is no longer defined. -/
theorem C47_prelu_vector_false : ∃ (t w : Tensor Nat) (c : Tensor Nat) (w' : Tensor Nat) (p : List Nat), IsPerm t.shape.length p ∧ elementwise (· * ·) t w = some c ∧
    passPrelu (passInv p) w = some w' ∧ (elementwise (· * ·) (transpose (passInv p) t) w').isNone = true := by
  refine ⟨⟨[2, 3], fun _ => 0⟩, ⟨[3], fun _ => 0⟩, _, _, [1, 0], by unfold IsPerm; decide, rfl, rfl, ?_⟩
  decide

/-- PRELU with a permutation that moves the batch axis. -/
theorem C47_prelu_batch_false : ∃ (t w : Tensor Nat) (c : Tensor Nat) (w' : Tensor Nat) (p : List Nat), IsPerm t.shape.length p ∧ elementwise (· * ·) t w = some c ∧
    w.shape.length + 1 = t.shape.length ∧ passPrelu (passInv p) w = some w' ∧ (elementwise (· * ·) (transpose (passInv p) t) w').isNone = true := by
  refine ⟨⟨[2, 3, 4], fun _ => 0⟩, ⟨[3, 1], fun _ => 0⟩, _, _, [1, 0, 2], by unfold IsPerm; decide, rfl, rfl, rfl, ?_⟩
  decide

/-- Operands of different ranks, with the permutation taken from the smaller one: the conversion fails although the operator is defined. -/
theorem C47_rank_false : ∃ (a b : Tensor Nat) (c : Tensor Nat) (p : List Nat), IsPerm a.shape.length p ∧ elementwise (· + ·) a b = some c ∧
    (passOperands (passInv p) a b).isNone = true := by
  refine ⟨⟨[2, 3], fun _ => 0⟩, ⟨[4, 2, 3], fun _ => 0⟩, _, [1, 0], by unfold IsPerm; decide, rfl, ?_⟩
  decide

/-- An output of UNPACK that is not used makes the pass fail, whatever the permutation. -/
theorem C47_unpack_unused_false (n : Nat) (p shape : List Nat) (hp : IsPerm (n + 1) p) (hs : shape.length = n) : passUnusedShape (passInv p) shape = none := by
  have hq : IsPerm (n + 1) (passInv p) := argsort_isPerm (IsPerm.length hp)
  unfold passUnusedShape
  rw [if_neg]
  intro h
  rw [List.all_eq_true] at h
  have := h n ((IsPerm.mem hq n).mpr (by omega))
  simp [hs] at this

/-- Unpacking the first axis of a `(2, 3, 4)` tensor with transposed outputs. -/
example : passUnusedShape (passInv [0, 2, 1]) [3, 4] = none := C47_unpack_unused_false 2 [0, 2, 1] [3, 4] (by unfold IsPerm; decide) rfl

/-- For the other operators the recorded shape of an unused output is that of the output as it is now computed, transposed. -/
theorem C47_unused_shape (t : Tensor Nat) (p : List Nat) (hp : IsPerm t.shape.length p) : passUnusedShape (passInv p) t.shape = some (transpose (passInv p) t).shape := by
  have hq : IsPerm t.shape.length (passInv p) := argsort_isPerm (IsPerm.length hp)
  unfold passUnusedShape
  rw [if_pos]
  · rfl
  · rw [List.all_eq_true]
    intro i hi
    have := (IsPerm.mem hq i).mp hi
    simpa using this

example : passUnusedShape (passInv [0, 2, 3, 1]) [1, 5, 6, 8] = some [1, 8, 5, 6] := by decide

/-! ### concrete cases of the other theorems -/

private def ex3 : Tensor Nat := ⟨[2, 3, 4], fun i => flat [2, 3, 4] i⟩

example : Same (transpose [2, 0, 1] (mapTensor (· + 1) (transpose (passInv [2, 0, 1]) ex3))) (mapTensor (· + 1) ex3) :=
  C47_elementwise (· + 1) ex3 [2, 0, 1] (by unfold IsPerm; decide)

example : passAxis (passInv [2, 0, 1]) 1 = some 0 ∧ (transpose [2, 0, 1] (gather 0 [2, 0] (transpose (passInv [2, 0, 1]) ex3))).shape = [2, 2, 4] ∧
    (transpose [2, 0, 1] (gather 0 [2, 0] (transpose (passInv [2, 0, 1]) ex3))).get [1, 0, 3] = ex3.get [1, 2, 3] := by decide

example : ∃ axis', passAxis (passPermsUnpack 1 [2, 0, 1]).1 1 = some axis'
      ∧ Same (transpose (passPermsUnpack 1 [2, 0, 1]).2 (unpack axis' 2 (transpose (passPermsUnpack 1 [2, 0, 1]).1 ex3))) (unpack 1 2 ex3) :=
  C47_unpack ex3 [2, 0, 1] (by unfold IsPerm; decide) 1 2 (by decide)

example : Same (transpose [2, 0, 1] (pad (passArg 0 (passInv [2, 0, 1]) [0, 1, 2]) (passArg 0 (passInv [2, 0, 1]) [3, 0, 1]) 9 (transpose (passInv [2, 0, 1]) ex3)))
    (pad [0, 1, 2] [3, 0, 1] 9 ex3) := C47_pad ex3 [2, 0, 1] (by unfold IsPerm; decide) [0, 1, 2] [3, 0, 1] 9

example : ∃ axis', passAxis (passInv [2, 0, 1]) 1 = some axis'
      ∧ Same (transpose [2, 0, 1] (concat axis' ([ex3, ⟨[2, 5, 4], fun i => 100 + flat [2, 5, 4] i⟩].map (transpose (passInv [2, 0, 1])))))
        (concat 1 [ex3, ⟨[2, 5, 4], fun i => 100 + flat [2, 5, 4] i⟩]) :=
  C47_concat _ 3 (by simp) (by simp [ex3]) [2, 0, 1] (by unfold IsPerm; decide) 1 (by decide)

end Verif.Props
