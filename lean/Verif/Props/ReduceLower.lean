import Verif.Model.ReduceLower
import Verif.Lemmas.Bcast
import Verif.Props.TransposePass4

/-! C79: converted reductions. -/

namespace Verif.Props

open Verif.Spec Verif.Model Verif.Lemmas Verif.Model.ReduceLower

/-- The axes the conversion computes are PyTorch's. -/
theorem callAxes_eq (n : Nat) (dim : DimArg) (keep : Bool) (h : dim ≠ .none) :
    ∃ dims keep', callAxes n dim keep = some (dims, keep') ∧ (wrapAxes n dims).map Int.toNat = torchAxes n dim ∧
      keep' = (if dim = .absent then false else keep) := by
  have hr : (wrapAxes n ((List.range n).map (fun (i : Nat) => (i : Int)))).map Int.toNat = List.range n := by
    unfold wrapAxes
    rw [List.map_map, List.map_map]
    conv_rhs => rw [← List.map_id (List.range n)]
    apply List.map_congr_left
    intro i _
    simp [not_lt.2 (Int.natCast_nonneg i)]
  cases dim with
  | absent => exact ⟨_, _, rfl, hr, rfl⟩
  | none => exact absurd rfl h
  | one d => exact ⟨_, _, rfl, rfl, rfl⟩
  | many ds =>
    refine ⟨_, _, rfl, ?_, rfl⟩
    by_cases hd : ds = []
    · subst hd; exact hr
    · have : ds.length ≠ 0 := by simpa using hd
      simp only [this, if_false, torchAxes, hd]
      simp [wrapAxes]

/-- Reducing and then restoring the axes with size 1 is a reduction that keeps them. -/
theorem reshape_reduceAxes {α β : Type} (axes : List Nat) (f : List α → β) (x : Tensor α) :
    Same (reshape ((List.range x.shape.length).map (fun a => if a ∈ axes then 1 else x.shape.getD a 0)) (reduceAxes false axes f x))
      (reduceAxes true axes f x) := by
  unfold reduceAxes
  simp only [Bool.false_eq_true, if_false, if_true]
  have hp : ∀ l : List Nat, ((l.filter (fun a => a ∉ axes)).map (fun a => x.shape.getD a 0)).prod
      = (l.map (fun a => if a ∈ axes then 1 else x.shape.getD a 0)).prod := by
    intro l
    induction l with
    | nil => rfl
    | cons a l ih =>
      by_cases ha : a ∈ axes
      · simpa [List.filter_cons, ha] using ih
      · simp only [List.filter_cons, ha, not_false_eq_true, decide_true, if_true, if_false, List.map_cons, List.prod_cons, ih]
  refine (reshape_reshape _ _ (reduceKeep axes f x) ?_).trans (reshape_self (reduceKeep axes f x))
  exact (hp _).symm

/-- The two NHWC permutations. -/
theorem nhwc_isPerm : IsPerm 4 [0, 3, 1, 2] ∧ passInv [0, 3, 1, 2] = [0, 2, 3, 1] := by
  constructor
  · unfold IsPerm; decide
  · decide

/-- A reduction of the spatial axes, done in NHWC order. -/
theorem reduce_nhwc {α β : Type} (f : List α → β) (hf : ∀ l₁ l₂, l₁.Perm l₂ → f l₁ = f l₂) (t : Tensor α) (ht : t.shape.length = 4)
    (axes axes' : List Nat) (ha : ∀ a ∈ axes, a < 4) (h : passAxes [0, 2, 3, 1] axes = some axes') :
    Same (transpose [0, 3, 1, 2] (reduceKeep axes' f (transpose [0, 2, 3, 1] t))) (reduceKeep axes f t) := by
  obtain ⟨a, h1, h2⟩ := C47_reduce f hf t [0, 3, 1, 2] (by rw [ht]; exact nhwc_isPerm.1) axes (by rw [ht]; exact ha)
  rw [nhwc_isPerm.2, h, Option.some.injEq] at h1
  subst h1
  rw [nhwc_isPerm.2] at h2
  exact h2

/-- **C79** for sums, means, products, minima and maxima, and for ARG_MIN and ARG_MAX (`hasKeep = false`): for all shapes, all contents, all axes
PyTorch accepts, positive or negative, in any order, given or not, with and without kept axes. A mean over the spatial axes is done
in NHWC order, which asks for a function that does not depend on the order of its inputs. Partial: `dim=None` is missing
(`C79_none_false`), and the second output of `min` and `max` (`C79_indices_false`). A call without `dim` has no `keepdim`. -/
theorem C79_reduce_partial {α β : Type} (f : List α → β) (hasKeep transposeOpt : Bool)
    (hf : transposeOpt = true → hasKeep = true ∧ ∀ l₁ l₂, l₁.Perm l₂ → f l₁ = f l₂)
    (dim : DimArg) (hdim : dim ≠ .none) (keep : Bool) (hk : dim = .absent → keep = false) (t : Tensor α) :
    ∃ r, handleReduce f hasKeep transposeOpt dim keep t = some r ∧ Same r (torchReduce f dim keep t) := by
  obtain ⟨dims, keep', h1, h2, h3⟩ := callAxes_eq t.shape.length dim keep hdim
  have hkk : keep' = keep := by
    rw [h3]
    split_ifs with h
    · rw [hk h]
    · rfl
  subst hkk
  clear h3
  unfold handleReduce torchReduce
  rw [h1]
  refine ⟨_, rfl, ?_⟩
  dsimp only
  rw [← h2]
  generalize wrapAxes t.shape.length dims = ds
  have body : Same (if hasKeep then reduceAxes keep' (ds.map Int.toNat) f t
      else if keep' then reshape ((List.range t.shape.length).map (fun a => if a ∈ ds.map Int.toNat then 1 else t.shape.getD a 0))
        (reduceAxes false (ds.map Int.toNat) f t)
      else reduceAxes false (ds.map Int.toNat) f t) (reduceAxes keep' (ds.map Int.toNat) f t) := by
    cases hasKeep
    · cases keep'
      · exact Same.refl _
      · exact reshape_reduceAxes _ f t
    · exact Same.refl _
  unfold nhwcAxes
  by_cases hc : transposeOpt ∧ t.shape.length = 4 ∧ keep'
  · rw [if_pos hc]
    obtain ⟨hh, hperm⟩ := hf hc.1
    have hkeep : keep' = true := hc.2.2
    subst hh hkeep
    by_cases hd : ds = [2, 3]
    · subst hd
      exact reduce_nhwc f hperm t hc.2.1 [2, 3] [1, 2] (by decide) (by decide)
    · by_cases hd' : ds = [3, 2]
      · subst hd'
        exact reduce_nhwc f hperm t hc.2.1 [3, 2] [2, 1] (by decide) (by decide)
      · rw [if_neg hd, if_neg hd']
        exact body
  · rw [if_neg hc]
    exact body

/-- A mean over the spatial axes of an NCHW tensor, axes counted from the end; and an arg-max with a kept axis. -/
example : (∃ r, handleReduce List.sum true true (.many [-1, -2]) true (⟨[1, 2, 3, 4], fun i => flat [1, 2, 3, 4] i⟩ : Tensor Nat) = some r ∧
      Same r (torchReduce List.sum (.many [-1, -2]) true ⟨[1, 2, 3, 4], fun i => flat [1, 2, 3, 4] i⟩))
    ∧ ∃ r, handleReduce List.length false false (.one (-1)) true (⟨[2, 3], fun i => flat [2, 3] i⟩ : Tensor Nat) = some r ∧ r.shape = [2, 1] := by
  refine ⟨C79_reduce_partial _ _ _ (fun _ => ⟨rfl, fun _ _ h => h.sum_eq⟩) _ (by decide) _ (by decide) _, _, rfl, ?_⟩
  decide

/-- What a reduction computes, spelled out for a matrix: summing the last axis gives the row sums. -/
example : (torchReduce List.sum (.one (-1)) false (⟨[2, 3], fun i => 10 * i.getD 0 0 + i.getD 1 0⟩ : Tensor Nat)).shape = [2] ∧
    (torchReduce List.sum (.one (-1)) false (⟨[2, 3], fun i => 10 * i.getD 0 0 + i.getD 1 0⟩ : Tensor Nat)).get [1] = 33 := by
  decide

/-- **C79 is false for `dim=None`**: PyTorch reduces everything, the conversion crashes, for every function, flag and tensor. -/
theorem C79_none_false {α β : Type} (f : List α → β) (hasKeep transposeOpt keep : Bool) (t : Tensor α) :
    handleReduce f hasKeep transposeOpt .none keep t = none ∧ (torchReduce f .none keep t).shape =
      if keep then List.replicate t.shape.length 1 else [] := by
  refine ⟨rfl, ?_⟩
  unfold torchReduce reduceAxes torchAxes
  have h1 : ∀ n, (List.range n).map (fun a => if a ∈ List.range n then 1 else t.shape.getD a 0) = List.replicate n 1 := by
    intro n
    rw [List.eq_replicate_iff]
    refine ⟨by simp, ?_⟩
    intro b hb
    obtain ⟨a, ha, rfl⟩ := List.mem_map.1 hb
    rw [if_pos ha]
  have h2 : ∀ n, (List.range n).filter (fun a => a ∉ List.range n) = [] := by
    intro n
    rw [List.filter_eq_nil_iff]
    intro a ha
    simpa using ha
  cases keep
  · simp only [Bool.false_eq_true, if_false, reshape, h2, List.map_nil]
  · simp only [if_true, reduceKeep, h1]

/-- **C79 is false for the second output of `torch.max(x, dim)`**: no operator produces the indices. -/
theorem C79_indices_false : "indices" ∉ keptOutputs ["values", "indices"] := by decide

/-- Reading an element of a reduction of mapped elements. -/
theorem reduceAxes_map {α β γ : Type} (keep : Bool) (axes : List Nat) (g : α → β) (f : List β → γ) (t : Tensor α) :
    reduceAxes keep axes f (mapTensor g t) = reduceAxes keep axes (fun xs => f (xs.map g)) t := by
  unfold reduceAxes reduceKeep mapTensor
  cases keep <;> simp [List.map_map, Function.comp_def]

theorem reduceAxes_congr {α β : Type} (keep : Bool) (axes : List Nat) (f : List α → β) {a b : Tensor α} (h : Same a b) :
    reduceAxes keep axes f a = reduceAxes keep axes f b := by
  have key : reduceKeep axes f a = reduceKeep axes f b := by
    unfold reduceKeep
    rw [h.1]
    congr 1
    funext idx
    congr 1
    apply List.map_congr_left
    intro j hj
    have hj' := (List.mem_filter.1 hj).1
    unfold allIndices at hj'
    obtain ⟨k, hk, rfl⟩ := List.mem_map.1 hj'
    exact h.2 _ (by rw [h.1]; exact unflat_inBounds (by simpa using hk))
  unfold reduceAxes
  rw [key, h.1]

/-- A constant of shape `[1]` is an exponent for every element of a tensor that has an axis. -/
theorem pow_const (t : Tensor ℝ) (ht : t.shape ≠ []) (e : ℝ) :
    ∃ r, elementwise (fun x e : ℝ => x ^ e) t ⟨[1], fun _ => e⟩ = some r ∧ Same r (mapTensor (fun x => x ^ e) t) := by
  have hx : ExpandOk [1] t.shape := by
    have hl : 0 < t.shape.length := List.length_pos_iff.2 ht
    refine ⟨hl, ?_⟩
    have : (t.shape.drop (t.shape.length - [1].length)).length = 1 := by simp; omega
    obtain ⟨x, hx⟩ := List.length_eq_one_iff.1 this
    rw [hx]
    exact .cons (Or.inr rfl) .nil
  obtain ⟨r, h1, h2, h3⟩ := elementwise_left (fun x e : ℝ => x ^ e) t ⟨[1], fun _ => e⟩ hx
  refine ⟨r, h1, h2, fun idx hidx => ?_⟩
  rw [h3 idx (by rw [← h2]; exact hidx)]
  simp [mapTensor, bcGet]

/-- **C79, norms**: for `p = 1` and `p = 2`, all shapes with an axis, all contents, and all axes, when the result has an axis. Partial: see
`C79_norm_scalar_partial` and `C79_norm_keepdim_false`; other orders are refused. -/
theorem C79_norm_partial (p : Nat) (hp : p = 1 ∨ p = 2) (dim : DimArg) (hdim : dim ≠ .none) (keep : Bool)
    (hk : dim = .absent → keep = false) (t : Tensor ℝ) (ht : t.shape ≠ [])
    (hne : p = 2 → (torchReduce (vecNorm p) dim keep t).shape ≠ []) :
    ∃ r, normOps p dim keep t = some r ∧ Same r (torchReduce (vecNorm p) dim keep t) := by
  obtain ⟨dims, keep', h1, h2, h3⟩ := callAxes_eq t.shape.length dim keep hdim
  have hkk : keep' = keep := by
    rw [h3]
    split_ifs with h
    · rw [hk h]
    · rfl
  subst hkk
  unfold normOps
  rw [if_pos hp, if_neg hdim, h1]
  simp only [h2]
  rcases hp with rfl | rfl
  · simp only [if_true, Option.some.injEq, exists_eq_left']
    rw [reduceAxes_map]
    exact Same.refl _
  · simp only [show ¬ (2 = 1) by decide, if_false]
    obtain ⟨sq, g1, g2⟩ := pow_const t ht 2
    rw [g1, Option.bind_some, reduceAxes_congr _ _ _ g2, reduceAxes_map]
    have hshape : (reduceAxes keep' (torchAxes t.shape.length dim) (fun xs : List ℝ => (xs.map (fun x => x ^ (2 : ℝ))).sum) t).shape
        = (torchReduce (vecNorm 2) dim keep' t).shape := by
      unfold torchReduce reduceAxes reduceKeep
      cases keep' <;> rfl
    obtain ⟨r, r1, r2⟩ := pow_const _ (by rw [hshape]; exact hne rfl) (1 / 2)
    refine ⟨r, r1, r2.trans ⟨hshape, fun idx _ => ?_⟩⟩
    unfold torchReduce reduceAxes reduceKeep mapTensor vecNorm
    cases keep' <;> simp [Real.sqrt_eq_rpow, reshape]

example : (torchReduce (vecNorm 2) (.one (-1)) false (⟨[2, 3], fun _ => 1⟩ : Tensor ℝ)).shape = [2] := by
  simp only [torchReduce, reduceAxes, reshape, torchAxes, Bool.false_eq_true, if_false]; decide

/-- **C79, norm of everything** for `p = 2`: the value is right, the shape is `[1]` where PyTorch's is `[]`. -/
theorem C79_norm_scalar_partial (t : Tensor ℝ) (ht : t.shape ≠ []) :
    ∃ r, normOps 2 .absent false t = some r ∧ r.shape = [1] ∧ (torchReduce (vecNorm 2) .absent false t).shape = [] ∧
      r.get [0] = (torchReduce (vecNorm 2) .absent false t).get [] := by
  have hsc : ∀ f : List ℝ → ℝ, (reduceAxes false (List.range t.shape.length) f t).shape = [] := by
    intro f
    simp [reduceAxes, reshape]
  unfold normOps
  have h2 := callAxes_eq t.shape.length .absent false (by decide)
  obtain ⟨dims, keep', h1, h2, h3⟩ := h2
  simp only [if_true] at h3
  subst h3
  rw [if_pos (Or.inr rfl), if_neg (by decide), h1]
  simp only [show ¬ (2 = 1) by decide, if_false, h2]
  obtain ⟨sq, g1, g2⟩ := pow_const t ht 2
  rw [g1, Option.bind_some, reduceAxes_congr _ _ _ g2, reduceAxes_map]
  obtain ⟨r, r1, r2, r3⟩ := elementwise_right (fun x e : ℝ => x ^ e)
    (reduceAxes false (torchAxes t.shape.length .absent) (fun xs : List ℝ => (xs.map (fun x => x ^ (2 : ℝ))).sum) t) ⟨[1], fun _ => (1 / 2 : ℝ)⟩
    (by rw [show torchAxes t.shape.length DimArg.absent = List.range t.shape.length from rfl, hsc]; exact ⟨by simp, by simp⟩)
  refine ⟨r, r1, r2, hsc _, ?_⟩
  rw [r3 [0] (by simp [InBounds])]
  unfold bcGet
  rw [show torchAxes t.shape.length DimArg.absent = List.range t.shape.length from rfl, hsc]
  simp [torchReduce, torchAxes, reduceAxes, reshape, reduceKeep, vecNorm, Real.sqrt_eq_rpow]

/-- **C79 is false for a norm over all axes given as `None` with `keepdim`**: the axes are dropped. -/
theorem C79_norm_keepdim_false (t : Tensor ℝ) :
    ∃ r, normOps 1 .none true t = some r ∧ r.shape = [] ∧ (torchReduce (vecNorm 1) .none true t).shape = List.replicate t.shape.length 1 := by
  obtain ⟨dims, keep', h1, h2, h3⟩ := callAxes_eq t.shape.length .absent true (by decide)
  simp only [if_true] at h3
  subst h3
  refine ⟨reduceAxes false (List.range t.shape.length) List.sum (mapTensor (fun x => |x|) t), ?_, ?_,
    (C79_none_false (vecNorm 1) true true true t).2⟩
  · unfold normOps
    rw [if_pos (Or.inl rfl), if_pos rfl, h1]
    simp only [if_true, h2, torchAxes]
  · simp [reduceAxes, reshape, mapTensor]

end Verif.Props
