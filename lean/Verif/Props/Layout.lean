import Verif.Model.Layout
import Verif.Spec.Reshape
import Verif.Lemmas.Tensor

/-!
C01 (transpose chains), C02 (layout wrapping), C03 (transpose emitted as reshape), C05 (reshape
chains).
-/

namespace Verif.Props
open Verif.Model Verif.Spec Verif.Lemmas

/-- Executing a chain of TRANSPOSE operators. -/
def transposeChain {α : Type} (ps : List (List Nat)) (t : Tensor α) : Tensor α :=
  ps.foldl (fun t p => transpose p t) t

theorem fusePermsLoop_spec {α : Type} (n : Nat) (t : Tensor α) (hs : t.shape.length = n) :
    ∀ (ps : List (List Nat)) (cur : List Nat), (∀ p ∈ ps, IsPerm n p) → IsPerm n cur →
      ∃ q, fusePermsLoop (some cur) ps = some q ∧ IsPerm n q ∧
        ∀ u : Tensor α, u.shape.length = n → Same u (transpose cur t) →
          Same (transposeChain ps u) (transpose q t) := by
  intro ps
  induction ps with
  | nil => intro cur _ hc; exact ⟨cur, rfl, hc, fun u _ h => h⟩
  | cons p ps ih =>
    intro cur hps hc
    have hp := hps p List.mem_cons_self
    obtain ⟨q, h1, h2, h3⟩ := ih (npTake cur p) (fun r hr => hps r (List.mem_cons_of_mem _ hr))
      (IsPerm.comp hc hp)
    refine ⟨q, by simpa [fusePermsLoop] using h1, h2, ?_⟩
    intro u hu h
    apply h3 (transpose p u) (transpose_shape_length hp u)
    exact (transpose_congr hp hu h).trans (transpose_transpose hc hp t hs)

theorem isSortedPerm_range {n : Nat} {p : List Nat} (hp : IsPerm n p) (h : isSortedPerm p = true) :
    p = List.range n := by
  have h1 : p = p.insertionSort (· ≤ ·) := by simpa [isSortedPerm] using h
  have h2 : p.Pairwise (· ≤ ·) := by rw [h1]; exact List.pairwise_insertionSort _ _
  have h3 : (List.range n).Pairwise (· ≤ ·) := List.pairwise_le_range
  exact List.Perm.eq_of_pairwise (fun a b _ _ h1 h2 => le_antisymm h1 h2) h2 h3 hp

/-- C01.  For every non-empty chain of permutations of the axes of `t`, the fused permutation exists;
the chain computes the transpose by it, and where the code drops the chain the tensor is unchanged. -/
theorem C01_transpose_chain {α : Type} (t : Tensor α) (ps : List (List Nat)) (hne : ps ≠ [])
    (hps : ∀ p ∈ ps, IsPerm t.shape.length p) :
    (∃ p, fuseTransposeChain ps = some (some p) ∧ Same (transposeChain ps t) (transpose p t)) ∨
    (fuseTransposeChain ps = some none ∧ Same (transposeChain ps t) t) := by
  obtain ⟨p, r, rfl⟩ : ∃ p r, ps = p :: r := by
    cases ps with
    | nil => exact absurd rfl hne
    | cons a b => exact ⟨a, b, rfl⟩
  have hp := hps p List.mem_cons_self
  obtain ⟨q, h1, h2, h3⟩ := fusePermsLoop_spec _ t rfl r p
    (fun x hx => hps x (List.mem_cons_of_mem _ hx)) hp
  have h4 := h3 (transpose p t) (transpose_shape_length hp t) (Same.refl _)
  have hf : fuseTransposePerms (p :: r) = some q := by simpa [fuseTransposePerms, fusePermsLoop] using h1
  by_cases hsort : isSortedPerm q = true
  · right
    refine ⟨by simp [fuseTransposeChain, hf, hsort], ?_⟩
    have := isSortedPerm_range h2 hsort
    subst this
    exact Same.trans h4 (transpose_id t)
  · left
    exact ⟨q, by simp [fuseTransposeChain, hf, hsort], h4⟩

/-- The hypotheses are met by a chain that really moves data, and by one that is dropped. -/
example : IsPerm 3 [1, 2, 0] ∧ fuseTransposeChain [[1, 2, 0], [1, 2, 0]] = some (some [2, 0, 1]) ∧
    fuseTransposeChain [[1, 2, 0], [1, 2, 0], [1, 2, 0]] = some none := by
  refine ⟨?_, by decide, by decide⟩
  unfold IsPerm; decide

/-- C01, the no-op test of a single TRANSPOSE (`np.diff(perm) == 1`): it accepts only the identity, so
the removed operator did nothing. -/
theorem C01_noop_transpose {α : Type} (t : Tensor α) (p : List Nat) (hp : IsPerm t.shape.length p)
    (h : diffsAreOne p = true) : Same (transpose p t) t := by
  have h2 : p.Pairwise (· ≤ ·) := by
    have key : ∀ l : List Nat, diffsAreOne l = true → l.Pairwise (· ≤ ·) ∧ ∀ x ∈ l, l.headD 0 ≤ x := by
      intro l
      induction l with
      | nil => intro _; simp
      | cons a r ih =>
        intro h
        cases r with
        | nil => simp
        | cons b r =>
          simp only [diffsAreOne, Bool.and_eq_true, beq_iff_eq] at h
          obtain ⟨i1, i2⟩ := ih h.2
          have hb : ∀ x ∈ b :: r, a ≤ x := by
            intro x hx; have := i2 x hx; simp at this; omega
          refine ⟨List.pairwise_cons.2 ⟨hb, i1⟩, ?_⟩
          intro x hx
          rcases List.mem_cons.1 hx with rfl | hx
          · simp
          · simpa using hb x hx
    exact (key p h).1
  have : p = List.range t.shape.length :=
    List.Perm.eq_of_pairwise (fun a b _ _ h1 h2 => le_antisymm h1 h2) h2 List.pairwise_le_range hp
  rw [this]; exact transpose_id t

example : diffsAreOne [0, 1, 2, 3] = true ∧ diffsAreOne [0, 2, 1, 3] = false := by decide

/-! ### C02 -/

theorem wrap_cancel {α : Type} {n : Nat} {p q : List Nat} (hp : IsPerm n p) (hq : IsPerm n q)
    (hinv : q.map (fun k => p.getD k 0) = List.range n) (t : Tensor α) (hs : t.shape.length = n) :
    Same (transpose q (transpose p t)) t := by
  have := transpose_transpose hp hq t hs
  rw [hinv, ← hs] at this
  exact this.trans (transpose_id t)

theorem wrap_alongAxis {α : Type} {n : Nat} {p q : List Nat} (hp : IsPerm n p) (hq : IsPerm n q)
    (hinv : q.map (fun k => p.getD k 0) = List.range n) (t : Tensor α) (hs : t.shape.length = n)
    (a : Nat) (ha : a < n) (f : List α → Nat → α) :
    Same (transpose q (alongAxis a f (transpose p t))) (alongAxis (p.getD a 0) f t) := by
  have h1 := alongAxis_transpose hp t hs a ha f
  have h2 := transpose_congr hq (by simp [alongAxis, transpose_shape_length hp t]) h1
  exact h2.trans (wrap_cancel hp hq hinv _ (by simpa [alongAxis] using hs))

/-- C02, channels-last wrapping: for every rank the code accepts, the transpose after the operator
undoes the one before it, and a slice-wise operator working on the last (channel) axis inside the
wrapping is the operator working on axis 1 outside. -/
theorem C02_nhwc_wrapping {α : Type} (t : Tensor α) (pre post : List Nat)
    (h : wrapPerms t.shape.length = some (pre, post)) :
    Same (transpose post (transpose pre t)) t ∧
    ∀ f : List α → Nat → α,
      Same (transpose post (alongAxis (t.shape.length - 1) f (transpose pre t))) (alongAxis 1 f t) := by
  unfold wrapPerms at h
  by_cases h4 : t.shape.length = 4
  · rw [h4] at h ⊢
    simp only [if_true, Option.some.injEq, Prod.mk.injEq] at h
    obtain ⟨rfl, rfl⟩ := h
    have hp : IsPerm 4 [0, 2, 3, 1] := by unfold IsPerm; decide
    have hq : IsPerm 4 [0, 3, 1, 2] := by unfold IsPerm; decide
    exact ⟨wrap_cancel hp hq (by decide) t h4, fun f => wrap_alongAxis hp hq (by decide) t h4 3 (by omega) f⟩
  · by_cases h5 : t.shape.length = 5
    · rw [h5] at h ⊢
      simp only [Nat.reduceEqDiff, if_false, if_true, Option.some.injEq, Prod.mk.injEq] at h
      obtain ⟨rfl, rfl⟩ := h
      have hp : IsPerm 5 [0, 2, 3, 4, 1] := by unfold IsPerm; decide
      have hq : IsPerm 5 [0, 4, 1, 2, 3] := by unfold IsPerm; decide
      exact ⟨wrap_cancel hp hq (by decide) t h5, fun f => wrap_alongAxis hp hq (by decide) t h5 4 (by omega) f⟩
    · simp [h4, h5] at h

example : wrapPerms ([1, 3, 5, 7] : List Nat).length = some ([0, 2, 3, 1], [0, 3, 1, 2]) := by decide

theorem argsort_isPerm {n : Nat} {p : List Nat} (hl : p.length = n) : IsPerm n (npArgsort p) := by
  unfold IsPerm npArgsort
  rw [hl]
  exact List.perm_insertionSort _ _

/-- `argsort` of a permutation is its inverse. -/
theorem argsort_inv {n : Nat} {p : List Nat} (hp : IsPerm n p) :
    (npArgsort p).map (fun k => p.getD k 0) = List.range n := by
  have ha := argsort_isPerm (IsPerm.length hp)
  have hc : IsPerm n ((npArgsort p).map (fun k => p.getD k 0)) := IsPerm.comp hp ha
  have hsorted : (npArgsort p).Pairwise (fun a b => p.getD a 0 ≤ p.getD b 0) := by
    haveI : Std.Total (fun a b => p.getD a 0 ≤ p.getD b 0) := ⟨fun a b => le_total _ _⟩
    haveI : IsTrans Nat (fun a b => p.getD a 0 ≤ p.getD b 0) := ⟨fun a b c => le_trans⟩
    exact List.pairwise_insertionSort _ _
  have h2 : ((npArgsort p).map (fun k => p.getD k 0)).Pairwise (· ≤ ·) := by
    rw [List.pairwise_map]; exact hsorted
  exact List.Perm.eq_of_pairwise (fun a b _ _ h1 h2 => le_antisymm h1 h2) h2 List.pairwise_le_range hc

theorem lastDimPerm_isPerm {n dim : Nat} (h : dim < n) : IsPerm n (lastDimPerm n dim) := by
  have hnd : (lastDimPerm n dim).Nodup := by
    unfold lastDimPerm
    rw [List.nodup_append]
    refine ⟨List.nodup_range.filter _, by simp, ?_⟩
    intro a ha b hb
    simp at ha hb; subst hb; exact ha.2
  have hb : ∀ x ∈ lastDimPerm n dim, x < n := by
    intro x hx
    unfold lastDimPerm at hx
    rcases List.mem_append.1 hx with h' | h'
    · simp at h'; exact h'.1
    · simp at h'; omega
  have hl : (lastDimPerm n dim).length = n := by
    have e : (lastDimPerm n dim).length = ((List.range n).filter (fun i => i != dim)).length + 1 := by
      simp [lastDimPerm]
    rw [e]
    have h1 := List.length_eq_length_filter_add (l := List.range n) (fun i => i != dim)
    have h2 : ((List.range n).filter (fun i => !(i != dim))).length = 1 := by
      have : (List.range n).filter (fun i => !(i != dim)) = (List.range n).filter (fun i => i == dim) := by
        apply List.filter_congr; intro x _; cases h : (x == dim) <;> simp [bne, h]
      rw [this]
      have : (List.range n).count dim = 1 := List.count_eq_one_of_mem List.nodup_range (by simpa using h)
      rwa [List.count_eq_length_filter] at this
    simp only [List.length_range] at h1
    omega
  exact isPerm_of_nodup hl hnd hb

theorem lastDimPerm_last {n dim : Nat} (h : dim < n) : (lastDimPerm n dim).getD (n - 1) 0 = dim := by
  have hl := IsPerm.length (lastDimPerm_isPerm h)
  have hlen : ((List.range n).filter (fun i => i != dim)).length = n - 1 := by
    unfold lastDimPerm at hl; simp at hl; omega
  unfold lastDimPerm
  simp only [List.getD]
  rw [List.getElem?_append_right (by omega), hlen]
  simp

/-- C02, move-axis-last wrapping: for every axis `dim` of a tensor of any rank, wrapping with the code's
permutation and its `argsort` cancels, and the wrapped slice-wise operator on the last axis is the
operator on axis `dim`. -/
theorem C02_last_dim_wrapping {α : Type} (t : Tensor α) (dim : Nat) (h : dim < t.shape.length) :
    let p := lastDimPerm t.shape.length dim
    Same (transpose (npArgsort p) (transpose p t)) t ∧
    ∀ f : List α → Nat → α,
      Same (transpose (npArgsort p) (alongAxis (t.shape.length - 1) f (transpose p t))) (alongAxis dim f t) := by
  intro p
  have hp := lastDimPerm_isPerm h
  have hq := argsort_isPerm (IsPerm.length hp)
  have hi := argsort_inv hp
  refine ⟨wrap_cancel hp hq hi t rfl, fun f => ?_⟩
  have := wrap_alongAxis hp hq hi t rfl (t.shape.length - 1) (by omega) f
  rwa [lastDimPerm_last h] at this

example : lastDimPerm 4 1 = [0, 2, 3, 1] ∧ npArgsort (lastDimPerm 4 1) = [0, 3, 1, 2] := by decide

/-! ### C03 -/

/-- C03.  Whenever the code's test accepts a TRANSPOSE, it equals the RESHAPE to its output shape. -/
theorem C03_transpose_to_reshape {α : Type} (t : Tensor α) (perm : List Nat)
    (hp : IsPerm t.shape.length perm)
    (h : isTransposeSameToReshape t.shape (transpose perm t).shape perm = true) :
    Same (transpose perm t) (reshape (transpose perm t).shape t) := by
  refine ⟨rfl, ?_⟩
  intro idx hi
  unfold isTransposeSameToReshape at h
  split at h
  swap
  · simp at h
  have h' : flatten (transpose perm (arange t.shape)) = flatten (arange t.shape) := by simpa using h
  have hshape : (transpose perm (arange t.shape)).shape = (transpose perm t).shape := rfl
  have hlen : (transpose perm t).shape.prod = t.shape.prod := by
    have := congrArg List.length h'
    simp only [flatten, List.length_map, List.length_range] at this
    exact this
  have hk := flat_lt hi
  have hget := congrArg (fun l => l.getD (flat (transpose perm t).shape idx) 0) h'
  simp only [flatten, hshape] at hget
  rw [getD_range_map _ _ _ _ hk, getD_range_map _ _ _ _ (by simpa [arange, ← hlen] using hk),
    unflat_flat hi] at hget
  simp only [transpose, arange] at hget hk hlen hi ⊢
  rw [flat_unflat (by rw [← hlen]; exact hk)] at hget
  simp only [reshape]
  rw [← hget, unflat_flat (transpose_src_inBounds hp rfl hi)]

example : isTransposeSameToReshape [2, 1, 3, 1] [1, 2, 1, 3] [1, 0, 3, 2] = true ∧
    isTransposeSameToReshape [2, 3] [3, 2] [1, 0] = false := by decide

/-! ### C05 -/

theorem reshapeOp_shape {α : Type} {arg : List Int} {t r : Tensor α} (h : reshapeOp arg t = some r) :
    r.shape.prod = t.shape.prod ∧ r = reshape (resolveShape t.shape.prod arg) t ∧
      (resolveShape t.shape.prod arg).prod = t.shape.prod := by
  unfold reshapeOp at h
  simp only at h
  split at h
  · rename_i hp
    simp only [Option.some.injEq] at h
    subst h
    exact ⟨hp, rfl, hp⟩
  · simp at h

theorem reshapeChain_last {α : Type} (args : List (List Int)) (last : List Int) (t r : Tensor α)
    (h : reshapeChain (args ++ [last]) t = some r) :
    ∃ r', reshapeOp last t = some r' ∧ Same r r' := by
  induction args generalizing t with
  | nil =>
    simp only [List.nil_append, reshapeChain] at h
    cases hr : reshapeOp last t with
    | none => simp [hr] at h
    | some r' =>
      simp only [hr, Option.bind_some, Option.some.injEq] at h
      subst h
      exact ⟨_, rfl, Same.refl _⟩
  | cons a as ih =>
    simp only [List.cons_append, reshapeChain] at h
    cases ha : reshapeOp a t with
    | none => simp [ha] at h
    | some u =>
      simp only [ha, Option.bind_some] at h
      obtain ⟨r', h1, h2⟩ := ih u h
      obtain ⟨hs, hu, hp⟩ := reshapeOp_shape ha
      obtain ⟨hs', hr', hp'⟩ := reshapeOp_shape h1
      refine ⟨reshape (resolveShape t.shape.prod last) t, ?_, ?_⟩
      · unfold reshapeOp
        rw [hs] at hp'
        simp [hp']
      · subst hr'
        refine h2.trans ?_
        rw [hs, hu]
        apply reshape_reshape
        rw [hp, ← hs, hp', hs]

theorem resolveShape_nat (total : Nat) (s : List Nat) : resolveShape total (s.map Int.ofNat) = s := by
  unfold resolveShape
  rw [List.map_map]
  conv_rhs => rw [← List.map_id s]
  apply List.map_congr_left
  intro d _
  simp

/-- C05.  A valid chain of RESHAPE operators equals the single RESHAPE that replaces it (which is itself
valid), and where the code drops the chain the tensor is unchanged.  Shape tensors may contain `-1`. -/
theorem C05_reshape_chain {α : Type} (t r : Tensor α) (args : List (List Int)) (hne : args ≠ [])
    (h : reshapeChain args t = some r) :
    (∃ arg, fuseReshapeChain t.shape args = some (some arg) ∧ ∃ r', reshapeOp arg t = some r' ∧ Same r r') ∨
    (fuseReshapeChain t.shape args = some none ∧ Same r t) := by
  obtain ⟨init, last, rfl⟩ : ∃ init last, args = init ++ [last] :=
    ⟨args.dropLast, args.getLast hne, (List.dropLast_append_getLast hne).symm⟩
  obtain ⟨r', h1, h2⟩ := reshapeChain_last init last t r h
  by_cases he : last = t.shape.map Int.ofNat
  · right
    refine ⟨by simp [fuseReshapeChain, he], ?_⟩
    obtain ⟨_, hr', _⟩ := reshapeOp_shape h1
    rw [he, resolveShape_nat] at hr'
    subst hr'
    exact h2.trans (reshape_self t)
  · left
    refine ⟨last, ?_, r', h1, h2⟩
    simp [fuseReshapeChain]
    intro hh; exact absurd hh he

example (t : Tensor Nat) (h : t.shape = [2, 6]) :
    (∃ r, reshapeChain [[3, -1], [12], [4, 3]] t = some r) ∧
    fuseReshapeChain t.shape [[3, -1], [12], [4, 3]] = some (some [4, 3]) ∧
    fuseReshapeChain t.shape [[3, -1], [2, 6]] = some none := by
  refine ⟨?_, by rw [h]; decide, by rw [h]; decide⟩
  simp [reshapeChain, reshapeOp, resolveShape, knownProduct, h, reshape]

end Verif.Props
