import Verif.Model.ReshapeMap
import Mathlib.Tactic.Common
import Mathlib.Tactic.Ring
import Mathlib.Algebra.BigOperators.Group.List.Lemmas
import Mathlib.Tactic.Linarith
import Verif.Lemmas.Tensor

/-! C06 (`is_simple_reshape`) and C07 (`reshape_mapping`). -/

namespace Verif.Props
open Verif.Model Verif.Spec Verif.Lemmas

/-! ### C06 -/

theorem simpleGo_true (xs ys : List Nat) (i j : Nat) :
    (simpleGo xs ys i j).1 = true ↔ xs.filter (· != 1) = ys.filter (· != 1) := by
  fun_induction simpleGo xs ys i j with
  | case1 => simp
  | case2 i j ys ih => simpa using ih
  | case3 i j y ys h => simp [h]
  | case4 xs i j ih => simpa using ih
  | case5 x xs i j h => simp [h]
  | case6 xs x ys i j r ih =>
    by_cases h : x = 1 <;> simp [List.filter_cons, h, ih, r]
  | case7 xs y ys i j h ih => simpa using ih
  | case8 x xs ys i j h1 h2 ih => simpa [h2] using ih
  | case9 x xs y ys i j h1 h2 h3 => simp [h1, h2, h3]

theorem simpleGo_map (xs ys : List Nat) (i j : Nat) :
    ((simpleGo xs ys i j).2).Pairwise (fun a b => a.1 < b.1 ∧ a.2 < b.2) ∧
    (∀ e ∈ (simpleGo xs ys i j).2, i ≤ e.1 ∧ j ≤ e.2 ∧ e.1 < i + xs.length ∧ e.2 < j + ys.length ∧
      xs.getD (e.1 - i) 0 = ys.getD (e.2 - j) 0) ∧
    ((simpleGo xs ys i j).1 = true →
      (∀ a < xs.length, xs.getD a 0 ≠ 1 → ∃ b, (i + a, b) ∈ (simpleGo xs ys i j).2) ∧
      (∀ b < ys.length, ys.getD b 0 ≠ 1 → ∃ a, (a, j + b) ∈ (simpleGo xs ys i j).2)) := by
  fun_induction simpleGo xs ys i j with
  | case1 => simp
  | case2 ys i j ih =>
    obtain ⟨h1, h2, h3⟩ := ih
    refine ⟨h1, ?_, ?_⟩
    · intro e he
      have := h2 e he; simp at this; omega
    · intro ht
      refine ⟨by simp, ?_⟩
      intro b hb hne
      cases b with
      | zero => simp at hne
      | succ b =>
        obtain ⟨a, ha⟩ := (h3 ht).2 b (by simpa using hb) (by simpa using hne)
        exact ⟨a, by rwa [show j + (b + 1) = j + 1 + b by omega]⟩
  | case3 i j y ys h => simp
  | case4 xs i j ih =>
    obtain ⟨h1, h2, h3⟩ := ih
    refine ⟨h1, ?_, ?_⟩
    · intro e he
      have := h2 e he; simp at this; omega
    · intro ht
      refine ⟨?_, by simp⟩
      intro a ha hne
      cases a with
      | zero => simp at hne
      | succ a =>
        obtain ⟨b, hb⟩ := (h3 ht).1 a (by simpa using ha) (by simpa using hne)
        exact ⟨b, by rwa [show i + (a + 1) = i + 1 + a by omega]⟩
  | case5 x xs i j h => simp
  | case6 x xs ys i j r ih =>
    obtain ⟨h1, h2, h3⟩ := ih
    refine ⟨?_, ?_, ?_⟩
    · rw [List.pairwise_cons]
      refine ⟨?_, h1⟩
      intro e he
      have := h2 e he; simp only; omega
    · intro e he
      rcases List.mem_cons.1 he with rfl | he
      · simp
      · have := h2 e he
        refine ⟨by omega, by omega, by simp; omega, by simp; omega, ?_⟩
        rw [show e.1 - i = (e.1 - (i + 1)) + 1 by omega, show e.2 - j = (e.2 - (j + 1)) + 1 by omega]
        simpa using this.2.2.2.2
    · intro ht
      refine ⟨?_, ?_⟩
      · intro a ha hne
        cases a with
        | zero => exact ⟨j, by simp⟩
        | succ a =>
          obtain ⟨b, hb⟩ := (h3 ht).1 a (by simpa using ha) (by simpa using hne)
          exact ⟨b, List.mem_cons_of_mem _ (by rwa [show i + (a + 1) = i + 1 + a by omega])⟩
      · intro b hb hne
        cases b with
        | zero => exact ⟨i, by simp⟩
        | succ b =>
          obtain ⟨a, ha⟩ := (h3 ht).2 b (by simpa using hb) (by simpa using hne)
          exact ⟨a, List.mem_cons_of_mem _ (by rwa [show j + (b + 1) = j + 1 + b by omega])⟩
  | case7 xs y ys i j h ih =>
    obtain ⟨h1, h2, h3⟩ := ih
    refine ⟨h1, ?_, ?_⟩
    · intro e he
      have := h2 e he
      refine ⟨by omega, by omega, by simp; omega, by omega, ?_⟩
      rw [show e.1 - i = (e.1 - (i + 1)) + 1 by omega]
      simpa using this.2.2.2.2
    · intro ht
      refine ⟨?_, (h3 ht).2⟩
      intro a ha hne
      cases a with
      | zero => simp at hne
      | succ a =>
        obtain ⟨b, hb⟩ := (h3 ht).1 a (by simpa using ha) (by simpa using hne)
        exact ⟨b, by rwa [show i + (a + 1) = i + 1 + a by omega]⟩
  | case8 x xs ys i j h1' h2' ih =>
    obtain ⟨h1, h2, h3⟩ := ih
    refine ⟨h1, ?_, ?_⟩
    · intro e he
      have := h2 e he
      refine ⟨by omega, by omega, by omega, by simp; omega, ?_⟩
      rw [show e.2 - j = (e.2 - (j + 1)) + 1 by omega]
      simpa using this.2.2.2.2
    · intro ht
      refine ⟨(h3 ht).1, ?_⟩
      intro b hb hne
      cases b with
      | zero => simp at hne
      | succ b =>
        obtain ⟨a, ha⟩ := (h3 ht).2 b (by simpa using hb) (by simpa using hne)
        exact ⟨a, by rwa [show j + (b + 1) = j + 1 + b by omega]⟩
  | case9 x xs y ys i j h1 h2 h3 => simp

/-- C06.  The answer is yes exactly when both shapes have the same sizes other than 1, in order; the
returned axis correspondence is increasing on both sides and pairs in-range axes of equal size, and
with a yes answer every axis whose size is not 1 is paired, on both sides. -/
theorem C06_simple_reshape (orig new : List Nat) :
    let r := isSimpleReshape orig new
    (r.1 = true ↔ orig.filter (· != 1) = new.filter (· != 1)) ∧
    r.2.Pairwise (fun a b => a.1 < b.1 ∧ a.2 < b.2) ∧
    (∀ e ∈ r.2, e.1 < orig.length ∧ e.2 < new.length ∧ orig.getD e.1 0 = new.getD e.2 0) ∧
    (r.1 = true →
      (∀ a < orig.length, orig.getD a 0 ≠ 1 → ∃ b, (a, b) ∈ r.2) ∧
      (∀ b < new.length, new.getD b 0 ≠ 1 → ∃ a, (a, b) ∈ r.2)) := by
  intro r
  by_cases h : orig = new
  · have hr : r = (true, (List.range orig.length).map (fun i => (i, i))) := by
      simp only [r, isSimpleReshape, if_pos h]
    subst h
    rw [hr]
    refine ⟨by simp, ?_, ?_, ?_⟩
    · rw [List.pairwise_map]
      exact List.pairwise_lt_range.imp (fun h => ⟨h, h⟩)
    · intro e he
      simp at he
      obtain ⟨a, ha, rfl⟩ := he
      exact ⟨ha, ha, rfl⟩
    · intro _
      refine ⟨fun a ha _ => ⟨a, by simpa using ha⟩, fun b hb _ => ⟨b, by simpa using hb⟩⟩
  · have hr : r = simpleGo orig new 0 0 := by simp only [r, isSimpleReshape, if_neg h]
    rw [hr]
    obtain ⟨h1, h2, h3⟩ := simpleGo_map orig new 0 0
    refine ⟨simpleGo_true orig new 0 0, h1, ?_, ?_⟩
    · intro e he
      have := h2 e he
      simpa using this
    · intro ht
      have := h3 ht
      simpa using this

example : isSimpleReshape [2, 1, 3] [1, 2, 3, 1] = (true, [(0, 1), (2, 2)]) ∧
    (isSimpleReshape [2, 3] [3, 2]).1 = false := by
  constructor <;> simp [isSimpleReshape, simpleGo]

/-! ### C07 -/

/-- Product of the sizes of a group of axes. -/
def groupSize (s : List Nat) (g : List Nat) : Nat := (g.map (fun k => s.getD k 1)).prod

theorem groupSize_range' (s : List Nat) (a n : Nat) :
    groupSize s (List.range' a (n + 1)) = groupSize s (List.range' a n) * s.getD (a + n) 1 := by
  unfold groupSize
  rw [List.range'_concat]
  simp

theorem groupSize_pos (s : List Nat) (hs : ∀ d ∈ s, 0 < d) (g : List Nat) : 0 < groupSize s g := by
  unfold groupSize
  induction g with
  | nil => simp
  | cons k g ih =>
    simp only [List.map_cons, List.prod_cons]
    apply Nat.mul_pos _ ih
    by_cases h : k < s.length
    · rw [getD_eq_getElem _ _ _ h]; exact hs _ (List.getElem_mem h)
    · simp [List.getD, List.getElem?_eq_none (by omega : s.length ≤ k)]

theorem groupSize_split (s : List Nat) (a m n : Nat) :
    groupSize s (List.range' a (m + n)) = groupSize s (List.range' a m) * groupSize s (List.range' (a + m) n) := by
  unfold groupSize
  rw [← List.range'_append_1, List.map_append, List.prod_append]

theorem groupSize_all (s : List Nat) : groupSize s (List.range' 0 s.length) = s.prod := by
  unfold groupSize
  rw [← List.range_eq_range']
  congr 1
  apply List.ext_getElem (by simp)
  intro i h1 h2
  simp [List.getElem?_eq_getElem h2]

/-- Loop invariant of lines 4595-4633. -/
structure RMInv (s1 s2 : List Nat) (st : RM) : Prop where
  il : st.i ≤ s1.length
  jl : st.j ≤ s2.length
  sl : st.startL ≤ st.i
  sr : st.startR ≤ st.j
  flatL : st.mapL.flatten = List.range' 0 st.startL
  flatR : st.mapR.flatten = List.range' 0 st.startR
  ne : ∀ g, g ∈ st.mapL ∨ g ∈ st.mapR → g ≠ []
  eqp : List.Forall₂ (fun a b => groupSize s1 a = groupSize s2 b) st.mapL st.mapR
  rem : groupSize s1 (List.range' st.startL (s1.length - st.startL)) =
        groupSize s2 (List.range' st.startR (s2.length - st.startR))
  pos : 0 < st.startL ∨ (0 < s1.length ∧ 0 < s2.length)
  none_ : st.sign = .none → st.i = st.startL ∧ st.j = st.startR ∧ st.accL = 1 ∧ st.accR = 1
  l_ : st.sign = .l → st.accL < st.accR ∧ st.accL = groupSize s1 (List.range' st.startL (st.i - st.startL)) ∧
        st.j < s2.length ∧ st.accR = groupSize s2 (List.range' st.startR (st.j + 1 - st.startR))
  r_ : st.sign = .r → st.accR < st.accL ∧ st.accR = groupSize s2 (List.range' st.startR (st.j - st.startR)) ∧
        st.i < s1.length ∧ st.accL = groupSize s1 (List.range' st.startL (st.i + 1 - st.startL))

theorem groupSize_step (s : List Nat) (a i : Nat) (h : a ≤ i) :
    s.getD i 1 * groupSize s (List.range' a (i - a)) = groupSize s (List.range' a (i + 1 - a)) := by
  rw [show i + 1 - a = (i - a) + 1 by omega, groupSize_range', show a + (i - a) = i by omega, Nat.mul_comm]

theorem groupSize_prefix_le (s : List Nat) (hs : ∀ d ∈ s, 0 < d) (a i : Nat) (hi : i ≤ s.length) (h : a ≤ i) :
    groupSize s (List.range' a (i - a)) ≤ groupSize s (List.range' a (s.length - a)) := by
  rw [show s.length - a = (i - a) + (s.length - i) by omega, groupSize_split]
  exact Nat.le_mul_of_pos_right _ (groupSize_pos s hs _)

/-- Closing a group keeps the invariant. -/
theorem close_group (s1 s2 : List Nat) (hp1 : ∀ d ∈ s1, 0 < d) (st : RM) (inv : RMInv s1 s2 st) (hi : st.i < s1.length)
    (hj : st.j < s2.length)
    (he : groupSize s1 (List.range' st.startL (st.i + 1 - st.startL)) =
      groupSize s2 (List.range' st.startR (st.j + 1 - st.startR))) :
    RMInv s1 s2 { i := st.i + 1, j := st.j + 1, accL := 1, accR := 1, startL := st.i + 1, startR := st.j + 1,
                  mapL := st.mapL ++ [List.range' st.startL (st.i + 1 - st.startL)],
                  mapR := st.mapR ++ [List.range' st.startR (st.j + 1 - st.startR)], sign := .none } := by
  have hsl := inv.sl
  have hsr := inv.sr
  constructor
  · exact hi
  · exact hj
  · simp
  · simp
  · simp only [List.flatten_append, inv.flatL, List.flatten_cons, List.flatten_nil, List.append_nil]
    have := @List.range'_append_1 0 st.startL (st.i + 1 - st.startL)
    rw [show 0 + st.startL = st.startL by omega, show st.startL + (st.i + 1 - st.startL) = st.i + 1 by omega] at this
    exact this
  · simp only [List.flatten_append, inv.flatR, List.flatten_cons, List.flatten_nil, List.append_nil]
    have := @List.range'_append_1 0 st.startR (st.j + 1 - st.startR)
    rw [show 0 + st.startR = st.startR by omega, show st.startR + (st.j + 1 - st.startR) = st.j + 1 by omega] at this
    exact this
  · intro g hg
    simp only [List.mem_append, List.mem_singleton] at hg
    rcases hg with (h | rfl) | (h | rfl)
    · exact inv.ne g (Or.inl h)
    · intro h; have := congrArg List.length h; simp at this; omega
    · exact inv.ne g (Or.inr h)
    · intro h; have := congrArg List.length h; simp at this; omega
  · exact List.rel_append inv.eqp (List.Forall₂.cons he List.Forall₂.nil)
  · have h1 := inv.rem
    rw [show s1.length - st.startL = (st.i + 1 - st.startL) + (s1.length - (st.i + 1)) by omega,
      show s2.length - st.startR = (st.j + 1 - st.startR) + (s2.length - (st.j + 1)) by omega,
      groupSize_split, groupSize_split, ← he,
      show st.startL + (st.i + 1 - st.startL) = st.i + 1 by omega,
      show st.startR + (st.j + 1 - st.startR) = st.j + 1 by omega] at h1
    exact Nat.eq_of_mul_eq_mul_left (groupSize_pos s1 hp1 _) h1
  · left; simp
  · intro _; exact ⟨rfl, rfl, rfl, rfl⟩
  · intro h; simp at h
  · intro h; simp at h

theorem rmStep_spec (s1 s2 : List Nat) (hp1 : ∀ d ∈ s1, 0 < d) (st : RM)
    (inv : RMInv s1 s2 st) (hi : st.i < s1.length) (hj : st.j < s2.length) :
    ∃ st', rmStep s1 s2 st = some st' ∧ RMInv s1 s2 st' ∧ st.i + st.j < st'.i + st'.j := by
  have hsl := inv.sl
  have hsr := inv.sr
  unfold rmStep
  rw [if_pos ⟨hi, hj⟩]
  split
  · rename_i h
    obtain ⟨h1, h2, h3⟩ := h
    refine ⟨_, rfl, ?_, by simp only; omega⟩
    have e1 : List.range' st.startL (st.i + 1 - st.startL) = [st.i] := by
      rw [h1, show st.i + 1 - st.i = 1 by omega]; rfl
    have e2 : List.range' st.startR (st.j + 1 - st.startR) = [st.j] := by
      rw [h2, show st.j + 1 - st.j = 1 by omega]; rfl
    have := close_group s1 s2 hp1 st inv hi hj (by rw [e1, e2]; simp [groupSize]; simpa [List.getD] using h3)
    rw [e1, e2] at this
    exact this
  · -- the accumulated sizes
    have key : ∀ (accL accR : Nat), accL = groupSize s1 (List.range' st.startL (st.i + 1 - st.startL)) →
        accR = groupSize s2 (List.range' st.startR (st.j + 1 - st.startR)) →
        ∃ st', (if accL = accR then
          some { i := st.i + 1, j := st.j + 1, accL := 1, accR := 1, startL := st.i + 1, startR := st.j + 1,
                 mapL := st.mapL ++ [List.range' st.startL (st.i + 1 - st.startL)],
                 mapR := st.mapR ++ [List.range' st.startR (st.j + 1 - st.startR)], sign := .none }
          else if accL < accR then some { st with accL := accL, accR := accR, sign := .l, i := st.i + 1 }
          else some { st with accL := accL, accR := accR, sign := .r, j := st.j + 1 } : Option RM) = some st' ∧
          RMInv s1 s2 st' ∧ st.i + st.j < st'.i + st'.j := by
      intro accL accR hl hr
      split
      · rename_i he
        refine ⟨_, rfl, close_group s1 s2 hp1 st inv hi hj ?_, by simp only; omega⟩
        rw [← hl, ← hr]; exact he
      · rename_i hne
        split
        · rename_i hlt
          refine ⟨_, rfl, ?_, by simp only; omega⟩
          exact { il := hi, jl := inv.jl, sl := Nat.le_succ_of_le inv.sl, sr := inv.sr, flatL := inv.flatL, flatR := inv.flatR,
                  ne := inv.ne, eqp := inv.eqp, rem := inv.rem, pos := inv.pos,
                  none_ := by intro h; simp at h
                  l_ := by intro _; exact ⟨hlt, hl, hj, hr⟩
                  r_ := by intro h; simp at h }
        · rename_i hnlt
          refine ⟨_, rfl, ?_, by simp only; omega⟩
          exact { il := inv.il, jl := hj, sl := inv.sl, sr := Nat.le_succ_of_le inv.sr, flatL := inv.flatL, flatR := inv.flatR,
                  ne := inv.ne, eqp := inv.eqp, rem := inv.rem, pos := inv.pos,
                  none_ := by intro h; simp at h
                  l_ := by intro h; simp at h
                  r_ := by intro _; exact ⟨by simp only; omega, hr, hi, hl⟩ }
    apply key
    · cases hs : st.sign with
      | none =>
        obtain ⟨a, b, c, d⟩ := inv.none_ hs
        simp only [if_true, or_true]
        rw [c, ← groupSize_step s1 st.startL st.i hsl, a]
        simp [groupSize]
      | l =>
        obtain ⟨a, b, c, d⟩ := inv.l_ hs
        simp only [true_or, if_true]
        rw [b, groupSize_step _ _ _ hsl]
      | r =>
        obtain ⟨a, b, c, d⟩ := inv.r_ hs
        simp [d]
    · cases hs : st.sign with
      | none =>
        obtain ⟨a, b, c, d⟩ := inv.none_ hs
        simp only [if_true, or_true]
        rw [d, ← groupSize_step s2 st.startR st.j hsr, b]
        simp [groupSize]
      | r =>
        obtain ⟨a, b, c, d⟩ := inv.r_ hs
        simp only [true_or, if_true]
        rw [b, groupSize_step _ _ _ hsr]
      | l =>
        obtain ⟨a, b, c, d⟩ := inv.l_ hs
        simp [d]

/-- What is known when the loop ends. -/
structure RMDone (s1 s2 : List Nat) (st : RM) : Prop where
  flatL : st.mapL.flatten = List.range s1.length
  flatR : st.mapR.flatten = List.range s2.length
  ne : ∀ g, g ∈ st.mapL ∨ g ∈ st.mapR → g ≠ []
  eqp : List.Forall₂ (fun a b => groupSize s1 a = groupSize s2 b) st.mapL st.mapR

theorem flatten_appendLast (m : List (List Nat)) (x : Nat) (hne : m ≠ []) :
    (m.dropLast ++ [m.getLastD [] ++ [x]]).flatten = m.flatten ++ [x] := by
  have h := List.dropLast_append_getLast hne
  have e : m.getLastD [] = m.getLast hne := by
    cases m with
    | nil => exact absurd rfl hne
    | cons a t => simp [List.getLastD]
  rw [e]
  conv_rhs => rw [← h]
  simp

theorem forall₂_last_left {R : List Nat → List Nat → Prop} {m m' : List (List Nat)} (h : List.Forall₂ R m m')
    (hne : m ≠ []) (y : List Nat) (hy : ∀ b, R (m.getLastD []) b → R y b) :
    List.Forall₂ R (m.dropLast ++ [y]) m' := by
  induction h with
  | nil => exact absurd rfl hne
  | @cons a b l l' hab hl ih =>
    cases hl with
    | nil => exact List.Forall₂.cons (hy b (by simpa using hab)) List.Forall₂.nil
    | @cons c d l l' hcd hl =>
      have := ih (by simp) (by simpa [List.getLastD] using hy)
      simp only [List.dropLast_cons_cons, List.cons_append]
      exact List.Forall₂.cons hab this

theorem forall₂_flip {R : List Nat → List Nat → Prop} {m m' : List (List Nat)} (h : List.Forall₂ R m m') :
    List.Forall₂ (fun a b => R b a) m' m := by
  induction h with
  | nil => exact List.Forall₂.nil
  | cons h _ ih => exact List.Forall₂.cons h ih

theorem groupSize_snoc (s : List Nat) (g : List Nat) (k : Nat) (h : s.getD k 1 = 1) :
    groupSize s (g ++ [k]) = groupSize s g := by
  unfold groupSize
  rw [List.map_append, List.prod_append, List.map_cons, h]; simp

/-- The trailing loop on the left: everything left has size 1. -/
theorem tailL (s1 s2 : List Nat) : ∀ (f : Nat) (st : RM), s1.length - st.i ≤ f →
    st.i ≤ s1.length → st.j = s2.length → st.mapL ≠ [] →
    (∀ k, st.i ≤ k → k < s1.length → s1.getD k 1 = 1) →
    st.mapL.flatten = List.range' 0 st.i → st.mapR.flatten = List.range' 0 s2.length →
    (∀ g, g ∈ st.mapL ∨ g ∈ st.mapR → g ≠ []) →
    List.Forall₂ (fun a b => groupSize s1 a = groupSize s2 b) st.mapL st.mapR →
    ∃ st', rmLoop s1 s2 f st = some st' ∧ RMDone s1 s2 st' := by
  intro f
  induction f with
  | zero =>
    intro st hf hi hj hm hone hL hR hne heq
    refine ⟨st, by unfold rmLoop; rw [if_neg (by omega)], ?_⟩
    refine ⟨?_, ?_, hne, heq⟩
    · rw [hL, List.range_eq_range', show st.i = s1.length by omega]
    · rw [hR, List.range_eq_range']
  | succ f ih =>
    intro st hf hi hj hm hone hL hR hne heq
    by_cases hlt : st.i < s1.length
    · unfold rmLoop
      rw [if_pos (Or.inl hlt)]
      have hstep : rmStep s1 s2 st = some { st with mapL := st.mapL.dropLast ++ [st.mapL.getLastD [] ++ [st.i]], i := st.i + 1 } := by
        unfold rmStep
        rw [if_neg (by omega), if_pos hlt, if_pos (hone st.i (le_refl _) hlt)]
        simp [appendLast, hm]
      rw [hstep, Option.bind_some]
      apply ih
      · simp only; omega
      · simp only; omega
      · exact hj
      · simp
      · intro k hk hk'; exact hone k (by simp only at hk; omega) hk'
      · simp only
        rw [flatten_appendLast _ _ hm, hL, List.range'_concat]
        simp
      · exact hR
      · intro g hg
        simp only [List.mem_append, List.mem_singleton] at hg
        rcases hg with (h | rfl) | h
        · exact hne g (Or.inl (List.dropLast_subset _ h))
        · simp
        · exact hne g (Or.inr h)
      · apply forall₂_last_left heq hm
        intro b hb
        rw [groupSize_snoc _ _ _ (hone st.i (le_refl _) hlt)]; exact hb
    · refine ⟨st, by unfold rmLoop; rw [if_neg (by omega)], ?_⟩
      refine ⟨?_, ?_, hne, heq⟩
      · rw [hL, List.range_eq_range', show st.i = s1.length by omega]
      · rw [hR, List.range_eq_range']

/-- The trailing loop on the right. -/
theorem tailR (s1 s2 : List Nat) : ∀ (f : Nat) (st : RM), s2.length - st.j ≤ f →
    st.j ≤ s2.length → st.i = s1.length → st.mapR ≠ [] →
    (∀ k, st.j ≤ k → k < s2.length → s2.getD k 1 = 1) →
    st.mapL.flatten = List.range' 0 s1.length → st.mapR.flatten = List.range' 0 st.j →
    (∀ g, g ∈ st.mapL ∨ g ∈ st.mapR → g ≠ []) →
    List.Forall₂ (fun a b => groupSize s1 a = groupSize s2 b) st.mapL st.mapR →
    ∃ st', rmLoop s1 s2 f st = some st' ∧ RMDone s1 s2 st' := by
  intro f
  induction f with
  | zero =>
    intro st hf hi hj hm hone hL hR hne heq
    refine ⟨st, by unfold rmLoop; rw [if_neg (by omega)], ?_⟩
    refine ⟨?_, ?_, hne, heq⟩
    · rw [hL, List.range_eq_range']
    · rw [hR, List.range_eq_range', show st.j = s2.length by omega]
  | succ f ih =>
    intro st hf hi hj hm hone hL hR hne heq
    by_cases hlt : st.j < s2.length
    · unfold rmLoop
      rw [if_pos (Or.inr hlt)]
      have hstep : rmStep s1 s2 st = some { st with mapR := st.mapR.dropLast ++ [st.mapR.getLastD [] ++ [st.j]], j := st.j + 1 } := by
        unfold rmStep
        rw [if_neg (by omega), if_neg (by omega), if_pos (hone st.j (le_refl _) hlt)]
        simp [appendLast, hm]
      rw [hstep, Option.bind_some]
      apply ih
      · simp only; omega
      · simp only; omega
      · exact hj
      · simp
      · intro k hk hk'; exact hone k (by simp only at hk; omega) hk'
      · exact hL
      · simp only
        rw [flatten_appendLast _ _ hm, hR, List.range'_concat]
        simp
      · intro g hg
        simp only [List.mem_append, List.mem_singleton] at hg
        rcases hg with h | (h | rfl)
        · exact hne g (Or.inl h)
        · exact hne g (Or.inr (List.dropLast_subset _ h))
        · simp
      · apply forall₂_flip
        apply forall₂_last_left (forall₂_flip heq) hm
        intro b hb
        rw [groupSize_snoc _ _ _ (hone st.j (le_refl _) hlt)]; exact hb
    · refine ⟨st, by unfold rmLoop; rw [if_neg (by omega)], ?_⟩
      refine ⟨?_, ?_, hne, heq⟩
      · rw [hL, List.range_eq_range']
      · rw [hR, List.range_eq_range', show st.j = s2.length by omega]

theorem all_one_of_groupSize (s : List Nat) (a : Nat) (n : Nat)
    (h : groupSize s (List.range' a n) = 1) : ∀ k, a ≤ k → k < a + n → s.getD k 1 = 1 := by
  intro k hk hk'
  unfold groupSize at h
  have hmem : s.getD k 1 ∈ (List.range' a n).map (fun k => s.getD k 1) :=
    List.mem_map.2 ⟨k, List.mem_range'_1.2 ⟨hk, hk'⟩, rfl⟩
  have hd : s.getD k 1 ∣ ((List.range' a n).map (fun k => s.getD k 1)).prod := List.dvd_prod hmem
  rw [h] at hd
  exact Nat.dvd_one.1 hd

theorem rmLoop_spec (s1 s2 : List Nat) (hp1 : ∀ d ∈ s1, 0 < d) (hp2 : ∀ d ∈ s2, 0 < d) :
    ∀ (f : Nat) (st : RM), s1.length + s2.length ≤ f + st.i + st.j → RMInv s1 s2 st →
      ∃ st', rmLoop s1 s2 f st = some st' ∧ RMDone s1 s2 st' := by
  intro f
  induction f with
  | zero =>
    intro st hf inv
    have := inv.il; have := inv.jl
    have hi : st.i = s1.length := by omega
    have hj : st.j = s2.length := by omega
    refine ⟨st, by unfold rmLoop; rw [if_neg (by omega)], ?_⟩
    have hs : st.sign = .none := by
      cases h : st.sign with
      | none => rfl
      | l => have := (inv.l_ h).2.2.1; omega
      | r => have := (inv.r_ h).2.2.1; omega
    obtain ⟨a, b, _, _⟩ := inv.none_ hs
    refine ⟨?_, ?_, inv.ne, inv.eqp⟩
    · rw [inv.flatL, List.range_eq_range', ← a, hi]
    · rw [inv.flatR, List.range_eq_range', ← b, hj]
  | succ f ih =>
    intro st hf inv
    have hil := inv.il
    have hjl := inv.jl
    have hsl := inv.sl
    have hsr := inv.sr
    by_cases hi : st.i < s1.length
    · by_cases hj : st.j < s2.length
      · unfold rmLoop
        rw [if_pos (Or.inl hi)]
        obtain ⟨st', h1, h2, h3⟩ := rmStep_spec s1 s2 hp1 st inv hi hj
        rw [h1, Option.bind_some]
        exact ih st' (by omega) h2
      · -- the right shape is exhausted
        have hj' : st.j = s2.length := by omega
        have hs : st.sign = .none := by
          cases h : st.sign with
          | none => rfl
          | l => have := (inv.l_ h).2.2.1; omega
          | r =>
            obtain ⟨a, b, c, d⟩ := inv.r_ h
            have h1 := groupSize_prefix_le s1 hp1 st.startL (st.i + 1) (by omega) (by omega)
            have h2 := inv.rem
            rw [hj'] at b
            omega
        obtain ⟨a, b, _, _⟩ := inv.none_ hs
        have hrem := inv.rem
        rw [show s2.length - st.startR = 0 by omega] at hrem
        have hone : groupSize s1 (List.range' st.startL (s1.length - st.startL)) = 1 := by
          rw [hrem]; simp [groupSize]
        have hm : st.mapL ≠ [] := by
          intro h
          have h1 := inv.flatL
          rw [h] at h1
          have h1 := congrArg List.length h1
          simp at h1
          have h2 := inv.flatR
          have h3 := inv.eqp
          rw [h] at h3
          have hh : st.mapR = [] := by
            cases hh : st.mapR with
            | nil => rfl
            | cons x y => rw [hh] at h3; cases h3
          rw [hh] at h2
          have h2 := congrArg List.length h2
          simp at h2
          rcases inv.pos with h | h <;> omega
        apply tailL s1 s2 (f + 1) st (by omega) (by omega) hj' hm
        · intro k hk hk'
          exact all_one_of_groupSize s1 _ _ hone k (by omega) (by omega)
        · rw [inv.flatL, a]
        · rw [inv.flatR, ← b, hj']
        · exact inv.ne
        · exact inv.eqp
    · have hi' : st.i = s1.length := by omega
      by_cases hj : st.j < s2.length
      · have hs : st.sign = .none := by
          cases h : st.sign with
          | none => rfl
          | r => have := (inv.r_ h).2.2.1; omega
          | l =>
            obtain ⟨a, b, c, d⟩ := inv.l_ h
            have h1 := groupSize_prefix_le s2 hp2 st.startR (st.j + 1) (by omega) (by omega)
            have h2 := inv.rem
            rw [hi'] at b
            omega
        obtain ⟨a, b, _, _⟩ := inv.none_ hs
        have hrem := inv.rem
        rw [show s1.length - st.startL = 0 by omega] at hrem
        have hone : groupSize s2 (List.range' st.startR (s2.length - st.startR)) = 1 := by
          rw [← hrem]; simp [groupSize]
        have hm : st.mapR ≠ [] := by
          intro h
          have h3 := inv.eqp
          rw [h] at h3
          have h4 : st.mapL = [] := by
            cases hh : st.mapL with
            | nil => rfl
            | cons x y => rw [hh] at h3; cases h3
          have h1 := inv.flatL
          rw [h4] at h1
          have h1 := congrArg List.length h1
          simp at h1
          rcases inv.pos with h | h <;> omega
        apply tailR s1 s2 (f + 1) st (by omega) (by omega) hi' hm
        · intro k hk hk'
          exact all_one_of_groupSize s2 _ _ hone k (by omega) (by omega)
        · rw [inv.flatL, ← a, hi']
        · rw [inv.flatR, b]
        · exact inv.ne
        · exact inv.eqp
      · have hj' : st.j = s2.length := by omega
        refine ⟨st, by unfold rmLoop; rw [if_neg (by omega)], ?_⟩
        have hs : st.sign = .none := by
          cases h : st.sign with
          | none => rfl
          | l => have := (inv.l_ h).2.2.1; omega
          | r => have := (inv.r_ h).2.2.1; omega
        obtain ⟨a, b, _, _⟩ := inv.none_ hs
        refine ⟨?_, ?_, inv.ne, inv.eqp⟩
        · rw [inv.flatL, List.range_eq_range', ← a, hi']
        · rw [inv.flatR, List.range_eq_range', ← b, hj']

theorem groupSize_filter (s g : List Nat) : groupSize s (g.filter (fun i => s.getD i 1 != 1)) = groupSize s g := by
  unfold groupSize
  induction g with
  | nil => rfl
  | cons k g ih =>
    by_cases h : s.getD k 1 = 1
    · rw [List.filter_cons_of_neg (by simpa using h), List.map_cons, List.prod_cons, h, ih, Nat.one_mul]
    · rw [List.filter_cons_of_pos (by simpa using h), List.map_cons, List.prod_cons, List.map_cons,
        List.prod_cons, ih]

theorem rmNonOne_spec (s1 s2 : List Nat) (ml mr : List (List Nat))
    (h : List.Forall₂ (fun a b => groupSize s1 a = groupSize s2 b) ml mr) :
    ∀ e ∈ rmNonOne s1 s2 ml mr, e.1 ≠ [] ∧ e.2 ≠ [] ∧ groupSize s1 e.1 = groupSize s2 e.2 ∧
      (∃ a ∈ ml, e.1 = a.filter (fun i => s1.getD i 1 != 1)) ∧
      (∃ b ∈ mr, e.2 = b.filter (fun j => s2.getD j 1 != 1)) := by
  induction h with
  | nil => simp [rmNonOne]
  | @cons a b l l' hab _ ih =>
    intro e he
    unfold rmNonOne at he
    simp only at he
    have ih' : e ∈ rmNonOne s1 s2 l l' → (e.1 ≠ [] ∧ e.2 ≠ [] ∧ groupSize s1 e.1 = groupSize s2 e.2 ∧
        (∃ x ∈ a :: l, e.1 = x.filter (fun i => s1.getD i 1 != 1)) ∧
        (∃ x ∈ b :: l', e.2 = x.filter (fun j => s2.getD j 1 != 1))) := fun he => by
      obtain ⟨h1, h2, h3, ⟨x, hx, hx'⟩, ⟨y, hy, hy'⟩⟩ := ih e he
      exact ⟨h1, h2, h3, ⟨x, List.mem_cons_of_mem _ hx, hx'⟩, ⟨y, List.mem_cons_of_mem _ hy, hy'⟩⟩
    split at he
    · rename_i hpos
      rcases List.mem_cons.1 he with rfl | he
      · refine ⟨List.ne_nil_of_length_pos hpos.1, List.ne_nil_of_length_pos hpos.2, ?_,
          ⟨a, List.mem_cons_self, rfl⟩, ⟨b, List.mem_cons_self, rfl⟩⟩
        rw [groupSize_filter, groupSize_filter, hab]
      · exact ih' he
    · exact ih' he

/-- C07, for shapes of rank at least 1 (or both of rank 0).  For positive shapes with the same element
count the grouping never aborts; the groups are non-empty, cover all axes of both shapes in order,
and matching groups hold the same number of elements, also after dropping the size-1 axes.
Missing: one shape of rank 0 against one of rank ≥ 1, where the code raises (see below). -/
theorem C07_reshape_mapping_partial (s1 s2 : List Nat) (hp1 : ∀ d ∈ s1, 0 < d) (hp2 : ∀ d ∈ s2, 0 < d)
    (hprod : s1.prod = s2.prod) (hrank : s1 = [] ↔ s2 = []) :
    ∃ ml mr no, reshapeMapping s1 s2 = some (ml, mr, no) ∧
      ml.flatten = List.range s1.length ∧ mr.flatten = List.range s2.length ∧
      (∀ g ∈ ml, g ≠ []) ∧ (∀ g ∈ mr, g ≠ []) ∧
      List.Forall₂ (fun a b => groupSize s1 a = groupSize s2 b) ml mr ∧
      (∀ e ∈ no, e.1 ≠ [] ∧ e.2 ≠ [] ∧ groupSize s1 e.1 = groupSize s2 e.2) := by
  by_cases h0 : s1 = []
  · have h0' := hrank.1 h0
    subst h0; subst h0'
    exact ⟨[], [], [], rfl, by simp⟩
  · have h0' : s2 ≠ [] := fun h => h0 (hrank.2 h)
    have hl1 : 0 < s1.length := List.length_pos_of_ne_nil h0
    have hl2 : 0 < s2.length := List.length_pos_of_ne_nil h0'
    obtain ⟨st, h1, h2⟩ := rmLoop_spec s1 s2 hp1 hp2 (s1.length + s2.length)
      { i := 0, j := 0, accL := 1, startL := 0, accR := 1, startR := 0, mapL := [], mapR := [], sign := .none }
      (by simp)
      { il := by simp, jl := by simp, sl := by simp, sr := by simp, flatL := by simp, flatR := by simp,
        ne := by simp, eqp := List.Forall₂.nil
        rem := by
          show groupSize s1 (List.range' 0 (s1.length - 0)) = groupSize s2 (List.range' 0 (s2.length - 0))
          rw [Nat.sub_zero, Nat.sub_zero, groupSize_all, groupSize_all, hprod]
        pos := Or.inr ⟨hl1, hl2⟩, none_ := by simp, l_ := by intro h; simp at h, r_ := by intro h; simp at h }
    refine ⟨st.mapL, st.mapR, rmNonOne s1 s2 st.mapL st.mapR, ?_, h2.flatL, h2.flatR,
      fun g hg => h2.ne g (Or.inl hg), fun g hg => h2.ne g (Or.inr hg), h2.eqp, ?_⟩
    · unfold reshapeMapping; rw [h1]; rfl
    · intro e he
      have := rmNonOne_spec s1 s2 _ _ h2.eqp e he
      exact ⟨this.1, this.2.1, this.2.2.1⟩

example : reshapeMapping [2, 3, 4, 1, 5] [6, 2, 2, 5] =
    some ([[0, 1], [2], [3, 4]], [[0], [1, 2], [3]], [([0, 1], [0]), ([2], [1, 2]), ([4], [3])]) := by decide

/-- C07 is false for a rank-0 shape: reshaping a scalar to `[1]` (one element each) aborts. -/
theorem C07_scalar_false : ([] : List Nat).prod = [1].prod ∧ reshapeMapping [] [1] = none ∧
    reshapeMapping [1] [] = none := by decide

end Verif.Props
