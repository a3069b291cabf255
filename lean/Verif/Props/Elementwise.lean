import Verif.Model.Elementwise
import Verif.Lemmas.Tensor
import Mathlib.Tactic.Common
import Mathlib.Tactic.Ring
import Mathlib.Tactic.NormNum
import Mathlib.Analysis.Real.Sqrt

/-! C15 (removing a tile) and C16 (reciprocal square root). -/

namespace Verif.Props
open Verif.Model Verif.Spec Verif.Lemmas

/-! ### C15 -/

/-- On every axis, last first, the tiled element equals the broadcast element. -/
theorem tile_read_rev (s t m : List Nat) (out idx : List Nat) (hm : m.length = t.length)
    (h1 : bcRev s t = some out) (h2 : bcRev s (List.zipWith (· * ·) t m) = some out)
    (hb : List.Forall₂ (fun i d => i < d) idx out) :
    List.zipWith (fun i d => i % d) (List.zipWith (fun d i => if d = 1 then 0 else i) (List.zipWith (· * ·) t m) idx) t =
      List.zipWith (fun d i => if d = 1 then 0 else i) t idx := by
  induction t generalizing s m out idx with
  | nil => simp
  | cons b t ih =>
    cases m with
    | nil => simp at hm
    | cons k m =>
      have hm' : m.length = t.length := by simpa using hm
      cases idx with
      | nil => simp
      | cons i idx =>
        cases hb with
        | @cons _ d _ out' hi hb =>
          cases s with
          | nil =>
            simp only [bcRev, Option.some.injEq, List.zipWith_cons_cons, List.cons.injEq] at h1 h2
            obtain ⟨rfl, rfl⟩ := h1
            obtain ⟨h2a, h2b⟩ := h2
            have := ih [] m t idx hm' (by simp [bcRev]) (by simp [bcRev, h2b]) hb
            simp only [List.zipWith_cons_cons, this]
            congr 1
            rw [h2a]
            split
            · simp
            · exact Nat.mod_eq_of_lt hi
          | cons a s =>
            have hrec : ∀ (r1 : bcRev s t = some out') (r2 : bcRev s (List.zipWith (· * ·) t m) = some out'),
                List.zipWith (fun i d => i % d) (List.zipWith (fun d i => if d = 1 then 0 else i) (List.zipWith (· * ·) t m) idx) t =
                List.zipWith (fun d i => if d = 1 then 0 else i) t idx := fun r1 r2 => ih s m out' idx hm' r1 r2 hb
            have hx : ∀ (c : Nat) (u : List Nat), bcRev (a :: s) (c :: u) = some (d :: out') →
                bcRev s u = some out' ∧ ((a = c ∧ d = a) ∨ (a ≠ c ∧ a = 1 ∧ d = c) ∨ (a ≠ c ∧ a ≠ 1 ∧ c = 1 ∧ d = a)) := by
              intro c u h
              simp only [bcRev] at h
              split at h
              · rename_i hac
                simp only [Option.map_eq_some_iff, List.cons.injEq] at h
                obtain ⟨o, ho, rfl, rfl⟩ := h
                exact ⟨ho, Or.inl ⟨hac, rfl⟩⟩
              · rename_i hac
                split at h
                · rename_i ha1
                  simp only [Option.map_eq_some_iff, List.cons.injEq] at h
                  obtain ⟨o, ho, rfl, rfl⟩ := h
                  exact ⟨ho, Or.inr (Or.inl ⟨hac, ha1, rfl⟩)⟩
                · rename_i ha1
                  split at h
                  · rename_i hc1
                    simp only [Option.map_eq_some_iff, List.cons.injEq] at h
                    obtain ⟨o, ho, rfl, rfl⟩ := h
                    exact ⟨ho, Or.inr (Or.inr ⟨hac, ha1, hc1, rfl⟩)⟩
                  · simp at h
            obtain ⟨r1, c1⟩ := hx b t h1
            obtain ⟨r2, c2⟩ := hx (b * k) (List.zipWith (· * ·) t m) (by simpa using h2)
            simp only [List.zipWith_cons_cons, hrec r1 r2]
            congr 1
            by_cases hb1 : b = 1
            · subst hb1
              simp [Nat.mod_one]
            · rw [if_neg hb1]
              -- the tiled axis has the size of the output axis
              have hbd : b = d := by
                rcases c1 with ⟨h, h'⟩ | ⟨_, _, h⟩ | ⟨_, _, h, _⟩
                · omega
                · omega
                · exact absurd h hb1
              have hib : i < b := by omega
              split
              · rename_i hbk
                exact absurd (Nat.eq_one_of_mul_eq_one_right hbk) hb1
              · exact Nat.mod_eq_of_lt hib

/-- C15.  When the predicate lets the tile be removed, feeding the untiled tensor gives the same result — for
every elementwise operator, on either operand position, for all shapes, counts and values. -/
theorem C15_tile_removal {α β γ : Type} (f : α → β → γ) (a : Tensor α) (x : Tensor β) (m : List Nat) (r : Tensor γ)
    (hm : m.length = x.shape.length) (hr : elementwise f a (tile m x) = some r)
    (hok : tileRemovable a.shape x.shape r.shape = true) :
    ∃ r', elementwise f a x = some r' ∧ Same r' r := by
  unfold elementwise at hr ⊢
  rw [Option.map_eq_some_iff] at hr
  obtain ⟨s, hs, rfl⟩ := hr
  simp only [tileRemovable, beq_iff_eq] at hok
  refine ⟨⟨s, fun idx => f (bcGet a idx) (bcGet x idx)⟩, by simp [hok], rfl, ?_⟩
  intro idx hb
  simp only at hb ⊢
  congr 1
  unfold bcGet
  simp only [tile]
  congr 1
  unfold bcShape at hs hok
  rw [Option.map_eq_some_iff] at hs hok
  obtain ⟨o1, ho1, e1⟩ := hs
  obtain ⟨o2, ho2, e2⟩ := hok
  have e : o1 = o2 := List.reverse_injective (e1.trans e2.symm)
  subst e
  have hb' : List.Forall₂ (fun i d => i < d) idx.reverse o1 := by
    have := List.rel_reverse hb
    rwa [← e1, List.reverse_reverse] at this
  have hz : (List.zipWith (· * ·) x.shape m).reverse = List.zipWith (· * ·) x.shape.reverse m.reverse := by
    exact List.reverse_zipWith hm.symm
  have key := tile_read_rev a.shape.reverse x.shape.reverse m.reverse o1 idx.reverse (by simp [hm]) ho2
    (by rw [← hz]; exact ho1) hb'
  simp only [tile] at ho1
  rw [hz, ← List.reverse_inj]
  rw [List.reverse_reverse, List.reverse_zipWith, List.reverse_reverse, key]
  have hlen : x.shape.reverse.length ≤ idx.reverse.length := by
    have h1 := hb'.length_eq
    rw [h1]
    have : ∀ (s t o : List Nat), bcRev s t = some o → t.length ≤ o.length := by
      intro s
      induction s with
      | nil => intro t o h; simp [bcRev] at h; simp [h]
      | cons c s ih =>
        intro t o h
        cases t with
        | nil => simp
        | cons b t =>
          simp only [bcRev] at h
          split at h
          · rw [Option.map_eq_some_iff] at h
            obtain ⟨q, hq, rfl⟩ := h
            have := ih t q hq; simp; omega
          · split at h
            · rw [Option.map_eq_some_iff] at h
              obtain ⟨q, hq, rfl⟩ := h
              have := ih t q hq; simp; omega
            · split at h
              · rw [Option.map_eq_some_iff] at h
                obtain ⟨q, hq, rfl⟩ := h
                have := ih t q hq; simp; omega
              · simp at h
    exact this _ _ _ ho2
  simp at hlen ⊢
  omega

/-- The same with the tile as the left operand. -/
theorem C15_tile_removal_left {α β γ : Type} (f : β → α → γ) (a : Tensor α) (x : Tensor β) (m : List Nat) (r : Tensor γ)
    (hm : m.length = x.shape.length) (hr : elementwise f (tile m x) a = some r)
    (hok : tileRemovable a.shape x.shape r.shape = true) :
    ∃ r', elementwise f x a = some r' ∧ Same r' r := by
  have hcomm : ∀ s t : List Nat, bcRev s t = bcRev t s := by
    intro s
    induction s with
    | nil => intro t; cases t <;> rfl
    | cons c s ih =>
      intro t
      cases t with
      | nil => rfl
      | cons b t =>
        simp only [bcRev]
        rw [ih t]
        by_cases h : c = b
        · subst h; simp
        · have h' : ¬ b = c := fun e => h e.symm
          simp only [h, h', if_false]
          by_cases hc : c = 1
          · subst hc
            by_cases hb : b = 1
            · exact absurd hb.symm h
            · simp [hb]
          · by_cases hb : b = 1 <;> simp [hc, hb]
  have hswap : ∀ (u : Tensor β), elementwise f u a = elementwise (fun p q => f q p) a u := by
    intro u
    unfold elementwise bcShape
    rw [hcomm]
  rw [hswap] at hr ⊢
  exact C15_tile_removal (fun p q => f q p) a x m r hm hr hok

/-- A case that is accepted and one that is not. -/
example : tileRemovable [2, 3, 4] [1, 4] [2, 3, 4] = true ∧ tileRemovable [2, 1, 4] [1, 4] [2, 3, 4] = false ∧
    (tile [3, 1] (⟨[1, 4], fun i => i⟩ : Tensor (List Nat))).shape = [3, 4] := by decide

/-! ### C16 -/

/-- C16, partial: with the square root as divisor the rewritten operators compute the same tensor.  For a numerator that is
a constant full of ones, the division may be dropped when it does not broadcast.  Missing: the square root as
numerator (`C16_numerator_false`) and a numerator of ones that broadcasts (`C16_ones_shape_false`); the predicate
accepts both. -/
theorem C16_rsqrt_partial (x y r : Tensor ℝ) (onesConst : Bool)
    (hones : onesConst = true → (∀ idx, y.get idx = 1) ∧ r.shape = x.shape)
    (hr : sqrtDiv .divisor x y = some r) :
    ∃ r', fuseRsqrt .divisor onesConst x y = some r' ∧ Same r' r := by
  unfold sqrtDiv elementwise at hr
  rw [Option.map_eq_some_iff] at hr
  obtain ⟨s, hs, rfl⟩ := hr
  unfold fuseRsqrt
  by_cases ho : onesConst = true
  · obtain ⟨h1, h2⟩ := hones ho
    simp only [ho, if_true]
    refine ⟨_, rfl, h2.symm, ?_⟩
    intro idx hb
    simp only [mapT] at hb ⊢
    unfold bcGet
    rw [h1]
    simp only [mapT]
    congr 3
    -- no broadcasting: the index is read back unchanged
    have hl := inBounds_length hb
    have hall := ((inBounds_iff _ _).1 hb).2
    symm
    rw [List.reverse_eq_iff]
    apply ext_getD (by simp; omega)
    intro k hk
    have hk' : k < x.shape.length := by simp at hk; omega
    have e1 : (List.zipWith (fun d i => if d = 1 then 0 else i) x.shape.reverse idx.reverse).getD k 0 =
        if x.shape.reverse.getD k 0 = 1 then 0 else idx.reverse.getD k 0 := by
      rw [getD_eq_getElem (List.zipWith _ _ _) _ _ (by simp; omega), getD_eq_getElem x.shape.reverse _ _ (by simp; omega),
        getD_eq_getElem idx.reverse _ _ (by simp; omega)]
      simp
    rw [e1]
    split
    · rename_i h0
      have e2 : x.shape.reverse.getD k 0 = x.shape.getD (x.shape.length - 1 - k) 0 := by
        rw [getD_eq_getElem _ _ _ (by simp; omega), getD_eq_getElem _ _ _ (by omega)]; simp
      have e3 : idx.reverse.getD k 0 = idx.getD (idx.length - 1 - k) 0 := by
        rw [getD_eq_getElem _ _ _ (by simp; omega), getD_eq_getElem _ _ _ (by omega)]; simp
      have := hall (x.shape.length - 1 - k) (by omega)
      rw [← e2, h0] at this
      rw [e3, hl]
      omega
    · rfl
  · rw [Bool.not_eq_true] at ho
    simp only [ho]
    have hs' : bcShape y.shape x.shape = some s := hs
    refine ⟨⟨s, fun idx => bcGet y idx * bcGet (mapT (fun v => 1 / Real.sqrt v) x) idx⟩, by simp [elementwise, mapT, hs'], rfl, ?_⟩
    intro idx _
    simp only [bcGet, mapT]
    rw [mul_one_div]

example : ∃ x y r : Tensor ℝ, sqrtDiv .divisor x y = some r ∧ r.shape = [2, 3] ∧ x.shape = [3] :=
  ⟨⟨[3], fun _ => 4⟩, ⟨[2, 3], fun _ => 5⟩, _, rfl, rfl, rfl⟩

/-- C16 is false when the square root is the numerator: `sqrt(1) / 2 = 1/2` becomes `rsqrt(1) * 2 = 2`. -/
theorem C16_numerator_false : ∃ x y r r' : Tensor ℝ, sqrtDiv .numerator x y = some r ∧
    fuseRsqrt .numerator false x y = some r' ∧ ¬ Same r' r := by
  refine ⟨⟨[1], fun _ => 1⟩, ⟨[1], fun _ => 2⟩, _, _, rfl, rfl, ?_⟩
  rintro ⟨_, h⟩
  have := h [0] (by simp [InBounds, mapT, bcShape, bcRev])
  simp [bcGet, mapT] at this
  norm_num at this

/-- C16 is false when the numerator of ones broadcasts: `ones(3, 4) / sqrt(x)` with `x` of shape (4) has shape (3, 4),
the RSQRT that replaces it has shape (4). -/
theorem C16_ones_shape_false : ∃ x y r r' : Tensor ℝ, (∀ idx, y.get idx = 1) ∧ sqrtDiv .divisor x y = some r ∧
    fuseRsqrt .divisor true x y = some r' ∧ r'.shape ≠ r.shape := by
  refine ⟨⟨[4], fun _ => 1⟩, ⟨[3, 4], fun _ => 1⟩, _, _, fun _ => rfl, rfl, rfl, by simp [mapT]⟩

end Verif.Props
