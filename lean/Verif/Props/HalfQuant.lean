import Verif.Model.HalfQuant
import Mathlib.Data.List.Nodup
import Mathlib.Data.Int.Log
import Mathlib.Data.Rat.Floor
import Mathlib.Tactic.Ring
import Mathlib.Tactic.Linarith
import Mathlib.Tactic.NormNum
import Mathlib.Tactic.FieldSimp
import Mathlib.Tactic.Positivity

/-!
C102: storing constants in half precision changes each constant by a rounding error and nothing else.
-/

namespace Verif.Props
open Verif.Spec Verif.Spec.Half Verif.Model.HalfQuant

/-- A constant that half precision can hold changes by at most a part in 2048, or by `2^-25` if it is very small. -/
theorem C102_error {x : ℚ} {y : FVal} (h : RoundsTo x y) (hx : |x| < 65520) :
    ∃ q, y = .fin q ∧ (|q - x| ≤ |x| / 2048 ∨ |q - x| ≤ 1 / 33554432) := by
  rcases h with ⟨h, _⟩ | ⟨_, e, m, _, _, hlo, hm, _, hy⟩
  · exact absurd hx (not_lt.2 h)
  refine ⟨_, hy, ?_⟩
  have hpos : (0 : ℚ) < (2 : ℚ) ^ e := zpow_pos (by norm_num) e
  have hd : |m * (2 : ℚ) ^ e - x| ≤ 1 / 2 * (2 : ℚ) ^ e := by
    have e1 : m * (2 : ℚ) ^ e - x = -((x / (2 : ℚ) ^ e - m) * (2 : ℚ) ^ e) := by
      field_simp
      ring
    rw [e1, abs_neg, abs_mul, abs_of_pos hpos]
    exact mul_le_mul_of_nonneg_right hm hpos.le
  rcases hlo with hlo | hlo
  · right
    rw [hlo] at hd ⊢
    refine hd.trans ?_
    norm_num
  · left
    refine hd.trans ?_
    have : (2 : ℚ) ^ (10 : ℕ) = 1024 := by norm_num
    rw [this] at hlo
    linarith

/-- A constant of 65520 or more becomes infinite. -/
theorem C102_overflow_false : ∃ x : ℚ, ∀ y, RoundsTo x y → y = .inf false := by
  refine ⟨65520, fun y h => ?_⟩
  rcases h with ⟨_, h⟩ | ⟨h, _⟩
  · rw [h]
    norm_num
  · exfalso
    norm_num at h

/-- Rounding to the nearest integer, ties to even. -/
def roundEven (r : ℚ) : ℤ := if r - ⌊r⌋ < 1 / 2 then ⌊r⌋ else if 1 / 2 < r - ⌊r⌋ then ⌊r⌋ + 1 else if ⌊r⌋ % 2 = 0 then ⌊r⌋ else ⌊r⌋ + 1

theorem roundEven_spec (r : ℚ) : |r - roundEven r| ≤ 1 / 2 ∧ (|r - roundEven r| = 1 / 2 → Even (roundEven r)) := by
  have h0 := Int.floor_le r
  have h1 := Int.lt_floor_add_one r
  unfold roundEven
  by_cases ha : r - ⌊r⌋ < 1 / 2
  · rw [if_pos ha, abs_of_nonneg (by linarith)]
    exact ⟨by linarith, fun h => by linarith⟩
  · rw [if_neg ha]
    by_cases hb : 1 / 2 < r - ⌊r⌋
    · rw [if_pos hb]
      push_cast
      rw [abs_of_neg (by linarith)]
      exact ⟨by linarith, fun h => by linarith⟩
    · rw [if_neg hb]
      have he : r - ⌊r⌋ = 1 / 2 := le_antisymm (not_lt.1 hb) (not_lt.1 ha)
      by_cases hc : ⌊r⌋ % 2 = 0
      · rw [if_pos hc, he]
        exact ⟨by norm_num, fun _ => Int.even_iff.2 hc⟩
      · rw [if_neg hc]
        push_cast
        have : r - (⌊r⌋ + 1) = -(1 / 2) := by linarith
        rw [this]
        refine ⟨by norm_num, fun _ => ?_⟩
        rw [Int.even_iff]
        omega

/-- Half precision exists: every rational has a rounding. -/
theorem half_exists (x : ℚ) : ∃ y, RoundsTo x y := by
  by_cases hx : 65520 ≤ |x|
  · exact ⟨_, .inl ⟨hx, rfl⟩⟩
  · have hx' := not_le.1 hx
    by_cases h0 : |x| < (2 : ℚ) ^ (11 : ℕ) * (2 : ℚ) ^ (-24 : ℤ)
    · obtain ⟨h1, h2⟩ := roundEven_spec (x / (2 : ℚ) ^ (-24 : ℤ))
      exact ⟨_, .inr ⟨hx', -24, _, le_refl _, h0, .inl rfl, h1, h2, rfl⟩⟩
    · have hpos : 0 < |x| := lt_of_lt_of_le (by positivity) (not_lt.1 h0)
      have l1 := Int.zpow_log_le_self (b := 2) (r := |x|) (by norm_num) hpos
      have l2 := Int.lt_zpow_succ_log_self (b := 2) (by norm_num) |x|
      have hl : -13 ≤ Int.log 2 |x| := by
        by_contra hc
        have hc' : Int.log 2 |x| + 1 ≤ -13 := by omega
        have : (2 : ℚ) ^ (Int.log 2 |x| + 1) ≤ (2 : ℚ) ^ (-13 : ℤ) := zpow_le_zpow_right₀ (by norm_num) hc'
        have e : (2 : ℚ) ^ (11 : ℕ) * (2 : ℚ) ^ (-24 : ℤ) = (2 : ℚ) ^ (-13 : ℤ) := by norm_num
        push_cast at l2
        rw [e] at h0
        exact h0 (lt_of_lt_of_le l2 this)
      obtain ⟨h1, h2⟩ := roundEven_spec (x / (2 : ℚ) ^ (Int.log 2 |x| - 10))
      push_cast at l1 l2
      have e10 : (2 : ℚ) ^ (10 : ℕ) * (2 : ℚ) ^ (Int.log 2 |x| - 10) = (2 : ℚ) ^ Int.log 2 |x| := by
        rw [← zpow_natCast, ← zpow_add₀ (by norm_num)]
        congr 1
        push_cast
        ring
      have e11 : (2 : ℚ) ^ (11 : ℕ) * (2 : ℚ) ^ (Int.log 2 |x| - 10) = (2 : ℚ) ^ (Int.log 2 |x| + 1) := by
        rw [← zpow_natCast, ← zpow_add₀ (by norm_num)]
        congr 1
        push_cast
        ring
      exact ⟨_, .inr ⟨hx', _, _, by omega, by rw [e11]; exact l2, .inr (by rw [e10]; exact l1), h1, h2, rfl⟩⟩

example : RoundsTo (1 / 3) (.fin (1365 / 4096)) :=
  .inr ⟨by norm_num, -12, 1365, by norm_num, by norm_num, .inr (by norm_num), by norm_num, by norm_num, by norm_num⟩

variable {κ V : Type}

/-- The selected constants with their numbers. -/
def numbered : ℕ → List (Const V) → List (ℕ × Const V)
  | _, [] => []
  | k, c :: cs => if c.dtype = .f32 then (k, c) :: numbered (k + 1) cs else numbered k cs

theorem numbered_mem {k : ℕ} {cs : List (Const V)} {p : ℕ × Const V} (h : p ∈ numbered k cs) : k ≤ p.1 ∧ p.2 ∈ cs ∧ p.2.dtype = .f32 := by
  induction cs generalizing k with
  | nil => simp [numbered] at h
  | cons c cs ih =>
    unfold numbered at h
    by_cases hc : c.dtype = .f32
    · rw [if_pos hc] at h
      rcases List.mem_cons.1 h with rfl | h
      · exact ⟨le_refl _, by simp, hc⟩
      · obtain ⟨a, b, d⟩ := ih h
        exact ⟨by omega, by simp [b], d⟩
    · rw [if_neg hc] at h
      obtain ⟨a, b, d⟩ := ih h
      exact ⟨a, by simp [b], d⟩

theorem numbered_of_mem {k : ℕ} {cs : List (Const V)} {c : Const V} (h : c ∈ cs) (hf : c.dtype = .f32) : ∃ i, (i, c) ∈ numbered k cs := by
  induction cs generalizing k with
  | nil => simp at h
  | cons d cs ih =>
    unfold numbered
    rcases List.mem_cons.1 h with rfl | h
    · rw [if_pos hf]
      exact ⟨k, by simp⟩
    · by_cases hc : d.dtype = .f32
      · rw [if_pos hc]
        obtain ⟨i, hi⟩ := ih (k := k + 1) h
        exact ⟨i, by simp [hi]⟩
      · rw [if_neg hc]
        exact ih h

theorem constNumbered_inj {k : ℕ} {cs : List (Const V)} {i : ℕ} {c d : Const V} (h : (i, c) ∈ numbered k cs) (h' : (i, d) ∈ numbered k cs) : c = d := by
  induction cs generalizing k with
  | nil => simp [numbered] at h
  | cons e cs ih =>
    unfold numbered at h h'
    by_cases hc : e.dtype = .f32
    · rw [if_pos hc] at h h'
      rcases List.mem_cons.1 h with h | h <;> rcases List.mem_cons.1 h' with h' | h'
      · rw [Prod.mk.injEq] at h h'
        rw [h.2, h'.2]
      · have := (numbered_mem h').1
        rw [Prod.mk.injEq] at h
        have h1 := h.1
        simp only at this
        omega
      · have := (numbered_mem h).1
        rw [Prod.mk.injEq] at h'
        have h1 := h'.1
        simp only at this
        omega
      · exact ih h h'
    · rw [if_neg hc] at h h'
      exact ih h h'

/-- The name an operator reads after the pass. -/
def readName (trans : ℕ → String) (ps : List (ℕ × Const V)) (n : String) : String :=
  match ps.find? (fun p => p.2.name = n) with
  | some p => trans p.1
  | none => n

/-- New names are new and different from each other. -/
structure FreshNames (attr trans : ℕ → String) (g : Net (Option κ) V) : Prop where
  attrInj : ∀ i j, attr i = attr j → i = j
  transInj : ∀ i j, trans i = trans j → i = j
  apart : ∀ i j, attr i ≠ trans j
  consts : ∀ c ∈ g.consts, ∀ i, c.name ≠ attr i ∧ c.name ≠ trans i
  ops : ∀ o ∈ g.ops, ∀ n, n ∈ o.inputs ∨ n ∈ o.outputs → ∀ i, n ≠ attr i ∧ n ≠ trans i

/-- Every constant has its own name and no operator writes one. -/
structure WellFormed (g : Net (Option κ) V) : Prop where
  nodup : (g.consts.map Const.name).Nodup
  ops : ∀ o ∈ g.ops, ∀ n ∈ o.outputs, n ∉ g.consts.map Const.name

theorem loop_eq (half : V → V) (attr trans : ℕ → String) : ∀ (cs : List (Const V)) (k : ℕ) (g : Net (Option κ) V),
    (∀ c ∈ cs, ∀ i, c.name ≠ attr i ∧ c.name ≠ trans i) →
    (quantizeLoop half attr trans k cs g).consts = g.consts ++ (numbered k cs).map (fun p => ⟨attr p.1, .f16, half p.2.data⟩) ∧
    (quantizeLoop half attr trans k cs g).ops = g.ops.map (fun o => { o with inputs := o.inputs.map (readName trans (numbered k cs)) }) ++
      (numbered k cs).map (fun p => ⟨none, [attr p.1], [trans p.1]⟩) ∧
    (quantizeLoop half attr trans k cs g).outputs = g.outputs
  | [], k, g, _ => by
    refine ⟨by simp [quantizeLoop, numbered], ?_, rfl⟩
    have : (readName trans ([] : List (ℕ × Const V))) = id := by
      funext n
      simp [readName]
    simp [quantizeLoop, numbered, this]
  | c :: cs, k, g, hf => by
    by_cases hc : c.dtype = .f32
    · have en : numbered k (c :: cs) = (k, c) :: numbered (k + 1) cs := by rw [numbered, if_pos hc]
      have el : quantizeLoop half attr trans k (c :: cs) g = quantizeLoop half attr trans (k + 1) cs (quantizeOne half attr trans k c g) := by
        rw [quantizeLoop, if_pos hc]
      obtain ⟨h1, h2, h3⟩ := loop_eq half attr trans cs (k + 1) (quantizeOne half attr trans k c g) fun d hd => hf d (by simp [hd])
      have hnot : ∀ i, (numbered (k + 1) cs).find? (fun p => p.2.name = trans i) = none ∧ (numbered (k + 1) cs).find? (fun p => p.2.name = attr i) = none := by
        intro i
        rw [List.find?_eq_none, List.find?_eq_none]
        exact ⟨fun p hp => by simpa using (hf p.2 (by simp [(numbered_mem hp).2.1]) i).2, fun p hp => by simpa using (hf p.2 (by simp [(numbered_mem hp).2.1]) i).1⟩
      rw [el, en]
      refine ⟨?_, ?_, ?_⟩
      · rw [h1]
        simp [quantizeOne]
      · rw [h2]
        unfold quantizeOne
        simp only [List.map_append, List.map_map, List.map_cons, List.map_nil, List.append_assoc, List.singleton_append]
        congr 1
        · apply List.map_congr_left
          intro o _
          simp only [Function.comp, rewire, List.map_map]
          congr 1
          apply List.map_congr_left
          intro n _
          simp only [Function.comp]
          by_cases hn : n = c.name
          · subst hn
            rw [if_pos rfl]
            unfold readName
            rw [(hnot k).1, List.find?_cons_of_pos (by simp)]
          · rw [if_neg hn]
            unfold readName
            rw [List.find?_cons_of_neg (by simpa using fun h => hn h.symm)]
        · congr 1
          have : readName trans (numbered (k + 1) cs) (attr k) = attr k := by
            unfold readName
            rw [(hnot k).2]
          rw [this]
      · rw [h3]
        rfl
    · have en : numbered k (c :: cs) = numbered k cs := by rw [numbered, if_neg hc]
      have el : quantizeLoop half attr trans k (c :: cs) g = quantizeLoop half attr trans k cs g := by rw [quantizeLoop, if_neg hc]
      rw [en, el]
      exact loop_eq half attr trans cs k g fun d hd => hf d (by simp [hd])

theorem const_unique {g : Net (Option κ) V} (hw : WellFormed g) {c d : Const V} (hc : c ∈ g.consts) (hd : d ∈ g.consts) (h : c.name = d.name) : c = d :=
  List.inj_on_of_nodup_map hw.nodup hc hd h

open Classical in
/-- Every value of the network with rounded constants is a value of the network with half-precision constants, and the other way round: the two compute the same. -/
theorem C102_network (half : V → V) (sem : Option κ → List V → List V) (hs : ∀ x, sem none [x] = [x]) (attr trans : ℕ → String) (g : Net (Option κ) V)
    (hw : WellFormed g) (hf : FreshNames attr trans g) :
    (∀ v', Solves sem (quantize half attr trans g) v' → ∃ v, Solves sem (roundConsts half g) v ∧ ∀ n, n ∉ g.consts.map Const.name → v n = v' n) ∧
    (∀ v, Solves sem (roundConsts half g) v → ∃ v', Solves sem (quantize half attr trans g) v' ∧
      ∀ n, n ∉ floatNames g → (∀ i, n ≠ attr i ∧ n ≠ trans i) → v' n = v n) := by
  obtain ⟨h1, h2, h3⟩ := loop_eq half attr trans g.consts 0 g hf.consts
  have hcc : ∀ c, c ∈ (quantize half attr trans g).consts → c ∈ g.consts ∨ ∃ p ∈ numbered 0 g.consts, c = ⟨attr p.1, .f16, half p.2.data⟩ := by
    intro c hc
    have := (List.mem_filter.1 hc).1
    rw [h1, List.mem_append] at this
    rcases this with h | h
    · exact .inl h
    · obtain ⟨p, hp, e⟩ := List.mem_map.1 h
      exact .inr ⟨p, hp, e.symm⟩
  have hops : (quantize half attr trans g).ops = g.ops.map (fun o => { o with inputs := o.inputs.map (readName trans (numbered 0 g.consts)) }) ++
      (numbered 0 g.consts).map (fun p => ⟨none, [attr p.1], [trans p.1]⟩) := h2
  constructor
  · intro v' ⟨hv1, hv2⟩
    -- the converted constants have the rounded values
    have htr : ∀ p ∈ numbered 0 g.consts, v' (trans p.1) = half p.2.data := by
      intro p hp
      have ho := hv2 ⟨none, [attr p.1], [trans p.1]⟩ (by rw [hops]; exact List.mem_append_right _ (List.mem_map.2 ⟨p, hp, rfl⟩))
      simp only [List.map_cons, List.map_nil, hs, List.cons.injEq, and_true] at ho
      rw [ho]
      refine hv1 ⟨attr p.1, .f16, half p.2.data⟩ ?_
      refine List.mem_filter.2 ⟨?_, ?_⟩
      · rw [h1]
        exact List.mem_append_right _ (List.mem_map.2 ⟨p, hp, rfl⟩)
      · rw [Bool.or_eq_true]
        left
        rw [List.any_eq_true]
        refine ⟨⟨none, [attr p.1], [trans p.1]⟩, ?_, by simp⟩
        rw [h2]
        exact List.mem_append_right _ (List.mem_map.2 ⟨p, hp, rfl⟩)
    let v : String → V := fun n => if h : ∃ c ∈ (roundConsts half g).consts, c.name = n then (Classical.choose h).data else v' n
    have hvc : ∀ c ∈ g.consts, v c.name = if c.dtype = .f32 then half c.data else c.data := by
      intro c hc
      have hex : ∃ d ∈ (roundConsts half g).consts, d.name = c.name := by
        refine ⟨_, List.mem_map.2 ⟨c, hc, rfl⟩, ?_⟩
        split <;> rfl
      simp only [v]
      rw [dif_pos hex]
      obtain ⟨hd, he⟩ := Classical.choose_spec hex
      obtain ⟨d, hdg, hde⟩ := List.mem_map.1 hd
      have hn : d.name = c.name := by
        rw [← he, ← hde]
        split <;> rfl
      have := const_unique hw hdg hc hn
      subst this
      rw [← hde]
      split <;> rfl
    have hvn : ∀ n, n ∉ g.consts.map Const.name → v n = v' n := by
      intro n hn
      simp only [v]
      rw [dif_neg]
      rintro ⟨c, hc, rfl⟩
      obtain ⟨d, hdg, hde⟩ := List.mem_map.1 hc
      apply hn
      refine List.mem_map.2 ⟨d, hdg, ?_⟩
      rw [← hde]
      split <;> rfl
    refine ⟨v, ⟨?_, ?_⟩, hvn⟩
    · intro c hc
      obtain ⟨d, hdg, hde⟩ := List.mem_map.1 hc
      have := hvc d hdg
      rw [← hde]
      by_cases hd : d.dtype = .f32
      · rw [if_pos hd] at this ⊢
        exact this
      · rw [if_neg hd] at this ⊢
        exact this
    · intro o ho
      have hmem : ({ o with inputs := o.inputs.map (readName trans (numbered 0 g.consts)) } : Op (Option κ)) ∈ (quantize half attr trans g).ops := by
        rw [hops]
        exact List.mem_append_left _ (List.mem_map.2 ⟨o, ho, rfl⟩)
      have hq := hv2 _ hmem
      simp only at hq
      have eo : o.outputs.map v = o.outputs.map v' := List.map_congr_left fun n hn => hvn n (hw.ops o ho n hn)
      rw [eo, hq, List.map_map]
      congr 1
      apply List.map_congr_left
      intro n hn
      simp only [Function.comp]
      unfold readName
      cases hfd : (numbered 0 g.consts).find? (fun p => p.2.name = n) with
      | some p =>
        have hp := List.mem_of_find?_eq_some hfd
        have hpn : p.2.name = n := by simpa using List.find?_some hfd
        have hm := numbered_mem hp
        simp only
        rw [htr p hp, ← hpn, hvc p.2 hm.2.1, if_pos hm.2.2]
      | none =>
        simp only
        by_cases hc : ∃ c ∈ g.consts, c.name = n
        · obtain ⟨c, hc, hcn⟩ := hc
          have hnf : c.dtype ≠ .f32 := by
            intro hd
            obtain ⟨i, hi⟩ := numbered_of_mem (k := 0) hc hd
            have := List.find?_eq_none.1 hfd _ hi
            simp [hcn] at this
          have hk : c ∈ (quantize half attr trans g).consts := by
            refine List.mem_filter.2 ⟨by rw [h1]; exact List.mem_append_left _ hc, ?_⟩
            rw [Bool.or_eq_true]
            left
            rw [List.any_eq_true]
            refine ⟨{ o with inputs := o.inputs.map (readName trans (numbered 0 g.consts)) }, hmem, ?_⟩
            simp only [List.contains_eq_mem, decide_eq_true_eq, List.mem_map]
            refine ⟨n, hn, ?_⟩
            unfold readName
            rw [hfd, hcn]
          rw [← hcn, hv1 c hk, hvc c hc, if_neg hnf]
        · exact (hvn n (by
            intro hm
            obtain ⟨c, h, e⟩ := List.mem_map.1 hm
            exact hc ⟨c, h, e⟩)).symm
  · intro v ⟨hv1, hv2⟩
    let v' : String → V := fun n =>
      if h : ∃ p ∈ numbered 0 g.consts, n = attr p.1 ∨ n = trans p.1 then half (Classical.choose h).2.data
      else if h : ∃ c ∈ g.consts, c.dtype = .f32 ∧ c.name = n then (Classical.choose h).data else v n
    have hnew : ∀ p ∈ numbered 0 g.consts, v' (attr p.1) = half p.2.data ∧ v' (trans p.1) = half p.2.data := by
      intro p hp
      have ha : ∃ q ∈ numbered 0 g.consts, attr p.1 = attr q.1 ∨ attr p.1 = trans q.1 := ⟨p, hp, .inl rfl⟩
      have ht : ∃ q ∈ numbered 0 g.consts, trans p.1 = attr q.1 ∨ trans p.1 = trans q.1 := ⟨p, hp, .inr rfl⟩
      have same : ∀ q ∈ numbered 0 g.consts, p.1 = q.1 → q.2 = p.2 := by
        intro q hq e
        apply constNumbered_inj (i := p.1) (k := 0) (cs := g.consts)
        · rw [e]
          exact hq
        · exact hp
      constructor
      · simp only [v']
        rw [dif_pos ha]
        obtain ⟨hq, hor⟩ := Classical.choose_spec ha
        rcases hor with h | h
        · rw [same _ hq (hf.attrInj _ _ h)]
        · exact absurd h (hf.apart _ _)
      · simp only [v']
        rw [dif_pos ht]
        obtain ⟨hq, hor⟩ := Classical.choose_spec ht
        rcases hor with h | h
        · exact absurd h.symm (hf.apart _ _)
        · rw [same _ hq (hf.transInj _ _ h)]
    have hold : ∀ n, (∀ i, n ≠ attr i ∧ n ≠ trans i) → n ∉ floatNames g → v' n = v n := by
      intro n hn hfn
      simp only [v']
      rw [dif_neg, dif_neg]
      · rintro ⟨c, hc, hd, e⟩
        exact hfn (List.mem_map.2 ⟨c, List.mem_filter.2 ⟨hc, by simpa using hd⟩, e⟩)
      · rintro ⟨p, _, h | h⟩
        · exact (hn p.1).1 h
        · exact (hn p.1).2 h
    have hfl : ∀ c ∈ g.consts, c.dtype = .f32 → v' c.name = c.data := by
      intro c hc hd
      have hex : ∃ d ∈ g.consts, d.dtype = .f32 ∧ d.name = c.name := ⟨c, hc, hd, rfl⟩
      simp only [v']
      rw [dif_neg, dif_pos hex]
      · obtain ⟨hm, _, he⟩ := Classical.choose_spec hex
        rw [const_unique hw hm hc he]
      · rintro ⟨p, _, h | h⟩
        · exact (hf.consts c hc p.1).1 h
        · exact (hf.consts c hc p.1).2 h
    have hnfn : ∀ c ∈ g.consts, c.dtype ≠ .f32 → c.name ∉ floatNames g := by
      intro c hc hd hm
      obtain ⟨d, hdm, e⟩ := List.mem_map.1 hm
      obtain ⟨hdg, hdd⟩ := List.mem_filter.1 hdm
      have := const_unique hw hdg hc e
      subst this
      exact hd (by simpa using hdd)
    refine ⟨v', ⟨?_, ?_⟩, fun n h1 h2 => hold n h2 h1⟩
    · intro c hc
      rcases hcc c hc with h | ⟨p, hp, rfl⟩
      · by_cases hd : c.dtype = .f32
        · exact hfl c h hd
        · rw [hold c.name (hf.consts c h) (hnfn c h hd)]
          have := hv1 c (List.mem_map.2 ⟨c, h, by rw [if_neg hd]⟩)
          exact this
      · exact (hnew p hp).1
    · intro o ho
      rw [hops] at ho
      rcases List.mem_append.1 ho with ho | ho
      · obtain ⟨o, hog, rfl⟩ := List.mem_map.1 ho
        simp only
        have eo : o.outputs.map v' = o.outputs.map v := by
          apply List.map_congr_left
          intro n hn
          apply hold n (hf.ops o hog n (.inr hn))
          intro hm
          obtain ⟨d, hdm, e⟩ := List.mem_map.1 hm
          exact hw.ops o hog n hn (List.mem_map.2 ⟨d, (List.mem_filter.1 hdm).1, e⟩)
        rw [eo, hv2 o hog, List.map_map]
        congr 1
        apply List.map_congr_left
        intro n hn
        simp only [Function.comp]
        unfold readName
        cases hfd : (numbered 0 g.consts).find? (fun p => p.2.name = n) with
        | some p =>
          have hp := List.mem_of_find?_eq_some hfd
          have hpn : p.2.name = n := by simpa using List.find?_some hfd
          have hm := numbered_mem hp
          simp only
          rw [(hnew p hp).2, ← hpn]
          have := hv1 { p.2 with data := half p.2.data } (List.mem_map.2 ⟨p.2, hm.2.1, by rw [if_pos hm.2.2]⟩)
          exact this
        | none =>
          simp only
          rw [hold n (hf.ops o hog n (.inl hn))]
          intro hm
          obtain ⟨d, hdm, e⟩ := List.mem_map.1 hm
          obtain ⟨hdg, hdd⟩ := List.mem_filter.1 hdm
          obtain ⟨i, hi⟩ := numbered_of_mem (k := 0) hdg (by simpa using hdd)
          have := List.find?_eq_none.1 hfd _ hi
          simp [e] at this
      · obtain ⟨p, hp, rfl⟩ := List.mem_map.1 ho
        simp only [List.map_cons, List.map_nil, hs, (hnew p hp).1, (hnew p hp).2]

/-- No operator reads a float32 constant any more. -/
theorem C102_all (half : V → V) (attr trans : ℕ → String) (g : Net (Option κ) V) (hw : WellFormed g) (hf : FreshNames attr trans g)
    (o : Op (Option κ)) (ho : o ∈ (quantize half attr trans g).ops) (n : String) (hn : n ∈ o.inputs) : n ∉ floatNames g := by
  obtain ⟨h1, h2, h3⟩ := loop_eq half attr trans g.consts 0 g hf.consts
  intro hm
  obtain ⟨d, hdm, e⟩ := List.mem_map.1 hm
  obtain ⟨hdg, hdd⟩ := List.mem_filter.1 hdm
  have ho' : o ∈ (quantizeLoop half attr trans 0 g.consts g).ops := ho
  rw [h2] at ho'
  rcases List.mem_append.1 ho' with ho | ho
  · obtain ⟨o, hog, rfl⟩ := List.mem_map.1 ho
    obtain ⟨n', hn', e'⟩ := List.mem_map.1 hn
    unfold readName at e'
    cases hfd : (numbered 0 g.consts).find? (fun p => p.2.name = n') with
    | some p =>
      rw [hfd] at e'
      exact (hf.consts d hdg p.1).2 (by rw [e, ← e'])
    | none =>
      rw [hfd] at e'
      simp only at e'
      obtain ⟨i, hi⟩ := numbered_of_mem (k := 0) hdg (by simpa using hdd)
      have := List.find?_eq_none.1 hfd _ hi
      simp [e, e'] at this
  · obtain ⟨p, hp, rfl⟩ := List.mem_map.1 ho
    simp only [List.mem_singleton] at hn
    exact (hf.consts d hdg p.1).1 (by rw [e, hn])

/-- A network for the example: two constants, one of them read twice. -/
def halfNet : Net (Option Unit) ℚ :=
  ⟨[⟨"w", .f32, 1 / 3⟩, ⟨"shape", .other, 4⟩, ⟨"b", .f32, 1 / 5⟩], [⟨some (), ["x", "w", "b", "shape"], ["y"]⟩, ⟨some (), ["y", "w"], ["z"]⟩], ["z"]⟩

/-- Names for the example. -/
def exAttr (i : ℕ) : String := String.ofList ('a' :: List.replicate i '_')

/-- Names for the example. -/
def exTrans (i : ℕ) : String := String.ofList ('t' :: List.replicate i '_')

example : ((quantize (fun x => x) exAttr exTrans halfNet).ops.map (fun o => o.inputs), (quantize (fun x => x) exAttr exTrans halfNet).consts.map (fun c => c.name)) =
    ([["x", "t", "t_", "shape"], ["y", "t"], ["a"], ["a_"]], ["shape", "a", "a_"]) := by decide +kernel

example : WellFormed halfNet ∧ FreshNames exAttr exTrans halfNet := by
  have ha : ∀ i, exAttr i = String.ofList ('a' :: List.replicate i '_') := fun _ => rfl
  have ht : ∀ i, exTrans i = String.ofList ('t' :: List.replicate i '_') := fun _ => rfl
  have hne : ∀ (n : String), n.toList.head? ≠ some 'a' → n.toList.head? ≠ some 't' → ∀ i, n ≠ exAttr i ∧ n ≠ exTrans i := by
    intro n h1 h2 i
    constructor
    · rintro rfl
      rw [ha, String.toList_ofList] at h1
      exact h1 rfl
    · rintro rfl
      rw [ht, String.toList_ofList] at h2
      exact h2 rfl
  refine ⟨⟨by decide, by decide⟩, ⟨?_, ?_, ?_, ?_, ?_⟩⟩
  · intro i j h
    have := congrArg (fun s => s.toList.length) h
    simpa [ha] using this
  · intro i j h
    have := congrArg (fun s => s.toList.length) h
    simpa [ht] using this
  · intro i j h
    have := congrArg (fun s => s.toList.head?) h
    simp [ha, ht] at this
  · intro c hc
    apply hne
    · revert c; decide
    · revert c; decide
  · intro o ho n hn
    have hm : n ∈ ["x", "w", "b", "shape", "y", "z"] := by
      simp only [halfNet, List.mem_cons, List.not_mem_nil, or_false] at ho
      rcases ho with rfl | rfl <;> simp only [List.mem_cons, List.not_mem_nil, or_false] at hn ⊢ <;> tauto
    have h1 : ∀ n ∈ ["x", "w", "b", "shape", "y", "z"], n.toList.head? ≠ some 'a' ∧ n.toList.head? ≠ some 't' := by decide
    exact hne n (h1 n hm).1 (h1 n hm).2

end Verif.Props
