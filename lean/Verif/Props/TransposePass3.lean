import Verif.Props.TransposePass2

/-!
C47, continued: broadcasting operators, PRELU, reductions, and the cases in which the rewriting fails or changes the result.
-/

namespace Verif.Props
open Verif.Model Verif.Spec Verif.Lemmas

/-! ### broadcasting -/

/-- Size of a broadcast axis. -/
private def bc1 (a b : Nat) : Nat := if a = 1 then b else a

private def Compat (a b : Nat) : Prop := a = b ∨ a = 1 ∨ b = 1

private theorem bcRev_same : ∀ (s t : List Nat), s.length = t.length →
    ∀ u, bcRev s t = some u ↔ (∀ i < s.length, Compat (s.getD i 0) (t.getD i 0)) ∧ u = List.zipWith bc1 s t := by
  intro s
  induction s with
  | nil =>
    intro t ht u
    match t, ht with
    | [], _ => simp [bcRev, eq_comm]
  | cons a s ih =>
    intro t ht u
    match t, ht with
    | b :: t, ht =>
      have hl : s.length = t.length := by simpa using ht
      have hcond : (∀ i < (a :: s).length, Compat ((a :: s).getD i 0) ((b :: t).getD i 0)) ↔ Compat a b ∧ ∀ i < s.length, Compat (s.getD i 0) (t.getD i 0) := by
        constructor
        · intro h
          refine ⟨by simpa using h 0 (by simp), fun i hi => by simpa using h (i + 1) (by simpa using hi)⟩
        · rintro ⟨h0, h⟩ i hi
          cases i with
          | zero => simpa using h0
          | succ i => simpa using h i (by simpa using hi)
      rw [hcond]
      have step : ∀ c, (bcRev s t).map (c :: ·) = some u ↔ (∀ i < s.length, Compat (s.getD i 0) (t.getD i 0)) ∧ u = c :: List.zipWith bc1 s t := by
        intro c
        rw [Option.map_eq_some_iff]
        constructor
        · rintro ⟨w, hw, rfl⟩
          obtain ⟨h1, h2⟩ := (ih t hl w).mp hw
          exact ⟨h1, by rw [h2]⟩
        · rintro ⟨h1, h2⟩
          exact ⟨_, (ih t hl _).mpr ⟨h1, rfl⟩, h2.symm⟩
      simp only [bcRev, List.zipWith_cons_cons]
      by_cases h1 : a = b
      · rw [if_pos h1, step a]
        have : Compat a b := Or.inl h1
        have hb : bc1 a b = a := by unfold bc1; split <;> omega
        simp [this, hb]
      · rw [if_neg h1]
        by_cases h2 : a = 1
        · rw [if_pos h2, step b]
          have : Compat a b := Or.inr (Or.inl h2)
          have hb : bc1 a b = b := by unfold bc1; rw [if_pos h2]
          simp [this, hb]
        · rw [if_neg h2]
          by_cases h3 : b = 1
          · rw [if_pos h3, step a]
            have : Compat a b := Or.inr (Or.inr h3)
            have hb : bc1 a b = a := by unfold bc1; rw [if_neg h2]
            simp [this, hb]
          · rw [if_neg h3]
            have : ¬ Compat a b := by rintro (h | h | h) <;> contradiction
            simp [this]

private theorem getD_reverse {l : List Nat} {i : Nat} (hi : i < l.length) : l.reverse.getD i 0 = l.getD (l.length - 1 - i) 0 := by
  simp [List.getD, List.getElem?_reverse hi]

/-- Broadcasting of shapes of the same rank, axis by axis. -/
private theorem bcShape_same (s t : List Nat) (hl : s.length = t.length) (u : List Nat) :
    bcShape s t = some u ↔ (∀ i < s.length, Compat (s.getD i 0) (t.getD i 0)) ∧ u = List.zipWith bc1 s t := by
  unfold bcShape
  rw [Option.map_eq_some_iff]
  have hz : ∀ w, w = List.zipWith bc1 s.reverse t.reverse ↔ w.reverse = List.zipWith bc1 s t := by
    intro w
    rw [← List.reverse_zipWith hl]
    constructor
    · rintro rfl; rw [List.reverse_reverse]
    · intro h; rw [← h, List.reverse_reverse]
  have hc : (∀ i < s.reverse.length, Compat (s.reverse.getD i 0) (t.reverse.getD i 0)) ↔ ∀ i < s.length, Compat (s.getD i 0) (t.getD i 0) := by
    constructor
    · intro h i hi
      have := h (s.length - 1 - i) (by simp; omega)
      rw [getD_reverse (by omega), getD_reverse (by omega)] at this
      rwa [show s.length - 1 - (s.length - 1 - i) = i by omega, show t.length - 1 - (s.length - 1 - i) = i by omega] at this
    · intro h i hi
      have hi' : i < s.length := by simpa using hi
      rw [getD_reverse hi', getD_reverse (by omega), ← hl]
      exact h _ (by omega)
  constructor
  · rintro ⟨w, hw, rfl⟩
    obtain ⟨h1, h2⟩ := (bcRev_same _ _ (by simp [hl]) w).mp hw
    exact ⟨hc.mp h1, (hz w).mp h2⟩
  · rintro ⟨h1, h2⟩
    refine ⟨u.reverse, (bcRev_same _ _ (by simp [hl]) _).mpr ⟨hc.mpr h1, (hz _).mpr (by rw [List.reverse_reverse]; exact h2)⟩, List.reverse_reverse u⟩

/-- Position read by broadcasting. -/
private def pos1 (d i : Nat) : Nat := if d = 1 then 0 else i

private theorem bcGet_same {α : Type} (t : Tensor α) (idx : List Nat) (hl : idx.length = t.shape.length) :
    bcGet t idx = t.get ((List.range t.shape.length).map (fun a => pos1 (t.shape.getD a 0) (idx.getD a 0))) := by
  unfold bcGet
  congr 1
  rw [← List.reverse_zipWith (by rw [hl]), List.reverse_reverse]
  apply ext_getD (by simp [hl])
  intro i hi
  have hi' : i < t.shape.length := by simpa [hl] using hi
  rw [getD_range_map _ _ _ _ hi']
  simp [List.getD, hl, hi', pos1]

/-- A transposed operand, read by broadcasting. -/
private theorem bcGet_transpose {α : Type} {n : Nat} {q : List Nat} (hq : IsPerm n q) (t : Tensor α) (ht : t.shape.length = n) (idx : List Nat) (hl : idx.length = n) :
    bcGet (transpose q t) idx = bcGet t ((List.range n).map (fun j => idx.getD (q.idxOf j) 0)) := by
  have hlen := transpose_shape_length hq t
  rw [bcGet_same _ idx (by rw [hl, hlen]), bcGet_same t _ (by simp [ht])]
  simp only [transpose]
  congr 1
  rw [ht]
  apply List.map_congr_left
  intro j hj
  have hj' : j < n := by simpa using hj
  have hk := IsPerm.idxOf_lt hq hj'
  rw [getD_range_map _ _ _ _ hj', getD_range_map _ _ _ _ (by simpa [IsPerm.length hq] using hk), getD_map_lt _ _ _ _ 0 (by rw [IsPerm.length hq]; exact hk),
    IsPerm.get_idxOf hq hj']

private theorem flat_ones (k : Nat) (s i1 i2 : List Nat) (h1 : i1.length = k) (h2 : ∀ x ∈ i1, x = 0) : flat (List.replicate k 1 ++ s) (i1 ++ i2) = flat s i2 := by
  induction k generalizing i1 with
  | zero => have : i1 = [] := List.length_eq_zero_iff.mp h1; subst this; rfl
  | succ k ih =>
    match i1, h1, h2 with
    | x :: i1, h1, h2 =>
      have hx : x = 0 := h2 x (by simp)
      simp only [List.replicate_succ, List.cons_append, flat, hx, Nat.zero_mul, Nat.zero_add]
      exact ih i1 (by simpa using h1) (fun y hy => h2 y (by simp [hy]))

/-- Adding leading axes of size 1 does not change what broadcasting reads. -/
private theorem bcGet_ones {α : Type} (t : Tensor α) (k : Nat) (idx : List Nat) (hl : idx.length = k + t.shape.length)
    (hb : ∀ a < t.shape.length, t.shape.getD a 0 = 1 ∨ idx.getD (k + a) 0 < t.shape.getD a 0) :
    bcGet (reshape (List.replicate k 1 ++ t.shape) t) idx = bcGet t idx := by
  have h1 : bcGet t idx = bcGet t (idx.drop k) := by
    unfold bcGet
    congr 2
    conv_lhs => rw [← List.take_append_drop k idx, List.reverse_append]
    generalize hA : (idx.drop k).reverse = A
    have hlA : A.length = t.shape.reverse.length := by rw [← hA]; simp [hl]
    generalize t.shape.reverse = B at hlA
    clear hA hb hl
    induction A generalizing B with
    | nil => have : B = [] := List.length_eq_zero_iff.mp (by simpa using hlA.symm); subst this; simp
    | cons x A ih =>
      match B, hlA with
      | y :: B, hlA => simp only [List.cons_append, List.zipWith_cons_cons]; rw [ih B (by simpa using hlA)]
  have hlr : (reshape (List.replicate k 1 ++ t.shape) t).shape.length = idx.length := by simp [reshape, hl]
  rw [bcGet_same _ idx hlr.symm, h1, bcGet_same t (idx.drop k) (by simp [hl])]
  simp only [reshape]
  have e : (List.range (List.replicate k 1 ++ t.shape).length).map (fun a => pos1 ((List.replicate k 1 ++ t.shape).getD a 0) (idx.getD a 0))
      = List.replicate k 0 ++ (List.range t.shape.length).map (fun a => pos1 (t.shape.getD a 0) ((idx.drop k).getD a 0)) := by
    apply ext_getD (by simp)
    intro i hi
    have hi' : i < k + t.shape.length := by simpa using hi
    rw [getD_range_map _ _ _ _ (by simpa using hi')]
    by_cases h : i < k
    · simp [List.getD, List.getElem?_append, h, pos1]
    · simp only [List.getD, List.getElem?_append, List.length_replicate, h, if_false, List.getElem?_map, List.getElem?_drop]
      rw [List.getElem?_range (by omega)]
      simp only [Option.map_some, Option.getD_some, show k + (i - k) = i by omega]
  rw [e, flat_ones k _ _ _ (by simp) (by simp)]
  congr 1
  apply unflat_flat
  rw [inBounds_iff]
  refine ⟨by simp, ?_⟩
  intro i hi
  rw [getD_range_map _ _ _ _ hi]
  have := hb i hi
  have e2 : (idx.drop k).getD i 0 = idx.getD (k + i) 0 := by simp [List.getD]
  rw [e2]
  unfold pos1
  split
  · omega
  · omega

private theorem bcRev_ones : ∀ (s t : List Nat), s.length ≤ t.length → bcRev s t = bcRev (s ++ List.replicate (t.length - s.length) 1) t := by
  intro s
  induction s with
  | nil =>
    intro t _
    simp only [bcRev, List.nil_append, List.length_nil, Nat.sub_zero]
    have : ∀ t : List Nat, bcRev (List.replicate t.length 1) t = some t := by
      intro t
      induction t with
      | nil => rfl
      | cons b t ih =>
        simp only [List.length_cons, List.replicate_succ, bcRev]
        by_cases h : 1 = b
        · rw [if_pos h, ih]; simp [h]
        · simp [h, ih]
    exact (this t).symm
  | cons a s ih =>
    intro t ht
    match t, ht with
    | b :: t, ht =>
      have := ih t (by simpa using ht)
      simp only [List.length_cons, Nat.add_sub_add_right, List.cons_append, bcRev, this]

private theorem bcRev_comm : ∀ (s t : List Nat), bcRev s t = bcRev t s := by
  intro s
  induction s with
  | nil => intro t; cases t <;> rfl
  | cons a s ih =>
    intro t
    match t with
    | [] => rfl
    | b :: t =>
      simp only [bcRev, ih t]
      by_cases h1 : a = b
      · subst h1; simp
      · have h1' : ¬ b = a := fun e => h1 e.symm
        rw [if_neg h1, if_neg h1']
        by_cases h2 : a = 1 <;> by_cases h3 : b = 1 <;> simp [h2, h3]

private theorem bcRev_length : ∀ (s t u : List Nat), bcRev s t = some u → u.length = max s.length t.length := by
  intro s
  induction s with
  | nil => intro t u h; simp [bcRev] at h; simp [h]
  | cons a s ih =>
    intro t u h
    match t with
    | [] => simp [bcRev] at h; simp [← h]
    | b :: t =>
      simp only [bcRev] at h
      have : ∀ c, (bcRev s t).map (c :: ·) = some u → u.length = max (a :: s).length (b :: t).length := by
        intro c hc
        rw [Option.map_eq_some_iff] at hc
        obtain ⟨w, hw, rfl⟩ := hc
        simp [ih t w hw]
      split at h
      · exact this _ h
      · split at h
        · exact this _ h
        · split at h
          · exact this _ h
          · simp at h

private def ones (n : Nat) (s : List Nat) : List Nat := List.replicate (n - s.length) 1 ++ s

private theorem bcShape_ones (s t u : List Nat) (n : Nat) (h : bcShape s t = some u) (hn : u.length = n) :
    s.length ≤ n ∧ t.length ≤ n ∧ bcShape (ones n s) (ones n t) = some u := by
  unfold bcShape at h ⊢
  rw [Option.map_eq_some_iff] at h
  obtain ⟨w, hw, rfl⟩ := h
  have hlen := bcRev_length _ _ _ hw
  simp only [List.length_reverse] at hlen hn
  have hs : s.length ≤ n := by omega
  have ht : t.length ≤ n := by omega
  refine ⟨hs, ht, ?_⟩
  rw [Option.map_eq_some_iff]
  refine ⟨w, ?_, rfl⟩
  unfold ones
  simp only [List.reverse_append, List.reverse_replicate]
  rcases Nat.le_total s.length t.length with h1 | h1
  · have e : n - t.length = 0 := by omega
    have := bcRev_ones s.reverse t.reverse (by simpa using h1)
    simp only [List.length_reverse] at this
    have e2 : n - s.length = t.length - s.length := by omega
    rw [e, e2, List.replicate_zero, List.append_nil, ← this, hw]
  · have e : n - s.length = 0 := by omega
    have := bcRev_ones t.reverse s.reverse (by simpa using h1)
    simp only [List.length_reverse] at this
    have e2 : n - t.length = s.length - t.length := by omega
    rw [e, e2, List.replicate_zero, List.append_nil, bcRev_comm, ← this, bcRev_comm, hw]

/-- The operand with as many axes as the permutation. -/
private def widen {α : Type} (n : Nat) (t : Tensor α) : Tensor α := if t.shape.length ≠ n then reshape (ones n t.shape) t else t

private theorem widen_shape {α : Type} (n : Nat) (t : Tensor α) (h : t.shape.length ≤ n) : (widen n t).shape = ones n t.shape ∧ (ones n t.shape).length = n := by
  unfold widen ones
  refine ⟨?_, by simp; omega⟩
  split
  · rfl
  · rename_i h2
    have : t.shape.length = n := by omega
    simp [this]

private theorem widen_get {α : Type} (n : Nat) (t : Tensor α) (h : t.shape.length ≤ n) (idx : List Nat) (hl : idx.length = n)
    (hb : ∀ a < t.shape.length, t.shape.getD a 0 = 1 ∨ idx.getD (n - t.shape.length + a) 0 < t.shape.getD a 0) : bcGet (widen n t) idx = bcGet t idx := by
  unfold widen
  split
  · exact bcGet_ones t _ idx (by omega) hb
  · rfl

private theorem zipWith_getD {f : Nat → Nat → Nat} {a b : List Nat} {i : Nat} (ha : i < a.length) (hb : i < b.length) : (List.zipWith f a b).getD i 0 = f (a.getD i 0) (b.getD i 0) := by
  simp [List.getD, ha, hb]

/-- In-bounds positions of the result are in bounds of each operand, or the operand has size 1 there. -/
private theorem bc_bound {s t u : List Nat} {n : Nat} (hs : s.length ≤ n) (ht : t.length ≤ n) (h : bcShape (ones n s) (ones n t) = some u) (idx : List Nat) (hidx : InBounds u idx) :
    ∀ a < s.length, s.getD a 0 = 1 ∨ idx.getD (n - s.length + a) 0 < s.getD a 0 := by
  have l1 : (ones n s).length = n := by unfold ones; simp; omega
  have l2 : (ones n t).length = n := by unfold ones; simp; omega
  obtain ⟨hc, rfl⟩ := (bcShape_same _ _ (by rw [l1, l2]) u).mp h
  intro a ha
  have hlt : n - s.length + a < n := by omega
  have e : (ones n s).getD (n - s.length + a) 0 = s.getD a 0 := by
    unfold ones
    simp [List.getD, List.getElem?_append]
  have hi := ((inBounds_iff _ _).mp hidx).2 (n - s.length + a) (by simp [l1, l2]; omega)
  rw [zipWith_getD (by omega) (by omega)] at hi
  have hcc := hc _ (by rw [l1]; exact hlt)
  rw [e] at hi hcc
  unfold Compat at hcc
  unfold bc1 at hi
  by_cases h1 : s.getD a 0 = 1
  · left; exact h1
  · right; rwa [if_neg h1] at hi

/-- Two operands of full rank. -/
private theorem binary_full {α : Type} {n : Nat} {q : List Nat} (hq : IsPerm n q) (a b : Tensor α) (ha : a.shape.length = n) (hb : b.shape.length = n)
    (u : List Nat) (hu : bcShape a.shape b.shape = some u) :
    bcShape (transpose q a).shape (transpose q b).shape = some (q.map (fun k => u.getD k 0)) := by
  obtain ⟨hc, rfl⟩ := (bcShape_same _ _ (by rw [ha, hb]) u).mp hu
  have la := transpose_shape_length hq a
  have lb := transpose_shape_length hq b
  refine (bcShape_same _ _ (by rw [la, lb]) _).mpr ⟨?_, ?_⟩
  · intro i hi
    rw [la] at hi
    have e1 : ∀ t : Tensor α, (transpose q t).shape.getD i 0 = t.shape.getD (q.getD i 0) 0 := by
      intro t; simp only [transpose]; rw [getD_map_lt _ _ _ _ 0 (by rw [IsPerm.length hq]; exact hi)]
    rw [e1, e1]
    exact hc _ (by rw [ha]; exact IsPerm.get_lt hq hi)
  · apply ext_getD
    · simp [la, lb, IsPerm.length hq]
    · intro i hi
      have hi' : i < n := by simpa [IsPerm.length hq] using hi
      have hg := IsPerm.get_lt hq hi'
      rw [getD_map_lt _ _ _ _ 0 (by rw [IsPerm.length hq]; exact hi'), zipWith_getD (by omega) (by omega), zipWith_getD (by omega) (by omega)]
      simp only [transpose]
      rw [getD_map_lt _ _ _ _ 0 (by rw [IsPerm.length hq]; exact hi'), getD_map_lt _ _ _ _ 0 (by rw [IsPerm.length hq]; exact hi')]

private theorem bcGet_single {α : Type} (t : Tensor α) (h : isSingle t.shape = true) (idx : List Nat) (hl : idx ≠ []) : bcGet t idx = t.get [0] := by
  unfold isSingle at h
  match hs : t.shape, h with
  | [d], h =>
    simp at h
    unfold bcGet
    rw [hs]
    congr 1
    have hr : idx.reverse ≠ [] := by simpa using hl
    match hi : idx.reverse, hr with
    | x :: r, _ => simp [h]

private theorem bcShape_single {s t u : List Nat} (h : isSingle s = true) (hu : bcShape s t = some u) (hu' : u.length = t.length) : u = t := by
  unfold isSingle at h
  match s, h with
  | [d], h =>
    simp at h
    subst h
    unfold bcShape at hu
    rw [Option.map_eq_some_iff] at hu
    obtain ⟨w, hw, rfl⟩ := hu
    cases ht : t.reverse with
    | nil =>
      have ht' : t = [] := by simpa using ht
      subst ht'
      simp [bcRev] at hw
      subst hw
      simp at hu'
    | cons b r =>
      rw [ht] at hw
      simp only [List.reverse_cons, List.reverse_nil, List.nil_append, bcRev] at hw
      have : w = b :: r := by
        by_cases h1 : 1 = b
        · simp [h1] at hw; exact hw.symm
        · simp [h1] at hw; exact hw.symm
      rw [this, ← ht, List.reverse_reverse]

private theorem bcShape_single_some {s t : List Nat} (h : isSingle s = true) (ht : t ≠ []) : bcShape s t = some t := by
  unfold isSingle at h
  match s, h with
  | [d], h =>
    simp at h
    subst h
    unfold bcShape
    have hr : t.reverse ≠ [] := by simpa using ht
    cases e : t.reverse with
    | nil => exact absurd e hr
    | cons b r =>
      simp only [List.reverse_cons, List.reverse_nil, List.nil_append, bcRev]
      have : t = (b :: r).reverse := by rw [← e, List.reverse_reverse]
      by_cases h1 : 1 = b
      · simp [h1, this]
      · simp [h1, this]

private theorem bcShape_comm (s t : List Nat) : bcShape s t = bcShape t s := by unfold bcShape; rw [bcRev_comm]

private theorem passOperand_eq {α : Type} {n : Nat} {q : List Nat} (hq : IsPerm n q) (t : Tensor α) (h : t.shape.length ≤ n) : passOperand q t = some (transpose q (widen n t)) := by
  unfold passOperand widen ones
  rw [IsPerm.length hq, if_pos h]

/-- **C47** broadcasting arithmetic operators: operands of any ranks, a single element left alone, smaller ranks widened.  The permutation must be one of the
axes of the result. -/
theorem C47_binary_partial {α γ : Type} (f : α → α → γ) (a b : Tensor α) (c : Tensor γ) (hc : elementwise f a b = some c) (p : List Nat)
    (hp : IsPerm c.shape.length p) (hn : 0 < c.shape.length) :
    ∃ a' b' c', passOperands (passInv p) a b = some (a', b') ∧ elementwise f a' b' = some c' ∧ Same (transpose p c') c := by
  obtain ⟨u, hu, rfl⟩ := Option.map_eq_some_iff.mp hc
  simp only at hp hn
  have hq : IsPerm u.length (passInv p) := argsort_isPerm (IsPerm.length hp)
  have hql := IsPerm.length hq
  obtain ⟨hal, hbl, hones⟩ := bcShape_ones _ _ _ _ hu rfl
  obtain ⟨was, wal⟩ := widen_shape u.length a hal
  obtain ⟨wbs, wbl⟩ := widen_shape u.length b hbl
  -- in every case the rewritten operands read the same elements
  suffices h : ∃ a' b', passOperands (passInv p) a b = some (a', b') ∧ bcShape a'.shape b'.shape = some ((passInv p).map (fun k => u.getD k 0))
      ∧ ∀ idx, InBounds ((passInv p).map (fun k => u.getD k 0)) idx → bcGet a' idx = bcGet a ((List.range u.length).map (fun j => idx.getD ((passInv p).idxOf j) 0))
        ∧ bcGet b' idx = bcGet b ((List.range u.length).map (fun j => idx.getD ((passInv p).idxOf j) 0)) by
    obtain ⟨a', b', h1, h2, h3⟩ := h
    refine ⟨a', b', _, h1, by unfold elementwise; rw [h2]; rfl, ?_⟩
    refine pass_of_commute' hp _ _ rfl ⟨rfl, ?_⟩
    intro idx hidx
    obtain ⟨e1, e2⟩ := h3 idx hidx
    simp only [e1, e2, transpose]
  have hsrc : ∀ idx, InBounds ((passInv p).map (fun k => u.getD k 0)) idx → idx.length = u.length ∧ InBounds u ((List.range u.length).map (fun j => idx.getD ((passInv p).idxOf j) 0)) := by
    intro idx hidx
    refine ⟨by have := inBounds_length hidx; simpa [hql] using this, transpose_src_inBounds hq rfl hidx⟩
  have readA : ∀ idx, InBounds ((passInv p).map (fun k => u.getD k 0)) idx → bcGet (transpose (passInv p) (widen u.length a)) idx
      = bcGet a ((List.range u.length).map (fun j => idx.getD ((passInv p).idxOf j) 0)) := by
    intro idx hidx
    obtain ⟨h1, h2⟩ := hsrc idx hidx
    rw [bcGet_transpose hq _ (by rw [was, wal]) idx h1, widen_get _ a hal _ (by simp) (bc_bound hal hbl hones _ h2)]
  have readB : ∀ idx, InBounds ((passInv p).map (fun k => u.getD k 0)) idx → bcGet (transpose (passInv p) (widen u.length b)) idx
      = bcGet b ((List.range u.length).map (fun j => idx.getD ((passInv p).idxOf j) 0)) := by
    intro idx hidx
    obtain ⟨h1, h2⟩ := hsrc idx hidx
    rw [bcGet_transpose hq _ (by rw [wbs, wbl]) idx h1, widen_get _ b hbl _ (by simp) (bc_bound hbl hal (by rw [bcShape_comm]; exact hones) _ h2)]
  have hne : ∀ idx, InBounds ((passInv p).map (fun k => u.getD k 0)) idx → idx ≠ [] := by
    intro idx hidx e
    have := (hsrc idx hidx).1
    rw [e] at this; simp at this; omega
  have hne2 : ∀ idx : List Nat, (List.range u.length).map (fun j => idx.getD ((passInv p).idxOf j) 0) ≠ [] := by
    intro idx e
    have := congrArg List.length e
    simp at this
    rw [this] at hn; simp at hn
  have shapeSingle : ∀ (x y : Tensor α), isSingle x.shape = true → y.shape.length ≤ u.length → bcShape x.shape y.shape = some u →
      bcShape x.shape (transpose (passInv p) (widen u.length y)).shape = some ((passInv p).map (fun k => u.getD k 0)) := by
    intro x y hx hy hxy
    obtain ⟨wys, wyl⟩ := widen_shape u.length y hy
    have hlt := transpose_shape_length hq (widen u.length y)
    rw [bcShape_single_some hx (by intro e; rw [e] at hlt; simp at hlt; omega)]
    simp only [transpose, wys]
    congr 1
    -- the widened shape is `u`
    have : ones u.length y.shape = u := by
      by_cases h : y.shape = []
      · rw [h] at hxy ⊢
        have hxs : x.shape = [1] := by
          unfold isSingle at hx
          match x.shape, hx with
          | [d], hx => simp at hx; rw [hx]
        rw [hxs] at hxy
        simp [bcShape, bcRev] at hxy
        rw [← hxy]; rfl
      · have := bcShape_single_some hx h
        rw [this] at hxy
        have e := Option.some.inj hxy
        unfold ones
        rw [e]; simp
    rw [this]
  unfold passOperands
  by_cases hbs : isSingle b.shape = true
  · rw [if_pos hbs, passOperand_eq hq a hal]
    refine ⟨_, b, rfl, ?_, ?_⟩
    · rw [bcShape_comm]; exact shapeSingle b a hbs hal (by rw [bcShape_comm]; exact hu)
    · intro idx hidx
      exact ⟨readA idx hidx, by rw [bcGet_single b hbs idx (hne idx hidx), bcGet_single b hbs _ (hne2 idx)]⟩
  · rw [if_neg hbs]
    by_cases has : isSingle a.shape = true
    · rw [if_pos has, passOperand_eq hq b hbl]
      refine ⟨a, _, rfl, shapeSingle a b has hbl hu, ?_⟩
      intro idx hidx
      exact ⟨by rw [bcGet_single a has idx (hne idx hidx), bcGet_single a has _ (hne2 idx)], readB idx hidx⟩
    · rw [if_neg has, passOperand_eq hq a hal, passOperand_eq hq b hbl]
      refine ⟨_, _, rfl, ?_, fun idx hidx => ⟨readA idx hidx, readB idx hidx⟩⟩
      exact binary_full hq _ _ (by rw [was, wal]) (by rw [wbs, wbl]) u (by rw [was, wbs]; exact hones)

/-- An image batch plus a vector along its last axis, across the permutation from NHWC to NCHW. -/
example : ∃ a' b' c', passOperands (passInv [0, 3, 1, 2]) (⟨[2, 4, 5, 3], fun i => flat [2, 4, 5, 3] i⟩ : Tensor Nat) ⟨[3], fun i => i.getD 0 0⟩ = some (a', b') ∧
    elementwise (· + ·) a' b' = some c' ∧ Same (transpose [0, 3, 1, 2] c') ⟨[2, 4, 5, 3], fun i => bcGet ⟨[2, 4, 5, 3], fun i => flat [2, 4, 5, 3] i⟩ i + bcGet ⟨[3], fun i => i.getD 0 0⟩ i⟩ :=
  C47_binary_partial (· + ·) ⟨[2, 4, 5, 3], fun i => flat [2, 4, 5, 3] i⟩ ⟨[3], fun i => i.getD 0 0⟩ _ rfl [0, 3, 1, 2] (by unfold IsPerm; decide) (by decide)

/-! ### PRELU -/

private theorem insertionSort_congr {r r' : Nat → Nat → Prop} [DecidableRel r] [DecidableRel r'] (l : List Nat) (h : ∀ x ∈ l, ∀ y ∈ l, (r x y ↔ r' x y)) :
    l.insertionSort r = l.insertionSort r' := by
  induction l with
  | nil => rfl
  | cons a l ih =>
    rw [List.insertionSort_cons, List.insertionSort_cons, ih (fun x hx y hy => h x (by simp [hx]) y (by simp [hy]))]
    have hm : ∀ x ∈ l.insertionSort r', x ∈ l := fun x hx => (List.perm_insertionSort r' l).mem_iff.mp hx
    generalize l.insertionSort r' = k at hm
    clear ih
    induction k with
    | nil => rfl
    | cons b k ih =>
      have hb := h a (by simp) b (by simp [hm b (by simp)])
      simp only [List.orderedInsert]
      rw [ih (fun x hx => hm x (by simp [hx]))]
      by_cases hr : r a b
      · rw [if_pos hr, if_pos (hb.mp hr)]
      · rw [if_neg hr, if_neg (fun e => hr (hb.mpr e))]

private theorem argsort_argsort {n : Nat} {r : List Nat} (hr : IsPerm n r) : npArgsort (npArgsort r) = r := by
  have h1 := argsort_isPerm (IsPerm.length hr)
  have h2 := argsort_isPerm (IsPerm.length h1)
  apply ext_getD (by rw [IsPerm.length h2, IsPerm.length hr])
  intro j hj
  have hj' : j < n := by rw [IsPerm.length h2] at hj; exact hj
  have e1 := pass_argsort_getD h1 hj'
  have e2 := pass_argsort_idxOf hr hj'
  have e3 := IsPerm.idxOf_get h1 (IsPerm.get_lt h2 hj')
  rw [e1, e2] at e3
  exact e3.symm

private theorem tail_getD (q : List Nat) (i : Nat) : q.tail.getD i 0 = q.getD (i + 1) 0 := by simp [List.getD]

/-- A permutation that fixes axis 0 is a permutation of the other axes. -/
private theorem tail_perm {n : Nat} {q : List Nat} (hq : IsPerm (n + 1) q) (h0 : q.getD 0 0 = 0) :
    IsPerm n (q.tail.map (· - 1)) ∧ (∀ i < n, q.getD (i + 1) 0 = (q.tail.map (· - 1)).getD i 0 + 1) ∧ npArgsort q.tail = npArgsort (q.tail.map (· - 1)) := by
  have hl := IsPerm.length hq
  have hpos : ∀ i < n, 0 < q.getD (i + 1) 0 := by
    intro i hi
    by_contra h
    have e := IsPerm.idxOf_get hq (i := i + 1) (by omega)
    rw [show q.getD (i + 1) 0 = 0 by omega] at e
    have e' := IsPerm.idxOf_get hq (i := 0) (by omega)
    rw [h0] at e'; omega
  have htl : q.tail.length = n := by simp [hl]
  have hg : ∀ i < n, q.getD (i + 1) 0 = (q.tail.map (· - 1)).getD i 0 + 1 := by
    intro i hi
    rw [getD_map_lt _ _ _ _ 0 (by rw [htl]; exact hi), tail_getD]
    have := hpos i hi; omega
  refine ⟨?_, hg, ?_⟩
  · apply isPerm_of_nodup (by simp [hl])
    · refine List.Nodup.map_on ?_ ((IsPerm.nodup hq).tail)
      intro x hx y hy hxy
      obtain ⟨i, hi, rfl⟩ := List.getElem_of_mem hx
      obtain ⟨j, hj, rfl⟩ := List.getElem_of_mem hy
      have h1 := hpos i (by omega)
      have h2 := hpos j (by omega)
      rw [← tail_getD] at h1 h2
      rw [show q.tail.getD i 0 = q.tail[i] from (getD_eq_getElem _ _ _ hi)] at h1
      rw [show q.tail.getD j 0 = q.tail[j] from (getD_eq_getElem _ _ _ hj)] at h2
      omega
    · intro x hx
      obtain ⟨i, hi, rfl⟩ := List.getElem_of_mem hx
      have hi' : i < n := by simpa [hl] using hi
      have h1 := hg i hi'
      have h2 := IsPerm.get_lt hq (i := i + 1) (by omega)
      have h3 : (q.tail.map (· - 1)).getD i 0 = (q.tail.map (· - 1))[i] := getD_eq_getElem _ _ _ hi
      omega
  · unfold npArgsort
    rw [List.length_map]
    apply insertionSort_congr
    intro x hx y hy
    have hx' : x < n := by simpa [hl] using hx
    have hy' : y < n := by simpa [hl] using hy
    rw [tail_getD, tail_getD, hg x hx', hg y hy']
    omega

private theorem bcGet_drop {α : Type} (t : Tensor α) (k : Nat) (idx : List Nat) (hl : idx.length = k + t.shape.length) : bcGet t idx = bcGet t (idx.drop k) := by
  unfold bcGet
  congr 2
  conv_lhs => rw [← List.take_append_drop k idx, List.reverse_append]
  generalize hA : (idx.drop k).reverse = A
  have hlA : A.length = t.shape.reverse.length := by rw [← hA]; simp [hl]
  generalize t.shape.reverse = B at hlA
  clear hA hl
  induction A generalizing B with
  | nil => have : B = [] := List.length_eq_zero_iff.mp (by simpa using hlA.symm); subst this; simp
  | cons x A ih =>
    match B, hlA with
    | y :: B, hlA => simp only [List.cons_append, List.zipWith_cons_cons]; rw [ih B (by simpa using hlA)]

/-- **C47** PRELU with a slope tensor over all axes but the batch, which the permutation leaves alone. -/
theorem C47_prelu_partial {α γ : Type} (f : α → α → γ) (t w : Tensor α) (c : Tensor γ) (hc : elementwise f t w = some c) (p : List Nat)
    (hp : IsPerm t.shape.length p) (hw : w.shape.length + 1 = t.shape.length) (hw1 : w.shape.length ≠ 1) (hb : p.getD 0 0 = 0) :
    ∃ w' c', passPrelu (passInv p) w = some w' ∧ elementwise f (transpose (passInv p) t) w' = some c' ∧ Same (transpose p c') c := by
  obtain ⟨u, hu, rfl⟩ := Option.map_eq_some_iff.mp hc
  generalize hn : w.shape.length = n at hw hw1
  have hul : u.length = n + 1 := by
    unfold bcShape at hu
    obtain ⟨v, hv, rfl⟩ := Option.map_eq_some_iff.mp hu
    have := bcRev_length _ _ _ hv
    simp only [List.length_reverse] at this ⊢
    omega
  rw [← hw] at hp
  have hq : IsPerm (n + 1) (passInv p) := argsort_isPerm (IsPerm.length hp)
  have hql := IsPerm.length hq
  have hq0 : (passInv p).getD 0 0 = 0 := by
    have h1 := pass_argsort_idxOf hp (j := 0) (by omega)
    have h2 := IsPerm.get_idxOf hq (j := 0) (by omega)
    unfold passInv at h2 ⊢
    rw [h1, hb] at h2
    exact h2
  obtain ⟨hr, hrg, hra⟩ := tail_perm hq hq0
  generalize hrr : (passInv p).tail.map (· - 1) = r at hr hrg hra
  have hpp : passPrelu (passInv p) w = some (transpose r w) := by
    unfold passPrelu
    rw [if_pos (by rw [hn]; exact hw1), if_pos (by rw [hn, hql]), hra, argsort_argsort hr]
  have hq0' : (passInv p).idxOf 0 = 0 := by
    have := IsPerm.idxOf_get hq (i := 0) (by omega)
    rwa [hq0] at this
  have hidx : ∀ j < n, (passInv p).idxOf (j + 1) = r.idxOf j + 1 := by
    intro j hj
    have h1 := hrg _ (IsPerm.idxOf_lt hr hj)
    rw [IsPerm.get_idxOf hr hj] at h1
    rw [← h1]
    exact IsPerm.idxOf_get hq (by have := IsPerm.idxOf_lt hr hj; omega)
  have wn := widen_shape (n + 1) w (by omega)
  have hws : (widen (n + 1) w).shape = 1 :: w.shape := by rw [wn.1]; unfold ones; simp [hn]
  have hsh : (transpose (passInv p) (widen (n + 1) w)).shape = 1 :: (transpose r w).shape := by
    simp only [transpose, hws]
    apply ext_getD (by simp [hql, IsPerm.length hr])
    intro i hi
    have hi' : i < n + 1 := by simpa [hql] using hi
    rw [getD_map_lt _ _ _ _ 0 (by rw [hql]; exact hi')]
    cases i with
    | zero => rw [hq0]; rfl
    | succ i =>
      rw [hrg i (by omega)]
      simp only [List.getD_cons_succ]
      rw [getD_map_lt _ _ _ _ 0 (by rw [IsPerm.length hr]; omega)]
  have htl : t.shape.length = n + 1 := hw.symm
  have hones := (bcShape_ones _ _ _ _ hu hul).2.2
  have hfull := binary_full hq t (widen (n + 1) w) htl (by rw [wn.1, wn.2]) u (by
    rw [wn.1]
    have : ones (n + 1) t.shape = t.shape := by unfold ones; simp [htl]
    rwa [this] at hones)
  have hsh2 : bcShape (transpose (passInv p) t).shape (transpose r w).shape = some ((passInv p).map (fun k => u.getD k 0)) := by
    rw [hsh] at hfull
    rw [← hfull]
    unfold bcShape
    congr 1
    have e := bcRev_ones (transpose r w).shape.reverse (transpose (passInv p) t).shape.reverse (by
      simp only [List.length_reverse]
      rw [transpose_shape_length hr, transpose_shape_length hq]; omega)
    rw [bcRev_comm, e, bcRev_comm]
    simp only [List.length_reverse, List.reverse_cons]
    rw [transpose_shape_length hr, transpose_shape_length hq]
    simp
  refine ⟨_, _, hpp, by unfold elementwise; rw [hsh2]; rfl, ?_⟩
  refine pass_of_commute' hp _ _ hul ⟨rfl, ?_⟩
  intro idx hidx'
  have hil : idx.length = n + 1 := by have := inBounds_length hidx'; simpa [hql] using this
  have hut : (List.range u.length).map (fun j => idx.getD ((passInv p).idxOf j) 0) = (List.range (n + 1)).map (fun j => idx.getD ((passInv p).idxOf j) 0) := by rw [hul]
  simp only
  conv_rhs => simp only [transpose]
  rw [hut, bcGet_transpose hq t htl idx hil]
  congr 1
  rw [bcGet_drop (transpose r w) 1 idx (by rw [transpose_shape_length hr, hil]; omega), bcGet_transpose hr w hn _ (by simp [hil]),
    bcGet_drop w 1 ((List.range (n + 1)).map _) (by simp [hn]; omega)]
  congr 1
  apply ext_getD (by simp)
  intro j hj
  have hj' : j < n := by simpa using hj
  rw [getD_range_map _ _ _ _ hj']
  have e1 : ∀ (l : List Nat) (i : Nat), (l.drop 1).getD i 0 = l.getD (i + 1) 0 := by intro l i; simp [List.getD]
  rw [e1, e1, getD_range_map _ _ _ _ (by omega), hidx j hj']

/-- Slopes of shape `(4, 5, 3)` for a batch of images, across the permutation from NHWC to NCHW. -/
example : ∃ w' c', passPrelu (passInv [0, 3, 1, 2]) (⟨[4, 5, 3], fun i => (flat [4, 5, 3] i : Int)⟩ : Tensor Int) = some w' ∧
    elementwise (fun x a => if 0 ≤ x then x else a * x) (transpose (passInv [0, 3, 1, 2]) ⟨[2, 4, 5, 3], fun i => (flat [2, 4, 5, 3] i : Int) - 7⟩) w' = some c' ∧
    Same (transpose [0, 3, 1, 2] c') ⟨[2, 4, 5, 3], fun i => (fun x a => if 0 ≤ x then x else a * x) (bcGet ⟨[2, 4, 5, 3], fun i => (flat [2, 4, 5, 3] i : Int) - 7⟩ i)
      (bcGet ⟨[4, 5, 3], fun i => (flat [4, 5, 3] i : Int)⟩ i)⟩ :=
  C47_prelu_partial (fun x a => if 0 ≤ x then x else a * x) ⟨[2, 4, 5, 3], fun i => (flat [2, 4, 5, 3] i : Int) - 7⟩ ⟨[4, 5, 3], fun i => (flat [4, 5, 3] i : Int)⟩
    _ rfl [0, 3, 1, 2] (by unfold IsPerm; decide) rfl (by decide) rfl

end Verif.Props
