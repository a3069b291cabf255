import Verif.Model.AtenMove
import Verif.Lemmas.Squeeze

/-! C61: operators that only move elements. -/

namespace Verif.Props
open Verif.Spec Verif.Model Verif.Lemmas

private theorem roll_src_inBounds {s idx : List Nat} (f : Nat → Int) (h : InBounds s idx) :
    InBounds s ((List.range s.length).map (fun a => ((((idx.getD a 0 : Nat) : Int) - f a) % ((s.getD a 0 : Nat) : Int)).toNat)) := by
  rw [inBounds_iff] at *
  refine ⟨by simp, fun a ha => ?_⟩
  have ha : a < s.length := by simpa using ha
  rw [getD_range_map _ _ _ _ ha]
  have h1 := h.2 a (by omega)
  have h2 := Int.emod_lt_of_pos (((idx.getD a 0 : Nat) : Int) - f a) (show (0 : Int) < ((s.getD a 0 : Nat) : Int) by omega)
  have h3 := Int.emod_nonneg (((idx.getD a 0 : Nat) : Int) - f a) (show ((s.getD a 0 : Nat) : Int) ≠ 0 by omega)
  omega

theorem torchRoll_congr {α : Type} (ps : List (Int × Nat)) {a b : Tensor α} (h : Same a b) : Same (torchRoll ps a) (torchRoll ps b) := by
  refine ⟨h.1, fun idx hb => ?_⟩
  simp only [torchRoll]
  rw [← h.1]
  exact h.2 _ (roll_src_inBounds _ hb)

theorem torchRoll_torchRoll {α : Type} (ps qs : List (Int × Nat)) (t : Tensor α) : Same (torchRoll ps (torchRoll qs t)) (torchRoll (qs ++ ps) t) := by
  refine ⟨rfl, fun idx hb => ?_⟩
  simp only [torchRoll]
  congr 1
  apply List.map_congr_left
  intro a ha
  have ha : a < t.shape.length := by simpa using ha
  rw [getD_range_map _ _ _ _ ha]
  have h1 := ((inBounds_iff _ _).1 hb).2 a ha
  change idx.getD a 0 < t.shape.getD a 0 at h1
  have h3 := Int.emod_nonneg (((idx.getD a 0 : Nat) : Int) - totalShift ps a) (show ((t.shape.getD a 0 : Nat) : Int) ≠ 0 by omega)
  congr 1
  change (((((((idx.getD a 0 : Nat) : Int) - totalShift ps a) % ((t.shape.getD a 0 : Nat) : Int)).toNat : Nat) : Int) - totalShift qs a) % ((t.shape.getD a 0 : Nat) : Int) =
    (((idx.getD a 0 : Nat) : Int) - totalShift (qs ++ ps) a) % ((t.shape.getD a 0 : Nat) : Int)
  rw [Int.toNat_of_nonneg h3]
  have : totalShift (qs ++ ps) a = totalShift qs a + totalShift ps a := by simp [totalShift]
  rw [this, Int.emod_sub_emod]
  congr 1
  omega

theorem rollStep_roll {α : Type} [Inhabited α] (shift : Int) (d : Nat) (t : Tensor α) (hd : d < t.shape.length) (hn : 0 < t.shape.getD d 0) :
    Same (rollStep shift d t) (torchRoll [(shift, d)] t) := by
  set n := t.shape.getD d 0 with hnd
  have hA : ∀ s : Int, (if s < 0 then s + (n : Int) else s) % n = s % n := by
    intro s
    split
    · simp
    · rfl
  have h3 := Int.emod_nonneg shift (show (n : Int) ≠ 0 by omega)
  have h4 := Int.emod_lt_of_pos shift (show (0 : Int) < n by omega)
  have hsrc : ∀ idx : List Nat, InBounds t.shape idx →
      (torchRoll [(shift, d)] t).get idx = t.get (idx.set d ((((idx.getD d 0 : Nat) : Int) - shift % n) % (n : Int)).toNat) := by
    intro idx hb
    simp only [torchRoll]
    congr 1
    have hl := inBounds_length hb
    apply ext_getD (by simp [hl])
    intro a ha
    have ha : a < t.shape.length := by simpa using ha
    rw [getD_range_map _ _ _ _ ha, set_getD (by omega)]
    have h1 := ((inBounds_iff _ _).1 hb).2 a ha
    by_cases had : a = d
    · subst had
      simp only [if_true]
      have : totalShift [(shift, a)] a = shift := by simp [totalShift]
      rw [this]
      change ((((idx.getD a 0 : Nat) : Int) - shift) % n).toNat = ((((idx.getD a 0 : Nat) : Int) - shift % n) % n).toNat
      rw [Int.sub_emod_emod]
    · rw [if_neg had]
      have : totalShift [(shift, d)] a = 0 := by
        have : ¬ d = a := fun h => had h.symm
        simp [totalShift, this]
      rw [this]
      change ((((idx.getD a 0 : Nat) : Int) - 0) % ((t.shape.getD a 0 : Nat) : Int)).toNat = _
      rw [sub_zero, Int.emod_eq_of_lt (by omega) (by omega)]
      simp
  unfold rollStep
  simp only [← hnd, hA]
  generalize hact : shift % (n : Int) = A at *
  by_cases h0 : A.toNat = 0
  · rw [if_neg (by simpa using h0)]
    refine ⟨rfl, fun idx hb => ?_⟩
    change InBounds t.shape idx at hb
    rw [hsrc idx hb]
    have : A = 0 := by omega
    rw [(reshape_self t).2 idx hb]
    congr 1
    subst this
    have h1 := ((inBounds_iff _ _).1 hb).2 d hd
    have hl := inBounds_length hb
    apply ext_getD (by simp)
    intro a ha
    rw [set_getD (by omega)]
    split
    · next h =>
      subst h
      change _ = ((((idx.getD a 0 : Nat) : Int) - 0) % (n : Int)).toNat
      rw [sub_zero, Int.emod_eq_of_lt (by omega) (by omega)]
      simp
    · rfl
  · rw [if_pos (by simpa using h0)]
    have hset : ∀ v : Nat, (t.shape.set d v).getD d 0 = v := fun v => set_getD_self _ _ _ _ hd
    have hsp : (splitV d [n - A.toNat, A.toNat] t).reverse = [splitPart d (n - A.toNat) A.toNat t, splitPart d 0 (n - A.toNat) t] := by
      simp [splitV, List.range_succ]
    rw [hsp]
    refine ⟨?_, fun idx hb => ?_⟩
    · simp only [concat, splitPart, torchRoll, Tensor.size, List.map_cons, List.map_nil, hset, List.sum_cons, List.sum_nil, List.set_set]
      rw [show A.toNat + (n - A.toNat + 0) = n by omega, hnd, getD_eq_getElem _ _ _ hd, List.set_getElem_self]
    · have hshape : (concat d [splitPart d (n - A.toNat) A.toNat t, splitPart d 0 (n - A.toNat) t]).shape = t.shape := by
        simp only [concat, splitPart, Tensor.size, List.map_cons, List.map_nil, hset, List.sum_cons, List.sum_nil, List.set_set]
        rw [show A.toNat + (n - A.toNat + 0) = n by omega, hnd, getD_eq_getElem _ _ _ hd, List.set_getElem_self]
      rw [hshape] at hb
      rw [hsrc idx hb]
      have h1 := ((inBounds_iff _ _).1 hb).2 d hd
      have hl := inBounds_length hb
      simp only [concat, concatGet, splitPart, Tensor.size, hset, List.set_set]
      have hd' : d < idx.length := by omega
      rw [set_getD_self _ _ _ _ hd', set_getD_self _ _ _ _ hd']
      set i := idx.getD d 0 with hi
      by_cases hlt : i < A.toNat
      · rw [if_pos hlt]
        congr 2
        change _ = (((i : Int) - A) % (n : Int)).toNat
        rw [← Int.add_emod_right, Int.emod_eq_of_lt (by omega) (by omega)]
        omega
      · rw [if_neg hlt, if_pos (by omega)]
        congr 2
        change _ = (((i : Int) - A) % (n : Int)).toNat
        rw [Int.emod_eq_of_lt (by omega) (by omega)]
        omega

theorem fixDim_eq (r : Nat) (d : Int) : fixDim r d = normDim r d := rfl

/-- C61: rolling along dimensions, for every list of shifts and dimensions (negative, repeated, larger than the axis). -/
theorem C61_roll {α : Type} [Inhabited α] (ps : List (Int × Int)) (t : Tensor α)
    (hd : ∀ p ∈ ps, normDim t.shape.length p.2 < t.shape.length ∧ 0 < t.shape.getD (normDim t.shape.length p.2) 0) :
    Same (convertRoll ps t) (torchRoll (ps.map (fun p => (p.1, normDim t.shape.length p.2))) t) := by
  unfold convertRoll
  induction ps generalizing t with
  | nil =>
    refine ⟨rfl, fun idx hb => ?_⟩
    simp only [List.foldl_nil, torchRoll, List.map_nil] at *
    congr 1
    have hl := inBounds_length hb
    apply ext_getD (by simp [hl])
    intro a ha
    have h1 := ((inBounds_iff _ _).1 hb).2 a (by omega)
    rw [getD_range_map _ _ _ _ (by omega)]
    change _ = ((((idx.getD a 0 : Nat) : Int) - 0) % ((t.shape.getD a 0 : Nat) : Int)).toNat
    rw [sub_zero, Int.emod_eq_of_lt (by omega) (by omega)]
    simp
  | cons p ps ih =>
    have hp := hd p (by simp)
    have hs := rollStep_roll p.1 (normDim t.shape.length p.2) t hp.1 hp.2
    have hsh : (rollStep p.1 (normDim t.shape.length p.2) t).shape = t.shape := hs.1
    simp only [List.foldl_cons, fixDim_eq]
    have := ih (rollStep p.1 (normDim t.shape.length p.2) t) (by rw [hsh]; exact fun q hq => hd q (by simp [hq]))
    rw [hsh] at this
    refine Same.trans this ?_
    refine Same.trans (torchRoll_congr _ hs) ?_
    exact torchRoll_torchRoll _ _ _

/-- Rolling the rows of a 2 by 3 tensor by -1 and its columns by 5: a shift below zero and one larger than the axis. -/
example : (convertRoll [(-1, 0), (5, -1)] (⟨[2, 3], fun i => i.getD 0 0 * 3 + i.getD 1 0⟩ : Tensor Nat)).get [0, 0] = 4 := by decide

/-- C61: rolling without dimensions. -/
theorem C61_roll_flat {α : Type} [Inhabited α] (shift : Int) (t : Tensor α) (hn : 0 < t.shape.prod) : Same (convertRollFlat shift t) (torchRollFlat shift t) := by
  have hflat : ∀ u : Tensor α, u.shape = [t.shape.prod] → (∀ k < t.shape.prod, u.get [k] = t.get (unflat t.shape k)) → ∀ idx, InBounds t.shape idx →
      (rollStep shift 0 u).get [flat t.shape idx] = (torchRollFlat shift t).get idx := by
    intro u hu hget idx hb
    have hs := rollStep_roll shift 0 u (by simp [hu]) (by simpa [hu] using hn)
    have hk := flat_lt hb
    have hb1 : InBounds [t.shape.prod] [flat t.shape idx] := by rw [inBounds_iff]; simpa using hk
    rw [hs.2 _ (by rw [hs.1]; simpa [torchRoll, hu] using hb1)]
    simp only [torchRoll, torchRollFlat, hu]
    have hm := Int.emod_lt_of_pos (((flat t.shape idx : Nat) : Int) - shift) (show (0 : Int) < ((t.shape.prod : Nat) : Int) by omega)
    have hm2 := Int.emod_nonneg (((flat t.shape idx : Nat) : Int) - shift) (show ((t.shape.prod : Nat) : Int) ≠ 0 by omega)
    have h1 : totalShift [(shift, 0)] 0 = shift := by simp [totalShift]
    simp only [List.length_singleton, List.range_one, List.map_cons, List.map_nil, h1, List.getD_cons_zero]
    rw [hget]
    change ((((flat t.shape idx : Nat) : Int) - shift) % ((t.shape.prod : Nat) : Int)).toNat < _
    omega
  have hstep : ∀ u : Tensor α, u.shape = [t.shape.prod] → (rollStep shift 0 u).shape = [t.shape.prod] := by
    intro u hu
    rw [(rollStep_roll shift 0 u (by simp [hu]) (by simpa [hu] using hn)).1]; exact hu
  unfold convertRollFlat
  by_cases h1 : t.shape.length = 1
  · obtain ⟨d, hd⟩ := List.length_eq_one_iff.1 h1
    have hu : t.shape = [t.shape.prod] := by rw [hd]; simp
    simp only [h1, ne_eq, not_true_eq_false, if_false]
    have hsh := hstep t hu
    rw [if_neg (by simp [hsh])]
    refine ⟨by rw [hsh, ← hu]; rfl, fun idx hb => ?_⟩
    rw [hsh, ← hu] at hb
    have hk : idx = [flat t.shape idx] := by
      have hl := inBounds_length hb
      rw [h1] at hl
      obtain ⟨i, hi⟩ := List.length_eq_one_iff.1 hl
      rw [hd, hi]; simp [flat]
    have := hflat t hu (fun k hk => by rw [hd]; simp [unflat]) idx hb
    rw [← hk] at this
    exact this
  · simp only [ne_eq, h1, not_false_eq_true, if_true]
    have hsh := hstep (reshape [t.shape.prod] t) rfl
    rw [if_pos (by rw [hsh]; simpa using fun h => h1 h.symm)]
    refine ⟨rfl, fun idx hb => ?_⟩
    change InBounds t.shape idx at hb
    have := hflat (reshape [t.shape.prod] t) rfl (fun k hk => by simp [reshape, flat]) idx hb
    rw [← this]
    change (rollStep shift 0 (reshape [t.shape.prod] t)).get (unflat (rollStep shift 0 (reshape [t.shape.prod] t)).shape (flat t.shape idx)) = _
    rw [hsh]
    simp [unflat]

example : (convertRollFlat (-1) (⟨[2, 3], fun i => i.getD 0 0 * 3 + i.getD 1 0⟩ : Tensor Nat)).get [1, 2] = 0 := by decide

/-- C61: flipping along distinct dimensions. -/
theorem C61_flip {α : Type} (dims : List Int) (t : Tensor α) (hd : ∀ d ∈ dims, normDim t.shape.length d < t.shape.length)
    (hn : (dims.map (normDim t.shape.length)).Nodup) :
    Same (convertFlip dims t) (torchFlip (dims.map (normDim t.shape.length)) t) := by
  have key : ∀ (ds : List Nat) (r : Nat) (u : Tensor α), u.shape.length = r → (∀ d ∈ ds, d < r) → ds.Nodup → Same (ds.foldl (fun acc d => reverseAxis d acc) u) (torchFlip ds u) := by
    intro ds r
    induction ds with
    | nil =>
      intro u hr _ _
      refine ⟨rfl, fun idx hb => ?_⟩
      simp only [List.foldl_nil] at hb ⊢
      simp only [torchFlip, List.not_mem_nil, if_false]
      congr 1
      have hl := inBounds_length hb
      apply ext_getD (by simp [hl])
      intro a ha
      rw [getD_range_map _ _ _ _ (by omega)]
    | cons d ds ih =>
      intro u hr hds hnd
      have hd : d < r := hds d (by simp)
      have h := ih (reverseAxis d u) hr (fun e he => hds e (by simp [he])) (List.nodup_cons.1 hnd).2
      refine ⟨h.1, fun idx hb => ?_⟩
      simp only [List.foldl_cons] at hb ⊢
      rw [h.2 idx hb]
      rw [h.1] at hb
      change InBounds u.shape idx at hb
      simp only [torchFlip, reverseAxis]
      congr 1
      have hl := inBounds_length hb
      apply ext_getD (by simp)
      intro a ha
      have ha : a < u.shape.length := by simpa using ha
      rw [set_getD (by simp; omega), getD_range_map _ _ _ _ ha, getD_range_map _ _ _ _ ha, getD_range_map _ _ _ _ (by omega)]
      have hnm := (List.nodup_cons.1 hnd).1
      by_cases had : a = d
      · subst had; simp [hnm]
      · simp [had]
  exact key _ _ t rfl (by simpa [fixDim_eq] using hd) hn

example : (convertFlip [0, -1] (⟨[2, 3], fun i => i.getD 0 0 * 3 + i.getD 1 0⟩ : Tensor Nat)).get [0, 0] = 5 := by decide

/-- C61: selecting one position of an axis drops the axis. -/
theorem C61_select {α : Type} (dim index : Int) (t : Tensor α) (hd : normDim t.shape.length dim < t.shape.length) :
    Same (convertSelect dim index t) (unpack (normDim t.shape.length dim) (normDim (t.shape.getD (normDim t.shape.length dim) 0) index) t) := by
  unfold convertSelect
  simp only [fixDim_eq]
  set d := normDim t.shape.length dim
  refine ⟨rfl, fun idx hb => ?_⟩
  change InBounds (t.shape.eraseIdx d) idx at hb
  have hl := inBounds_length hb
  have hel : (t.shape.eraseIdx d).length + 1 = t.shape.length := by rw [List.length_eraseIdx_of_lt hd]; omega
  simp only [reshape, gather, unpack, List.length_singleton]
  rw [← flat_insert_one _ _ d hl, insert_erase _ _ hd]
  have hb2 := inBounds_insert d 1 0 (by omega) hb (by omega)
  rw [insert_erase _ _ hd] at hb2
  rw [unflat_flat hb2]
  congr 1
  apply ext_getD (by simp; rw [List.length_insertIdx_of_le_length (by omega), List.length_insertIdx_of_le_length (by omega)])
  intro a ha
  have hli : (idx.insertIdx d 0).length = idx.length + 1 := by rw [List.length_insertIdx_of_le_length (by omega)]
  rw [set_getD (by omega), insert_getD (by omega), insert_getD (by omega), insert_getD (by omega)]
  by_cases h1 : a = d
  · subst h1; simp; rfl
  · simp [h1]

example : (convertSelect (-1) (-2) (⟨[2, 3], fun i => i.getD 0 0 * 3 + i.getD 1 0⟩ : Tensor Nat)).get [1] = 4 := by decide

theorem splitPart_size {α : Type} (a off size : Nat) (t : Tensor α) (h : a < t.shape.length) : (splitPart a off size t).shape.getD a 0 = size :=
  set_getD_self _ _ _ _ h

private theorem sum_pieces (n sz k : Nat) (hk : k * sz ≤ n) : ((List.range k).map (fun j => min sz (n - j * sz))).sum = k * sz := by
  induction k with
  | zero => simp
  | succ k ih =>
    rw [Nat.succ_mul] at hk ⊢
    rw [List.range_succ, List.map_append, List.sum_append, ih (by omega)]
    simp; omega

private theorem take_map_range {β : Type} (f : Nat → β) (m k : Nat) (h : k ≤ m) : ((List.range m).map f).take k = (List.range k).map f := by
  rw [← List.map_take, List.take_range, Nat.min_eq_left h]

theorem splitV_traced {α : Type} (a sz : Nat) (t : Tensor α) (ha : a < t.shape.length) (hz : 0 < sz) :
    splitV a ((torchSplit a sz t).map (fun o => o.shape.getD a 0)) t = torchSplit a sz t := by
  unfold splitV torchSplit
  simp only [List.length_map, List.length_range, List.map_map]
  apply List.map_congr_left
  intro k hk
  have hk : k < max 1 ((t.shape.getD a 0 + sz - 1) / sz) := by simpa using hk
  rw [take_map_range _ _ _ (Nat.le_of_lt hk), getD_range_map _ _ _ _ hk]
  simp only [Function.comp_def, splitPart_size _ _ _ _ ha]
  rw [sum_pieces]
  rcases Nat.eq_zero_or_pos k with h0 | h0
  · simp [h0]
  · have h1 : k + 1 ≤ (t.shape.getD a 0 + sz - 1) / sz := by omega
    have := Nat.mul_le_of_le_div _ _ _ h1
    rw [Nat.add_mul] at this
    omega

/-- C61: splitting into pieces of a given size (the sizes of SPLIT_V are those of the traced outputs). -/
theorem C61_split {α : Type} (size : Nat) (dim : Int) (t : Tensor α) (hz : 0 < size) (hd : normDim t.shape.length dim < t.shape.length) :
    convertSplit dim (torchSplit (normDim t.shape.length dim) size t) t = torchSplit (normDim t.shape.length dim) size t :=
  splitV_traced _ _ t hd hz

example : (torchSplit 0 2 (⟨[5], fun i => i.getD 0 0⟩ : Tensor Nat)).map Tensor.shape = [[2], [2], [1]] := by decide

/-- C61: chunking.  There are as many pieces as PyTorch makes, each with the same elements, whether or not the chunks divide the axis. -/
theorem C61_chunk {α : Type} (chunks : Nat) (dim : Int) (t : Tensor α) (hc : 0 < chunks) (hd : normDim t.shape.length dim < t.shape.length)
    (hn : 0 < t.shape.getD (normDim t.shape.length dim) 0) :
    convertChunk chunks dim (torchChunk (normDim t.shape.length dim) chunks t) t = torchChunk (normDim t.shape.length dim) chunks t := by
  unfold convertChunk
  rw [show @fixDim = @normDim from rfl]
  simp only
  set d := normDim t.shape.length dim with hdd
  set n := t.shape.getD d 0 with hnd
  have hsz : 0 < (n + chunks - 1) / chunks := Nat.div_pos (by omega) hc
  by_cases hm : n % (if chunks > n then n else chunks) ≠ 0
  · rw [if_pos hm]
    exact splitV_traced _ _ t hd hsz
  · rw [if_neg hm]
    have hm : n % (if chunks > n then n else chunks) = 0 := by omega
    unfold splitEven torchChunk torchSplit
    rw [← hnd]
    set c := if chunks > n then n else chunks with hcdef
    have hc0 : 0 < c := by rw [hcdef]; split <;> omega
    have hsize : (n + chunks - 1) / chunks = n / c := by
      rw [hcdef] at hm ⊢
      split
      · next h => rw [Nat.div_self hn]; exact Nat.div_eq_of_lt_le (by omega) (by omega)
      · next h =>
        rw [if_neg h] at hm
        obtain ⟨q, hq⟩ := Nat.dvd_of_mod_eq_zero hm
        rw [hq, show chunks * q + chunks - 1 = chunks - 1 + chunks * q by omega, Nat.add_mul_div_left _ _ hc, Nat.mul_div_cancel_left _ hc,
          Nat.div_eq_of_lt (by omega)]
        omega
    obtain ⟨q, hq⟩ := Nat.dvd_of_mod_eq_zero hm
    have hnq : n / c = q := by rw [hq, Nat.mul_div_cancel_left _ hc0]
    rw [hsize, hnq]
    have hq0 : 0 < q := by
      rcases Nat.eq_zero_or_pos q with h | h
      · subst h; omega
      · exact h
    have hcount : (n + q - 1) / q = c := by
      rw [hq, show c * q + q - 1 = q - 1 + q * c by rw [Nat.mul_comm]; omega, Nat.add_mul_div_left _ _ hq0, Nat.div_eq_of_lt (by omega)]
      omega
    rw [hcount, Nat.max_eq_right hc0]
    apply List.map_congr_left
    intro k hk
    have hk : k < c := by simpa using hk
    have h2 : (k + 1) * q ≤ c * q := Nat.mul_le_mul_right _ hk
    rw [Nat.add_mul] at h2
    simp only [split, splitPart, Tensor.size, ← hnd, hnq]
    rw [Nat.min_eq_left (by omega)]

example : (torchChunk 0 3 (⟨[7], fun i => i.getD 0 0⟩ : Tensor Nat)).map Tensor.shape = [[3], [3], [1]] ∧
    (convertChunk 3 (-1) [] (⟨[6], fun i => i.getD 0 0⟩ : Tensor Nat)).map Tensor.shape = [[2], [2], [2]] := by decide

/-- C61: unbinding gives one tensor per position. -/
theorem C61_unbind {α : Type} (dim : Int) (t : Tensor α) (k : Nat) (hk : k < t.shape.getD (normDim t.shape.length dim) 0) :
    (convertUnbind dim t).length = t.shape.getD (normDim t.shape.length dim) 0 ∧ (convertUnbind dim t)[k]? = some (unpack (normDim t.shape.length dim) k t) := by
  unfold convertUnbind
  simp only [fixDim_eq]
  refine ⟨by simp, ?_⟩
  rw [List.getElem?_map, List.getElem?_range hk]
  rfl

private theorem concatGet_ones {α : Type} [Inhabited α] (a : Nat) (ts : List (Tensor α)) (s : List Nat) (ha : a ≤ s.length) (hs : ∀ t ∈ ts, t.shape = s)
    (x : Nat) (idx : List Nat) (hx : x < ts.length) (hl : idx.length = s.length + 1) (hb : InBounds s (idx.eraseIdx a)) (d : Tensor α) :
    concatGet a (ts.map (fun t => reshape (t.shape.insertIdx a 1) t)) x idx = (ts.getD x d).get (idx.eraseIdx a) := by
  induction ts generalizing x with
  | nil => simp at hx
  | cons t ts ih =>
    have ht : t.shape = s := hs t (by simp)
    have hone : (reshape (t.shape.insertIdx a 1) t).size a = 1 := by
      simp only [Tensor.size, reshape, ht]
      rw [insert_getD ha]; simp
    simp only [List.map_cons, concatGet, hone]
    cases x with
    | zero =>
      rw [if_pos (by omega)]
      simp only [List.getD_cons_zero, reshape, ht]
      have : idx.set a 0 = (idx.eraseIdx a).insertIdx a 0 := (insert_erase _ _ (by omega) _).symm
      rw [this, flat_insert_one _ _ _ (inBounds_length hb), unflat_flat hb]
    | succ x =>
      rw [if_neg (by omega)]
      simp only [Nat.add_sub_cancel, List.getD_cons_succ]
      exact ih (fun u hu => hs u (by simp [hu])) x (by simpa using hx)

/-- C61: stacking; the RESHAPE and CONCATENATION used when the quantization differs give the same elements as PACK. -/
theorem C61_stack {α : Type} [Inhabited α] (asPack : Bool) (dim : Int) (s : List Nat) (ts : List (Tensor α)) (hne : ts ≠ [])
    (hs : ∀ t ∈ ts, t.shape = s) (hd : normDim (s.length + 1) dim ≤ s.length) (d : Tensor α) :
    Same (convertStack asPack dim s ts) (pack (normDim (s.length + 1) dim) ts.length s (fun k => ts.getD k d)) := by
  unfold convertStack
  rw [show (if dim < 0 then dim + ((s.length + 1 : Nat) : Int) else dim).toNat = normDim (s.length + 1) dim from rfl]
  simp only
  set a := normDim (s.length + 1) dim
  have hlen : ∀ {m : Nat} {idx}, InBounds (s.insertIdx a m) idx → idx.length = s.length + 1 := by
    intro m idx hb
    have := inBounds_length hb
    rw [List.length_insertIdx_of_le_length (by omega)] at this
    exact this
  have hlt : ∀ {idx}, InBounds (s.insertIdx a ts.length) idx → idx.getD a 0 < ts.length := by
    intro idx hb
    have := ((inBounds_iff _ _).1 hb).2 a (by rw [List.length_insertIdx_of_le_length (by omega)]; omega)
    rw [insert_getD hd] at this
    simpa using this
  cases asPack with
  | true =>
    simp only [if_true]
    refine ⟨rfl, fun idx hb => ?_⟩
    simp only [pack] at hb ⊢
    rw [getD_eq_getElem _ _ _ (hlt hb), getD_eq_getElem _ _ _ (hlt hb)]
  | false =>
    simp only [Bool.false_eq_true, if_false]
    have hshape : (concat a (ts.map (fun t => reshape (t.shape.insertIdx a 1) t))).shape = s.insertIdx a ts.length := by
      cases ts with
      | nil => exact absurd rfl hne
      | cons t ts =>
        have hsum : (((t :: ts).map (fun t => reshape (t.shape.insertIdx a 1) t)).map (fun u => u.size a)).sum = (t :: ts).length := by
          rw [List.map_map]
          have : ∀ u ∈ t :: ts, ((fun u : Tensor α => u.size a) ∘ fun t => reshape (t.shape.insertIdx a 1) t) u = 1 := by
            intro u hu
            simp only [Function.comp_def, Tensor.size, reshape, hs u hu]
            rw [insert_getD hd]; simp
          rw [List.map_congr_left this]
          simp only [List.map_const', List.sum_replicate]; exact Nat.mul_one _
        change (t.shape.insertIdx a 1).set a _ = _
        rw [hsum, hs t (by simp)]
        apply ext_getD
        · rw [List.length_set, List.length_insertIdx_of_le_length hd, List.length_insertIdx_of_le_length hd]
        · intro j hj
          rw [set_getD (by rw [List.length_insertIdx_of_le_length hd]; omega), insert_getD hd, insert_getD hd]
          by_cases h : j = a
          · subst h; simp
          · simp [h]
    refine ⟨hshape, fun idx hb => ?_⟩
    rw [hshape] at hb
    have hl := hlen hb
    simp only [concat, pack]
    apply concatGet_ones a ts s hd hs _ idx (hlt hb) hl
    rw [inBounds_iff] at hb ⊢
    refine ⟨by rw [List.length_eraseIdx_of_lt (by omega)]; omega, fun j hj => ?_⟩
    have hb1 := hb.2 j (by rw [List.length_insertIdx_of_le_length hd]; omega)
    have hb2 := hb.2 (j + 1) (by rw [List.length_insertIdx_of_le_length hd]; omega)
    rw [insert_getD hd] at hb1 hb2
    rw [erase_getD]
    by_cases h : j < a
    · simpa [h] using hb1
    · simp only [h, if_false]
      have h3 : ¬ (j + 1 < a) := by omega
      have h4 : ¬ (j + 1 = a) := by omega
      simpa [h3, h4] using hb2

end Verif.Props
