import Verif.Model.Norm
import Verif.Lemmas.Bcast
import Verif.Props.AvgPool
import Verif.Props.GroupConv
import Verif.Props.AtenMove
import Mathlib.Tactic.FieldSimp
import Mathlib.Algebra.BigOperators.Group.List.Lemmas

/-! C68: normalisation layers, variance and standard deviation. -/

namespace Verif.Props
open Verif.Spec Verif.Model Verif.Lemmas

section
variable {K : Type} [Field K]

/-- `i` and `j` agree outside the axes. -/
def agree (axes : List Nat) (rank : Nat) (i j : List Nat) : Bool := (List.range rank).all (fun a => decide (a ∈ axes ∨ j.getD a 0 = i.getD a 0))

theorem agree_iff (axes : List Nat) (rank : Nat) (i j : List Nat) : agree axes rank i j = true ↔ ∀ a < rank, a ∉ axes → j.getD a 0 = i.getD a 0 := by
  unfold agree
  simp only [List.all_eq_true, List.mem_range, decide_eq_true_eq]
  exact ⟨fun h a ha hn => (h a ha).resolve_left hn, fun h a ha => by
    by_cases hm : a ∈ axes
    · exact Or.inl hm
    · exact Or.inr (h a ha hm)⟩

theorem agree_trans {axes : List Nat} {rank : Nat} {i i' : List Nat} (h : agree axes rank i i' = true) : agree axes rank i' = agree axes rank i := by
  funext j
  rw [Bool.eq_iff_iff, agree_iff, agree_iff]
  rw [agree_iff] at h
  exact ⟨fun h' a ha hn => (h' a ha hn).trans (h a ha hn), fun h' a ha hn => (h' a ha hn).trans (h a ha hn).symm⟩

theorem reduceKeep_get {α β : Type} (axes : List Nat) (f : List α → β) (t : Tensor α) (idx : List Nat) :
    (reduceKeep axes f t).get idx = f (((allIndices t.shape).filter (agree axes t.shape.length idx)).map t.get) := rfl

theorem reduceKeep_length {α β : Type} (axes : List Nat) (f : List α → β) (t : Tensor α) : (reduceKeep axes f t).shape.length = t.shape.length := by simp [reduceKeep]

theorem reduceKeep_getD {α β : Type} (axes : List Nat) (f : List α → β) (t : Tensor α) (a : Nat) (ha : a < t.shape.length) :
    (reduceKeep axes f t).shape.getD a 0 = if a ∈ axes then 1 else t.shape.getD a 0 := by
  unfold reduceKeep
  exact getD_range_map _ _ _ _ ha

theorem reduceKeep_expand {α β : Type} (axes : List Nat) (f : List α → β) (t : Tensor α) : ExpandOk (reduceKeep axes f t).shape t.shape := by
  refine ⟨by rw [reduceKeep_length], ?_⟩
  rw [reduceKeep_length, Nat.sub_self, List.drop_zero]
  refine List.forall₂_iff_get.2 ⟨reduceKeep_length _ _ _, ?_⟩
  intro i h1 h2
  have := reduceKeep_getD axes f t i h2
  rw [getD_eq_getElem _ _ _ h1, getD_eq_getElem _ _ _ h2] at this
  simp only [List.get_eq_getElem, this]
  split
  · exact Or.inr rfl
  · exact Or.inl rfl

/-- The index of the reduced tensor that meets `idx`. -/
theorem reduce_index {α β : Type} (axes : List Nat) (f : List α → β) (t : Tensor α) (idx : List Nat) (hb : InBounds t.shape idx) :
    ∃ i0, (∀ {γ : Type} (r : Tensor γ), r.shape = (reduceKeep axes f t).shape → bcGet r idx = r.get i0) ∧ InBounds (reduceKeep axes f t).shape i0 ∧
      agree axes t.shape.length idx i0 = true := by
  have hl := inBounds_length hb
  obtain ⟨R, hR⟩ : ∃ R, R = (reduceKeep axes f t).shape := ⟨_, rfl⟩
  have hRl : R.length = t.shape.length := by rw [hR, reduceKeep_length]
  have hb' := ((inBounds_iff _ _).1 hb).2
  have hget : ∀ a < t.shape.length, (List.zipWith (fun d i => if d = 1 then 0 else i) R idx).getD a 0 = if R.getD a 0 = 1 then 0 else idx.getD a 0 := by
    intro a ha
    rw [getD_eq_getElem _ _ _ (by simp; omega), List.getElem_zipWith, getD_eq_getElem R _ _ (by omega), getD_eq_getElem idx _ _ (by omega)]
  refine ⟨List.zipWith (fun d i => if d = 1 then 0 else i) R idx, ?_, ?_, ?_⟩
  · intro γ r hr
    rw [← hR] at hr
    rw [bcGet_eq r idx (by rw [hr]; omega), hr, hRl, hl, Nat.sub_self, List.drop_zero]
  · rw [← hR, inBounds_iff]
    refine ⟨by simp; omega, ?_⟩
    intro a ha
    rw [hget a (by omega)]
    split
    · omega
    · next h =>
      have e := reduceKeep_getD axes f t a (by omega)
      rw [← hR] at e
      have := hb' a (by omega)
      split at e
      · exact absurd e h
      · omega
  · rw [agree_iff]
    intro a ha hn
    rw [hget a ha]
    have e := reduceKeep_getD axes f t a ha
    rw [← hR, if_neg hn] at e
    split
    · next h =>
      have := hb' a ha
      omega
    · rfl

theorem reduceKeep_agree {α β : Type} (axes : List Nat) (f : List α → β) (t : Tensor α) (i j : List Nat) (h : agree axes t.shape.length i j = true) :
    (reduceKeep axes f t).get j = (reduceKeep axes f t).get i := by rw [reduceKeep_get, reduceKeep_get, agree_trans h]

theorem reduceKeep_bcGet {α β : Type} (axes : List Nat) (f : List α → β) (t : Tensor α) (idx : List Nat) (hb : InBounds t.shape idx) :
    bcGet (reduceKeep axes f t) idx = (reduceKeep axes f t).get idx := by
  obtain ⟨i0, h1, _, h3⟩ := reduce_index axes f t idx hb
  rw [h1 _ rfl, reduceKeep_agree _ _ _ _ _ h3]

/-- The squared distances from the mean, and their reduction. -/
theorem squared_diff (axes : List Nat) (x : Tensor K) : ∃ sq, elementwise (fun a b => (a - b) ^ 2) x (reduceKeep axes avg x) = some sq ∧ sq.shape = x.shape ∧
    ∀ {β : Type} (f : List K → β) idx, (reduceKeep axes f sq).get idx =
      f ((((allIndices x.shape).filter (agree axes x.shape.length idx)).map x.get).map (fun y => (y - avg (((allIndices x.shape).filter (agree axes x.shape.length idx)).map x.get)) ^ 2)) := by
  obtain ⟨sq, h1, h2, h3⟩ := elementwise_left (fun a b => (a - b) ^ 2) x (reduceKeep axes avg x) (reduceKeep_expand axes avg x)
  refine ⟨sq, h1, h2, ?_⟩
  intro β f idx
  rw [reduceKeep_get, h2, List.map_map]
  congr 1
  refine List.map_congr_left ?_
  intro j hj
  rw [List.mem_filter] at hj
  have hjb := (allIndices_mem_iff _ _).1 hj.1
  rw [h3 j hjb, reduceKeep_bcGet _ _ _ _ hjb, reduceKeep_agree _ _ _ idx j hj.2, reduceKeep_get]
  rfl

/-- The operators of a normalisation over the axes compute the normalised elements. -/
theorem normOps_eq (sqrt : K → K) (eps : K) (axes : List Nat) (x : Tensor K) (hne : x.shape ≠ []) :
    ∃ r, normOps sqrt eps axes x = some r ∧ r.shape = x.shape ∧ ∀ idx, InBounds x.shape idx → r.get idx = normalised sqrt eps (agree axes x.shape.length) x idx := by
  obtain ⟨sq, s1, s2, s3⟩ := squared_diff axes x
  obtain ⟨num, n1, n2, n3⟩ := elementwise_left (· - ·) x (reduceKeep axes avg x) (reduceKeep_expand axes avg x)
  have hvs : (reduceKeep axes avg sq).shape = (reduceKeep axes avg x).shape := by unfold reduceKeep; rw [s2]
  have hvl : (reduceKeep axes avg sq).shape.length = x.shape.length := by rw [hvs, reduceKeep_length]
  have hpos : 0 < x.shape.length := List.length_pos_of_ne_nil hne
  obtain ⟨we, w1, w2, w3⟩ := elementwise_left (· + ·) (reduceKeep axes avg sq) (⟨[1], fun _ => eps⟩ : Tensor K) (by
    refine ⟨by simp only [List.length_singleton]; omega, ?_⟩
    obtain ⟨d, hd⟩ : ∃ d, (reduceKeep axes avg sq).shape.drop ((reduceKeep axes avg sq).shape.length - [1].length) = [d] := by
      refine List.length_eq_one_iff.1 ?_
      simp only [List.length_drop, List.length_singleton]; omega
    rw [hd]
    exact .cons (Or.inr rfl) .nil)
  obtain ⟨r, r1, r2, r3⟩ := elementwise_left (· / ·) num (⟨we.shape, fun idx => sqrt (we.get idx)⟩ : Tensor K) (by
    rw [show (⟨we.shape, fun idx => sqrt (we.get idx)⟩ : Tensor K).shape = we.shape from rfl, w2, hvs, n2]
    exact reduceKeep_expand axes avg x)
  refine ⟨r, ?_, by rw [r2, n2], ?_⟩
  · simp only [normOps, s1, n1, w1, Option.bind_eq_bind, Option.bind_some]
    exact r1
  · intro idx hb
    rw [r3 idx (by rw [n2]; exact hb), n3 idx hb, reduceKeep_bcGet _ _ _ _ hb]
    obtain ⟨i0, h1, h2, h3⟩ := reduce_index axes avg x idx hb
    rw [h1 (⟨we.shape, fun idx => sqrt (we.get idx)⟩ : Tensor K) (by rw [← hvs, ← w2])]
    have e : we.get i0 = variance (((allIndices x.shape).filter (agree axes x.shape.length idx)).map x.get) + eps := by
      rw [w3 i0 (by rw [hvs]; exact h2)]
      have : bcGet (⟨[1], fun _ => eps⟩ : Tensor K) i0 = eps := rfl
      rw [this, s3, agree_trans h3]
      rfl
    simp only [e]
    rfl

theorem agree_take (axes : List Nat) (rank n : Nat) (hn : n ≤ rank) (hax : ∀ a < rank, a ∈ axes ↔ n ≤ a) {s i j : List Nat} (hs : s.length = rank) (hi : InBounds s i) (hj : InBounds s j) :
    agree axes rank i j = decide (j.take n = i.take n) := by
  have hli := inBounds_length hi
  have hlj := inBounds_length hj
  rw [Bool.eq_iff_iff, agree_iff, decide_eq_true_eq]
  constructor
  · intro h
    refine ext_getD (by simp; omega) ?_
    intro a ha
    simp only [List.length_take] at ha
    have := h a (by omega) (by rw [hax a (by omega)]; omega)
    simpa [List.getD_eq_getElem?_getD, List.getElem?_take, show a < n by omega] using this
  · intro h a ha hnot
    have han : a < n := by
      by_contra hc
      exact hnot ((hax a ha).2 (by omega))
    have := congrArg (fun l => l.getD a 0) h
    simpa [List.getD_eq_getElem?_getD, List.getElem?_take, han] using this

theorem normalised_congr (sqrt : K → K) (eps : K) (p q : List Nat → List Nat → Bool) (x : Tensor K) (idx : List Nat) (h : ∀ j, InBounds x.shape j → p idx j = q idx j) :
    normalised sqrt eps p x idx = normalised sqrt eps q x idx := by
  unfold normalised
  have : (allIndices x.shape).filter (p idx) = (allIndices x.shape).filter (q idx) :=
    List.filter_congr (fun j hj => h j ((allIndices_mem_iff _ _).1 hj))
  rw [this]

theorem bcGet_tail (w : Tensor K) (s idx : List Nat) (k : Nat) (hk : k ≤ s.length) (hw : w.shape = s.drop (s.length - k)) (hb : InBounds s idx) :
    bcGet w idx = w.get (idx.drop (s.length - k)) ∧ ExpandOk w.shape s := by
  have hl := inBounds_length hb
  have hwl : w.shape.length = k := by rw [hw]; simp; omega
  have hd : InBounds w.shape (idx.drop (s.length - k)) := by
    rw [hw]
    unfold InBounds at hb ⊢
    exact List.forall₂_drop _ hb
  refine ⟨?_, ?_⟩
  · rw [bcGet_eq w idx (by omega), hwl, hl]
    have := bcGet_same w _ hd
    rw [bcGet_eq w _ (by simp; omega)] at this
    have e : (idx.drop (s.length - k)).length - w.shape.length = 0 := by simp; omega
    rw [e, List.drop_zero] at this
    exact this
  · refine ⟨by omega, ?_⟩
    rw [hwl, ← hw]
    exact (by simpa using (expandOk_refl w.shape).2)

/-- C68 for layer normalisation over any number of last axes, with weight and bias. -/
theorem C68_layer_norm (sqrt : K → K) (eps : K) (k : Nat) (w b x : Tensor K) (hk : 0 < k) (hkr : k ≤ x.shape.length) (hw : w.shape = x.shape.drop (x.shape.length - k))
    (hb : b.shape = x.shape.drop (x.shape.length - k)) : ∃ r, convertLayerNorm sqrt eps k w b x = some r ∧ Same r (torchLayerNorm sqrt eps k w b x) := by
  have hne : x.shape ≠ [] := by intro h; rw [h] at hkr; simp at hkr; omega
  obtain ⟨norm, h1, h2, h3⟩ := normOps_eq sqrt eps ((List.range k).map (fun i => x.shape.length - (k - i))) x hne
  have hexp : ∀ v : Tensor K, v.shape = x.shape.drop (x.shape.length - k) → ExpandOk v.shape x.shape := by
    intro v hv
    have hvl : v.shape.length = k := by rw [hv]; simp; omega
    refine ⟨by omega, ?_⟩
    rw [hvl, ← hv]
    exact (by simpa using (expandOk_refl v.shape).2)
  obtain ⟨m, m1, m2, m3⟩ := elementwise_left (· * ·) norm w (by rw [h2]; exact hexp w hw)
  obtain ⟨r, r1, r2, r3⟩ := elementwise_left (· + ·) m b (by rw [m2, h2]; exact hexp b hb)
  refine ⟨r, ?_, ?_⟩
  · simp only [convertLayerNorm, h1, m1, Option.bind_eq_bind, Option.bind_some]
    exact r1
  · refine ⟨by rw [r2, m2, h2]; rfl, ?_⟩
    intro idx hi
    rw [r2, m2, h2] at hi
    rw [r3 idx (by rw [m2, h2]; exact hi), m3 idx (by rw [h2]; exact hi), h3 idx hi, (bcGet_tail w _ idx k hkr hw hi).1, (bcGet_tail b _ idx k hkr hb hi).1]
    simp only [torchLayerNorm]
    congr 2
    refine normalised_congr _ _ _ _ _ _ ?_
    intro j hj
    refine agree_take _ _ _ (by omega) ?_ rfl hi hj
    intro a ha
    simp only [List.mem_map, List.mem_range]
    constructor
    · rintro ⟨i, hi, rfl⟩; omega
    · intro h; exact ⟨a - (x.shape.length - k), by omega, by omega⟩

/-- A weight per channel, reshaped, meets the channel of every index. -/
theorem perChannel_bc (rank : Nat) (w : Tensor K) (s idx : List Nat) (hs : s.length = rank) (hr : 2 ≤ rank) (hw : w.shape = [s.getD 1 0]) :
    ExpandOk (perChannel rank w).shape s ∧ (InBounds s idx → bcGet (perChannel rank w) idx = w.get [idx.getD 1 0]) := by
  obtain ⟨n, c, rest, rfl⟩ : ∃ n c rest, s = n :: c :: rest := by
    rcases s with _ | ⟨n, _ | ⟨c, rest⟩⟩
    · simp at hs; omega
    · simp at hs; omega
    · exact ⟨n, c, rest, rfl⟩
  have hlen : rest.length = rank - 2 := by simp at hs; omega
  have hsh : (perChannel rank w).shape = c :: List.replicate rest.length 1 := by simp [perChannel, reshape, hw, hlen]
  refine ⟨?_, ?_⟩
  · rw [hsh]
    refine ⟨by simp, ?_⟩
    have : (n :: c :: rest).length - (c :: List.replicate rest.length 1).length = 1 := by simp
    rw [this]
    refine .cons (Or.inl rfl) ?_
    clear hs hw hsh hlen this
    induction rest with
    | nil => exact .nil
    | cons d rest ih => exact .cons (Or.inr rfl) ih
  · intro hb
    have hl := inBounds_length hb
    obtain ⟨i, j, ks, rfl⟩ : ∃ i j ks, idx = i :: j :: ks := by
      rcases idx with _ | ⟨i, _ | ⟨j, ks⟩⟩
      · simp at hl
      · simp at hl
      · exact ⟨i, j, ks, rfl⟩
    have hks : ks.length = rest.length := by simpa using hl
    have hj : j < c := by
      cases hb with
      | cons _ hb => cases hb with
        | cons h _ => exact h
    rw [bcGet_eq _ _ (by rw [hsh]; simp; omega), hsh]
    have e1 : (i :: j :: ks).length - (c :: List.replicate rest.length 1).length = 1 := by simp; omega
    rw [e1]
    have e2 : ∀ (m : Nat) (ks : List Nat), ks.length = m → List.zipWith (fun d i => if d = 1 then 0 else i) (List.replicate m 1) ks = List.replicate m 0 := by
      intro m
      induction m with
      | zero => intro ks _; simp
      | succ m ih => intro ks h; cases ks with
        | nil => simp at h
        | cons x ks => simp [List.replicate_succ, ih ks (by simpa using h)]
    have e3 : ∀ m : Nat, flat (List.replicate m 1) (List.replicate m 0) = 0 := by
      intro m
      induction m with
      | zero => rfl
      | succ m ih => simp [List.replicate_succ, flat, ih]
    have e4 : (if c = 1 then 0 else j) = j := by split <;> omega
    simp only [List.drop_succ_cons, List.drop_zero, List.zipWith_cons_cons, e2 _ _ hks, e4]
    simp only [perChannel, reshape, hw, List.prod_singleton, ← hlen, flat, e3, List.prod_replicate, one_pow, Nat.mul_one, Nat.add_zero, unflat, List.prod_nil, Nat.div_one]
    simp

private theorem affine_eq (wb : Option (Tensor K × Tensor K)) (rank : Nat) (norm : Tensor K) (s : List Nat) (hn : norm.shape = s) (hs : s.length = rank) (hr : 2 ≤ rank)
    (hwb : ∀ w b, wb = some (w, b) → w.shape = [s.getD 1 0] ∧ b.shape = [s.getD 1 0]) :
    ∃ r, affineOps wb rank norm = some r ∧ r.shape = s ∧ ∀ idx, InBounds s idx → r.get idx = channelAffine wb idx (norm.get idx) := by
  cases wb with
  | none => exact ⟨norm, rfl, hn, fun idx _ => rfl⟩
  | some p =>
    obtain ⟨w, b⟩ := p
    obtain ⟨h1, h2⟩ := hwb w b rfl
    obtain ⟨m, m1, m2, m3⟩ := elementwise_left (· * ·) norm (perChannel rank w) (by rw [hn]; exact (perChannel_bc rank w s [] hs hr h1).1)
    obtain ⟨r, r1, r2, r3⟩ := elementwise_left (· + ·) m (perChannel rank b) (by rw [m2, hn]; exact (perChannel_bc rank b s [] hs hr h2).1)
    refine ⟨r, ?_, by rw [r2, m2, hn], ?_⟩
    · simp only [affineOps, m1, Option.bind_eq_bind, Option.bind_some]
      exact r1
    · intro idx hi
      rw [r3 idx (by rw [m2, hn]; exact hi), m3 idx (by rw [hn]; exact hi), (perChannel_bc rank w s idx hs hr h1).2 hi, (perChannel_bc rank b s idx hs hr h2).2 hi]
      rfl

/-- C68 for instance normalisation with the statistics of the input, with and without weight and bias. -/
theorem C68_instance_norm (sqrt : K → K) (eps : K) (wb : Option (Tensor K × Tensor K)) (x : Tensor K) (hr : 2 ≤ x.shape.length)
    (hwb : ∀ w b, wb = some (w, b) → w.shape = [x.shape.getD 1 0] ∧ b.shape = [x.shape.getD 1 0]) :
    ∃ r, convertInstanceNorm sqrt eps wb x = some r ∧ Same r (torchInstanceNorm sqrt eps wb x) := by
  have hne : x.shape ≠ [] := by intro h; rw [h] at hr; simp at hr
  obtain ⟨norm, h1, h2, h3⟩ := normOps_eq sqrt eps (List.range' 2 (x.shape.length - 2)) x hne
  obtain ⟨r, r1, r2, r3⟩ := affine_eq wb x.shape.length norm x.shape h2 rfl hr hwb
  refine ⟨r, ?_, by rw [r2]; rfl, ?_⟩
  · simp only [convertInstanceNorm, h1, Option.bind_eq_bind, Option.bind_some]
    exact r1
  · intro idx hi
    rw [r2] at hi
    rw [r3 idx hi, h3 idx hi]
    simp only [torchInstanceNorm]
    congr 1
    refine normalised_congr _ _ _ _ _ _ ?_
    intro j hj
    refine agree_take _ _ _ hr ?_ rfl hi hj
    intro a ha
    rw [List.mem_range'_1]
    omega

/-- Reordering a group of elements does not change its statistics. -/
private theorem avg_perm {l m : List K} (h : l.Perm m) : avg l = avg m := by unfold avg; rw [h.sum_eq, h.length_eq]

private theorem variance_perm {l m : List K} (h : l.Perm m) : variance l = variance m := by
  unfold variance
  rw [avg_perm h]
  exact avg_perm (h.map _)

private theorem mapM_some {α β : Type} (g : α → Option β) (f : α → β) (l : List α) (h : ∀ a, g a = some (f a)) : l.mapM g = some (l.map f) := by
  induction l with
  | nil => rfl
  | cons a l ih => simp [List.mapM_cons, h, ih]

/-- The elements of one part of the split input are the elements of one group. -/
private theorem part_perm (x : Tensor K) (m k : Nat) (groups : Nat) (hr : 2 ≤ x.shape.length) (hm : x.shape.getD 1 0 / groups = m) (hm0 : 0 < m) (hC : x.shape.getD 1 0 = groups * m) (hk : k < groups)
    (idx idx' : List Nat) (h0 : idx'.getD 0 0 = idx.getD 0 0) (h1 : idx.getD 1 0 / m = k) :
    (((allIndices (split 1 groups x k).shape).filter (agree (List.range' 1 (x.shape.length - 1)) (split 1 groups x k).shape.length idx')).map (split 1 groups x k).get).Perm
      (((allIndices x.shape).filter (fun j => decide (j.getD 0 0 = idx.getD 0 0 ∧ j.getD 1 0 / m = idx.getD 1 0 / m))).map x.get) := by
  have hsz : x.size 1 / groups = m := hm
  have hsh : (split 1 groups x k).shape = x.shape.set 1 m := by simp [split, hsz]
  have hget : (split 1 groups x k).get = x.get ∘ (fun j => j.set 1 (k * m + j.getD 1 0)) := by
    funext j; simp [split, hsz]
  rw [hget, ← List.map_map]
  refine List.Perm.map _ ?_
  rw [hsh]
  have hlen : (x.shape.set 1 m).length = x.shape.length := by simp
  rw [hlen]
  have hag : ∀ j, agree (List.range' 1 (x.shape.length - 1)) x.shape.length idx' j = true ↔ j.getD 0 0 = idx.getD 0 0 := by
    intro j
    rw [agree_iff, ← h0]
    constructor
    · intro h; exact h 0 (by omega) (by simp)
    · intro h a ha hn
      have : a = 0 := by
        by_contra hc
        exact hn (by rw [List.mem_range'_1]; omega)
      subst this; exact h
  rw [List.perm_ext_iff_of_nodup]
  · intro j
    simp only [List.mem_map, List.mem_filter, allIndices_mem_iff, hag, decide_eq_true_eq]
    constructor
    · rintro ⟨i, ⟨hi, hi0⟩, rfl⟩
      rw [inBounds_iff] at hi
      obtain ⟨hil, hib⟩ := hi
      rw [hlen] at hil hib
      have hi1 := hib 1 (by omega)
      rw [set_getD_self _ _ _ _ (by omega)] at hi1
      refine ⟨?_, ?_, ?_⟩
      · rw [inBounds_iff]
        refine ⟨by simpa using hil, ?_⟩
        intro a ha
        have := hib a ha
        rw [set_getD (by omega)] at this ⊢
        split
        · next h =>
          subst h
          rw [hC]
          have : (k + 1) * m ≤ groups * m := Nat.mul_le_mul_right _ hk
          rw [Nat.add_mul] at this
          omega
        · next h => rw [if_neg h] at this; exact this
      · rw [set_getD_ne _ _ _ _ _ (by decide)]; exact hi0
      · rw [set_getD_self _ _ _ _ (by omega), h1, Nat.mul_comm, Nat.mul_add_div hm0, Nat.div_eq_of_lt hi1]
        rfl
    · rintro ⟨hj, hj0, hj1⟩
      rw [inBounds_iff] at hj
      obtain ⟨hjl, hjb⟩ := hj
      refine ⟨j.set 1 (j.getD 1 0 % m), ⟨?_, ?_⟩, ?_⟩
      · rw [inBounds_iff]
        refine ⟨by simpa using hjl, ?_⟩
        intro a ha
        rw [hlen] at ha
        rw [set_getD (by omega), set_getD (by omega)]
        split
        · exact Nat.mod_lt _ hm0
        · exact hjb a ha
      · rw [set_getD_ne _ _ _ _ _ (by decide)]; exact hj0
      · rw [set_getD_self _ _ _ _ (by omega), List.set_set, ← h1, ← hj1, Nat.mul_comm, Nat.div_add_mod]
        refine ext_getD (by simp) ?_
        intro a ha
        rw [set_getD (by omega)]
        split
        · next h => subst h; rfl
        · rfl
  · refine List.Nodup.map_on ?_ ((allIndices_nodup _).filter _)
    intro i hi j hj e
    rw [List.mem_filter, allIndices_mem_iff, inBounds_iff, hlen] at hi hj
    have hli := hi.1.1
    have hlj := hj.1.1
    refine ext_getD (by omega) ?_
    intro a ha
    have := congrArg (fun l => l.getD a 0) e
    simp only [set_getD (l := i) (a := 1) (by omega), set_getD (l := j) (a := 1) (by omega)] at this
    split at this
    · next h => subst h; omega
    · exact this
  · exact (allIndices_nodup _).filter _

/-- C68 for group normalisation with any number of groups, with and without weight and bias. -/
theorem C68_group_norm [Inhabited K] (sqrt : K → K) (eps : K) (groups : Nat) (wb : Option (Tensor K × Tensor K)) (x : Tensor K) (hr : 2 ≤ x.shape.length) (hg : 0 < groups) (hC0 : 0 < x.shape.getD 1 0)
    (hdvd : groups ∣ x.shape.getD 1 0) (hwb : ∀ w b, wb = some (w, b) → w.shape = [x.shape.getD 1 0] ∧ b.shape = [x.shape.getD 1 0]) :
    ∃ r, convertGroupNorm sqrt eps groups wb x = some r ∧ Same r (torchGroupNorm sqrt eps groups wb x) := by
  have hne : x.shape ≠ [] := by intro h; rw [h] at hr; simp at hr
  suffices hs : ∃ norm, (if x.shape.getD 1 0 = groups ∧ groups > 1 then normOps sqrt eps (List.range' 2 (x.shape.length - 2)) x
      else if groups = 1 then normOps sqrt eps (List.range' 1 (x.shape.length - 1)) x
      else (List.range' 0 groups).mapM (fun k => normOps sqrt eps (List.range' 1 (x.shape.length - 1)) (split 1 groups x k)) >>= fun norms => some (concat 1 norms)) = some norm ∧
      norm.shape = x.shape ∧ ∀ idx, InBounds x.shape idx → norm.get idx = normalised sqrt eps
        (fun i j => decide (j.getD 0 0 = i.getD 0 0 ∧ j.getD 1 0 / (x.shape.getD 1 0 / groups) = i.getD 1 0 / (x.shape.getD 1 0 / groups))) x idx by
    obtain ⟨norm, h1, h2, h3⟩ := hs
    obtain ⟨r, r1, r2, r3⟩ := affine_eq wb x.shape.length norm x.shape h2 rfl hr hwb
    refine ⟨r, ?_, by rw [r2]; rfl, ?_⟩
    · unfold convertGroupNorm
      simp only [Option.bind_eq_bind] at h1 ⊢
      split at h1
      · next h => rw [if_pos h, h1]; exact r1
      · next h =>
        rw [if_neg h]
        split at h1
        · next h' => rw [if_pos h', h1]; exact r1
        · next h' =>
          rw [if_neg h']
          rw [Option.bind_eq_some_iff] at h1
          obtain ⟨ns, e1, e2⟩ := h1
          cases e2
          rw [e1]
          exact r1
    · intro idx hi
      rw [r2] at hi
      rw [r3 idx hi, h3 idx hi]
      rfl
  obtain ⟨m, hCm⟩ := hdvd
  have hm : x.shape.getD 1 0 / groups = m := by rw [hCm, Nat.mul_div_cancel_left _ hg]
  have hm0 : 0 < m := by
    rcases Nat.eq_zero_or_pos m with h | h
    · subst h; omega
    · exact h
  rw [hm]
  split
  · next h =>
    have hm1 : m = 1 := by rw [← hm, h.1]; exact Nat.div_self hg
    subst hm1
    obtain ⟨norm, h1, h2, h3⟩ := normOps_eq sqrt eps (List.range' 2 (x.shape.length - 2)) x hne
    refine ⟨norm, h1, h2, ?_⟩
    intro idx hi
    rw [h3 idx hi]
    refine normalised_congr _ _ _ _ _ _ ?_
    intro j hj
    rw [Bool.eq_iff_iff, agree_iff, decide_eq_true_eq, Nat.div_one, Nat.div_one]
    constructor
    · intro h
      exact ⟨h 0 (by omega) (by simp), h 1 (by omega) (by simp)⟩
    · rintro ⟨e0, e1⟩ a ha hn
      have : a = 0 ∨ a = 1 := by
        by_contra hc
        exact hn (by rw [List.mem_range'_1]; omega)
      rcases this with rfl | rfl
      · exact e0
      · exact e1
  · split
    · next h =>
      subst h
      obtain ⟨norm, h1, h2, h3⟩ := normOps_eq sqrt eps (List.range' 1 (x.shape.length - 1)) x hne
      refine ⟨norm, h1, h2, ?_⟩
      intro idx hi
      rw [h3 idx hi]
      refine normalised_congr _ _ _ _ _ _ ?_
      intro j hj
      have hi1 := ((inBounds_iff _ _).1 hi).2 1 (by omega)
      have hj1 := ((inBounds_iff _ _).1 hj).2 1 (by omega)
      rw [hCm, Nat.one_mul] at hi1 hj1
      rw [Bool.eq_iff_iff, agree_iff, decide_eq_true_eq, Nat.div_eq_of_lt hi1, Nat.div_eq_of_lt hj1]
      constructor
      · intro h
        exact ⟨h 0 (by omega) (by simp), rfl⟩
      · rintro ⟨e0, _⟩ a ha hn
        have : a = 0 := by
          by_contra hc
          exact hn (by rw [List.mem_range'_1]; omega)
        subst this; exact e0
    · have hps : ∀ k, (split 1 groups x k).shape = x.shape.set 1 m := by
        intro k
        have : x.size 1 / groups = m := hm
        simp [split, this]
      have hall : ∀ k, ∃ r, normOps sqrt eps (List.range' 1 (x.shape.length - 1)) (split 1 groups x k) = some r ∧ r.shape = x.shape.set 1 m ∧
          ∀ idx, InBounds (x.shape.set 1 m) idx → r.get idx = normalised sqrt eps (agree (List.range' 1 (x.shape.length - 1)) (split 1 groups x k).shape.length) (split 1 groups x k) idx := by
        intro k
        have := normOps_eq sqrt eps (List.range' 1 (x.shape.length - 1)) (split 1 groups x k) (by rw [hps]; intro h; exact hne (by simpa using h))
        rw [hps] at this
        rw [hps]
        exact this
      choose f f1 f2 f3 using hall
      refine ⟨concat 1 ((List.range' 0 groups).map f), ?_, ?_, ?_⟩
      · rw [mapM_some _ f _ f1]; rfl
      · obtain ⟨g, rfl⟩ : ∃ g, groups = g + 1 := ⟨groups - 1, by omega⟩
        have hsum : ((List.map f (List.range' 0 (g + 1))).map (fun u => u.size 1)).sum = (g + 1) * m := by
          have : (fun u : Tensor K => u.size 1) ∘ f = fun _ => m := by
            funext k
            simp only [Function.comp_apply, Tensor.size, f2]
            exact set_getD_self _ _ _ _ (by omega)
          rw [List.map_map, this]
          simp
        show ((f 0).shape).set 1 (((List.map f (List.range' 0 (g + 1))).map (fun u => u.size 1)).sum) = x.shape
        rw [hsum, f2, List.set_set, ← hCm]
        refine ext_getD (by simp) ?_
        intro a ha
        rw [set_getD (by omega)]
        split
        · next h => subst h; rfl
        · rfl
      · intro idx hi
        have hl := inBounds_length hi
        have hib := ((inBounds_iff _ _).1 hi).2
        have hi1 := hib 1 (by omega)
        rw [hCm] at hi1
        have hk : idx.getD 1 0 / m < groups := by rw [Nat.div_lt_iff_lt_mul hm0]; exact hi1
        have hmod : idx.getD 1 0 % m < m := Nat.mod_lt _ hm0
        show concatGet 1 ((List.range' 0 groups).map f) (idx.getD 1 0) idx = _
        rw [concatGet_uniform 1 m f idx (by intro k; simp only [Tensor.size, f2]; exact set_getD_self _ _ _ _ (by omega)) groups 0 _ hi1, Nat.zero_add]
        rw [f3 _ _ (by
          rw [inBounds_iff]
          refine ⟨by simpa using hl, ?_⟩
          intro a ha
          simp only [List.length_set] at ha
          rw [set_getD (by omega), set_getD (by omega)]
          split
          · exact hmod
          · exact hib a ha)]
        have hP := part_perm x m (idx.getD 1 0 / m) groups hr hm hm0 hCm hk idx (idx.set 1 (idx.getD 1 0 % m)) (set_getD_ne _ _ _ _ _ (by decide)) rfl
        simp only [normalised]
        rw [avg_perm hP, variance_perm hP]
        congr 2
        have hsz : x.size 1 / groups = m := hm
        simp only [split, hsz]
        congr 1
        rw [set_getD_self _ _ _ _ (by omega), List.set_set, Nat.mul_comm, Nat.div_add_mod]
        refine ext_getD (by simp) ?_
        intro a ha
        simp only [List.length_set] at ha
        rw [set_getD (by omega)]
        split
        · next h => subst h; rfl
        · rfl

/-- The number of elements that agree with an index outside the axes. -/
private theorem agree_count (axes : List Nat) (s idx : List Nat) (hb : ∀ a < s.length, a ∉ axes → idx.getD a 0 < s.getD a 0) :
    ((allIndices s).filter (agree axes s.length idx)).length = (((List.range s.length).filter (fun i => i ∈ axes)).map (fun i => s.getD i 0)).prod := by
  have hP : ((allIndices s).filter (agree axes s.length idx)).Perm
      ((allIndices ((List.range s.length).map (fun a => if a ∈ axes then s.getD a 0 else 1))).map (fun j => (List.range s.length).map (fun a => if a ∈ axes then j.getD a 0 else idx.getD a 0))) := by
    rw [List.perm_ext_iff_of_nodup]
    · intro j
      simp only [List.mem_filter, List.mem_map, allIndices_mem_iff, agree_iff, inBounds_iff]
      constructor
      · rintro ⟨⟨hl, hj⟩, ha⟩
        refine ⟨(List.range s.length).map (fun a => if a ∈ axes then j.getD a 0 else 0), ⟨by simp, ?_⟩, ?_⟩
        · intro a h
          simp only [List.length_map, List.length_range] at h
          rw [getD_range_map _ _ _ _ h, getD_range_map _ _ _ _ h]
          split
          · exact hj a h
          · omega
        · refine ext_getD (by simp; omega) ?_
          intro a h
          simp only [List.length_map, List.length_range] at h
          rw [getD_range_map _ _ _ _ h, getD_range_map _ _ _ _ h]
          split
          · rfl
          · next hn => exact (ha a h hn).symm
      · rintro ⟨i, ⟨hil, hi⟩, rfl⟩
        refine ⟨⟨by simp, ?_⟩, ?_⟩
        · intro a h
          have := hi a (by simpa using h)
          rw [getD_range_map _ _ _ _ h] at this ⊢
          split
          · next hm => rw [if_pos hm] at this; exact this
          · next hm => exact hb a h hm
        · intro a h hn
          rw [getD_range_map _ _ _ _ h, if_neg hn]
    · exact (allIndices_nodup _).filter _
    · refine List.Nodup.map_on ?_ (allIndices_nodup _)
      intro i hi j hj e
      rw [allIndices_mem_iff, inBounds_iff] at hi hj
      simp only [List.length_map, List.length_range] at hi hj
      refine ext_getD (by omega) ?_
      intro a ha
      have hi1 := hi.2 a (by omega)
      have hj1 := hj.2 a (by omega)
      have := congrArg (fun l => l.getD a 0) e
      simp only [getD_range_map _ _ _ _ (show a < s.length by omega)] at this hi1 hj1
      split at this
      · exact this
      · next hn => rw [if_neg hn] at hi1 hj1; omega
  rw [hP.length_eq, List.length_map]
  unfold allIndices
  rw [List.length_map, List.length_range]
  generalize List.range s.length = l
  induction l with
  | nil => rfl
  | cons a l ih =>
    simp only [List.map_cons, List.prod_cons, List.filter_cons, decide_eq_true_eq]
    split
    · rw [ih, List.map_cons, List.prod_cons]
    · rw [ih, Nat.one_mul]

/-- Division of a reduction by the number of samples, inside or outside of the reduction. -/
private theorem reduceAxes_divide (keep : Bool) (axes : List Nat) (f : List K → K) (c : K) (x : Tensor K) (idx : List Nat)
    (hb : InBounds (reduceAxes keep axes f x).shape idx) :
    (reduceAxes keep axes (fun xs => f xs / ((xs.length : K) - c)) x).get idx =
      (reduceAxes keep axes f x).get idx / (((((List.range x.shape.length).filter (fun i => i ∈ axes)).map (fun i => x.shape.getD i 0)).prod : ℕ) - c) := by
  have key : ∀ i, InBounds (reduceKeep axes f x).shape i → (reduceKeep axes (fun xs => f xs / ((xs.length : K) - c)) x).get i =
      (reduceKeep axes f x).get i / (((((List.range x.shape.length).filter (fun i => i ∈ axes)).map (fun i => x.shape.getD i 0)).prod : ℕ) - c) := by
    intro i hi
    rw [reduceKeep_get, reduceKeep_get, List.length_map, agree_count]
    intro a ha hn
    have := ((inBounds_iff _ _).1 hi).2 a (by rw [reduceKeep_length]; exact ha)
    rw [reduceKeep_getD _ _ _ _ ha, if_neg hn] at this
    exact this
  cases keep with
  | true => exact key idx hb
  | false =>
    simp only [reduceAxes, Bool.false_eq_true, if_false, reshape] at hb ⊢
    refine key _ ?_
    refine unflat_inBounds ?_
    have hp : (((List.range x.shape.length).filter (fun a => a ∉ axes)).map (fun a => x.shape.getD a 0)).prod = (reduceKeep axes f x).shape.prod := by
      unfold reduceKeep
      simp only
      generalize List.range x.shape.length = l
      induction l with
      | nil => rfl
      | cons a l ih =>
        by_cases h : a ∈ axes
        · simp only [List.filter_cons, List.map_cons, List.prod_cons, h, not_true_eq_false, decide_false, Bool.false_eq_true, if_false, if_true, Nat.one_mul]
          exact ih
        · simp only [List.filter_cons, List.map_cons, List.prod_cons, h, not_false_eq_true, decide_true, if_true, if_false]
          rw [ih]
    rw [← hp]
    exact flat_lt hb

/-- The axes `torch.var` uses: all of them without `dim` and for an empty `dim`. -/
def varAxes (dim : Option (List Int)) (rank : Nat) : List Nat :=
  match dim with
  | none => List.range rank
  | some l => if l = [] then List.range rank else l.map (normDim rank)

private theorem reduceAxes_congr {α α' β : Type} (keep : Bool) (axes : List Nat) (f : List α → β) (g : List α' → β) (t : Tensor α) (u : Tensor α') (hs : t.shape = u.shape)
    (h : ∀ idx, (reduceKeep axes f t).get idx = (reduceKeep axes g u).get idx) : reduceAxes keep axes f t = reduceAxes keep axes g u := by
  have e : reduceKeep axes f t = reduceKeep axes g u := by
    have h1 : (reduceKeep axes f t).shape = (reduceKeep axes g u).shape := by unfold reduceKeep; rw [hs]
    have h2 : (reduceKeep axes f t).get = (reduceKeep axes g u).get := funext h
    cases hA : reduceKeep axes f t
    cases hB : reduceKeep axes g u
    rw [hA, hB] at h1 h2
    simp only at h1 h2
    rw [h1, h2]
  unfold reduceAxes
  rw [e, hs]

/-- C68 for the variance, for every non-empty list of axes or none, kept or removed axes, and every correction. -/
theorem C68_var [DecidableEq K] (a : VarArgs K) (x : Tensor K) (hd : a.dim ≠ some []) :
    ∃ r, convertVar a x = some r ∧ Same r (torchVar a.keep (varAxes a.dim x.shape.length) (if a.unbiased then a.correction else 0) x) := by
  have hax : varAxes a.dim x.shape.length = a.axes x.shape.length := by
    unfold varAxes VarArgs.axes
    cases h : a.dim with
    | none => rfl
    | some l =>
      have : l ≠ [] := by rintro rfl; exact hd h
      simp only [if_neg this]
      rfl
  rw [hax]
  obtain ⟨axes, hA⟩ : ∃ axes, axes = a.axes x.shape.length := ⟨_, rfl⟩
  rw [← hA]
  obtain ⟨sq, s1, s2, s3⟩ := squared_diff axes x
  have hsum : ∀ f : List K → K, reduceAxes a.keep axes f sq = reduceAxes a.keep axes (fun xs => f (xs.map (fun y => (y - avg xs) ^ 2))) x :=
    fun f => reduceAxes_congr _ _ _ _ _ _ s2 (fun idx => by rw [s3, reduceKeep_get])
  by_cases hu : a.unbiased = true ∧ a.correction ≠ 0
  · rw [if_pos hu.1]
    obtain ⟨r, r1, r2, r3⟩ := elementwise_left (· / ·) (reduceAxes a.keep axes List.sum sq)
      (⟨[], fun _ => ((((List.range x.shape.length).filter (fun i => i ∈ axes)).map (fun i => x.shape.getD i 0)).prod : ℕ) - a.correction⟩ : Tensor K) (by
        refine ⟨by simp, ?_⟩
        simp)
    refine ⟨r, ?_, ?_⟩
    · simp only [convertVar, ← hA, s1, Option.bind_eq_bind, Option.bind_some]
      rw [if_pos hu]
      exact r1
    · have hsh : r.shape = (torchVar a.keep axes a.correction x).shape := by
        rw [r2, hsum]
        unfold torchVar reduceAxes
        cases a.keep <;> rfl
      refine ⟨hsh, ?_⟩
      intro idx hi
      rw [r2] at hi
      rw [r3 idx hi, hsum]
      rw [hsum] at hi
      unfold torchVar
      rw [reduceAxes_divide a.keep axes (fun xs => (xs.map (fun y => (y - avg xs) ^ 2)).sum) a.correction x idx hi]
      rfl
  · have hc : (if a.unbiased = true then a.correction else 0) = 0 := by
      split
      · next h => by_contra hc; exact hu ⟨h, hc⟩
      · rfl
    rw [hc]
    refine ⟨reduceAxes a.keep axes avg sq, ?_, ?_⟩
    · simp only [convertVar, ← hA, s1, Option.bind_eq_bind, Option.bind_some]
      rw [if_neg hu]
    · rw [hsum]
      have : (fun xs : List K => avg (xs.map (fun y => (y - avg xs) ^ 2))) = fun xs => (xs.map (fun y => (y - avg xs) ^ 2)).sum / ((xs.length : K) - 0) := by
        funext xs
        rw [sub_zero]
        conv_lhs => rw [avg]
        rw [List.length_map]
      rw [this]
      exact ⟨rfl, fun _ _ => rfl⟩

/-- C68 for the standard deviation. -/
theorem C68_std [DecidableEq K] (sqrt : K → K) (a : VarArgs K) (x : Tensor K) (hd : a.dim ≠ some []) :
    ∃ r v, convertStd sqrt a x = some r ∧ v = torchVar a.keep (varAxes a.dim x.shape.length) (if a.unbiased then a.correction else 0) x ∧ r.shape = v.shape ∧
      ∀ idx, InBounds r.shape idx → r.get idx = sqrt (v.get idx) := by
  obtain ⟨v, h1, h2, h3⟩ := C68_var a x hd
  refine ⟨⟨v.shape, fun idx => sqrt (v.get idx)⟩, _, ?_, rfl, h2, ?_⟩
  · simp only [convertStd, h1, Option.bind_eq_bind, Option.bind_some]
  · intro idx hi
    show sqrt (v.get idx) = _
    rw [h3 idx hi]

end

/-- The full claim for the variance is false: with an empty list of axes PyTorch reduces over all axes, the emitted operators reduce over none (and without a correction
give zero everywhere). -/
theorem C68_var_empty_dims_false :
    ∃ (a : VarArgs ℚ) (x r : Tensor ℚ), convertVar a x = some r ∧ a.correction = 0 ∧ r.shape = [2] ∧ r.get [0] = 0 ∧
      (torchVar a.keep (varAxes a.dim x.shape.length) (if a.unbiased then a.correction else 0) x).shape = [] ∧
      (torchVar a.keep (varAxes a.dim x.shape.length) (if a.unbiased then a.correction else 0) x).get [] = 1 / 4 := by
  refine ⟨⟨some [], false, true, 0⟩, ⟨[2], fun idx => (idx.getD 0 0 : ℚ)⟩, _, rfl, rfl, ?_, ?_, ?_, ?_⟩
  · rfl
  · have e : ((allIndices [2]).filter (fun j => (List.range 1).all (fun a => decide (a ∈ ([] : List Nat) ∨ j.getD a 0 = ([0] : List Nat).getD a 0)))) = [[0]] := by decide
    show avg (((allIndices [2]).filter (fun j => (List.range 1).all (fun a => decide (a ∈ ([] : List Nat) ∨ j.getD a 0 = ([0] : List Nat).getD a 0)))).map _) = 0
    rw [e]
    show avg [(((0 : ℕ) : ℚ) - avg (((allIndices [2]).filter (fun j => (List.range 1).all (fun a => decide (a ∈ ([] : List Nat) ∨ j.getD a 0 = ([0] : List Nat).getD a 0)))).map (fun idx => (idx.getD 0 0 : ℚ)))) ^ 2] = 0
    rw [e]
    norm_num [avg]
  · rfl
  · have e : ((allIndices [2]).filter (fun j => (List.range 1).all (fun a => decide (a ∈ List.range 1 ∨ j.getD a 0 = ([0] : List Nat).getD a 0)))) = [[0], [1]] := by decide
    show (fun xs : List ℚ => (xs.map (fun y => (y - avg xs) ^ 2)).sum / ((xs.length : ℚ) - 0)) (((allIndices [2]).filter (fun j => (List.range 1).all (fun a => decide (a ∈ List.range 1 ∨ j.getD a 0 = ([0] : List Nat).getD a 0)))).map _) = _
    rw [e]
    norm_num [avg]

/-- The hypotheses of the theorems are met by tensors with four channels in two groups. -/
example : ∃ (x w : Tensor ℚ), 2 ≤ x.shape.length ∧ 0 < x.shape.getD 1 0 ∧ 2 ∣ x.shape.getD 1 0 ∧ (∀ w' b', some (w, w) = some (w', b') → w'.shape = [x.shape.getD 1 0] ∧ b'.shape = [x.shape.getD 1 0]) ∧
    ∃ r, convertGroupNorm (fun v => v) (1 : ℚ) 2 (some (w, w)) x = some r ∧ Same r (torchGroupNorm (fun v => v) 1 2 (some (w, w)) x) := by
  have hw : ∀ w' b' : Tensor ℚ, some ((⟨[4], fun _ => 3⟩ : Tensor ℚ), (⟨[4], fun _ => 3⟩ : Tensor ℚ)) = some (w', b') → w'.shape = [4] ∧ b'.shape = [4] := by
    intro w' b' h; cases h; exact ⟨rfl, rfl⟩
  exact ⟨⟨[1, 4, 3], fun idx => (idx.getD 1 0 : ℚ)⟩, ⟨[4], fun _ => 3⟩, by decide, by decide, by decide, hw, C68_group_norm _ _ _ _ _ (by decide) (by decide) (by decide) (by decide) hw⟩

example : ∃ (x w b : Tensor ℚ), 2 ≤ x.shape.length ∧ w.shape = x.shape.drop (x.shape.length - 2) ∧ b.shape = x.shape.drop (x.shape.length - 2) ∧
    ∃ r, convertLayerNorm (fun v => v) (1 : ℚ) 2 w b x = some r ∧ Same r (torchLayerNorm (fun v => v) 1 2 w b x) :=
  ⟨⟨[2, 4, 3], fun idx => (idx.getD 1 0 : ℚ)⟩, ⟨[4, 3], fun _ => 3⟩, ⟨[4, 3], fun _ => 5⟩, by decide, rfl, rfl, C68_layer_norm _ _ _ _ _ _ (by decide) (by decide) rfl rfl⟩

example : ∃ (a : VarArgs ℚ), a.dim ≠ some [] ∧ a.dim ≠ none ∧ a.correction ≠ 0 := ⟨⟨some [-1, 0], true, true, 1⟩, by simp, by simp, by norm_num⟩

end Verif.Props
