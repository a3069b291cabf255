import Verif.Model.WrappedReshape
import Verif.Props.Layout
import Verif.Props.ReshapeMap
import Mathlib.Data.List.Count

/-! C113: a reshape between two transposes. -/

namespace Verif.Props
open Verif.Spec Verif.Lemmas Verif.Model Verif.Model.Wrapped

namespace Wrapped

/-- Offsets of pairs of size and position. -/
def flatZ : List (ℕ × ℕ) → ℕ
  | [] => 0
  | (_, i) :: z => i * (z.map Prod.fst).prod + flatZ z

theorem flat_zip : ∀ s idx : List ℕ, idx.length = s.length → flat s idx = flatZ (s.zip idx)
  | [], [], _ => rfl
  | d :: s, i :: idx, h => by
    have hl : idx.length = s.length := by simpa using h
    rw [List.zip_cons_cons, flatZ, flat, flat_zip s idx hl, List.map_fst_zip (by omega)]

theorem prod_filter (z : List (ℕ × ℕ)) : ((z.filter fun x => x.1 ≠ 1).map Prod.fst).prod = (z.map Prod.fst).prod := by
  induction z with
  | nil => rfl
  | cons x z ih =>
    by_cases h : x.1 = 1 <;> simp_all

theorem flatZ_filter : ∀ z : List (ℕ × ℕ), (∀ x ∈ z, x.1 = 1 → x.2 = 0) → flatZ (z.filter fun x => x.1 ≠ 1) = flatZ z
  | [], _ => rfl
  | (d, i) :: z, h => by
    have ih := flatZ_filter z fun x hx => h x (List.mem_cons_of_mem _ hx)
    by_cases hd : d = 1
    · have hi : i = 0 := h (d, i) (by simp) hd
      simp [hd, hi, flatZ]
      simpa using ih
    · rw [List.filter_cons_of_pos (by simpa using hd), flatZ, flatZ, prod_filter, ih]

theorem zip_zero {s idx : List ℕ} (h : InBounds s idx) : ∀ x ∈ s.zip idx, x.1 = 1 → x.2 = 0 := by
  induction h with
  | nil => simp
  | cons h _ ih =>
    intro x hx hx1
    rw [List.zip_cons_cons, List.mem_cons] at hx
    rcases hx with rfl | hx
    · simp only at hx1
      simp only
      omega
    · exact ih x hx hx1

/-- A transpose that keeps the order of the axes that do not have size 1 is a reshape. -/
theorem transpose_eq_reshape {α : Type} (u : Tensor α) {n : ℕ} (hn : u.shape.length = n) {σ : List ℕ} (hσ : IsPerm n σ)
    (hf : σ.filter (fun k => u.shape.getD k 0 ≠ 1) = (List.range n).filter fun k => u.shape.getD k 0 ≠ 1) :
    Same (transpose σ u) (reshape (σ.map fun k => u.shape.getD k 0) u) := by
  refine ⟨rfl, fun idx hi => ?_⟩
  have hsrc := transpose_src_inBounds hσ hn hi
  have hi' : InBounds (σ.map fun k => u.shape.getD k 0) idx := hi
  rw [hn] at hsrc
  have hil : idx.length = n := by rw [inBounds_length hi]; simp [transpose, hσ.length]
  show u.get ((List.range u.shape.length).map fun j => idx.getD (σ.idxOf j) 0) = u.get (unflat u.shape (flat (σ.map fun k => u.shape.getD k 0) idx))
  rw [hn]
  generalize hS : (List.range n).map (fun j => idx.getD (σ.idxOf j) 0) = src at hsrc ⊢
  have hsl : src.length = n := by rw [← hS]; simp
  have h1 : (σ.map fun k => u.shape.getD k 0).zip idx = σ.map fun k => (u.shape.getD k 0, src.getD k 0) := by
    refine List.ext_getElem (by simp [hσ.length, hil]) fun i h1 h2 => ?_
    have hin : i < n := by simpa [hσ.length] using h2
    have hg : σ[i]'(by rw [hσ.length]; exact hin) < n := (hσ.mem _).1 (List.getElem_mem _)
    rw [List.getElem_zip, List.getElem_map, List.getElem_map]
    have hv : src.getD (σ.getD i 0) 0 = idx.getD i 0 := by
      rw [← hS, getD_range_map _ _ _ _ (hσ.get_lt hin), hσ.idxOf_get hin]
    rw [getD_eq_getElem σ _ _ (by rw [hσ.length]; exact hin), getD_eq_getElem idx _ _ (by omega)] at hv
    rw [hv]
  have h2 : u.shape.zip src = (List.range n).map fun k => (u.shape.getD k 0, src.getD k 0) := by
    refine List.ext_getElem (by simp [hn, hsl]) fun i h1 h2 => ?_
    have hin : i < n := by simpa using h2
    rw [List.getElem_zip, List.getElem_map, List.getElem_range, getD_eq_getElem _ _ _ (by omega), getD_eq_getElem _ _ _ (by omega)]
  have hflat : flat (σ.map fun k => u.shape.getD k 0) idx = flat u.shape src := by
    rw [flat_zip _ _ (by simp [hσ.length, hil]), flat_zip _ _ (by omega), ← flatZ_filter _ (zip_zero hi'), ← flatZ_filter _ (zip_zero hsrc)]
    have e1 : (σ.map fun k => u.shape.getD k 0).zip idx = σ.map fun k => (u.shape.getD k 0, src.getD k 0) := h1
    show flatZ (((σ.map fun k => u.shape.getD k 0).zip idx).filter _) = _
    rw [e1, h2, List.filter_map, List.filter_map]
    congr 2
  rw [hflat, unflat_flat hsrc]

theorem pools_mem {new : List ℕ} {v p : ℕ} : p ∈ pools new v ↔ p < new.length ∧ new.getD p 0 = v := by
  simp [pools]

theorem pools_nodup (new : List ℕ) (v : ℕ) : (pools new v).Nodup := List.nodup_range.filter _

/-- Sizes agree, axes differ, and none is missing if there are enough of each size. -/
theorem pick_spec (new : List ℕ) : ∀ (old : List ℕ) (m : ℕ → List ℕ), (∀ v, ∀ p ∈ m v, p < new.length ∧ new.getD p 0 = v) → (∀ v, (m v).Nodup) → (∀ v, old.count v ≤ (m v).length) →
    ∃ out, pick m old = some out ∧ out.Nodup ∧ (∀ p ∈ out, p < new.length ∧ p ∈ m (new.getD p 0)) ∧ out.map (fun k => new.getD k 0) = old := by
  intro old
  induction old with
  | nil => intro m _ _ _; exact ⟨[], rfl, List.nodup_nil, by simp, rfl⟩
  | cons x l ih =>
    intro m h1 h2 h3
    cases hm : m x with
    | nil =>
      have := h3 x
      rw [hm] at this
      simp at this
    | cons p ps =>
      have hp := h1 x p (by rw [hm]; simp)
      have hnd := h2 x
      rw [hm, List.nodup_cons] at hnd
      obtain ⟨out, o1, o2, o3, o4⟩ := ih (fun v => if v = x then ps else m v) (fun v q hq => by
        by_cases hv : v = x
        · subst hv
          simp only [if_true] at hq
          exact h1 v q (by rw [hm]; exact List.mem_cons_of_mem _ hq)
        · simp only [hv, if_false] at hq
          exact h1 v q hq) (fun v => by
        by_cases hv : v = x
        · simp only [hv, if_true]
          exact hnd.2
        · simp only [hv, if_false]
          exact h2 v) (fun v => by
        have := h3 v
        by_cases hv : v = x
        · subst hv
          rw [hm] at this
          simp only [List.count_cons_self, List.length_cons] at this
          simp only [if_true]
          omega
        · rw [List.count_cons_of_ne (fun h => hv h.symm)] at this
          simp only [hv, if_false]
          exact this)
      have hpo : p ∉ out := by
        intro hpo
        have := (o3 p hpo).2
        rw [hp.2, if_pos rfl] at this
        exact hnd.1 this
      refine ⟨p :: out, ?_, List.nodup_cons.2 ⟨hpo, o2⟩, fun q hq => ?_, ?_⟩
      · rw [pick, hm]
        simp only [o1, Option.map_some]
      · rcases List.mem_cons.1 hq with rfl | hq
        · exact ⟨hp.1, by rw [hp.2, hm]; simp⟩
        · obtain ⟨q1, q2⟩ := o3 q hq
          refine ⟨q1, ?_⟩
          by_cases hv : new.getD q 0 = x
          · rw [if_pos hv] at q2
            rw [hv, hm]
            exact List.mem_cons_of_mem _ q2
          · rwa [if_neg hv] at q2
      · rw [List.map_cons, o4, hp.2]

/-- The axes of other sizes than 1 are taken in order. -/
theorem pick_order (new : List ℕ) : ∀ (old : List ℕ) (m : ℕ → List ℕ) (N out : List ℕ), (∀ v, v ≠ 1 → m v = N.filter fun p => new.getD p 0 = v) →
    (∀ v, ∀ p ∈ m v, new.getD p 0 = v) → old.filter (· ≠ 1) = N.map (fun p => new.getD p 0) → pick m old = some out → out.filter (fun p => new.getD p 0 ≠ 1) = N := by
  intro old
  induction old with
  | nil =>
    intro m N out _ _ h3 h4
    have : N = [] := by simpa using h3.symm
    cases h4
    rw [this]
    rfl
  | cons x l ih =>
    intro m N out h1 h2 h3 h4
    rw [pick] at h4
    cases hm : m x with
    | nil =>
      rw [hm] at h4
      cases h4
    | cons p ps =>
      rw [hm] at h4
      simp only at h4
      have hpx := h2 x p (by rw [hm]; simp)
      obtain ⟨out', o1, rfl⟩ := Option.map_eq_some_iff.1 h4
      have hm2 : ∀ v, ∀ q ∈ (if v = x then ps else m v), new.getD q 0 = v := by
        intro v q hq
        by_cases hv : v = x
        · subst hv
          rw [if_pos rfl] at hq
          exact h2 v q (by rw [hm]; exact List.mem_cons_of_mem _ hq)
        · rw [if_neg hv] at hq
          exact h2 v q hq
      by_cases hx : x = 1
      · rw [List.filter_cons_of_neg (by simpa using hx)] at h3
        rw [List.filter_cons_of_neg (by simp only [ne_eq, decide_not, Bool.not_eq_true', decide_eq_false_iff_not, not_not]; rw [hpx, hx])]
        refine ih _ N out' (fun v hv => ?_) hm2 h3 o1
        rw [if_neg (by rw [hx]; exact hv)]
        exact h1 v hv
      · rw [List.filter_cons_of_pos (by simpa using hx)] at h3
        rw [List.filter_cons_of_pos (by simp only [ne_eq, decide_not, Bool.not_eq_true', decide_eq_false_iff_not]; rw [hpx]; exact hx)]
        cases N with
        | nil => simp at h3
        | cons q N =>
          rw [List.map_cons, List.cons.injEq] at h3
          have hq : p = q ∧ ps = N.filter fun p => new.getD p 0 = x := by
            have := h1 x hx
            rw [hm, List.filter_cons_of_pos (by simpa using h3.1.symm), List.cons.injEq] at this
            exact this
          rw [hq.1]
          congr 1
          refine ih _ N out' (fun v hv => ?_) hm2 h3.2 o1
          by_cases hvx : v = x
          · rw [if_pos hvx, hq.2, hvx]
          · rw [if_neg hvx, h1 v hv, List.filter_cons_of_neg]
            simp only [decide_eq_true_eq]
            intro hc
            exact hvx (hc ▸ h3.1.symm)

theorem count_filter_ne (l : List ℕ) (v : ℕ) (hv : v ≠ 1) : (l.filter (· != 1)).count v = l.count v := List.count_filter (by simpa using hv)

theorem count_one (l : List ℕ) : l.count 1 + (l.filter (· != 1)).length = l.length := by
  induction l with
  | nil => rfl
  | cons x l ih =>
    by_cases h : x = 1
    · subst h
      simp
      omega
    · rw [List.count_cons_of_ne (fun h' => h h'), List.filter_cons_of_pos (by simpa using h)]
      simp
      omega

theorem pools_length (new : List ℕ) (v : ℕ) : (pools new v).length = new.count v := by
  have : new = (List.range new.length).map fun i => new.getD i 0 := by
    refine List.ext_getElem (by simp) fun i h1 h2 => ?_
    simp [List.getD_eq_getElem?_getD, h1]
  conv_rhs => rw [this]
  rw [pools, List.count, List.countP_map, List.countP_eq_length_filter]
  congr 1

theorem pools_filter (new : List ℕ) (v : ℕ) (hv : v ≠ 1) : pools new v = ((List.range new.length).filter fun k => new.getD k 0 ≠ 1).filter fun p => new.getD p 0 = v := by
  rw [List.filter_filter, pools]
  refine List.filter_congr fun p _ => ?_
  by_cases h : new.getD p 0 = v
  · simp only [h, decide_true, hv, ne_eq, not_false_eq_true, Bool.and_self]
  · simp only [h, decide_false, Bool.false_and]

theorem range_filter_map (new : List ℕ) : ((List.range new.length).filter fun k => new.getD k 0 ≠ 1).map (fun p => new.getD p 0) = new.filter (· ≠ 1) := by
  have : new = (List.range new.length).map fun i => new.getD i 0 := by
    refine List.ext_getElem (by simp) fun i h1 h2 => ?_
    simp [List.getD_eq_getElem?_getD, h1]
  conv_rhs => rw [this]
  rw [List.filter_map]
  rfl

/-- With as many axes, a reshape that only moves axes of size 1 is a transpose. -/
theorem pick_reshape {α : Type} (u : Tensor α) (b : List ℕ) (hl : b.length = u.shape.length) (hs : u.shape.filter (· != 1) = b.filter (· != 1)) :
    ∃ σ, pick (pools u.shape) b = some σ ∧ IsPerm u.shape.length σ ∧ Same (transpose σ u) (reshape b u) := by
  obtain ⟨σ, s1, s2, s3, s4⟩ := pick_spec u.shape b (pools u.shape) (fun v p hp => pools_mem.1 hp) (pools_nodup _) (fun v => by
    rw [pools_length]
    by_cases hv : v = 1
    · subst hv
      have h1 := count_one u.shape
      have h2 := count_one b
      rw [hs] at h1
      omega
    · rw [← count_filter_ne b v hv, ← count_filter_ne u.shape v hv, hs])
  have hlen : σ.length = u.shape.length := by
    rw [← hl, ← s4]
    simp
  have hσ : IsPerm u.shape.length σ := isPerm_of_nodup hlen s2 fun x hx => (s3 x hx).1
  refine ⟨σ, s1, hσ, ?_⟩
  have := transpose_eq_reshape u rfl hσ (pick_order u.shape b (pools u.shape) _ σ (fun v hv => pools_filter _ v hv) (fun v p hp => (pools_mem.1 hp).2) (by
    rw [range_filter_map]
    have h' : ∀ l : List ℕ, l.filter (· ≠ 1) = l.filter (· != 1) := fun l => List.filter_congr fun x _ => by by_cases hx : x = 1 <;> simp [hx]
    rw [h', h', hs]) s1)
  rw [s4] at this
  exact this

/-- What is known of `next_perm`. -/
structure Found (new : List ℕ) (z : List (ℕ × ℕ)) (next : List ℕ) : Prop where
  nodup : next.Nodup
  len : next.length ≤ new.length
  mem : ∀ k, k < next.length → (new.getD k 0, next.getD k 0) ∈ z

theorem found_step {new : List ℕ} {z : List (ℕ × ℕ)} {next : List ℕ} (h : Found new z next) {o item : ℕ} (hz : (o, item) ∈ z) (hc : new[next.length]? = some o ∧ item ∉ next) :
    Found new z (next ++ [item]) := by
  obtain ⟨hlt, ho⟩ := List.getElem?_eq_some_iff.1 hc.1
  refine ⟨List.nodup_append.2 ⟨h.nodup, by simp, fun a ha b hb => ?_⟩, by simp; omega, fun k hk => ?_⟩
  · rw [List.mem_singleton] at hb
    subst hb
    rintro rfl
    exact hc.2 ha
  · rw [List.length_append, List.length_singleton] at hk
    by_cases hk' : k < next.length
    · have := h.mem k hk'
      rwa [show (next ++ [item]).getD k 0 = next.getD k 0 by simp [List.getD_eq_getElem?_getD, List.getElem?_append_left hk']]
    · have hke : k = next.length := by omega
      subst hke
      rw [show (next ++ [item]).getD next.length 0 = item by simp [List.getD_eq_getElem?_getD], show new.getD next.length 0 = o by rw [List.getD_eq_getElem?_getD, hc.1]; rfl]
      exact hz

theorem scanOnce_found {new : List ℕ} {z : List (ℕ × ℕ)} : ∀ (w : List (ℕ × ℕ)) (next : List ℕ), (∀ x ∈ w, x ∈ z) → Found new z next →
    Found new z (scanOnce new w next) ∧ next.length ≤ (scanOnce new w next).length
  | [], next, _, h => ⟨h, le_refl _⟩
  | (o, item) :: w, next, hw, h => by
    rw [scanOnce]
    have hw' : ∀ x ∈ w, x ∈ z := fun x hx => hw x (List.mem_cons_of_mem _ hx)
    split
    · rename_i hc
      obtain ⟨h1, h2⟩ := scanOnce_found w _ hw' (found_step h (hw _ (by simp)) hc)
      exact ⟨h1, by simp at h2; omega⟩
    · exact scanOnce_found w next hw' h

/-- A round finds an axis if there is one. -/
theorem scanOnce_grows {new : List ℕ} {z : List (ℕ × ℕ)} {o item : ℕ} : ∀ (w : List (ℕ × ℕ)) (next : List ℕ), (∀ x ∈ w, x ∈ z) → Found new z next → (o, item) ∈ w → new[next.length]? = some o → item ∉ next →
    next.length < (scanOnce new w next).length
  | (o', item') :: w, next, hw, h, hm, ho, hi => by
    rw [scanOnce]
    have hw' : ∀ x ∈ w, x ∈ z := fun x hx => hw x (List.mem_cons_of_mem _ hx)
    split
    · rename_i hc
      have := (scanOnce_found w _ hw' (found_step h (hw _ (by simp)) hc)).2
      simp at this
      omega
    · rename_i hc
      rcases List.mem_cons.1 hm with he | hm'
      · cases he
        exact absurd ⟨ho, hi⟩ hc
      · exact scanOnce_grows w next hw' h hm' ho hi

/-- While axes are missing, one of the right size is left. -/
theorem left_over {new old cur : List ℕ} (hlen : cur.length = old.length) (hnd : cur.Nodup) (hcount : ∀ v, new.count v ≤ old.count v) {next : List ℕ} (h : Found new (old.zip cur) next)
    (hlt : next.length < new.length) : ∃ item, (new[next.length], item) ∈ old.zip cur ∧ item ∉ next := by
  by_contra hc
  push Not at hc
  -- all items of that size are in `next`, at places of that size
  have hsub : (((old.zip cur).filter fun x => x.1 = new[next.length]).map Prod.snd).length ≤ ((List.range next.length).filter fun k => new.getD k 0 = new[next.length]).length := by
    have hnd1 : (((old.zip cur).filter fun x => x.1 = new[next.length]).map Prod.snd).Nodup := by
      have : ((old.zip cur).map Prod.snd).Nodup := by rw [List.map_snd_zip (by omega)]; exact hnd
      exact this.sublist (List.filter_sublist.map _)
    have hss : ∀ item ∈ ((old.zip cur).filter fun x => x.1 = new[next.length]).map Prod.snd, item ∈ ((List.range next.length).filter fun k => new.getD k 0 = new[next.length]).map fun k => next.getD k 0 := by
      intro item hit
      obtain ⟨⟨o, it⟩, hx, rfl⟩ := List.mem_map.1 hit
      obtain ⟨hx1, hx2⟩ := List.mem_filter.1 hx
      have ho : o = new[next.length] := by simpa using hx2
      subst ho
      have hin := hc it hx1
      obtain ⟨k, hk, hke⟩ := List.getElem_of_mem hin
      have hm := h.mem k hk
      have hkd : next.getD k 0 = it := by rw [getD_eq_getElem _ _ _ hk, hke]
      rw [hkd] at hm
      have hinj : ((old.zip cur).map Prod.snd).Nodup := by rw [List.map_snd_zip (by omega)]; exact hnd
      have := List.inj_on_of_nodup_map hinj hm hx1 rfl
      have hfst := congrArg Prod.fst this
      exact List.mem_map.2 ⟨k, List.mem_filter.2 ⟨by simpa using hk, by simpa using hfst⟩, hkd⟩
    have := (List.subperm_of_subset hnd1 hss).length_le
    simpa using this
  have h1 : (((old.zip cur).filter fun x => x.1 = new[next.length]).map Prod.snd).length = old.count new[next.length] := by
    have : old = (old.zip cur).map Prod.fst := by rw [List.map_fst_zip (by omega)]
    conv_rhs => rw [this]
    rw [List.length_map, List.count, List.countP_map, List.countP_eq_length_filter]
    congr 1
  have h2 : ((List.range next.length).filter fun k => new.getD k 0 = new[next.length]).length + 1 ≤ new.count new[next.length] := by
    rw [← pools_length]
    have hsp : ((List.range next.length).filter fun k => new.getD k 0 = new[next.length]) ++ [next.length] = (List.range (next.length + 1)).filter fun k => new.getD k 0 = new[next.length] := by
      rw [List.range_succ, List.filter_append]
      congr 1
      rw [List.filter_cons_of_pos]
      · rfl
      · simp [List.getD_eq_getElem?_getD, hlt]
    have : (((List.range (next.length + 1)).filter fun k => new.getD k 0 = new[next.length])).length ≤ (pools new new[next.length]).length := by
      refine (List.Sublist.filter _ ?_).length_le
      exact List.range_sublist.2 (by omega)
    rw [← hsp] at this
    simpa using this
  have h3 := hcount new[next.length]
  omega

theorem scan_some {new old cur : List ℕ} (hlen : cur.length = old.length) (hnd : cur.Nodup) (hcount : ∀ v, new.count v ≤ old.count v) : ∃ next, scan new (old.zip cur) = some next := by
  have key : ∀ n, Found new (old.zip cur) ((scanOnce new (old.zip cur))^[n] []) ∧ min n new.length ≤ ((scanOnce new (old.zip cur))^[n] []).length := by
    intro n
    induction n with
    | zero => exact ⟨⟨List.nodup_nil, by simp, by simp⟩, by simp⟩
    | succ n ih =>
      rw [Function.iterate_succ_apply']
      generalize (scanOnce new (old.zip cur))^[n] [] = next at ih ⊢
      obtain ⟨h1, h2⟩ := ih
      obtain ⟨h3, h4⟩ := scanOnce_found (old.zip cur) next (fun _ h => h) h1
      refine ⟨h3, ?_⟩
      by_cases hlt : next.length < new.length
      · obtain ⟨item, i1, i2⟩ := left_over hlen hnd hcount h1 hlt
        have := scanOnce_grows (z := old.zip cur) (old.zip cur) next (fun _ h => h) h1 i1 (by simp) i2
        omega
      · omega
  have := (key new.length).2
  unfold scan
  simp only [min_self] at this
  rw [if_neg (by omega)]
  exact ⟨_, rfl⟩

theorem simple_count {a b : List ℕ} (h : a.filter (· != 1) = b.filter (· != 1)) (hl : a.length ≤ b.length) (v : ℕ) : a.count v ≤ b.count v := by
  by_cases hv : v = 1
  · subst hv
    have h1 := count_one a
    have h2 := count_one b
    rw [h] at h1
    omega
  · rw [← count_filter_ne a v hv, ← count_filter_ne b v hv, h]

end Wrapped

open Wrapped

/-- C113: the pass ends without an exception on every sequence. -/
theorem C113_ends {α : Type} (t : Tensor α) (p₁ b p₂ : List ℕ) (h₁ : IsPerm t.shape.length p₁) (h₂ : IsPerm b.length p₂) : ∃ r, wrapped p₁ b p₂ t = some r := by
  unfold wrapped
  simp only
  have hul : (transpose p₁ t).shape.length = t.shape.length := by rw [transpose_shape_length h₁]
  by_cases hsimple : (isSimpleReshape (transpose p₁ t).shape b).1 = true
  swap
  · rw [if_neg hsimple]
    exact ⟨_, rfl⟩
  rw [if_pos hsimple]
  have hs := (C06_simple_reshape (transpose p₁ t).shape b).1.1 hsimple
  unfold extended
  split
  · obtain ⟨next, hn⟩ := scan_some (new := (transpose p₁ t).shape) (h₂.length) h₂.nodup (simple_count hs (by omega))
    rw [hn]
    exact ⟨_, rfl⟩
  · split
    · obtain ⟨next, hn⟩ := scan_some (new := b) (old := (transpose p₁ t).shape) (by rw [h₁.length, hul]) h₁.nodup (simple_count hs.symm (by omega))
      rw [hn]
      exact ⟨_, rfl⟩
    · split
      · exact ⟨_, rfl⟩
      · obtain ⟨σ, s1, _⟩ := pick_reshape (transpose p₁ t) b (by omega) hs
        rw [s1]
        exact ⟨_, rfl⟩

/-- C113, in part: if the reshape keeps the number of axes, what the pass leaves computes what the three operators computed.  Missing: other numbers of axes (`C113_squeeze_false`,
`C113_unsqueeze_false`). -/
theorem C113_partial {α : Type} (t : Tensor α) (p₁ b p₂ : List ℕ) (h₁ : IsPerm t.shape.length p₁) (hb : b.length = t.shape.length) (h₂ : IsPerm b.length p₂) :
    ∃ r, wrapped p₁ b p₂ t = some r ∧ Same r (transpose p₂ (reshape b (transpose p₁ t))) := by
  unfold wrapped
  simp only
  have hul : (transpose p₁ t).shape.length = t.shape.length := by rw [transpose_shape_length h₁]
  by_cases hsimple : (isSimpleReshape (transpose p₁ t).shape b).1 = true
  swap
  · rw [if_neg hsimple]
    exact ⟨_, rfl, Same.refl _⟩
  rw [if_pos hsimple]
  have hs := (C06_simple_reshape (transpose p₁ t).shape b).1.1 hsimple
  rw [hb] at h₂
  unfold extended
  rw [if_neg (by omega), if_neg (by omega)]
  -- the reshape is a transpose
  have key : ∀ q, IsPerm t.shape.length q → Same (transpose q (transpose p₁ t)) (reshape b (transpose p₁ t)) →
      Same (if isSortedPerm (npTake (npTake p₁ q) p₂) then reshape (transpose p₂ (reshape b (transpose p₁ t))).shape t else transpose p₂ (reshape b (transpose p₁ t)))
        (transpose p₂ (reshape b (transpose p₁ t))) := by
    intro q hq hsame
    by_cases hsort : isSortedPerm (npTake (npTake p₁ q) p₂) = true
    swap
    · rw [if_neg hsort]
      exact Same.refl _
    rw [if_pos hsort]
    have hpq : IsPerm t.shape.length (npTake p₁ q) := IsPerm.comp h₁ hq
    have hall := isSortedPerm_range (IsPerm.comp hpq h₂) hsort
    have c1 : Same (transpose p₂ (reshape b (transpose p₁ t))) (transpose p₂ (transpose (npTake p₁ q) t)) :=
      transpose_congr h₂ (by show b.length = _; exact hb) (hsame.symm.trans (transpose_transpose h₁ hq t rfl))
    have c2 := transpose_transpose hpq h₂ t rfl
    have hid : Same (transpose p₂ (reshape b (transpose p₁ t))) t := by
      refine c1.trans (c2.trans ?_)
      rw [show p₂.map (fun k => (npTake p₁ q).getD k 0) = List.range t.shape.length from hall]
      exact transpose_id t
    rw [hid.1]
    exact (reshape_self t).trans hid.symm
  by_cases hab : (transpose p₁ t).shape = b
  · rw [if_pos hab]
    have hk := key (List.range t.shape.length) (List.Perm.refl _) (by
      have h1 := transpose_id (transpose p₁ t)
      rw [hul] at h1
      refine h1.trans ?_
      have h2 := reshape_self (transpose p₁ t)
      rw [hab] at h2
      exact h2.symm)
    have he : npTake p₁ (List.range t.shape.length) = p₁ := by
      unfold npTake
      refine List.ext_getElem (by simp [h₁.length]) fun i h1 h2 => ?_
      simp [List.getD_eq_getElem?_getD, h2]
    rw [he] at hk
    exact ⟨_, rfl, hk⟩
  · rw [if_neg hab]
    obtain ⟨σ, s1, s2, s3⟩ := pick_reshape (transpose p₁ t) b (by omega) hs
    rw [s1]
    rw [hul] at s2
    exact ⟨_, rfl, key σ s2 s3⟩

/-- A dropped axis: a rotation of the axes is taken for its inverse, and the data is not moved. -/
theorem C113_squeeze_false : ∃ (t r : Tensor ℕ) (p₁ b p₂ : List ℕ), IsPerm t.shape.length p₁ ∧ IsPerm b.length p₂ ∧ wrapped p₁ b p₂ t = some r ∧
    (transpose p₂ (reshape b (transpose p₁ t))).shape = [4, 2, 3] ∧ r.shape = [4, 2, 3] ∧ (transpose p₂ (reshape b (transpose p₁ t))).get [1, 0, 0] ≠ r.get [1, 0, 0] := by
  refine ⟨arange [2, 3, 4, 1], reshape [4, 2, 3] (arange [2, 3, 4, 1]), [1, 2, 0, 3], [3, 4, 2], [1, 2, 0], by unfold IsPerm; decide, by unfold IsPerm; decide, ?_, by decide, by decide, by decide⟩
  have h1 : (isSimpleReshape (transpose [1, 2, 0, 3] (arange [2, 3, 4, 1])).shape [3, 4, 2]).1 = true := by
    show (isSimpleReshape [3, 4, 2, 1] [3, 4, 2]).1 = true
    simp [isSimpleReshape, simpleGo]
  have h2 : extended [1, 2, 0, 3] (transpose [1, 2, 0, 3] (arange [2, 3, 4, 1])).shape [3, 4, 2] [1, 2, 0] = some [0, 1, 2] := by decide +kernel
  unfold wrapped
  simp only [h1, h2, if_true, Option.map_some]
  rfl

/-- An added axis: two transposes that swap the axes of a matrix are dropped although only one of them does. -/
theorem C113_unsqueeze_false : ∃ (t r : Tensor ℕ) (p₁ b p₂ : List ℕ), IsPerm t.shape.length p₁ ∧ IsPerm b.length p₂ ∧ wrapped p₁ b p₂ t = some r ∧
    (transpose p₂ (reshape b (transpose p₁ t))).shape = [2, 3, 1] ∧ r.shape = [2, 3, 1] ∧ (transpose p₂ (reshape b (transpose p₁ t))).get [0, 1, 0] ≠ r.get [0, 1, 0] := by
  refine ⟨arange [3, 2], reshape [2, 3, 1] (arange [3, 2]), [1, 0], [1, 2, 3], [1, 2, 0], by unfold IsPerm; decide, by unfold IsPerm; decide, ?_, by decide, by decide, by decide⟩
  have h1 : (isSimpleReshape (transpose [1, 0] (arange [3, 2])).shape [1, 2, 3]).1 = true := by
    show (isSimpleReshape [2, 3] [1, 2, 3]).1 = true
    simp [isSimpleReshape, simpleGo]
  have h2 : extended [1, 0] (transpose [1, 0] (arange [3, 2])).shape [1, 2, 3] [1, 2, 0] = some [0, 1] := by decide +kernel
  unfold wrapped
  simp only [h1, h2, if_true, Option.map_some]
  rfl

/-- A case of `C113_partial` in which the sequence is dropped: an axis of size 1 is moved by the reshape and back by the transposes. -/
example : ∃ (t : Tensor ℕ) (p₁ b p₂ : List ℕ), IsPerm t.shape.length p₁ ∧ b.length = t.shape.length ∧ IsPerm b.length p₂ ∧ (transpose p₁ t).shape ≠ b ∧
    extended p₁ (transpose p₁ t).shape b p₂ = some (List.range 4) :=
  ⟨arange [1, 3, 4, 2], [0, 2, 3, 1], [4, 2, 1, 3], [2, 3, 0, 1], by unfold IsPerm; decide, by decide, by unfold IsPerm; decide, by decide, by decide +kernel⟩

end Verif.Props
