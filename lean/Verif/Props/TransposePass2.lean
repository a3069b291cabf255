import Verif.Props.TransposePass

/-!
C47, continued: operators that change the rank, broadcasting operators and reductions.
-/

namespace Verif.Props
open Verif.Model Verif.Spec Verif.Lemmas

theorem pass_argsort_getD {n : Nat} {p : List Nat} (hp : IsPerm n p) {j : Nat} (hj : j < n) : p.getD ((npArgsort p).getD j 0) 0 = j := by
  have hq := argsort_isPerm (IsPerm.length hp)
  have := congrArg (fun l => l.getD j 0) (argsort_inv hp)
  rw [getD_map_lt _ _ _ _ 0 (by rw [IsPerm.length hq]; exact hj)] at this
  rw [this]; simp [List.getD, hj]

/-- Positions in the inverse are entries of the permutation. -/
theorem pass_argsort_idxOf {n : Nat} {p : List Nat} (hp : IsPerm n p) {j : Nat} (hj : j < n) : (npArgsort p).idxOf j = p.getD j 0 := by
  have hq := argsort_isPerm (IsPerm.length hp)
  have h := pass_argsort_getD hp (IsPerm.get_lt hp hj)
  -- q[p[j]] = j
  have h2 : (npArgsort p).getD (p.getD j 0) 0 = j := by
    have h3 := IsPerm.idxOf_get hp (IsPerm.get_lt hq (IsPerm.get_lt hp hj))
    rw [h, IsPerm.idxOf_get hp hj] at h3
    exact h3.symm
  have h4 := IsPerm.idxOf_get hq (IsPerm.get_lt hp hj)
  rw [h2] at h4; exact h4

private theorem insertIdx_getD {l : List Nat} {a v j : Nat} (ha : a ≤ l.length) :
    (l.insertIdx a v).getD j 0 = if j < a then l.getD j 0 else if j = a then v else l.getD (j - 1) 0 := by
  simp only [List.getD, List.getElem?_insertIdx]
  split
  · rfl
  · split
    · rename_i h; rw [if_pos (by omega)]; rfl
    · rfl

private theorem eraseIdx_getD {l : List Nat} {a j : Nat} : (l.eraseIdx a).getD j 0 = if j < a then l.getD j 0 else l.getD (j + 1) 0 := by
  simp only [List.getD, List.getElem?_eraseIdx]
  split <;> rfl

/-- The decremented value of an axis other than the dropped one. -/
private def dec (a v : Nat) : Nat := if v > a then v - 1 else v

private theorem dropAxis_spec {n : Nat} {q : List Nat} (hq : IsPerm (n + 1) q) {a : Nat} (ha : a < n + 1) :
    IsPerm n (dropAxis a q) ∧ ∀ i < n, (dropAxis a q).getD i 0 = dec a (q.getD (if i < q.idxOf a then i else i + 1) 0) := by
  have hk := IsPerm.idxOf_lt hq ha
  have e0 : dropAxis a q = (q.eraseIdx (q.idxOf a)).map (dec a) := by
    unfold dropAxis
    have : q.filter (fun i => i != a) = q.eraseIdx (q.idxOf a) := by
      rw [← List.Nodup.erase_eq_filter (IsPerm.nodup hq) a]
      rw [List.erase_eq_eraseIdx_of_idxOf rfl]
    rw [this]; rfl
  have hlen : (q.eraseIdx (q.idxOf a)).length = n := by
    rw [List.length_eraseIdx, if_pos (by rw [IsPerm.length hq]; exact hk), IsPerm.length hq]; omega
  have hmem : ∀ v ∈ q.eraseIdx (q.idxOf a), v < n + 1 ∧ v ≠ a := by
    intro v hv
    have : q.eraseIdx (q.idxOf a) = q.filter (fun i => i != a) := by
      rw [← List.Nodup.erase_eq_filter (IsPerm.nodup hq) a, List.erase_eq_eraseIdx_of_idxOf rfl]
    rw [this, List.mem_filter] at hv
    exact ⟨(IsPerm.mem hq v).mp hv.1, by simpa using hv.2⟩
  constructor
  · rw [e0]
    apply isPerm_of_nodup
    · rw [List.length_map, hlen]
    · refine List.Nodup.map_on ?_ ((List.eraseIdx_sublist ..).nodup (IsPerm.nodup hq))
      intro x hx y hy hxy
      have := hmem x hx; have := hmem y hy
      unfold dec at hxy
      split at hxy <;> split at hxy <;> omega
    · intro x hx
      obtain ⟨v, hv, rfl⟩ := List.mem_map.mp hx
      have := hmem v hv
      unfold dec; split <;> omega
  · intro i hi
    rw [e0, getD_map_lt _ _ _ _ 0 (by rw [hlen]; exact hi), eraseIdx_getD]
    split <;> rfl

private theorem dropAxis_idxOf {n : Nat} {q : List Nat} (hq : IsPerm (n + 1) q) {a : Nat} (ha : a < n + 1) {j : Nat} (hj : j < n + 1) (hne : j ≠ a) :
    (dropAxis a q).idxOf (dec a j) = if q.idxOf j < q.idxOf a then q.idxOf j else q.idxOf j - 1 := by
  obtain ⟨hp, hg⟩ := dropAxis_spec hq ha
  have hi := IsPerm.idxOf_lt hq hj
  have hk := IsPerm.idxOf_lt hq ha
  have hne' : q.idxOf j ≠ q.idxOf a := by
    intro e; apply hne; rw [← IsPerm.get_idxOf hq hj, e, IsPerm.get_idxOf hq ha]
  have hb : (if q.idxOf j < q.idxOf a then q.idxOf j else q.idxOf j - 1) < n := by split <;> omega
  have h1 := hg _ hb
  have h2 : (if (if q.idxOf j < q.idxOf a then q.idxOf j else q.idxOf j - 1) < q.idxOf a then (if q.idxOf j < q.idxOf a then q.idxOf j else q.idxOf j - 1)
      else (if q.idxOf j < q.idxOf a then q.idxOf j else q.idxOf j - 1) + 1) = q.idxOf j := by
    by_cases h : q.idxOf j < q.idxOf a
    · simp only [h, if_true]
    · simp only [h, if_false]; rw [if_neg (by omega)]; omega
  rw [h2, IsPerm.get_idxOf hq hj] at h1
  rw [← h1, IsPerm.idxOf_get hp hb]

/-- **C47** UNPACK, each output. -/
theorem C47_unpack {α : Type} (t : Tensor α) (p : List Nat) (hp : IsPerm t.shape.length p) (axis k : Nat) (ha : axis < t.shape.length) :
    ∃ axis', passAxis (passPermsUnpack axis p).1 axis = some axis'
      ∧ Same (transpose (passPermsUnpack axis p).2 (unpack axis' k (transpose (passPermsUnpack axis p).1 t))) (unpack axis k t) := by
  have hq : IsPerm t.shape.length (passInv p) := argsort_isPerm (IsPerm.length hp)
  unfold passPermsUnpack
  simp only
  refine ⟨(passInv p).idxOf axis, by unfold passAxis; rw [if_pos ((IsPerm.mem hq axis).mpr ha)], ?_⟩
  generalize passInv p = q at hq
  obtain ⟨n, hn⟩ : ∃ n, t.shape.length = n + 1 := ⟨t.shape.length - 1, by omega⟩
  rw [hn] at hq ha
  obtain ⟨hd, hg⟩ := dropAxis_spec hq ha
  have hk := IsPerm.idxOf_lt hq ha
  have hYl : (unpack axis k t).shape.length = n := by simp [unpack, List.length_eraseIdx, hn, ha]
  have hcomm : Same (unpack (q.idxOf axis) k (transpose q t)) (transpose (dropAxis axis q) (unpack axis k t)) := by
    constructor
    · simp only [unpack, transpose]
      apply ext_getD
      · simp [List.length_eraseIdx, IsPerm.length hq, IsPerm.length hd, hk]
      · intro i hi
        have hi' : i < n := by simpa [List.length_eraseIdx, IsPerm.length hq, hk] using hi
        rw [eraseIdx_getD, getD_map_lt (fun k => (t.shape.eraseIdx axis).getD k 0) (dropAxis axis q) _ _ 0 (by rw [IsPerm.length hd]; exact hi'), hg i hi', eraseIdx_getD]
        have hx : ∀ x, x < n + 1 → x ≠ q.idxOf axis → (q.map (fun k => t.shape.getD k 0)).getD x 0
            = if dec axis (q.getD x 0) < axis then t.shape.getD (dec axis (q.getD x 0)) 0 else t.shape.getD (dec axis (q.getD x 0) + 1) 0 := by
          intro x hx hxa
          rw [getD_map_lt _ _ _ _ 0 (by rw [IsPerm.length hq]; exact hx)]
          have hne : q.getD x 0 ≠ axis := by
            intro e; apply hxa; rw [← e, IsPerm.idxOf_get hq hx]
          unfold dec
          by_cases h : q.getD x 0 > axis
          · rw [if_pos h, if_neg (by omega)]; congr 1; omega
          · rw [if_neg h, if_pos (by omega)]
        split
        · exact hx i (by omega) (by omega)
        · exact hx (i + 1) (by omega) (by omega)
    · intro idx hidx
      have hl : idx.length = n := by
        have := inBounds_length hidx
        simpa [unpack, transpose, List.length_eraseIdx, IsPerm.length hq, hk] using this
      have e : (transpose (dropAxis axis q) (unpack axis k t)).get idx
          = t.get (((List.range n).map (fun j => idx.getD ((dropAxis axis q).idxOf j) 0)).insertIdx axis k) := by
        simp only [transpose, hYl]; rfl
      rw [e]
      simp only [unpack, transpose]
      congr 1
      rw [hn]
      apply ext_getD
      · rw [List.length_insertIdx_of_le_length (by simp; omega)]; simp
      · intro j hj
        have hj' : j < n + 1 := by simpa using hj
        rw [getD_range_map _ _ _ _ hj', insertIdx_getD (by rw [hl]; omega), insertIdx_getD (by simp; omega)]
        have hjl := IsPerm.idxOf_lt hq hj'
        by_cases h : j = axis
        · subst h; simp
        · have hne' : q.idxOf j ≠ q.idxOf axis := by
            intro e; apply h; rw [← IsPerm.get_idxOf hq hj', e, IsPerm.get_idxOf hq ha]
          have hx := dropAxis_idxOf hq ha hj' h
          have hdj : dec axis j < n := by unfold dec; split <;> omega
          have rhs : (if j < axis then ((List.range n).map (fun j => idx.getD ((dropAxis axis q).idxOf j) 0)).getD j 0
              else if j = axis then k else ((List.range n).map (fun j => idx.getD ((dropAxis axis q).idxOf j) 0)).getD (j - 1) 0)
              = idx.getD ((dropAxis axis q).idxOf (dec axis j)) 0 := by
            by_cases h3 : j < axis
            · rw [if_pos h3, getD_range_map _ _ _ _ (by omega)]
              unfold dec; rw [if_neg (by omega)]
            · rw [if_neg h3, if_neg h, getD_range_map _ _ _ _ (by omega)]
              unfold dec; rw [if_pos (by omega)]
          rw [rhs, hx]
          by_cases h4 : q.idxOf j < q.idxOf axis
          · rw [if_pos h4, if_pos h4]
          · rw [if_neg h4, if_neg h4, if_neg hne']
  have hXl : (unpack (q.idxOf axis) k (transpose q t)).shape.length = n := by rw [hcomm.1]; exact transpose_shape_length hd _
  exact (transpose_congr (argsort_isPerm (IsPerm.length hd)) hXl hcomm).trans (wrap_cancel hd (argsort_isPerm (IsPerm.length hd)) (argsort_inv hd) _ hYl)

/-- **C47** PACK, if the chosen permutation keeps the packed axis in place; this is the case for a permutation taken from an input. -/
theorem C47_pack_partial {α : Type} (m : Nat) (s : List Nat) (x : Nat → Tensor α) (hx : ∀ k, (x k).shape = s) (p : List Nat)
    (hp : IsPerm (s.length + 1) p) (axis : Nat) (ha : axis < s.length + 1) (hfix : p.getD axis 0 = axis) :
    ∃ axis', passAxis (passInv (passPermsPack axis p).2) axis = some axis'
      ∧ Same (transpose (passPermsPack axis p).2 (pack axis' m ((passPermsPack axis p).1.map (fun k => s.getD k 0)) (fun k => transpose (passPermsPack axis p).1 (x k))))
        (pack axis m s x) := by
  have hq : IsPerm (s.length + 1) (passInv p) := argsort_isPerm (IsPerm.length hp)
  unfold passPermsPack
  simp only
  have hax : (passInv p).idxOf axis = axis := by unfold passInv; rw [pass_argsort_idxOf hp ha, hfix]
  refine ⟨axis, by unfold passAxis; rw [if_pos ((IsPerm.mem hq axis).mpr ha), hax], ?_⟩
  obtain ⟨hd, hg⟩ := dropAxis_spec hp ha
  have hpa : p.idxOf axis = axis := by have := IsPerm.idxOf_get hp ha; rwa [hfix] at this
  rw [hpa] at hg
  have hin := argsort_isPerm (IsPerm.length hd)
  have hYl : (pack axis m s x).shape.length = s.length + 1 := by
    simp only [pack]; rw [List.length_insertIdx_of_le_length (by omega)]
  refine pass_of_commute' hp _ _ hYl ?_
  constructor
  · simp only [pack, transpose]
    apply ext_getD
    · rw [List.length_insertIdx_of_le_length (by simp [IsPerm.length hin]; omega)]; simp [IsPerm.length hin, IsPerm.length hq]
    · intro i hi
      have hi' : i < s.length + 1 := by
        rw [List.length_insertIdx_of_le_length (by simp [IsPerm.length hin]; omega)] at hi; simpa [IsPerm.length hin] using hi
      rw [insertIdx_getD (by simp [IsPerm.length hin]; omega), getD_map_lt (fun k => (s.insertIdx axis m).getD k 0) (passInv p) _ _ 0 (by rw [IsPerm.length hq]; exact hi'), insertIdx_getD (by omega)]
      have hqi : (passInv p).getD i 0 = axis ↔ i = axis := by
        constructor
        · intro e; rw [← hax, ← e, IsPerm.idxOf_get hq hi']
        · rintro rfl; have := IsPerm.get_idxOf hq ha; rwa [hax] at this
      have key : ∀ i', i' < s.length → (if i' < axis then i' else i' + 1) = i → (npArgsort (dropAxis axis p)).getD i' 0 = dec axis ((passInv p).getD i 0) := by
        intro i' hi'' hii
        have hne : i ≠ axis := by split at hii <;> omega
        -- dropAxis[dec(q[i])] = dec(p[...]) = i'
        have hqn : (passInv p).getD i 0 ≠ axis := fun e => hne (hqi.mp e)
        have hqlt := IsPerm.get_lt hq hi'
        have hdl : dec axis ((passInv p).getD i 0) < s.length := by unfold dec; split <;> omega
        have h1 := hg _ hdl
        have h2 : (if dec axis ((passInv p).getD i 0) < axis then dec axis ((passInv p).getD i 0) else dec axis ((passInv p).getD i 0) + 1) = (passInv p).getD i 0 := by
          unfold dec; split <;> split <;> omega
        rw [h2] at h1
        have h3 : p.getD ((passInv p).getD i 0) 0 = i := pass_argsort_getD hp hi'
        rw [h3] at h1
        have h4 : dec axis i = i' := by unfold dec; split at hii <;> split <;> omega
        rw [h4] at h1
        have h5 := pass_argsort_idxOf hd hdl
        rw [h1] at h5
        have h6 := IsPerm.get_idxOf hin hdl
        rw [h5] at h6
        exact h6
      by_cases h1 : i < axis
      · rw [if_pos h1, getD_map_lt _ _ _ _ 0 (by rw [IsPerm.length hin]; omega), key i (by omega) (by rw [if_pos h1])]
        have hqn : (passInv p).getD i 0 ≠ axis := fun e => by have := hqi.mp e; omega
        unfold dec
        by_cases h3 : (passInv p).getD i 0 < axis
        · rw [if_neg (by omega), if_pos h3]
        · rw [if_pos (by omega), if_neg h3, if_neg hqn]
      · by_cases h2 : i = axis
        · rw [if_neg h1, if_pos h2, if_neg (by rw [hqi.mpr h2]; omega), if_pos (hqi.mpr h2)]
        · rw [if_neg h1, if_neg h2, getD_map_lt _ _ _ _ 0 (by rw [IsPerm.length hin]; omega), key (i - 1) (by omega) (by rw [if_neg (by omega)]; omega)]
          have hqn : (passInv p).getD i 0 ≠ axis := fun e => h2 (hqi.mp e)
          unfold dec
          by_cases h3 : (passInv p).getD i 0 < axis
          · rw [if_neg (by omega), if_pos h3]
          · rw [if_pos (by omega), if_neg h3, if_neg hqn]
  · intro idx hidx
    have hl : idx.length = s.length + 1 := by
      have := inBounds_length hidx
      simp only [pack] at this
      rw [this, List.length_insertIdx_of_le_length (by simp [IsPerm.length hin]; omega)]; simp [IsPerm.length hin]
    have e : (transpose (passInv p) (pack axis m s x)).get idx = (pack axis m s x).get ((List.range (s.length + 1)).map (fun j => idx.getD (p.getD j 0) 0)) := by
      simp only [transpose, hYl]
      congr 1
      apply List.map_congr_left
      intro j hj
      unfold passInv
      rw [pass_argsort_idxOf hp (by simpa using hj)]
    rw [e]
    simp only [pack, transpose, hx]
    rw [getD_range_map _ _ _ _ ha, hfix]
    congr 1
    apply ext_getD
    · simp [List.length_eraseIdx, ha]
    · intro j hj
      have hj' : j < s.length := by simpa using hj
      rw [getD_range_map _ _ _ _ hj', pass_argsort_idxOf hd hj', hg j hj', eraseIdx_getD, eraseIdx_getD]
      have hx' : ∀ y, y < s.length + 1 → y ≠ axis → (if dec axis (p.getD y 0) < axis then idx.getD (dec axis (p.getD y 0)) 0 else idx.getD (dec axis (p.getD y 0) + 1) 0)
          = ((List.range (s.length + 1)).map (fun j => idx.getD (p.getD j 0) 0)).getD y 0 := by
        intro y hy hya
        rw [getD_range_map _ _ _ _ hy]
        have hne : p.getD y 0 ≠ axis := by intro e; apply hya; rw [← hpa, ← e, IsPerm.idxOf_get hp hy]
        unfold dec
        by_cases h : p.getD y 0 > axis
        · rw [if_pos h, if_neg (by omega)]; congr 1; omega
        · rw [if_neg h, if_pos (by omega)]
      by_cases h : j < axis
      · simp only [h, if_true]; exact hx' j (by omega) (by omega)
      · simp only [h, if_false]; exact hx' (j + 1) (by omega) (by omega)

end Verif.Props
