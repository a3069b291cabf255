import Verif.Model.RnnProj
import Verif.Props.RnnPrune
/-!
C154: a pruned LSTM with a projection computes what the masked layer computes.
-/

namespace Verif.Props
namespace RnnProj
open Verif.Model Verif.Model.RnnProj Verif.Spec Verif.Spec.RnnPrune Verif.Spec.RnnProj Finset
open Verif.Model.RnnPrune hiding masked pruned inCols

variable {R : Type} [CommRing R]

/-- The removed indices of `n` things: with two directions as many of one as of the other. -/
def Halves (bidir : Bool) (n : Nat) (removed : List Nat) : Prop :=
  (bidir = false ∧ removed.Nodup ∧ ∀ u ∈ removed, u < n) ∨
    (bidir = true ∧ ∃ f b : List Nat, removed = f ++ b.map (· + n) ∧ f.length = b.length ∧ f.Nodup ∧ b.Nodup ∧ (∀ u ∈ f, u < n) ∧ ∀ u ∈ b, u < n)

/-- Python's sets of the kept positions are iterated in ascending order (C55 is about when they are not). -/
structure Ascending (r : ProjRnn R) (units features removedIn : List Nat) : Prop where
  inputs : (complementaryList r.input removedIn).Pairwise (· < ·)
  outputs : (complementaryList (if r.bidir then 2 * r.proj else r.proj) features).Pairwise (· < ·)
  featuresKept : ∀ back, (complementaryList r.proj (featuresIn r features back)).Pairwise (· < ·)
  unitsKept : ∀ back, (complementaryList r.hidden (unitsIn r units back)).Pairwise (· < ·)
  rows : ∀ back, (gateRows (unitsIn r units back) 4 r.hidden).Pairwise (· < ·)

theorem halves_balanced (r : ProjRnn R) (n : Nat) (removed : List Nat) (h : Halves r.bidir n removed) : Balanced (plain r n) removed := by
  rcases h with ⟨h1, _, h2⟩ | h
  · exact .inl ⟨h1, h2⟩
  · exact .inr h

theorem part_lt (r : ProjRnn R) (n : Nat) (removed : List Nat) (h : Halves r.bidir n removed) (back : Bool) : ∀ u ∈ unitsOf (plain r n) removed back, u < n :=
  unitsOf_lt (plain r n) removed (halves_balanced r n removed h) back

theorem unitsIn_lt (r : ProjRnn R) (units : List Nat) (h : Halves r.bidir r.hidden units) (back : Bool) : ∀ u ∈ unitsIn r units back, u < r.hidden := part_lt r r.hidden units h back

/-- As many things are kept in one direction as in the other, and removed too. -/
theorem part_length (r : ProjRnn R) (n : Nat) (removed : List Nat) (h : Halves r.bidir n removed) (back : Bool) (hd : back = true → r.bidir = true) :
    (keptUnits n (unitsOf (plain r n) removed back)).length = (keptUnits n (unitsOf (plain r n) removed r.bidir)).length ∧
    (keptUnits n (unitsOf (plain r n) removed back)).length + (unitsOf (plain r n) removed back).length = n ∧
    (removed ≠ [] → unitsOf (plain r n) removed back ≠ []) := by
  rcases h with ⟨h1, hn, h2⟩ | ⟨h1, f, b, rfl, hl, hfn, hbn, hf, hbb⟩
  · have hb : back = false := by
      cases back with
      | false => rfl
      | true => rw [h1] at hd; exact absurd (hd rfl) (by simp)
    have hu : unitsOf (plain r n) removed false = removed := by
      have : (plain r n).bidir = false := h1
      simp [unitsOf, this]
    rw [hb, h1, hu]
    exact ⟨rfl, keptUnits_length n removed hn h2, id⟩
  · have e := unitsOf_two (plain r n) h1 f b hl
    have hh : (plain r n).hidden = n := rfl
    rw [hh] at e
    obtain ⟨e1, e2⟩ := e
    have k1 := keptUnits_length n f hfn hf
    have k2 := keptUnits_length n b hbn hbb
    rw [h1, e2]
    have hne : f ++ b.map (· + n) ≠ [] → f ≠ [] ∧ b ≠ [] := by
      intro h
      constructor
      · rintro rfl
        have : b = [] := List.length_eq_zero_iff.mp hl.symm
        subst this
        simp at h
      · rintro rfl
        have : f = [] := List.length_eq_zero_iff.mp hl
        subst this
        simp at h
    cases back
    · rw [e1]; exact ⟨by omega, k1, fun h => (hne h).1⟩
    · rw [e2]; exact ⟨rfl, k2, fun h => (hne h).2⟩

section
variable (r : ProjRnn R) (units features removedIn : List Nat) (hU : Halves r.bidir r.hidden units) (hF : Halves r.bidir r.proj features) (ha : Ascending r units features removedIn)
include hU hF ha

omit hF in
theorem hidden_eq (back : Bool) (hd : back = true → r.bidir = true) : (pruned r units features removedIn).hidden = (keptUnits r.hidden (unitsIn r units back)).length := by
  show (complementaryList r.hidden (unitsIn r units r.bidir)).length = _
  rw [comp_kept _ _ (ha.unitsKept _)]
  exact (part_length r r.hidden units hU back hd).1.symm

omit hU in
theorem proj_eq (back : Bool) (hd : back = true → r.bidir = true) : (pruned r units features removedIn).proj = (keptUnits r.proj (featuresIn r features back)).length := by
  show (complementaryList r.proj (featuresIn r features r.bidir)).length = _
  rw [comp_kept _ _ (ha.featuresKept _)]
  exact (part_length r r.proj features hF back hd).1.symm

omit hF in
theorem rows_at (back : Bool) (n j : Nat) (hn : n < 4) (hj : j < (keptUnits r.hidden (unitsIn r units back)).length) :
    (gateRows (unitsIn r units back) 4 r.hidden).getD (n * (keptUnits r.hidden (unitsIn r units back)).length + j) 0 = n * r.hidden + (keptUnits r.hidden (unitsIn r units back)).getD j 0 := by
  rw [C55_gate_order_partial _ _ _ (by omega) (unitsIn_lt r units hU back) (ha.rows back)]
  exact flatMap_get 4 (keptUnits r.hidden (unitsIn r units back)) r.hidden n j hn hj

omit hF ha in
theorem rows_kept (back : Bool) (n j : Nat) (hj : j < (keptUnits r.hidden (unitsIn r units back)).length) :
    n * r.hidden + (keptUnits r.hidden (unitsIn r units back)).getD j 0 ∉ rowsIn r units back := by
  obtain ⟨h1, h2⟩ := keptUnits_get _ _ j hj
  unfold rowsIn
  rw [(C32_gate_rows _ _ _ (unitsIn_lt r units hU back)).1]
  rintro ⟨_, h3⟩
  rw [Nat.mul_comm, Nat.mul_add_mod, Nat.mod_eq_of_lt h1] at h3
  exact h2 h3

omit hF in
theorem rows_length (back : Bool) (hd : back = true → r.bidir = true) (hne : units ≠ []) : (gateRows (unitsIn r units back) 4 r.hidden).length ≠ 4 * r.hidden := by
  rw [C55_gate_order_partial _ _ _ (by omega) (unitsIn_lt r units hU back) (ha.rows back)]
  obtain ⟨_, h2, h3⟩ := part_length r r.hidden units hU back hd
  have h4 := List.length_pos_iff.mpr (h3 hne)
  have : ((List.range 4).flatMap (fun g => ((List.range r.hidden).filter (fun u => !(unitsIn r units back).contains u)).map (fun u => r.hidden * g + u))).length = 4 * (keptUnits r.hidden (unitsIn r units back)).length := by
    rw [List.length_flatMap]
    simp [keptUnits]
    omega
  rw [this]
  show 4 * (keptUnits r.hidden (unitsOf (plain r r.hidden) units back)).length ≠ _
  omega

omit hU hF in
theorem inCols_eq (l : Nat) : inCols r features removedIn l = keptUnits (layerWidth r.input r.proj r.bidir l) (if l = 0 then removedIn else features) := by
  unfold inCols layerWidth
  by_cases hl : l = 0
  · rw [if_pos hl, if_pos hl, if_pos hl, comp_kept _ _ ha.inputs]
  · rw [if_neg hl, if_neg hl, if_neg hl, comp_kept _ _ ha.outputs]

omit hU in
theorem width_eq (l : Nat) : layerWidth (pruned r units features removedIn).input (pruned r units features removedIn).proj (pruned r units features removedIn).bidir l = (inCols r features removedIn l).length := by
  unfold layerWidth inCols
  by_cases hl : l = 0
  · rw [if_pos hl, if_pos hl]; rfl
  · rw [if_neg hl, if_neg hl, comp_kept _ _ ha.outputs]
    show (if r.bidir = true then _ else _) = _
    rw [proj_eq r units features removedIn hF ha false (by simp)]
    rcases hF with ⟨h1, _, h2⟩ | ⟨h1, f, b, rfl, hlen, hfn, hbn, hf, hbb⟩
    · have hp : (plain r r.proj).bidir = false := h1
      simp [h1, featuresIn, unitsOf, hp]
    · obtain ⟨e1, e2⟩ := unitsOf_two (plain r r.proj) h1 f b hlen
      have e1' : featuresIn r (f ++ b.map (· + r.proj)) false = f := e1
      rw [e1', if_pos h1, if_pos h1, keptUnits_double _ _ _ hf, List.length_append, List.length_map]
      have k1 := keptUnits_length r.proj f hfn hf
      have k2 := keptUnits_length r.proj b hbn hbb
      omega

/-- A gate of the pruned layer is the gate of the masked layer, for the kept units. -/
theorem gate_eq (hne : units ≠ []) (l : Nat) (back : Bool) (hd : back = true → r.bidir = true) (x' x h' h : Nat → R) (hx : ∀ c, c < (inCols r features removedIn l).length → x' c = x ((inCols r features removedIn l).getD c 0))
    (hz : l = 0 → back = true → ∀ c ∈ removedIn, x c = 0)
    (hh : ∀ i, i < (pruned r units features removedIn).proj → h' i = h ((keptUnits r.proj (featuresIn r features back)).getD i 0)) (n j : Nat) (hn : n < 4) (hj : j < (pruned r units features removedIn).hidden) :
    gate ((pruned r units features removedIn).par l back) (layerWidth (pruned r units features removedIn).input (pruned r units features removedIn).proj (pruned r units features removedIn).bidir l)
        (pruned r units features removedIn).hidden (pruned r units features removedIn).proj n x' h' j =
      gate ((masked r units features removedIn).par l back) (layerWidth r.input r.proj r.bidir l) r.hidden r.proj n x h ((keptUnits r.hidden (unitsIn r units back)).getD j 0) := by
  have hH := hidden_eq r units features removedIn hU ha back hd
  have hP := proj_eq r units features removedIn hF ha back hd
  rw [hH] at hj
  have hrow := rows_at r units features removedIn hU ha back n j hn hj
  have hnot := rows_kept r units hU back n j hj
  have hcut := rows_length r units features removedIn hU ha back hd hne
  rw [← hH] at hrow
  unfold gate
  congr 1
  · congr 1
    · rw [width_eq r units features removedIn hF ha l, sum_kept (layerWidth r.input r.proj r.bidir l) (if l = 0 then removedIn else features), ← inCols_eq r units features removedIn ha l]
      · refine Finset.sum_congr rfl fun c hc => ?_
        have hc' := Finset.mem_range.mp hc
        rw [hx c hc']
        congr 1
        have hcn : (inCols r features removedIn l).getD c 0 ∉ (if l = 0 then removedIn else features) := by
          rw [inCols_eq r units features removedIn ha l] at hc' ⊢
          exact (keptUnits_get _ _ c hc').2
        simp only [pruned, masked]
        rw [if_pos (Or.inr hcut)]
        have hrow' : (gateRows (unitsIn r units back) 4 r.hidden).getD (n * (complementaryList r.hidden (unitsIn r units r.bidir)).length + j) 0 = n * r.hidden + (keptUnits r.hidden (unitsIn r units back)).getD j 0 := hrow
        rw [hrow']
        by_cases hl : l = 0
        · rw [if_pos hl] at hcn ⊢
          cases back with
          | true => rfl
          | false =>
            simp only [Bool.false_eq_true, if_false]
            rw [if_neg (by rintro (h | h); exacts [hnot h, hcn h])]
        · rw [if_neg hl] at hcn ⊢
          rw [if_neg (by rintro (h | h); exacts [hnot h, hcn h])]
      · intro k _ hk
        simp only [masked]
        by_cases hl : l = 0
        · rw [if_pos hl] at hk ⊢
          cases hbk : back with
          | true => rw [hz hl hbk k hk]; simp
          | false => simp [hk]
        · rw [if_neg hl] at hk ⊢
          simp [hk]
    · show (r.par l back).bih ((gateRows (unitsIn r units back) 4 r.hidden).getD _ 0) = _
      rw [hrow]
      simp only [masked]
      rw [if_neg hnot]
  · congr 1
    · rw [sum_kept r.proj (featuresIn r features back), hP]
      · refine Finset.sum_congr rfl fun c hc => ?_
        have hc' := Finset.mem_range.mp hc
        rw [hh c (by rw [hP]; exact hc')]
        congr 1
        show (r.par l back).whh ((gateRows (unitsIn r units back) 4 r.hidden).getD _ 0) ((complementaryList r.proj (featuresIn r features back)).getD c 0) = _
        rw [hrow, comp_kept _ _ (ha.featuresKept back)]
        have hcn := (keptUnits_get r.proj (featuresIn r features back) c hc').2
        simp only [masked]
        rw [if_neg (by rintro (h | h); exacts [hnot h, hcn h])]
      · intro k _ hk
        simp only [masked]
        rw [if_pos (Or.inr hk), mul_zero]
    · show (r.par l back).bhh ((gateRows (unitsIn r units back) 4 r.hidden).getD _ 0) = _
      rw [hrow]
      simp only [masked]
      rw [if_neg hnot]

/-- What holds of the states of the two layers. -/
def Related (back : Bool) (s' s : (Nat → R) × (Nat → R)) : Prop :=
  (∀ i, i < (pruned r units features removedIn).proj → s'.1 i = s.1 ((keptUnits r.proj (featuresIn r features back)).getD i 0)) ∧
  (∀ j, j < (pruned r units features removedIn).hidden → s'.2 j = s.2 ((keptUnits r.hidden (unitsIn r units back)).getD j 0))

theorem step_related (sg th : R → R) (hne : units ≠ []) (l : Nat) (back : Bool) (hd : back = true → r.bidir = true) (x' x : Nat → R) (hx : ∀ c, c < (inCols r features removedIn l).length → x' c = x ((inCols r features removedIn l).getD c 0))
    (hz : l = 0 → back = true → ∀ c ∈ removedIn, x c = 0) (s' s : (Nat → R) × (Nat → R)) (hs : Related r units features removedIn back s' s) :
    Related r units features removedIn back ((pruned r units features removedIn).step sg th l back x' s') ((masked r units features removedIn).step sg th l back x s) := by
  have hg := fun n j (hn : n < 4) (hj : j < (pruned r units features removedIn).hidden) => gate_eq r units features removedIn hU hF ha hne l back hd x' x s'.1 s.1 hx hz hs.1 n j hn hj
  have hH := hidden_eq r units features removedIn hU ha back hd
  have hP := proj_eq r units features removedIn hF ha back hd
  have hm1 : (masked r units features removedIn).input = r.input := rfl
  have hm2 : (masked r units features removedIn).proj = r.proj := rfl
  have hm3 : (masked r units features removedIn).bidir = r.bidir := rfl
  have hm4 : (masked r units features removedIn).hidden = r.hidden := rfl
  constructor
  · intro i hi
    unfold ProjRnn.step cell
    simp only [hm1, hm2, hm3, hm4]
    rw [sum_kept r.hidden (unitsIn r units back), ← hH]
    · refine Finset.sum_congr rfl fun j hj => ?_
      have hj' := Finset.mem_range.mp hj
      rw [hg 1 j (by omega) hj', hg 0 j (by omega) hj', hg 2 j (by omega) hj', hg 3 j (by omega) hj', hs.2 j hj']
      congr 1
      show r.whr l back ((complementaryList r.proj (featuresIn r features back)).getD i 0) ((complementaryList r.hidden (unitsIn r units back)).getD j 0) = _
      rw [comp_kept _ _ (ha.featuresKept back), comp_kept _ _ (ha.unitsKept back)]
      have h1 := (keptUnits_get r.proj (featuresIn r features back) i (by rw [← hP]; exact hi)).2
      have h2 := (keptUnits_get r.hidden (unitsIn r units back) j (by rw [← hH]; exact hj')).2
      simp only [masked]
      rw [if_neg (by rintro (h | h); exacts [h1 h, h2 h])]
    · intro k _ hk
      simp only [masked]
      rw [if_pos (Or.inr hk), mul_zero]
  · intro j hj
    unfold ProjRnn.step cell
    simp only [hm1, hm2, hm3, hm4]
    rw [hg 1 j (by omega) hj, hg 0 j (by omega) hj, hg 2 j (by omega) hj, hs.2 j hj]

theorem state_related (sg th : R → R) (hne : units ≠ []) (l : Nat) (back : Bool) (hd : back = true → r.bidir = true) (x' x : Nat → Nat → R)
    (hx : ∀ t c, c < (inCols r features removedIn l).length → x' t c = x t ((inCols r features removedIn l).getD c 0)) (hz : l = 0 → back = true → ∀ t, ∀ c ∈ removedIn, x t c = 0) (m : Nat) :
    Related r units features removedIn back (stateAfter ((pruned r units features removedIn).step sg th l back) x' (fun _ => 0, fun _ => 0) m)
      (stateAfter ((masked r units features removedIn).step sg th l back) x (fun _ => 0, fun _ => 0) m) := by
  induction m with
  | zero => exact ⟨fun _ _ => rfl, fun _ _ => rfl⟩
  | succ m ih =>
    rw [stateAfter, stateAfter]
    exact step_related r units features removedIn hU hF ha sg th hne l back hd _ _ (hx m) (fun hl hbk => hz hl hbk m) _ _ ih

theorem seq_related (sg th : R → R) (hne : units ≠ []) (T : Nat) (x : Nat → Nat → R) (hz : r.bidir = true → ∀ t, ∀ c ∈ removedIn, x t c = 0) (l : Nat) :
    ∀ t j, j < (inCols r features removedIn l).length → (pruned r units features removedIn).seq sg th T (fun t j => x t ((complementaryList r.input removedIn).getD j 0)) l t j =
      (masked r units features removedIn).seq sg th T x l t ((inCols r features removedIn l).getD j 0) := by
  induction l with
  | zero => intro t j _; rfl
  | succ l ih =>
    intro t j hj
    have hst := fun (back : Bool) (hd : back = true → r.bidir = true) (m : Nat) => state_related r units features removedIn hU hF ha sg th hne l back hd
      (dirSeq T back ((pruned r units features removedIn).seq sg th T (fun t j => x t ((complementaryList r.input removedIn).getD j 0)) l)) (dirSeq T back ((masked r units features removedIn).seq sg th T x l))
      (fun t c hc => ih _ c hc) (fun hl hbk t c hc => by subst hl; exact hz (hd hbk) _ c hc) m
    have hin : inCols r features removedIn (l + 1) = keptUnits (if r.bidir then 2 * r.proj else r.proj) features := by
      rw [inCols_eq r units features removedIn ha (l + 1)]
      unfold layerWidth
      simp
    rw [hin] at hj ⊢
    have hP := proj_eq r units features removedIn hF ha
    unfold ProjRnn.seq
    rw [layerInput, layerInput]
    show (if (r.bidir && decide ((pruned r units features removedIn).proj ≤ j)) = true then _ else _) = (if (r.bidir && decide (r.proj ≤ _)) = true then _ else _)
    rcases hF with ⟨h1, _, h2⟩ | ⟨h1, f, b, rfl, hl, hfn, hbn, hf, hbb⟩
    · have hun : featuresIn r features false = features := by
        have hp : (plain r r.proj).bidir = false := h1
        simp [featuresIn, unitsOf, hp]
      have hPf := hP false (by simp)
      rw [hun] at hPf
      simp only [h1, Bool.false_and, Bool.false_eq_true, if_false] at hj ⊢
      rw [← hPf] at hj
      have := (hst false (by simp) (t + 1)).1 j hj
      rw [hun] at this
      unfold dirOut
      simp only [Bool.false_eq_true, if_false]
      exact this
    · obtain ⟨e1, e2⟩ := unitsOf_two (plain r r.proj) h1 f b hl
      have e1' : featuresIn r (f ++ b.map (· + r.proj)) false = f := e1
      have e2' : featuresIn r (f ++ b.map (· + r.proj)) true = b := e2
      have hPf := hP false (by simp)
      have hPb := hP true (fun _ => h1)
      rw [e1'] at hPf
      rw [e2'] at hPb
      simp only [h1, if_true] at hj
      rw [keptUnits_double _ _ _ hf, List.length_append, List.length_map, ← hPf, ← hPb] at hj
      simp only [h1, Bool.true_and, if_true, decide_eq_true_eq]
      rw [keptUnits_double _ _ _ hf]
      by_cases hjb : (pruned r units (f ++ b.map (· + r.proj)) removedIn).proj ≤ j
      · rw [if_pos hjb, List.getD_append_right _ _ _ _ (by rw [← hPf]; exact hjb), ← hPf]
        have hlt : j - (pruned r units (f ++ b.map (· + r.proj)) removedIn).proj < (keptUnits r.proj b).length := by
          rw [← hPb]; omega
        have hmap : ((keptUnits r.proj b).map (r.proj + ·)).getD (j - (pruned r units (f ++ b.map (· + r.proj)) removedIn).proj) 0 =
            r.proj + (keptUnits r.proj b).getD (j - (pruned r units (f ++ b.map (· + r.proj)) removedIn).proj) 0 := by
          rw [List.getD_eq_getElem _ _ (by simpa using hlt), List.getD_eq_getElem _ _ hlt, List.getElem_map]
        have hsub : ∀ v : Nat, r.proj + v - (masked r units (f ++ b.map (· + r.proj)) removedIn).proj = v := fun v => Nat.add_sub_cancel_left _ _
        rw [hmap, if_pos (by omega), hsub]
        have := (hst true (fun _ => h1) (T - t)).1 (j - (pruned r units (f ++ b.map (· + r.proj)) removedIn).proj) (by omega)
        rw [e2'] at this
        unfold dirOut
        simp only [if_true]
        exact this
      · have hlt : j < (keptUnits r.proj f).length := by rw [← hPf]; omega
        rw [if_neg hjb, List.getD_append _ _ _ _ hlt]
        have hb' := (keptUnits_get _ _ j hlt).1
        rw [if_neg (by omega)]
        have := (hst false (by simp) (t + 1)).1 j (by omega)
        rw [e1'] at this
        unfold dirOut
        simp only [Bool.false_eq_true, if_false]
        exact this

end

/-- Weights for examples. -/
def demoPar (l : Nat) (back : Bool) : RnnParams Int :=
  ⟨fun i j => (i : Int) - j + l + if back then 3 else 0, fun i j => 2 * i - 5 * j, fun i => i, fun i => 7 - i⟩

/-- A bidirectional LSTM with two layers of four units and two features. -/
def demo : ProjRnn Int := ⟨2, true, 3, 4, 2, demoPar, fun _ _ i j => i + 2 * j, fun l _ => if l = 0 then 3 else 4⟩

end RnnProj

open Verif.Model Verif.Model.RnnProj Verif.Spec Verif.Spec.RnnProj RnnProj

/-- **C154 (restricted).** For stacks of LSTM layers with projections, of any sizes, with one or two directions, any activations, any choice of units, features and inputs to remove: the cut layer can
be run and, fed with the kept features of the input, gives at every time the kept features of the output of the layer with its masks, and ends in the states of its kept units.  At least one unit is
removed; the removed units and features are as many of one direction as of the other, the kept positions come in ascending order, and with two directions the removed features of the input are zero
(as in C133). -/
theorem C154_pruned_partial {R : Type} [CommRing R] (sg th : R → R) (r : ProjRnn R) (units features removedIn : List Nat) (hne : units ≠ []) (hU : Halves r.bidir r.hidden units) (hF : Halves r.bidir r.proj features)
    (ha : Ascending r units features removedIn) (T : Nat) (x : Nat → Nat → R) (hz : r.bidir = true → ∀ t, ∀ c ∈ removedIn, x t c = 0) :
    (pruned r units features removedIn).Runs ∧
    (∀ l t j, 0 < l → j < (if r.bidir then 2 * (pruned r units features removedIn).proj else (pruned r units features removedIn).proj) →
      (pruned r units features removedIn).seq sg th T (fun t j => x t ((complementaryList r.input removedIn).getD j 0)) l t j =
        (masked r units features removedIn).seq sg th T x l t ((keptUnits (if r.bidir then 2 * r.proj else r.proj) features).getD j 0)) ∧
    (∀ l back, (back = true → r.bidir = true) →
      (∀ i, i < (pruned r units features removedIn).proj → ((pruned r units features removedIn).final sg th T (fun t j => x t ((complementaryList r.input removedIn).getD j 0)) l back).1 i =
        ((masked r units features removedIn).final sg th T x l back).1 ((keptUnits r.proj (featuresIn r features back)).getD i 0)) ∧
      (∀ j, j < (pruned r units features removedIn).hidden → ((pruned r units features removedIn).final sg th T (fun t j => x t ((complementaryList r.input removedIn).getD j 0)) l back).2 j =
        ((masked r units features removedIn).final sg th T x l back).2 ((keptUnits r.hidden (unitsIn r units back)).getD j 0))) := by
  have hseq := seq_related r units features removedIn hU hF ha sg th hne T x hz
  refine ⟨fun l back _ hd => ?_, fun l t j hl hj => ?_, fun l back hd => ?_⟩
  · rw [width_eq r units features removedIn hF ha l]
    show (if l = 0 ∨ _ then _ else _) = _
    rw [if_pos (Or.inr (rows_length r units features removedIn hU ha back hd hne))]
  · have hw := width_eq r units features removedIn hF ha l
    have hc := inCols_eq r units features removedIn ha l
    rw [layerWidth, if_neg (by omega : l ≠ 0)] at hw hc
    rw [if_neg (by omega : l ≠ 0)] at hc
    have := hseq l t j (by rw [← hw]; exact hj)
    rw [hc] at this
    exact this
  · refine state_related r units features removedIn hU hF ha sg th hne l back hd
      (dirSeq T back ((pruned r units features removedIn).seq sg th T (fun t j => x t ((complementaryList r.input removedIn).getD j 0)) l)) (dirSeq T back ((masked r units features removedIn).seq sg th T x l)) (fun t c hc => hseq l _ c hc) (fun hl hbk t c hc => ?_) T
    subst hl
    exact hz (hd hbk) _ c hc

/-- The hypotheses hold for a bidirectional LSTM of which two of four units and one of two features per direction are removed; its output is not zero. -/
example : Halves demo.bidir demo.hidden [1, 3, 4, 6] ∧ Halves demo.bidir demo.proj [0, 3] ∧ Ascending demo [1, 3, 4, 6] [0, 3] [2] ∧ (pruned demo [1, 3, 4, 6] [0, 3] [2]).hidden = 2 ∧
    (pruned demo [1, 3, 4, 6] [0, 3] [2]).proj = 1 ∧ (masked demo [1, 3, 4, 6] [0, 3] [2]).seq (fun v => v) (fun v => v) 2 (fun t j => if j = 2 then 0 else t + j) 1 0 1 ≠ 0 := by
  refine ⟨.inr ⟨rfl, [1, 3], [0, 2], by decide⟩, .inr ⟨rfl, [0], [1], by decide⟩, ⟨by decide, by decide, by decide, by decide, by decide⟩, by decide, by decide, by decide +kernel⟩

/-- **C154 fails if features but no units are removed.** The input weights of the second layer keep their columns: PyTorch refuses to run the layer. -/
theorem C154_no_unit_false : ∃ (r : ProjRnn Int) (features : List Nat), r.Runs ∧ Halves r.bidir r.hidden [] ∧ Halves r.bidir r.proj features ∧ Ascending r [] features [] ∧ ¬ (pruned r [] features []).Runs := by
  refine ⟨⟨2, false, 3, 3, 2, demoPar, fun _ _ _ _ => 1, fun l _ => if l = 0 then 3 else 2⟩, [1], ?_, .inl ⟨rfl, by decide, by decide⟩, .inl ⟨rfl, by decide, by decide⟩, ⟨by decide, by decide, by decide, by decide, by decide⟩, ?_⟩
  · intro l back hl _
    have : l = 0 ∨ l = 1 := by
      have : l < 2 := hl
      omega
    rcases this with rfl | rfl <;> rfl
  · intro h
    exact absurd (h 1 false (by decide) (by simp)) (by decide +kernel)

end Verif.Props
