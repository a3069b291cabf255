import Verif.Model.RnnPrune
import Verif.Lemmas.PyOrder
import Verif.Props.GroupPrune
import Mathlib.Tactic.Ring
import Mathlib.Data.List.GetD
import Mathlib.Algebra.BigOperators.Group.List.Basic
import Mathlib.Algebra.BigOperators.Fin
/-!
C133: a pruned recurrent layer computes what the masked layer computes.
-/

namespace Verif.Props
open Verif.Model Verif.Model.RnnPrune Verif.Spec Verif.Spec.RnnPrune Finset

variable {R S : Type} [CommRing R]

/-! ### The units are those of PyTorch's layers -/

theorem C133_gru_cell (sg th : R → R) (p : RnnParams R) (I H : Nat) (x s : Nat → R) : unitCell (gruUnit sg th) id p I H x s = gruCell sg th p I H x s := by
  funext j
  simp only [unitCell, gruUnit, gruCell, lstmGate, id, Nat.zero_mul]

theorem C133_lstm_cell (sg th : R → R) (p : RnnParams R) (I H : Nat) (x : Nat → R) (s : Nat → R × R) (j : Nat) :
    ((unitCell (lstmUnit sg th) Prod.fst p I H x s j).1, (unitCell (lstmUnit sg th) Prod.fst p I H x s j).2) =
      ((lstmCell sg th p I H x (fun k => (s k).1, fun k => (s k).2)).1 j, (lstmCell sg th p I H x (fun k => (s k).1, fun k => (s k).2)).2 j) := by
  simp only [unitCell, lstmUnit, lstmCell, lstmGate]

theorem usesGates_rnn (act : R → R) : UsesGates 1 (rnnUnit act) := by
  intro a a' b b' s h
  simp only [rnnUnit, (h 0 (by omega)).1, (h 0 (by omega)).2]

theorem usesGates_gru (sg th : R → R) : UsesGates 3 (gruUnit sg th) := by
  intro a a' b b' s h
  simp only [gruUnit, (h 0 (by omega)).1, (h 0 (by omega)).2, (h 1 (by omega)).1, (h 1 (by omega)).2, (h 2 (by omega)).1, (h 2 (by omega)).2]

theorem usesGates_lstm (sg th : R → R) : UsesGates 4 (lstmUnit sg th) := by
  intro a a' b b' s h
  simp only [lstmUnit, (h 0 (by omega)).1, (h 0 (by omega)).2, (h 1 (by omega)).1, (h 1 (by omega)).2, (h 2 (by omega)).1, (h 2 (by omega)).2, (h 3 (by omega)).1, (h 3 (by omega)).2]

/-! ### Kept positions -/

/-- What is kept, in ascending order. -/
def keptUnits (n : Nat) (rm : List Nat) : List Nat := (List.range n).filter fun i => !rm.contains i

theorem keptUnits_get (n : Nat) (rm : List Nat) (j : Nat) (hj : j < (keptUnits n rm).length) : (keptUnits n rm).getD j 0 < n ∧ (keptUnits n rm).getD j 0 ∉ rm := by
  rw [List.getD_eq_getElem _ _ hj]
  have hm := List.getElem_mem hj
  have := (List.mem_filter (p := fun i => !rm.contains i) (as := List.range n)).mp hm
  exact ⟨List.mem_range.mp this.1, by simpa using this.2⟩

theorem comp_kept (n : Nat) (rm : List Nat) (h : (complementaryList n rm).Pairwise (· < ·)) : complementaryList n rm = keptUnits n rm := by
  refine List.Perm.eq_of_pairwise ?_ h ((List.pairwise_lt_range).filter _) (complementaryList_perm n rm)
  intro a b _ _ h1 h2
  omega

theorem sum_list_get (l : List Nat) (f : Nat → R) : (l.map f).sum = ∑ j ∈ range l.length, f (l.getD j 0) := by
  induction l with
  | nil => simp
  | cons a r ih =>
    rw [List.map_cons, List.sum_cons, ih, List.length_cons, Finset.sum_range_succ']
    simp [add_comm]

/-- A sum whose removed terms vanish is the sum over what is kept. -/
theorem sum_kept (n : Nat) (rm : List Nat) (f : Nat → R) (h : ∀ k, k < n → k ∈ rm → f k = 0) : ∑ k ∈ range n, f k = ∑ j ∈ range (keptUnits n rm).length, f ((keptUnits n rm).getD j 0) := by
  rw [← sum_list_get]
  unfold keptUnits
  induction n with
  | zero => simp
  | succ n ih =>
    rw [Finset.sum_range_succ, List.range_succ, List.filter_append, List.map_append, List.sum_append, ih fun k hk => h k (by omega)]
    congr 1
    by_cases hm : n ∈ rm
    · simp [hm, h n (by omega) hm]
    · simp [hm]

theorem flatMap_get (gates : Nat) (K : List Nat) (H : Nat) (n j : Nat) (hn : n < gates) (hj : j < K.length) :
    ((List.range gates).flatMap fun g => K.map fun u => H * g + u).getD (n * K.length + j) 0 = n * H + K.getD j 0 := by
  induction gates with
  | zero => omega
  | succ g ih =>
    rw [List.range_succ, List.flatMap_append]
    have hlen : ((List.range g).flatMap fun g => K.map fun u => H * g + u).length = g * K.length := by
      rw [List.length_flatMap]
      simp
    by_cases h : n < g
    · rw [List.getD_append _ _ _ _ (by
        rw [hlen]
        calc n * K.length + j < n * K.length + K.length := by omega
          _ = (n + 1) * K.length := by ring
          _ ≤ g * K.length := Nat.mul_le_mul_right _ h)]
      exact ih h
    · have hng : n = g := by omega
      subst hng
      rw [List.getD_append_right _ _ _ _ (by rw [hlen]; omega), hlen]
      simp only [List.flatMap_cons, List.flatMap_nil, List.append_nil, Nat.add_sub_cancel_left]
      rw [List.getD_eq_getElem _ _ (by simpa using hj), List.getD_eq_getElem _ _ hj, List.getElem_map, Nat.mul_comm]

theorem keptUnits_length (n : Nat) (rm : List Nat) (hn : rm.Nodup) (hb : ∀ u ∈ rm, u < n) : (keptUnits n rm).length + rm.length = n := by
  have h1 : ((List.range n).filter fun i => rm.contains i).Perm rm := by
    rw [List.perm_ext_iff_of_nodup (List.nodup_range.filter _) hn]
    intro a
    simp only [List.mem_filter, List.mem_range, List.contains_iff_mem]
    exact ⟨fun h => h.2, fun h => ⟨hb a h, h⟩⟩
  have h2 := List.length_eq_length_filter_add (l := List.range n) fun i => rm.contains i
  rw [h1.length_eq, List.length_range] at h2
  unfold keptUnits
  omega

theorem keptUnits_double (H : Nat) (f b : List Nat) (hf : ∀ u ∈ f, u < H) : keptUnits (2 * H) (f ++ b.map (· + H)) = keptUnits H f ++ (keptUnits H b).map (H + ·) := by
  unfold keptUnits
  rw [Nat.two_mul, List.range_add, List.filter_append, List.filter_map]
  congr 1
  · refine List.filter_congr fun i hi => ?_
    have hi' := List.mem_range.mp hi
    have : i ∉ b.map (· + H) := by
      intro h
      obtain ⟨x, _, hx⟩ := List.mem_map.mp h
      omega
    simp only [List.contains_eq_mem, List.mem_append, this, or_false]
  · congr 1
    refine List.filter_congr fun i _ => ?_
    have h1 : H + i ∉ f := fun h => by have := hf _ h; omega
    have h2 : H + i ∈ b.map (· + H) ↔ i ∈ b := by
      constructor
      · intro h
        obtain ⟨x, hx, e⟩ := List.mem_map.mp h
        have : x = i := by omega
        exact this ▸ hx
      · intro h
        exact List.mem_map.mpr ⟨i, h, by omega⟩
    simp only [Function.comp, List.contains_eq_mem, List.mem_append, h1, h2, false_or]

/-! ### One step -/

/-- The removed features: units of the layer, with two directions as many of one as of the other. -/
def Balanced (r : Rnn R) (removed : List Nat) : Prop :=
  (r.bidir = false ∧ ∀ u ∈ removed, u < r.hidden) ∨
    (r.bidir = true ∧ ∃ f b : List Nat, removed = f ++ b.map (· + r.hidden) ∧ f.length = b.length ∧ f.Nodup ∧ b.Nodup ∧ (∀ u ∈ f, u < r.hidden) ∧ ∀ u ∈ b, u < r.hidden)

/-- Python's sets of the kept positions are iterated in ascending order (C55 is about when they are not). -/
structure KeptAscending (r : Rnn R) (removed removedIn : List Nat) : Prop where
  inputs : (complementaryList r.input removedIn).Pairwise (· < ·)
  outputs : (complementaryList (if r.bidir then 2 * r.hidden else r.hidden) removed).Pairwise (· < ·)
  units : ∀ back, (complementaryList r.hidden (unitsOf r removed back)).Pairwise (· < ·)
  rows : ∀ back, (gateRows (unitsOf r removed back) r.gates r.hidden).Pairwise (· < ·)

theorem unitsOf_two (r : Rnn R) (hb : r.bidir = true) (f b : List Nat) (hl : f.length = b.length) :
    unitsOf r (f ++ b.map (· + r.hidden)) false = f ∧ unitsOf r (f ++ b.map (· + r.hidden)) true = b := by
  have hlen : (f ++ b.map (· + r.hidden)).length / 2 = f.length := by
    rw [List.length_append, List.length_map]
    omega
  unfold unitsOf splitDirections
  simp only [hb, if_true, hlen]
  constructor
  · simp
  · simp only [List.drop_left, List.map_map]
    conv_rhs => rw [← List.map_id b]
    refine List.map_congr_left fun i _ => ?_
    simp only [Function.comp, id]
    omega

theorem unitsOf_lt (r : Rnn R) (removed : List Nat) (hb : Balanced r removed) (back : Bool) : ∀ u ∈ unitsOf r removed back, u < r.hidden := by
  rcases hb with ⟨h1, h2⟩ | ⟨h1, f, b, rfl, hl, _, _, hf, hbb⟩
  · intro u hu
    unfold unitsOf at hu
    simp only [h1, Bool.false_eq_true, if_false] at hu
    exact h2 u hu
  · obtain ⟨e1, e2⟩ := unitsOf_two r h1 f b hl
    cases back
    · rw [e1]; exact hf
    · rw [e2]; exact hbb

/-- The number of units kept is the same for both directions. -/
theorem keptUnits_hidden (r : Rnn R) (removed removedIn : List Nat) (hb : Balanced r removed) (ha : KeptAscending r removed removedIn) (back : Bool) (hd : back = true → r.bidir = true) :
    (keptUnits r.hidden (unitsOf r removed back)).length = (pruned r removed removedIn).hidden := by
  show _ = (complementaryList r.hidden (unitsOf r removed r.bidir)).length
  rw [comp_kept _ _ (ha.units _)]
  rcases hb with ⟨h1, h2⟩ | ⟨h1, f, b, rfl, hl, hfn, hbn, hf, hbb⟩
  · have : back = false := by
      cases back with
      | false => rfl
      | true => rw [h1] at hd; exact absurd (hd rfl) (by simp)
    rw [this, h1]
  · obtain ⟨e1, e2⟩ := unitsOf_two r h1 f b hl
    rw [h1, e2]
    have k1 := keptUnits_length r.hidden f hfn hf
    have k2 := keptUnits_length r.hidden b hbn hbb
    cases back
    · rw [e1]; omega
    · rw [e2]

theorem rows_get (r : Rnn R) (removed removedIn : List Nat) (hb : Balanced r removed) (ha : KeptAscending r removed removedIn) (back : Bool) (n j : Nat) (hn : n < r.gates)
    (hj : j < (keptUnits r.hidden (unitsOf r removed back)).length) :
    (gateRows (unitsOf r removed back) r.gates r.hidden).getD (n * (keptUnits r.hidden (unitsOf r removed back)).length + j) 0 =
      n * r.hidden + (keptUnits r.hidden (unitsOf r removed back)).getD j 0 := by
  rw [C55_gate_order_partial _ _ _ (by omega) (unitsOf_lt r removed hb back) (ha.rows back)]
  exact flatMap_get r.gates (keptUnits r.hidden (unitsOf r removed back)) r.hidden n j hn hj

theorem rows_not (r : Rnn R) (removed : List Nat) (hb : Balanced r removed) (back : Bool) (n j : Nat) (hn : n < r.gates) (hj : j < (keptUnits r.hidden (unitsOf r removed back)).length) :
    n * r.hidden + (keptUnits r.hidden (unitsOf r removed back)).getD j 0 ∉ rowsOf r removed back := by
  obtain ⟨h1, h2⟩ := keptUnits_get _ _ j hj
  unfold rowsOf
  by_cases hg : r.gates > 1
  · rw [if_pos hg, (C32_gate_rows _ _ _ (unitsOf_lt r removed hb back)).1]
    rintro ⟨_, h3⟩
    rw [Nat.mul_comm, Nat.mul_add_mod, Nat.mod_eq_of_lt h1] at h3
    exact h2 h3
  · rw [if_neg hg]
    have : n = 0 := by omega
    subst this
    simpa using h2

/-- The width of a layer's input is the number of kept columns. -/
theorem width_pruned (r : Rnn R) (removed removedIn : List Nat) (hb : Balanced r removed) (ha : KeptAscending r removed removedIn) (l : Nat) :
    layerWidth (pruned r removed removedIn).input (pruned r removed removedIn).hidden (pruned r removed removedIn).bidir l = (inCols r removed removedIn l).length := by
  unfold layerWidth inCols
  by_cases hl : l = 0
  · rw [if_pos hl, if_pos hl]
    rfl
  · rw [if_neg hl, if_neg hl, comp_kept _ _ ha.outputs]
    show (if r.bidir = true then _ else _) = _
    rw [← keptUnits_hidden r removed removedIn hb ha false (by simp)]
    rcases hb with ⟨h1, h2⟩ | ⟨h1, f, b, rfl, hlen, hfn, hbn, hf, hbb⟩
    · simp [h1, unitsOf]
    · obtain ⟨e1, e2⟩ := unitsOf_two r h1 f b hlen
      rw [e1, if_pos h1, if_pos h1, keptUnits_double _ _ _ hf, List.length_append, List.length_map]
      have k1 := keptUnits_length r.hidden f hfn hf
      have k2 := keptUnits_length r.hidden b hbn hbb
      omega

/-- The features a layer reads: their width, and which of them are removed. -/
theorem inCols_kept (r : Rnn R) (removed removedIn : List Nat) (ha : KeptAscending r removed removedIn) (l : Nat) :
    inCols r removed removedIn l = keptUnits (layerWidth r.input r.hidden r.bidir l) (if l = 0 then removedIn else removed) := by
  unfold inCols layerWidth
  by_cases hl : l = 0
  · rw [if_pos hl, if_pos hl, if_pos hl, comp_kept _ _ ha.inputs]
  · rw [if_neg hl, if_neg hl, if_neg hl, comp_kept _ _ ha.outputs]

/-- One step of the pruned layer is one step of the masked layer, on the kept units. -/
theorem cell_pruned (unit : (Nat → R) → (Nat → R) → S → S) (h : S → R) (r : Rnn R) (hu : UsesGates r.gates unit) (removed removedIn : List Nat) (hb : Balanced r removed) (ha : KeptAscending r removed removedIn)
    (l : Nat) (back : Bool) (hd : back = true → r.bidir = true) (x' x : Nat → R) (hx : ∀ c, c < (inCols r removed removedIn l).length → x' c = x ((inCols r removed removedIn l).getD c 0))
    (hz : l = 0 → back = true → ∀ c ∈ removedIn, x c = 0) (s' s : Nat → S)
    (hs : ∀ j, j < (pruned r removed removedIn).hidden → s' j = s ((keptUnits r.hidden (unitsOf r removed back)).getD j 0)) (j : Nat) (hj : j < (pruned r removed removedIn).hidden) :
    (pruned r removed removedIn).cell unit h l back x' s' j = (masked r removed removedIn).cell unit h l back x s ((keptUnits r.hidden (unitsOf r removed back)).getD j 0) := by
  have hH := keptUnits_hidden r removed removedIn hb ha back hd
  have hj' : j < (keptUnits r.hidden (unitsOf r removed back)).length := by rw [hH]; exact hj
  unfold Rnn.cell unitCell
  rw [hs j hj]
  refine hu _ _ _ _ _ fun n hn => ?_
  have hrow := rows_get r removed removedIn hb ha back n j hn hj'
  have hnot := rows_not r removed hb back n j hn hj'
  rw [hH] at hrow
  constructor
  · congr 1
    · rw [width_pruned r removed removedIn hb ha l]
      have hm : layerWidth (masked r removed removedIn).input (masked r removed removedIn).hidden (masked r removed removedIn).bidir l = layerWidth r.input r.hidden r.bidir l := rfl
      rw [hm, sum_kept (layerWidth r.input r.hidden r.bidir l) (if l = 0 then removedIn else removed), ← inCols_kept r removed removedIn ha l]
      · refine Finset.sum_congr rfl fun c hc => ?_
        have hc' := Finset.mem_range.mp hc
        rw [hx c hc']
        congr 1
        show (r.par l back).wih ((gateRows (unitsOf r removed back) r.gates r.hidden).getD _ 0) _ = _
        rw [hrow]
        have hcn : (inCols r removed removedIn l).getD c 0 ∉ (if l = 0 then removedIn else removed) := by
          rw [inCols_kept r removed removedIn ha l] at hc' ⊢
          exact (keptUnits_get _ _ c hc').2
        simp only [masked]
        by_cases hl : l = 0
        · rw [if_pos hl] at hcn ⊢
          cases back with
          | true => rfl
          | false =>
            simp only [Bool.false_eq_true, if_false]
            rw [if_neg (by rintro (h | h); exacts [hnot h, hcn h])]
        · rw [if_neg hl] at hcn ⊢
          rw [if_neg (by rintro (h | h); exacts [hnot h, hcn h])]
      · intro k _ hk
        simp only [masked]
        by_cases hl : l = 0
        · rw [if_pos hl] at hk ⊢
          cases hbk : back with
          | true => rw [hz hl hbk k hk]; simp
          | false => simp [hk]
        · rw [if_neg hl] at hk ⊢
          simp [hk]
    · show (r.par l back).bih ((gateRows (unitsOf r removed back) r.gates r.hidden).getD _ 0) = _
      rw [hrow]
      simp only [masked]
      rw [if_neg hnot]
  · congr 1
    · have hm : (masked r removed removedIn).hidden = r.hidden := rfl
      rw [hm, sum_kept r.hidden (unitsOf r removed back), hH]
      · refine Finset.sum_congr rfl fun c hc => ?_
        have hc' := Finset.mem_range.mp hc
        rw [hs c hc']
        congr 1
        show (r.par l back).whh ((gateRows (unitsOf r removed back) r.gates r.hidden).getD _ 0) ((complementaryList r.hidden (unitsOf r removed back)).getD c 0) = _
        rw [hrow, comp_kept _ _ (ha.units back)]
        have hcn := (keptUnits_get r.hidden (unitsOf r removed back) c (by rw [hH]; exact hc')).2
        simp only [masked]
        rw [if_neg (by rintro (h | h); exacts [hnot h, hcn h])]
      · intro k _ hk
        simp only [masked]
        rw [if_pos (Or.inr hk), mul_zero]
    · show (r.par l back).bhh ((gateRows (unitsOf r removed back) r.gates r.hidden).getD _ 0) = _
      rw [hrow]
      simp only [masked]
      rw [if_neg hnot]

/-! ### Whole layers and stacks -/

theorem state_pruned (unit : (Nat → R) → (Nat → R) → S → S) (h : S → R) (r : Rnn R) (hu : UsesGates r.gates unit) (removed removedIn : List Nat) (hb : Balanced r removed) (ha : KeptAscending r removed removedIn)
    (l : Nat) (back : Bool) (hd : back = true → r.bidir = true) (x' x : Nat → Nat → R)
    (hx : ∀ t c, c < (inCols r removed removedIn l).length → x' t c = x t ((inCols r removed removedIn l).getD c 0)) (hz : l = 0 → back = true → ∀ t, ∀ c ∈ removedIn, x t c = 0) (s0 : S) (m : Nat) :
    ∀ j, j < (pruned r removed removedIn).hidden → stateAfter ((pruned r removed removedIn).cell unit h l back) x' (fun _ => s0) m j =
      stateAfter ((masked r removed removedIn).cell unit h l back) x (fun _ => s0) m ((keptUnits r.hidden (unitsOf r removed back)).getD j 0) := by
  induction m with
  | zero => intro j _; rfl
  | succ m ih =>
    intro j hj
    rw [stateAfter, stateAfter]
    exact cell_pruned unit h r hu removed removedIn hb ha l back hd _ _ (hx m) (fun hl hbk => hz hl hbk m) _ _ ih j hj

theorem seq_pruned (unit : (Nat → R) → (Nat → R) → S → S) (h : S → R) (r : Rnn R) (hu : UsesGates r.gates unit) (removed removedIn : List Nat) (hb : Balanced r removed) (ha : KeptAscending r removed removedIn)
    (s0 : S) (T : Nat) (x : Nat → Nat → R) (hz : r.bidir = true → ∀ t, ∀ c ∈ removedIn, x t c = 0) (l : Nat) :
    ∀ t j, j < (inCols r removed removedIn l).length → (pruned r removed removedIn).seq unit h s0 T (fun t j => x t ((complementaryList r.input removedIn).getD j 0)) l t j =
      (masked r removed removedIn).seq unit h s0 T x l t ((inCols r removed removedIn l).getD j 0) := by
  induction l with
  | zero => intro t j _; rfl
  | succ l ih =>
    intro t j hj
    have hst := fun (back : Bool) (hd : back = true → r.bidir = true) (m : Nat) => state_pruned unit h r hu removed removedIn hb ha l back hd
      (dirSeq T back ((pruned r removed removedIn).seq unit h s0 T (fun t j => x t ((complementaryList r.input removedIn).getD j 0)) l)) (dirSeq T back ((masked r removed removedIn).seq unit h s0 T x l))
      (fun t c hc => ih _ c hc) (fun hl hbk t c hc => by subst hl; exact hz (hd hbk) _ c hc) s0 m
    have hin : inCols r removed removedIn (l + 1) = keptUnits (if r.bidir then 2 * r.hidden else r.hidden) removed := by
      rw [inCols_kept r removed removedIn ha (l + 1)]
      unfold layerWidth
      simp
    rw [hin] at hj ⊢
    have hH := keptUnits_hidden r removed removedIn hb ha
    unfold Rnn.seq
    rw [layerInput, layerInput]
    show (if (r.bidir && decide ((pruned r removed removedIn).hidden ≤ j)) = true then _ else _) = (if (r.bidir && decide (r.hidden ≤ _)) = true then _ else _)
    rcases hb with ⟨h1, h2⟩ | ⟨h1, f, b, rfl, hl, hfn, hbn, hf, hbb⟩
    · have hun : unitsOf r removed false = removed := by simp [unitsOf, h1]
      have hHf := hH false (by simp)
      rw [hun] at hHf
      simp only [h1, Bool.false_and, Bool.false_eq_true, if_false] at hj ⊢
      rw [hHf] at hj
      have := hst false (by simp) (t + 1) j hj
      rw [hun] at this
      unfold dirOut
      simp only [Bool.false_eq_true, if_false]
      exact congrArg h this
    · obtain ⟨e1, e2⟩ := unitsOf_two r h1 f b hl
      have hHf := hH false (by simp)
      have hHb := hH true (fun _ => h1)
      rw [e1] at hHf
      rw [e2] at hHb
      simp only [h1, if_true] at hj
      rw [keptUnits_double _ _ _ hf, List.length_append, List.length_map, hHf, hHb] at hj
      simp only [h1, Bool.true_and, if_true, decide_eq_true_eq]
      rw [keptUnits_double _ _ _ hf]
      by_cases hjb : (pruned r (f ++ b.map (· + r.hidden)) removedIn).hidden ≤ j
      · rw [if_pos hjb, List.getD_append_right _ _ _ _ (by rw [hHf]; exact hjb), hHf]
        have hlt : j - (pruned r (f ++ b.map (· + r.hidden)) removedIn).hidden < (keptUnits r.hidden b).length := by
          rw [hHb]; omega
        have hmap : ((keptUnits r.hidden b).map (r.hidden + ·)).getD (j - (pruned r (f ++ b.map (· + r.hidden)) removedIn).hidden) 0 =
            r.hidden + (keptUnits r.hidden b).getD (j - (pruned r (f ++ b.map (· + r.hidden)) removedIn).hidden) 0 := by
          rw [List.getD_eq_getElem _ _ (by simpa using hlt), List.getD_eq_getElem _ _ hlt, List.getElem_map]
        have hsub : ∀ v : Nat, r.hidden + v - (masked r (f ++ b.map (· + r.hidden)) removedIn).hidden = v := fun v => Nat.add_sub_cancel_left _ _
        rw [hmap, if_pos (by omega), hsub]
        have := hst true (fun _ => h1) (T - t) (j - (pruned r (f ++ b.map (· + r.hidden)) removedIn).hidden) (by omega)
        rw [e2] at this
        unfold dirOut
        simp only [if_true]
        exact congrArg h this
      · have hlt : j < (keptUnits r.hidden f).length := by rw [hHf]; omega
        rw [if_neg hjb, List.getD_append _ _ _ _ hlt]
        have hb' := (keptUnits_get _ _ j hlt).1
        rw [if_neg (by omega)]
        have := hst false (by simp) (t + 1) j (by omega)
        rw [e1] at this
        unfold dirOut
        simp only [Bool.false_eq_true, if_false]
        exact congrArg h this

/-- **C133**.  For stacks of RNN, GRU or LSTM layers of any sizes, with one or two directions: the layer with cut weights, fed with the kept features of the input, gives at every time the kept features of
the output of the layer with its masks, and ends in the states of its kept units.  The removed features are as many of one direction as of the other, the kept positions come in ascending order, and
with two directions the removed features of the input are zero (without them none of this holds: `C32_directions_false`, `C55_gate_order_false`, `C133_reverse_false`). -/
theorem C133_pruned_partial (unit : (Nat → R) → (Nat → R) → S → S) (h : S → R) (r : Rnn R) (hu : UsesGates r.gates unit) (removed removedIn : List Nat) (hb : Balanced r removed)
    (ha : KeptAscending r removed removedIn) (s0 : S) (T : Nat) (x : Nat → Nat → R) (hz : r.bidir = true → ∀ t, ∀ c ∈ removedIn, x t c = 0) :
    (∀ l t j, 0 < l → j < (if r.bidir then 2 * (pruned r removed removedIn).hidden else (pruned r removed removedIn).hidden) →
      (pruned r removed removedIn).seq unit h s0 T (fun t j => x t ((complementaryList r.input removedIn).getD j 0)) l t j =
        (masked r removed removedIn).seq unit h s0 T x l t ((keptUnits (if r.bidir then 2 * r.hidden else r.hidden) removed).getD j 0)) ∧
    (∀ l back j, (back = true → r.bidir = true) → j < (pruned r removed removedIn).hidden →
      (pruned r removed removedIn).final unit h s0 T (fun t j => x t ((complementaryList r.input removedIn).getD j 0)) l back j =
        (masked r removed removedIn).final unit h s0 T x l back ((keptUnits r.hidden (unitsOf r removed back)).getD j 0)) := by
  have hseq := seq_pruned unit h r hu removed removedIn hb ha s0 T x hz
  constructor
  · intro l t j hl hj
    have hw := width_pruned r removed removedIn hb ha l
    have hc := inCols_kept r removed removedIn ha l
    rw [layerWidth, if_neg (by omega : l ≠ 0)] at hw hc
    rw [if_neg (by omega : l ≠ 0)] at hc
    have := hseq l t j (by rw [← hw]; exact hj)
    rw [hc] at this
    exact this
  · intro l back j hd hj
    refine state_pruned unit h r hu removed removedIn hb ha l back hd
      (dirSeq T back ((pruned r removed removedIn).seq unit h s0 T (fun t j => x t ((complementaryList r.input removedIn).getD j 0)) l)) (dirSeq T back ((masked r removed removedIn).seq unit h s0 T x l)) (fun t c hc => hseq l _ c hc) (fun hl hbk t c hc => ?_) s0 T j hj
    subst hl
    exact hz (hd hbk) _ c hc

/-- Weights for examples. -/
def rnnDemoPar (l : Nat) (back : Bool) : RnnParams Int :=
  ⟨fun i j => (i : Int) - j + l + if back then 3 else 0, fun i j => 2 * i - 5 * j, fun i => i, fun i => 7 - i⟩

/-- A bidirectional LSTM with two layers. -/
def rnnPruneDemo : Rnn Int := ⟨4, 2, true, 3, 4, rnnDemoPar⟩

example : Balanced rnnPruneDemo [1, 3, 4, 6] ∧ KeptAscending rnnPruneDemo [1, 3, 4, 6] [2] ∧ (pruned rnnPruneDemo [1, 3, 4, 6] [2]).hidden = 2 ∧ (pruned rnnPruneDemo [1, 3, 4, 6] [2]).input = 2 ∧
    (masked rnnPruneDemo [1, 3, 4, 6] [2]).seq (lstmUnit (fun v => v) fun v => v) Prod.fst (0, 0) 2 (fun t j => if j = 2 then 0 else t + j) 1 0 0 ≠ 0 := by
  refine ⟨.inr ⟨rfl, [1, 3], [0, 2], by decide⟩, ⟨by decide, by decide, by decide, by decide⟩, by decide, by decide, by decide +kernel⟩

/-- The mask of the backward input weights of the first layer is never registered: a removed input feature that is not zero reaches the backward direction of the masked layer, and pruning the layer changes
what it computes. -/
theorem C133_reverse_false : ∃ (r : Rnn Int) (removedIn : List Nat) (x : Nat → Nat → Int), Balanced r [] ∧ KeptAscending r [] removedIn ∧
    (masked r [] removedIn).seq (rnnUnit id) id 0 1 x 1 0 0 = 0 ∧ (masked r [] removedIn).seq (rnnUnit id) id 0 1 x 1 0 1 = 5 ∧
    (pruned r [] removedIn).seq (rnnUnit id) id 0 1 (fun t j => x t ((complementaryList r.input removedIn).getD j 0)) 1 0 1 = 0 := by
  refine ⟨⟨1, 1, true, 2, 1, fun _ _ => ⟨fun _ _ => 1, fun _ _ => 0, fun _ => 0, fun _ => 0⟩⟩, [0], fun _ j => if j = 0 then 5 else 0, .inr ⟨rfl, [], [], by decide⟩, ⟨by decide, by decide, by decide, by decide⟩,
    by decide +kernel, by decide +kernel, by decide +kernel⟩

/-- If Python's set does not come in ascending order, the gates of the pruned layer are mixed up: an LSTM with eight units of which unit 1 is kept uses the weights of its output gate for the forget gate. -/
theorem C133_order_false : ∃ (r : Rnn Int) (removed : List Nat) (x : Nat → Nat → Int), Balanced r removed ∧
    (masked r removed []).seq (lstmUnit id id) Prod.fst (0, 0) 1 x 1 0 1 ≠ (pruned r removed []).seq (lstmUnit id id) Prod.fst (0, 0) 1 x 1 0 0 := by
  refine ⟨⟨4, 1, false, 1, 8, fun _ _ => ⟨fun i _ => if i = 9 then 0 else (i : Int), fun _ _ => 0, fun _ => 0, fun _ => 0⟩⟩, [0, 2, 3, 4, 5, 6, 7], fun _ _ => 1, .inl ⟨rfl, by decide⟩, by decide +kernel⟩

end Verif.Props
