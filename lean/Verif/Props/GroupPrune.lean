import Verif.Model.GroupPrune
import Verif.Model.GreedyPrune
import Verif.Lemmas.PyOrder
import Mathlib.Algebra.Order.Field.Rat
import Mathlib.Data.List.Basic
import Mathlib.Tactic.NormNum
import Mathlib.Tactic.Ring

/-! C32, C54 and C55: index computations for recurrent layers and grouped convolutions. -/

namespace Verif.Props
open Verif.Model

/-- C32, gates.  For every set of hidden units of a layer with `h` units and any number of gates: a row of the stacked weight is removed
exactly if its unit (the row modulo `h`) is removed; no row occurs twice. -/
theorem C32_gate_rows (units : List Nat) (gates h : Nat) (hu : ∀ u ∈ units, u < h) :
    (∀ r, r ∈ tileIndices units gates h ↔ r < gates * h ∧ r % h ∈ units) ∧
    (units.Nodup → (tileIndices units gates h).Nodup) := by
  constructor
  · intro r
    simp only [tileIndices, List.mem_flatMap, List.mem_range, List.mem_map]
    constructor
    · rintro ⟨g, hg, u, hu', rfl⟩
      have := hu u hu'
      refine ⟨?_, ?_⟩
      · calc h * g + u < h * g + h := by omega
          _ = (g + 1) * h := by ring
          _ ≤ gates * h := Nat.mul_le_mul_right h hg
      · rw [Nat.mul_add_mod, Nat.mod_eq_of_lt this]; exact hu'
    · rintro ⟨h1, h2⟩
      have hh := hu _ h2
      have hpos : 0 < h := by omega
      refine ⟨r / h, (Nat.div_lt_iff_lt_mul hpos).2 h1, r % h, h2, Nat.div_add_mod r h⟩
  · intro hnd
    unfold tileIndices
    rw [List.nodup_flatMap]
    constructor
    · intro g _
      exact hnd.map (fun a b hab => by simpa using hab)
    · refine List.nodup_range.imp ?_
      intro a b hab x hx hy
      rw [List.mem_map] at hx hy
      obtain ⟨u, hu1, rfl⟩ := hx
      obtain ⟨v, hv1, hv⟩ := hy
      have h1 := hu u hu1
      have h2 := hu v hv1
      apply hab
      have e1 : (h * a + u) / h = a := by rw [Nat.mul_add_div (by omega), Nat.div_eq_of_lt h1, Nat.add_zero]
      have e2 : (h * b + v) / h = b := by rw [Nat.mul_add_div (by omega), Nat.div_eq_of_lt h2, Nat.add_zero]
      rw [← e1, ← e2, hv]

/-- Units 1 and 4 of five, in the four gates of an LSTM. -/
example : tileIndices [1, 4] 4 5 = [1, 4, 6, 9, 11, 14, 16, 19] ∧ ∀ u ∈ [1, 4], u < 5 := by decide

/-- A sorted list is what lies below a bound followed by the rest. -/
theorem sorted_split (l : List Nat) (hs : l.Pairwise (· < ·)) (t : Nat) :
    l = l.filter (fun i => decide (i < t)) ++ l.filter (fun i => decide (t ≤ i)) := by
  induction l with
  | nil => rfl
  | cons a r ih =>
    rw [List.pairwise_cons] at hs
    by_cases h : a < t
    · have h' : ¬ t ≤ a := by omega
      simp only [List.filter_cons, h, h', decide_true, decide_false, if_true, List.cons_append, Bool.false_eq_true, if_false]
      rw [← ih hs.2]
    · have h' : t ≤ a := by omega
      have e1 : r.filter (fun i => decide (i < t)) = [] := by
        rw [List.filter_eq_nil_iff]
        intro b hb
        have := hs.1 b hb
        simp; omega
      have e2 : r.filter (fun i => decide (t ≤ i)) = r := by
        rw [List.filter_eq_self]
        intro b hb
        have := hs.1 b hb
        simp; omega
      simp [List.filter_cons, h, h', e1, e2]

/-- C32, directions, when as many units are removed from the forward as from the backward direction of a bidirectional layer with `h`
units: each direction gets exactly its own removed units, numbered from 0.  Missing for the full property: different numbers
(`C32_directions_false`). -/
theorem C32_directions_partial (removed : List Nat) (h : Nat) (hs : removed.Pairwise (· < ·))
    (hbal : (removed.filter (fun i => decide (i < h))).length = (removed.filter (fun i => decide (h ≤ i))).length) :
    (∀ u, u ∈ (splitDirections removed h).1 ↔ u ∈ removed ∧ u < h) ∧
    (∀ u : Int, u ∈ (splitDirections removed h).2 ↔ 0 ≤ u ∧ u.toNat + h ∈ removed) := by
  have hsp := sorted_split removed hs h
  have hlen : removed.length / 2 = (removed.filter (fun i => decide (i < h))).length := by
    have := congrArg List.length hsp
    rw [List.length_append] at this
    omega
  have h1 : removed.take (removed.length / 2) = removed.filter (fun i => decide (i < h)) := by
    rw [hlen]; conv_lhs => rw [hsp]
    simp
  have h2 : removed.drop (removed.length / 2) = removed.filter (fun i => decide (h ≤ i)) := by
    rw [hlen]; conv_lhs => rw [hsp]
    simp
  unfold splitDirections
  simp only [h1, h2]
  constructor
  · intro u; simp
  · intro u
    simp only [List.mem_map, List.mem_filter, decide_eq_true_eq]
    constructor
    · rintro ⟨i, ⟨hi, hle⟩, rfl⟩
      refine ⟨by omega, ?_⟩
      have : ((i : Int) - h).toNat + h = i := by omega
      rw [this]; exact hi
    · rintro ⟨h0, hm⟩
      exact ⟨u.toNat + h, ⟨hm, by omega⟩, by omega⟩

/-- Units 0, 2 of the forward and 1, 3 of the backward direction of a layer with four units. -/
example : splitDirections [0, 2, 5, 7] 4 = ([0, 2], [1, 3]) ∧ [0, 2, 5, 7].Pairwise (· < ·) := by decide

/-- What the pruner chooses for the two directions of a layer with three units and sparsity 1/2, all units having importance equal to their
number: two units of the first direction and one of the second. -/
theorem unbalanced : ∃ delta res,
    pruneLeaf (1 / 2) none [⟨{0}, 0⟩, ⟨{1}, 1⟩, ⟨{2}, 2⟩, ⟨{3}, 3⟩, ⟨{4}, 4⟩, ⟨{5}, 5⟩] [{0, 1, 2}, {3, 4, 5}] 0 = some (delta, res) ∧
      res.map (fun g => g.pruned) = [[⟨{0}, 0⟩, ⟨{1}, 1⟩], [⟨{3}, 3⟩]] := by
  have hs1 : ([⟨{0}, 0⟩, ⟨{1}, 1⟩, ⟨{2}, 2⟩, ⟨{3}, 3⟩, ⟨{4}, 4⟩, ⟨{5}, 5⟩].filter
      (fun c : LeafSet => decide (0 < (c.idx ∩ {0, 1, 2}).card))).insertionSort (fun a b => a.imp ≤ b.imp) =
      [⟨{0}, 0⟩, ⟨{1}, 1⟩, ⟨{2}, 2⟩] := by decide
  have hs2 : ([⟨{0}, 0⟩, ⟨{1}, 1⟩, ⟨{2}, 2⟩, ⟨{3}, 3⟩, ⟨{4}, 4⟩, ⟨{5}, 5⟩].filter
      (fun c : LeafSet => decide (0 < (c.idx ∩ {3, 4, 5}).card))).insertionSort (fun a b => a.imp ≤ b.imp) =
      [⟨{3}, 3⟩, ⟨{4}, 4⟩, ⟨{5}, 5⟩] := by decide
  refine ⟨_, _, rfl, ?_⟩
  simp only [List.map_append, List.map_cons, List.map_nil, List.append_nil, hs1, hs2]
  norm_num [greedyLoop, globalStop]

/-- C32 fails for what the pruner itself chooses for a bidirectional layer with three units and sparsity 1/2, units 0, 1 and 3 (see
`unbalanced`): the forward direction gets only unit 0, and the backward direction gets index -2, which Python takes for its row of
unit 1 in the last gate. -/
theorem C32_directions_false :
    (∃ delta res, pruneLeaf (1 / 2) none [⟨{0}, 0⟩, ⟨{1}, 1⟩, ⟨{2}, 2⟩, ⟨{3}, 3⟩, ⟨{4}, 4⟩, ⟨{5}, 5⟩] [{0, 1, 2}, {3, 4, 5}] 0 =
        some (delta, res) ∧ (res.flatMap (fun g => g.pruned.flatMap (fun c => c.idx.sort (· ≤ ·)))) = [0, 1, 3]) ∧
    splitDirections [0, 1, 3] 3 = ([0], [-2, 0]) := by
  refine ⟨?_, by decide⟩
  obtain ⟨delta, res, h1, h2⟩ := unbalanced
  refine ⟨delta, res, h1, ?_⟩
  have : res.flatMap (fun g => g.pruned.flatMap (fun c => c.idx.sort (· ≤ ·))) =
      (res.map (fun g => g.pruned)).flatMap (fun l => l.flatMap (fun c => c.idx.sort (· ≤ ·))) := by
    rw [List.flatMap_map]
  rw [this, h2]
  simp

/-- A sorted list below `w * n` is the concatenation of its parts in the intervals `[w * i, w * (i + 1))`. -/
theorem sorted_groups (l : List Nat) (hs : l.Pairwise (· < ·)) (w n : Nat) (hlt : ∀ i ∈ l, i < w * n) :
    l = (List.range n).flatMap (fun i => l.filter (fun x => decide (w * i ≤ x ∧ x < w * (i + 1)))) := by
  induction n generalizing l with
  | zero =>
    cases l with
    | nil => rfl
    | cons a r => exact absurd (hlt a (by simp)) (by simp)
  | succ n ih =>
    rw [List.range_succ, List.flatMap_append]
    conv_lhs => rw [sorted_split l hs (w * n)]
    congr 1
    · rw [ih (l.filter (fun i => decide (i < w * n))) (hs.filter _) (by intro i hi; simpa using (List.mem_filter.1 hi).2)]
      apply List.flatMap_congr
      intro i hi
      rw [List.mem_range] at hi
      rw [List.filter_filter]
      apply List.filter_congr
      intro x _
      rw [Bool.eq_iff_iff]
      simp only [Bool.and_eq_true, decide_eq_true_eq]
      have : w * (i + 1) ≤ w * n := Nat.mul_le_mul_left w hi
      constructor
      · rintro ⟨h, -⟩; exact h
      · intro h; exact ⟨h, by omega⟩
    · simp only [List.flatMap_cons, List.flatMap_nil, List.append_nil]
      apply List.filter_congr
      intro x hx
      have := hlt x hx
      rw [Bool.eq_iff_iff]
      simp only [decide_eq_true_eq]
      constructor
      · intro h; exact ⟨h, this⟩
      · exact fun h => h.1

theorem drop_take_flatMap (n c : Nat) (f : Nat → List Nat) (hf : ∀ i < n, (f i).length = c) (i : Nat) (hi : i < n) :
    (((List.range n).flatMap f).drop (c * i)).take c = f i := by
  obtain ⟨m, rfl⟩ : ∃ m, n = i + (m + 1) := ⟨n - i - 1, by omega⟩
  rw [List.range_add, List.flatMap_append]
  have h1 : ((List.range i).flatMap f).length = c * i := by
    rw [List.length_flatMap]
    have : (List.range i).map (fun a => (f a).length) = List.replicate i c := by
      rw [← List.length_range (n := i), ← List.map_const']
      · rw [List.length_range]
        apply List.map_congr_left
        intro a ha
        rw [List.mem_range] at ha
        exact hf a (by omega)
    rw [this]; simp [Nat.mul_comm]
  rw [List.drop_append_of_le_length (by omega), ← h1, List.drop_length, List.nil_append, List.range_succ_eq_map]
  simp only [List.map_cons, List.flatMap_cons, Nat.add_zero]
  rw [List.take_append_of_le_length (by rw [hf i (by omega)]), ← hf i (by omega), List.take_length]

/-- C54, when every group of a grouped convolution loses the same number of input channels: from the part of each group exactly the
removed channels of that group are taken, numbered from the start of the group.  Missing for the full property: groups that lose
different numbers of channels (`C54_groups_false`). -/
theorem C54_groups_partial (removed : List Nat) (group w c : Nat) (hg : 0 < group) (hs : removed.Pairwise (· < ·))
    (hlt : ∀ i ∈ removed, i < w * group)
    (hbal : ∀ g < group, (removed.filter (fun x => decide (w * g ≤ x ∧ x < w * (g + 1)))).length = c) :
    (groupRemove removed group w).length = group ∧
    ∀ g < group, ∀ L, (groupRemove removed group w)[g]? = some L →
      ∀ u : Int, u ∈ L ↔ 0 ≤ u ∧ u < w ∧ w * g + u.toNat ∈ removed := by
  have hspl := sorted_groups removed hs w group hlt
  have hlen : removed.length / group = c := by
    have h1 : removed.length = group * c := by
      conv_lhs => rw [hspl]
      rw [List.length_flatMap]
      have : (List.range group).map (fun a => (removed.filter (fun x => decide (w * a ≤ x ∧ x < w * (a + 1)))).length) =
          (List.range group).map (fun _ => c) := by
        apply List.map_congr_left
        intro a ha
        exact hbal a (List.mem_range.1 ha)
      rw [this]; simp
    rw [h1, Nat.mul_div_cancel_left _ hg]
  refine ⟨by simp [groupRemove], ?_⟩
  intro g hgl L hL u
  unfold groupRemove at hL
  simp only [hlen, List.getElem?_map, List.getElem?_range hgl, Option.map_some, Option.some.injEq] at hL
  subst hL
  have hd : (removed.drop (c * g)).take c = removed.filter (fun x => decide (w * g ≤ x ∧ x < w * (g + 1))) := by
    conv_lhs => rw [hspl]
    exact drop_take_flatMap group c _ hbal g hgl
  rw [hd]
  simp only [List.mem_map, List.mem_filter, decide_eq_true_eq]
  have hw : w * (g + 1) = w * g + w := by ring
  constructor
  · rintro ⟨x, ⟨hx, h1, h2⟩, rfl⟩
    refine ⟨by omega, by omega, ?_⟩
    have : w * g + ((x : Int) - ((w * g : Nat) : Int)).toNat = x := by omega
    rw [this]; exact hx
  · rintro ⟨h0, h1, hm⟩
    exact ⟨w * g + u.toNat, ⟨hm, by omega, by omega⟩, by push_cast; omega⟩

/-- Three groups of four input channels, each losing two. -/
example : groupRemove [0, 3, 4, 5, 9, 10] 3 4 = [[0, 3], [0, 1], [1, 2]] := by decide

/-- C54 fails for what the pruner itself chooses (see `unbalanced`) for a convolution with two groups of three input channels and sparsity
1/2, channels 0, 1 and 3: one channel is taken from each group, the second of them being the non-existent channel -2 of group 1, and three
of six input channels are left for two groups. -/
theorem C54_groups_false :
    (∃ delta res, pruneLeaf (1 / 2) none [⟨{0}, 0⟩, ⟨{1}, 1⟩, ⟨{2}, 2⟩, ⟨{3}, 3⟩, ⟨{4}, 4⟩, ⟨{5}, 5⟩] [{0, 1, 2}, {3, 4, 5}] 0 =
        some (delta, res) ∧ (res.flatMap (fun g => g.pruned.flatMap (fun c => c.idx.sort (· ≤ ·)))) = [0, 1, 3]) ∧
    groupRemove [0, 1, 3] 2 3 = [[0], [-2]] ∧ ¬ 2 ∣ 6 - [0, 1, 3].length :=
  ⟨C32_directions_false.1, by decide, by decide⟩

/-- C55, when Python's set order is ascending: row `g * k + j` of the pruned stacked weight is the row of gate `g` of the `j`-th of the `k`
remaining units, in ascending order of the units.  Missing for the full property: other set orders (`C55_gate_order_false`). -/
theorem C55_gate_order_partial (removed : List Nat) (gates h : Nat) (hgates : 0 < gates) (hr : ∀ u ∈ removed, u < h)
    (hasc : (gateRows removed gates h).Pairwise (· < ·)) :
    gateRows removed gates h =
      (List.range gates).flatMap (fun g => ((List.range h).filter (fun u => !removed.contains u)).map (fun u => h * g + u)) := by
  set tiled := (if gates > 1 then tileIndices removed gates h else removed) with ht
  have hmem : ∀ r, r < gates * h → (r ∈ tiled ↔ r % h ∈ removed) := by
    intro r hr'
    rw [ht]
    split
    · rw [(C32_gate_rows removed gates h hr).1]
      exact ⟨fun x => x.2, fun x => ⟨hr', x⟩⟩
    · have : gates = 1 := by omega
      rw [this, Nat.one_mul] at hr'
      rw [Nat.mod_eq_of_lt hr']
  have hp : (gateRows removed gates h).Perm ((List.range (gates * h)).filter (fun i => !tiled.contains i)) :=
    complementaryList_perm _ _
  have heq : gateRows removed gates h = (List.range (gates * h)).filter (fun i => !tiled.contains i) := by
    refine List.Perm.eq_of_pairwise ?_ hasc ((List.pairwise_lt_range).filter _) hp
    intro a b _ _ h1 h2; omega
  rw [heq]
  clear hp heq hasc ht
  have hx : (List.range (gates * h)).filter (fun i => !tiled.contains i) =
      (List.range (gates * h)).filter (fun i => !removed.contains (i % h)) := by
    apply List.filter_congr
    intro r hr'
    have : tiled.contains r = removed.contains (r % h) := by
      rw [Bool.eq_iff_iff]; simpa using hmem r (List.mem_range.1 hr')
    rw [this]
  rw [hx]
  clear hx hmem hgates
  clear_value tiled
  induction gates with
  | zero => simp
  | succ n ih =>
    rw [Nat.succ_mul, List.range_add, List.filter_append, ih, List.range_succ, List.flatMap_append]
    congr 1
    simp only [List.flatMap_cons, List.flatMap_nil, List.append_nil]
    rw [List.filter_map]
    have e : ∀ j, j ∈ List.range h → ((fun i => !removed.contains (i % h)) ∘ fun x => n * h + x) j = !removed.contains j := by
      intro j hj
      rw [List.mem_range] at hj
      simp only [Function.comp]
      rw [Nat.mul_comm, Nat.mul_add_mod, Nat.mod_eq_of_lt hj]
    rw [List.filter_congr e, Nat.mul_comm]

/-- An LSTM with six units that loses unit 2. -/
example : (gateRows [2] 4 6).Pairwise (· < ·) ∧ (gateRows [2] 4 6).length = 20 := by decide

/-- C55 fails for an LSTM with eight units of which only unit 1 is kept: the rows of the gates come out as gates 0, 3, 1, 2; and for an LSTM
with sixteen units of which 1 and 7 are kept, gate by gate, units and gates are interleaved. -/
theorem C55_gate_order_false :
    gateRows [0, 2, 3, 4, 5, 6, 7] 4 8 = [1, 25, 9, 17] ∧
    gateRows [0, 2, 3, 4, 5, 6, 8, 9, 10, 11, 12, 13, 14, 15] 4 16 = [1, 33, 7, 39, 17, 49, 55, 23] := by decide

end Verif.Props
