import Verif.Model.PruneNet
import Verif.Lemmas.PyOrder
import Mathlib.Algebra.Order.Group.Nat
import Mathlib.Data.List.Basic
import Mathlib.Tactic.Ring

/-! C31: the physically pruned network computes what the masked network computes. -/

namespace Verif.Props
open Verif.Spec Verif.Model

variable {α M : Type} [Zero α] [AddCommMonoid M]

/-- The channels that stay, in ascending order. -/
def kept (n : Nat) (rm : List Nat) : List Nat := (List.range n).filter (fun i => !rm.contains i)

theorem preserve_perm (n : Nat) (rm : List Nat) : (preserveIdx n rm).Perm (kept n rm) := by
  have hp : (complementaryList n rm).Perm (kept n rm) := complementaryList_perm n rm
  unfold preserveIdx
  simp only
  split
  · rename_i h
    rw [hp.length_eq] at h
    have : kept n rm = List.range n := by
      unfold kept at h ⊢
      have hs : ((List.range n).filter (fun i => !rm.contains i)).Sublist (List.range n) := List.filter_sublist
      exact hs.eq_of_length (by rw [h, List.length_range])
    rw [this]
  · exact hp

theorem mem_kept (n : Nat) (rm : List Nat) (i : Nat) : i ∈ kept n rm ↔ i < n ∧ i ∉ rm := by simp [kept]

theorem mem_preserve (n : Nat) (rm : List Nat) (i : Nat) : i ∈ preserveIdx n rm ↔ i < n ∧ i ∉ rm := by
  rw [(preserve_perm n rm).mem_iff, mem_kept]

theorem preserve_congr (n : Nat) (rm rm' : List Nat) (h : ∀ c, c ∈ rm ↔ c ∈ rm') :
    preserveIdx n rm = preserveIdx n rm' := by
  have : (List.range n).filter (fun i => !rm.contains i) = (List.range n).filter (fun i => !rm'.contains i) := by
    apply List.filter_congr
    intro i _
    have : rm.contains i = rm'.contains i := by rw [Bool.eq_iff_iff]; simp [h]
    rw [this]
  have hl : rm.dedup.length = rm'.dedup.length :=
    ((List.perm_ext_iff_of_nodup (List.nodup_dedup rm) (List.nodup_dedup rm')).2 (fun c => by
      rw [List.mem_dedup, List.mem_dedup, h])).length_eq
  unfold preserveIdx complementaryList
  simp only [this, hl]

/-- The order of the channels that stay is ascending. -/
def Ascending (n : Nat) (rm : List Nat) : Prop := preserveIdx n rm = kept n rm

/-- Every concatenation and flattening, and what enters it, keeps the channels in ascending order. -/
def Ordered : Net α M → Prop
  | .input _ _ => True
  | .layer _ _ _ child => Ordered child
  | .chan _ _ child => Ordered child
  | .add l r => Ordered l ∧ Ordered r
  | .cat l r => Ordered l ∧ Ordered r ∧ Ascending l.width l.removed ∧ Ascending r.width r.removed ∧
      Ascending (l.width + r.width) (l.removed ++ r.removed.map (· + l.width))
  | .spread parts child => Ordered child ∧ Ascending child.width child.removed ∧
      Ascending (child.width * parts.length)
        (child.removed.flatMap (fun c => (List.range parts.length).map (fun j => c * parts.length + j)))

theorem zipWith_range {β γ δ : Type} (f : β → γ → δ) (l : List β) (r : List γ) (d : β) (e : γ) (n : Nat) (hl : l.length = n)
    (hr : r.length = n) : List.zipWith f l r = (List.range n).map (fun j => f (l.getD j d) (r.getD j e)) := by
  apply List.ext_getElem
  · simp [hl, hr]
  · intro i h1 h2
    simp only [List.length_zipWith, hl, hr, min_self] at h1
    simp [List.getD, hl, hr, h1]

theorem zipWith_map_map {ι β γ δ : Type} (f : β → γ → δ) (l : List ι) (g : ι → β) (h : ι → γ) :
    List.zipWith f (l.map g) (l.map h) = l.map (fun i => f (g i) (h i)) := by
  induction l with
  | nil => rfl
  | cons a r ih => simp [ih]

theorem sum_filter (l : List Nat) (p : Nat → Bool) (f : Nat → M) :
    ((l.filter p).map f).sum = (l.map (fun i => if p i then f i else 0)).sum := by
  induction l with
  | nil => rfl
  | cons a r ih =>
    by_cases h : p a
    · simp [h, ih]
    · simp [h, ih]

theorem eval_length (act : α → M → M) (env : Nat → List M) (N : Net α M) (wf : N.WellFormed env) :
    ((maskNet N).eval act env).length = N.width := by
  induction N with
  | input k n => exact wf
  | layer W b rm child ih =>
    simp [maskNet, Net.eval, Net.width, maskWeight, maskBias, wf.1]
  | chan g h child ih =>
    simp [maskNet, Net.eval, Net.width, ih wf.2, wf.1]
  | add l r ihl ihr =>
    simp [maskNet, Net.eval, Net.width, ihl wf.2.2.1, ihr wf.2.2.2, wf.1]
  | cat l r ihl ihr => simp [maskNet, Net.eval, Net.width, ihl wf.1, ihr wf.2]
  | spread parts child ih =>
    have := ih wf
    simp only [maskNet, Net.eval, Net.width, List.length_flatMap, List.length_map, List.map_const', List.sum_replicate, this]
    simp

theorem getD_mapIdx {β γ : Type} (l : List β) (f : Nat → β → γ) (i : Nat) (d : γ) (e : β) (h : i < l.length) :
    (l.mapIdx f).getD i d = f i (l.getD i e) := by simp [List.getD, h]

theorem kept_cat (a b : Nat) (r1 r2 : List Nat) (h1 : ∀ c ∈ r1, c < a) :
    kept (a + b) (r1 ++ r2.map (· + a)) = kept a r1 ++ (kept b r2).map (· + a) := by
  unfold kept
  rw [List.range_add, List.filter_append]
  congr 1
  · apply List.filter_congr
    intro i hi
    rw [List.mem_range] at hi
    have : (r1 ++ r2.map (· + a)).contains i = r1.contains i := by
      rw [Bool.eq_iff_iff]
      simp only [List.contains_iff_mem, List.mem_append, List.mem_map]
      constructor
      · rintro (h | ⟨c, _, h⟩)
        · exact h
        · omega
      · exact Or.inl
    rw [this]
  · rw [List.filter_map]
    have e : ∀ i, i ∈ List.range b → ((fun i => !(r1 ++ r2.map (· + a)).contains i) ∘ fun x => a + x) i = !r2.contains i := by
      intro i _
      have : (r1 ++ r2.map (· + a)).contains (a + i) = r2.contains i := by
        rw [Bool.eq_iff_iff]
        simp only [List.contains_iff_mem, List.mem_append, List.mem_map]
        constructor
        · rintro (h | ⟨c, hc, h⟩)
          · have := h1 _ h; omega
          · have : c = i := by omega
            subst this; exact hc
        · intro h; exact Or.inr ⟨i, h, by omega⟩
      simp only [Function.comp, this]
    rw [List.filter_congr e]
    apply List.map_congr_left
    intro i _; omega

theorem kept_spread (n k : Nat) (rm : List Nat) :
    kept (n * k) (rm.flatMap (fun c => (List.range k).map (fun j => c * k + j))) =
      (kept n rm).flatMap (fun c => (List.range k).map (fun j => c * k + j)) := by
  unfold kept
  induction n with
  | zero => simp
  | succ n ih =>
    rw [Nat.succ_mul, List.range_add, List.filter_append, ih, List.range_succ, List.filter_append, List.flatMap_append]
    congr 1
    rw [List.filter_map]
    have e : ∀ j, j ∈ List.range k →
        ((fun i => !(rm.flatMap (fun c => (List.range k).map (fun j => c * k + j))).contains i) ∘ fun x => n * k + x) j =
          !rm.contains n := by
      intro j hj
      rw [List.mem_range] at hj
      have : (rm.flatMap (fun c => (List.range k).map (fun j => c * k + j))).contains (n * k + j) = rm.contains n := by
        rw [Bool.eq_iff_iff]
        simp only [List.contains_iff_mem, List.mem_flatMap, List.mem_map, List.mem_range]
        constructor
        · rintro ⟨c, hc, j', hj', h⟩
          have hcn : c = n := by
            have h1 : (c * k + j') / k = c := by rw [Nat.mul_comm, Nat.mul_add_div (by omega), Nat.div_eq_of_lt hj', Nat.add_zero]
            have h2 : (n * k + j) / k = n := by rw [Nat.mul_comm, Nat.mul_add_div (by omega), Nat.div_eq_of_lt hj, Nat.add_zero]
            rw [h, h2] at h1; exact h1.symm
          exact hcn ▸ hc
        · intro h; exact ⟨n, h, j, hj, rfl⟩
      simp only [Function.comp, this]
    rw [List.filter_congr e]
    by_cases hn : n ∈ rm
    · simp [hn, List.filter_cons]
    · simp [hn, List.filter_cons]

theorem removed_lt (env : Nat → List M) (N : Net α M) (wf : N.WellFormed env) : ∀ c ∈ N.removed, c < N.width := by
  induction N with
  | input k n => simp [Net.removed]
  | layer W b rm child ih => exact wf.2.2.1
  | chan g h child ih => exact ih wf.2
  | add l r ihl ihr => exact ihl wf.2.2.1
  | cat l r ihl ihr =>
    intro c hc
    simp only [Net.removed, List.mem_append, List.mem_map] at hc
    simp only [Net.width]
    rcases hc with hc | ⟨d, hd, rfl⟩
    · have := ihl wf.1 c hc; omega
    · have := ihr wf.2 d hd; omega
  | spread parts child ih =>
    intro c hc
    simp only [Net.removed, List.mem_flatMap, List.mem_map, List.mem_range] at hc
    obtain ⟨d, hd, j, hj, rfl⟩ := hc
    have := ih wf d hd
    simp only [Net.width]
    calc d * parts.length + j < (d + 1) * parts.length := by rw [Nat.succ_mul]; omega
      _ ≤ _ := Nat.mul_le_mul_right _ this

theorem flatMap_range_getD {β : Type} (l : List β) (k : Nat) (f : β → List M) (e : β) (hf : ∀ x, (f x).length = k) (c j : Nat)
    (hc : c < l.length) (hj : j < k) : (l.flatMap f).getD (c * k + j) 0 = (f (l.getD c e)).getD j 0 := by
  induction l generalizing c with
  | nil => simp at hc
  | cons a r ih =>
    rw [List.flatMap_cons]
    cases c with
    | zero =>
      have : 0 * k + j < (f a).length := by rw [hf]; omega
      simp [List.getD, List.getElem?_append, hf, hj]
    | succ c =>
      have h1 := ih c (by simpa using hc)
      have h2 : (c + 1) * k + j = (f a).length + (c * k + j) := by rw [hf, Nat.succ_mul]; omega
      rw [h2]
      simp only [List.getD, List.getElem?_append_right (Nat.le_add_right _ _), Nat.add_sub_cancel_left] at h1 ⊢
      simpa using h1

/-- C31.  For every network, all weights and inputs and every choice of removed channels: the pruned network computes the remaining
channels of the masked network, in the order in which the pruner keeps them.  Missing for the full property: networks with a
concatenation or flattening at which Python's set order is not ascending (`C31_set_order_false`), layer norms (`C31_layer_norm_false`)
and grouped convolutions (C54). -/
theorem C31_prune_partial (act : α → M → M) (h0 : ∀ m, act 0 m = 0) (env : Nat → List M) (N : Net α M) (wf : N.WellFormed env)
    (hord : Ordered N) :
    (pruneNet N).eval act env = (preserveIdx N.width N.removed).map (fun c => ((maskNet N).eval act env).getD c 0) := by
  induction N with
  | input k n =>
    have hp : preserveIdx n [] = List.range n := by
      have := preserve_perm n []
      unfold preserveIdx
      simp only
      rw [if_pos]
      have h := complementaryList_perm n []
      rw [h.length_eq]; simp
    simp only [pruneNet, maskNet, Net.eval, Net.width, Net.removed, hp]
    have wf' : (env k).length = n := wf
    apply List.ext_getElem
    · simp [wf']
    · intro i h1 h2; simp [List.getD, h1]
  | layer W b rm child ih =>
    obtain ⟨hb, hW, hrm, wfc⟩ := wf
    have hlen := eval_length act env child wfc
    simp only [pruneNet, maskNet, Net.eval, Net.width, Net.removed]
    rw [ih wfc hord]
    set X := (maskNet child).eval act env with hX
    unfold pruneWeight
    rw [zipWith_map_map]
    apply List.map_congr_left
    intro i hi
    obtain ⟨hin, hir⟩ := (mem_preserve _ _ _).1 hi
    rw [zipWith_map_map]
    have hrow : (W.getD i []).length = child.width := by
      have : W.getD i [] = W[i] := by simp [List.getD, hin]
      rw [this]; exact hW _ (List.getElem_mem hin)
    rw [zipWith_range _ _ _ [] 0 W.length (by simp [maskWeight]) (by simp [maskBias, hb])]
    have : ((List.range W.length).map (fun j => (List.zipWith act ((maskWeight rm child.removed W).getD j []) X).sum +
        (maskBias rm b).getD j 0)).getD i 0 = (List.zipWith act ((maskWeight rm child.removed W).getD i []) X).sum +
        (maskBias rm b).getD i 0 := by simp [List.getD, hin]
    rw [this]
    have hbi : (maskBias rm b).getD i 0 = b.getD i 0 := by
      unfold maskBias
      rw [getD_mapIdx _ _ _ _ 0 (by omega)]
      simp [hir]
    rw [hbi]
    congr 1
    have hmr : (maskWeight rm child.removed W).getD i [] =
        (W.getD i []).mapIdx (fun j w => if child.removed.contains j then 0 else w) := by
      unfold maskWeight
      rw [getD_mapIdx _ _ _ _ [] hin]
      have : rm.contains i = false := by simpa using hir
      simp only [this, Bool.false_or]
    rw [hmr, zipWith_range act _ X 0 0 child.width (by rw [List.length_mapIdx]; exact hrow) hlen]
    rw [((preserve_perm child.width child.removed).map _).sum_eq]
    unfold kept
    rw [sum_filter]
    congr 1
    apply List.map_congr_left
    intro j hj
    rw [List.mem_range] at hj
    rw [getD_mapIdx _ _ _ _ 0 (by omega)]
    by_cases hjr : j ∈ child.removed
    · simp [hjr, h0]
    · simp [hjr]
  | chan g h child ih =>
    obtain ⟨hg, wfc⟩ := wf
    have hlen := eval_length act env child wfc
    simp only [pruneNet, maskNet, Net.eval, Net.width, Net.removed]
    rw [ih wfc hord, zipWith_map_map]
    apply List.map_congr_left
    intro i hi
    obtain ⟨hin, hir⟩ := (mem_preserve _ _ _).1 hi
    rw [zipWith_range _ _ _ id 0 child.width (by simp [hg]) hlen]
    have hig : i < g.length := by omega
    simp [List.getD, hin, hir, hig]
  | add l r ihl ihr =>
    obtain ⟨hw, hr, wl, wr⟩ := wf
    simp only [pruneNet, maskNet, Net.eval, Net.width, Net.removed]
    rw [ihl wl hord.1, ihr wr hord.2, ← hw, ← preserve_congr _ _ _ hr, zipWith_map_map]
    apply List.map_congr_left
    intro i hi
    obtain ⟨hin, hir⟩ := (mem_preserve _ _ _).1 hi
    rw [zipWith_range _ _ _ 0 0 l.width (eval_length act env l wl) ((eval_length act env r wr).trans hw.symm)]
    simp [List.getD, hin]
  | cat l r ihl ihr =>
    obtain ⟨wl, wr⟩ := wf
    obtain ⟨ol, or', al, ar, ac⟩ := hord
    simp only [pruneNet, maskNet, Net.eval, Net.width, Net.removed]
    rw [ihl wl ol, ihr wr or', al, ar, ac, kept_cat _ _ _ _ (removed_lt env l wl), List.map_append, List.map_map]
    have hl := eval_length act env l wl
    congr 1
    · apply List.map_congr_left
      intro i hi
      have hi' := ((mem_kept _ _ _).1 hi).1
      simp only [List.getD]
      rw [List.getElem?_append_left (by omega)]
    · apply List.map_congr_left
      intro i hi
      simp only [List.getD, Function.comp]
      rw [List.getElem?_append_right (by omega), hl, Nat.add_sub_cancel]
  | spread parts child ih =>
    obtain ⟨oc, ac, as⟩ := hord
    simp only [pruneNet, maskNet, Net.eval, Net.width, Net.removed]
    rw [ih wf oc, ac, as, kept_spread, List.map_flatMap, List.flatMap_map]
    apply List.flatMap_congr
    intro c hc
    have hc' := ((mem_kept _ _ _).1 hc).1
    rw [List.map_map]
    apply List.ext_getElem
    · simp
    · intro j h1 h2
      simp only [List.length_map] at h1
      have := flatMap_range_getD ((maskNet child).eval act env) parts.length (fun x => parts.map (fun p => p x)) 0
        (by simp) c j (by rw [eval_length act env child wf]; exact hc') h1
      simp only [List.getElem_map, List.getElem_range, Function.comp]
      rw [this]
      simp [List.getD, h1]

/-- C31 for what the user observes: if no channel of the network's output is removed, the pruned network has the masked network's
output. -/
theorem C31_output_partial (act : α → M → M) (h0 : ∀ m, act 0 m = 0) (env : Nat → List M) (N : Net α M) (wf : N.WellFormed env)
    (hord : Ordered N) (hout : N.removed = []) : (pruneNet N).eval act env = (maskNet N).eval act env := by
  rw [C31_prune_partial act h0 env N wf hord, hout]
  have hp : preserveIdx N.width [] = List.range N.width := by
    unfold preserveIdx
    simp only
    rw [if_pos]
    rw [(complementaryList_perm N.width []).length_eq]; simp
  have hl := eval_length act env N wf
  rw [hp]
  apply List.ext_getElem
  · simp [hl]
  · intro i h1 h2; simp [List.getD, h2]

/-- Removing fewer than a quarter of the channels, or none, keeps them in ascending order. -/
theorem ascending_of_few (n : Nat) (rm : List Nat) (h : rm.dedup.length < n / 4 ∨ rm = []) : Ascending n rm := by
  have hlen : (complementaryList n rm).length = n → preserveIdx n rm = kept n rm := by
    intro hl
    unfold preserveIdx
    simp only [hl, if_true]
    have hs : (kept n rm).Sublist (List.range n) := List.filter_sublist
    have := hs.eq_of_length (by
      have := (complementaryList_perm n rm).length_eq
      unfold kept
      rw [← this, hl, List.length_range])
    exact this.symm
  rcases h with h | rfl
  · by_cases hl : (complementaryList n rm).length = n
    · exact hlen hl
    · unfold Ascending preserveIdx
      simp only [hl, if_false]
      unfold complementaryList
      simp only [if_pos h]
      rfl
  · apply hlen
    rw [(complementaryList_perm n []).length_eq]; simp

/-- A residual block: conv (channels 7 and 8 of 16 kept, all others removed) plus a second conv with the same channels, activation, and a
last layer.  The hypotheses hold although the order of the kept channels is Python's. -/
example : let rm := [0, 1, 2, 3, 4, 5, 6, 9, 10, 11, 12, 13, 14, 15]
    let l1 : Net Int Int := .layer ((List.range 16).map (fun i => [(i : Int)])) (List.replicate 16 1) rm (.input 0 1)
    let l2 : Net Int Int := .layer ((List.range 16).map (fun i => [2 * (i : Int)])) (List.replicate 16 3) rm (.input 0 1)
    let N : Net Int Int := .layer [(List.range 16).map (fun i => (i : Int))] [5] [] (.chan (List.replicate 16 (fun x => x * x)) (fun x => x * x) (.add l1 l2))
    N.WellFormed (fun _ => [1]) ∧ Ordered N ∧ N.removed = [] ∧ preserveIdx 16 rm = [8, 7] ∧
      (pruneNet N).eval (· * ·) (fun _ => [1]) = [8 * (8 * 3 + 4) * (8 * 3 + 4) + 7 * (7 * 3 + 4) * (7 * 3 + 4) + 5] := by
  refine ⟨?_, by simp [Ordered], by simp [Net.removed], by decide, by decide⟩
  simp [Net.WellFormed, Net.width, Net.removed]

/-- A convolution of eight channels of two elements each that loses channel 3, flattened into a linear layer. -/
example : let c : Net Int (Int × Int) := .layer (List.replicate 8 [2]) (List.replicate 8 0) [3] (.input 0 1)
    let N : Net Int (Int × Int) := .layer [List.replicate 16 1] [0] [] (.spread [fun m => (m.1, 0), fun m => (m.2, 0)] c)
    N.WellFormed (fun _ => [(5, 6)]) ∧ Ordered N := by
  refine ⟨by simp [Net.WellFormed, Net.width], ?_, ?_, ?_⟩
  · simp [Ordered]
  · exact ascending_of_few _ _ (by left; decide)
  · exact ascending_of_few _ _ (by left; decide)

/-- C31 fails at a concatenation of five channels, of which 1 stays, and four channels, of which 3 stays: the next layer keeps its input
channels 1 and 8 in the order 8, 1 while the concatenation delivers 1, 8, so the two weights are swapped.  (10 and 1 are the weights, 1 and
2 the channels: 21 instead of 12.) -/
theorem C31_set_order_false : ∃ (N : Net Int Int) (env : Nat → List Int), N.WellFormed env ∧ N.removed = [] ∧
    (maskNet N).eval (· * ·) env = [12] ∧ (pruneNet N).eval (· * ·) env = [21] := by
  refine ⟨.layer [[0, 10, 0, 0, 0, 0, 0, 0, 1]] [0] [] (.cat
      (.layer [[1], [1], [1], [1], [1]] [0, 0, 0, 0, 0] [0, 2, 3, 4] (.input 0 1))
      (.layer [[2], [2], [2], [2]] [0, 0, 0, 0] [0, 1, 2] (.input 0 1))), fun _ => [1], ?_, rfl, by decide, by decide⟩
  simp [Net.WellFormed, Net.width]

/-- C31 fails for a layer norm over three channels of which the last, masked to zero, is removed: the mean changes. -/
theorem C31_layer_norm_false (invStd : ℚ → ℚ) (hpos : ∀ v, 0 < invStd v) : ∃ x : List ℚ, x.getD 2 0 = 0 ∧
    (pruneLayerNorm invStd [2] [1, 1, 1] [0, 0, 0] x).getD 0 0 ≠ (maskLayerNorm invStd [2] [1, 1, 1] [0, 0, 0] x).getD 0 0 := by
  refine ⟨[2, 4, 0], by simp, ?_⟩
  have hp : preserveIdx 3 [2] = [0, 1] := by decide
  have h1 := (hpos 1).ne'
  norm_num [pruneLayerNorm, maskLayerNorm, layerNorm, maskBias, hp, h1]

/-- What a pruned LayerNorm computes: each channel that is kept has its own weight and bias, mean and variance are those of the channels kept. -/
theorem C31_layer_norm (invStd : ℚ → ℚ) (rm : List Nat) (w b x : List ℚ) (k : Nat) (hk : k < (preserveIdx w.length rm).length) :
    let kept := (preserveIdx w.length rm).map (fun i => x.getD i 0)
    let mean := kept.sum / kept.length
    let var := (kept.map (fun v => (v - mean) * (v - mean))).sum / kept.length
    let i := (preserveIdx w.length rm).getD k 0
    (pruneLayerNorm invStd rm w b x).getD k 0 = (x.getD i 0 - mean) * invStd var * w.getD i 0 + b.getD i 0 := by
  intro kept mean var i
  have hi : i = (preserveIdx w.length rm)[k] := by simp only [i, List.getD_eq_getElem?_getD, List.getElem?_eq_getElem hk, Option.getD_some]
  have hl : ∀ {A : Type} (l : List A) (d : A) (h : k < l.length), l.getD k d = l[k] := fun l d h => by
    rw [List.getD_eq_getElem?_getD, List.getElem?_eq_getElem h, Option.getD_some]
  rw [hi]
  unfold pruneLayerNorm layerNorm
  rw [hl _ _ (by simpa using hk)]
  simp only [List.getElem_zipWith, List.getElem_zip, List.getElem_map]
  rfl

/-- Hypotheses met: of three channels the second is removed; the third one keeps weight 4 and bias 5. -/
example : (pruneLayerNorm (fun _ => 1) [1] [2, 3, 4] [7, 6, 5] [1, 9, 3]).getD 1 0 = (3 - 2) * 1 * 4 + 5 := by
  have hp : preserveIdx 3 [1] = [0, 2] := by decide
  norm_num [pruneLayerNorm, layerNorm, hp]

end Verif.Props
