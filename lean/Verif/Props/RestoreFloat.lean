import Verif.Spec.RestoreFloat
import Mathlib.Tactic.Linarith
import Mathlib.Tactic.NormNum
/-!
C126: restoring a converted model; C127: ignoring channels with a tiny variance.
-/

namespace Verif.Props
open Verif.Model.RestoreFloat Verif.Spec.RestoreFloat

theorem dequantize_numbers (w : QWeight) : w.dequantize = numbers w := by
  unfold QWeight.dequantize numbers
  refine List.map_congr_left fun c _ => ?_
  push_cast
  exact mul_comm _ _

theorem restoreOne_computes {V : Type} (o : Ops V) (m : QMod) (hm : Restorable m) : ∃ f, restoreOne m = some f ∧ ∀ x, computes o f x = meant o m x := by
  cases m with
  | linear r cfg w b =>
    obtain ⟨hr, hb⟩ := hm
    subst hr
    obtain ⟨c, rfl⟩ := Option.ne_none_iff_exists'.mp hb
    exact ⟨_, rfl, fun x => by simp [computes, meant, biasParam, dequantize_numbers]⟩
  | conv r cfg w b =>
    obtain ⟨hr, hb⟩ := hm
    subst hr
    obtain ⟨c, rfl⟩ := Option.ne_none_iff_exists'.mp hb
    exact ⟨_, rfl, fun x => by simp [computes, meant, biasParam, dequantize_numbers]⟩
  | box i => exact hm.elim
  | other k => exact hm.elim
  | quantize => exact ⟨_, rfl, fun x => rfl⟩
  | dequantize => exact ⟨_, rfl, fun x => rfl⟩
  | qfunctional => exact ⟨_, rfl, fun x => rfl⟩
  | relu => exact ⟨_, rfl, fun x => rfl⟩
  | relu6 => exact ⟨_, rfl, fun x => rfl⟩
  | plain k => exact ⟨_, rfl, fun x => rfl⟩

/-- **C126**.  A converted model of layers with a bias and without a fused activation is restored to a float model under the same names, which computes, exactly, what the converted model
approximates, for every way of calling its modules and every input. -/
theorem C126_restored_partial {V : Type} (o : Ops V) (net : List (String × QMod)) (hr : ∀ p ∈ net, Restorable p.2) :
    ∃ f, restore net = some f ∧ f.map Prod.fst = net.map Prod.fst ∧ ∀ (calls : List String) (x : V), chain (computes o) f calls x = chain (meant o) net calls x := by
  have key : ∃ f, restore net = some f ∧ f.map Prod.fst = net.map Prod.fst ∧
      ∀ n, (f.lookup n = none ∧ net.lookup n = none) ∨ ∃ a b, f.lookup n = some a ∧ net.lookup n = some b ∧ ∀ x, computes o a x = meant o b x := by
    induction net with
    | nil => exact ⟨[], rfl, rfl, fun n => .inl ⟨rfl, rfl⟩⟩
    | cons p r ih =>
      obtain ⟨f, h1, h2, h3⟩ := ih (fun q hq => hr q (List.mem_cons_of_mem _ hq))
      obtain ⟨k, m⟩ := p
      obtain ⟨g, h4, h5⟩ := restoreOne_computes o m (hr (k, m) (by simp))
      refine ⟨(k, g) :: f, by rw [restore, h4, h1], by simp [h2], fun n => ?_⟩
      by_cases hn : n = k
      · subst hn
        exact .inr ⟨g, m, by simp, by simp, h5⟩
      · have hnk : (n == k) = false := by simp [hn]
        have e1 : List.lookup n ((k, g) :: f) = List.lookup n f := by
          simp [List.lookup, hnk]
        have e2 : List.lookup n ((k, m) :: r) = List.lookup n r := by
          simp [List.lookup, hnk]
        rw [e1, e2]
        exact h3 n
  obtain ⟨f, h1, h2, h3⟩ := key
  refine ⟨f, h1, h2, fun calls => ?_⟩
  induction calls with
  | nil => intro x; rfl
  | cons n r ih =>
    intro x
    rw [chain, chain]
    rcases h3 n with ⟨a, b⟩ | ⟨a, b, ha, hb, hab⟩
    · rw [a, b]
    · rw [ha, hb]
      simp only [hab]
      cases meant o b x with
      | none => rfl
      | some y => exact ih y

/-- A converted model with a convolution, an activation and a linear layer. -/
noncomputable def rfNet : List (String × QMod) :=
  [("quant", .quantize), ("conv", .conv false [3, 8] ⟨[1, 2], 1 / 2, 0⟩ (some [1])), ("act", .relu), ("fc", .linear false [8, 2] ⟨[3], 1, 1⟩ (some [0])), ("dequant", .dequantize)]

example : ∀ p ∈ rfNet, Restorable p.2 := by
  intro p hp
  simp only [rfNet, List.mem_cons, List.not_mem_nil, or_false] at hp
  rcases hp with rfl | rfl | rfl | rfl | rfl <;> simp [Restorable]

/-- **C126**.  A model that cannot be restored, which is one with a module of an unknown kind, is left exactly as it was. -/
theorem C126_all_or_nothing (net : List (String × QMod)) :
    (restore net = none ↔ ∃ p ∈ net, ∃ k, p.2 = .other k) ∧ (restore net = none → after net = net.map fun p => (p.1, .same p.2)) := by
  constructor
  · induction net with
    | nil => simp [restore]
    | cons p r ih =>
      obtain ⟨n, m⟩ := p
      have hone : restoreOne m = none ↔ ∃ k, m = .other k := by cases m <;> simp [restoreOne]
      rw [restore]
      constructor
      · intro h
        by_cases h1 : restoreOne m = none
        · obtain ⟨k, hk⟩ := hone.mp h1
          exact ⟨(n, m), by simp, k, hk⟩
        · obtain ⟨f, hf⟩ := Option.ne_none_iff_exists'.mp h1
          by_cases h2 : restore r = none
          · obtain ⟨p, hp, k, hk⟩ := ih.mp h2
            exact ⟨p, by simp [hp], k, hk⟩
          · obtain ⟨q, hq⟩ := Option.ne_none_iff_exists'.mp h2
            rw [hf, hq] at h
            simp at h
      · rintro ⟨p, hp, k, hk⟩
        rcases List.mem_cons.mp hp with rfl | hp
        · rw [hone.mpr ⟨k, hk⟩]
        · rw [ih.mpr ⟨p, hp, k, hk⟩]
          cases restoreOne m <;> rfl
  · intro h
    rw [after, h]
    rfl

example : restore [("a", .relu), ("hs", .other "Hardswish")] = none := rfl

/-- An activation fused into a layer is lost: for every layer with a fused activation, the restored layer computes what the layer does before the activation. -/
theorem C126_fused_relu_false {V : Type} (o : Ops V) (cfg : List Nat) (w : QWeight) (b : List ℝ) (x : V) :
    ∃ f, restoreOne (.conv true cfg w (some b)) = some f ∧ computes o f x = o.conv cfg (numbers w) (some b) x ∧
      meant o (.conv true cfg w (some b)) x = (o.conv cfg (numbers w) (some b) x).map o.relu := by
  refine ⟨_, rfl, by rw [← dequantize_numbers]; rfl, ?_⟩
  simp [meant]

example : ∃ f, restoreOne (.conv true [1] ⟨[1], 1, 0⟩ (some [-1])) = some f ∧
    computes (V := ℝ) ⟨fun _ _ _ _ => none, fun _ w b x => some (w.sum * x + (b.getD []).sum), fun x => max x 0, id, fun _ x => x⟩ f 0 = some (-1) ∧
    meant (V := ℝ) ⟨fun _ _ _ _ => none, fun _ w b x => some (w.sum * x + (b.getD []).sum), fun x => max x 0, id, fun _ x => x⟩ (.conv true [1] ⟨[1], 1, 0⟩ (some [-1])) 0 = some 0 := by
  refine ⟨_, rfl, ?_, ?_⟩ <;> simp [computes, meant, biasParam]

/-- A layer without bias is restored with a bias without elements, for which PyTorch's operators fail on every input. -/
theorem C126_no_bias_false {V : Type} (o : Ops V) (hop : ∀ cfg w x, o.linear cfg w (some []) x = none) (cfg : List Nat) (w : QWeight) (r : Bool) :
    ∃ f, restoreOne (.linear r cfg w none) = some f ∧ ∀ x, computes o f x = none :=
  ⟨_, rfl, fun x => hop cfg _ x⟩

/-- Quantized layers inside another module stay quantized. -/
theorem C126_nested_false (n : String) (inner : List (String × QMod)) : restore [(n, .box inner)] = some [(n, .same (.box inner))] := rfl

/-! ### Channels with a tiny variance -/

theorem maxOf_mem : ∀ l : List ℝ, l ≠ [] → maxOf l ∈ l
  | [], h => absurd rfl h
  | [x], _ => by simp [maxOf]
  | x :: y :: r, _ => by
    rw [maxOf]
    rcases max_choice x (maxOf (y :: r)) with h | h <;> rw [h]
    · simp
    · exact List.mem_cons_of_mem _ (maxOf_mem (y :: r) (by simp))

theorem minOf_mem : ∀ l : List ℝ, l ≠ [] → minOf l ∈ l
  | [], h => absurd rfl h
  | [x], _ => by simp [minOf]
  | x :: y :: r, _ => by
    rw [minOf]
    rcases min_choice x (minOf (y :: r)) with h | h <;> rw [h]
    · simp
    · exact List.mem_cons_of_mem _ (minOf_mem (y :: r) (by simp))

theorem maxOf_ge : ∀ l : List ℝ, ∀ x ∈ l, x ≤ maxOf l
  | [], x, h => by simp at h
  | [y], x, h => by simp only [List.mem_singleton] at h; rw [h, maxOf]
  | a :: y :: r, x, h => by
    rw [maxOf]
    rcases List.mem_cons.mp h with rfl | h
    · exact le_max_left _ _
    · exact le_trans (maxOf_ge (y :: r) x h) (le_max_right _ _)

theorem minOf_le : ∀ l : List ℝ, ∀ x ∈ l, minOf l ≤ x
  | [], x, h => by simp at h
  | [y], x, h => by simp only [List.mem_singleton] at h; rw [h, minOf]
  | a :: y :: r, x, h => by
    rw [minOf]
    rcases List.mem_cons.mp h with rfl | h
    · exact min_le_left _ _
    · exact le_trans (min_le_right _ _) (minOf_le (y :: r) x h)

open Classical in
theorem mem_unmarked (eps : ℝ) (var : List ℝ) (weight : List (List ℝ)) (x : ℝ) :
    x ∈ unmarked weight (var.map fun v => decide (v < eps)) ↔ Regular eps var weight x := by
  unfold unmarked Regular
  simp only [List.mem_flatMap, List.mem_filter, Bool.not_eq_true']
  constructor
  · rintro ⟨⟨ch, b⟩, ⟨hz, hb⟩, hx⟩
    obtain ⟨i, hi, he⟩ := List.mem_iff_getElem.mp hz
    have h2 := List.getElem?_eq_getElem hi
    rw [he, List.getElem?_zip_eq_some] at h2
    obtain ⟨h3, h4⟩ := h2
    rw [List.getElem?_map] at h4
    cases hv : var[i]? with
    | none => rw [hv] at h4; simp at h4
    | some v =>
      rw [hv] at h4
      simp only [Option.map_some, Option.some.injEq] at h4
      refine ⟨i, v, ch, hv, h3, ?_, hx⟩
      simp only at hb
      rw [hb] at h4
      exact of_decide_eq_false h4
  · rintro ⟨i, v, ch, hv, hc, hn, hx⟩
    refine ⟨(ch, false), ⟨?_, rfl⟩, hx⟩
    apply List.mem_of_getElem? (i := i)
    rw [List.getElem?_zip_eq_some]
    refine ⟨hc, ?_⟩
    rw [List.getElem?_map, hv]
    simp only [Option.map_some, Option.some.injEq]
    exact decide_eq_false hn

open Classical in
theorem hookOf_treated (eps : ℝ) (m : FusedConv) : hookOf eps m = if Treated eps m then some (m.runningVar.map fun v => decide (v < eps)) else none := by
  unfold hookOf Treated
  by_cases h1 : m.typeName = "ConvBnReLU2d" ∨ m.typeName = "ConvBn2d"
  · by_cases h2 : m.inChannels = m.outChannels ∧ m.outChannels = m.groups ∧ 1 < m.groups
    · have h2' : m.inChannels = m.groups ∧ m.outChannels = m.groups ∧ 1 < m.groups := by omega
      rw [if_pos h1, if_pos h2]
      by_cases h3 : ∃ v ∈ m.runningVar, v < eps
      · have hT : (m.typeName = "ConvBnReLU2d" ∨ m.typeName = "ConvBn2d") ∧ m.inChannels = m.groups ∧ m.outChannels = m.groups ∧ 1 < m.groups ∧ ∃ v ∈ m.runningVar, v < eps :=
          ⟨h1, h2'.1, h2'.2.1, h2'.2.2, h3⟩
        have : true ∈ m.runningVar.map fun v => decide (v < eps) := by
          obtain ⟨v, hv, hlt⟩ := h3
          exact List.mem_map.mpr ⟨v, hv, decide_eq_true hlt⟩
        simp only
        rw [if_pos this, if_pos hT]
      · have hT : ¬((m.typeName = "ConvBnReLU2d" ∨ m.typeName = "ConvBn2d") ∧ m.inChannels = m.groups ∧ m.outChannels = m.groups ∧ 1 < m.groups ∧ ∃ v ∈ m.runningVar, v < eps) :=
          fun h => h3 h.2.2.2.2
        have : ¬ true ∈ m.runningVar.map fun v => decide (v < eps) := by
          intro h
          obtain ⟨v, hv, hlt⟩ := List.mem_map.mp h
          exact h3 ⟨v, hv, of_decide_eq_true hlt⟩
        simp only
        rw [if_neg this, if_neg hT]
    · rw [if_pos h1, if_neg h2, if_neg (fun h => h2 (by omega))]
  · rw [if_neg h1, if_neg (fun h => h1 h.1)]

/-- **C127**.  In a treated module with a channel of ordinary variance, the weights of those channels are quantized as they are, all others are clamped into their range, and the range that determines the
step of the whole tensor is that of the ordinary channels. -/
theorem C127_clamped_partial (eps : ℝ) (m : FusedConv) (weight : List (List ℝ)) (ht : Treated eps m) (hreg : ∃ x, Regular eps m.runningVar weight x) :
    ∃ (q : List (List ℝ)) (lo hi : ℝ), seen eps m weight = some q ∧ IsRange q.flatten lo hi ∧
      (Regular eps m.runningVar weight lo ∧ Regular eps m.runningVar weight hi ∧ ∀ x, Regular eps m.runningVar weight x → lo ≤ x ∧ x ≤ hi) ∧
      ∃ f : ℝ → ℝ, q = weight.map (List.map f) ∧ (∀ x, Regular eps m.runningVar weight x → f x = x) ∧ (∀ x, lo ≤ x → x ≤ hi → f x = x) ∧ (∀ x, x < lo → f x = lo) ∧ (∀ x, hi < x → f x = hi) := by
  have hmem := mem_unmarked eps m.runningVar weight
  obtain ⟨x0, hx0⟩ := hreg
  have hne : unmarked weight (m.runningVar.map fun v => @decide (v < eps) (Classical.propDecidable _)) ≠ [] := List.ne_nil_of_mem ((hmem x0).mpr hx0)
  have hs : seen eps m weight = some (weight.map (List.map (clampR (minOf (unmarked weight (m.runningVar.map fun v => @decide (v < eps) (Classical.propDecidable _))))
      (maxOf (unmarked weight (m.runningVar.map fun v => @decide (v < eps) (Classical.propDecidable _))))))) := by
    unfold seen
    rw [hookOf_treated, if_pos ht]
    unfold preHook
    simp only
    rw [if_neg hne]
  revert hs hne hmem
  generalize unmarked weight (m.runningVar.map fun v => @decide (v < eps) (Classical.propDecidable _)) = rest
  intro hmem hne hs
  have hlo := minOf_mem rest hne
  have hhi := maxOf_mem rest hne
  have hlohi : minOf rest ≤ maxOf rest := minOf_le rest _ hhi
  have hfix : ∀ x, minOf rest ≤ x → x ≤ maxOf rest → clampR (minOf rest) (maxOf rest) x = x := by
    intro x h1 h2
    unfold clampR
    rw [max_eq_left h1, min_eq_left h2]
  have hin : ∀ x, minOf rest ≤ clampR (minOf rest) (maxOf rest) x ∧ clampR (minOf rest) (maxOf rest) x ≤ maxOf rest :=
    fun x => ⟨le_min (le_max_right _ _) hlohi, min_le_right _ _⟩
  have hregw : ∀ x, Regular eps m.runningVar weight x → x ∈ weight.flatten := by
    rintro x ⟨i, v, ch, _, hc, _, hx⟩
    exact List.mem_flatten.mpr ⟨ch, List.mem_of_getElem? hc, hx⟩
  have hmapw : ∀ x, x ∈ weight.flatten → clampR (minOf rest) (maxOf rest) x ∈ (weight.map (List.map (clampR (minOf rest) (maxOf rest)))).flatten := by
    intro x hx
    rw [← List.map_flatten]
    exact List.mem_map.mpr ⟨x, hx, rfl⟩
  refine ⟨_, minOf rest, maxOf rest, hs, ⟨?_, ?_, ?_⟩, ⟨(hmem _).mp hlo, (hmem _).mp hhi, fun x hx => ⟨minOf_le rest x ((hmem x).mpr hx), maxOf_ge rest x ((hmem x).mpr hx)⟩⟩,
    clampR (minOf rest) (maxOf rest), rfl, ?_, hfix, ?_, ?_⟩
  · have := hmapw _ (hregw _ ((hmem _).mp hlo))
    rwa [hfix _ le_rfl hlohi] at this
  · have := hmapw _ (hregw _ ((hmem _).mp hhi))
    rwa [hfix _ hlohi le_rfl] at this
  · intro x hx
    rw [← List.map_flatten] at hx
    obtain ⟨y, _, rfl⟩ := List.mem_map.mp hx
    exact hin y
  · intro x hx
    have hx' := (hmem x).mpr hx
    exact hfix x (minOf_le rest x hx') (maxOf_ge rest x hx')
  · intro x hx
    unfold clampR
    rw [max_eq_right hx.le, min_eq_left hlohi]
  · intro x hx
    unfold clampR
    rw [max_eq_left (by linarith), min_eq_right hx.le]

/-- A depthwise convolution with three channels, the second of which has hardly any variance. -/
noncomputable def dwDemo : FusedConv := ⟨"ConvBn2d", 3, 3, 3, [1, 0, 2]⟩

example : Treated (1 / 100000) dwDemo ∧ ∃ x, Regular (1 / 100000) dwDemo.runningVar [[1, -2], [1000, 3], [4, 0]] x := by
  refine ⟨⟨.inr rfl, rfl, rfl, by norm_num [dwDemo], 0, by simp [dwDemo], by norm_num⟩, 1, 0, 1, [1, -2], rfl, rfl, by norm_num, by simp⟩

/-- **C127**.  All other modules are left alone. -/
theorem C127_untreated (eps : ℝ) (m : FusedConv) (weight : List (List ℝ)) (ht : ¬ Treated eps m) : seen eps m weight = some weight := by
  unfold seen
  rw [hookOf_treated, if_neg ht]

example : ¬ Treated (1 / 100000) ⟨"ConvBn2d", 3, 4, 1, [0, 1, 1, 1]⟩ := by
  unfold Treated
  simp

/-- A module all of whose channels have a tiny variance can no longer be run at all. -/
theorem C127_all_small_false (eps : ℝ) (m : FusedConv) (weight : List (List ℝ)) (ht : Treated eps m) (hall : ∀ v ∈ m.runningVar, v < eps) : seen eps m weight = none := by
  unfold seen
  rw [hookOf_treated, if_pos ht]
  unfold preHook
  simp only
  rw [if_pos]
  apply List.eq_nil_iff_forall_not_mem.mpr
  intro x hx
  obtain ⟨i, v, ch, hv, _, hn, _⟩ := (mem_unmarked eps m.runningVar weight x).mp hx
  exact hn (hall v (List.mem_of_getElem? hv))

example : Treated (1 / 100000) ⟨"ConvBn2d", 2, 2, 2, [0, 0]⟩ ∧ ∀ v ∈ [(0 : ℝ), 0], v < 1 / 100000 := by
  refine ⟨⟨.inr rfl, rfl, rfl, by norm_num, 0, by simp, by norm_num⟩, ?_⟩
  intro v hv
  simp only [List.mem_cons, List.not_mem_nil, or_false, or_self] at hv
  rw [hv]
  norm_num

end Verif.Props
