import Verif.Spec.LstmWeights
import Mathlib.Tactic.Linarith
import Mathlib.Tactic.NormNum
import Mathlib.Tactic.FieldSimp
import Mathlib.Tactic.Ring
import Mathlib.Tactic.Positivity
/-!
C124: LSTM weights are rounded while a prepared model is evaluated, and come back when it is converted.
-/

namespace Verif.Props
open Verif.Model Verif.Model.LstmWeights Verif.Spec.LstmWeights

private theorem lw_round (r : ℝ) : |r - roundEven r| ≤ 1 / 2 := by
  have h0 := Int.floor_le r
  have h1 := Int.lt_floor_add_one r
  unfold roundEven
  split
  · rw [abs_le]; constructor <;> linarith
  · split
    · push_cast; rw [abs_le]; constructor <;> linarith
    · split
      · rw [abs_le]; constructor <;> linarith
      · push_cast; rw [abs_le]; constructor <;> linarith

theorem maxL_ge : ∀ (xs : List ℝ), ∀ x ∈ xs, x ≤ maxL xs
  | [], x, h => by simp at h
  | [y], x, h => by
    rw [List.mem_singleton] at h
    rw [h, maxL]
  | y :: z :: r, x, h => by
    rw [maxL]
    rcases List.mem_cons.1 h with h | h
    · rw [h]; exact le_max_left _ _
    · exact le_trans (maxL_ge (z :: r) x h) (le_max_right _ _)

theorem minL_le : ∀ (xs : List ℝ), ∀ x ∈ xs, minL xs ≤ x
  | [], x, h => by simp at h
  | [y], x, h => by
    rw [List.mem_singleton] at h
    rw [h, minL]
  | y :: z :: r, x, h => by
    rw [minL]
    rcases List.mem_cons.1 h with h | h
    · rw [h]; exact min_le_left _ _
    · exact le_trans (min_le_right _ _) (minL_le (z :: r) x h)

theorem maxL_mem : ∀ (xs : List ℝ), xs ≠ [] → maxL xs ∈ xs
  | [], h => absurd rfl h
  | [y], _ => by simp [maxL]
  | y :: z :: r, _ => by
    rw [maxL]
    rcases max_choice y (maxL (z :: r)) with h | h
    · rw [h]; simp
    · rw [h]; exact List.mem_cons_of_mem _ (maxL_mem (z :: r) (by simp))

theorem minL_mem : ∀ (xs : List ℝ), xs ≠ [] → minL xs ∈ xs
  | [], h => absurd rfl h
  | [y], _ => by simp [minL]
  | y :: z :: r, _ => by
    rw [minL]
    rcases min_choice y (minL (z :: r)) with h | h
    · rw [h]; simp
    · rw [h]; exact List.mem_cons_of_mem _ (minL_mem (z :: r) (by simp))

/-- The scale computed is the grid asked for. -/
theorem scaleOf_step (eps : ℝ) (he : 0 < eps) (xs : List ℝ) : IsStep eps xs (scaleOf eps (-127) 127 xs) := by
  have hd : (((127 - (-127) : Int) : ℝ) / 2) = 127 := by norm_num
  unfold scaleOf
  rw [hd]
  by_cases hx : xs = []
  · subst hx
    have : max (-minL []) (maxL []) / 127 = (0 : ℝ) := by simp [minL, maxL]
    rw [this, max_eq_right he.le]
    exact ⟨by simp, le_refl _, .inl rfl⟩
  · have hM : ∀ x ∈ xs, |x| ≤ max (-minL xs) (maxL xs) := by
      intro x h
      rw [abs_le]
      have h1 := maxL_ge xs x h
      have h2 := minL_le xs x h
      have h3 := le_max_left (-minL xs) (maxL xs)
      have h4 := le_max_right (-minL xs) (maxL xs)
      constructor <;> linarith
    have hex : ∃ x ∈ xs, max (-minL xs) (maxL xs) = |x| := by
      have key : ∀ y ∈ xs, y = max (-minL xs) (maxL xs) ∨ -y = max (-minL xs) (maxL xs) → ∃ x ∈ xs, max (-minL xs) (maxL xs) = |x| := by
        intro y hy h
        have hle := hM y hy
        refine ⟨y, hy, le_antisymm ?_ hle⟩
        rcases h with h | h
        · rw [← h]; exact le_abs_self y
        · rw [← h]; exact neg_le_abs y
      rcases max_choice (-minL xs) (maxL xs) with h | h
      · exact key (minL xs) (minL_mem xs hx) (.inr h.symm)
      · exact key (maxL xs) (maxL_mem xs hx) (.inl h.symm)
    refine ⟨?_, le_max_right _ _, ?_⟩
    · intro x h
      exact le_trans (div_le_div_of_nonneg_right (hM x h) (by norm_num)) (le_max_left _ _)
    · rcases max_choice (max (-minL xs) (maxL xs) / 127) eps with h | h
      · right
        obtain ⟨x, hxs, e⟩ := hex
        exact ⟨x, hxs, by rw [h, e]⟩
      · exact .inl h

theorem step_unique (eps : ℝ) (xs : List ℝ) (a b : ℝ) (ha : IsStep eps xs a) (hb : IsStep eps xs b) : a = b := by
  have key : ∀ c d : ℝ, IsStep eps xs c → IsStep eps xs d → c ≤ d := by
    intro c d hc hd
    rcases hc.2.2 with h | ⟨x, hx, h⟩
    · rw [h]; exact hd.2.1
    · rw [h]; exact hd.1 x hx
  exact le_antisymm (key a b ha hb) (key b a hb ha)

/-- One value on the grid. -/
theorem fq1_err (s x : ℝ) (hs : 0 < s) (hx : |x| / 127 ≤ s) : |fq1 s (-127) 127 x - x| ≤ s / 2 ∧ ∃ k : Int, |k| ≤ 127 ∧ fq1 s (-127) 127 x = k * s := by
  have hn := abs_le.mp (lw_round (x * (1 / s)))
  set n := roundEven (x * (1 / s)) with hndef
  have hx' : |x * (1 / s)| ≤ 127 := by
    rw [mul_one_div, abs_div, abs_of_pos hs, div_le_iff₀ hs]
    have := (div_le_iff₀ (by norm_num : (0 : ℝ) < 127)).mp hx
    linarith
  have hr := abs_le.mp hx'
  have hlo : ((-128 : Int) : ℝ) < n := by push_cast; linarith
  have hhi : (n : ℝ) < ((128 : Int) : ℝ) := by push_cast; linarith
  have hlo' : -128 < n := by exact_mod_cast hlo
  have hhi' : n < 128 := by exact_mod_cast hhi
  have hcl : clampInt (-127) 127 (0 + n) - 0 = n := by unfold clampInt; omega
  have hv : fq1 s (-127) 127 x = n * s := by unfold fq1; rw [← hndef, hcl]
  refine ⟨?_, n, by rw [abs_le]; constructor <;> omega, hv⟩
  have hxs : x = (x * (1 / s)) * s := by field_simp
  have h2 : fq1 s (-127) 127 x - x = -((x * (1 / s) - n) * s) := by
    rw [hv]
    nlinarith [hxs]
  rw [h2, abs_neg, abs_mul, abs_of_pos hs]
  have := lw_round (x * (1 / s))
  rw [← hndef] at this
  nlinarith

theorem fqPart_length (eps : ℝ) (a b : Int) (p : Mat) : (fqPart eps a b p).length = p.length := by simp [fqPart]

theorem gate4 (h : Nat) (a b c d : Mat) (ha : a.length = h) (hb : b.length = h) (hc : c.length = h) (hd : d.length = h) :
    gate (a ++ (b ++ (c ++ d))) h 0 = a ∧ gate (a ++ (b ++ (c ++ d))) h 1 = b ∧ gate (a ++ (b ++ (c ++ d))) h 2 = c ∧ gate (a ++ (b ++ (c ++ d))) h 3 = d := by
  unfold gate
  have e2 : 2 * h = a.length + b.length := by omega
  have e3 : 3 * h = a.length + (b.length + c.length) := by omega
  refine ⟨?_, ?_, ?_, ?_⟩
  · rw [Nat.zero_mul, List.drop_zero, ← ha, List.take_left]
  · rw [Nat.one_mul]
    conv_lhs => rw [← ha, List.drop_left, ha, ← hb, List.take_left]
  · rw [e2, List.drop_append, List.drop_append, List.drop_eq_nil_of_le (by omega), List.drop_eq_nil_of_le (by omega)]
    have : a.length + b.length - a.length - b.length = 0 := by omega
    rw [this, List.drop_zero, List.nil_append, List.nil_append, ← hc, List.take_left]
  · rw [e3, List.drop_append, List.drop_append, List.drop_append, List.drop_eq_nil_of_le (by omega), List.drop_eq_nil_of_le (by omega), List.drop_eq_nil_of_le (by omega)]
    have : a.length + (b.length + c.length) - a.length - b.length - c.length = 0 := by omega
    rw [this, List.drop_zero, List.nil_append, List.nil_append, List.nil_append]
    exact List.take_of_length_le (by omega)

/-- **C124**.  While a prepared model is evaluated, each of the four gates of an LSTM weight is rounded to its own 8-bit grid: every entry changes by at most half of the gate's step, and becomes
a multiple of it by an integer between -127 and 127. -/
theorem C124_rounded (eps : ℝ) (he : 0 < eps) (m : Mat) (h : Nat) (hm : m.length = 4 * h) (g : Nat) (hg : g < 4) :
    ∃ (step : ℝ) (f : ℝ → ℝ), IsStep eps (gate m h g).flatten step ∧ gate (fqWeight eps m) h g = (gate m h g).map (List.map f) ∧
      ∀ x ∈ (gate m h g).flatten, |f x - x| ≤ step / 2 ∧ ∃ k : Int, |k| ≤ 127 ∧ f x = k * step := by
  have hst := scaleOf_step eps he (gate m h g).flatten
  have hpos : 0 < scaleOf eps (-127) 127 (gate m h g).flatten := lt_of_lt_of_le he hst.2.1
  refine ⟨scaleOf eps (-127) 127 (gate m h g).flatten, fq1 (scaleOf eps (-127) 127 (gate m h g).flatten) (-127) 127, hst, ?_, fun x hx => fq1_err _ x hpos (hst.1 x hx)⟩
  unfold fqWeight
  by_cases h0 : m.flatten.length = 0
  · rw [if_pos h0]
    have hall : ∀ r ∈ m, r = [] := by
      have := List.eq_nil_of_length_eq_zero h0
      rw [List.flatten_eq_nil_iff] at this
      exact this
    have hrow : ∀ r ∈ gate m h g, List.map (fq1 (scaleOf eps (-127) 127 (gate m h g).flatten) (-127) 127) r = r := by
      intro r hr
      have : r ∈ m := List.mem_of_mem_drop (List.mem_of_mem_take hr)
      rw [hall r this]
      rfl
    conv_lhs => rw [← List.map_id (gate m h g)]
    exact List.map_congr_left (fun r hr => (hrow r hr).symm)
  · rw [if_neg h0]
    have hc : (m.length + 3) / 4 = h := by omega
    have hl : ∀ k, k < 4 → (fqPart eps (-127) 127 ((m.drop (k * h)).take h)).length = h := by
      intro k hk
      rw [fqPart_length, List.length_take, List.length_drop, hm]
      have : k * h + h ≤ 4 * h := by nlinarith
      omega
    have hparts : ((chunk4 m).map (fqPart eps (-127) 127)).flatten =
        fqPart eps (-127) 127 ((m.drop (0 * h)).take h) ++ (fqPart eps (-127) 127 ((m.drop (1 * h)).take h) ++
          (fqPart eps (-127) 127 ((m.drop (2 * h)).take h) ++ fqPart eps (-127) 127 ((m.drop (3 * h)).take h))) := by
      simp [chunk4, hc]
    have hl0 := hl 0 (by omega)
    have hl1 := hl 1 (by omega)
    have hl2 := hl 2 (by omega)
    have hl3 := hl 3 (by omega)
    rw [hparts]
    obtain ⟨g0, g1, g2, g3⟩ := gate4 h _ _ _ _ hl0 hl1 hl2 hl3
    have hgs : g = 0 ∨ g = 1 ∨ g = 2 ∨ g = 3 := by omega
    rcases hgs with rfl | rfl | rfl | rfl
    · exact g0
    · exact g1
    · exact g2
    · exact g3

/-- An LSTM with one hidden unit. -/
def lwDemo : Mat := [[1, 2], [3, -4], [0, 0], [5, 6]]

example : ∃ (step : ℝ) (f : ℝ → ℝ), IsStep (1 / 1000000) [3, -4] step ∧ gate (fqWeight (1 / 1000000) lwDemo) 1 1 = [[f 3, f (-4)]] ∧ |f 3 - 3| ≤ step / 2 := by
  obtain ⟨step, f, h1, h2, h3⟩ := C124_rounded (1 / 1000000) (by norm_num) lwDemo 1 rfl 1 (by omega)
  exact ⟨step, f, h1, h2, (h3 3 (by simp [gate, lwDemo])).1⟩

/-! ### Putting the weights back -/

theorem key_inj (a b v w : String) (hl : v.length = w.length) (h : key a v = key b w) : a = b ∧ v = w := by
  unfold key at h
  have h' := congrArg String.toList h
  simp only [String.toList_append] at h'
  have hlen : (".".toList ++ v.toList).length = (".".toList ++ w.toList).length := by
    simp only [List.length_append, String.length_toList, hl]
  obtain ⟨h1, h2⟩ := List.append_inj' h' hlen
  have h3 := List.append_cancel_left h2
  exact ⟨String.toList_inj.mp h1, String.toList_inj.mp h3⟩

theorem lookup_prepare (eps : ℝ) (net : List Layer) (hn : (net.map Layer.name).Nodup) (l : Layer) (hl : l ∈ net) (ht : l.lstm = true) :
    (prepare eps net).2.lookup (key l.name "weight_ih_l0") = some l.ih ∧ (prepare eps net).2.lookup (key l.name "weight_hh_l0") = some l.hh := by
  have hne : ∀ a b : String, key a "weight_ih_l0" ≠ key b "weight_hh_l0" := by
    intro a b h
    exact absurd (key_inj a b _ _ (by decide) h).2 (by decide)
  induction net with
  | nil => simp at hl
  | cons x r ih =>
    rw [List.map_cons, List.nodup_cons] at hn
    rcases List.mem_cons.1 hl with rfl | hl
    · rw [prepare]
      simp only [ht, if_true]
      constructor
      · rw [List.lookup_cons]
        simp
      · rw [List.lookup_cons, List.lookup_cons]
        have : (key l.name "weight_hh_l0" == key l.name "weight_ih_l0") = false := by
          rw [beq_eq_false_iff_ne]
          exact fun h => hne _ _ h.symm
        simp [this]
    · have hx : l.name ≠ x.name := by
        intro h
        exact hn.1 (h ▸ List.mem_map_of_mem hl)
      have ih' := ih hn.2 hl
      rw [prepare]
      by_cases hxt : x.lstm = true
      · simp only [hxt, if_true]
        have k1 : ∀ v w : String, v.length = w.length → (key l.name v == key x.name w) = false := by
          intro v w hvw
          rw [beq_eq_false_iff_ne]
          exact fun h => hx (key_inj _ _ _ _ hvw h).1
        rw [List.lookup_cons, List.lookup_cons, List.lookup_cons, List.lookup_cons, k1 _ _ (by decide), k1 _ _ (by decide), k1 _ _ (by decide), k1 _ _ (by decide)]
        exact ih'
      · have hxf : x.lstm = false := by simpa using hxt
        simp only [hxf, Bool.false_eq_true, if_false]
        exact ih'

/-- **C124**.  Converting gives every LSTM exactly the weights it had before the model was prepared, whatever has become of them in between (`now`), and leaves everything else alone. -/
theorem C124_restored (eps : ℝ) (net now : List Layer) (hn : (net.map Layer.name).Nodup) (hs : SameModules net now) :
    (convertWeights (prepare eps net).2 now).1 =
      List.zipWith (fun o n : Layer => if o.lstm then { n with ih := o.ih, hh := o.hh } else n) net now := by
  unfold convertWeights restore
  simp only
  have hlook := lookup_prepare eps net hn
  generalize (prepare eps net).2 = d at hlook
  clear hn
  induction net generalizing now with
  | nil =>
    cases now with
    | nil => rfl
    | cons n r => simp [SameModules] at hs
  | cons o r ih =>
    cases now with
    | nil => simp [SameModules] at hs
    | cons n q =>
      simp only [SameModules, List.map_cons, List.cons.injEq, Prod.mk.injEq] at hs
      obtain ⟨⟨h1, h2⟩, h3⟩ := hs
      rw [List.map_cons, List.zipWith_cons_cons, ih q h3 (fun l hl => hlook l (List.mem_cons_of_mem _ hl))]
      congr 1
      cases ho : o.lstm with
      | false =>
        rw [ho] at h2
        simp [← h2]
      | true =>
        obtain ⟨e1, e2⟩ := hlook o (by simp) ho
        rw [ho] at h2
        rw [h1] at e1 e2
        simp [← h2, e1, e2]

/-- **C124**.  Preparing rounds both first-layer weights of every LSTM, each from its own values, and leaves all other modules and weights alone. -/
theorem C124_prepared (eps : ℝ) (he : 0 < eps) (net : List Layer) (hw : ∀ l ∈ net, l.lstm = true → ∃ h, l.ih.length = 4 * h ∧ l.hh.length = 4 * h) :
    List.Forall₂ (fun o n : Layer => if o.lstm = true then n.name = o.name ∧ n.lstm = true ∧ n.rest = o.rest ∧
        ∃ h, o.ih.length = 4 * h ∧ Rounded eps h o.ih n.ih ∧ Rounded eps h o.hh n.hh else n = o) net (prepare eps net).1 := by
  induction net with
  | nil => exact .nil
  | cons x r ih =>
    have ih' := ih (fun l hl => hw l (List.mem_cons_of_mem _ hl))
    rw [prepare]
    cases hx : x.lstm with
    | true =>
      simp only [if_true]
      obtain ⟨h, h1, h2⟩ := hw x (by simp) hx
      refine .cons ?_ ih'
      rw [if_pos hx]
      exact ⟨rfl, rfl, rfl, h, h1, fun g hg => C124_rounded eps he _ h h1 g hg, fun g hg => C124_rounded eps he _ h h2 g hg⟩
    | false =>
      simp only [Bool.false_eq_true, if_false]
      refine .cons ?_ ih'
      rw [if_neg (by simp [hx])]

example : ∀ l ∈ [(⟨"rnn", true, lwDemo, lwDemo, [lwDemo]⟩ : Layer), ⟨"fc", false, [], [], []⟩], l.lstm = true → ∃ h, l.ih.length = 4 * h ∧ l.hh.length = 4 * h := by
  intro l hl
  simp only [List.mem_cons, List.not_mem_nil, or_false] at hl
  rcases hl with rfl | rfl
  · exact fun _ => ⟨1, rfl, rfl⟩
  · intro h; simp at h

/-- **C124** for post-training quantization: nothing changes the weights between preparing and converting, and the model that comes out has the weights that went in. -/
theorem C124_roundtrip (eps : ℝ) (net : List Layer) (hn : (net.map Layer.name).Nodup) : (convertWeights (prepare eps net).2 (prepare eps net).1).1 = net := by
  have hsame : ∀ l : List Layer, SameModules l (prepare eps l).1 := by
    intro l
    induction l with
    | nil => rfl
    | cons x r ih =>
      rw [prepare]
      cases hx : x.lstm with
      | true =>
        simp only [if_true, SameModules, List.map_cons, hx]
        rw [show r.map (fun l : Layer => (l.name, l.lstm)) = (prepare eps r).1.map (fun l : Layer => (l.name, l.lstm)) from ih]
      | false =>
        simp only [Bool.false_eq_true, if_false, SameModules, List.map_cons]
        rw [show r.map (fun l : Layer => (l.name, l.lstm)) = (prepare eps r).1.map (fun l : Layer => (l.name, l.lstm)) from ih]
  rw [C124_restored eps net _ hn (hsame net)]
  clear hn hsame
  induction net with
  | nil => rfl
  | cons x r ih =>
    rw [prepare]
    cases hx : x.lstm with
    | true =>
      simp only [if_true, List.zipWith_cons_cons, hx]
      rw [ih]
      cases x
      simp_all
    | false =>
      simp only [Bool.false_eq_true, if_false, List.zipWith_cons_cons, hx]
      rw [ih]

/-- A model with an LSTM of two layers and another module. -/
def lwNet : List Layer := [⟨"rnn", true, lwDemo, lwDemo, [lwDemo, lwDemo]⟩, ⟨"fc", false, [], [], []⟩]

example : (lwNet.map Layer.name).Nodup ∧ SameModules lwNet [⟨"rnn", true, [], [], []⟩, ⟨"fc", false, [], [], []⟩] := by
  constructor
  · simp [lwNet]
  · simp [lwNet, SameModules]

/-- Quantization-aware training of an LSTM is lost: whatever the training does to its weights, converting brings back those from before it. -/
theorem C124_training_lost_false (eps : ℝ) (trained : Mat) (ht : trained ≠ lwDemo) :
    (convertWeights (prepare eps lwNet).2 [⟨"rnn", true, trained, trained, [lwDemo, lwDemo]⟩, ⟨"fc", false, [], [], []⟩]).1.map Layer.ih ≠ [trained, []] := by
  rw [C124_restored eps lwNet _ (by simp [lwNet]) (by simp [lwNet, SameModules])]
  simp only [lwNet, List.zipWith_cons_cons, List.map_cons, if_true]
  intro h
  exact ht (List.cons.inj h).1.symm

/-- Only the first layer and the forward direction are rounded: all other weights of an LSTM are evaluated as they are. -/
theorem C124_deeper_layers_false (eps : ℝ) (net : List Layer) : (prepare eps net).1.map Layer.rest = net.map Layer.rest := by
  induction net with
  | nil => rfl
  | cons x r ih =>
    rw [prepare]
    cases x.lstm <;> simp [ih]

/-- The weights can be put back once only: converting a second time leaves the model as it is. -/
theorem C124_twice_false (d : List (String × Mat)) (first second : List Layer) :
    (convertWeights (convertWeights d first).2 second).1 = second := by
  unfold convertWeights restore
  simp

end Verif.Props
