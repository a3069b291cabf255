import Verif.Model.InputStats
import Mathlib.Tactic.Ring
import Mathlib.Tactic.Linarith
import Mathlib.Tactic.FieldSimp
import Mathlib.Tactic.NormNum
import Mathlib.Tactic.Positivity
import Mathlib.Data.Rat.Floor

/-!
C108: statistics given for inputs and operators fix their quantization.  C109: changing the number of integers keeps what can be represented.
-/

namespace Verif.Props
open Verif.Spec.InputStats Verif.Model Verif.Model.InputStats

namespace InputStats

theorem nearest_int {rnd : ℚ → ℤ} (h : Nearest rnd) (n : ℤ) : rnd (n : ℚ) = n := by
  have := abs_le.1 (h (n : ℚ))
  have h1 : ((rnd n : ℤ) : ℚ) < n + 1 := by linarith [this.2]
  have h2 : ((n : ℤ) : ℚ) - 1 < rnd (n : ℚ) := by linarith [this.1]
  have h1' : rnd n < n + 1 := by exact_mod_cast h1
  have h2' : n - 1 < rnd n := by exact_mod_cast h2
  omega

theorem trunc_int (m : ℤ) : trunc (m : ℚ) = m := by
  unfold trunc
  split <;> simp

theorem trunc_near (x : ℚ) : |x - trunc x| < 1 := by
  unfold trunc
  rw [abs_lt]
  split
  · have h1 := Int.floor_le x
    have h2 := Int.lt_floor_add_one x
    constructor <;> linarith
  · have h1 := Int.le_ceil x
    have h2 := Int.ceil_lt_add_one x
    constructor <;> linarith

open Verif.Model in
/-- Divergences that are not numbers leave the threshold as it was. -/
theorem scan_nan (T n last : ℕ) (h : ℕ → ℚ) (c i : ℕ) (after : ℚ) (best : Verif.Spec.KlRange.Div) (thr : ℕ) (hl : c = 0 ∨ (i + c ≤ last + 1 ∧ last ≤ n)) :
    KlRange.scan (fun _ _ _ => .nan) T n last h c i after best thr = some thr := by
  induction c generalizing i after best with
  | zero => rfl
  | succ c ih =>
    unfold KlRange.scan
    have hi : i = last ∨ i < n := by omega
    simp only [hi, if_true, Verif.Spec.KlRange.Div.lt, Bool.false_and, Bool.false_eq_true, if_false]
    exact ih _ _ _ (by omega)

end InputStats

open InputStats

/-- The quantization of an input is the one its statistics ask for, while training and in the converted model, and a stored byte stands for the normalized one, up to less than a step if the mean is not an
integer: for observers with an affine scheme that do not use the KL algorithm, and a mean that can be stored. -/
theorem C108_partial {rnd : ℚ → ℤ} (hr : Nearest rnd) {o : Obs} (hs : o.isSymmetric = false) (ha : o.algorithm ≠ .kl) {mean std : ℚ} (hstd : 0 < std) (heps : o.eps ≤ 1 / std)
    (hlo : o.bounds.1 ≤ trunc mean) (hhi : trunc mean ≤ o.bounds.2) (hlt : o.bounds.1 < o.bounds.2) :
    converted rnd o mean std = some ((setStats o mean std).scale, (setStats o mean std).zp) ∧
      (∀ q : ℤ, |value (setStats o mean std).scale (setStats o mean std).zp q - normalize mean std q| < 1 / std) ∧
      ∀ m : ℤ, mean = m → ∀ q : ℤ, value (setStats o mean std).scale (setStats o mean std).zp q = normalize mean std q := by
  have hv : ∀ q : ℤ, value (setStats o mean std).scale (setStats o mean std).zp q - normalize mean std q = (mean - trunc mean) / std := by
    intro q
    simp only [value, normalize, setStats]
    field_simp
    ring
  refine ⟨?_, fun q => ?_, fun m hm q => ?_⟩
  · have hrange : rangeOf o (setStats o mean std).mn (setStats o mean std).mx = some ((setStats o mean std).mn, (setStats o mean std).mx) := by
      unfold rangeOf
      cases h : o.algorithm <;> simp_all
    unfold converted
    rw [hrange, hs]
    simp only [Option.map_some, Bool.false_eq_true, if_false, Option.some.injEq, affine, setStats]
    have hlo' : (o.bounds.1 : ℚ) ≤ trunc mean := by exact_mod_cast hlo
    have hhi' : (trunc mean : ℚ) ≤ o.bounds.2 := by exact_mod_cast hhi
    have hlt' : (0 : ℚ) < (o.bounds.2 : ℚ) - o.bounds.1 := by
      have : (o.bounds.1 : ℚ) < o.bounds.2 := by exact_mod_cast hlt
      linarith
    have hp : (0 : ℚ) < 1 / std := by positivity
    have h1 : min (1 / std * ((o.bounds.1 : ℚ) - trunc mean)) 0 = 1 / std * ((o.bounds.1 : ℚ) - trunc mean) := min_eq_left (mul_nonpos_of_nonneg_of_nonpos hp.le (by linarith))
    have h2 : max (1 / std * ((o.bounds.2 : ℚ) - trunc mean)) 0 = 1 / std * ((o.bounds.2 : ℚ) - trunc mean) := max_eq_left (mul_nonneg hp.le (by linarith))
    have h3 : (1 / std * ((o.bounds.2 : ℚ) - trunc mean) - 1 / std * ((o.bounds.1 : ℚ) - trunc mean)) / ((o.bounds.2 : ℚ) - o.bounds.1) = 1 / std := by
      rw [← mul_sub, sub_sub_sub_cancel_right, mul_div_assoc, div_self hlt'.ne', mul_one]
    rw [h1, h2, h3, max_eq_left heps]
    have h4 : 1 / std * ((o.bounds.1 : ℚ) - trunc mean) / (1 / std) = ((o.bounds.1 - trunc mean : ℤ) : ℚ) := by
      rw [mul_comm, mul_div_assoc, div_self hp.ne', mul_one]
      push_cast
      ring
    rw [h4, nearest_int hr]
    congr 1
    rw [show o.bounds.1 - (o.bounds.1 - trunc mean) = trunc mean by ring, min_eq_right hhi, max_eq_right hlo]
  · rw [hv, abs_div, abs_of_pos hstd]
    exact (div_lt_div_iff_of_pos_right hstd).2 (trunc_near mean)
  · have := hv q
    rw [hm, trunc_int] at this
    rw [hm]
    simpa [sub_eq_zero] using this

/-- The default observer of an input meets the hypotheses, for a mean of 128 and a deviation of 64. -/
example : converted round ⟨.minmax, false, 128, some 0, some 255, false, 1 / 2 ^ 23⟩ 128 64 = some (1 / 64, 128) := by
  have := (C108_partial (rnd := round) (fun x => by rw [abs_sub_comm]; exact abs_sub_round x) (o := ⟨.minmax, false, 128, some 0, some 255, false, 1 / 2 ^ 23⟩) rfl (by simp) (mean := 128) (std := 64) (by norm_num)
    (by norm_num) (by decide +kernel) (by decide +kernel) (by decide +kernel)).1
  rw [this]
  decide +kernel

/-- Without an exception every reader of an input gets the statistics of that input. -/
theorem C108_inputs {stats : List (Option (ℚ × ℚ))} {inputs : List (List (Option Obs))} {r : List (List (Option Setting))} (h : prepareInputs stats inputs = some r) :
    stats.length = inputs.length ∧ r.length = inputs.length ∧ ∀ (i : ℕ) (hi : i < r.length) (hi' : i < inputs.length) (hs : i < stats.length),
      r[i].length = inputs[i].length ∧ ∀ (j : ℕ) (hj : j < r[i].length) (hj' : j < inputs[i].length), ∀ o, inputs[i][j] = some o → ∃ mean std, stats[i] = some (mean, std) ∧ r[i][j] = some (setStats o mean std) := by
  have hN : ∀ (st : Option (ℚ × ℚ)) (ns : List (Option Obs)) (a : List (Option Setting)), setNexts st ns = some a → a.length = ns.length ∧
      ∀ (j : ℕ) (hj : j < a.length) (hj' : j < ns.length), ∀ o, ns[j] = some o → ∃ mean std, st = some (mean, std) ∧ a[j] = some (setStats o mean std) := by
    intro st ns
    induction ns with
    | nil => intro a h; cases h; exact ⟨rfl, fun j hj => absurd hj (by simp)⟩
    | cons n ns ih =>
      intro a h
      cases n with
      | none =>
        obtain ⟨b, hb, rfl⟩ := Option.map_eq_some_iff.1 h
        obtain ⟨h1, h2⟩ := ih b hb
        refine ⟨by simp [h1], fun j hj hj' o ho => ?_⟩
        cases j with
        | zero => cases ho
        | succ j => exact h2 j (by simpa using hj) (by simpa using hj') o (by simpa using ho)
      | some o' =>
        cases st with
        | none => cases h
        | some p =>
          obtain ⟨mean, std⟩ := p
          obtain ⟨b, hb, rfl⟩ := Option.map_eq_some_iff.1 h
          obtain ⟨h1, h2⟩ := ih b hb
          refine ⟨by simp [h1], fun j hj hj' o ho => ?_⟩
          cases j with
          | zero => simp only [List.getElem_cons_zero, Option.some.injEq] at ho; subst ho; exact ⟨mean, std, rfl, rfl⟩
          | succ j => exact h2 j (by simpa using hj) (by simpa using hj') o (by simpa using ho)
  unfold prepareInputs at h
  split at h
  · cases h
  · next hl =>
    rw [not_not] at hl
    refine ⟨hl, ?_⟩
    induction inputs generalizing stats r with
    | nil =>
      simp only [List.zip_nil_right, setInputs, Option.some.injEq] at h
      subst h
      exact ⟨rfl, fun i hi => absurd hi (by simp)⟩
    | cons ns inputs ih =>
      cases stats with
      | nil => simp at hl
      | cons st stats =>
        simp only [List.zip_cons_cons, setInputs] at h
        obtain ⟨a, ha, h'⟩ := Option.bind_eq_some_iff.1 h
        obtain ⟨b, hb, rfl⟩ := Option.map_eq_some_iff.1 h'
        obtain ⟨h1, h2⟩ := ih (by simpa using hl) hb
        obtain ⟨h3, h4⟩ := hN st ns a ha
        refine ⟨by simp [h1], fun i hi hi' hs => ?_⟩
        cases i with
        | zero => exact ⟨h3, h4⟩
        | succ i => exact h2 i (by simpa using hi) (by simpa using hi') (by simpa using hs)

/-- A given input is set. -/
example (o : Obs) : prepareInputs [some (128, 64)] [[some o, none]] = some [[some (setStats o 128 64), none]] := rfl

/-- An input without statistics, which the format allows, ends with an exception if it is quantized. -/
theorem C108_none_false (o : Obs) (st : ℚ × ℚ) : prepareInputs [none, some st] [[some o], [some o]] = none := rfl

/-- With a symmetric scheme the converted model uses another scale, although the model was trained with the one asked for. -/
theorem C108_symmetric_false (rnd : ℚ → ℤ) : ∃ (o : Obs) (s : ℚ), o.algorithm = .minmax ∧ o.bounds = (0, 255) ∧ (setStats o 128 64).scale = 1 / 64 ∧ converted rnd o 128 64 = some (s, 128) ∧ s ≠ 1 / 64 :=
  ⟨⟨.minmax, true, 128, some 0, some 255, false, 1 / 2 ^ 23⟩, 2 / (255 / 2), rfl, rfl, by decide +kernel, by
    have : ((setStats ⟨.minmax, true, 128, some 0, some 255, false, 1 / 2 ^ 23⟩ 128 64).mn, (setStats ⟨.minmax, true, 128, some 0, some 255, false, 1 / 2 ^ 23⟩ 128 64).mx) = (-2, 127 / 64) := by decide +kernel
    simp only [Prod.mk.injEq] at this
    simp only [converted, rangeOf, Option.map_some, if_true, this.1, this.2]
    decide +kernel, by norm_num⟩

/-- With the KL algorithm the converted model uses a sixteenth of the scale. -/
theorem C108_kl_false (rnd : ℚ → ℤ) : ∃ o : Obs, o.isSymmetric = false ∧ o.algorithm = .kl ∧ o.bounds = (0, 255) ∧ (setStats o 0 1).scale = 1 ∧ (converted rnd o 0 1).map (·.1) = some (1 / 16) := by
  refine ⟨⟨.kl, false, 128, some 0, some 255, false, 1 / 2 ^ 23⟩, rfl, rfl, rfl, by decide +kernel, ?_⟩
  have hset : (setStats ⟨.kl, false, 128, some 0, some 255, false, 1 / 2 ^ 23⟩ 0 1).mn = 0 ∧ (setStats ⟨.kl, false, 128, some 0, some 255, false, 1 / 2 ^ 23⟩ 0 1).mx = 255 := by decide +kernel
  have hsearch : KlRange.paramSearch (fun _ _ _ => .nan) 128 2048 2048 (fun _ => 0) 0 255 = some (0, 255 / 16) := by
    unfold KlRange.paramSearch KlRange.computeThreshold
    rw [scan_nan _ _ _ _ _ _ _ _ _ (by norm_num)]
    simp only [Option.bind_eq_bind, Option.bind_some]
    rw [scan_nan _ _ _ _ _ _ _ _ _ (by norm_num)]
    norm_num
  simp only [converted, rangeOf, hset.1, hset.2, hsearch, Option.map_some, affine, Obs.bounds]
  norm_num

/-- A mean that is not an integer is rounded towards zero. -/
theorem C108_mean_false : ∃ o : Obs, o.isSymmetric = false ∧ o.algorithm = .minmax ∧ o.bounds = (0, 255) ∧ ∀ q : ℤ, value (setStats o (1143884 / 10000) (583021 / 10000)).scale (setStats o (1143884 / 10000) (583021 / 10000)).zp q ≠
    normalize (1143884 / 10000) (583021 / 10000) q := by
  refine ⟨⟨.minmax, false, 128, some 0, some 255, false, 1 / 2 ^ 23⟩, rfl, rfl, rfl, fun q h => ?_⟩
  have ht : trunc (1143884 / 10000) = 114 := by decide +kernel
  simp only [value, normalize, setStats, ht] at h
  push_cast at h
  linarith

/-- The statistics for softmax: probabilities are stored with an error of at most 1/256, and the logarithms from -255/16 on with an error of at most 1/32. -/
theorem C108_known {rnd : ℚ → ℤ} (hr : Nearest rnd) (o : Obs) (x : ℚ) :
    (0 ≤ x → x ≤ 1 → ∃ q : ℤ, 0 ≤ q ∧ q ≤ 255 ∧ |value (setStats o knownSoftmax.1 knownSoftmax.2).scale (setStats o knownSoftmax.1 knownSoftmax.2).zp q - x| ≤ 1 / 256) ∧
      (-255 / 16 ≤ x → x ≤ 0 → ∃ q : ℤ, 0 ≤ q ∧ q ≤ 255 ∧ |value (setStats o knownLogSoftmax.1 knownLogSoftmax.2).scale (setStats o knownLogSoftmax.1 knownLogSoftmax.2).zp q - x| ≤ 1 / 32) := by
  refine ⟨fun h0 h1 => ?_, fun h0 h1 => ?_⟩
  · have hz : trunc (0 : ℚ) = 0 := by decide +kernel
    have hn := abs_le.1 (hr (256 * x))
    have hnn : (-1 : ℚ) < rnd (256 * x) := by linarith [hn.1]
    have hnn' : -1 < rnd (256 * x) := by exact_mod_cast hnn
    refine ⟨min 255 (rnd (256 * x)), by omega, by omega, ?_⟩
    simp only [value, setStats, knownSoftmax, hz]
    rw [abs_le]
    rcases le_total (rnd (256 * x)) 255 with h | h
    · rw [min_eq_right h]
      push_cast
      constructor <;> linarith [hn.1, hn.2]
    · rw [min_eq_left h]
      have h' : (255 : ℚ) ≤ rnd (256 * x) := by exact_mod_cast h
      push_cast
      constructor <;> linarith [hn.1, hn.2]
  · have hz : trunc (255 : ℚ) = 255 := by decide +kernel
    have hn := abs_le.1 (hr (16 * x))
    have hnn : (-256 : ℚ) < rnd (16 * x) := by linarith [hn.1]
    have hnn' : -256 < rnd (16 * x) := by exact_mod_cast hnn
    have hnp : (rnd (16 * x) : ℚ) < 1 := by linarith [hn.2]
    have hnp' : rnd (16 * x) < 1 := by exact_mod_cast hnp
    refine ⟨255 + rnd (16 * x), by omega, by omega, ?_⟩
    simp only [value, setStats, knownLogSoftmax, hz]
    rw [abs_le]
    push_cast
    constructor <;> linarith [hn.1, hn.2]

/-- With signed integers (`backend='onnx'`) probabilities above one half cannot be stored. -/
theorem C108_signed_false (o : Obs) (q : ℤ) (h : q ≤ 127) : value (setStats o knownSoftmax.1 knownSoftmax.2).scale (setStats o knownSoftmax.1 knownSoftmax.2).zp q < 1 / 2 := by
  have hz : trunc (0 : ℚ) = 0 := by decide +kernel
  have h' : (q : ℚ) ≤ 127 := by exact_mod_cast h
  simp only [value, setStats, knownSoftmax, hz]
  push_cast
  linarith

/-- The old range lies within the new one, and steps are not longer. -/
def Fq.Refines (m m' : Fq) : Prop := m'.scale ≤ m.scale ∧ value m'.scale m'.zp m'.lo ≤ value m.scale m.zp m.lo ∧ value m.scale m.zp m.hi ≤ value m'.scale m'.zp m'.hi

/-- More integers: everything that could be stored still can, if zero is the least integer or in the middle, and the new integers begin where the old ones do. -/
theorem C109_partial {m : Fq} {lo hi : ℤ} (hs : 0 < m.scale) (hm : m.lo ≤ m.hi) (hn : m.hi - m.lo ≤ hi - lo) (heven : 2 ∣ hi - lo + 1)
    (h : (m.lo = 0 ∧ lo = 0 ∧ (m.zp = 0 ∨ 2 * m.zp = m.hi + 1)) ∨ (m.zp = 0 ∧ 2 * m.lo = -(m.hi - m.lo + 1) ∧ 2 * lo = -(hi - lo + 1))) (isSigmoid : Bool) (hsig : isSigmoid = true → ¬ (lo = 0 ∧ hi = 65535)) :
    ∃ m', rescaleModule lo hi isSigmoid (some m) = some (some m') ∧ Fq.Refines m m' ∧ m'.lo = lo ∧ m'.hi = hi := by
  refine ⟨rescale lo hi m, ?_, ?_, rfl, rfl⟩
  · unfold rescaleModule sigmoidFirst
    cases isSigmoid with
    | false => simp
    | true => simp [hsig rfl]
  · obtain ⟨s, zp, a, b⟩ := m
    simp only at hs hm hn h
    obtain ⟨k, hk⟩ := heven
    have hN : (0 : ℚ) < (hi - lo + 1 : ℤ) := by exact_mod_cast (by omega : 0 < hi - lo + 1)
    have hO : (0 : ℚ) < (b - a + 1 : ℤ) := by exact_mod_cast (by omega : 0 < b - a + 1)
    have hle : ((b - a + 1 : ℤ) : ℚ) ≤ (hi - lo + 1 : ℤ) := by exact_mod_cast (by omega : b - a + 1 ≤ hi - lo + 1)
    obtain ⟨t, ht⟩ : ∃ t : ℚ, t = s * (b - a + 1 : ℤ) / (hi - lo + 1 : ℤ) := ⟨_, rfl⟩
    have ht' : t * (hi - lo + 1 : ℤ) = s * (b - a + 1 : ℤ) := by rw [ht]; field_simp
    have hts : t ≤ s := by rw [ht, div_le_iff₀ hN]; exact mul_le_mul_of_nonneg_left hle hs.le
    have hdiv : (hi - lo + 1) / 2 = k := by omega
    have hr : rescale lo hi ⟨s, zp, a, b⟩ = ⟨t, if zp ≠ 0 then k else 0, lo, hi⟩ := by
      unfold rescale
      simp only [hdiv, ht]
    rw [hr]
    refine ⟨hts, ?_⟩
    simp only [value]
    rw [hk] at ht'
    rcases h with ⟨rfl, rfl, rfl | h2⟩ | ⟨rfl, h2, h3⟩
    · have hi' : hi = 2 * k - 1 := by omega
      subst hi'
      push_cast at ht' ⊢
      constructor <;> simp <;> linarith
    · have hz : zp ≠ 0 := by omega
      have hb : b = 2 * zp - 1 := by omega
      have hi' : hi = 2 * k - 1 := by omega
      subst hb
      subst hi'
      rw [if_pos hz]
      push_cast at ht' ⊢
      have : t * k = s * zp := by linarith
      constructor <;> linarith
    · have hb : b = -a - 1 := by omega
      have hi' : hi = -lo - 1 := by omega
      have hk' : k = -lo := by omega
      subst hb
      subst hi'
      subst hk'
      push_cast at ht' ⊢
      have : t * lo = s * a := by linarith
      constructor <;> simp <;> linarith

/-- From 8 to 16 bits. -/
example : ∃ m', rescaleModule 0 65535 false (some ⟨1 / 4, 128, 0, 255⟩) = some (some m') ∧ Fq.Refines ⟨1 / 4, 128, 0, 255⟩ m' := by
  obtain ⟨m', h1, h2, _⟩ := C109_partial (m := ⟨1 / 4, 128, 0, 255⟩) (lo := 0) (hi := 65535) (by norm_num) (by norm_num) (by norm_num) (by norm_num) (Or.inl ⟨rfl, rfl, Or.inr (by norm_num)⟩) false (by simp)
  exact ⟨m', h1, h2⟩

/-- A sigmoid, which is stored with 1/256 and zero point 0, gets the parameters TFLite asks for: 1/32768 and, after the shift of storage by 32768, zero point 0. -/
theorem C109_sigmoid : ∃ m', rescaleModule 0 65535 true (some ⟨1 / 256, 0, 0, 255⟩) = some (some m') ∧ m'.scale = 1 / 32768 ∧ m'.zp - 32768 = 0 ∧ Fq.Refines ⟨1 / 256, 0, 0, 255⟩ m' := by
  refine ⟨⟨1 / 32768, 32768, 0, 65535⟩, ?_, rfl, rfl, ?_⟩
  · simp [rescaleModule, sigmoidFirst, rescale]
    norm_num
  · unfold Fq.Refines value
    norm_num

/-- With an affine scheme the upper part of the range is lost. -/
theorem C109_affine_false : ∃ m m' : Fq, m.lo = 0 ∧ m.hi = 255 ∧ m.lo < m.zp ∧ m.zp < m.hi ∧ rescaleModule 0 65535 false (some m) = some (some m') ∧ value m'.scale m'.zp m'.hi + 100 * m.scale < value m.scale m.zp m.hi :=
  ⟨⟨1, 10, 0, 255⟩, ⟨256 / 65536, 32768, 0, 65535⟩, rfl, rfl, by norm_num, by norm_num, by simp [rescaleModule, rescale], by simp [value]; norm_num⟩

/-- Signed integers: the new zero point cannot be stored, and no positive number can be represented. -/
theorem C109_signed_false : ∃ m m' : Fq, m.lo = 0 ∧ m.hi = 255 ∧ m.zp = 128 ∧ rescaleModule (-32768) 32767 false (some m) = some (some m') ∧ m'.hi < m'.zp ∧ ∀ q ≤ m'.hi, value m'.scale m'.zp q < 0 := by
  refine ⟨⟨1, 128, 0, 255⟩, ⟨256 / 65536, 32768, -32768, 32767⟩, rfl, rfl, rfl, by simp [rescaleModule, rescale], by norm_num, fun q hq => ?_⟩
  simp only at hq
  have : (q : ℚ) ≤ 32767 := by exact_mod_cast hq
  simp only [value]
  push_cast
  linarith

/-- A sigmoid that is not quantized ends with an exception. -/
theorem C109_unquantized_false : rescaleModule 0 65535 true none = none ∧ rescaleModule 0 65535 false none = some none := ⟨rfl, rfl⟩

end Verif.Props
