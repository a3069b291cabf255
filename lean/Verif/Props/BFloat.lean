import Verif.Spec.BFloat
/-! C163: simulated bfloat16 training. -/

namespace Verif.Props
open Verif.Model.BFloat Verif.Spec.BFloat

/-- Between neighbouring bfloat16 numbers the float32 numbers are equally spaced, also when the upper one has the next exponent. -/
theorem mag_affine (q t : Nat) (ht : t ≤ 65536) : mag (q * 65536 + t) = mag (q * 65536) + t * 2 ^ (q / 128 - 1) := by
  have e0 : q * 65536 / 8388608 = q / 128 := by omega
  by_cases hc : (q * 65536 + t) / 8388608 = q / 128
  · have hm : (q * 65536 + t) % 8388608 = q * 65536 % 8388608 + t := by omega
    unfold mag
    rw [hc, e0, hm]
    by_cases h0 : q / 128 = 0
    · simp [h0]
    · simp only [h0, if_false]
      rw [← Nat.add_assoc, Nat.add_mul]
  · have hq : q = 128 * (q / 128) + q % 128 := by omega
    have hr : q % 128 < 128 := by omega
    have hx : q * 65536 + t = (q % 128 * 65536 + t) + 8388608 * (q / 128) := by omega
    have h1 : (q * 65536 + t) / 8388608 = q / 128 + 1 := by
      rw [hx, Nat.add_mul_div_left _ _ (by omega)] at hc ⊢
      omega
    have h2 : (q * 65536 + t) % 8388608 = 0 := by
      have := Nat.div_add_mod (q * 65536 + t) 8388608
      rw [h1] at this
      omega
    have h3 : q * 65536 % 8388608 + t = 8388608 := by
      have := Nat.div_add_mod (q * 65536 + t) 8388608
      rw [h1, h2] at this
      have := Nat.div_add_mod (q * 65536) 8388608
      rw [e0] at this
      omega
    unfold mag
    rw [h1, e0, h2]
    by_cases h0 : q / 128 = 0
    · simp [h0]; omega
    · have hp : 2 ^ (q / 128) = 2 * 2 ^ (q / 128 - 1) := by
        conv => lhs; rw [show q / 128 = (q / 128 - 1) + 1 by omega]
        rw [Nat.pow_succ]; omega
      have hne : q / 128 + 1 ≠ 0 := by omega
      simp only [hne, h0, if_false, Nat.add_sub_cancel, Nat.add_zero]
      rw [hp, ← Nat.add_mul, Nat.add_assoc, h3, ← Nat.mul_assoc]

theorem mag_step (q : Nat) : mag (q * 65536) ≤ mag ((q + 1) * 65536) := by
  have := mag_affine q 65536 (Nat.le_refl _)
  rw [Nat.add_mul, Nat.one_mul, this]
  exact Nat.le_add_right _ _

theorem mag_mono (a b : Nat) (h : a ≤ b) : mag (a * 65536) ≤ mag (b * 65536) := by
  induction b with
  | zero => have : a = 0 := by omega
            rw [this]; exact Nat.le_refl _
  | succ b ih =>
    by_cases hb : a ≤ b
    · exact Nat.le_trans (ih hb) (mag_step b)
    · have : a = b + 1 := by omega
      rw [this]; exact Nat.le_refl _

/-- Which of the two neighbours is taken. -/
theorem toBf16_bits (x : F32) : (toBf16 x).bits = (if x.bits % 65536 < 32768 ∨ (x.bits % 65536 = 32768 ∧ x.bits / 65536 % 2 = 0) then x.bits / 65536 else x.bits / 65536 + 1) * 65536 := by
  simp only [toBf16]
  split <;> omega

/-- A number is replaced by the bfloat16 number next to it, of the same sign: no bfloat16 number is nearer. -/
theorem C163_nearest (x : F32) : (toBf16 x).neg = x.neg ∧ IsBf16 (toBf16 x).bits ∧ ∀ w, IsBf16 w → dist (mag x.bits) (mag (toBf16 x).bits) ≤ dist (mag x.bits) (mag w) := by
  refine ⟨rfl, by simp [IsBf16, toBf16], ?_⟩
  intro w hw
  have hx : x.bits = x.bits / 65536 * 65536 + x.bits % 65536 := by omega
  have hw' : w = w / 65536 * 65536 := by unfold IsBf16 at hw; omega
  generalize hq : x.bits / 65536 = q at *
  generalize ht : x.bits % 65536 = t at *
  generalize hk : w / 65536 = k at *
  have htl : t < 65536 := by omega
  have ha := mag_affine q t (by omega)
  have hb := mag_affine q 65536 (Nat.le_refl _)
  have hb' : mag ((q + 1) * 65536) = mag (q * 65536) + 65536 * 2 ^ (q / 128 - 1) := by rw [Nat.add_mul, Nat.one_mul]; exact hb
  rw [toBf16_bits, hq, ht]
  rw [hx, hw', ha]
  generalize 2 ^ (q / 128 - 1) = p at *
  have hlow : k ≤ q → mag (k * 65536) ≤ mag (q * 65536) := mag_mono k q
  have hhigh : q + 1 ≤ k → mag ((q + 1) * 65536) ≤ mag (k * 65536) := mag_mono (q + 1) k
  have htp : t * p ≤ 65536 * p := Nat.mul_le_mul_right p (by omega)
  by_cases hc : t < 32768 ∨ (t = 32768 ∧ q % 2 = 0)
  · rw [if_pos hc]
    have hh : t * p + t * p ≤ 65536 * p := by
      rw [← Nat.add_mul]; exact Nat.mul_le_mul_right p (by omega)
    unfold dist
    by_cases hkq : k ≤ q
    · have := hlow hkq; omega
    · have := hhigh (by omega); omega
  · rw [if_neg hc]
    have hh : 65536 * p ≤ t * p + t * p := by
      rw [← Nat.add_mul]; exact Nat.mul_le_mul_right p (by omega)
    unfold dist
    rw [hb']
    by_cases hkq : k ≤ q
    · have := hlow hkq; omega
    · have := hhigh (by omega); omega

/-- 1 + 2^-8 + 2^-23: 0x3f808001 becomes 0x3f810000. -/
example : (toBf16 ⟨false, 0x3f808001⟩).bits = 0x3f810000 ∧ mag 0x3f808001 ≠ mag 0x3f810000 := by decide +kernel

/-- Halfway between two bfloat16 numbers the one with an even last bit is taken. -/
theorem C163_ties (x : F32) (h : x.bits % 65536 = 32768) : (toBf16 x).bits / 65536 % 2 = 0 := by
  rw [toBf16_bits]
  split <;> omega

example : (toBf16 ⟨true, 0x3f808000⟩) = ⟨true, 0x3f800000⟩ := by decide

/-- Numbers bfloat16 can hold are not changed, so passing a value twice is passing it once. -/
theorem C163_exact (x : F32) : (IsBf16 x.bits ↔ toBf16 x = x) ∧ toBf16 (toBf16 x) = toBf16 x := by
  have key : ∀ y : F32, IsBf16 y.bits → toBf16 y = y := by
    intro y hy
    unfold IsBf16 at hy
    cases y with
    | mk n b =>
      simp only [toBf16, F32.mk.injEq, true_and]
      simp only at hy
      omega
  refine ⟨⟨key x, fun h => by rw [← h]; simp [IsBf16, toBf16]⟩, key _ (by simp [IsBf16, toBf16])⟩

/-- Finite numbers from 0x7f7f8000 on, about 3.3961e38, become infinity, all others stay finite. -/
theorem C163_overflow (x : F32) (h : x.bits < 0x7f800000) : (toBf16 x).bits = 0x7f800000 ↔ 0x7f7f8000 ≤ x.bits := by
  rw [toBf16_bits]
  split <;> omega

theorem C163_overflow_finite (x : F32) (h : x.bits < 0x7f7f8000) : (toBf16 x).bits < 0x7f800000 := by
  rw [toBf16_bits]
  split <;> omega

/-- A finite number whose result is infinite. -/
theorem C163_overflow_false : ∃ x : F32, x.bits < 0x7f800000 ∧ (toBf16 x).bits = 0x7f800000 := ⟨⟨false, 0x7f7fffff⟩, by decide, by decide⟩

theorem forwardAll_get (vs : List Val) (i : Nat) : (forwardAll vs)[i]? = vs[i]?.map forwardOn := by
  induction vs generalizing i with
  | nil => simp [forwardAll]
  | cons v vs ih =>
    cases i with
    | zero => simp [forwardAll]
    | succ i => simp [forwardAll, ih]

theorem part_forward (p : List Nat) : ∀ v, part (forwardOn v) p = (part v p).map forwardOn := by
  induction p with
  | nil => intro v; simp [part]
  | cons i p ih =>
    intro v
    have key : ∀ vs : List Val, ((forwardAll vs)[i]?.bind fun w => part w p) = (vs[i]?.bind fun w => part w p).map forwardOn := by
      intro vs
      rw [forwardAll_get]
      cases vs[i]? with
      | none => rfl
      | some w => simp [ih]
    cases v with
    | float xs => simp [forwardOn, part]
    | int xs => simp [forwardOn, part]
    | list vs => simp only [forwardOn, part]; exact key vs
    | tuple vs => simp only [forwardOn, part]; exact key vs
    | dict vs => simp [forwardOn, part]

/-- While it is on, the module rounds every float tensor in the value, however deep it lies in lists and tuples, leaves tensors of other types as they are, and adds and drops nothing.
Full property: the value keeps its form and all its tensors are rounded, see `C163_tuple_false` and `C163_dict_false`. -/
theorem C163_everywhere_partial (v : Val) (p : List Nat) :
    (∀ xs, part v p = some (.float xs) → part (forwardOn v) p = some (.float (xs.map toBf16))) ∧ (∀ xs, part v p = some (.int xs) → part (forwardOn v) p = some (.int xs)) ∧
    (part v p = none → part (forwardOn v) p = none) := by
  rw [part_forward]
  refine ⟨fun xs h => by rw [h]; rfl, fun xs h => by rw [h]; rfl, fun h => by rw [h]; rfl⟩

/-- The result of an LSTM: a tensor, and a pair of tensors. -/
example : part (forwardOn (.tuple [.float [], .tuple [.float [⟨false, 0x3f808001⟩], .int [4]]])) [1, 0] = some (.float [⟨false, 0x3f810000⟩]) :=
  (C163_everywhere_partial _ [1, 0]).1 [⟨false, 0x3f808001⟩] (by simp [part])

/-- Tuples become lists. -/
theorem C163_tuple_false : ∃ vs, forwardOn (.tuple vs) ≠ .tuple (forwardAll vs) ∧ forwardOn (.tuple vs) = .list (forwardAll vs) := ⟨[], by simp [forwardOn], by simp [forwardOn]⟩

/-- Tensors in dictionaries are not rounded. -/
theorem C163_dict_false : ∃ xs, ¬ (∀ x ∈ xs, IsBf16 x.bits) ∧ forwardOn (.dict [.float xs]) = .dict [.float xs] :=
  ⟨[⟨false, 1⟩], by intro h; have := h ⟨false, 1⟩ (by simp); simp [IsBf16] at this, by simp [forwardOn]⟩

theorem results_flag (h h' : List Ev) (e : Nat) (b : Bool) (he : e = enableFlag b) (v : Val) (r : List Ev) (hh : h = h' ++ .apply v :: r) :
    ∃ pre post, results e h = pre ++ forward (enableFlag (h'.foldl (fun b e => match e with | .enable c => c | .disable => false | .apply _ => b) b)) v :: post ∧
      pre.length = (h'.filter (fun e => match e with | .apply _ => true | _ => false)).length := by
  subst hh; subst he
  induction h' generalizing b with
  | nil => exact ⟨[], results (enableFlag b) r, by simp [results], rfl⟩
  | cons a h' ih =>
    cases a with
    | enable c =>
      obtain ⟨pre, post, e1, e2⟩ := ih c
      exact ⟨pre, post, by simpa [results] using e1, by simpa using e2⟩
    | disable =>
      obtain ⟨pre, post, e1, e2⟩ := ih false
      exact ⟨pre, post, by simpa [results] using e1, by simpa using e2⟩
    | apply w =>
      obtain ⟨pre, post, e1, e2⟩ := ih b
      exact ⟨forward (enableFlag b) w :: pre, post, by simpa [results] using e1, by simpa using e2⟩

/-- Whatever has happened before, a value is rounded if the module was last switched on (or never switched), and passed as it is if it was last switched off; results come in the order of the uses. -/
theorem C163_switch (h r : List Ev) (v : Val) : ∃ pre post, run (h ++ .apply v :: r) = pre ++ (if isOn h then forwardOn v else v) :: post ∧
    pre.length = (h.filter (fun e => match e with | .apply _ => true | _ => false)).length := by
  obtain ⟨pre, post, e1, e2⟩ := results_flag (h ++ .apply v :: r) h 1 true rfl v r rfl
  refine ⟨pre, post, ?_, e2⟩
  rw [run, e1]
  have : (if isOn h then forwardOn v else v) = forward (enableFlag (isOn h)) v := by
    cases isOn h <;> simp [forward, enableFlag]
  rw [this]
  rfl

example : run [.disable, .apply (.float [⟨false, 1⟩]), .enable true, .apply (.float [⟨false, 1⟩])] = [.float [⟨false, 1⟩], .float [⟨false, 0⟩]] := by
  simp [run, results, enableFlag, forward, forwardOn, toBf16]

end Verif.Props
