import Verif.Model.ScalarOps
import Mathlib.Tactic.Linarith
import Mathlib.Tactic.NormNum
import Mathlib.Tactic.Push

/-! C67: arithmetic with numbers of different types. -/

namespace Verif.Props
open Verif.Spec Verif.Model

/-- The operand survives the conversion to the type of the tensor: a floating-point tensor, or a whole number. -/
def KeepsValue (op : BinOp) (x : Num) (other : Operand) : Prop :=
  match other with
  | .scalar v => x.isInt = true → ∃ z : ℤ, v.val = z
  | .tensor v => op = .floorDivide → x.isInt = true → ∃ z : ℤ, v.val = z

/-- The operator itself is right for these types: division is not done on integers (except truncating division, and with a scalar only if the tensor is not an integer
tensor), and its rounding mode is honoured by chance only. -/
def OpOk (op : BinOp) (x : Num) (other : Operand) : Prop :=
  match op with
  | .div .none => x.isInt = false ∨ ∃ q, other = .tensor (.flt q)
  | .div .trunc => x.isInt = true ∧ ((∃ v, other = .scalar v) ∨ ∃ z, other = .tensor (.int z))
  | .div .floor => False
  | _ => True

theorem truncQ_int (z : ℤ) : truncQ (z : ℚ) = z := by unfold truncQ; split <;> simp

private theorem truncQ_neg (q : ℚ) : truncQ (-q) = -truncQ q := by
  unfold truncQ
  by_cases h : 0 ≤ q
  · by_cases h' : q = 0
    · subst h'; simp
    · have : ¬ 0 ≤ -q := by
        have : 0 < q := lt_of_le_of_ne h (Ne.symm h')
        linarith
      rw [if_neg this, if_pos h, Int.ceil_neg]
  · have : 0 ≤ -q := by linarith
    rw [if_pos this, if_neg h, Int.floor_neg]

private theorem fdiv_nat (a : ℤ) (n : ℕ) : Int.fdiv a n = ⌊(a : ℚ) / (n : ℤ)⌋ := by
  have := Rat.floor_intCast_div_natCast a n
  rw [Int.fdiv_eq_ediv_of_nonneg _ (by positivity), ← this]
  push_cast
  rfl

private theorem fdiv_floor (a b : ℤ) : Int.fdiv a b = ⌊(a : ℚ) / b⌋ := by
  obtain ⟨n, rfl | rfl⟩ := Int.eq_nat_or_neg b
  · exact fdiv_nat a n
  · rw [← Int.neg_fdiv_neg, neg_neg, fdiv_nat (-a) n]
    push_cast
    rw [div_neg, neg_div]

private theorem tdiv_nat (n m : ℕ) : Int.tdiv n m = truncQ (((n : ℤ) : ℚ) / (m : ℤ)) := by
  unfold truncQ
  rw [if_pos (by positivity), ← fdiv_nat, Int.tdiv_eq_ediv_of_nonneg (by positivity), Int.fdiv_eq_ediv_of_nonneg _ (by positivity)]

private theorem tdiv_trunc (a b : ℤ) : Int.tdiv a b = truncQ ((a : ℚ) / b) := by
  obtain ⟨n, rfl | rfl⟩ := Int.eq_nat_or_neg a <;> obtain ⟨m, rfl | rfl⟩ := Int.eq_nat_or_neg b
  · exact tdiv_nat n m
  · rw [Int.tdiv_neg, tdiv_nat]; push_cast; rw [div_neg, truncQ_neg]
  · rw [Int.neg_tdiv, tdiv_nat]; push_cast; rw [neg_div, truncQ_neg]
  · rw [Int.tdiv_neg, Int.neg_tdiv, neg_neg, tdiv_nat]; push_cast; rw [neg_div_neg_eq]

private theorem fmod_floor (a b : ℤ) : ((Int.fmod a b : ℤ) : ℚ) = a - b * ⌊(a : ℚ) / b⌋ := by
  rw [Int.fmod_def, fdiv_floor]; push_cast; rfl

/-- A scalar that keeps its value has the value it had. -/
private theorem castLike_val (x v : Num) (h : x.isInt = true → ∃ z : ℤ, v.val = z) : (castLike x v).val = v.val ∧ (castLike x v).isInt = x.isInt := by
  cases x with
  | int z =>
    obtain ⟨w, hw⟩ := h rfl
    refine ⟨?_, rfl⟩
    simp only [castLike, hw, truncQ_int]
    rfl
  | flt q => exact ⟨rfl, rfl⟩

/-- What an operator other than division gives after promotion. -/
private theorem tfl_int (op : TflBin) (x y : ℤ) : tflBin op (.int x) (.int y) = some (match op with
    | .ADD => .num ((x : ℚ) + y)
    | .SUB => .num ((x : ℚ) - y)
    | .MUL => .num ((x : ℚ) * y)
    | .DIV => .num (truncQ ((x : ℚ) / y) : ℤ)
    | .FLOOR_DIV => .num (⌊(x : ℚ) / y⌋ : ℤ)
    | .FLOOR_MOD => .num ((x : ℚ) - y * ⌊(x : ℚ) / y⌋)
    | .MINIMUM => .num (min (x : ℚ) y)
    | .EQUAL => .bool ((x : ℚ) = y)
    | .NOT_EQUAL => .bool ((x : ℚ) ≠ y)
    | .LESS => .bool ((x : ℚ) < y)
    | .LESS_EQUAL => .bool ((x : ℚ) ≤ y)
    | .GREATER => .bool ((x : ℚ) > y)
    | .GREATER_EQUAL => .bool ((x : ℚ) ≥ y)) := by
  cases op <;> simp [tflBin, fdiv_floor, tdiv_trunc, fmod_floor]

private theorem apply_eq (op : BinOp) (x y : Num) (r : OpResult) (h1 : op = .div .none → x.isInt = false ∨ y.isInt = false)
    (h2 : op = .div .trunc → x.isInt = true ∧ y.isInt = true) (h3 : op ≠ .div .floor) (hr : applyBin op x y = some r) : r = torchBin op x y := by
  cases x with
  | int x =>
    cases y with
    | int y =>
      cases op with
      | div m =>
        cases m with
        | none => rcases h1 rfl with h | h <;> cases h
        | floor => exact absurd rfl h3
        | trunc =>
          simp [applyBin, promote, Num.isInt, emitted, tfl_int] at hr
          rw [← hr]; rfl
      | floorDivide =>
        simp only [applyBin, if_true] at hr
        split at hr
        · rw [tfl_int] at hr
          simp only [Option.some.injEq] at hr
          rw [← hr]; rfl
        · cases hr
      | _ =>
        simp [applyBin, promote, Num.isInt, emitted, tfl_int] at hr
        rw [← hr]; simp [torchBin, Num.val]
    | flt y =>
      cases op with
      | div m =>
        cases m with
        | none => simp [applyBin, promote, Num.isInt, emitted, tflBin] at hr; rw [← hr]; rfl
        | floor => exact absurd rfl h3
        | trunc => exact absurd (h2 rfl).2 (by simp [Num.isInt])
      | floorDivide => simp [applyBin, Num.isInt] at hr
      | _ => simp [applyBin, promote, Num.isInt, emitted, tflBin] at hr; rw [← hr]; simp [torchBin]
  | flt x =>
    cases op with
    | div m =>
      cases m with
      | none => simp [applyBin, promote, Num.isInt, emitted, tflBin] at hr; rw [← hr]; rfl
      | floor => exact absurd rfl h3
      | trunc => exact absurd (h2 rfl).1 (by simp [Num.isInt])
    | floorDivide => simp [applyBin, Num.isInt] at hr
    | _ => simp [applyBin, promote, Num.isInt, emitted, tflBin] at hr; rw [← hr]; simp [torchBin]

/-- C67, for operands whose value survives the conversion to the tensor's type and operators that are right for the types: whenever the conversion succeeds, the result is
PyTorch's. -/
theorem C67_partial (op : BinOp) (x : Num) (other : Operand) (r : OpResult) (hk : KeepsValue op x other) (ho : OpOk op x other) (hr : convertBin op x other = some r) :
    r = torchBin op x other.value := by
  obtain ⟨y, hy⟩ : ∃ y, y = operandFor op x other := ⟨_, rfl⟩
  have hval : y.val = other.value.val := by
    rw [hy]
    cases other with
    | scalar v => exact (castLike_val x v hk).1
    | tensor v =>
      change (if op = BinOp.floorDivide then castLike x v else v).val = v.val
      split
      · next h => exact (castLike_val x v (hk h)).1
      · rfl
  have hv : torchBin op x other.value = torchBin op x y := by
    unfold torchBin
    rw [hval]
  rw [hv]
  unfold convertBin at hr
  rw [← hy] at hr
  refine apply_eq op x y r ?_ ?_ ?_ hr
  · rintro rfl
    rcases ho with h | ⟨q, rfl⟩
    · exact Or.inl h
    · rw [hy]; exact Or.inr rfl
  · rintro rfl
    obtain ⟨h1, ⟨v, rfl⟩ | ⟨z, rfl⟩⟩ := ho
    · rw [hy]; exact ⟨h1, by rw [show operandFor _ x (.scalar v) = castLike x v from rfl, (castLike_val x v hk).2, h1]⟩
    · rw [hy]; exact ⟨h1, rfl⟩
  · rintro rfl; exact ho

/-- The conversion succeeds for everything but floor_divide. -/
theorem C67_defined (op : BinOp) (x : Num) (other : Operand) (hop : op ≠ .floorDivide) : ∃ r, convertBin op x other = some r := by
  unfold convertBin applyBin
  generalize operandFor op x other = y
  rw [if_neg hop]
  cases x <;> cases y <;> split <;> exact ⟨_, rfl⟩

/-- A floating-point tensor times 1/2, an integer tensor minus 2, and an integer tensor compared with the floating-point number 3. -/
example : KeepsValue .mul (.flt 3) (.scalar (.flt (1 / 2))) ∧ KeepsValue .sub (.int 5) (.scalar (.int 2)) ∧ KeepsValue .lt (.int 5) (.scalar (.flt 3)) ∧
    convertBin .lt (.int 5) (.scalar (.flt 3)) = some (.bool false) := by
  refine ⟨(fun h => by cases h), fun _ => ⟨2, rfl⟩, fun _ => ⟨3, by simp [Num.val]⟩, ?_⟩
  have : truncQ 3 = 3 := truncQ_int 3
  simp [convertBin, applyBin, operandFor, castLike, Num.val, promote, Num.isInt, emitted, tflBin, this]

private theorem trunc_half : truncQ (1 / 2) = 0 := by
  unfold truncQ
  rw [if_pos (by norm_num), Int.floor_eq_iff]
  norm_num

/-- C67 fails for an integer tensor and a fractional scalar: 3 * 0.5 becomes 0, and 0 < 0.5 becomes false. -/
theorem C67_fraction_false : convertBin .mul (.int 3) (.scalar (.flt (1 / 2))) = some (.num 0) ∧ torchBin .mul (.int 3) (.flt (1 / 2)) = .num (3 / 2) ∧
    convertBin .lt (.int 0) (.scalar (.flt (1 / 2))) = some (.bool false) ∧ torchBin .lt (.int 0) (.flt (1 / 2)) = .bool true := by
  have := trunc_half
  refine ⟨?_, ?_, ?_, ?_⟩
  · simp only [convertBin, applyBin, operandFor, castLike, Num.val, this]; simp [promote, Num.isInt, emitted, tflBin]
  · simp [torchBin, Num.val]; norm_num
  · simp only [convertBin, applyBin, operandFor, castLike, Num.val, this]; simp [promote, Num.isInt, emitted, tflBin]
  · simp [torchBin, Num.val]

/-- C67 fails for the division of integers: 1 / 2 becomes 0, with a scalar and with a tensor. -/
theorem C67_integer_division_false : convertBin (.div .none) (.int 1) (.scalar (.int 2)) = some (.num 0) ∧ convertBin (.div .none) (.int 1) (.tensor (.int 2)) = some (.num 0) ∧
    torchBin (.div .none) (.int 1) (.int 2) = .num (1 / 2) := by
  have h2 : truncQ 2 = 2 := truncQ_int 2
  refine ⟨?_, ?_, ?_⟩
  · simp [convertBin, applyBin, operandFor, castLike, Num.val, promote, Num.isInt, emitted, tflBin, h2]
  · simp [convertBin, applyBin, operandFor, promote, Num.isInt, emitted, tflBin]
  · simp [torchBin, Num.val]

/-- C67 fails for division with a rounding mode: it is ignored, 7 // 2 on floating-point tensors becomes 7/2, and -7 // 2 on integers is rounded towards zero. -/
theorem C67_rounding_mode_false : convertBin (.div .floor) (.flt 7) (.scalar (.int 2)) = some (.num (7 / 2)) ∧ torchBin (.div .floor) (.flt 7) (.int 2) = .num 3 ∧
    convertBin (.div .floor) (.int (-7)) (.scalar (.int 2)) = some (.num (-3)) ∧ torchBin (.div .floor) (.int (-7)) (.int 2) = .num (-4) := by
  have h2 : truncQ 2 = 2 := truncQ_int 2
  refine ⟨?_, ?_, ?_, ?_⟩
  · simp [convertBin, applyBin, operandFor, castLike, Num.val, promote, Num.isInt, emitted, tflBin]
  · have : ⌊(7 : ℚ) / 2⌋ = 3 := by rw [Int.floor_eq_iff]; norm_num
    simp [torchBin, Num.val, this]
  · have : Int.tdiv (-7) 2 = -3 := by decide
    simp only [convertBin, applyBin, operandFor, castLike, Num.val, Int.cast_ofNat, h2]
    simp [promote, Num.isInt, emitted, tflBin, this]
  · have : ⌊((-7 : ℤ) : ℚ) / (2 : ℤ)⌋ = -4 := by rw [Int.floor_eq_iff]; norm_num
    simp only [torchBin, Num.val, this]
    norm_num

end Verif.Props
