import Verif.Model.MaskedFill
import Verif.Lemmas.Tensor
import Mathlib.Algebra.Order.Ring.Rat
import Mathlib.Tactic.NormNum

/-! C65: masked filling and `where`. -/

namespace Verif.Props
open Verif.Spec Verif.Model Verif.Lemmas

private def g (d i : Nat) : Nat := if d = 1 then 0 else i

private theorem zip_idem (a i : List Nat) : List.zipWith g a (List.zipWith g a i) = List.zipWith g a i := by
  induction a generalizing i with
  | nil => rfl
  | cons d a ih => cases i with
    | nil => rfl
    | cons x i => simp only [List.zipWith_cons_cons, ih]; congr 1; unfold g; split <;> rfl

/-- Reading an operand through the broadcast of two operands is reading it directly. -/
private theorem zip_absorb (a b s i : List Nat) (h : bcRev a b = some s) :
    List.zipWith g a (List.zipWith g s i) = List.zipWith g a i ∧ List.zipWith g b (List.zipWith g s i) = List.zipWith g b i := by
  fun_induction bcRev a b generalizing s i with
  | case1 t => cases h; exact ⟨rfl, zip_idem _ _⟩
  | case2 s' _ => cases h; exact ⟨zip_idem _ _, rfl⟩
  | case3 s' b t ih =>
    cases hr : bcRev s' t with
    | none => rw [hr] at h; cases h
    | some u =>
      rw [hr] at h; cases h
      cases i with
      | nil => simp
      | cons x i =>
        have := ih u i hr
        simp only [List.zipWith_cons_cons, this.1, this.2]
        refine ⟨?_, ?_⟩ <;> congr 1 <;> unfold g <;> split <;> rfl
  | case4 s' b t hab ih =>
    cases hr : bcRev s' t with
    | none => rw [hr] at h; cases h
    | some u =>
      rw [hr] at h; cases h
      cases i with
      | nil => simp
      | cons x i =>
        have := ih u i hr
        simp only [List.zipWith_cons_cons, this.1, this.2]
        refine ⟨?_, ?_⟩
        · congr 1
        · congr 1; unfold g; split <;> rfl
  | case5 a s' t hab h1 ih =>
    cases hr : bcRev s' t with
    | none => rw [hr] at h; cases h
    | some u =>
      rw [hr] at h; cases h
      cases i with
      | nil => simp
      | cons x i =>
        have := ih u i hr
        simp only [List.zipWith_cons_cons, this.1, this.2]
        refine ⟨?_, ?_⟩
        · congr 1; unfold g; split <;> rfl
        · congr 1
  | case6 a s' b t _ _ _ => cases h

theorem bcGet_elementwise {α β γ : Type} (f : α → β → γ) (a : Tensor α) (b : Tensor β) (r : Tensor γ) (h : elementwise f a b = some r) (idx : List Nat) :
    bcGet r idx = f (bcGet a idx) (bcGet b idx) := by
  unfold elementwise bcShape at h
  cases hs : bcRev a.shape.reverse b.shape.reverse with
  | none => rw [hs] at h; cases h
  | some s =>
    rw [hs] at h
    cases h
    have := zip_absorb _ _ s idx.reverse hs
    have e : (fun d i => if d = 1 then 0 else i) = g := rfl
    unfold bcGet
    simp only [List.reverse_reverse, e]
    rw [this.1, this.2]

theorem elementwise_get {α β γ : Type} (f : α → β → γ) (a : Tensor α) (b : Tensor β) (r : Tensor γ) (h : elementwise f a b = some r) (idx : List Nat) :
    r.get idx = f (bcGet a idx) (bcGet b idx) := by
  unfold elementwise at h
  cases hs : bcShape a.shape b.shape with
  | none => rw [hs] at h; cases h
  | some s => rw [hs] at h; cases h; rfl

/-- The condition under which the arithmetic selects correctly: a hidden input is finite; a hidden fill value is finite or is made finite; a visible fill value is not changed. -/
def FillOk (kind : FillKind) (mask : Bool) (value x : FVal) : Prop :=
  if mask then x.isFin ∧ ((kind = .number ∨ kind = .castConstant) → ∀ n, value ≠ .inf n)
  else value.isFin ∨ ((kind = .number ∨ kind = .castConstant) ∧ value ≠ .nan)

/-- One element. -/
def fillElem (big : ℚ) (kind : FillKind) (mask : Bool) (value x : FVal) : FVal :=
  FVal.add (FVal.mul x (FVal.sub (.fin 1) (FVal.ofBool mask))) (FVal.mul (clampFill big kind value) (FVal.ofBool mask))

theorem fillElem_ok (big : ℚ) (kind : FillKind) (mask : Bool) (value x : FVal) (h : FillOk kind mask value x) : fillElem big kind mask value x = torchSelect mask value x := by
  unfold fillElem torchSelect
  cases mask with
  | true =>
    obtain ⟨h1, h2⟩ := h
    simp only [FVal.ofBool, if_true, FVal.sub, FVal.neg, FVal.add]
    have hc : clampFill big kind value = value := by
      unfold clampFill
      cases kind <;> cases value <;> first | rfl | exact absurd rfl (h2 (by simp) _)
    rw [hc]
    cases x with
    | nan => exact absurd h1 id
    | inf _ => exact absurd h1 id
    | fin x =>
      cases value with
      | nan => simp [FVal.mul, FVal.add]
      | inf n => cases n <;> simp [FVal.mul, FVal.add]
      | fin v => simp [FVal.mul, FVal.add]
  | false =>
    simp only [FillOk, Bool.false_eq_true, if_false] at h
    simp only [FVal.ofBool, Bool.false_eq_true, if_false, FVal.sub, FVal.neg, FVal.add]
    have hc : ∃ q, clampFill big kind value = .fin q := by
      unfold clampFill
      cases value with
      | fin q => exact ⟨q, by cases kind <;> rfl⟩
      | nan => rcases h with h | ⟨_, h⟩ <;> simp [FVal.isFin] at h
      | inf n =>
        rcases h with h | ⟨h | h, _⟩
        · simp [FVal.isFin] at h
        · subst h; exact ⟨_, rfl⟩
        · subst h; exact ⟨_, rfl⟩
    obtain ⟨q, hq⟩ := hc
    rw [hq]
    cases x with
    | nan => simp [FVal.mul, FVal.add]
    | inf n => cases n <;> simp [FVal.mul, FVal.add]
    | fin v => simp [FVal.mul, FVal.add]

/-- C65, except for infinite and NaN values that are hidden or clamped: every element of the result is the fill value where the mask is set and the input elsewhere. -/
theorem C65_masked_fill_partial (big : ℚ) (kind : FillKind) (x : Tensor FVal) (mask : Tensor Bool) (value r : Tensor FVal) (hr : convertMaskedFill big kind x mask value = some r)
    (idx : List Nat) (hok : FillOk kind (bcGet mask idx) (bcGet value idx) (bcGet x idx)) :
    r.get idx = torchSelect (bcGet mask idx) (bcGet value idx) (bcGet x idx) := by
  unfold convertMaskedFill at hr
  simp only [Option.bind_eq_bind, Option.bind_eq_some_iff] at hr
  obtain ⟨masked, h1, rev, h2, non, h3, h4⟩ := hr
  rw [elementwise_get _ _ _ _ h4, bcGet_elementwise _ _ _ _ h3, bcGet_elementwise _ _ _ _ h1, bcGet_elementwise _ _ _ _ h2]
  exact fillElem_ok big kind _ _ _ hok

/-- A mask of the shape of the input and a number: the conversion succeeds. -/
theorem C65_masked_fill_defined (big : ℚ) (x : Tensor FVal) (mask : Tensor Bool) (v : FVal) (hs : mask.shape = x.shape) (hne : x.shape ≠ []) :
    ∃ r, convertMaskedFill big .number x mask ⟨[1], fun _ => v⟩ = some r ∧ r.shape = x.shape := by
  have self : ∀ l : List Nat, bcRev l l = some l := by
    intro l
    induction l with
    | nil => rfl
    | cons a l ih => simp [bcRev, ih]
  have one : ∀ l : List Nat, l ≠ [] → bcRev [1] l = some l := by
    intro l hl
    cases l with
    | nil => exact absurd rfl hl
    | cons a l =>
      unfold bcRev
      by_cases h : 1 = a
      · simp [h, bcRev]
      · simp [h, bcRev]
  have h1 : bcShape [1] x.shape = some x.shape := by
    unfold bcShape
    rw [List.reverse_singleton, one _ (by simpa using hne)]
    simp
  have h2 : bcShape x.shape x.shape = some x.shape := by
    unfold bcShape
    rw [self]
    simp
  unfold convertMaskedFill
  simp only [elementwise, hs, h1, h2, Option.map_some, Option.bind_eq_bind, Option.bind_some]
  exact ⟨_, rfl, rfl⟩

/-- A fill with the number minus infinity is accepted; a finite element keeps its value, a masked one becomes the lowest finite number. -/
example : fillElem 100 .number false (.inf true) (.fin 7) = .fin 7 ∧ FillOk .number false (.inf true) (.fin 7) ∧ fillElem 100 .number true (.inf true) (.fin 7) = .fin (-100) := by
  refine ⟨by simp [fillElem, clampFill, FVal.ofBool, FVal.sub, FVal.neg, FVal.add, FVal.mul], Or.inr ⟨Or.inl rfl, by simp⟩,
    by simp [fillElem, clampFill, FVal.ofBool, FVal.sub, FVal.neg, FVal.add, FVal.mul]⟩

/-- C65 fails for an infinite input under the mask: the result is NaN instead of the fill value. -/
theorem C65_masked_infinity_false (big : ℚ) (kind : FillKind) : fillElem big kind true (.fin 0) (.inf true) = .nan ∧ torchSelect true (.fin 0) (.inf true) = .fin 0 := by
  cases kind <;> simp [fillElem, clampFill, FVal.ofBool, FVal.sub, FVal.neg, FVal.add, FVal.mul, torchSelect]

/-- C65 fails for an infinite fill value given as a tensor of the same type: every element outside the mask becomes NaN. -/
theorem C65_infinite_tensor_false (big x : ℚ) : fillElem big .sameType false (.inf true) (.fin x) = .nan ∧ torchSelect false (.inf true) (.fin x) = .fin x := by
  simp [fillElem, clampFill, FVal.ofBool, FVal.sub, FVal.neg, FVal.add, FVal.mul, torchSelect]

/-- C65 fails for an infinite number as fill value: the result is the largest finite number (the converter warns about it). -/
theorem C65_clamped_false (big x : ℚ) : fillElem big .number true (.inf true) (.fin x) = .fin (-big) ∧ torchSelect true (.inf true) (.fin x) = .inf true := by
  simp [fillElem, clampFill, FVal.ofBool, FVal.sub, FVal.neg, FVal.add, FVal.mul, torchSelect]

/-- The models of C65's counterexamples are those of the tensor-level conversion. -/
theorem fillElem_convert (big : ℚ) (kind : FillKind) (x : Tensor FVal) (mask : Tensor Bool) (value r : Tensor FVal) (hr : convertMaskedFill big kind x mask value = some r)
    (idx : List Nat) : r.get idx = fillElem big kind (bcGet mask idx) (bcGet value idx) (bcGet x idx) := by
  unfold convertMaskedFill at hr
  simp only [Option.bind_eq_bind, Option.bind_eq_some_iff] at hr
  obtain ⟨masked, h1, rev, h2, non, h3, h4⟩ := hr
  rw [elementwise_get _ _ _ _ h4, bcGet_elementwise _ _ _ _ h3, bcGet_elementwise _ _ _ _ h1, bcGet_elementwise _ _ _ _ h2]
  rfl

/-- C64 fails for the assignment to an infinite element: `x + (v - x)`, the arithmetic of the converted assignment, is NaN. -/
theorem C64_put_infinity_false (v : ℚ) : FVal.add (.inf false) (FVal.sub (.fin v) (.inf false)) = .nan := by
  simp [FVal.add, FVal.sub, FVal.neg]

end Verif.Props
