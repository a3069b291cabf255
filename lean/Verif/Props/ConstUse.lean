import Verif.Model.ConstUse
import Mathlib.Data.List.Nodup

/-!
C153: every converted operator reads the constant its operator reads.
-/

namespace Verif.Props

open Verif.Spec.ConstUse Verif.Model.ConstUse

namespace ConstUse

theorem pick_normal (l : List Int) (i : Int) : ∀ v, pick l i = some v → gather l (i + if i < 0 then (l.length : Int) else 0) = some v := by
  intro v h
  unfold pick at h
  unfold gather
  by_cases h0 : 0 ≤ i
  · rw [if_pos h0] at h
    rw [if_neg (by omega : ¬ i < 0), if_pos (by omega)]
    simpa using h
  · rw [if_neg h0] at h
    by_cases h1 : (l.length : Int) + i < 0
    · rw [if_pos h1] at h; cases h
    · rw [if_neg h1] at h
      rw [if_pos (by omega : i < 0), if_pos (by omega)]
      rw [show i + (l.length : Int) = (l.length : Int) + i by omega]
      exact h

theorem gather_normal (l : List Int) (i : Int) (n : Int) : ∀ v, gather l i = some v → gather l (i + if i < 0 then n else 0) = some v := by
  intro v h
  unfold gather at h ⊢
  by_cases h0 : 0 ≤ i
  · rw [if_pos h0] at h
    rw [if_neg (by omega : ¬ i < 0), if_pos (by omega)]
    simpa using h
  · rw [if_neg h0] at h; cases h

theorem mapM_map_some {α β γ : Type} (f : α → Option γ) (g : β → Option γ) (h : α → β) (l : List α) (hfg : ∀ a ∈ l, ∀ v, f a = some v → g (h a) = some v) :
    ∀ r, l.mapM f = some r → (l.map h).mapM g = some r := by
  induction l with
  | nil => intro r hr; simpa using hr
  | cons a l ih =>
    intro r hr
    rw [List.mapM_cons] at hr
    rw [List.map_cons, List.mapM_cons]
    simp only [Option.bind_eq_bind, Option.bind_eq_some_iff, Option.pure_def] at hr ⊢
    obtain ⟨v, hv, w, hw, hr⟩ := hr
    exact ⟨v, hfg a (by simp) v hv, w, ih (fun b hb => hfg b (by simp [hb])) w hw, hr⟩

/-- A prepared operand is right for its operator. -/
theorem prepare_right (u : Use) (c x r : Tensor) (hf : Fits u x) (h : torchRun u.op c x = some r) : tflRun (emit u c) (prepare u c) x = some r := by
  obtain ⟨hd, hl⟩ := hf
  cases hop : u.op with
  | add =>
    simp only [torchRun, hop] at h
    simp only [tflRun, emit, prepare, hop]
    by_cases hlen : x.vals.length = c.vals.length
    · rw [if_pos hlen] at h
      rw [hd] at h
      by_cases hp : promote u.dtype c.dtype = c.dtype
      · rw [if_pos hp, if_pos ⟨hp.symm, hlen⟩]; exact h
      · rw [if_neg hp, if_pos ⟨rfl, hlen⟩]; exact h
    · rw [if_neg hlen] at h; cases h
  | index =>
    simp only [torchRun, hop] at h
    simp only [tflRun, emit, prepare, hop, normalize]
    by_cases hi : isIndexType c.dtype = true
    · rw [if_pos hi] at h
      rw [if_pos (by rfl)]
      simp only [Option.map_eq_some_iff] at h ⊢
      obtain ⟨v, hv, hr⟩ := h
      refine ⟨v, mapM_map_some (pick x.vals) (gather x.vals) _ c.vals (fun i _ w hw => ?_) v hv, hr⟩
      rw [← hl]
      exact pick_normal x.vals i w hw
    · rw [if_neg hi] at h; cases h
  | select =>
    simp only [torchRun, hop] at h
    simp only [tflRun, emit, prepare, hop, normalize]
    by_cases hi : isIndexType c.dtype = true
    · rw [if_pos hi] at h
      rw [if_pos (by rfl)]
      simp only [Option.map_eq_some_iff] at h ⊢
      obtain ⟨v, hv, hr⟩ := h
      exact ⟨v, mapM_map_some (gather x.vals) (gather x.vals) _ c.vals (fun i _ w hw => gather_normal x.vals i _ w hw) v hv, hr⟩
    · rw [if_neg hi] at h; cases h

/-- Two operators that can share a constant: both add and give the same type, or both take elements, from as many, or at indices that are not negative. -/
def Agree (c : Tensor) (u v : Use) : Prop :=
  (u.op = .add ∧ v.op = .add ∧ promote u.dtype c.dtype = promote v.dtype c.dtype)
  ∨ (u.op ≠ .add ∧ v.op ≠ .add ∧ (u.len = v.len ∨ ∀ i ∈ c.vals, 0 ≤ i))

instance (c : Tensor) (u v : Use) : Decidable (Agree c u v) := by unfold Agree; infer_instance

theorem normalize_congr (c : Tensor) (n m : Nat) (h : n = m ∨ ∀ i ∈ c.vals, 0 ≤ i) : normalize n c = normalize m c := by
  rcases h with rfl | h
  · rfl
  · unfold normalize
    congr 1
    apply List.map_congr_left
    intro i hi
    have := h i hi
    rw [if_neg (by omega), if_neg (by omega)]

theorem prepare_congr (c : Tensor) (u v : Use) (h : Agree c u v) : prepare u c = prepare v c := by
  rcases h with ⟨hu, hv, hp⟩ | ⟨hu, hv, hp⟩
  · simp only [prepare, hu, hv, hp]
  · have hn := normalize_congr c u.len v.len hp
    cases hou : u.op <;> cases hov : v.op <;> simp_all [prepare]

/-- What the graph holds was prepared for some operator. -/
theorem convert_operand (consts : String → Tensor) (all : List Use) (hag : ∀ u ∈ all, ∀ v ∈ all, u.const = v.const → Agree (consts u.const) u v) :
    ∀ (us : List Use) (s : Store), (∀ u ∈ us, u ∈ all) → (∀ n t, s.lookup n = some t → ∃ u ∈ all, u.const = n ∧ t = prepare u (consts n)) →
    convert consts s us = us.map (fun u => (emit u (consts u.const), prepare u (consts u.const))) := by
  intro us
  induction us with
  | nil => intro s _ _; rfl
  | cons u r ih =>
    intro s hall hs
    have hu := hall u (by simp)
    cases hlk : s.lookup u.const with
    | some t =>
      obtain ⟨v, hv, hn, ht⟩ := hs _ _ hlk
      have hp : t = prepare u (consts u.const) := by
        rw [ht]
        exact prepare_congr _ v u (by
          have := hag v hv u hu hn
          rwa [hn] at this)
      simp only [convert, operand, hlk, List.map_cons]
      rw [hp, ih s (fun w hw => hall w (by simp [hw])) hs]
    | none =>
      simp only [convert, operand, hlk, List.map_cons]
      rw [ih _ (fun w hw => hall w (by simp [hw]))]
      intro n t hnt
      rw [List.lookup_cons] at hnt
      by_cases hn : n == u.const
      · rw [hn] at hnt
        simp only [Option.some.injEq] at hnt
        have : n = u.const := by simpa using hn
        exact ⟨u, hu, this.symm, by rw [← hnt, this]⟩
      · rw [Bool.not_eq_true] at hn
        rw [hn] at hnt
        exact hs n t hnt

end ConstUse

open ConstUse

/-- **C153 (restricted).** If operators that read the same constant can share it (`Agree`), every converted operator computes, for all other operands, what the model's operator computes. -/
theorem C153_operands_partial (consts : String → Tensor) (us : List Use)
    (h : ∀ u ∈ us, ∀ v ∈ us, u.const = v.const →
      (u.op = .add ∧ v.op = .add ∧ promote u.dtype (consts u.const).dtype = promote v.dtype (consts u.const).dtype)
      ∨ (u.op ≠ .add ∧ v.op ≠ .add ∧ (u.len = v.len ∨ ∀ i ∈ (consts u.const).vals, 0 ≤ i))) :
    Right consts us (convert consts [] us) := by
  have hc := convert_operand consts us h us [] (fun _ hu => hu) (fun n t hnt => by simp at hnt)
  rw [hc]
  refine ⟨by simp, fun k u o x r hu ho hf hr => ?_⟩
  rw [List.getElem?_map, hu] at ho
  simp only [Option.map_some, Option.some.injEq] at ho
  subst ho
  exact prepare_right u _ x r hf hr

/-- The hypothesis holds for a model with a constant added to tensors of two types and indices used twice; the operators compute something. -/
example : (∀ u ∈ [Use.mk .add "b" .f32 2, Use.mk .index "i" .f32 3, Use.mk .select "j" .f32 3, Use.mk .index "i" .i64 3],
      ∀ v ∈ [Use.mk .add "b" .f32 2, Use.mk .index "i" .f32 3, Use.mk .select "j" .f32 3, Use.mk .index "i" .i64 3], u.const = v.const →
        Agree ((fun n => if n = "b" then Tensor.mk .i64 [1, 2] else if n = "i" then ⟨.i64, [-1, 0]⟩ else ⟨.i64, [1]⟩) u.const) u v)
    ∧ torchRun .index ⟨.i64, [-1, 0]⟩ ⟨.f32, [5, 6, 7]⟩ = some ⟨.f32, [7, 5]⟩
    ∧ Fits (Use.mk .index "i" .f32 3) ⟨.f32, [5, 6, 7]⟩ := by
  refine ⟨by decide +kernel, by decide +kernel, rfl, rfl⟩

/-- **C153 (constants used once).** In a model in which no two operators read the same constant, every converted operator is right. -/
theorem C153_once (consts : String → Tensor) (us : List Use) (h : (us.map Use.const).Nodup) : Right consts us (convert consts [] us) := by
  refine C153_operands_partial consts us (fun u hu v hv huv => ?_)
  have : u = v := List.inj_on_of_nodup_map h hu hv huv
  subst this
  cases hop : u.op with
  | add => exact Or.inl ⟨rfl, rfl, rfl⟩
  | index => exact Or.inr ⟨by simp, by simp, Or.inl rfl⟩
  | select => exact Or.inr ⟨by simp, by simp, Or.inl rfl⟩

example : ([Use.mk .add "b" .f32 2, Use.mk .index "i" .f32 3].map Use.const).Nodup := by decide

/-- **C153 fails for indices counted from the end.** Indices `[-1]` that take the last of two elements, and elsewhere the last of three: the second operator takes the second of three. -/
theorem C153_index_false : ∃ (consts : String → Tensor) (us : List Use) (u : Use) (o : TflOp × Tensor) (x r r' : Tensor),
    us[1]? = some u ∧ (convert consts [] us)[1]? = some o ∧ Fits u x ∧ torchRun u.op (consts u.const) x = some r ∧ tflRun o.1 o.2 x = some r' ∧ r ≠ r' :=
  ⟨fun _ => ⟨.i64, [-1]⟩, [⟨.index, "i", .f32, 2⟩, ⟨.index, "i", .f32, 3⟩], ⟨.index, "i", .f32, 3⟩, (.gather, ⟨.i32, [1]⟩), ⟨.f32, [5, 6, 7]⟩, ⟨.f32, [7]⟩, ⟨.f32, [6]⟩,
    by decide, by decide, ⟨rfl, rfl⟩, by decide, by decide, by decide⟩

/-- **C153 fails for a constant added to tensors of two types.** After an addition of whole numbers the constant is in the graph with their type, and the addition to a tensor of floating-point numbers reads it like this: no valid operator. -/
theorem C153_types_false : ∃ (consts : String → Tensor) (us : List Use) (u : Use) (o : TflOp × Tensor) (x r : Tensor),
    us[1]? = some u ∧ (convert consts [] us)[1]? = some o ∧ Fits u x ∧ torchRun u.op (consts u.const) x = some r ∧ tflRun o.1 o.2 x = none :=
  ⟨fun _ => ⟨.i64, [1]⟩, [⟨.add, "b", .i64, 1⟩, ⟨.add, "b", .f32, 1⟩], ⟨.add, "b", .f32, 1⟩, (.add .f32, ⟨.i64, [1]⟩), ⟨.f32, [5]⟩, ⟨.f32, [6]⟩,
    by decide, by decide, ⟨rfl, rfl⟩, by decide, by decide⟩

/-- **C153 fails for indices that are also used in arithmetic.** The indices are in the graph with 32 bits, the other operand has 64. -/
theorem C153_arithmetic_false : ∃ (consts : String → Tensor) (us : List Use) (u : Use) (o : TflOp × Tensor) (x r : Tensor),
    us[1]? = some u ∧ (convert consts [] us)[1]? = some o ∧ Fits u x ∧ torchRun u.op (consts u.const) x = some r ∧ tflRun o.1 o.2 x = none :=
  ⟨fun _ => ⟨.i64, [1]⟩, [⟨.select, "i", .f32, 2⟩, ⟨.add, "i", .i64, 1⟩], ⟨.add, "i", .i64, 1⟩, (.add .i64, ⟨.i32, [1]⟩), ⟨.i64, [5]⟩, ⟨.i64, [6]⟩,
    by decide, by decide, ⟨rfl, rfl⟩, by decide, by decide⟩

end Verif.Props
