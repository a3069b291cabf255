import Verif.Model.TrtCompare
import Mathlib.Tactic.Positivity
import Mathlib.Tactic.Linarith
import Mathlib.Tactic.NormNum
import Mathlib.Tactic.FieldSimp

/-! C121: comparing an ONNX model with its TensorRT engine. -/

namespace Verif.Props
open Verif.Spec.TrtCompare Verif.Model.TrtCompare

/-- A single requested precision is switched on. -/
theorem C121_flags_partial (d : Nat) (fp16 int8 : Bool) (h : (fp16 && int8) = false) :
    (fp16 = true → enables (flags d fp16 int8) .fp16) ∧ (int8 = true → enables (flags d fp16 int8) .int8) := by
  cases fp16 <;> cases int8 <;> simp_all [flags, enables, Precision.bit]
  decide +kernel

/-- Asking for both gives an engine without half precision, whatever TensorRT starts with. -/
theorem C121_flags_false (d : Nat) : ¬ enables (flags d true true) .fp16 ∧ enables (flags d true true) .int8 := by
  simp [flags, enables, Precision.bit]
  decide +kernel

/-- The model that is run has the old outputs first, and then exactly the named tensors that some node computes. -/
theorem C121_outputs (needed orig : List String) (nodes : List (List String)) :
    orig <+: addOutputs needed orig nodes ∧ (∀ o, o ∈ addOutputs needed orig nodes ↔ o ∈ orig ∨ (o ∈ needed ∧ ∃ n ∈ nodes, o ∈ n)) ∧
    (orig.Nodup → nodes.flatten.Nodup → (addOutputs needed orig nodes).Nodup) := by
  refine ⟨⟨_, rfl⟩, ?_, ?_⟩
  · intro o
    unfold addOutputs
    simp only [List.mem_append, List.mem_filter, List.mem_flatten, Bool.and_eq_true, decide_eq_true_eq]
    constructor
    · rintro (h | ⟨⟨n, hn, ho⟩, h1, h2⟩)
      · exact Or.inl h
      · exact Or.inr ⟨h1, n, hn, ho⟩
    · rintro (h | ⟨h1, n, hn, ho⟩)
      · exact Or.inl h
      · by_cases h2 : o ∈ orig
        · exact Or.inl h2
        · exact Or.inr ⟨⟨n, hn, ho⟩, h1, h2⟩
  · intro h1 h2
    unfold addOutputs
    rw [List.nodup_append]
    refine ⟨h1, h2.filter _, ?_⟩
    intro a ha b hb hab
    subst hab
    simp only [List.mem_filter, Bool.and_eq_true, decide_eq_true_eq] at hb
    exact hb.2.2 ha

/-- The buffer of an input has the size of the data, if the batch is part of the shapes and no usual shape is given for an input of known shape. -/
theorem C121_buffer_partial (s : Shapes) (engine : List Int) (b : String) (sh : List Int) (hd : dataShape s engine b = some sh)
    (hs : (-1) ∉ engine → s.eval.lookup b = none → s.build.lookup b = none) : bufferSize s engine 1 b = volume sh := by
  unfold dataShape at hd
  unfold bufferSize
  cases he : s.eval.lookup b with
  | some v => rw [he] at hd; simp at hd; simp [hd]
  | none =>
    rw [he] at hd
    by_cases hm : (-1) ∈ engine
    · simp only [hm, if_true] at hd
      cases hb : s.build.lookup b with
      | none => rw [hb] at hd; simp at hd
      | some v => rw [hb] at hd; simp at hd; simp [hd]
    · simp only [hm, if_false, Option.some.injEq] at hd
      simp [hs hm he, hd]

/-- An output of unknown batch size that is not in the tables gets a buffer of negative size, although the shapes of the inputs are given as asked for. -/
theorem C121_output_buffer_false : bufferSize ⟨[("x", [1, 3], [2, 3], [4, 3])], [("x", [2, 3])]⟩ [-1, 10] 1 "y" = -10 ∧
    dataShape ⟨[("x", [1, 3], [2, 3], [4, 3])], [("x", [2, 3])]⟩ [-1, 3] "x" = some [2, 3] := by decide +kernel

/-- Values that agree within the tolerance are never reported as different. -/
theorem C121_close (onnx trt : List ℝ) (h : AllClose onnx trt) : Aligned onnx trt := Or.inl h

theorem dot_scale (c : ℝ) (x : List ℝ) : dot x (x.map fun v => c * v) = c * dot x x := by
  unfold dot
  induction x with
  | nil => simp
  | cons a t ih => simp only [List.map_cons, List.zipWith_cons_cons, List.sum_cons, ih]; ring

theorem dot_scale2 (c : ℝ) (x : List ℝ) : dot (x.map fun v => c * v) (x.map fun v => c * v) = c ^ 2 * dot x x := by
  unfold dot
  induction x with
  | nil => simp
  | cons a t ih => simp only [List.map_cons, List.zipWith_cons_cons, List.sum_cons, ih]; ring

theorem dot_self_nonneg (x : List ℝ) : 0 ≤ dot x x := by
  unfold dot
  induction x with
  | nil => simp
  | cons a t ih => simp only [List.zipWith_cons_cons, List.sum_cons]; have := mul_self_nonneg a; linarith

theorem dot_self_pos (x : List ℝ) (h : ∃ v ∈ x, v ≠ 0) : 0 < dot x x := by
  induction x with
  | nil => simp at h
  | cons a t ih =>
    have e : dot (a :: t) (a :: t) = a * a + dot t t := by simp [dot]
    rw [e]
    by_cases ha : a = 0
    · obtain ⟨v, hv, hv0⟩ := h
      rcases List.mem_cons.mp hv with h1 | h1
      · exact absurd (h1.trans ha) hv0
      · have := ih ⟨v, h1, hv0⟩
        have := mul_self_nonneg a
        linarith
    · have h1 : 0 < a * a := mul_self_pos.mpr ha
      have := dot_self_nonneg t
      linarith

/-- The verdict does not see the scale: every multiple of a tensor that is not zero is reported as a match, however far away it is. -/
theorem C121_scale_false (x : List ℝ) (c : ℝ) (hx : ∃ v ∈ x, v ≠ 0) (hc : 0 < c) : Aligned x (x.map fun v => c * v) := by
  right
  have hp := dot_self_pos x hx
  have hs : Real.sqrt (dot x x) * Real.sqrt (dot x x) = dot x x := Real.mul_self_sqrt hp.le
  have : norm x * norm (x.map fun v => c * v) = c * dot x x := by
    unfold norm
    rw [dot_scale2, Real.sqrt_mul (by positivity), Real.sqrt_sq hc.le]
    calc Real.sqrt (dot x x) * (c * Real.sqrt (dot x x)) = c * (Real.sqrt (dot x x) * Real.sqrt (dot x x)) := by ring
      _ = _ := by rw [hs]
  rw [this, dot_scale, div_self (by positivity)]
  norm_num

/-- A quantized tensor that is off by a factor of a thousand: a match, and not close. -/
theorem C121_verdict_false : Aligned [1, 2] [1000, 2000] ∧ ¬ AllClose [1, 2] [1000, 2000] := by
  constructor
  · have := C121_scale_false [1, 2] 1000 ⟨1, by simp, by norm_num⟩ (by norm_num)
    norm_num at this
    exact this
  · intro h
    cases h with
    | cons h _ => norm_num [abs_of_neg] at h

/-- A tensor reported as different really differs. -/
theorem C121_mismatch (onnx trt : List ℝ) (h : ¬ Aligned onnx trt) : ¬ AllClose onnx trt := fun hc => h (Or.inl hc)

/-- The opposite sign and orthogonal tensors are reported as different unless they are close. -/
theorem C121_opposite (onnx trt : List ℝ) (h : dot onnx trt ≤ 0) (hn : ¬ AllClose onnx trt) : ¬ Aligned onnx trt := by
  rintro (h1 | h1)
  · exact hn h1
  · have : dot onnx trt / (norm onnx * norm trt) ≤ 0 := div_nonpos_of_nonpos_of_nonneg h (mul_nonneg (Real.sqrt_nonneg _) (Real.sqrt_nonneg _))
    linarith

/-- No comparison is ever made: the function raises a TypeError for every model. -/
theorem C121_raises_false (fn ext : String) : Verif.Model.TrtCompare.compare fn ext = .typeError := by simp [Verif.Model.TrtCompare.compare, course, call]

/-- With the missing argument supplied, ONNX Runtime is given the serialized engine, which has overwritten the model; different paths would do. -/
theorem C121_overwritten_false (fn ext : String) : course 6 (newPaths fn ext) = .loaded 2 ∧ ∀ p q, p ≠ q → course 6 (p, q) = .loaded 1 := by
  refine ⟨by simp [course, call, newPaths], ?_⟩
  intro p q h
  simp [course, call, h]

example : addOutputs ["a", "c"] ["c"] [["a", "b"], ["c"]] = ["c", "a"] := by decide +kernel
example : (∃ v ∈ ([1, 2] : List ℝ), v ≠ 0) ∧ dot [1, 0] [0, 1] ≤ 0 := ⟨⟨1, by simp, by norm_num⟩, by norm_num [dot]⟩
example : bufferSize ⟨[("x", [1, 3], [2, 3], [4, 3])], []⟩ [-1, 3] 1 "x" = 6 := by decide +kernel

end Verif.Props
