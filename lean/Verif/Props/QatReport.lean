import Verif.Model.QatReport
import Verif.Props.ErrorAnalysis
/-!
C129: the error report of a quantizer.
-/

namespace Verif.Props
open Verif.Spec.ErrorAnalysis Verif.Model.ErrorAnalysis Verif.Model.QatReport

variable {S X : Type}

theorem qat_prep (ms : List (Node S)) : mode false (disable (addHooks ms)) = ms.map prep := by
  unfold disable addHooks mode
  simp only [List.map_map]
  apply List.map_congr_left
  intro m _
  unfold prep
  by_cases h : m.kind = .fakeQuant <;> simp [h]

theorem qat_sorted (ls : List Line) : (sorted ls).Perm ls ∧ (sorted ls).Pairwise fun a b => a.2 ≤ b.2 := by
  refine ⟨List.mergeSort_perm ls _, ?_⟩
  have := List.pairwise_mergeSort (le := fun a b : Line => decide (a.2 ≤ b.2)) (by
    intro a b c h1 h2
    simp only [decide_eq_true_eq] at *
    exact le_trans h1 h2) (by
    intro a b
    simp only [Bool.or_eq_true, decide_eq_true_eq]
    exact le_total _ _) ls
  simpa [sorted] using this

/-- The lines of all fake-quantizers that were called, before selection. -/
def qatLines (fq : Node S → X → X) (sqnr : X → X → ℚ) (threshold : ℚ) (ms : List (Node S)) (seen : List (Option X)) : List Line :=
  ((layerLines fq sqnr (ms.map measured) seen).reverse).filter fun l => decide (l.2 ≤ threshold)

theorem qatAnalysis_run (fwd : Fwd X) (upd : S → X → S) (fq : Node S → X → X) (sqnr : X → X → ℚ) (scales : String → ℕ) (threshold : ℚ) (ms : List (Node S)) (x : X) (seen : List (Option X))
    (hq : ∃ m ∈ ms, m.kind = .fakeQuant) (hf : fwd (floatFlags ms) x = some seen) :
    qatAnalysis fwd upd fq sqnr scales threshold true ms x =
      if (sorted ((qatLines fq sqnr threshold ms seen).filter isWeight) ++ sorted ((qatLines fq sqnr threshold ms seen).filter fun l => !isWeight l)).all (fun l => decide (scales l.1 = 1)) then
        (.report (sorted ((qatLines fq sqnr threshold ms seen).filter isWeight)) (sorted ((qatLines fq sqnr threshold ms seen).filter fun l => !isWeight l)), mode true ms)
      else (.error, ms.map measured) := by
  obtain ⟨h1, h2⟩ := layer_restore ms
  have hne : (ms.filter fun m => decide (m.kind = .fakeQuant)).isEmpty = false := by
    obtain ⟨m, hm, hk⟩ := hq
    rw [List.isEmpty_eq_false_iff]
    exact List.ne_nil_of_mem (List.mem_filter.mpr ⟨hm, by simpa using hk⟩)
  unfold qatAnalysis
  rw [hne]
  simp only [Bool.false_eq_true, if_false, if_true]
  rw [qat_prep, forward_quiet _ _ _ _ (prep_quiet ms), prep_flags, hf]
  simp only [Option.map_some]
  rw [h1, h2]
  have : mode true (mode false ms) = mode true ms := by
    unfold mode
    rw [List.map_map]
    rfl
  rw [this]
  rfl

/-- **C129**.  Whenever the model runs and is quantized per tensor where it is reported, the report lists exactly the fake-quantizers that were called and whose signal-to-noise ratio, of the input they get in
the float model against that input quantized, is at most the threshold: weights and activations apart, worst first. -/
theorem C129_report_partial (fwd : Fwd X) (upd : S → X → S) (fq : Node S → X → X) (sqnr : X → X → ℚ) (scales : String → ℕ) (threshold : ℚ) (ms : List (Node S)) (x : X) (seen : List (Option X))
    (hq : ∃ m ∈ ms, m.kind = .fakeQuant) (hf : fwd (floatFlags ms) x = some seen) (h1 : ∀ p, scales p = 1) :
    ∃ w a : List Line, (qatAnalysis fwd upd fq sqnr scales threshold true ms x).1 = .report w a ∧ (w.Pairwise fun l k => l.2 ≤ k.2) ∧ (a.Pairwise fun l k => l.2 ≤ k.2) ∧
      (∀ l : Line, (l ∈ w ↔ l.1.endsWith ".weight_fake_quant" = true ∧ l.2 ≤ threshold ∧ ∃ (i : ℕ) (m : Node S) (y : X), ms[i]? = some m ∧ seen[i]? = some (some y) ∧ m.kind = .fakeQuant ∧
        l = (m.path, sqnr y (if m.fake then fq (measured m) y else y))) ∧
       (l ∈ a ↔ l.1.endsWith ".weight_fake_quant" = false ∧ l.2 ≤ threshold ∧ ∃ (i : ℕ) (m : Node S) (y : X), ms[i]? = some m ∧ seen[i]? = some (some y) ∧ m.kind = .fakeQuant ∧
        l = (m.path, sqnr y (if m.fake then fq (measured m) y else y)))) := by
  rw [qatAnalysis_run fwd upd fq sqnr scales threshold ms x seen hq hf, if_pos (by simp [h1])]
  refine ⟨_, _, rfl, (qat_sorted _).2, (qat_sorted _).2, fun l => ?_⟩
  have hl : l ∈ qatLines fq sqnr threshold ms seen ↔ l.2 ≤ threshold ∧ ∃ (i : ℕ) (m : Node S) (y : X), ms[i]? = some m ∧ seen[i]? = some (some y) ∧ m.kind = .fakeQuant ∧
        l = (m.path, sqnr y (if m.fake then fq (measured m) y else y)) := by
    unfold qatLines
    rw [List.mem_filter, List.mem_reverse, layerLines_mem, decide_eq_true_eq, and_comm]
    apply and_congr_right
    intro _
    constructor
    · rintro ⟨i, m, y, h1, h2, h3, h4⟩
      rw [List.getElem?_map, Option.map_eq_some_iff] at h1
      obtain ⟨k, hk, rfl⟩ := h1
      have hkk : k.kind = .fakeQuant := by
        unfold measured at h3
        by_cases h : k.kind = .fakeQuant
        · exact h
        · rw [if_neg h] at h3
          exact h3
      refine ⟨i, k, y, hk, h2, hkk, ?_⟩
      rw [h4]
      unfold measured
      simp [hkk]
    · rintro ⟨i, m, y, h1, h2, h3, h4⟩
      refine ⟨i, measured m, y, by rw [List.getElem?_map, h1]; rfl, h2, ?_, ?_⟩
      · unfold measured
        rw [if_pos h3]
        exact h3
      · rw [h4]
        unfold measured
        simp [h3]
  constructor
  · rw [(qat_sorted _).1.mem_iff, List.mem_filter, hl, and_comm]
    rfl
  · rw [(qat_sorted _).1.mem_iff, List.mem_filter, hl, and_comm]
    simp [isWeight]

/-- **C129**.  A model that is in training mode throughout is left exactly as it was: switches, statistics and hooks. -/
theorem C129_unchanged_partial (fwd : Fwd X) (upd : S → X → S) (fq : Node S → X → X) (sqnr : X → X → ℚ) (scales : String → ℕ) (threshold : ℚ) (ms : List (Node S)) (x : X) (seen : List (Option X))
    (hf : fwd (floatFlags ms) x = some seen) (h1 : ∀ p, scales p = 1) (ht : ∀ m ∈ ms, m.training = true) :
    (qatAnalysis fwd upd fq sqnr scales threshold true ms x).2 = ms := by
  by_cases hq : ∃ m ∈ ms, m.kind = .fakeQuant
  · rw [qatAnalysis_run fwd upd fq sqnr scales threshold ms x seen hq hf, if_pos (by simp [h1])]
    simp only
    unfold mode
    conv_rhs => rw [← List.map_id ms]
    apply List.map_congr_left
    intro m hm
    rw [← ht m hm]
    rfl
  · have : (ms.filter fun m => decide (m.kind = .fakeQuant)).isEmpty = true := by
      rw [List.isEmpty_iff, List.filter_eq_nil_iff]
      intro m hm hk
      exact hq ⟨m, hm, by simpa using hk⟩
    unfold qatAnalysis
    rw [if_pos this]

/-- A network of a convolution and an activation, in training or evaluation mode. -/
def qatNet (training : Bool) : List (Node ℕ) :=
  [⟨"", .plain, training, false, false, 0, 0⟩, ⟨"conv.weight_fake_quant", .fakeQuant, training, true, true, 7, 0⟩, ⟨"act", .fakeQuant, training, true, true, 9, 0⟩]

example : (∃ m ∈ qatNet true, m.kind = .fakeQuant) ∧ (runAll (floatFlags (qatNet true)) 3).isSome ∧ ∀ m ∈ qatNet true, m.training = true := by decide +kernel

/-- A model in evaluation mode comes back in training mode, whenever the analysis succeeds. -/
theorem C129_mode_false (fwd : Fwd X) (upd : S → X → S) (fq : Node S → X → X) (sqnr : X → X → ℚ) (scales : String → ℕ) (threshold : ℚ) (ms : List (Node S)) (x : X) (seen : List (Option X))
    (hq : ∃ m ∈ ms, m.kind = .fakeQuant) (hf : fwd (floatFlags ms) x = some seen) (h1 : ∀ p, scales p = 1) :
    ∀ m ∈ (qatAnalysis fwd upd fq sqnr scales threshold true ms x).2, m.training = true := by
  rw [qatAnalysis_run fwd upd fq sqnr scales threshold ms x seen hq hf, if_pos (by simp [h1])]
  intro m hm
  obtain ⟨k, _, rfl⟩ := List.mem_map.mp hm
  rfl

example : (∃ m ∈ qatNet false, m.kind = .fakeQuant) ∧ (runAll (floatFlags (qatNet false)) 3).isSome ∧ ∀ m ∈ qatNet false, m.training = false := by decide +kernel

/-- If a reported weight is quantized per channel there is no report but an error, and the model stays in evaluation mode with its observers off. -/
theorem C129_per_channel_false : ∃ ms, qatAnalysis runAll (fun s _ => s + 1) (fun _ x => x + 1) (fun _ _ => 10) (fun p => if p = "act" then 1 else 8) 20 true (qatNet true) 3 = (.error, ms) ∧
    ∀ m ∈ ms, m.training = false ∧ m.observer = false := by
  refine ⟨(qatNet true).map measured, ?_, by decide +kernel⟩
  rw [qatAnalysis_run runAll _ _ _ _ _ _ _ _ (by decide +kernel) rfl, if_neg]
  intro h
  rw [List.all_append, Bool.and_eq_true, List.all_eq_true] at h
  have := h.1 ("conv.weight_fake_quant", 10) (by rw [(qat_sorted _).1.mem_iff]; decide +kernel)
  simp at this

/-- An input of an unsupported type is only noticed when fake quantization and observers have been switched off, and they stay off. -/
theorem C129_input_false : ∃ ms, qatAnalysis runAll (fun s _ => s + 1) (fun _ x => x + 1) (fun _ _ => 10) (fun _ => 1) 20 false (qatNet true) 3 = (.error, ms) ∧
    ∀ m ∈ ms, m.kind = .fakeQuant → m.fake = false ∧ m.observer = false ∧ m.hooks = 1 := by
  refine ⟨disable (addHooks (qatNet true)), ?_, by decide +kernel⟩
  rfl

end Verif.Props
