import Verif.Model.ErrorAnalysis
import Mathlib.Data.List.Sort
import Mathlib.Tactic.Linarith

/-!
C100: error analysis reports the worst layers and leaves the model as it found it.
-/

namespace Verif.Props
open Verif.Spec.ErrorAnalysis Verif.Model.ErrorAnalysis

variable {S X : Type}

/-- Modules in evaluation mode without observers keep their statistics. -/
theorem observe_quiet (upd : S → X → S) : ∀ (ms : List (Node S)) (xs : List (Option X)), ms.length ≤ xs.length →
    (∀ m ∈ ms, m.training = false ∧ (m.kind = .fakeQuant → m.observer = false)) → List.zipWith (observe upd) ms xs = ms
  | [], xs, _, _ => by simp
  | m :: ms, [], h, _ => by simp at h
  | m :: ms, x :: xs, h, hq => by
    rw [List.zipWith_cons_cons, observe_quiet upd ms xs (by simpa using h) fun k hk => hq k (by simp [hk])]
    congr 1
    obtain ⟨h1, h2⟩ := hq m (by simp)
    unfold observe
    cases x with
    | none => rfl
    | some x =>
      simp only
      rw [if_neg]
      rintro (⟨_, h⟩ | ⟨hk, h⟩)
      · rw [h1] at h
        exact absurd h (by simp)
      · rw [h2 hk] at h
        exact absurd h (by simp)

theorem forward_quiet (fwd : Fwd X) (upd : S → X → S) (ms : List (Node S)) (x : X)
    (hq : ∀ m ∈ ms, m.training = false ∧ (m.kind = .fakeQuant → m.observer = false)) :
    forward fwd upd ms x = (fwd (ms.map fun m => (m.training, m.fake)) x).map fun r => (ms, r) := by
  unfold forward
  cases fwd (ms.map fun m => (m.training, m.fake)) x with
  | none => rfl
  | some r =>
    simp only [Option.map_some]
    rw [observe_quiet upd ms _ (by simp) hq]

/-- One module after the preparation. -/
def prep (m : Node S) : Node S := if m.kind = .fakeQuant then { m with training := false, hooks := m.hooks + 1, fake := false, observer := false } else { m with training := false }

theorem prep_eq (ms : List (Node S)) : disable (addHooks (mode false ms)) = ms.map prep := by
  unfold disable addHooks mode
  simp only [List.map_map]
  apply List.map_congr_left
  intro m _
  unfold prep
  by_cases h : m.kind = .fakeQuant <;> simp [h]

theorem prep_quiet (ms : List (Node S)) : ∀ m ∈ ms.map prep, m.training = false ∧ (m.kind = .fakeQuant → m.observer = false) := by
  intro m hm
  obtain ⟨k, _, rfl⟩ := List.mem_map.1 hm
  unfold prep
  by_cases h : k.kind = .fakeQuant <;> simp [h]

theorem zipWith_self_map {α β γ : Type} (f : α → β → γ) (g : α → β) : ∀ l : List α, List.zipWith f l (l.map g) = l.map fun a => f a (g a)
  | [] => rfl
  | a :: l => by simp [zipWith_self_map f g l]

/-- The flags a run sees: all in evaluation mode, fake quantizers as given. -/
def floatFlags (ms : List (Node S)) : List (Bool × Bool) := ms.map fun m => (false, if m.kind = .fakeQuant then false else m.fake)

/-- The flags of the model in evaluation mode. -/
def evalFlags (ms : List (Node S)) : List (Bool × Bool) := ms.map fun m => (false, m.fake)

theorem prep_flags (ms : List (Node S)) : (ms.map prep).map (fun m => (m.training, m.fake)) = floatFlags ms := by
  unfold floatFlags
  rw [List.map_map]
  apply List.map_congr_left
  intro m _
  unfold prep
  by_cases h : m.kind = .fakeQuant <;> simp [h]

/-- All modules are in the mode of the model. -/
def SameMode (ms : List (Node S)) : Prop := ∀ m ∈ ms, m.training = ((ms.head?.map fun m => m.training).getD false)

theorem mode_back {ms : List (Node S)} (h : SameMode ms) :
    (if (ms.head?.map fun m => m.training).getD false then mode true (mode false ms) else mode false ms) = ms := by
  unfold SameMode at h
  generalize (ms.head?.map fun m => m.training).getD false = b at h
  have key : ∀ b', b' = b → ms.map (fun m => { m with training := b' }) = ms := by
    intro b' hb
    conv_rhs => rw [← List.map_id ms]
    apply List.map_congr_left
    intro m hm
    rw [hb, ← h m hm]
    rfl
  cases b with
  | true =>
    rw [if_pos rfl]
    unfold mode
    rw [List.map_map]
    exact key true rfl
  | false =>
    rw [if_neg (by simp)]
    exact key false rfl

/-- One module after the measurement of `layer_error_analysis`. -/
def measured (m : Node S) : Node S := if m.kind = .fakeQuant then { m with training := false, observer := false } else { m with training := false }

theorem layer_restore (ms : List (Node S)) : restoreFake ms (removeHooks (ms.map prep)) = ms.map measured ∧ restoreObserver ms (ms.map measured) = mode false ms := by
  constructor
  · unfold restoreFake removeHooks
    rw [List.map_map, zipWith_self_map]
    apply List.map_congr_left
    intro m _
    unfold prep measured
    by_cases h : m.kind = .fakeQuant <;> simp [h]
  · unfold restoreObserver mode
    rw [zipWith_self_map]
    apply List.map_congr_left
    intro m _
    unfold measured
    by_cases h : m.kind = .fakeQuant <;> simp [h]

theorem layerAnalysis_ok (fwd : Fwd X) (upd : S → X → S) (fq : Node S → X → X) (metric : X → X → ℚ) (n : ℕ) (ms : List (Node S)) (x : X) (seen : List (Option X))
    (hf : fwd (floatFlags ms) x = some seen) :
    layerAnalysis fwd upd fq metric n ms x =
      (.report (worst n ((layerLines fq metric (ms.map measured) seen).reverse.filter isWeight)) (worst n ((layerLines fq metric (ms.map measured) seen).reverse.filter fun l => !isWeight l)),
        if (ms.head?.map fun m => m.training).getD false then mode true (mode false ms) else mode false ms) := by
  obtain ⟨h1, h2⟩ := layer_restore ms
  unfold layerAnalysis
  simp only
  rw [prep_eq, forward_quiet _ _ _ _ (prep_quiet ms), prep_flags, hf]
  simp only [Option.map_some]
  rw [h1, h2]

theorem graph_restore (ms : List (Node S)) : restoreFake ms (ms.map prep) = ms.map (fun m => if m.kind = .fakeQuant then { m with training := false, hooks := m.hooks + 1, observer := false } else { m with training := false }) ∧
    removeHooks (ms.map (fun m => if m.kind = .fakeQuant then { m with training := false, hooks := m.hooks + 1, observer := false } else { m with training := false })) = ms.map measured := by
  constructor
  · unfold restoreFake
    rw [zipWith_self_map]
    apply List.map_congr_left
    intro m _
    unfold prep
    by_cases h : m.kind = .fakeQuant <;> simp [h]
  · unfold removeHooks
    rw [List.map_map]
    apply List.map_congr_left
    intro m _
    unfold measured
    by_cases h : m.kind = .fakeQuant <;> simp [h]

theorem graphAnalysis_ok (fwd : Fwd X) (upd : S → X → S) (metric : X → X → ℚ) (ms : List (Node S)) (x : X) (seen seen' : List (Option X))
    (hf : fwd (floatFlags ms) x = some seen) (hq : fwd (evalFlags ms) x = some seen') (ls : List Line) (hl : graphLines metric (ms.map measured) seen seen' = some ls) :
    graphAnalysis fwd upd metric ms x = (.report [] ls, if (ms.head?.map fun m => m.training).getD false then mode true (mode false ms) else mode false ms) := by
  obtain ⟨h1, h2⟩ := graph_restore ms
  unfold graphAnalysis
  simp only
  rw [prep_eq, forward_quiet _ _ _ _ (prep_quiet ms), prep_flags, hf]
  simp only [Option.map_some]
  rw [h1]
  have hflags : (ms.map (fun m => if m.kind = .fakeQuant then { m with training := false, hooks := m.hooks + 1, observer := false } else { m with training := false })).map
      (fun m : Node S => (m.training, m.fake)) = evalFlags ms := by
    unfold evalFlags
    rw [List.map_map]
    apply List.map_congr_left
    intro m _
    by_cases h : m.kind = .fakeQuant <;> simp [h]
  rw [forward_quiet, hflags, hq]
  · simp only [Option.map_some]
    rw [h2, hl]
    simp only
    rw [(layer_restore ms).2]
  · intro m hm
    obtain ⟨k, _, rfl⟩ := List.mem_map.1 hm
    by_cases h : k.kind = .fakeQuant <;> simp [h]

/-- Both analyses leave every module as it was - mode, switches, statistics, hooks - if the model runs and all modules are in the same mode. -/
theorem C100_unchanged_partial (fwd : Fwd X) (upd : S → X → S) (fq : Node S → X → X) (metric : X → X → ℚ) (n : ℕ) (ms : List (Node S)) (x : X) (hm : SameMode ms)
    (seen : List (Option X)) (hf : fwd (floatFlags ms) x = some seen) :
    (layerAnalysis fwd upd fq metric n ms x).2 = ms ∧
    ∀ seen' ls, fwd (evalFlags ms) x = some seen' → graphLines metric (ms.map measured) seen seen' = some ls → (graphAnalysis fwd upd metric ms x).2 = ms := by
  constructor
  · rw [layerAnalysis_ok fwd upd fq metric n ms x seen hf]
    exact mode_back hm
  · intro seen' ls hq hl
    rw [graphAnalysis_ok fwd upd metric ms x seen seen' hf hq ls hl]
    exact mode_back hm

theorem worst_spec (n : ℕ) (all : List Line) : WorstFirst Prod.snd n all (worst n all) := by
  have hp := List.mergeSort_perm all fun a b : Line => decide (a.2 ≤ b.2)
  have hs : (all.mergeSort fun a b : Line => decide (a.2 ≤ b.2)).Pairwise fun a b => a.2 ≤ b.2 := by
    have := List.pairwise_mergeSort (le := fun a b : Line => decide (a.2 ≤ b.2)) (by
      intro a b c h1 h2
      simp only [decide_eq_true_eq] at *
      exact le_trans h1 h2) (by
      intro a b
      simp only [Bool.or_eq_true, decide_eq_true_eq]
      exact le_total _ _) all
    simpa using this
  refine ⟨(all.mergeSort fun a b => decide (a.2 ≤ b.2)).drop n, ?_, ?_, ?_, ?_⟩
  · unfold worst
    rw [List.take_append_drop]
    exact hp
  · unfold worst
    rw [List.length_take, hp.length_eq]
  · exact hs.sublist (List.take_sublist _ _)
  · intro a ha b hb
    rw [← List.take_append_drop n (all.mergeSort fun a b => decide (a.2 ≤ b.2)), List.pairwise_append] at hs
    exact hs.2.2 a ha b hb

theorem layerLines_mem (fq : Node S → X → X) (metric : X → X → ℚ) (l : Line) : ∀ (ms : List (Node S)) (xs : List (Option X)),
    l ∈ layerLines fq metric ms xs ↔ ∃ (i : ℕ) (m : Node S) (x : X), ms[i]? = some m ∧ xs[i]? = some (some x) ∧ m.kind = .fakeQuant ∧ l = (m.path, metric x (if m.fake then fq m x else x))
  | [], xs => by simp [layerLines]
  | m :: ms, [] => by simp [layerLines]
  | m :: ms, x :: xs => by
    unfold layerLines
    rw [List.mem_append, layerLines_mem fq metric l ms xs]
    constructor
    · rintro (h | ⟨i, m', x', h1, h2, h3⟩)
      · cases x with
        | none => simp at h
        | some x =>
          simp only at h
          by_cases hk : m.kind = .fakeQuant
          · rw [if_pos hk, List.mem_singleton] at h
            exact ⟨0, m, x, by simp, by simp, hk, h⟩
          · rw [if_neg hk] at h
            simp at h
      · exact ⟨i + 1, m', x', by simpa using h1, by simpa using h2, h3⟩
    · rintro ⟨i, m', x', h1, h2, h3, h4⟩
      cases i with
      | zero =>
        left
        simp only [List.getElem?_cons_zero, Option.some.injEq] at h1 h2
        subst h1
        subst h2
        simp [h3, h4]
      | succ i =>
        right
        exact ⟨i, m', x', by simpa using h1, by simpa using h2, h3, h4⟩

/-- The report by layers: the worst ones, for weights and for activations, of all fake quantizers that were called; the error of a layer compares the input it gets in the float model with the same
input quantized. -/
theorem C100_layers (fwd : Fwd X) (upd : S → X → S) (fq : Node S → X → X) (metric : X → X → ℚ) (n : ℕ) (ms : List (Node S)) (x : X)
    (seen : List (Option X)) (hf : fwd (floatFlags ms) x = some seen) :
    ∃ (all rw ra : List Line), (layerAnalysis fwd upd fq metric n ms x).1 = .report rw ra ∧
      WorstFirst Prod.snd n (all.filter fun l : Line => l.1.endsWith ".weight_fake_quant") rw ∧ WorstFirst Prod.snd n (all.filter fun l : Line => !l.1.endsWith ".weight_fake_quant") ra ∧
      ∀ l : Line, l ∈ all ↔ ∃ (i : ℕ) (m : Node S) (y : X), ms[i]? = some m ∧ seen[i]? = some (some y) ∧ m.kind = .fakeQuant ∧
        l = (m.path, metric y (if m.fake then fq (measured m) y else y)) := by
  refine ⟨(layerLines fq metric (ms.map measured) seen).reverse, _, _, by rw [layerAnalysis_ok fwd upd fq metric n ms x seen hf]; rfl, worst_spec n _, worst_spec n _, ?_⟩
  intro l
  rw [List.mem_reverse, layerLines_mem]
  constructor
  · rintro ⟨i, m, y, h1, h2, h3, h4⟩
    rw [List.getElem?_map, Option.map_eq_some_iff] at h1
    obtain ⟨k, hk, rfl⟩ := h1
    have hkk : k.kind = .fakeQuant := by
      unfold measured at h3
      by_cases h : k.kind = .fakeQuant
      · exact h
      · rw [if_neg h] at h3
        exact h3
    refine ⟨i, k, y, hk, h2, hkk, ?_⟩
    rw [h4]
    unfold measured
    simp [hkk]
  · rintro ⟨i, m, y, h1, h2, h3, h4⟩
    refine ⟨i, measured m, y, by rw [List.getElem?_map, h1]; rfl, h2, ?_, ?_⟩
    · unfold measured
      rw [if_pos h3]
      exact h3
    · rw [h4]
      unfold measured
      simp [h3]

theorem graphLines_mem (metric : X → X → ℚ) (l : Line) : ∀ (ms : List (Node S)) (xs ys : List (Option X)) (ls : List Line), graphLines metric ms xs ys = some ls →
    (l ∈ ls ↔ ∃ (i : ℕ) (m : Node S) (x y : X), ms[i]? = some m ∧ xs[i]? = some (some x) ∧ ys[i]? = some (some y) ∧ m.kind = .fakeQuant ∧ m.path.endsWith ".weight_fake_quant" = false ∧ l = (m.path, metric x y))
  | [], xs, ys, ls, h => by
    simp only [graphLines, Option.some.injEq] at h
    subst h
    simp
  | m :: ms, [], ys, ls, h => by
    simp only [graphLines, Option.some.injEq] at h
    subst h
    simp
  | m :: ms, x :: xs, [], ls, h => by
    simp only [graphLines, Option.some.injEq] at h
    subst h
    simp
  | m :: ms, x :: xs, y :: ys, ls, h => by
    unfold graphLines at h
    cases hr : graphLines metric ms xs ys with
    | none =>
      rw [hr] at h
      simp at h
    | some ls' =>
      rw [hr] at h
      simp only at h
      have ih := graphLines_mem metric l ms xs ys ls' hr
      have shift : (∃ (i : ℕ) (m' : Node S) (x' y' : X), (m :: ms)[i]? = some m' ∧ (x :: xs)[i]? = some (some x') ∧ (y :: ys)[i]? = some (some y') ∧ m'.kind = .fakeQuant ∧
          m'.path.endsWith ".weight_fake_quant" = false ∧ l = (m'.path, metric x' y')) ↔
          (∃ x' y', x = some x' ∧ y = some y' ∧ m.kind = .fakeQuant ∧ m.path.endsWith ".weight_fake_quant" = false ∧ l = (m.path, metric x' y')) ∨ l ∈ ls' := by
        rw [ih]
        constructor
        · rintro ⟨i, m', x', y', h1, h2, h3, h4⟩
          cases i with
          | zero =>
            simp only [List.getElem?_cons_zero, Option.some.injEq] at h1 h2 h3
            subst h1
            exact .inl ⟨x', y', h2, h3, h4⟩
          | succ i => exact .inr ⟨i, m', x', y', by simpa using h1, by simpa using h2, by simpa using h3, h4⟩
        · rintro (⟨x', y', h1, h2, h3⟩ | ⟨i, m', x', y', h1, h2, h3, h4⟩)
          · exact ⟨0, m, x', y', by simp, by simp [h1], by simp [h2], h3⟩
          · exact ⟨i + 1, m', x', y', by simpa using h1, by simpa using h2, by simpa using h3, h4⟩
      rw [shift]
      by_cases hk : m.kind = .fakeQuant
      · rw [if_pos hk] at h
        cases x with
        | none =>
          simp only [Option.some.injEq] at h
          subst h
          simp
        | some x =>
          cases y with
          | none => simp at h
          | some y =>
            simp only at h
            by_cases hw : isWeight (m.path, 0) = true
            · rw [if_pos hw, Option.some.injEq] at h
              subst h
              have hw' : m.path.endsWith ".weight_fake_quant" = true := hw
              simp [hw']
            · rw [if_neg hw, Option.some.injEq] at h
              subst h
              have hw' : m.path.endsWith ".weight_fake_quant" = false := by simpa [isWeight] using hw
              rw [List.mem_cons]
              simp [hw', hk]
      · rw [if_neg hk, Option.some.injEq] at h
        subst h
        simp [hk]

/-- The cumulative report: for every fake quantizer of an activation the input in the float model against the input in the quantized model. -/
theorem C100_graph (fwd : Fwd X) (upd : S → X → S) (metric : X → X → ℚ) (ms : List (Node S)) (x : X) (seen seen' : List (Option X))
    (hf : fwd (floatFlags ms) x = some seen) (hq : fwd (evalFlags ms) x = some seen') (ls : List Line) (hl : graphLines metric (ms.map measured) seen seen' = some ls) :
    (graphAnalysis fwd upd metric ms x).1 = .report [] ls ∧
    ∀ l : Line, l ∈ ls ↔ ∃ (i : ℕ) (m : Node S) (a b : X), ms[i]? = some m ∧ seen[i]? = some (some a) ∧ seen'[i]? = some (some b) ∧ m.kind = .fakeQuant ∧ m.path.endsWith ".weight_fake_quant" = false ∧
      l = (m.path, metric a b) := by
  refine ⟨by rw [graphAnalysis_ok fwd upd metric ms x seen seen' hf hq ls hl], fun l => ?_⟩
  rw [graphLines_mem metric l _ _ _ _ hl]
  constructor
  · rintro ⟨i, m, a, b, h1, h2, h3, h4, h5, h6⟩
    rw [List.getElem?_map, Option.map_eq_some_iff] at h1
    obtain ⟨k, hk, rfl⟩ := h1
    have e1 : (measured k).kind = k.kind := by unfold measured; split <;> rfl
    have e2 : (measured k).path = k.path := by unfold measured; split <;> rfl
    exact ⟨i, k, a, b, hk, h2, h3, by rw [← e1]; exact h4, by rw [← e2]; exact h5, by rw [← e2]; exact h6⟩
  · rintro ⟨i, m, a, b, h1, h2, h3, h4, h5, h6⟩
    have e1 : (measured m).kind = m.kind := by unfold measured; split <;> rfl
    have e2 : (measured m).path = m.path := by unfold measured; split <;> rfl
    exact ⟨i, measured m, a, b, by rw [List.getElem?_map, h1]; rfl, h2, h3, by rw [e1]; exact h4, by rw [e2]; exact h5, by rw [e2]; exact h6⟩

/-- A model for the examples: a network with a frozen normalization layer and two fake quantizers. -/
def analysed (frozen : Bool) : List (Node ℕ) :=
  [⟨"", .plain, true, false, false, 0, 0⟩, ⟨"bn", .norm, !frozen, false, false, 5, 0⟩, ⟨"conv.weight_fake_quant", .fakeQuant, true, true, true, 7, 1⟩, ⟨"act", .fakeQuant, true, true, false, 9, 0⟩]

/-- A run for the examples: every module gets the input. -/
def runAll : Fwd ℚ := fun fs x => some (fs.map fun _ => some x)

/-- Not so with a frozen normalization layer: it is in training mode afterwards. -/
theorem C100_frozen_false : ∃ (ms : List (Node ℕ)) (m : Node ℕ), m ∈ (layerAnalysis runAll (fun s _ => s + 1) (fun _ x => x + 1 / 8) (fun x y => y - x) 20 ms 3).2 ∧
    m.kind = .norm ∧ m.training = true ∧ ∀ k ∈ ms, k.path = m.path → k.training = false :=
  ⟨analysed true, ⟨"bn", .norm, true, false, false, 5, 0⟩, by decide +kernel⟩

/-- And not if the model raises an error: it is left in evaluation mode, with hooks and without fake quantization and observers. -/
theorem C100_error_false : ∃ (fwd : Fwd ℚ) (ms : List (Node ℕ)), SameMode ms ∧ (layerAnalysis fwd (fun s _ => s + 1) (fun _ x => x) (fun x y => y - x) 20 ms 3).2 ≠ ms ∧
    ∀ m ∈ (layerAnalysis fwd (fun s _ => s + 1) (fun _ x => x) (fun x y => y - x) 20 ms 3).2, m.training = false ∧ (m.kind = .fakeQuant → m.fake = false ∧ m.observer = false ∧ 0 < m.hooks) :=
  ⟨fun _ _ => none, analysed false, by
    unfold SameMode
    decide +kernel⟩

example : SameMode (analysed false) ∧ (runAll (floatFlags (analysed false)) 3).isSome ∧
    (graphLines (fun x y : ℚ => y - x) ((analysed false).map measured) ([none, some 1, some 1, some 2]) ([none, some 1, some 1, some 3])) = some [("act", 1)] := by
  unfold SameMode
  decide +kernel

end Verif.Props
