import Verif.Model.Gru
import Mathlib.Tactic.Ring
import Mathlib.Algebra.Ring.Int.Defs

/-!
C96: the quantizable GRU computes what the GRU it replaces computes.
-/

namespace Verif.Props
open Verif.Spec.Gru Verif.Model.Gru

variable {α : Type} [CommRing α]

theorem cellStep_eq (sig tanh : α → α) (H : ℕ) (w : Weights α) (x hx : Batch α) (b : ℕ) :
    cellStep sig tanh H w (linear w.inSize w.wi w.bi x) hx b = step sig tanh H w (hx b) (x b) := by
  funext c
  simp only [cellStep, step, chunk, linear, row, Nat.zero_mul, Nat.one_mul, Nat.zero_add]
  ring

theorem cellLoop_eq (sig tanh : α → α) (H : ℕ) (w : Weights α) (b : ℕ) : ∀ (xs : List (Batch α)) (h : Batch α) (res : List (Batch α)),
    (cellLoop sig tanh H w (xs.map (linear w.inSize w.wi w.bi)) h res).1.map (fun o => o b) =
        res.map (fun o => o b) ++ run sig tanh H w (h b) (xs.map fun x => x b) ∧
      (cellLoop sig tanh H w (xs.map (linear w.inSize w.wi w.bi)) h res).2 b = final sig tanh H w (h b) (xs.map fun x => x b)
  | [], h, res => by simp [cellLoop, run, final]
  | x :: xs, h, res => by
    have ih := cellLoop_eq sig tanh H w b xs (cellStep sig tanh H w (linear w.inSize w.wi w.bi x) h)
      (res ++ [cellStep sig tanh H w (linear w.inSize w.wi w.bi x) h])
    simp only [List.map_cons, cellLoop]
    refine ⟨?_, ?_⟩
    · rw [ih.1, cellStep_eq]
      simp [run, cellStep_eq]
    · rw [ih.2, cellStep_eq]
      unfold final
      simp only [run]
      cases hr : run sig tanh H w (step sig tanh H w (h b) (x b)) (xs.map fun x => x b) with
      | nil => rfl
      | cons a l => rw [List.getLast?_cons_cons, List.getLast?_cons]; rfl

theorem cell_eq (sig tanh : α → α) (H : ℕ) (w : Weights α) (b : ℕ) (xs : List (Batch α)) (h : Batch α) :
    (cell sig tanh H w xs h).1.map (fun o => o b) = run sig tanh H w (h b) (xs.map fun x => x b) ∧
      (cell sig tanh H w xs h).2 b = final sig tanh H w (h b) (xs.map fun x => x b) := by
  have := cellLoop_eq sig tanh H w b xs h []
  simpa [cell] using this

theorem layer_eq (sig tanh : α → α) (H : ℕ) (l : Layer α) (b : ℕ) (xs hx : List (Batch α)) :
    (layer sig tanh H l xs hx).1.map (fun o => o b) = layerOut sig tanh H l (fun d => hx.getD d (fun _ _ => 0) b) (xs.map fun x => x b) := by
  unfold layer layerOut
  cases l.bw with
  | none => exact (cell_eq sig tanh H l.fw b xs _).1
  | some w =>
    have h1 := (cell_eq sig tanh H l.fw b xs (hx.getD 0 fun _ _ => 0)).1
    have h2 := (cell_eq sig tanh H w b xs.reverse (hx.getD 1 fun _ _ => 0)).1
    simp only
    rw [List.map_zipWith, ← h1, ← List.map_reverse, ← h2, ← List.map_reverse, List.zipWith_map]

/-- Output and states of one sequence of the batch, for all layers. -/
theorem layers_eq (sig tanh : α → α) (H : ℕ) (b : ℕ) : ∀ (ls : List (Layer α)) (xs : List (Batch α)) (hs : List (List (Batch α))),
    (layers sig tanh H ls xs hs).1.map (fun o => o b) =
        (gru sig tanh H ls (fun i d => (hs.getD i []).getD d (fun _ _ => 0) b) (xs.map fun x => x b)).1 ∧
      ((∀ l ∈ ls, l.bw = none) → ∃ fs : List (Batch α), (layers sig tanh H ls xs hs).2 = fs.map .batch ∧
        fs.map (fun f => f b) = (gru sig tanh H ls (fun i d => (hs.getD i []).getD d (fun _ _ => 0) b) (xs.map fun x => x b)).2)
  | [], xs, hs => ⟨rfl, fun _ => ⟨[], rfl, rfl⟩⟩
  | l :: ls, xs, hs => by
    have ih := layers_eq sig tanh H b ls (layer sig tanh H l xs (hs.headD [])).1 hs.tail
    have e0 : hs.getD 0 [] = hs.headD [] := by cases hs <;> rfl
    have e1 : ∀ i, hs.getD (i + 1) [] = hs.tail.getD i [] := by intro i; cases hs <;> simp
    have hl := layer_eq sig tanh H l b xs (hs.headD [])
    refine ⟨?_, ?_⟩
    · simp only [layers, gru]
      rw [ih.1, hl]
      simp only [e0, e1]
    · intro hall
      obtain ⟨fs, h1, h2⟩ := ih.2 fun x hx => hall x (List.mem_cons_of_mem _ hx)
      have hbw := hall l List.mem_cons_self
      refine ⟨(cell sig tanh H l.fw xs ((hs.headD []).getD 0 fun _ _ => 0)).2 :: fs, ?_, ?_⟩
      · simp only [layers]
        rw [h1]
        simp [layer, hbw]
      · simp only [gru, List.map_cons]
        rw [h2, hl]
        simp only [e0, e1]
        rw [(cell_eq sig tanh H l.fw b xs _).2]
        simp [layerFinal, hbw]

theorem splitHidden_getD (D : ℕ) : ∀ (n : ℕ) (h : List (Batch α)) (i d : ℕ), i < n → d < D →
    ((splitHidden D n h).getD i []).getD d (fun _ _ => 0) = h.getD (i * D + d) fun _ _ => 0
  | n + 1, h, 0, d, _, hd => by
    simp only [splitHidden, List.getD_cons_zero, Nat.zero_mul, Nat.zero_add]
    simp only [List.getD_eq_getElem?_getD, List.getElem?_take, hd, if_true]
  | n + 1, h, i + 1, d, hi, hd => by
    have ih := splitHidden_getD D n (h.drop D) i d (by omega) hd
    simp only [splitHidden, List.getD_cons_succ]
    rw [ih]
    simp only [List.getD_eq_getElem?_getD, List.getElem?_drop]
    congr 2
    ring

/-- The first states do not matter beyond the layers and directions there are. -/
theorem gru_congr (sig tanh : α → α) (H : ℕ) (D : ℕ) : ∀ (ls : List (Layer α)) (h h' : ℕ → ℕ → ℕ → α) (xs : List (ℕ → α)),
    (∀ l ∈ ls, l.bw = none ∧ 1 ≤ D ∨ l.bw ≠ none ∧ 2 ≤ D) → (∀ i < ls.length, ∀ d < D, h i d = h' i d) → gru sig tanh H ls h xs = gru sig tanh H ls h' xs
  | [], _, _, _, _, _ => rfl
  | l :: ls, h, h', xs, hD, hh => by
    have e0 : ∀ d < D, h 0 d = h' 0 d := fun d hd => hh 0 (by simp) d hd
    have a : layerOut sig tanh H l (h 0) xs = layerOut sig tanh H l (h' 0) xs ∧ layerFinal sig tanh H l (h 0) xs = layerFinal sig tanh H l (h' 0) xs := by
      have := hD l List.mem_cons_self
      unfold layerOut layerFinal
      cases hb : l.bw with
      | none =>
        rw [hb] at this
        have hd : 1 ≤ D := by simpa using this
        rw [e0 0 (by omega)]
        exact ⟨rfl, rfl⟩
      | some w =>
        rw [hb] at this
        have hd : 2 ≤ D := by simpa using this
        rw [e0 0 (by omega), e0 1 (by omega)]
        exact ⟨rfl, rfl⟩
    have ih := gru_congr sig tanh H D ls (fun i => h (i + 1)) (fun i => h' (i + 1)) (layerOut sig tanh H l (h' 0) xs)
      (fun x hx => hD x (List.mem_cons_of_mem _ hx)) (fun i hi d hd => hh (i + 1) (by simpa using hi) d hd)
    simp only [gru]
    rw [a.1, a.2, ih]

/-- The first states: zero, or those given by the caller, which come as one list with the directions of a layer next to each other. -/
def firstState (D : ℕ) (hidden : Option (List (Batch α))) (b : ℕ) : ℕ → ℕ → ℕ → α := fun i d =>
  match hidden with
  | none => fun _ => 0
  | some h => h.getD (i * D + d) (fun _ _ => 0) b

theorem forward_eq (sig tanh : α → α) (H D : ℕ) (ls : List (Layer α)) (hD : ∀ l ∈ ls, l.bw = none ∧ D = 1 ∨ l.bw ≠ none ∧ D = 2) (xs : List (Batch α))
    (hidden : Option (List (Batch α))) (b : ℕ) :
    (forward sig tanh H D ls xs hidden).1.map (fun o => o b) = (gru sig tanh H ls (firstState D hidden b) (xs.map fun x => x b)).1 ∧
      (D = 1 → ∃ fs : List (Batch α), (forward sig tanh H D ls xs hidden).2 = fs.map .batch ∧
        fs.map (fun f => f b) = (gru sig tanh H ls (firstState D hidden b) (xs.map fun x => x b)).2) := by
  have hD' : ∀ l ∈ ls, l.bw = none ∧ 1 ≤ D ∨ l.bw ≠ none ∧ 2 ≤ D := fun l hl => by
    rcases hD l hl with h | h
    · exact .inl ⟨h.1, by omega⟩
    · exact .inr ⟨h.1, by omega⟩
  have hone : D = 1 → ∀ l ∈ ls, l.bw = none := fun h l hl => by
    rcases hD l hl with h' | h'
    · exact h'.1
    · omega
  unfold forward firstState
  cases hidden with
  | none =>
    have h := layers_eq sig tanh H b ls xs (List.replicate ls.length (List.replicate D fun _ _ => 0))
    have e := gru_congr sig tanh H D ls (fun i d => ((List.replicate ls.length (List.replicate D (fun _ _ => (0 : α)))).getD i []).getD d (fun _ _ => 0) b)
      (fun _ _ _ => 0) (xs.map fun x => x b) hD' (fun i hi d hd => by simp [List.getD_eq_getElem?_getD, hi, hd])
    simp only
    rw [e] at h
    exact ⟨h.1, fun hd => h.2 (hone hd)⟩
  | some h0 =>
    have h := layers_eq sig tanh H b ls xs (splitHidden D ls.length h0)
    have e := gru_congr sig tanh H D ls (fun i d => ((splitHidden D ls.length h0).getD i []).getD d (fun _ _ => 0) b)
      (fun i d => h0.getD (i * D + d) (fun _ _ => 0) b) (xs.map fun x => x b) hD' (fun i hi d hd => by simp only [splitHidden_getD D _ _ i d hi hd])
    simp only
    rw [e] at h
    exact ⟨h.1, fun hd => h.2 (hone hd)⟩

/-- The outputs are those of the GRU, for every entry of the batch, any number of layers, one direction or two, with or without given states. -/
theorem C96_output (sig tanh : α → α) (H D : ℕ) (ls : List (Layer α)) (hD : ∀ l ∈ ls, l.bw = none ∧ D = 1 ∨ l.bw ≠ none ∧ D = 2) (xs : List (Batch α))
    (hidden : Option (List (Batch α))) (b : ℕ) :
    (forward sig tanh H D ls xs hidden).1.map (fun o => o b) = (gru sig tanh H ls (firstState D hidden b) (xs.map fun x => x b)).1 :=
  (forward_eq sig tanh H D ls hD xs hidden b).1

/-- With one direction the final states are those of the GRU.  Missing: two directions, see `C96_hidden_false`. -/
theorem C96_hidden_partial (sig tanh : α → α) (H : ℕ) (ls : List (Layer α)) (hD : ∀ l ∈ ls, l.bw = none) (xs : List (Batch α))
    (hidden : Option (List (Batch α))) (b : ℕ) :
    ∃ fs : List (Batch α), (forward sig tanh H 1 ls xs hidden).2 = fs.map .batch ∧
      fs.map (fun f => f b) = (gru sig tanh H ls (firstState 1 hidden b) (xs.map fun x => x b)).2 :=
  (forward_eq sig tanh H 1 ls (fun l hl => .inl ⟨hD l hl, rfl⟩) xs hidden b).2 rfl

/-- Weights that add the input to the gate n. -/
def unitWeights : Weights ℤ := ⟨1, fun c _ => if c = 2 then 1 else 0, fun _ _ => 0, fun _ => 0, fun _ => 0⟩

example : (forward (fun _ => 0) id 1 1 [⟨unitWeights, none⟩, ⟨unitWeights, none⟩] [fun b _ => b, fun b _ => 2 * b] none).1.map (fun o => o 3 0) = [(3 : ℤ), 6] ∧
    (forward (fun _ => 0) id 1 2 [⟨unitWeights, some unitWeights⟩] [fun b _ => b, fun b _ => 2 * b] none).1.map (fun o => o 3 1) = [(3 : ℤ), 6] := by
  constructor <;> decide

/-- With two directions the final state has no batch: of every layer it returns two vectors, both of the first entry of the batch.  Here the entries 1 and 2 of the
batch end in different states, and neither is in the result. -/
theorem C96_hidden_false : ∃ (l : Layer ℤ) (xs : List (Batch ℤ)), l.bw ≠ none ∧
    (∀ b, ((gru (fun _ => 0) id 1 [l] (firstState 2 none b) (xs.map fun x => x b)).2.map fun f => f 0) = [(b : ℤ), b]) ∧
    (∃ f g, (forward (fun _ => 0) id 1 2 [l] xs none).2 = [.stacked [f, g]] ∧ f 0 = 0 ∧ g 0 = 0) := by
  refine ⟨⟨unitWeights, some unitWeights⟩, [fun b _ => b], by simp, ?_, _, _, rfl, by decide, by decide⟩
  intro b
  simp [gru, layerFinal, final, run, step, row, unitWeights]

end Verif.Props
