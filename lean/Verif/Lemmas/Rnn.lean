import Verif.Model.Rnn
import Verif.Lemmas.Tensor
import Mathlib.Tactic.Ring
import Mathlib.Tactic.IntervalCases

/-! Lemmas on unrolled recurrent layers: the time loop, the direction, the layer loop. -/

namespace Verif.Lemmas
open Verif.Model Verif.Spec Finset

variable {R : Type} [CommRing R]

theorem stateAfter_shift {S : Type} (cell : (Nat → R) → S → S) (y : Nat → Nat → R) (init : S) (s : Nat) :
    stateAfter cell y init (s + 1) = stateAfter cell (fun s => y (s + 1)) (cell (y 0) init) s := by
  induction s with
  | zero => rfl
  | succ s ih => rw [stateAfter, ih]; rfl

theorem stateAfter_congr {S : Type} (cell : (Nat → R) → S → S) (y z : Nat → Nat → R) (init : S) (n : Nat) (h : ∀ s < n, y s = z s) : stateAfter cell y init n = stateAfter cell z init n := by
  induction n with
  | zero => rfl
  | succ n ih => rw [stateAfter, stateAfter, ih (fun s hs => h s (by omega)), h n (by omega)]

/-- The time loop follows the specification, whatever the agreement `A` of states and `X` of inputs that the steps preserve. -/
theorem unrollSteps_spec {St S : Type} (step : Bool → Mat R → St → Option St) (hOf : St → Mat R) (cell : (Nat → R) → S → S) (A : St → (Nat → S) → Prop) (X : Mat R → (Nat → Nat → R) → Prop)
    (hnext : ∀ t x st σ, X t x → A st σ → ∃ st', step false t st = some st' ∧ A st' (fun b => cell (x b) (σ b))) (ts : List (Mat R)) :
    ∀ (y : Nat → Nat → Nat → R) (st : St) (σ : Nat → S) (first : Bool), (∀ s < ts.length, X (ts.getD s (fun _ _ => 0)) (y s)) → A st σ →
    (first = true → ∀ t x, X t x → ∃ st', step true t st = some st' ∧ A st' (fun b => cell (x b) (σ b))) →
    ∃ hs e, unrollSteps step hOf first ts st = some (hs, e) ∧ hs.length = ts.length ∧
      (∀ s < ts.length, ∃ st', A st' (fun b => stateAfter cell (fun s => y s b) (σ b) (s + 1)) ∧ hs.getD s (fun _ _ => 0) = hOf st') ∧
      A e (fun b => stateAfter cell (fun s => y s b) (σ b) ts.length) := by
  induction ts with
  | nil => intro y st σ first _ hA _; exact ⟨[], st, rfl, rfl, by simp, hA⟩
  | cons t ts ih =>
    intro y st σ first hX hA hf
    have hX0 : X t (y 0) := by simpa using hX 0 (by simp)
    obtain ⟨st', hs1, hA1⟩ : ∃ st', step first t st = some st' ∧ A st' (fun b => cell (y 0 b) (σ b)) := by
      cases first
      · exact hnext t _ st σ hX0 hA
      · exact hf rfl t _ hX0
    obtain ⟨hs, e, h1, h2, h3, h4⟩ := ih (fun s => y (s + 1)) st' _ false (fun s hs => by simpa using hX (s + 1) (by simpa using hs)) hA1 (by simp)
    refine ⟨hOf st' :: hs, e, by simp [unrollSteps, hs1, h1], by simp [h2], ?_, ?_⟩
    · intro s hs'
      match s with
      | 0 => exact ⟨st', hA1, by simp⟩
      | s + 1 =>
        obtain ⟨st'', a1, a2⟩ := h3 s (by simpa using hs')
        refine ⟨st'', ?_, by simpa using a2⟩
        have : (fun b => stateAfter cell (fun s => y s b) (σ b) (s + 1 + 1)) = fun b => stateAfter cell (fun s => y (s + 1) b) (cell (y 0 b) (σ b)) (s + 1) := by
          funext b; rw [stateAfter_shift]
        rw [this]; exact a1
    · have : (fun b => stateAfter cell (fun s => y s b) (σ b) (t :: ts).length) = fun b => stateAfter cell (fun s => y (s + 1) b) (cell (y 0 b) (σ b)) ts.length := by
        funext b; rw [List.length_cons, stateAfter_shift]
      rw [this]; exact h4

theorem getD_reverse {α : Type} (l : List α) (i : Nat) (d : α) (h : i < l.length) : l.reverse.getD i d = l.getD (l.length - 1 - i) d := by
  rw [getD_eq_getElem _ _ _ (by simpa using h), getD_eq_getElem _ _ _ (by omega), List.getElem_reverse]

/-- One direction. -/
theorem unrollDir_spec {St S : Type} (step : Bool → Mat R → St → Option St) (hOf : St → Mat R) (cell : (Nat → R) → S → S) (A : St → (Nat → S) → Prop) (X : Mat R → (Nat → Nat → R) → Prop)
    (hnext : ∀ t x st σ, X t x → A st σ → ∃ st', step false t st = some st' ∧ A st' (fun b => cell (x b) (σ b))) (ts : List (Mat R)) (T : Nat) (hT : ts.length = T) (back : Bool)
    (x : Nat → Nat → Nat → R) (st : St) (σ : Nat → S) (hX : ∀ s < T, X (ts.getD s (fun _ _ => 0)) (x s)) (hA : A st σ)
    (hf : ∀ t x, X t x → ∃ st', step true t st = some st' ∧ A st' (fun b => cell (x b) (σ b))) :
    ∃ hs e, unrollDir step hOf back ts st = some (hs, e) ∧ hs.length = T ∧
      (∀ t < T, ∃ st', A st' (fun b => stateAfter cell (dirSeq T back (fun s => x s b)) (σ b) (if back then T - t else t + 1)) ∧ hs.getD t (fun _ _ => 0) = hOf st') ∧
      A e (fun b => dirFinal cell T back (fun s => x s b) (σ b)) := by
  cases back
  · obtain ⟨hs, e, h1, h2, h3, h4⟩ := unrollSteps_spec step hOf cell A X hnext ts x st σ true (by rw [hT]; exact hX) hA (fun _ => hf)
    refine ⟨hs, e, by simp [unrollDir, h1], by omega, fun t ht => h3 t (by omega), ?_⟩
    rw [hT] at h4; exact h4
  · obtain ⟨hs, e, h1, h2, h3, h4⟩ := unrollSteps_spec step hOf cell A X hnext ts.reverse (fun s => x (T - 1 - s)) st σ true (by
        intro s hs
        rw [List.length_reverse] at hs
        rw [getD_reverse _ _ _ hs, hT]
        exact hX _ (by omega)) hA (fun _ => hf)
    rw [List.length_reverse, hT] at h2 h3 h4
    refine ⟨hs.reverse, e, by simp [unrollDir, h1], by simpa using h2, fun t ht => ?_, h4⟩
    obtain ⟨st', a1, a2⟩ := h3 (T - 1 - t) (by omega)
    refine ⟨st', ?_, ?_⟩
    · rw [show T - 1 - t + 1 = T - t by omega] at a1; exact a1
    · rw [getD_reverse _ _ _ (by omega), h2]; exact a2

theorem dirs_cases (c : RnnCfg) : (c.bidir = false ∧ c.dirs = 1) ∨ (c.bidir = true ∧ c.dirs = 2) := by
  unfold RnnCfg.dirs
  cases c.bidir <;> simp

/-- The layer loop: if every direction of every layer follows its specification, so does the stack. -/
theorem unrollLayers_spec {St S : Type} (c : RnnCfg) (run : Nat → Nat → Nat → List (Mat R) → Option (List (Mat R) × St)) (hOfS : S → Nat → R) (cell : Nat → Bool → (Nat → R) → S → S)
    (init : Nat → Nat → Bool → S) (A : St → (Nat → S) → Prop) (x : Nat → Nat → Nat → R)
    (hrun : ∀ l < c.layers, ∀ d < c.dirs, ∀ ts (z : Nat → Nat → Nat → R), ts.length = c.T → (∀ t < c.T, ∀ b < c.B, ∀ k < layerWidth c.I c.H c.bidir l, (ts.getD t (fun _ _ => 0)) b k = z t b k) →
      ∃ hs e, run l d (l * c.dirs * c.step) ts = some (hs, e) ∧ hs.length = c.T ∧
        (∀ t < c.T, ∀ b < c.B, ∀ j < c.H, (hs.getD t (fun _ _ => 0)) b j = dirOut hOfS (cell l (d == 1)) c.T (d == 1) (fun s => z s b) (init b l (d == 1)) t j) ∧
        A e (fun b => dirFinal (cell l (d == 1)) c.T (d == 1) (fun s => z s b) (init b l (d == 1)))) :
    ∀ (n l : Nat) (cur : Nat → Nat → Nat → R) (cache : Option (List (Mat R))), l + n = c.layers →
    (cache = none → ∀ t < c.T, ∀ b < c.B, ∀ k < layerWidth c.I c.H c.bidir l, seqAt c.batchFirst cur t b k = layerInput hOfS c.H c.T c.bidir cell (init b) (fun s => seqAt c.batchFirst x s b) l t k) →
    (∀ ts, cache = some ts → n ≠ 0 ∧ ts.length = c.T ∧ ∀ t < c.T, ∀ b < c.B, ∀ k < layerWidth c.I c.H c.bidir l, (ts.getD t (fun _ _ => 0)) b k
      = layerInput hOfS c.H c.T c.bidir cell (init b) (fun s => seqAt c.batchFirst x s b) l t k) →
    ∃ out sts, unrollLayers c run n l (l * c.dirs * c.step) cur cache = some (out, sts) ∧
      (∀ t < c.T, ∀ b < c.B, ∀ j < layerWidth c.I c.H c.bidir c.layers, seqAt c.batchFirst out t b j
        = layerInput hOfS c.H c.T c.bidir cell (init b) (fun s => seqAt c.batchFirst x s b) c.layers t j) ∧
      sts.length = n * c.dirs ∧
      ∀ i < n, ∀ d < c.dirs, ∃ e, sts[i * c.dirs + d]? = some e ∧
        A e (fun b => dirFinal (cell (l + i) (d == 1)) c.T (d == 1) (fun s => layerInput hOfS c.H c.T c.bidir cell (init b) (fun s => seqAt c.batchFirst x s b) (l + i) s) (init b (l + i) (d == 1))) := by
  intro n
  induction n with
  | zero =>
    intro l cur cache hl hcur hcache
    have hn : cache = none := by
      cases cache with
      | none => rfl
      | some ts => exact absurd rfl (hcache ts rfl).1
    refine ⟨cur, [], rfl, ?_, by simp, by simp⟩
    have := hcur hn
    rw [show l = c.layers by omega] at this
    exact this
  | succ n ih =>
    intro l cur cache hl hcur hcache
    set z : Nat → Nat → Nat → R := fun t b => layerInput hOfS c.H c.T c.bidir cell (init b) (fun s => seqAt c.batchFirst x s b) l t with hz
    obtain ⟨inputTs, hI, hIl, hIv⟩ : ∃ ts, cache.getD (unpackTs c cur) = ts ∧ ts.length = c.T ∧
        ∀ t < c.T, ∀ b < c.B, ∀ k < layerWidth c.I c.H c.bidir l, (ts.getD t (fun _ _ => 0)) b k = z t b k := by
      cases cache with
      | none =>
        refine ⟨_, rfl, by simp [unpackTs], fun t ht b hb k hk => ?_⟩
        unfold unpackTs
        rw [Option.getD_none, getD_range_map _ _ _ _ ht]
        exact hcur rfl t ht b hb k hk
      | some ts => exact ⟨ts, rfl, (hcache ts rfl).2.1, (hcache ts rfl).2.2⟩
    have hoff' : l * c.dirs * c.step + c.step * c.dirs = (l + 1) * c.dirs * c.step := by ring
    rcases dirs_cases c with ⟨hb, hd⟩ | ⟨hb, hd⟩
    · -- one direction
      obtain ⟨hs, e, r1, r2, r3, r4⟩ := hrun l (by omega) 0 (by omega) inputTs z hIl hIv
      have hout : ∀ t < c.T, ∀ b < c.B, ∀ k < layerWidth c.I c.H c.bidir (l + 1), (hs.getD t (fun _ _ => 0)) b k
          = layerInput hOfS c.H c.T c.bidir cell (init b) (fun s => seqAt c.batchFirst x s b) (l + 1) t k := by
        intro t ht b hb' k hk
        have hk : k < c.H := by simpa [layerWidth, hb] using hk
        rw [r3 t ht b hb' k hk]
        simp [layerInput, hb, hz]
      have hgo : unrollLayers c run (n + 1) l (l * c.dirs * c.step) cur cache
          = (unrollLayers c run n (l + 1) ((l + 1) * c.dirs * c.step) (if n ≠ 0 then cur else packTs c hs) (if n ≠ 0 then some hs else none)).map (fun p => (p.1, e :: p.2)) := by
        have hr : run l 0 (l * c.dirs * c.step) inputTs = some (hs, e) := r1
        simp only [unrollLayers, hI, hoff']
        have hm : (List.range c.dirs).mapM (fun d => run l d (l * c.dirs * c.step) inputTs) = some [(hs, e)] := by
          have h1 : List.range c.dirs = [0] := by rw [hd]; rfl
          rw [h1]
          simp [hr]
        rw [hm]
        simp only [hb, Option.bind_eq_bind, Option.bind_some, List.map_cons, List.map_nil, List.flatten_cons, List.flatten_nil, List.append_nil, Bool.false_eq_true, if_false]
        by_cases hn : n = 0
        · simp only [hn, ne_eq, not_true_eq_false, if_false]
          cases unrollLayers c run 0 (l + 1) ((l + 1) * c.dirs * c.step) (packTs c hs) none <;> rfl
        · simp only [hn, ne_eq, not_false_eq_true, if_true]
          cases unrollLayers c run n (l + 1) ((l + 1) * c.dirs * c.step) cur (some hs) <;> rfl
      obtain ⟨out, sts, s1, s2, s3, s4⟩ := ih (l + 1) (if n ≠ 0 then cur else packTs c hs) (if n ≠ 0 then some hs else none) (by omega)
        (by
          intro hn t ht b hb' k hk
          have hn0 : n = 0 := by by_contra h; simp [h] at hn
          rw [if_neg (by simp [hn0])]
          rw [← hout t ht b hb' k hk]
          unfold seqAt packTs
          cases c.batchFirst <;> simp)
        (by
          intro ts hts
          by_cases hn : n = 0
          · simp [hn] at hts
          · simp only [hn, ne_eq, not_false_eq_true, if_true, Option.some.injEq] at hts
            subst hts
            exact ⟨hn, r2, hout⟩)
      refine ⟨out, e :: sts, ?_, s2, by simp [s3, hd], ?_⟩
      · rw [hgo, s1]; rfl
      · intro i hi d hd'
        have hd0 : d = 0 := by omega
        subst hd0
        match i with
        | 0 =>
          refine ⟨e, by simp, ?_⟩
          simpa using r4
        | i + 1 =>
          obtain ⟨e', t1, t2⟩ := s4 i (by omega) 0 (by omega)
          refine ⟨e', ?_, ?_⟩
          · rw [hd] at t1 ⊢; simpa using t1
          · rw [show l + (i + 1) = l + 1 + i by omega]; exact t2
    · -- two directions
      obtain ⟨hs, e, r1, r2, r3, r4⟩ := hrun l (by omega) 0 (by omega) inputTs z hIl hIv
      obtain ⟨gs, e', q1, q2, q3, q4⟩ := hrun l (by omega) 1 (by omega) inputTs z hIl hIv
      set cur' := catFeatures c.H (packTs c hs) (packTs c gs) with hcur'
      have hgo : unrollLayers c run (n + 1) l (l * c.dirs * c.step) cur cache
          = (unrollLayers c run n (l + 1) ((l + 1) * c.dirs * c.step) cur' none).map (fun p => (p.1, e :: e' :: p.2)) := by
        have hm : (List.range c.dirs).mapM (fun d => run l d (l * c.dirs * c.step) inputTs) = some [(hs, e), (gs, e')] := by
          have h1 : List.range c.dirs = [0, 1] := by rw [hd]; rfl
          rw [h1]
          simp only [List.mapM_cons, List.mapM_nil, r1, q1]
          rfl
        simp only [unrollLayers, hI, hoff', hm]
        have ht : (hs ++ gs).take c.T = hs := by rw [← r2]; simp
        have hdr : (hs ++ gs).drop c.T = gs := by rw [← r2]; simp
        simp only [hb, Option.bind_eq_bind, Option.bind_some, List.map_cons, List.map_nil, List.flatten_cons, List.flatten_nil, List.append_nil, if_true, ht, hdr, ← hcur']
        cases unrollLayers c run n (l + 1) ((l + 1) * c.dirs * c.step) cur' none <;> rfl
      obtain ⟨out, sts, s1, s2, s3, s4⟩ := ih (l + 1) cur' none (by omega)
        (by
          intro _ t ht b hb' k hk
          have hk : k < 2 * c.H := by simpa [layerWidth, hb] using hk
          have hp : ∀ (ms : List (Mat R)) j, seqAt c.batchFirst (packTs c ms) t b j = (ms.getD t (fun _ _ => 0)) b j := by
            intro ms j
            unfold seqAt packTs
            cases c.batchFirst <;> simp
          have hcat : seqAt c.batchFirst cur' t b k = if k < c.H then seqAt c.batchFirst (packTs c hs) t b k else seqAt c.batchFirst (packTs c gs) t b (k - c.H) := by
            rw [hcur']
            unfold seqAt catFeatures
            cases c.batchFirst <;> simp
          rw [hcat, hp, hp]
          by_cases hkH : k < c.H
          · rw [if_pos hkH, r3 t ht b hb' k hkH]
            have : ¬ c.H ≤ k := by omega
            simp [layerInput, hb, hz, this]
          · rw [if_neg hkH, q3 t ht b hb' (k - c.H) (by omega)]
            have : c.H ≤ k := by omega
            simp [layerInput, hb, hz, this])
        (by simp)
      refine ⟨out, e :: e' :: sts, ?_, s2, by simp [s3, hd]; ring, ?_⟩
      · rw [hgo, s1]; rfl
      · intro i hi d hd'
        match i with
        | 0 =>
          rcases (by omega : d = 0 ∨ d = 1) with rfl | rfl
          · exact ⟨e, by simp, by simpa using r4⟩
          · exact ⟨e', by simp, by simpa using q4⟩
        | i + 1 =>
          obtain ⟨f, t1, t2⟩ := s4 i (by omega) d hd'
          refine ⟨f, ?_, ?_⟩
          · rw [hd] at t1 ⊢
            rw [show (i + 1) * 2 + d = i * 2 + d + 1 + 1 by ring]
            simpa using t1
          · rw [show l + (i + 1) = l + 1 + i by omega]; exact t2

end Verif.Lemmas
