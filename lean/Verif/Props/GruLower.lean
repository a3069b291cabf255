import Verif.Props.Rnn

/-! C59: GRU. -/

namespace Verif.Props
open Verif.Model Verif.Spec Verif.Lemmas Finset

variable {R : Type} [CommRing R] [DecidableEq R]

def AgreeH (B H : Nat) (st : Mat R) (σ : Nat → Nat → R) : Prop := ∀ b < B, ∀ j < H, st b j = σ b j

omit [DecidableEq R] in
theorem gruStep_spec (sg th : R → R) (sep : Bool) (p : RnnParams R) (B I H : Nat) (wi wr bi br : List (Mat R)) (computeH first : Bool) (t : Mat R) (x : Nat → Nat → R) (st : Mat R) (σ : Nat → Nat → R)
    (W U V Y : Nat → Mat R) (hwi : wi = (List.range 3).map W) (hwr : wr = (List.range 3).map U) (hbi : bi = (List.range 3).map V) (hbr : br = (List.range 3).map Y)
    (hW : ∀ n < 3, ∀ j < H, ∀ k, W n j k = p.wih (n * H + j) k) (hU : ∀ n < 3, ∀ j < H, ∀ k, U n j k = p.whh (n * H + j) k) (hV : ∀ n < 3, ∀ j < H, V n j 0 = p.bih (n * H + j))
    (hY : ∀ n < 3, ∀ j < H, Y n j 0 = p.bhh (n * H + j)) (ht : AgreeIn B I t x) (hst : AgreeH B H st σ) (hh : (first && !computeH) = true → ∀ b < B, ∀ j < H, σ b j = 0) :
    ∃ st', gruStep sg th sep I H wi wr bi br computeH first t st = some st' ∧ AgreeH B H st' (fun b => gruCell sg th p I H (x b) (σ b)) := by
  have sumI : ∀ b < B, ∀ n < 3, ∀ j < H, (∑ k ∈ range I, t b k * W n j k) = ∑ k ∈ range I, x b k * p.wih (n * H + j) k := by
    intro b hb n hn j hj
    refine Finset.sum_congr rfl (fun k hk => ?_)
    rw [ht b hb k (by simpa using hk), hW n hn j hj]
  have sumH : ∀ b < B, ∀ n < 3, ∀ j < H, (∑ k ∈ range H, st b k * U n j k) = ∑ k ∈ range H, σ b k * p.whh (n * H + j) k := by
    intro b hb n hn j hj
    refine Finset.sum_congr rfl (fun k hk => ?_)
    rw [hst b hb k (by simpa using hk), hU n hn j hj]
  have sumH0 : (first && !computeH) = true → ∀ b < B, ∀ n < 3, ∀ j < H, (∑ k ∈ range H, σ b k * p.whh (n * H + j) k) = 0 := by
    intro hf b hb n hn j hj
    refine Finset.sum_eq_zero (fun k hk => ?_)
    rw [hh hf b hb k (by simpa using hk), zero_mul]
  -- from the six halves of the gates to the new state
  have fin : ∀ (i0 i1 i2 h0 h1 h2 : Mat R) (skip : Bool), skip = (first && !computeH) →
      (∀ b < B, ∀ j < H, i0 b j = (∑ k ∈ range I, x b k * p.wih (0 * H + j) k) + p.bih (0 * H + j)) → (∀ b < B, ∀ j < H, i1 b j = (∑ k ∈ range I, x b k * p.wih (1 * H + j) k) + p.bih (1 * H + j)) →
      (∀ b < B, ∀ j < H, i2 b j = (∑ k ∈ range I, x b k * p.wih (2 * H + j) k) + p.bih (2 * H + j)) →
      (∀ b < B, ∀ j < H, h0 b j = (∑ k ∈ range H, σ b k * p.whh (0 * H + j) k) + p.bhh (0 * H + j)) → (∀ b < B, ∀ j < H, h1 b j = (∑ k ∈ range H, σ b k * p.whh (1 * H + j) k) + p.bhh (1 * H + j)) →
      (∀ b < B, ∀ j < H, h2 b j = (∑ k ∈ range H, σ b k * p.whh (2 * H + j) k) + p.bhh (2 * H + j)) →
      AgreeH B H (if skip then mulM (mapM1 (fun v => 1 - v) (mapM1 sg (addM i1 h1))) (mapM1 th (addM i2 (mulM (mapM1 sg (addM i0 h0)) h2)))
        else addM (mulM (mapM1 (fun v => 1 - v) (mapM1 sg (addM i1 h1))) (mapM1 th (addM i2 (mulM (mapM1 sg (addM i0 h0)) h2)))) (mulM (mapM1 sg (addM i1 h1)) st))
        (fun b => gruCell sg th p I H (x b) (σ b)) := by
    intro i0 i1 i2 h0 h1 h2 skip hs a0 a1 a2 b0 b1 b2 b hb j hj
    cases skip
    · simp only [Bool.false_eq_true, if_false, addM, mulM, mapM1, a0 b hb j hj, a1 b hb j hj, a2 b hb j hj, b0 b hb j hj, b1 b hb j hj, b2 b hb j hj, hst b hb j hj]
      rfl
    · have h0 := hh hs.symm b hb j hj
      simp only [if_true, addM, mulM, mapM1, a0 b hb j hj, a1 b hb j hj, a2 b hb j hj, b0 b hb j hj, b1 b hb j hj, b2 b hb j hj]
      simp only [gruCell, h0, mul_zero, add_zero]
      rfl
  have ci : ∀ n < 3, ∀ b < B, ∀ j < H, splitCols H n (fcM I t (catRows H wi) (catRows H bi)) b j = (∑ k ∈ range I, x b k * p.wih (n * H + j) k) + p.bih (n * H + j) := by
    intro n hn b hb j hj
    simp only [splitCols, fcM, tflFc, hwi, hbi, catRows_chunk _ _ _ _ _ _ hn hj, sumI b hb n hn j hj, hV n hn j hj]
  have ch : ∀ n < 3, ∀ b < B, ∀ j < H, splitCols H n (fcM H st (catRows H wr) (catRows H br)) b j = (∑ k ∈ range H, σ b k * p.whh (n * H + j) k) + p.bhh (n * H + j) := by
    intro n hn b hb j hj
    simp only [splitCols, fcM, tflFc, hwr, hbr, catRows_chunk _ _ _ _ _ _ hn hj, sumH b hb n hn j hj, hY n hn j hj]
  have si : ∀ n < 3, ∀ b < B, ∀ j < H, fcM I t (wi.getD n (fun _ _ => 0)) (bi.getD n (fun _ _ => 0)) b j = (∑ k ∈ range I, x b k * p.wih (n * H + j) k) + p.bih (n * H + j) := by
    intro n hn b hb j hj
    simp only [fcM, tflFc, hwi, hbi, getD_range_map _ _ _ _ hn, sumI b hb n hn j hj, hV n hn j hj]
  have sh : ∀ n < 3, ∀ b < B, ∀ j < H, fcM H st (wr.getD n (fun _ _ => 0)) (br.getD n (fun _ _ => 0)) b j = (∑ k ∈ range H, σ b k * p.whh (n * H + j) k) + p.bhh (n * H + j) := by
    intro n hn b hb j hj
    simp only [fcM, tflFc, hwr, hbr, getD_range_map _ _ _ _ hn, sumH b hb n hn j hj, hY n hn j hj]
  have sh0 : (first && !computeH) = true → ∀ n < 3, ∀ b < B, ∀ j < H, (br.getD n (fun _ _ => 0)) j 0 = (∑ k ∈ range H, σ b k * p.whh (n * H + j) k) + p.bhh (n * H + j) := by
    intro hf n hn b hb j hj
    rw [sumH0 hf b hb n hn j hj, zero_add, hbr, getD_range_map _ _ _ _ hn, hY n hn j hj]
  unfold gruStep
  cases sep
  · exact ⟨_, rfl, fin _ _ _ _ _ _ _ rfl (ci 0 (by omega)) (ci 1 (by omega)) (ci 2 (by omega)) (ch 0 (by omega)) (ch 1 (by omega)) (ch 2 (by omega))⟩
  · cases hsk : (first && !computeH)
    · exact ⟨_, rfl, fin _ _ _ _ _ _ false hsk.symm (si 0 (by omega)) (si 1 (by omega)) (si 2 (by omega)) (sh 0 (by omega)) (sh 1 (by omega)) (sh 2 (by omega))⟩
    · exact ⟨_, rfl, fin _ _ _ (fun _ j => (br.getD 0 (fun _ _ => 0)) j 0) (fun _ j => (br.getD 1 (fun _ _ => 0)) j 0) (fun _ j => (br.getD 2 (fun _ _ => 0)) j 0) true hsk.symm
        (si 0 (by omega)) (si 1 (by omega)) (si 2 (by omega)) (sh0 hsk 0 (by omega)) (sh0 hsk 1 (by omega)) (sh0 hsk 2 (by omega))⟩

def torchGruCell (sg th : R → R) (c : RnnCfg) (params : Nat → Mat R) (l : Nat) (back : Bool) : (Nat → R) → (Nat → R) → (Nat → R) :=
  gruCell sg th (torchParams c.hasBias c.bidir params l back) (layerWidth c.I c.H c.bidir l) c.H

def torchGruInit (c : RnnCfg) (states : Nat → StateIn R) (b l : Nat) (back : Bool) : Nat → R := stateVal (states (l * (if c.bidir then 2 else 1) + (if back then 1 else 0))) b

/-- The sequence PyTorch's GRU returns, row `b`. -/
def torchGru (sg th : R → R) (c : RnnCfg) (params : Nat → Mat R) (states : Nat → StateIn R) (x : Nat → Nat → Nat → R) (b l : Nat) : Nat → Nat → R :=
  layerInput (fun h => h) c.H c.T c.bidir (torchGruCell sg th c params) (torchGruInit c states b) (fun s => seqAt c.batchFirst x s b) l

omit [CommRing R] [DecidableEq R] in
theorem gru_init (c : RnnCfg) (states : Nat → StateIn R) (b l d : Nat) (hd : d < c.dirs) : torchGruInit c states b l (d == 1) = stateVal (states (l * c.dirs + d)) b := by
  have h1 : (if (d == 1) = true then 1 else 0) = d := by
    have : d = 0 ∨ d = 1 := by rcases dirs_cases c with h | h <;> omega
    rcases this with rfl | rfl <;> simp
  unfold torchGruInit
  rw [h1]
  rfl

theorem gruRun_spec (sg th : R → R) (sep : Bool) (c : RnnCfg) (params : Nat → Mat R) (states : Nat → StateIn R) (init : Nat → Nat → Bool → Nat → R)
    (hinit : ∀ l < c.layers, ∀ d < c.dirs, ∀ b < c.B, ∀ j < c.H, (states (l * c.dirs + d)).slot.value b j = init b l (d == 1) j) :
    ∀ l < c.layers, ∀ d < c.dirs, ∀ ts (z : Nat → Nat → Nat → R), ts.length = c.T → (∀ t < c.T, ∀ b < c.B, ∀ k < layerWidth c.I c.H c.bidir l, (ts.getD t (fun _ _ => 0)) b k = z t b k) →
      ∃ hs e, gruRun sg th sep c params states l d (l * c.dirs * c.step) ts = some (hs, e) ∧ hs.length = c.T ∧
        (∀ t < c.T, ∀ b < c.B, ∀ j < c.H, (hs.getD t (fun _ _ => 0)) b j = dirOut (fun h => h) (torchGruCell sg th c params l (d == 1)) c.T (d == 1) (fun s => z s b) (init b l (d == 1)) t j) ∧
        AgreeH c.B c.H e (fun b => dirFinal (torchGruCell sg th c params l (d == 1)) c.T (d == 1) (fun s => z s b) (init b l (d == 1))) := by
  intro l hl d hd ts z hT hin
  set off := l * c.dirs * c.step with hoffdef
  have hoff : off + d * c.step = (l * c.dirs + d) * c.step := by simp only [hoffdef]; ring
  set s0 := (states (l * c.dirs + d)).slot with hs0
  have hstep : ∀ (first : Bool) (t : Mat R) x st σ, AgreeIn c.B (layerWidth c.I c.H c.bidir l) t x → AgreeH c.B c.H st σ →
      ((first && !s0.computed c.B c.H) = true → ∀ b < c.B, ∀ j < c.H, σ b j = 0) →
      ∃ st', gruStep sg th sep (layerWidth c.I c.H c.bidir l) c.H ((List.range 3).map (fun n => chunkRows c.H n (params (off + d * c.step))))
        ((List.range 3).map (fun n => chunkRows c.H n (params (off + d * c.step + 1))))
        ((List.range 3).map (fun n => if c.hasBias then chunkRows c.H n (params (off + d * c.step + 2)) else fun _ _ => 0))
        ((List.range 3).map (fun n => if c.hasBias then chunkRows c.H n (params (off + d * c.step + 3)) else fun _ _ => 0))
        (s0.computed c.B c.H) first t st = some st' ∧ AgreeH c.B c.H st' (fun b => torchGruCell sg th c params l (d == 1) (x b) (σ b)) := by
    intro first t x st σ hx hst h0
    refine gruStep_spec sg th sep (torchParams c.hasBias c.bidir params l (d == 1)) c.B _ c.H _ _ _ _ _ first t x st σ _ _ _ _ rfl rfl rfl rfl ?_ ?_ ?_ ?_ hx hst h0
    · intro n _ j _ k; rw [torch_params c params l d hd, hoff]; rfl
    · intro n _ j _ k; rw [torch_params c params l d hd, hoff]; rfl
    · intro n _ j _
      rw [torch_params c params l d hd, hoff]
      cases c.hasBias <;> simp [chunkRows]
    · intro n _ j _
      rw [torch_params c params l d hd, hoff]
      cases c.hasBias <;> simp [chunkRows]
  have hA : AgreeH c.B c.H s0.value (fun b => init b l (d == 1)) := hinit l hl d hd
  have z0 : s0.computed c.B c.H = false → ∀ b < c.B, ∀ j < c.H, init b l (d == 1) j = 0 := by
    intro h b hb j hj
    have := hA b hb j hj
    simp only at this
    rw [← this]
    exact computed_false _ _ _ h b hb j hj
  obtain ⟨hs, e, r1, r2, r3, r4⟩ := unrollDir_spec _ id (torchGruCell sg th c params l (d == 1)) (AgreeH c.B c.H) (AgreeIn c.B (layerWidth c.I c.H c.bidir l))
    (fun t x st σ hx hst => hstep false t x st σ hx hst (by simp)) ts c.T hT (d == 1) z s0.value (fun b => init b l (d == 1)) hin hA
    (fun t x hx => hstep true t x _ _ hx hA (fun h => z0 (by simpa using h)))
  refine ⟨hs, e, r1, r2, ?_, r4⟩
  intro t ht b hb j hj
  obtain ⟨st', a1, a2⟩ := r3 t ht
  rw [a2]
  exact a1 b hb j hj

theorem gru_any (sg th : R → R) (sep : Bool) (c : RnnCfg) (params : Nat → Mat R) (states : Nat → StateIn R) (x : Nat → Nat → Nat → R) (init : Nat → Nat → Bool → Nat → R)
    (hinit : ∀ l < c.layers, ∀ d < c.dirs, ∀ b < c.B, ∀ j < c.H, (states (l * c.dirs + d)).slot.value b j = init b l (d == 1) j) :
    ∃ out fin, convertGru sg th sep c c.numParams params states x = some (out, fin) ∧
      (∀ t < c.T, ∀ b < c.B, ∀ j < layerWidth c.I c.H c.bidir c.layers, seqAt c.batchFirst out t b j
        = layerInput (fun h => h) c.H c.T c.bidir (torchGruCell sg th c params) (init b) (fun s => seqAt c.batchFirst x s b) c.layers t j) ∧
      ∀ l < c.layers, ∀ d < c.dirs, ∃ e, fin[l * c.dirs + d]? = some e ∧
        AgreeH c.B c.H e (fun b => dirFinal (torchGruCell sg th c params l (d == 1)) c.T (d == 1)
          (layerInput (fun h => h) c.H c.T c.bidir (torchGruCell sg th c params) (init b) (fun s => seqAt c.batchFirst x s b) l) (init b l (d == 1))) := by
  obtain ⟨out, fin, h1, h2, _, h4⟩ := unrollLayers_spec c (gruRun sg th sep c params states) (fun h => h) (torchGruCell sg th c params) init (AgreeH c.B c.H) x
    (gruRun_spec sg th sep c params states init hinit) c.layers 0 x none (by omega) (fun _ t _ b _ k _ => rfl) (by simp)
  refine ⟨out, fin, ?_, h2, ?_⟩
  · unfold convertGru
    rw [if_neg (by simp)]
    simpa using h1
  · intro l hl d hd
    have := h4 l hl d hd
    rw [Nat.zero_add] at this
    exact this

/-- **C59** Every converted GRU returns PyTorch's sequence and final states, if the constant initial states are zero: any number of layers, one or two directions, with or without biases,
either layout, gates computed together or apart. -/
theorem C59_gru_partial (sg th : R → R) (sep : Bool) (c : RnnCfg) (params : Nat → Mat R) (states : Nat → StateIn R) (x : Nat → Nat → Nat → R)
    (hz : ∀ i < c.layers * c.dirs, ZeroOrTensor c.B c.H (states i)) :
    ∃ out fin, convertGru sg th sep c c.numParams params states x = some (out, fin) ∧
      (∀ t < c.T, ∀ b < c.B, ∀ j < layerWidth c.I c.H c.bidir c.layers, seqAt c.batchFirst out t b j = torchGru sg th c params states x b c.layers t j) ∧
      ∀ l < c.layers, ∀ d < c.dirs, ∃ e, fin[l * c.dirs + d]? = some e ∧
        AgreeH c.B c.H e (fun b => dirFinal (torchGruCell sg th c params l (d == 1)) c.T (d == 1) (torchGru sg th c params states x b l) (torchGruInit c states b l (d == 1))) := by
  refine gru_any sg th sep c params states x _ (fun l hl d hd b hb j hj => ?_)
  rw [gru_init c states b l d hd]
  exact slot_value _ _ _ (hz _ (layer_index c l d hl hd)) b hb j hj

example (m : Mat ℤ) : ∀ i < exCfg.layers * exCfg.dirs, ZeroOrTensor exCfg.B exCfg.H ((fun i => if i = 0 then StateIn.tensor m else StateIn.constant (fun _ _ => (0 : ℤ))) i) := by
  intro i _
  by_cases h : i = 0
  · simp [h, ZeroOrTensor]
  · simp [h, ZeroOrTensor]

/-- One step: with weights 1 and `σ = tanh = id`, input 2 and state 3: `r = z = 5`, `n = 2 + 5 * 3 = 17`, `h' = (1 - 5) * 17 + 5 * 3`. -/
example : (convertGru (id : ℤ → ℤ) id true { hasBias := false, layers := 1, bidir := false, batchFirst := false, B := 1, T := 1, I := 1, H := 1 } 2 (fun _ _ _ => 1)
    (fun _ => StateIn.tensor (fun _ _ => 3)) (fun _ _ _ => 2)).map (fun r => (r.1 0 0 0, r.2.map (fun e => e 0 0))) = some (-53, [-53]) := by decide

/-- A constant initial state that is not zero is lost.  With all weights zero and `h0 = 1`, PyTorch returns `σ(0)`, the converted model 0. -/
theorem C59_constant_state_false (sg th : R → R) (h2 : th 0 = 0) (h3 : sg 0 ≠ 0) :
    ∃ (states : Nat → StateIn R) (params : Nat → Mat R) (x : Nat → Nat → Nat → R) (out : Nat → Nat → Nat → R) (fin : List (Mat R)),
      convertGru sg th false oneCfg oneCfg.numParams params states x = some (out, fin) ∧ out 0 0 0 ≠ torchGru sg th oneCfg params states x 0 1 0 0 := by
  obtain ⟨out, fin, a1, a2, _⟩ := gru_any sg th false oneCfg (fun _ _ _ => 0) (fun _ => .constant (fun _ _ => 1)) (fun _ _ _ => 0) (fun _ _ _ _ => 0) (fun _ _ _ _ _ _ _ _ => rfl)
  refine ⟨_, _, _, out, fin, a1, ?_⟩
  have ht : torchGru sg th oneCfg (fun _ _ _ => 0) (fun _ => .constant (fun _ _ => 1)) (fun _ _ _ => 0) 0 1 0 0 = sg 0 := by
    simp [torchGru, layerInput, dirOut, oneCfg, stateAfter, dirSeq, torchGruCell, gruCell, lstmGate, torchParams, torchGruInit, stateVal, h2]
  have hz : layerInput (fun h => h) oneCfg.H oneCfg.T oneCfg.bidir (torchGruCell sg th oneCfg (fun _ _ _ => 0)) (fun _ _ _ => (0 : R))
      (fun s => seqAt oneCfg.batchFirst (fun _ _ _ => 0) s 0) 1 0 0 = 0 := by
    simp [layerInput, dirOut, oneCfg, stateAfter, dirSeq, torchGruCell, gruCell, lstmGate, torchParams, h2]
  have o1 : out 0 0 0 = 0 := (a2 0 (by decide) 0 (by decide) 0 (by decide)).trans hz
  rw [ht, o1]
  exact h3.symm

end Verif.Props
