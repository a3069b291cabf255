import Verif.Lemmas.Rnn

/-! C58 and C59: LSTM and GRU. -/

namespace Verif.Props
open Verif.Model Verif.Spec Verif.Lemmas Finset

variable {R : Type} [CommRing R] [DecidableEq R]

/-! ### reading the slots -/

/-- What the layer's input list holds. -/
structure SlotsOk (c : RnnCfg) (params : Nat → Mat R) (states : Nat → Nat → StateIn R) (l off : Nat) (slots : List (Slot R)) : Prop where
  wih : ∀ d < c.dirs, ∀ n < 4, slotAt slots (lstmInputStart d + n) = .const (chunkRows c.H n (params (off + d * c.step)))
  whh : ∀ d < c.dirs, ∀ n < 4, slotAt slots (lstmInputStart d + 4 + n) = .const (chunkRows c.H n (params (off + d * c.step + 1)))
  bias : ∀ d < c.dirs, ∀ n < 4, slotAt slots (lstmInputStart d + 11 + n)
    = .const (if c.hasBias then chunkRows c.H n (fun j k => params (off + d * c.step + 2) j k + params (off + d * c.step + 3) j k) else fun _ _ => 0)
  state : ∀ d < c.dirs, ∀ k < 2, slotAt slots (lstmStateStart c + d * c.dirs + k) = (states k (l * c.dirs + d)).slot

omit [DecidableEq R] in
theorem lstmSlots_ok (c : RnnCfg) (params : Nat → Mat R) (states : Nat → Nat → StateIn R) (l off : Nat) : SlotsOk c params states l off (lstmSlots c params states l off) := by
  rcases dirs_cases c with ⟨hb, hd⟩ | ⟨hb, hd⟩
  · constructor <;> intro d hd' n hn <;> rw [hd] at hd' <;> interval_cases d <;> interval_cases n <;>
      simp [lstmSlots, hd, hb, List.range_succ, lstmInputStart, lstmStateStart, lstmInputHelper, slotAt]
  · constructor <;> intro d hd' n hn <;> rw [hd] at hd' <;> interval_cases d <;> interval_cases n <;>
      simp [lstmSlots, hd, hb, List.range_succ, lstmInputStart, lstmStateStart, lstmInputHelper, slotAt]

/-! ### one step -/

omit [DecidableEq R] in
theorem catRows_chunk (H n m : Nat) (W : Nat → Mat R) (j k : Nat) (hn : n < m) (hj : j < H) :
    catRows H ((List.range m).map W) (n * H + j) k = W n j k := by
  have h1 : (n * H + j) / H = n := by
    rw [Nat.add_comm, Nat.add_mul_div_right _ _ (by omega), Nat.div_eq_of_lt hj, Nat.zero_add]
  have h2 : (n * H + j) % H = j := by
    rw [Nat.add_comm, Nat.add_mul_mod_self_right, Nat.mod_eq_of_lt hj]
  unfold catRows
  rw [h1, h2, getD_range_map _ _ _ _ hn]

/-- The state `(h, c)` agrees with the specification's, row by row. -/
def AgreeHC (B H : Nat) (st : Mat R × Mat R) (σ : Nat → (Nat → R) × (Nat → R)) : Prop := ∀ b < B, ∀ j < H, st.1 b j = (σ b).1 j ∧ st.2 b j = (σ b).2 j

def AgreeIn (B I : Nat) (t : Mat R) (x : Nat → Nat → R) : Prop := ∀ b < B, ∀ k < I, t b k = x b k

omit [DecidableEq R] in
/-- The fused weights of one direction as a step sees them, against PyTorch's parameters. -/
theorem lstmStep_spec (sg th : R → R) (sep : Bool) (p : RnnParams R) (B I H : Nat) (wi wr bi : List (Mat R)) (computeH computeC first : Bool) (t : Mat R) (x : Nat → Nat → R) (st : Mat R × Mat R)
    (σ : Nat → (Nat → R) × (Nat → R)) (W U V : Nat → Mat R) (hwi : wi = (List.range 4).map W) (hwr : wr = (List.range 4).map U) (hbi : bi = (List.range 4).map V)
    (hW : ∀ n < 4, ∀ j < H, ∀ k, W n j k = p.wih (n * H + j) k) (hU : ∀ n < 4, ∀ j < H, ∀ k, U n j k = p.whh (n * H + j) k) (hV : ∀ n < 4, ∀ j < H, V n j 0 = p.bih (n * H + j) + p.bhh (n * H + j))
    (ht : AgreeIn B I t x) (hst : AgreeHC B H st σ)
    (hh : (first && !computeH) = true → ∀ b < B, ∀ j < H, (σ b).1 j = 0) (hc : (first && !computeC) = true → ∀ b < B, ∀ j < H, (σ b).2 j = 0)
    (hsep : ¬ (sep = true ∧ first = true ∧ computeH = true ∧ computeC = false)) :
    ∃ st', lstmStep sg th sep I H wi wr bi computeH computeC first t st = some st' ∧ AgreeHC B H st' (fun b => lstmCell sg th p I H (x b) (σ b)) := by
  -- the values of a gate, concatenated and separate, with and without the recurrent part
  have sumI : ∀ b < B, ∀ n < 4, ∀ j < H, (∑ k ∈ range I, t b k * W n j k) = ∑ k ∈ range I, x b k * p.wih (n * H + j) k := by
    intro b hb n hn j hj
    refine Finset.sum_congr rfl (fun k hk => ?_)
    rw [ht b hb k (by simpa using hk), hW n hn j hj]
  have sumH : ∀ b < B, ∀ n < 4, ∀ j < H, (∑ k ∈ range H, st.1 b k * U n j k) = ∑ k ∈ range H, (σ b).1 k * p.whh (n * H + j) k := by
    intro b hb n hn j hj
    refine Finset.sum_congr rfl (fun k hk => ?_)
    rw [(hst b hb k (by simpa using hk)).1, hU n hn j hj]
  have sumH0 : (first && !computeH) = true → ∀ b < B, ∀ n < 4, ∀ j < H, (∑ k ∈ range H, (σ b).1 k * p.whh (n * H + j) k) = 0 := by
    intro hf b hb n hn j hj
    refine Finset.sum_eq_zero (fun k hk => ?_)
    rw [hh hf b hb k (by simpa using hk), zero_mul]
  have gcat : ∀ b < B, ∀ n < 4, ∀ j < H, (first && !computeH) = false →
      splitCols H n (addM (fcM I t (catRows H wi) (catRows H bi)) (fcM H st.1 (catRows H wr) (fun _ _ => 0))) b j = lstmGate p I H n (x b) (σ b).1 j := by
    intro b hb n hn j hj _
    simp only [splitCols, addM, fcM, tflFc, hwi, hwr, hbi, catRows_chunk _ _ _ _ _ _ hn hj, sumI b hb n hn j hj, sumH b hb n hn j hj, hV n hn j hj, lstmGate]
    ring
  have gcat0 : ∀ b < B, ∀ n < 4, ∀ j < H, (first && !computeH) = true →
      splitCols H n (fcM I t (catRows H wi) (catRows H bi)) b j = lstmGate p I H n (x b) (σ b).1 j := by
    intro b hb n hn j hj hf
    simp only [splitCols, fcM, tflFc, hwi, hbi, catRows_chunk _ _ _ _ _ _ hn hj, sumI b hb n hn j hj, hV n hn j hj, lstmGate, sumH0 hf b hb n hn j hj]
    ring
  have gsep : ∀ b < B, ∀ n < 4, ∀ j < H,
      addM (fcM I t (wi.getD n (fun _ _ => 0)) (bi.getD n (fun _ _ => 0))) (fcM H st.1 (wr.getD n (fun _ _ => 0)) (fun _ _ => 0)) b j = lstmGate p I H n (x b) (σ b).1 j := by
    intro b hb n hn j hj
    simp only [addM, fcM, tflFc, hwi, hwr, hbi, getD_range_map _ _ _ _ hn, sumI b hb n hn j hj, sumH b hb n hn j hj, hV n hn j hj, lstmGate]
    ring
  have gsep0 : ∀ b < B, ∀ n < 4, ∀ j < H, (first && !computeH) = true →
      fcM I t (wi.getD n (fun _ _ => 0)) (bi.getD n (fun _ _ => 0)) b j = lstmGate p I H n (x b) (σ b).1 j := by
    intro b hb n hn j hj hf
    simp only [fcM, tflFc, hwi, hbi, getD_range_map _ _ _ _ hn, sumI b hb n hn j hj, hV n hn j hj, lstmGate, sumH0 hf b hb n hn j hj]
    ring
  -- from the four gates to the new state
  have fin : ∀ (g0 g1 g2 g3 : Mat R) (skipC : Bool), skipC = (first && !computeC) → (∀ b < B, ∀ j < H, g0 b j = lstmGate p I H 0 (x b) (σ b).1 j) →
      (skipC = false → ∀ b < B, ∀ j < H, g1 b j = lstmGate p I H 1 (x b) (σ b).1 j) → (∀ b < B, ∀ j < H, g2 b j = lstmGate p I H 2 (x b) (σ b).1 j) →
      (∀ b < B, ∀ j < H, g3 b j = lstmGate p I H 3 (x b) (σ b).1 j) →
      AgreeHC B H (mulM (mapM1 sg g3) (mapM1 th (if skipC then mulM (mapM1 sg g0) (mapM1 th g2) else addM (mulM (mapM1 sg g1) st.2) (mulM (mapM1 sg g0) (mapM1 th g2)))),
        if skipC then mulM (mapM1 sg g0) (mapM1 th g2) else addM (mulM (mapM1 sg g1) st.2) (mulM (mapM1 sg g0) (mapM1 th g2)))
        (fun b => lstmCell sg th p I H (x b) (σ b)) := by
    intro g0 g1 g2 g3 skipC hs h0 h1 h2 h3 b hb j hj
    have e : (if skipC then mulM (mapM1 sg g0) (mapM1 th g2) else addM (mulM (mapM1 sg g1) st.2) (mulM (mapM1 sg g0) (mapM1 th g2))) b j
        = sg (lstmGate p I H 1 (x b) (σ b).1 j) * (σ b).2 j + sg (lstmGate p I H 0 (x b) (σ b).1 j) * th (lstmGate p I H 2 (x b) (σ b).1 j) := by
      cases skipC
      · simp only [Bool.false_eq_true, if_false, addM, mulM, mapM1, h0 b hb j hj, h1 rfl b hb j hj, h2 b hb j hj, (hst b hb j hj).2]
      · simp only [if_true, mulM, mapM1, h0 b hb j hj, h2 b hb j hj, hc hs.symm b hb j hj, mul_zero, zero_add]
    refine ⟨?_, e⟩
    show sg (g3 b j) * th _ = _
    rw [e, h3 b hb j hj]
    rfl
  unfold lstmStep
  cases sep
  · cases hsk : (first && !computeH)
    · cases hsc : (first && !computeC)
      · exact ⟨_, rfl, fin _ _ _ _ false hsc.symm (fun b hb j hj => gcat b hb 0 (by omega) j hj hsk) (fun _ b hb j hj => gcat b hb 1 (by omega) j hj hsk)
          (fun b hb j hj => gcat b hb 2 (by omega) j hj hsk) (fun b hb j hj => gcat b hb 3 (by omega) j hj hsk)⟩
      · exact ⟨_, rfl, fin _ (fun _ _ => 0) _ _ true hsc.symm (fun b hb j hj => gcat b hb 0 (by omega) j hj hsk) (by simp)
          (fun b hb j hj => gcat b hb 2 (by omega) j hj hsk) (fun b hb j hj => gcat b hb 3 (by omega) j hj hsk)⟩
    · cases hsc : (first && !computeC)
      · exact ⟨_, rfl, fin _ _ _ _ false hsc.symm (fun b hb j hj => gcat0 b hb 0 (by omega) j hj hsk) (fun _ b hb j hj => gcat0 b hb 1 (by omega) j hj hsk)
          (fun b hb j hj => gcat0 b hb 2 (by omega) j hj hsk) (fun b hb j hj => gcat0 b hb 3 (by omega) j hj hsk)⟩
      · exact ⟨_, rfl, fin _ (fun _ _ => 0) _ _ true hsc.symm (fun b hb j hj => gcat0 b hb 0 (by omega) j hj hsk) (by simp)
          (fun b hb j hj => gcat0 b hb 2 (by omega) j hj hsk) (fun b hb j hj => gcat0 b hb 3 (by omega) j hj hsk)⟩
  · cases hsk : (first && !computeH)
    · cases hsc : (first && !computeC)
      · exact ⟨_, rfl, fin _ _ _ _ false hsc.symm (fun b hb j hj => gsep b hb 0 (by omega) j hj) (fun _ b hb j hj => gsep b hb 1 (by omega) j hj)
          (fun b hb j hj => gsep b hb 2 (by omega) j hj) (fun b hb j hj => gsep b hb 3 (by omega) j hj)⟩
      · exfalso
        apply hsep
        cases first <;> cases computeH <;> cases computeC <;> simp_all
    · cases hsc : (first && !computeC)
      · exact ⟨_, rfl, fin _ _ _ _ false hsc.symm (fun b hb j hj => gsep0 b hb 0 (by omega) j hj hsk) (fun _ b hb j hj => gsep0 b hb 1 (by omega) j hj hsk)
          (fun b hb j hj => gsep0 b hb 2 (by omega) j hj hsk) (fun b hb j hj => gsep0 b hb 3 (by omega) j hj hsk)⟩
      · exact ⟨_, rfl, fin _ (fun _ _ => 0) _ _ true hsc.symm (fun b hb j hj => gsep0 b hb 0 (by omega) j hj hsk) (by simp)
          (fun b hb j hj => gsep0 b hb 2 (by omega) j hj hsk) (fun b hb j hj => gsep0 b hb 3 (by omega) j hj hsk)⟩

/-! ### the whole LSTM -/

/-- The initial state PyTorch uses. -/
def stateVal : StateIn R → Mat R
  | .tensor m => m
  | .constant m => m

/-- A state the converter handles correctly: computed in the graph, or a constant that is zero everywhere. -/
def ZeroOrTensor (B H : Nat) (s : StateIn R) : Prop := match s with
  | .tensor _ => True
  | .constant m => ∀ b < B, ∀ j < H, m b j = 0

omit [DecidableEq R] in
theorem slot_value (B H : Nat) (s : StateIn R) (h : ZeroOrTensor B H s) : ∀ b < B, ∀ j < H, s.slot.value b j = stateVal s b j := by
  intro b hb j hj
  cases s with
  | tensor m => rfl
  | constant m => exact (h b hb j hj).symm

theorem computed_false (B H : Nat) (s : Slot R) (h : s.computed B H = false) : ∀ b < B, ∀ j < H, s.value b j = 0 := by
  intro b hb j hj
  cases s with
  | run m => simp [Slot.computed] at h
  | absent => rfl
  | var m => rfl
  | const m =>
    simp only [Slot.computed, List.any_eq_false, List.mem_range] at h
    have := h b hb
    simp only [List.any_eq_true, List.mem_range, not_exists, not_and, decide_eq_true_eq, not_not] at this
    exact this j hj

/-- `init` gives, for every row, layer and direction, the contents of the state tensors at run time. -/
def InitOk (c : RnnCfg) (states : Nat → Nat → StateIn R) (init : Nat → Nat → Bool → (Nat → R) × (Nat → R)) : Prop :=
  ∀ l < c.layers, ∀ d < c.dirs, ∀ b < c.B, ∀ j < c.H, (states 0 (l * c.dirs + d)).slot.value b j = (init b l (d == 1)).1 j ∧ (states 1 (l * c.dirs + d)).slot.value b j = (init b l (d == 1)).2 j

/-- PyTorch's LSTM on row `b` of the batch: the initial states and cells of the stack. -/
def torchLstmInit (c : RnnCfg) (states : Nat → Nat → StateIn R) (b l : Nat) (back : Bool) : (Nat → R) × (Nat → R) :=
  let i := l * (if c.bidir then 2 else 1) + (if back then 1 else 0)
  (stateVal (states 0 i) b, stateVal (states 1 i) b)

def torchLstmCell (sg th : R → R) (c : RnnCfg) (params : Nat → Mat R) (l : Nat) (back : Bool) : (Nat → R) → (Nat → R) × (Nat → R) → (Nat → R) × (Nat → R) :=
  lstmCell sg th (torchParams c.hasBias c.bidir params l back) (layerWidth c.I c.H c.bidir l) c.H

/-- The sequence PyTorch's LSTM returns, row `b`. -/
def torchLstm (sg th : R → R) (c : RnnCfg) (params : Nat → Mat R) (states : Nat → Nat → StateIn R) (x : Nat → Nat → Nat → R) (b l : Nat) : Nat → Nat → R :=
  layerInput (·.1) c.H c.T c.bidir (torchLstmCell sg th c params) (torchLstmInit c states b) (fun s => seqAt c.batchFirst x s b) l

omit [DecidableEq R] in
theorem torch_params (c : RnnCfg) (params : Nat → Mat R) (l d : Nat) (hd : d < c.dirs) :
    torchParams c.hasBias c.bidir params l (d == 1) = ⟨params ((l * c.dirs + d) * c.step), params ((l * c.dirs + d) * c.step + 1),
      fun j => if c.hasBias then params ((l * c.dirs + d) * c.step + 2) j 0 else 0, fun j => if c.hasBias then params ((l * c.dirs + d) * c.step + 3) j 0 else 0⟩ := by
  have h2 : c.dirs = if c.bidir then 2 else 1 := rfl
  have h1 : (if (d == 1) = true then 1 else 0) = d := by
    have : d = 0 ∨ d = 1 := by rcases dirs_cases c with h | h <;> omega
    rcases this with rfl | rfl <;> simp
  unfold torchParams
  rw [h1]
  rfl

omit [CommRing R] [DecidableEq R] in
theorem torch_init (c : RnnCfg) (states : Nat → Nat → StateIn R) (b l d : Nat) (hd : d < c.dirs) :
    torchLstmInit c states b l (d == 1) = (stateVal (states 0 (l * c.dirs + d)) b, stateVal (states 1 (l * c.dirs + d)) b) := by
  have h1 : (if (d == 1) = true then 1 else 0) = d := by
    have : d = 0 ∨ d = 1 := by rcases dirs_cases c with h | h <;> omega
    rcases this with rfl | rfl <;> simp
  unfold torchLstmInit
  rw [h1]
  rfl

/-- With separate gate computations, the converter cannot handle a state `h` that is not constant zero together with a constant zero state `c`. -/
def SepOk (sep : Bool) (c : RnnCfg) (states : Nat → Nat → StateIn R) : Prop :=
  sep = true → ∀ i < c.layers * c.dirs, (states 0 i).slot.computed c.B c.H = true → (states 1 i).slot.computed c.B c.H = true

theorem lstmRun_spec (sg th : R → R) (sep : Bool) (c : RnnCfg) (params : Nat → Mat R) (states : Nat → Nat → StateIn R)
    (init : Nat → Nat → Bool → (Nat → R) × (Nat → R)) (hinit : InitOk c states init) (hsep : SepOk sep c states) :
    ∀ l < c.layers, ∀ d < c.dirs, ∀ ts (z : Nat → Nat → Nat → R), ts.length = c.T → (∀ t < c.T, ∀ b < c.B, ∀ k < layerWidth c.I c.H c.bidir l, (ts.getD t (fun _ _ => 0)) b k = z t b k) →
      ∃ hs e, lstmRun sg th sep c params states l d (l * c.dirs * c.step) ts = some (hs, e) ∧ hs.length = c.T ∧
        (∀ t < c.T, ∀ b < c.B, ∀ j < c.H, (hs.getD t (fun _ _ => 0)) b j = dirOut (·.1) (torchLstmCell sg th c params l (d == 1)) c.T (d == 1) (fun s => z s b) (init b l (d == 1)) t j) ∧
        AgreeHC c.B c.H e (fun b => dirFinal (torchLstmCell sg th c params l (d == 1)) c.T (d == 1) (fun s => z s b) (init b l (d == 1))) := by
  intro l hl d hd ts z hT hin
  set off := l * c.dirs * c.step
  have hok := lstmSlots_ok c params states l off
  have hoff : off + d * c.step = (l * c.dirs + d) * c.step := by simp only [off]; ring
  have hi : l * c.dirs + d < c.layers * c.dirs := by
    calc l * c.dirs + d < l * c.dirs + c.dirs := by omega
      _ = (l + 1) * c.dirs := by ring
      _ ≤ _ := Nat.mul_le_mul_right _ hl
  have e0 := hok.state d hd 0 (by omega)
  have e1 := hok.state d hd 1 (by omega)
  rw [Nat.add_zero] at e0
  set p := torchParams c.hasBias c.bidir params l (d == 1) with hp
  have hpe := torch_params c params l d hd
  have hwi : (List.range 4).map (fun n => (slotAt (lstmSlots c params states l off) (lstmInputStart d + n)).data) = (List.range 4).map (fun n => chunkRows c.H n (params (off + d * c.step))) :=
    List.map_congr_left (fun n hn => by rw [hok.wih d hd n (by simpa using hn)]; rfl)
  have hwr : (List.range 4).map (fun n => (slotAt (lstmSlots c params states l off) (lstmInputStart d + 4 + n)).data) = (List.range 4).map (fun n => chunkRows c.H n (params (off + d * c.step + 1))) :=
    List.map_congr_left (fun n hn => by rw [hok.whh d hd n (by simpa using hn)]; rfl)
  have hbi : (List.range 4).map (fun n => (slotAt (lstmSlots c params states l off) (lstmInputStart d + 11 + n)).data)
      = (List.range 4).map (fun n => if c.hasBias then chunkRows c.H n (fun j k => params (off + d * c.step + 2) j k + params (off + d * c.step + 3) j k) else fun _ _ => 0) :=
    List.map_congr_left (fun n hn => by rw [hok.bias d hd n (by simpa using hn)]; rfl)
  set s0 := (states 0 (l * c.dirs + d)).slot
  set s1 := (states 1 (l * c.dirs + d)).slot
  have hstep : ∀ (first : Bool) (t : Mat R) x st σ, AgreeIn c.B (layerWidth c.I c.H c.bidir l) t x → AgreeHC c.B c.H st σ →
      ((first && !s0.computed c.B c.H) = true → ∀ b < c.B, ∀ j < c.H, (σ b).1 j = 0) → ((first && !s1.computed c.B c.H) = true → ∀ b < c.B, ∀ j < c.H, (σ b).2 j = 0) →
      ∃ st', lstmStep sg th sep (layerWidth c.I c.H c.bidir l) c.H ((List.range 4).map (fun n => chunkRows c.H n (params (off + d * c.step))))
        ((List.range 4).map (fun n => chunkRows c.H n (params (off + d * c.step + 1))))
        ((List.range 4).map (fun n => if c.hasBias then chunkRows c.H n (fun j k => params (off + d * c.step + 2) j k + params (off + d * c.step + 3) j k) else fun _ _ => 0))
        (s0.computed c.B c.H) (s1.computed c.B c.H) first t st = some st' ∧ AgreeHC c.B c.H st' (fun b => torchLstmCell sg th c params l (d == 1) (x b) (σ b)) := by
    intro first t x st σ hx hst h0 h1
    refine lstmStep_spec sg th sep p c.B _ c.H _ _ _ _ _ first t x st σ _ _ _ rfl rfl rfl ?_ ?_ ?_ hx hst h0 h1 ?_
    · intro n _ j _ k; rw [hp, hpe, hoff]; rfl
    · intro n _ j _ k; rw [hp, hpe, hoff]; rfl
    · intro n _ j _
      rw [hp, hpe, hoff]
      cases c.hasBias <;> simp [chunkRows]
    · rintro ⟨h1, _, h3, h4⟩
      have := hsep h1 _ hi h3
      rw [h4] at this
      simp at this
  have hA : AgreeHC c.B c.H (s0.value, s1.value) (fun b => init b l (d == 1)) := by
    exact hinit l hl d hd
  have z0 : s0.computed c.B c.H = false → ∀ b < c.B, ∀ j < c.H, (init b l (d == 1)).1 j = 0 := by
    intro h b hb j hj
    rw [← (hA b hb j hj).1]
    exact computed_false _ _ _ h b hb j hj
  have z1 : s1.computed c.B c.H = false → ∀ b < c.B, ∀ j < c.H, (init b l (d == 1)).2 j = 0 := by
    intro h b hb j hj
    rw [← (hA b hb j hj).2]
    exact computed_false _ _ _ h b hb j hj
  obtain ⟨hs, e, r1, r2, r3, r4⟩ := unrollDir_spec _ (fun st : Mat R × Mat R => st.1) (torchLstmCell sg th c params l (d == 1)) (AgreeHC c.B c.H) (AgreeIn c.B (layerWidth c.I c.H c.bidir l))
    (fun t x st σ hx hst => hstep false t x st σ hx hst (by simp) (by simp)) ts c.T hT (d == 1) z (s0.value, s1.value) (fun b => init b l (d == 1)) hin hA
    (fun t x hx => hstep true t x _ _ hx hA (fun h => z0 (by simpa using h)) (fun h => z1 (by simpa using h)))
  refine ⟨hs, e, ?_, r2, ?_, r4⟩
  · unfold lstmRun
    simp only [hwi, hwr, hbi, e0, e1]
    exact r1
  · intro t ht b hb j hj
    obtain ⟨st', a1, a2⟩ := r3 t ht
    rw [a2]
    exact (a1 b hb j hj).1

theorem layer_index (c : RnnCfg) (l d : Nat) (hl : l < c.layers) (hd : d < c.dirs) : l * c.dirs + d < c.layers * c.dirs := by
  calc l * c.dirs + d < l * c.dirs + c.dirs := by omega
    _ = (l + 1) * c.dirs := by ring
    _ ≤ _ := Nat.mul_le_mul_right _ hl

omit [DecidableEq R] in
theorem torchInit_ok (c : RnnCfg) (states : Nat → Nat → StateIn R) (hz : ∀ k < 2, ∀ i < c.layers * c.dirs, ZeroOrTensor c.B c.H (states k i)) : InitOk c states (torchLstmInit c states) := by
  intro l hl d hd b hb j hj
  simp only [torch_init c states b l d hd]
  have hi := layer_index c l d hl hd
  exact ⟨slot_value _ _ _ (hz 0 (by omega) _ hi) b hb j hj, slot_value _ _ _ (hz 1 (by omega) _ hi) b hb j hj⟩

/-- The states with every constant replaced by zero. -/
def dropConst (states : Nat → Nat → StateIn R) : Nat → Nat → StateIn R := fun k i => match states k i with
  | .tensor m => .tensor m
  | .constant _ => .constant (fun _ _ => 0)

omit [DecidableEq R] in
theorem dropConst_ok (c : RnnCfg) (states : Nat → Nat → StateIn R) : InitOk c states (torchLstmInit c (dropConst states)) := by
  intro l hl d hd b hb j hj
  simp only [torch_init c _ b l d hd, dropConst]
  constructor
  · cases states 0 (l * c.dirs + d) <;> rfl
  · cases states 1 (l * c.dirs + d) <;> rfl

/-- The unrolled conversion, for whatever the state tensors hold. -/
theorem unrolled_any (sg th : R → R) (sep : Bool) (c : RnnCfg) (params : Nat → Mat R) (states : Nat → Nat → StateIn R) (x : Nat → Nat → Nat → R)
    (init : Nat → Nat → Bool → (Nat → R) × (Nat → R)) (hinit : InitOk c states init) (hsep : SepOk sep c states) :
    ∃ out fin, convertLstm sg th sep c c.numParams params states x = some (out, fin) ∧
      (∀ t < c.T, ∀ b < c.B, ∀ j < layerWidth c.I c.H c.bidir c.layers, seqAt c.batchFirst out t b j
        = layerInput (·.1) c.H c.T c.bidir (torchLstmCell sg th c params) (init b) (fun s => seqAt c.batchFirst x s b) c.layers t j) ∧
      ∀ l < c.layers, ∀ d < c.dirs, ∃ e, fin[l * c.dirs + d]? = some e ∧
        AgreeHC c.B c.H e (fun b => dirFinal (torchLstmCell sg th c params l (d == 1)) c.T (d == 1)
          (layerInput (·.1) c.H c.T c.bidir (torchLstmCell sg th c params) (init b) (fun s => seqAt c.batchFirst x s b) l) (init b l (d == 1))) := by
  obtain ⟨out, fin, h1, h2, _, h4⟩ := unrollLayers_spec c (lstmRun sg th sep c params states) (·.1) (torchLstmCell sg th c params) init (AgreeHC c.B c.H) x
    (lstmRun_spec sg th sep c params states init hinit hsep) c.layers 0 x none (by omega) (fun _ t _ b _ k _ => rfl) (by simp)
  refine ⟨out, fin, ?_, h2, ?_⟩
  · unfold convertLstm
    rw [if_neg (by simp)]
    simpa using h1
  · intro l hl d hd
    have := h4 l hl d hd
    rw [Nat.zero_add] at this
    exact this

/-- **C58, unrolled** Every LSTM that is converted with `unroll_rnn=True` - any number of layers, one or two directions, with or without biases, either layout, gates computed together or
apart - returns PyTorch's sequence and PyTorch's final states, in PyTorch's order, if every constant initial state is zero. -/
theorem C58_unrolled_partial (sg th : R → R) (sep : Bool) (c : RnnCfg) (params : Nat → Mat R) (states : Nat → Nat → StateIn R) (x : Nat → Nat → Nat → R)
    (hz : ∀ k < 2, ∀ i < c.layers * c.dirs, ZeroOrTensor c.B c.H (states k i)) (hsep : SepOk sep c states) :
    ∃ out fin, convertLstm sg th sep c c.numParams params states x = some (out, fin) ∧
      (∀ t < c.T, ∀ b < c.B, ∀ j < layerWidth c.I c.H c.bidir c.layers, seqAt c.batchFirst out t b j = torchLstm sg th c params states x b c.layers t j) ∧
      ∀ l < c.layers, ∀ d < c.dirs, ∃ e, fin[l * c.dirs + d]? = some e ∧
        AgreeHC c.B c.H e (fun b => dirFinal (torchLstmCell sg th c params l (d == 1)) c.T (d == 1) (torchLstm sg th c params states x b l) (torchLstmInit c states b l (d == 1))) :=
  unrolled_any sg th sep c params states x _ (torchInit_ok c states hz) hsep

/-! ### without unrolling -/

omit [DecidableEq R] in
/-- The kernel's step agrees with PyTorch's when its slots hold the chunks of the parameters. -/
theorem tflCell_agree (sg th : R → R) (slot : Nat → Mat R) (wi wr wb I H : Nat) (p : RnnParams R) (hW : ∀ n < 4, ∀ j < H, ∀ k, slot (wi + n) j k = p.wih (n * H + j) k)
    (hU : ∀ n < 4, ∀ j < H, ∀ k, slot (wr + n) j k = p.whh (n * H + j) k) (hV : ∀ n < 4, ∀ j < H, slot (wb + n) j 0 = p.bih (n * H + j) + p.bhh (n * H + j))
    (x x' : Nat → R) (s s' : (Nat → R) × (Nat → R)) (hx : ∀ k < I, x k = x' k) (hs : ∀ j < H, s.1 j = s'.1 j ∧ s.2 j = s'.2 j) :
    ∀ j < H, (tflLstmCell sg th slot wi wr wb I H x s).1 j = (lstmCell sg th p I H x' s').1 j ∧ (tflLstmCell sg th slot wi wr wb I H x s).2 j = (lstmCell sg th p I H x' s').2 j := by
  intro j hj
  have g : ∀ n < 4, (∑ k ∈ range I, x k * slot (wi + n) j k) + (∑ k ∈ range H, s.1 k * slot (wr + n) j k) + slot (wb + n) j 0 = lstmGate p I H n x' s'.1 j := by
    intro n hn
    have a : (∑ k ∈ range I, x k * slot (wi + n) j k) = ∑ k ∈ range I, x' k * p.wih (n * H + j) k :=
      Finset.sum_congr rfl (fun k hk => by rw [hx k (by simpa using hk), hW n hn j hj])
    have b : (∑ k ∈ range H, s.1 k * slot (wr + n) j k) = ∑ k ∈ range H, s'.1 k * p.whh (n * H + j) k :=
      Finset.sum_congr rfl (fun k hk => by rw [(hs k (by simpa using hk)).1, hU n hn j hj])
    rw [a, b, hV n hn j hj, lstmGate]
    ring
  simp only [tflLstmCell, lstmCell, g 0 (by omega), g 1 (by omega), g 2 (by omega), g 3 (by omega), (hs j hj).2, and_self]

omit [DecidableEq R] in
theorem tflState_agree (sg th : R → R) (slot : Nat → Mat R) (wi wr wb I H : Nat) (p : RnnParams R) (hW : ∀ n < 4, ∀ j < H, ∀ k, slot (wi + n) j k = p.wih (n * H + j) k)
    (hU : ∀ n < 4, ∀ j < H, ∀ k, slot (wr + n) j k = p.whh (n * H + j) k) (hV : ∀ n < 4, ∀ j < H, slot (wb + n) j 0 = p.bih (n * H + j) + p.bhh (n * H + j))
    (y y' : Nat → Nat → R) (s s' : (Nat → R) × (Nat → R)) (m : Nat) (hy : ∀ i < m, ∀ k < I, y i k = y' i k) (hs : ∀ j < H, s.1 j = s'.1 j ∧ s.2 j = s'.2 j) :
    ∀ j < H, (stateAfter (tflLstmCell sg th slot wi wr wb I H) y s m).1 j = (stateAfter (lstmCell sg th p I H) y' s' m).1 j ∧
      (stateAfter (tflLstmCell sg th slot wi wr wb I H) y s m).2 j = (stateAfter (lstmCell sg th p I H) y' s' m).2 j := by
  induction m with
  | zero => exact hs
  | succ m ih => exact tflCell_agree sg th slot wi wr wb I H p hW hU hV _ _ _ _ (hy m (by omega)) (ih (fun i hi => hy i (by omega)))

omit [DecidableEq R] in
theorem fusedLayer_spec (sg th : R → R) (mapBi : Bool) (c : RnnCfg) (params : Nat → Mat R) (states : Nat → Nat → StateIn R) (init : Nat → Nat → Bool → (Nat → R) × (Nat → R)) (hinit : InitOk c states init) (l : Nat) (hl : l < c.layers)
    (x : Nat → Nat → Nat → R) (z : Nat → Nat → Nat → R) (hx : ∀ t < c.T, ∀ b < c.B, ∀ k < layerWidth c.I c.H c.bidir l, seqAt c.batchFirst x t b k = z b t k) :
    ∀ t < c.T, ∀ b < c.B, ∀ j < layerWidth c.I c.H c.bidir (l + 1), seqAt c.batchFirst (fusedLayer sg th mapBi c params states l (l * c.dirs * c.step) x) t b j
      = if c.bidir && decide (c.H ≤ j) then dirOut (·.1) (torchLstmCell sg th c params l true) c.T true (z b) (init b l true) t (j - c.H)
        else dirOut (·.1) (torchLstmCell sg th c params l false) c.T false (z b) (init b l false) t j := by
  intro t ht b hb j hj
  set off := l * c.dirs * c.step with hoffdef
  have hok := lstmSlots_ok c params states l off
  set slots := lstmSlots c params states l off with hslots
  have hoff : ∀ d, off + d * c.step = (l * c.dirs + d) * c.step := by intro d; simp only [hoffdef]; ring
  -- the weights in the slots
  have hW : ∀ d < c.dirs, ∀ n < 4, ∀ j < c.H, ∀ k, (slotAt slots (lstmInputStart d + n)).value j k = (torchParams c.hasBias c.bidir params l (d == 1)).wih (n * c.H + j) k := by
    intro d hd n hn j _ k
    rw [hok.wih d hd n hn, torch_params c params l d hd, hoff]; rfl
  have hU : ∀ d < c.dirs, ∀ n < 4, ∀ j < c.H, ∀ k, (slotAt slots (lstmInputStart d + 4 + n)).value j k = (torchParams c.hasBias c.bidir params l (d == 1)).whh (n * c.H + j) k := by
    intro d hd n hn j _ k
    rw [hok.whh d hd n hn, torch_params c params l d hd, hoff]; rfl
  have hV : ∀ d < c.dirs, ∀ n < 4, ∀ j < c.H, (slotAt slots (lstmInputStart d + 11 + n)).value j 0
      = (torchParams c.hasBias c.bidir params l (d == 1)).bih (n * c.H + j) + (torchParams c.hasBias c.bidir params l (d == 1)).bhh (n * c.H + j) := by
    intro d hd n hn j _
    rw [hok.bias d hd n hn, torch_params c params l d hd, hoff]
    cases c.hasBias <;> simp [Slot.value, Slot.data, chunkRows]
  -- the states
  have hS : ∀ d < c.dirs, ∀ j < c.H, (slotAt slots (lstmStateStart c + d * c.dirs)).value b j = (init b l (d == 1)).1 j ∧
      (slotAt slots (lstmStateStart c + d * c.dirs + 1)).value b j = (init b l (d == 1)).2 j := by
    intro d hd j hj
    have e0 := hok.state d hd 0 (by omega)
    rw [Nat.add_zero] at e0
    rw [e0, hok.state d hd 1 (by omega)]
    exact hinit l hl d hd b hb j hj
  have hto : ∀ s < c.T, ∀ k < layerWidth c.I c.H c.bidir l, toTime c x s b k = z b s k := by
    intro s hs k hk
    rw [← hx s hs b hb k hk]
    rfl
  have hof : ∀ f : Nat → Nat → Nat → R, seqAt c.batchFirst (ofTime c f) t b j = f t b j := by
    intro f
    unfold seqAt ofTime
    cases c.batchFirst <;> rfl
  rcases dirs_cases c with ⟨hbi, hd⟩ | ⟨hbi, hd⟩
  · have hj : j < c.H := by simpa [layerWidth, hbi] using hj
    have := (tflState_agree sg th (fun i => (slotAt slots i).value) 1 5 12 (layerWidth c.I c.H c.bidir l) c.H _
      (hW 0 (by omega)) (hU 0 (by omega)) (hV 0 (by omega)) (fun s => toTime c x s b) (z b) ((slotAt slots 18).value b, (slotAt slots 19).value b) (init b l false) (t + 1)
      (fun s hs k hk => hto s (by omega) k hk)
      (fun j hj => by have := hS 0 (by omega) j hj; rw [lstmStateStart, hbi] at this; simpa using this) j hj).1
    have hf : fusedLayer sg th mapBi c params states l off x
        = ofTime c (tflUniLstm sg th (fun i => (slotAt slots i).value) (slotAt slots 18).value (slotAt slots 19).value (layerWidth c.I c.H c.bidir l) c.H (toTime c x)) := by
      simp only [fusedLayer, ← hslots, hbi, Bool.false_eq_true, if_false]
    rw [hf, hof]
    simp only [hbi, Bool.false_and, Bool.false_eq_true, if_false]
    simp only [hbi] at this
    simp only [tflUniLstm, dirOut, torchLstmCell, hbi]
    exact this
  · have hj : j < 2 * c.H := by simpa [layerWidth, hbi] using hj
    have hfw := fun (hj : j < c.H) => (tflState_agree sg th (fun i => (slotAt slots i).value) 1 5 12 (layerWidth c.I c.H c.bidir l) c.H _
      (hW 0 (by omega)) (hU 0 (by omega)) (hV 0 (by omega)) (fun s => toTime c x s b) (z b) ((slotAt slots 35).value b, (slotAt slots 36).value b) (init b l false) (t + 1)
      (fun s hs k hk => hto s (by omega) k hk)
      (fun j hj => by have := hS 0 (by omega) j hj; rw [lstmStateStart, hbi] at this; simpa using this) j hj).1
    have hbw := fun (hj : j - c.H < c.H) => (tflState_agree sg th (fun i => (slotAt slots i).value) 18 22 29 (layerWidth c.I c.H c.bidir l) c.H _
      (hW 1 (by omega)) (hU 1 (by omega)) (hV 1 (by omega)) (fun s => toTime c x (c.T - 1 - s) b) (fun s => z b (c.T - 1 - s)) ((slotAt slots 37).value b, (slotAt slots 38).value b)
      (init b l true) (c.T - t)
      (fun s hs k hk => hto _ (by omega) k hk)
      (fun j hj => by have := hS 1 (by omega) j hj; rw [lstmStateStart, hbi, hd] at this; simpa using this) (j - c.H) hj).1
    have goalR : (if c.bidir && decide (c.H ≤ j) then dirOut (·.1) (torchLstmCell sg th c params l true) c.T true (z b) (init b l true) t (j - c.H)
        else dirOut (·.1) (torchLstmCell sg th c params l false) c.T false (z b) (init b l false) t j)
        = if j < c.H then (stateAfter (tflLstmCell sg th (fun i => (slotAt slots i).value) 1 5 12 (layerWidth c.I c.H c.bidir l) c.H) (fun s => toTime c x s b)
            ((slotAt slots 35).value b, (slotAt slots 36).value b) (t + 1)).1 j
          else (stateAfter (tflLstmCell sg th (fun i => (slotAt slots i).value) 18 22 29 (layerWidth c.I c.H c.bidir l) c.H) (fun s => toTime c x (c.T - 1 - s) b)
            ((slotAt slots 37).value b, (slotAt slots 38).value b) (c.T - t)).1 (j - c.H) := by
      by_cases hjH : j < c.H
      · rw [if_pos hjH, hfw hjH, if_neg (by simp [hjH])]
        rfl
      · rw [if_neg hjH, hbw (by omega), if_pos (by simp [hbi]; omega)]
        rfl
    rw [goalR]
    cases mapBi
    · have hf : fusedLayer sg th false c params states l off x
          = ofTime c (tflBiLstm sg th (fun i => (slotAt slots i).value) (slotAt slots 35).value (slotAt slots 36).value (slotAt slots 37).value (slotAt slots 38).value
            (layerWidth c.I c.H c.bidir l) c.H c.T (toTime c x)) := by
        simp only [fusedLayer, ← hslots, hbi, Bool.not_false, if_true]
      rw [hf, hof]
      rfl
    · set fw := slots.take 18 ++ (slots.drop 35).take 2 with hfwd
      set bw := slots.take 1 ++ (slots.drop 18).take 17 ++ (slots.drop 37).take 2 with hbwd
      have hlen : slots.length = 48 := by simp [hslots, lstmSlots, hd, List.range_succ, lstmInputHelper]
      have fwAt : ∀ i < 20, slotAt fw i = slotAt slots (if i < 18 then i else i + 17) := by
        intro i hi
        simp only [slotAt, hfwd, List.getD, List.getElem?_append, List.length_take, hlen, List.getElem?_take, List.getElem?_drop]
        by_cases h : i < 18
        · simp [h]
        · have h1 : i - 18 < 2 := by omega
          have h2 : 35 + (i - 18) = i + 17 := by omega
          simp [h, h1, h2]
      have bwAt : ∀ i, 1 ≤ i → i < 20 → slotAt bw i = slotAt slots (if i < 18 then i + 17 else i + 19) := by
        intro i hi1 hi
        simp only [slotAt, hbwd, List.getD, List.getElem?_append, List.length_take, List.length_append, List.length_drop, hlen, List.getElem?_take, List.getElem?_drop]
        by_cases h : i < 18
        · have h0 : ¬ i < 1 := by omega
          have h1 : i - 1 < 17 := by omega
          have h2 : 18 + (i - 1) = i + 17 := by omega
          simp [h, h0, h1, h2]
        · have h1 : i - 18 < 2 := by omega
          have h2 : 37 + (i - 18) = i + 19 := by omega
          simp [h, h1, h2]
      have hf : fusedLayer sg th true c params states l off x
          = catFeatures c.H (ofTime c (tflUniLstm sg th (fun i => (slotAt fw i).value) (slotAt fw 18).value (slotAt fw 19).value (layerWidth c.I c.H c.bidir l) c.H (toTime c x)))
            (reverseTs c (ofTime c (tflUniLstm sg th (fun i => (slotAt bw i).value) (slotAt bw 18).value (slotAt bw 19).value (layerWidth c.I c.H c.bidir l) c.H (toTime c (reverseTs c x))))) := by
        simp only [fusedLayer, ← hslots, hbi, Bool.not_true, Bool.false_eq_true, if_true, if_false]
        rfl
      have hcat : ∀ f g : Nat → Nat → Nat → R, seqAt c.batchFirst (catFeatures c.H (ofTime c f) (reverseTs c (ofTime c g))) t b j = if j < c.H then f t b j else g (c.T - 1 - t) b (j - c.H) := by
        intro f g
        unfold seqAt catFeatures reverseTs ofTime
        cases c.batchFirst <;> simp
      rw [hf, hcat]
      -- the slots of the two operators are those of the specification, renumbered
      have cf : tflLstmCell sg th (fun i => (slotAt fw i).value) 1 5 12 (layerWidth c.I c.H c.bidir l) c.H = tflLstmCell sg th (fun i => (slotAt slots i).value) 1 5 12 (layerWidth c.I c.H c.bidir l) c.H := by
        funext x s
        simp only [tflLstmCell, fwAt _ (by norm_num : (1 + 0) < 20), fwAt _ (by norm_num : (1 + 1) < 20), fwAt _ (by norm_num : (1 + 2) < 20), fwAt _ (by norm_num : (1 + 3) < 20),
          fwAt _ (by norm_num : (5 + 0) < 20), fwAt _ (by norm_num : (5 + 1) < 20), fwAt _ (by norm_num : (5 + 2) < 20), fwAt _ (by norm_num : (5 + 3) < 20),
          fwAt _ (by norm_num : (12 + 0) < 20), fwAt _ (by norm_num : (12 + 1) < 20), fwAt _ (by norm_num : (12 + 2) < 20), fwAt _ (by norm_num : (12 + 3) < 20)]
        norm_num
      have cb : tflLstmCell sg th (fun i => (slotAt bw i).value) 1 5 12 (layerWidth c.I c.H c.bidir l) c.H = tflLstmCell sg th (fun i => (slotAt slots i).value) 18 22 29 (layerWidth c.I c.H c.bidir l) c.H := by
        funext x s
        simp only [tflLstmCell, bwAt _ (by norm_num : 1 ≤ 1 + 0) (by norm_num : (1 + 0) < 20), bwAt _ (by norm_num : 1 ≤ 1 + 1) (by norm_num : (1 + 1) < 20),
          bwAt _ (by norm_num : 1 ≤ 1 + 2) (by norm_num : (1 + 2) < 20), bwAt _ (by norm_num : 1 ≤ 1 + 3) (by norm_num : (1 + 3) < 20),
          bwAt _ (by norm_num : 1 ≤ 5 + 0) (by norm_num : (5 + 0) < 20), bwAt _ (by norm_num : 1 ≤ 5 + 1) (by norm_num : (5 + 1) < 20),
          bwAt _ (by norm_num : 1 ≤ 5 + 2) (by norm_num : (5 + 2) < 20), bwAt _ (by norm_num : 1 ≤ 5 + 3) (by norm_num : (5 + 3) < 20),
          bwAt _ (by norm_num : 1 ≤ 12 + 0) (by norm_num : (12 + 0) < 20), bwAt _ (by norm_num : 1 ≤ 12 + 1) (by norm_num : (12 + 1) < 20),
          bwAt _ (by norm_num : 1 ≤ 12 + 2) (by norm_num : (12 + 2) < 20), bwAt _ (by norm_num : 1 ≤ 12 + 3) (by norm_num : (12 + 3) < 20)]
        norm_num
      unfold tflUniLstm
      rw [cf, cb, fwAt 18 (by omega), fwAt 19 (by omega), bwAt 18 (by omega) (by omega), bwAt 19 (by omega) (by omega)]
      have hrev : (fun s => toTime c (reverseTs c x) s b) = fun s => toTime c x (c.T - 1 - s) b := by
        funext s k
        unfold toTime reverseTs
        cases c.batchFirst <;> rfl
      rw [hrev, show c.T - 1 - t + 1 = c.T - t by omega]
      rfl

/-- The conversion without unrolling, for whatever the state tensors hold. -/
theorem fused_any (sg th : R → R) (mapBi : Bool) (c : RnnCfg) (params : Nat → Mat R) (states : Nat → Nat → StateIn R) (x : Nat → Nat → Nat → R)
    (hc : ∀ k < 2, ∀ i < c.layers * c.dirs, ∃ m, states k i = .constant m) (init : Nat → Nat → Bool → (Nat → R) × (Nat → R)) (hinit : InitOk c states init) :
    ∃ out, convertLstmFused sg th mapBi c c.numParams params states x = some out ∧
      ∀ t < c.T, ∀ b < c.B, ∀ j < layerWidth c.I c.H c.bidir c.layers, seqAt c.batchFirst out t b j
        = layerInput (·.1) c.H c.T c.bidir (torchLstmCell sg th c params) (init b) (fun s => seqAt c.batchFirst x s b) c.layers t j := by
  have key : ∀ (n l : Nat) (cur : Nat → Nat → Nat → R), l + n = c.layers →
      (∀ t < c.T, ∀ b < c.B, ∀ k < layerWidth c.I c.H c.bidir l, seqAt c.batchFirst cur t b k = layerInput (·.1) c.H c.T c.bidir (torchLstmCell sg th c params) (init b) (fun s => seqAt c.batchFirst x s b) l t k) →
      ∀ t < c.T, ∀ b < c.B, ∀ j < layerWidth c.I c.H c.bidir c.layers, seqAt c.batchFirst (fusedLayers sg th mapBi c params states n l (l * c.dirs * c.step) cur) t b j
        = layerInput (·.1) c.H c.T c.bidir (torchLstmCell sg th c params) (init b) (fun s => seqAt c.batchFirst x s b) c.layers t j := by
    intro n
    induction n with
    | zero => intro l cur hl h; rw [show l = c.layers by omega] at h; exact h
    | succ n ih =>
      intro l cur hl h
      have := ih (l + 1) (fusedLayer sg th mapBi c params states l (l * c.dirs * c.step) cur) (by omega)
        (by
          intro t ht b hb j hj
          rw [fusedLayer_spec sg th mapBi c params states init hinit l (by omega) cur (fun b => layerInput (·.1) c.H c.T c.bidir (torchLstmCell sg th c params) (init b) (fun s => seqAt c.batchFirst x s b) l) h t ht b hb j hj]
          rfl)
      rw [show (l + 1) * c.dirs * c.step = l * c.dirs * c.step + c.step * c.dirs by ring] at this
      exact this
  refine ⟨fusedLayers sg th mapBi c params states c.layers 0 0 x, ?_, ?_⟩
  · unfold convertLstmFused
    rw [if_neg (by simp), if_neg]
    simp only [List.any_eq_true, List.mem_range, not_exists, not_and]
    intro i hi k hk
    obtain ⟨m, hm⟩ := hc k hk i hi
    simp [hm]
  · have := key c.layers 0 x (by omega) (fun t _ b _ k _ => rfl)
    simpa using this

/-- All initial states are constants and zero. -/
def ZeroStates (c : RnnCfg) (states : Nat → Nat → StateIn R) : Prop := ∀ k < 2, ∀ i < c.layers * c.dirs, ∃ m, states k i = .constant m ∧ ∀ b < c.B, ∀ j < c.H, m b j = 0

/-- **C58, fused** Every LSTM that is converted without unrolling - the unidirectional operator, the bidirectional operator, or a bidirectional LSTM mapped to two unidirectional ones - returns
PyTorch's sequence on the first run, if the initial states are constant zero. -/
theorem C58_fused_partial (sg th : R → R) (mapBi : Bool) (c : RnnCfg) (params : Nat → Mat R) (states : Nat → Nat → StateIn R) (x : Nat → Nat → Nat → R) (hz : ZeroStates c states) :
    ∃ out, convertLstmFused sg th mapBi c c.numParams params states x = some out ∧
      ∀ t < c.T, ∀ b < c.B, ∀ j < layerWidth c.I c.H c.bidir c.layers, seqAt c.batchFirst out t b j = torchLstm sg th c params states x b c.layers t j := by
  refine fused_any sg th mapBi c params states x (fun k hk i hi => ?_) _ (torchInit_ok c states (fun k hk i hi => ?_))
  · obtain ⟨m, hm, _⟩ := hz k hk i hi
    exact ⟨m, hm⟩
  · obtain ⟨m, hm, h0⟩ := hz k hk i hi
    rw [hm]
    exact h0

/-! ### concrete cases and defects -/

/-- Two layers, two directions, a batch of 3, batch first. -/
def exCfg : RnnCfg := { hasBias := true, layers := 2, bidir := true, batchFirst := true, B := 3, T := 4, I := 5, H := 6 }

/-- The hypotheses hold for states computed in the graph, and for constant zero states. -/
example (m : Mat ℤ) : (∀ k < 2, ∀ i < exCfg.layers * exCfg.dirs, ZeroOrTensor exCfg.B exCfg.H ((fun _ _ => StateIn.tensor m) k i)) ∧ SepOk true exCfg (fun _ _ => StateIn.tensor m) ∧
    ZeroStates exCfg (fun _ _ => StateIn.constant (fun _ _ => (0 : ℤ))) :=
  ⟨fun _ _ _ _ => trivial, fun _ _ _ _ => rfl, fun _ _ _ _ => ⟨_, rfl, fun _ _ _ _ => rfl⟩⟩

/-- A one-step computation: with weights 1 and `σ = tanh = id`, input 2 and state `(h, c) = (3, 5)`, every gate is 5, `c' = 5 * 5 + 5 * 5` and `h' = 5 * c'`. -/
example : (convertLstm (id : ℤ → ℤ) id false { hasBias := false, layers := 1, bidir := false, batchFirst := false, B := 1, T := 1, I := 1, H := 1 } 2 (fun _ _ _ => 1)
    (fun k _ => StateIn.tensor (fun _ _ => if k = 0 then 3 else 5)) (fun _ _ _ => 2)).map (fun r => (r.1 0 0 0, r.2.map (fun e => (e.1 0 0, e.2 0 0)))) = some (250, [(250, 50)]) := by decide

def oneCfg : RnnCfg := { hasBias := true, layers := 1, bidir := false, batchFirst := false, B := 1, T := 1, I := 1, H := 1 }

/-- Constant initial states that are not zero are lost, unrolled or not: they become variable tensors, whose data is not written.  With all weights and biases zero and `c0 = 1`, PyTorch returns
`σ(0) tanh(σ(0))`, the converted model zero (for every `σ`, `tanh` with `σ(0) ≠ 0`, `tanh(0) = 0` and `tanh` injective). -/
theorem C58_constant_state_false [IsDomain R] (sg th : R → R) (h1 : Function.Injective th) (h2 : th 0 = 0) (h3 : sg 0 ≠ 0) :
    ∃ (states : Nat → Nat → StateIn R) (params : Nat → Mat R) (x : Nat → Nat → Nat → R) (out out' : Nat → Nat → Nat → R) (fin : List (Mat R × Mat R)),
      convertLstm sg th false oneCfg oneCfg.numParams params states x = some (out, fin) ∧ convertLstmFused sg th false oneCfg oneCfg.numParams params states x = some out' ∧
      out 0 0 0 ≠ torchLstm sg th oneCfg params states x 0 1 0 0 ∧ out' 0 0 0 ≠ torchLstm sg th oneCfg params states x 0 1 0 0 := by
  set st : Nat → Nat → StateIn R := fun k _ => .constant (fun _ _ => if k = 0 then 0 else 1) with hst
  obtain ⟨out, fin, a1, a2, _⟩ := unrolled_any sg th false oneCfg (fun _ _ _ => 0) st (fun _ _ _ => 0) _ (dropConst_ok oneCfg st) (by simp [SepOk])
  obtain ⟨out', b1, b2⟩ := fused_any sg th false oneCfg (fun _ _ _ => 0) st (fun _ _ _ => 0) (fun _ _ _ _ => ⟨_, rfl⟩) _ (dropConst_ok oneCfg st)
  refine ⟨st, fun _ _ _ => 0, fun _ _ _ => 0, out, out', fin, a1, b1, ?_⟩
  have ht : torchLstm sg th oneCfg (fun _ _ _ => 0) st (fun _ _ _ => 0) 0 1 0 0 = sg 0 * th (sg 0) := by
    simp [torchLstm, layerInput, dirOut, oneCfg, stateAfter, dirSeq, torchLstmCell, lstmCell, lstmGate, torchParams, torchLstmInit, stateVal, h2, hst]
  have hz : layerInput (·.1) oneCfg.H oneCfg.T oneCfg.bidir (torchLstmCell sg th oneCfg (fun _ _ _ => 0)) (torchLstmInit oneCfg (dropConst st) 0)
      (fun s => seqAt oneCfg.batchFirst (fun _ _ _ => 0) s 0) 1 0 0 = 0 := by
    simp [layerInput, dirOut, oneCfg, stateAfter, dirSeq, torchLstmCell, lstmCell, lstmGate, torchParams, torchLstmInit, stateVal, h2, hst, dropConst]
  have hne : sg 0 * th (sg 0) ≠ 0 := mul_ne_zero h3 (fun h => h3 (h1 (h.trans h2.symm)))
  rw [ht]
  have o1 : out 0 0 0 = 0 := (a2 0 (by decide) 0 (by decide) 0 (by decide)).trans hz
  have o2 : out' 0 0 0 = 0 := (b2 0 (by decide) 0 (by decide) 0 (by decide)).trans hz
  rw [o1, o2]
  exact ⟨hne.symm, hne.symm⟩

/-- The second run of a fused LSTM starts from the states the first run left in its variable tensors. -/
def secondRun (sg th : R → R) (c : RnnCfg) (params : Nat → Mat R) (states : Nat → Nat → StateIn R) (x : Nat → Nat → Nat → R) : Nat → Nat → Nat → R :=
  let slots := lstmSlots c params states 0 0
  let val := fun i => (slotAt slots i).value
  let left := fun b => stateAfter (tflLstmCell sg th val 1 5 12 c.I c.H) (fun s => toTime c x s b) (val 18 b, val 19 b) c.T
  ofTime c (tflUniLstm sg th val (fun b => (left b).1) (fun b => (left b).2) c.I c.H (toTime c x))

/-- A fused LSTM does not return the same output for the same input: its state survives the run. -/
theorem C58_second_run_false [IsDomain R] (sg th : R → R) (h1 : Function.Injective th) (h2 : th 0 = 0) (h3 : sg 0 ≠ 0) :
    ∃ (params : Nat → Mat R) (x : Nat → Nat → Nat → R) (out : Nat → Nat → Nat → R), convertLstmFused sg th false oneCfg oneCfg.numParams params (fun _ _ => .constant (fun _ _ => 0)) x = some out ∧
      out 0 0 0 = torchLstm sg th oneCfg params (fun _ _ => .constant (fun _ _ => 0)) x 0 1 0 0 ∧
      secondRun sg th oneCfg params (fun _ _ => .constant (fun _ _ => 0)) x 0 0 0 ≠ torchLstm sg th oneCfg params (fun _ _ => .constant (fun _ _ => 0)) x 0 1 0 0 := by
  set params : Nat → Mat R := fun i j _ => if i = 2 ∧ j = 2 then 1 else 0 with hp
  obtain ⟨out, b1, b2⟩ := C58_fused_partial sg th false oneCfg params (fun _ _ => .constant (fun _ _ => 0)) (fun _ _ _ => 0) (fun _ _ _ _ => ⟨_, rfl, fun _ _ _ _ => rfl⟩)
  refine ⟨params, fun _ _ _ => 0, out, b1, b2 0 (by decide) 0 (by decide) 0 (by decide), ?_⟩
  have ht : torchLstm sg th oneCfg params (fun _ _ => .constant (fun _ _ => 0)) (fun _ _ _ => 0) 0 1 0 0 = sg 0 * th (sg 0 * th 1) := by
    simp [torchLstm, layerInput, dirOut, oneCfg, stateAfter, dirSeq, torchLstmCell, lstmCell, lstmGate, torchParams, torchLstmInit, stateVal, hp]
  have hs : secondRun sg th oneCfg params (fun _ _ => .constant (fun _ _ => 0)) (fun _ _ _ => 0) 0 0 0 = sg 0 * th (sg 0 * (sg 0 * th 1) + sg 0 * th 1) := by
    simp [secondRun, ofTime, toTime, tflUniLstm, stateAfter, tflLstmCell, oneCfg, lstmSlots, RnnCfg.dirs, RnnCfg.step, lstmInputHelper, lstmInputStart, lstmStateStart, List.range_succ, slotAt, Slot.value, Slot.data,
      chunkRows, hp, StateIn.slot]
  rw [ht, hs]
  intro h
  have hth1 : th 1 ≠ 0 := fun h => one_ne_zero (h1 (h.trans h2.symm))
  have e := h1 (mul_left_cancel₀ h3 h)
  have : sg 0 * (sg 0 * th 1) = 0 := by
    have := sub_eq_zero.mpr e
    ring_nf at this ⊢
    exact this
  exact mul_ne_zero h3 (mul_ne_zero h3 hth1) this

/-- With separate gate computations, a state `h` from the graph and a constant zero `c` the conversion fails. -/
theorem C58_separated_false (sg th : R → R) (params : Nat → Mat R) (m : Mat R) (x : Nat → Nat → Nat → R) :
    convertLstm sg th true oneCfg oneCfg.numParams params (fun k _ => if k = 0 then .tensor m else .constant (fun _ _ => 0)) x = none := by
  simp [convertLstm, unrollLayers, lstmRun, unrollDir, oneCfg, RnnCfg.dirs, unpackTs, unrollSteps, lstmStep, lstmSlots, lstmInputHelper, lstmInputStart, lstmStateStart, List.range_succ, slotAt, Slot.computed,
    StateIn.slot, Slot.data]

/-- The number of parameters the theorems above convert with is PyTorch's: for every layer and direction two weights, and two biases if there are any.  Any other
number is refused. -/
theorem C58_params (sg th : R → R) (sep mapBi : Bool) (c : RnnCfg) (n : Nat) (params : Nat → Mat R) (states : Nat → Nat → StateIn R) (x : Nat → Nat → Nat → R) :
    c.numParams = c.layers * (if c.bidir then 2 else 1) * (if c.hasBias then 2 + 2 else 2) ∧
    (n ≠ c.layers * (if c.bidir then 2 else 1) * (if c.hasBias then 2 + 2 else 2) →
      convertLstm sg th sep c n params states x = none ∧ convertLstmFused sg th mapBi c n params states x = none) := by
  have h : c.numParams = c.layers * (if c.bidir then 2 else 1) * (if c.hasBias then 2 + 2 else 2) := by
    unfold RnnCfg.numParams
    cases c.bidir <;> cases c.hasBias <;> simp <;> ring
  refine ⟨h, fun hn => ?_⟩
  rw [← h] at hn
  simp [convertLstm, convertLstmFused, hn]

end Verif.Props
