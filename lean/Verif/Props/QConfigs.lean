import Verif.Lemmas.QConfigs
/-
C123: the options of a quantizer reach the layers they are meant for.
-/
namespace Verif.Props
open Verif.Model.QConfigs Verif.Spec.QConfigs Verif.Lemmas.QConfigs

/-! ### Helpers -/

/-- Which layers the second set of settings goes to. -/
def specialNames (b : Backend) : List String :=
  match b with
  | .qnnpack => convNames
  | .fbgemm => linearNames
  | _ => []

def pairOf (qat : Bool) (s : Settings) : QCfg × Option QCfg :=
  if qat then qatPair s else ptqPair s

theorem settle_in (qat : Bool) (s : Settings) (m : Mod) (p : List Nat) (x : Mod) (qc : QCfg)
    (hf : Fresh m) (hx : at? m p = some x) (hl : s.dynLstm = true → ¬ Within ["LSTM"] m p)
    (hq : (pairOf qat s).2 = some qc) (hw : Within (specialNames s.backend) m p) :
    cfgAt (settle qat s none m) p = some qc := by
  have hroot : m.own = none := hf [] m rfl
  have key : ∀ (ns : List String), Within ns m p →
      eff none (if s.dynLstm then assignLstm dynCfg (assign ns qc (m.setOwn (pairOf qat s).1))
        else assign ns qc (m.setOwn (pairOf qat s).1)) p = some qc := by
    intro ns hns
    have h1 : eff none (assign ns qc (m.setOwn (pairOf qat s).1)) p = some qc := by
      rw [eff_assign_setOwn _ _ _ _ _ _ hroot]
      exact eff_assign_in ns qc _ m p x hf hx hns
    by_cases hd : s.dynLstm = true
    · rw [if_pos hd, eff_lstm_out, h1]
      rintro ⟨q, y, hq', hy, ht⟩
      have hs := ((same_setOwn m (pairOf qat s).1).trans
        (same_assign ns qc (m.setOwn (pairOf qat s).1))).types q
      rw [hy] at hs
      cases hz : at? m q with
      | none => rw [hz] at hs; cases hs
      | some z =>
        rw [hz] at hs
        simp only [Option.map_some, Option.some.injEq] at hs
        exact hl hd ⟨q, z, hq', hz, hs ▸ ht⟩
    · rw [if_neg hd, h1]
  unfold settle
  rw [cfgAt_propagate]
  unfold prepareQConfig
  simp only [show (if qat then qatPair s else ptqPair s) = pairOf qat s from rfl, hq]
  cases hb : s.backend with
  | qnnpack => rw [hb] at hw; exact key _ hw
  | fbgemm => rw [hb] at hw; exact key _ hw
  | onnx =>
    rw [hb] at hw
    obtain ⟨_, _, _, _, ht⟩ := hw
    cases ht
  | tensorrt =>
    rw [hb] at hw
    obtain ⟨_, _, _, _, ht⟩ := hw
    cases ht

theorem settle_out (qat : Bool) (s : Settings) (m : Mod) (p : List Nat) (x : Mod)
    (hf : Fresh m) (hx : at? m p = some x) (hl : s.dynLstm = true → ¬ Within ["LSTM"] m p)
    (hw : (pairOf qat s).2 = none ∨ ¬ Within (specialNames s.backend) m p) :
    cfgAt (settle qat s none m) p = some (pairOf qat s).1 := by
  have hroot : m.own = none := hf [] m rfl
  have base : eff none (m.setOwn (pairOf qat s).1) p = some (pairOf qat s).1 := by
    rw [eff_setOwn _ _ _ _ hroot]
    exact eff_fresh _ m p x hf hx
  have key : ∀ (t : Mod), Same m t → eff none t p = some (pairOf qat s).1 →
      eff none (if s.dynLstm then assignLstm dynCfg t else t) p = some (pairOf qat s).1 := by
    intro t hst ht
    by_cases hd : s.dynLstm = true
    · rw [if_pos hd, eff_lstm_out, ht]
      rintro ⟨q, y, hq', hy, hty⟩
      have hs := hst.types q
      rw [hy] at hs
      cases hz : at? m q with
      | none => rw [hz] at hs; cases hs
      | some z =>
        rw [hz] at hs
        simp only [Option.map_some, Option.some.injEq] at hs
        exact hl hd ⟨q, z, hq', hz, hs ▸ hty⟩
    · rw [if_neg hd, ht]
  have keyA : ∀ (ns : List String) (qc : QCfg), ¬ Within ns m p →
      eff none (if s.dynLstm then assignLstm dynCfg (assign ns qc (m.setOwn (pairOf qat s).1))
        else assign ns qc (m.setOwn (pairOf qat s).1)) p = some (pairOf qat s).1 := by
    intro ns qc hns
    refine key _ ((same_setOwn m _).trans (same_assign ns qc _)) ?_
    rw [eff_assign_setOwn _ _ _ _ _ _ hroot, eff_assign_out _ _ _ _ _ hns]
    exact eff_fresh _ m p x hf hx
  have keyB := key _ (same_setOwn m (pairOf qat s).1) base
  unfold settle
  rw [cfgAt_propagate]
  unfold prepareQConfig
  simp only [show (if qat then qatPair s else ptqPair s) = pairOf qat s from rfl]
  cases hq : (pairOf qat s).2 with
  | none => cases hb : s.backend <;> exact keyB
  | some qc =>
    have hw' : ¬ Within (specialNames s.backend) m p := by
      rcases hw with h | h
      · rw [hq] at h; cases h
      · exact h
    cases hb : s.backend with
    | qnnpack => rw [hb] at hw'; exact keyA _ qc hw'
    | fbgemm => rw [hb] at hw'; exact keyA _ qc hw'
    | onnx => exact keyB
    | tensorrt => exact keyB

/-! ### A model to try things on -/

/-- A network with a convolution and a linear layer, a block with a fused
convolution, a fused 1-D convolution, a transposed convolution and an LSTM. -/
def qcDemo : Mod :=
  .mk "" "QNet" none
    [.mk "conv" "Conv2d" none [],
     .mk "fc" "Linear" none [],
     .mk "block" "Block" none [.mk "c" "ConvBnReLU2d" none [.mk "0" "Conv2d" none []]],
     .mk "c1" "ConvReLU1d" none [],
     .mk "up" "ConvTranspose2d" none [],
     .mk "rnn" "LSTM" none []]

theorem qcDemo_fresh : Fresh qcDemo := by
  intro p x hx
  have leaf : ∀ (n t : String) (q : List Nat) (y : Mod), at? (.mk n t none []) q = some y →
      y.own = none := by
    intro n t q y hy
    cases q with
    | nil => injection hy with hy; subst hy; rfl
    | cons i q => simp [at?, Mod.kids] at hy
  match p, hx with
  | [], hx => injection hx with hx; subst hx; rfl
  | 0 :: q, hx => exact leaf _ _ q x hx
  | 1 :: q, hx => exact leaf _ _ q x hx
  | [2], hx => injection hx with hx; subst hx; rfl
  | [2, 0], hx => injection hx with hx; subst hx; rfl
  | 2 :: 0 :: 0 :: q, hx => exact leaf _ _ q x hx
  | 2 :: 0 :: (_ + 1) :: q, hx => simp [at?, qcDemo, Mod.kids] at hx
  | 2 :: (_ + 1) :: q, hx => simp [at?, qcDemo, Mod.kids] at hx
  | 3 :: q, hx => exact leaf _ _ q x hx
  | 4 :: q, hx => exact leaf _ _ q x hx
  | 5 :: q, hx => exact leaf _ _ q x hx
  | (_ + 6) :: q, hx => simp [at?, qcDemo, Mod.kids] at hx

/-! ### What holds -/

/-- For the default backend with `per_tensor=False`, every convolution with
one of the recognised type names (and everything in it) gets per-channel
weights in [-127, 127], and activations that are symmetric exactly when asked
for. -/
theorem C123_conv_partial (qat : Bool) (s : Settings) (m : Mod) (p : List Nat) (x : Mod)
    (hb : s.backend = .qnnpack) (hpt : s.perTensor = false) (hf : Fresh m)
    (hx : at? m p = some x)
    (hw : Within ["Conv2d", "ConvBnReLU2d", "ConvBn2d", "ConvReLU2d", "Conv1d", "ConvBnReLU1d",
      "ConvBn1d"] m p)
    (hl : s.dynLstm = true → ¬ Within ["LSTM"] m p) :
    ∃ c : QCfg, cfgAt (settle qat s none m) p = some c ∧
      (finalWt qat s c).perChannel = true ∧ (finalWt qat s c).qmin = -127 ∧
      (finalWt qat s c).qmax = 127 ∧ c.act.sym = !s.asymmetric := by
  obtain ⟨b, a, pt, kl, dl⟩ := s
  simp only at hb hpt
  subst hb hpt
  have h2 : ∃ qc : QCfg, (pairOf qat ⟨.qnnpack, a, false, kl, dl⟩).2 = some qc ∧
      (finalWt qat ⟨.qnnpack, a, false, kl, dl⟩ qc).perChannel = true ∧
      (finalWt qat ⟨.qnnpack, a, false, kl, dl⟩ qc).qmin = -127 ∧
      (finalWt qat ⟨.qnnpack, a, false, kl, dl⟩ qc).qmax = 127 ∧ qc.act.sym = !a := by
    cases qat <;> cases a <;> cases kl <;> exact ⟨_, rfl, rfl, rfl, rfl, rfl⟩
  obtain ⟨qc, hq, h⟩ := h2
  exact ⟨qc, settle_in qat _ m p x qc hf hx hl hq hw, h⟩

example : ∃ c : QCfg, cfgAt (settle true ⟨.qnnpack, true, false, false, true⟩ none qcDemo) [2, 0] = some c ∧
    (finalWt true ⟨.qnnpack, true, false, false, true⟩ c).perChannel = true := by
  obtain ⟨c, h1, h2, _⟩ := C123_conv_partial true ⟨.qnnpack, true, false, false, true⟩ qcDemo [2, 0] _ rfl
    rfl qcDemo_fresh rfl ⟨[2, 0], _, List.prefix_refl _, rfl, by decide⟩ (by
      rintro _ ⟨q, y, hq, hy, ht⟩
      obtain ⟨r, hr⟩ := hq
      match q, hr with
      | [], _ => injection hy with hy; subst hy; exact absurd ht (by decide)
      | [2], _ => injection hy with hy; subst hy; exact absurd ht (by decide)
      | [2, 0], _ => injection hy with hy; subst hy; exact absurd ht (by decide))
  exact ⟨c, h1, h2⟩

/-- With `per_tensor=True` every layer gets one range for all of its weights,
activations symmetric exactly when asked for, and the calibration algorithm
asked for. -/
theorem C123_per_tensor_partial (qat : Bool) (s : Settings) (m : Mod) (p : List Nat) (x : Mod)
    (hb : s.backend = .qnnpack) (hpt : s.perTensor = true) (hf : Fresh m)
    (hx : at? m p = some x) (hl : s.dynLstm = true → ¬ Within ["LSTM"] m p) :
    ∃ c : QCfg, cfgAt (settle qat s none m) p = some c ∧
      (finalWt qat s c).perChannel = false ∧ (finalWt qat s c).qmin = -128 ∧
      (finalWt qat s c).qmax = 127 ∧ c.act.sym = (!s.asymmetric) ∧ c.act.qmin = 0 ∧
      c.act.qmax = 255 ∧
      c.act.obs = (if qat then .movingAvg else if s.kl then .kl else .histogram) := by
  obtain ⟨b, a, pt, kl, dl⟩ := s
  simp only at hb hpt
  subst hb hpt
  refine ⟨_, settle_out qat _ m p x hf hx hl (Or.inl ?_), ?_⟩
  · cases qat <;> cases a <;> cases kl <;> rfl
  · cases qat <;> cases a <;> cases kl <;> exact ⟨rfl, rfl, rfl, rfl, rfl, rfl, rfl⟩

example : ∃ c : QCfg, cfgAt (settle false ⟨.qnnpack, false, true, true, false⟩ none qcDemo) [0] = some c ∧
    c.act.obs = .kl := by
  obtain ⟨c, h1, _, _, _, _, _, _, h2⟩ := C123_per_tensor_partial false ⟨.qnnpack, false, true, true, false⟩
    qcDemo [0] _ rfl rfl qcDemo_fresh rfl (by intro h; cases h)
  exact ⟨c, h1, h2⟩

/-- With `per_tensor=False`, the layers outside the recognised convolutions
get one range for all weights, in [-127, 127], and the algorithm asked for. -/
theorem C123_other_layers_partial (qat : Bool) (s : Settings) (m : Mod) (p : List Nat) (x : Mod)
    (hb : s.backend = .qnnpack) (hpt : s.perTensor = false) (hf : Fresh m)
    (hx : at? m p = some x)
    (hw : ¬ Within ["Conv2d", "ConvBnReLU2d", "ConvBn2d", "ConvReLU2d", "Conv1d", "ConvBnReLU1d",
      "ConvBn1d"] m p)
    (hl : s.dynLstm = true → ¬ Within ["LSTM"] m p) :
    ∃ c : QCfg, cfgAt (settle qat s none m) p = some c ∧
      (finalWt qat s c).perChannel = false ∧ (finalWt qat s c).qmin = -127 ∧
      (finalWt qat s c).qmax = 127 ∧ c.act.sym = (!s.asymmetric) ∧
      c.act.obs = (if qat then .movingAvg else if s.kl then .kl else .histogram) := by
  obtain ⟨b, a, pt, kl, dl⟩ := s
  simp only at hb hpt
  subst hb hpt
  refine ⟨_, settle_out qat _ m p x hf hx hl (Or.inr hw), ?_⟩
  cases qat <;> cases a <;> cases kl <;> exact ⟨rfl, rfl, rfl, rfl, rfl⟩

example : ∃ c : QCfg, cfgAt (settle true ⟨.qnnpack, true, false, false, false⟩ none qcDemo) [1] = some c ∧
    (finalWt true ⟨.qnnpack, true, false, false, false⟩ c).perChannel = false := by
  obtain ⟨c, h1, h2, _⟩ := C123_other_layers_partial true ⟨.qnnpack, true, false, false, false⟩ qcDemo [1] _
    rfl rfl qcDemo_fresh rfl (by
      rintro ⟨q, y, hq, hy, ht⟩
      obtain ⟨r, hr⟩ := hq
      match q, hr with
      | [], _ => injection hy with hy; subst hy; exact absurd ht (by decide)
      | [1], _ => injection hy with hy; subst hy; exact absurd ht (by decide)) (by intro h; cases h)
  exact ⟨c, h1, h2⟩

/-- For fbgemm, linear layers get one range for all weights and every other
layer per-channel weights; both within [-128, 127]. -/
theorem C123_fbgemm_partial (qat : Bool) (s : Settings) (m : Mod) (p : List Nat) (x : Mod)
    (hb : s.backend = .fbgemm) (hf : Fresh m) (hx : at? m p = some x)
    (hl : s.dynLstm = true → ¬ Within ["LSTM"] m p) :
    ∃ c : QCfg, cfgAt (settle qat s none m) p = some c ∧
      ((finalWt qat s c).perChannel = true ↔ ¬ Within ["Linear", "LinearReLU"] m p) ∧
      (finalWt qat s c).qmin = -128 ∧ (finalWt qat s c).qmax = 127 := by
  obtain ⟨b, a, pt, kl, dl⟩ := s
  simp only at hb
  subst hb
  by_cases hw : Within ["Linear", "LinearReLU"] m p
  · have h2 : ∃ qc : QCfg, (pairOf qat ⟨.fbgemm, a, pt, kl, dl⟩).2 = some qc ∧
        (finalWt qat ⟨.fbgemm, a, pt, kl, dl⟩ qc).perChannel = false ∧
        (finalWt qat ⟨.fbgemm, a, pt, kl, dl⟩ qc).qmin = -128 ∧
        (finalWt qat ⟨.fbgemm, a, pt, kl, dl⟩ qc).qmax = 127 := by
      cases qat <;> cases a <;> cases pt <;> cases kl <;> exact ⟨_, rfl, rfl, rfl, rfl⟩
    obtain ⟨qc, hq, h1, h2, h3⟩ := h2
    exact ⟨qc, settle_in qat _ m p x qc hf hx hl hq hw, by simp [h1, hw], h2, h3⟩
  · refine ⟨_, settle_out qat _ m p x hf hx hl (Or.inr hw), ?_⟩
    have : (finalWt qat ⟨.fbgemm, a, pt, kl, dl⟩ (pairOf qat ⟨.fbgemm, a, pt, kl, dl⟩).1).perChannel = true ∧
        (finalWt qat ⟨.fbgemm, a, pt, kl, dl⟩ (pairOf qat ⟨.fbgemm, a, pt, kl, dl⟩).1).qmin = -128 ∧
        (finalWt qat ⟨.fbgemm, a, pt, kl, dl⟩ (pairOf qat ⟨.fbgemm, a, pt, kl, dl⟩).1).qmax = 127 := by
      cases qat <;> cases a <;> cases pt <;> cases kl <;> exact ⟨rfl, rfl, rfl⟩
    exact ⟨by simp [this.1, hw], this.2⟩

example : ∃ c : QCfg, cfgAt (settle true ⟨.fbgemm, true, false, false, false⟩ none qcDemo) [1] = some c ∧
    (finalWt true ⟨.fbgemm, true, false, false, false⟩ c).perChannel = false := by
  obtain ⟨c, h1, h2, _⟩ := C123_fbgemm_partial true ⟨.fbgemm, true, false, false, false⟩ qcDemo [1] _ rfl
    qcDemo_fresh rfl (by intro h; cases h)
  refine ⟨c, h1, ?_⟩
  rw [← Bool.not_eq_true, h2, Classical.not_not]
  exact ⟨[1], _, List.prefix_refl _, rfl, by decide⟩

/-- In quantization-aware training, with any backend and any accepted options,
the activations of every layer are symmetric exactly when asked for. -/
theorem C123_activation (s : Settings) (m : Mod) (p : List Nat) (x : Mod)
    (hok : s.ok = true) (hf : Fresh m) (hx : at? m p = some x)
    (hl : s.dynLstm = true → ¬ Within ["LSTM"] m p) :
    ∃ c : QCfg, cfgAt (settle true s none m) p = some c ∧ c.act.sym = !s.asymmetric := by
  have hsym : (pairOf true s).1.act.sym = (!s.asymmetric) ∧
      ∀ qc : QCfg, (pairOf true s).2 = some qc → qc.act.sym = !s.asymmetric := by
    obtain ⟨b, a, pt, kl, dl⟩ := s
    cases b <;> cases a <;> cases pt <;>
      simp_all [Settings.ok, pairOf, qatPair, defaultQat] <;>
      (intro qc hqc; subst hqc; rfl)
  by_cases hw : Within (specialNames s.backend) m p
  · cases hq : (pairOf true s).2 with
    | none => exact ⟨_, settle_out true s m p x hf hx hl (Or.inl hq), hsym.1⟩
    | some qc => exact ⟨qc, settle_in true s m p x qc hf hx hl hq hw, hsym.2 qc hq⟩
  · exact ⟨_, settle_out true s m p x hf hx hl (Or.inr hw), hsym.1⟩

example : ∃ c : QCfg, cfgAt (settle true ⟨.tensorrt, false, false, false, false⟩ none qcDemo) [0] = some c ∧
    c.act.sym = true :=
  C123_activation ⟨.tensorrt, false, false, false, false⟩ qcDemo [0] _ rfl qcDemo_fresh rfl
    (by intro h; cases h)

/-- With `dynamic_lstm_quant`, every LSTM gets the dynamic settings. -/
theorem C123_lstm (qat : Bool) (s : Settings) (m : Mod) (p : List Nat) (x : Mod)
    (hd : s.dynLstm = true) (hx : at? m p = some x) (ht : x.type = "LSTM") :
    ∃ c : QCfg, cfgAt (settle qat s none m) p = some c ∧ c.act.obs = .dynamic := by
  refine ⟨dynCfg, ?_, rfl⟩
  have key : ∀ (t : Mod), Same m t → eff none (assignLstm dynCfg t) p = some dynCfg := by
    intro t hst
    have hs := hst.types p
    rw [hx] at hs
    cases hz : at? t p with
    | none => rw [hz] at hs; cases hs
    | some z =>
      rw [hz] at hs
      simp only [Option.map_some, Option.some.injEq] at hs
      exact eff_lstm_at dynCfg none t p z hz (hs.trans ht)
  unfold settle
  rw [cfgAt_propagate]
  unfold prepareQConfig
  simp only [hd, if_true]
  refine key _ ?_
  split
  · exact (same_setOwn m _).trans (same_assign _ _ _)
  · exact (same_setOwn m _).trans (same_assign _ _ _)
  · exact same_setOwn m _

example : ∃ c : QCfg, cfgAt (settle true ⟨.qnnpack, true, true, false, true⟩ none qcDemo) [5] = some c ∧
    c.act.obs = .dynamic :=
  C123_lstm true ⟨.qnnpack, true, true, false, true⟩ qcDemo [5] _ rfl rfl rfl

/-! ### The user's own function -/

theorem prepare_same (qat : Bool) (s : Settings) (m : Mod) : Same m (prepareQConfig qat s m) := by
  unfold prepareQConfig
  have h : ∀ (t : Mod), Same m t →
      Same m (if s.dynLstm = true then assignLstm dynCfg t else t) := by
    intro t ht
    by_cases hd : s.dynLstm = true
    · rw [if_pos hd]; exact ht.trans (same_lstm _ _)
    · rw [if_neg hd]; exact ht
  refine h _ ?_
  split
  · exact (same_setOwn m _).trans (same_assign _ _ _)
  · exact (same_setOwn m _).trans (same_assign _ _ _)
  · exact same_setOwn m _

theorem same_at {m t : Mod} (h : Same m t) {q : List Nat} {y : Mod} (hy : at? t q = some y) :
    ∃ z : Mod, at? m q = some z ∧ z.type = y.type := by
  have hs := h.types q
  rw [hy] at hs
  cases hz : at? m q with
  | none => rw [hz] at hs; cases hs
  | some z =>
    rw [hz] at hs
    simp only [Option.map_some, Option.some.injEq] at hs
    exact ⟨z, rfl, hs.symm⟩

/-- A module that is not the root and whose type is not singled out carries
no settings of its own after the defaults have been placed. -/
theorem prepare_plain (qat : Bool) (s : Settings) (m : Mod) (hf : Fresh m) (q : List Nat) (y : Mod)
    (hq : q ≠ []) (hy : at? (prepareQConfig qat s m) q = some y)
    (ht : y.type ∉ convNames ++ linearNames ++ ["LSTM"]) : y.own = none := by
  simp only [List.mem_append, List.mem_singleton, not_or] at ht
  have root : ∀ (c : QCfg) (z : Mod), at? (m.setOwn c) q = some z → z.own = none := by
    intro c z hz
    rw [at_setOwn m c q hq] at hz
    exact hf q z hz
  unfold prepareQConfig at hy
  have h : ∀ (t : Mod), (∀ z : Mod, at? t q = some z → z.type = y.type → z.own = none) →
      at? (if s.dynLstm = true then assignLstm dynCfg t else t) q = some y → y.own = none := by
    intro t h1 h2
    by_cases hd : s.dynLstm = true
    · rw [if_pos hd] at h2
      obtain ⟨z, hz, ho, hty⟩ := lstm_at dynCfg t y q h2 ht.2
      rw [ho]
      exact h1 z hz hty.symm
    · rw [if_neg hd] at h2
      exact h1 y h2 rfl
  refine h _ ?_ hy
  intro z hz hzt
  split at hz
  · obtain ⟨w, hw, ho⟩ := assign_at _ _ _ z q hz (hzt ▸ ht.1.1)
    rw [ho]; exact root _ w hw
  · obtain ⟨w, hw, ho⟩ := assign_at _ _ _ z q hz (hzt ▸ ht.1.2)
    rw [ho]; exact root _ w hw
  · exact root _ z hz

/-- If the user's function answers for a module, and for none of the modules
around it, then that module gets the answer, and so does everything inside it
that is neither a convolution, a linear layer nor an LSTM. -/
theorem C123_override_partial (qat : Bool) (s : Settings) (f : String → String → Option QCfg)
    (m : Mod) (p r : List Nat) (x z : Mod) (c : QCfg) (hf : Fresh m)
    (hx : at? m p = some x) (hc : f (nameFrom "" m p) x.type = some c)
    (hup : ∀ (q : List Nat) (y : Mod), q <+: p → q ≠ p → at? m q = some y →
      f (nameFrom "" m q) y.type = none)
    (hz : at? m (p ++ r) = some z)
    (hr : ∀ (q : List Nat) (y : Mod), q <+: r → q ≠ [] → at? m (p ++ q) = some y →
      y.type ∉ ["Conv2d", "ConvBnReLU2d", "ConvBn2d", "ConvReLU2d", "Conv1d", "ConvBnReLU1d",
        "ConvBn1d", "Linear", "LinearReLU", "LSTM"]) :
    cfgAt (settle qat s (some f) m) (p ++ r) = some c := by
  have hS := prepare_same qat s m
  unfold settle
  rw [cfgAt_propagate]
  simp only
  have hx' : ∃ x' : Mod, at? (prepareQConfig qat s m) p = some x' ∧ x'.type = x.type := by
    have hs := hS.types p
    rw [hx] at hs
    cases hy : at? (prepareQConfig qat s m) p with
    | none => rw [hy] at hs; cases hs
    | some y =>
      rw [hy] at hs
      simp only [Option.map_some, Option.some.injEq] at hs
      exact ⟨y, rfl, hs⟩
  obtain ⟨x', hx', hxt⟩ := hx'
  obtain ⟨c1, h1⟩ := eff_over_hit f "" none (prepareQConfig qat s m) p r x' c hx'
    (by rw [hS.names, hxt]; exact hc) (by
      intro q y hq hne hy
      obtain ⟨w, hw, hwt⟩ := same_at hS hy
      rw [hS.names, ← hwt]
      exact hup q w hq hne hw)
  rw [h1]
  have hz' : ∃ z' : Mod, at? x' r = some z' := by
    have hs := hS.types (p ++ r)
    rw [hz, at_append _ _ p r hx'] at hs
    cases hy : at? x' r with
    | none => rw [hy] at hs; cases hs
    | some y => exact ⟨y, rfl⟩
  obtain ⟨z', hz'⟩ := hz'
  cases r with
  | nil => rfl
  | cons i r =>
    refine eff_clear c c1 (x'.setOwn c) (i :: r) z' (by rw [at_setOwn _ _ _ (by simp)]; exact hz')
      rfl ?_
    intro q y hq hne hy
    rw [at_setOwn _ _ _ hne] at hy
    have hy' : at? (prepareQConfig qat s m) (p ++ q) = some y := by
      rw [at_append _ _ p q hx']; exact hy
    obtain ⟨w, hw, hwt⟩ := same_at hS hy'
    exact prepare_plain qat s m hf (p ++ q) y (by simp [hne]) hy' (hwt ▸ hr q w hq hne hw)

example :
    let c : QCfg := ⟨⟨.custom 0, false, 0, 255⟩, ⟨.custom 0, false, -128, 127⟩⟩
    let f : String → String → Option QCfg := fun n _ => if n = "block.c" then some c else none
    cfgAt (settle true ⟨.qnnpack, true, false, false, false⟩ (some f) qcDemo) [2, 0] = some c := by
  intro c f
  exact C123_override_partial true _ f qcDemo [2, 0] [] _ _ c qcDemo_fresh rfl (by decide +kernel)
    (by
      intro q y hq hne hy
      obtain ⟨r, hr⟩ := hq
      match q, hr with
      | [], _ => injection hy with hy; subst hy; decide +kernel
      | [2], _ => injection hy with hy; subst hy; decide +kernel
      | [2, 0], _ => exact absurd rfl hne) rfl
    (by
      intro q y hq hne hy
      exact absurd (List.prefix_nil.mp hq) hne)

/-- A layer about which the user's function says nothing, neither for itself
nor for anything around it, is treated as without the function. -/
theorem C123_override_silent (qat : Bool) (s : Settings) (f : String → String → Option QCfg)
    (m : Mod) (p : List Nat)
    (h : ∀ (q : List Nat) (y : Mod), q <+: p → at? m q = some y →
      f (nameFrom "" m q) y.type = none) :
    cfgAt (settle qat s (some f) m) p = cfgAt (settle qat s none m) p := by
  have hS := prepare_same qat s m
  unfold settle
  rw [cfgAt_propagate, cfgAt_propagate]
  refine eff_over_miss f "" none _ p ?_
  intro q y hq hy
  obtain ⟨w, hw, hwt⟩ := same_at hS hy
  rw [hS.names, ← hwt]
  exact h q w hq hw

example :
    let f : String → String → Option QCfg := fun n _ => if n = "fc" then some dynCfg else none
    cfgAt (settle true ⟨.qnnpack, true, false, false, false⟩ (some f) qcDemo) [0] =
      cfgAt (settle true ⟨.qnnpack, true, false, false, false⟩ none qcDemo) [0] := by
  intro f
  refine C123_override_silent true _ f qcDemo [0] ?_
  intro q y hq hy
  obtain ⟨r, hr⟩ := hq
  match q, hr with
  | [], _ => injection hy with hy; subst hy; decide +kernel
  | [0], _ => injection hy with hy; subst hy; decide +kernel

/-! ### What does not hold -/

/-- For the `onnx` and `tensorrt` backends, `per_tensor=False` changes nothing
for any layer of any model: the per-channel settings are built but given to
nobody. -/
theorem C123_per_channel_ignored_false (b : Backend) (hb : b = .onnx ∨ b = .tensorrt)
    (a dl : Bool) (m : Mod) (p : List Nat) :
    cfgAt (settle true ⟨b, a, false, false, dl⟩ none m) p =
      cfgAt (settle true ⟨b, a, true, false, dl⟩ none m) p ∧
    ∀ c : QCfg, finalWt true ⟨b, a, false, false, dl⟩ c = c.wt := by
  rcases hb with rfl | rfl <;> cases a <;> cases dl <;> exact ⟨rfl, fun _ => rfl⟩

/-- With `per_tensor=False` a fused 1-D convolution and a transposed
convolution keep one range for all weights. -/
theorem C123_missing_convs_false :
    (cfgAt (settle true ⟨.qnnpack, true, false, false, false⟩ none qcDemo) [3]).map
        (fun c : QCfg => (finalWt true ⟨.qnnpack, true, false, false, false⟩ c).perChannel) = some false ∧
    (cfgAt (settle true ⟨.qnnpack, true, false, false, false⟩ none qcDemo) [4]).map
        (fun c : QCfg => (finalWt true ⟨.qnnpack, true, false, false, false⟩ c).perChannel) = some false := by
  decide +kernel

/-- `algorithm='kl'` does not reach the layers with settings of their own:
with `per_tensor=False` every recognised convolution is calibrated with the
plain histogram. -/
theorem C123_kl_false (m : Mod) (p : List Nat) (x : Mod) (a : Bool) (hf : Fresh m)
    (hx : at? m p = some x) (hw : Within convNames m p) :
    ∃ c : QCfg, cfgAt (settle false ⟨.qnnpack, a, false, true, false⟩ none m) p = some c ∧
      c.act.obs = .histogram ∧ c.act.obs ≠ .kl := by
  have h2 : ∃ qc : QCfg, (pairOf false ⟨.qnnpack, a, false, true, false⟩).2 = some qc ∧
      qc.act.obs = .histogram := by cases a <;> exact ⟨_, rfl, rfl⟩
  obtain ⟨qc, hq, ho⟩ := h2
  exact ⟨qc, settle_in false _ m p x qc hf hx (by intro h; cases h) hq hw, ho, by rw [ho]; decide⟩

example : ∃ c : QCfg, cfgAt (settle false ⟨.qnnpack, true, false, true, false⟩ none qcDemo) [0] = some c ∧
    c.act.obs = .histogram ∧ c.act.obs ≠ .kl :=
  C123_kl_false qcDemo [0] _ true qcDemo_fresh rfl ⟨[0], _, List.prefix_refl _, rfl, by decide⟩

/-- A function that answers for every module, as the one shipped for
post-training error analysis does, is only asked about the whole model; with
`per_tensor=False` the convolutions keep the default settings. -/
theorem C123_override_false :
    let c : QCfg := ⟨⟨.custom 0, false, 0, 255⟩, ⟨.custom 0, false, -128, 127⟩⟩
    let f : String → String → Option QCfg := fun _ _ => some c
    cfgAt (settle true ⟨.qnnpack, true, false, false, false⟩ (some f) qcDemo) [1] = some c ∧
    cfgAt (settle true ⟨.qnnpack, true, false, false, false⟩ (some f) qcDemo) [0] ≠ some c := by
  decide +kernel

/-- The weight range in the settings returned by the user's function is
overwritten when `per_tensor=False`. -/
theorem C123_override_range_false :
    let c : QCfg := ⟨⟨.custom 0, false, 0, 255⟩, ⟨.custom 0, false, -128, 127⟩⟩
    let f : String → String → Option QCfg := fun n _ => if n = "fc" then some c else none
    (cfgAt (settle true ⟨.qnnpack, true, false, false, false⟩ (some f) qcDemo) [1]).map
      (fun d : QCfg => (finalWt true ⟨.qnnpack, true, false, false, false⟩ d).qmin) = some (-127) := by
  decide +kernel

end Verif.Props
