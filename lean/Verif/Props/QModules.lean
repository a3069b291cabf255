import Verif.Model.QModules
import Verif.Props.Norm

/-! C88: the replacements for layers without a quantized counterpart compute, before quantization, what the layers compute. -/

namespace Verif.Props
open Verif.Spec Verif.Model Verif.Model.QModules Verif.Lemmas

theorem elementwise_eq {α β γ : Type} (f : α → β → γ) (a : Tensor α) (b : Tensor β) (h : b.shape = a.shape) :
    ∃ r, elementwise f a b = some r ∧ r.shape = a.shape ∧ ∀ idx, InBounds a.shape idx → r.get idx = f (a.get idx) (b.get idx) := by
  obtain ⟨r, h1, h2, h3⟩ := elementwise_left f a b (by rw [h]; exact expandOk_refl _)
  exact ⟨r, h1, h2, fun idx hi => by rw [h3 idx hi, bcGet_same b idx (by rw [h]; exact hi)]⟩

/-! ### Activations -/

/-- **C88, PReLU** with one slope, or one slope per channel. -/
theorem C88_prelu (alpha : List ℝ) (x : Tensor ℝ) (h : alpha.length = 1 ∨ (2 ≤ x.shape.length ∧ x.shape.getD 1 0 = alpha.length)) :
    ∃ r, qPReLU ⟨[alpha.length], fun idx => alpha.getD (idx.getD 0 0) 0⟩ x = some r ∧ Same r (Activation.prelu alpha x) := by
  have key : ∀ weight : Tensor ℝ, ExpandOk weight.shape x.shape →
      (∀ idx, InBounds x.shape idx → bcGet weight idx = if alpha.length = 1 then alpha.getD 0 0 else alpha.getD (idx.getD 1 0) 0) →
      ∃ r, (elementwise (· * ·) weight (mapTensor (· * (-1)) (mapTensor QModules.relu (mapTensor (· * (-1)) x)))).bind (elementwise (· + ·) (mapTensor QModules.relu x)) = some r ∧
        Same r (Activation.prelu alpha x) := by
    intro weight hw hg
    obtain ⟨x2, h1, h2, h3⟩ := elementwise_right (fun a b : ℝ => a * b) weight (mapTensor (· * (-1)) (mapTensor QModules.relu (mapTensor (· * (-1)) x))) hw
    obtain ⟨r, r1, r2, r3⟩ := elementwise_eq (fun a b : ℝ => a + b) (mapTensor QModules.relu x) x2 h2
    refine ⟨r, by rw [h1]; exact r1, r2, fun idx hi => ?_⟩
    rw [r2] at hi
    have hi' : InBounds x.shape idx := hi
    rw [r3 idx hi, h3 idx hi', hg idx hi']
    simp only [mapTensor, Activation.prelu, QModules.relu]
    by_cases hx : 0 < x.get idx
    · rw [if_pos hx, max_eq_left hx.le, max_eq_right (by linarith)]
      ring
    · rw [if_neg hx, max_eq_right (not_lt.mp hx), max_eq_left (by linarith [not_lt.mp hx])]
      ring
  unfold qPReLU
  simp only [List.prod_singleton, Option.bind_eq_bind]
  split
  · rename_i h1
    refine key _ ⟨by simp [reshape], by simp [reshape]⟩ (fun idx _ => ?_)
    rw [if_pos h1]
    simp [bcGet, reshape, flat, unflat, h1]
  · rename_i h1
    obtain ⟨hr, hc⟩ := h.resolve_left h1
    have hp : reshape ([alpha.length] ++ List.replicate (x.shape.length - 2) 1) (⟨[alpha.length], fun idx => alpha.getD (idx.getD 0 0) 0⟩ : Tensor ℝ) =
        perChannel x.shape.length ⟨[alpha.length], fun idx => alpha.getD (idx.getD 0 0) 0⟩ := by
      simp [perChannel]
    rw [hp]
    refine key _ (perChannel_bc x.shape.length _ x.shape [] rfl hr (by rw [hc])).1 (fun idx hi => ?_)
    rw [(perChannel_bc x.shape.length _ x.shape idx rfl hr (by rw [hc])).2 hi, if_neg h1]
    simp

/-- **C88, SiLU** for every tensor. -/
theorem C88_silu (x : Tensor ℝ) : ∃ r, qSiLU x = some r ∧ Same r (mapTensor Activation.silu x) := by
  obtain ⟨r, h1, h2, h3⟩ := elementwise_eq (fun a b : ℝ => a * b) x (mapTensor Activation.sigmoid x) rfl
  exact ⟨r, h1, h2, fun idx hi => by rw [h3 idx (h2 ▸ hi)]; rfl⟩

/-- **C88, GLU** over every axis of even size. -/
theorem C88_glu (a : Nat) (x : Tensor ℝ) (ha : a < x.shape.length) (h2 : 2 ∣ x.shape.getD a 0) : ∃ r, qGLU a x = some r ∧ Same r (Activation.glu a x) := by
  obtain ⟨m, hm⟩ := h2
  have hc : (x.shape.getD a 0 + 1) / 2 = m := by omega
  have hh : x.shape.getD a 0 / 2 = m := by omega
  have hn : x.shape.getD a 0 ≠ 1 := by omega
  have hd : x.shape.getD a 0 - m = m := by omega
  obtain ⟨r, r1, r2, r3⟩ := elementwise_eq (fun a b : ℝ => a * b) (splitPart a 0 m x) (mapTensor Activation.sigmoid (splitPart a m m x)) rfl
  refine ⟨r, ?_, ?_, fun idx hi => ?_⟩
  · simp only [qGLU, chunk2, hc, hd, if_neg hn, List.getElem?_cons_zero, List.getElem?_cons_succ, Option.bind_eq_bind, Option.bind_some]
    exact r1
  · rw [r2]; simp only [splitPart, Activation.glu, hh]
  · rw [r2] at hi
    rw [r3 idx hi]
    have hl : a < idx.length := by
      rw [inBounds_length hi]
      simpa [splitPart] using ha
    simp only [splitPart, mapTensor, Activation.glu, hh, Nat.zero_add]
    have : idx.set a (idx.getD a 0) = idx := by
      rw [List.getD_eq_getElem?_getD, List.getElem?_eq_getElem hl]
      simp
    rw [Nat.add_comm m, this]

/-- **C88, hardsigmoid** for every tensor. -/
theorem C88_hardsigmoid (x : Tensor ℝ) : qHardsigmoid x = mapTensor Activation.hardsigmoid x := by
  simp only [qHardsigmoid, mapTensor, QModules.relu, Activation.hardsigmoid]
  congr 1
  funext idx
  split_ifs with h1 h2
  · rw [max_eq_right (by linarith), min_eq_left (by norm_num)]; ring
  · rw [max_eq_left (by linarith), min_eq_right (by linarith)]; norm_num
  · rw [max_eq_left (by linarith), min_eq_left (by linarith)]; ring

/-! ### Normalisation -/

section
variable {K : Type} [Field K]

private theorem expandAs_ok (t like : Tensor K) (h : ExpandOk t.shape like.shape) : expandAs t like = some ⟨like.shape, bcGet t⟩ := by
  unfold expandAs
  rw [if_pos (bcShape_right _ _ h)]

private theorem meanDims_mem (k rank : Nat) (hk : k ≤ rank) : ∀ a < rank, a ∈ meanDims k rank ↔ rank - k ≤ a := by
  intro a ha
  simp only [meanDims, List.mem_map, List.mem_range]
  constructor
  · rintro ⟨i, hi, rfl⟩; omega
  · intro h; exact ⟨a - (rank - k), by omega, by omega⟩

private theorem bcGet_reduce (axes : List Nat) (f : List K → K) (g : K → K) (t x : Tensor K) (ht : t.shape = x.shape) (idx : List Nat) (hb : InBounds x.shape idx) :
    bcGet (mapTensor g (reduceKeep axes f t)) idx = g ((reduceKeep axes f t).get idx) := by
  rw [← ht] at hb
  obtain ⟨i0, h1, -, h3⟩ := reduce_index axes f t idx hb
  rw [h1 (mapTensor g (reduceKeep axes f t)) rfl]
  simp only [mapTensor]
  rw [reduceKeep_agree _ _ _ _ _ h3]

private theorem reduce_map_get (axes : List Nat) (f : List K → K) (t x : Tensor K) (h : K → List Nat → K) (ht : t.shape = x.shape) (hg : ∀ j, InBounds x.shape j → t.get j = h (x.get j) j) (idx : List Nat) :
    (reduceKeep axes f t).get idx = f (((allIndices x.shape).filter (agree axes x.shape.length idx)).map (fun j => h (x.get j) j)) := by
  rw [reduceKeep_get, ht]
  congr 1
  exact List.map_congr_left (fun j hj => hg j ((allIndices_mem_iff _ _).1 (List.mem_filter.mp hj).1))

/-- **C88, LayerNorm** with weight and bias, over any number of last axes (`_partial`: the reciprocal square root is `1 / sqrt`). -/
theorem C88_layer_norm_partial (sqrt rsqrt : K → K) (hrs : ∀ v, rsqrt v = 1 / sqrt v) (eps : K) (k : Nat) (w b x : Tensor K) (hk : k ≤ x.shape.length)
    (hw : w.shape = x.shape.drop (x.shape.length - k)) (hb : b.shape = x.shape.drop (x.shape.length - k)) :
    ∃ r, qLayerNorm rsqrt eps k (some w) (some b) x = some r ∧ Same r (layerNorm sqrt eps k (some w) (some b) x) := by
  have hmd := meanDims_mem k x.shape.length hk
  obtain ⟨axes, hax⟩ : ∃ axes, axes = meanDims k x.shape.length := ⟨_, rfl⟩
  rw [← hax] at hmd
  have e1 : ExpandOk (mapTensor (· * (-1)) (reduceKeep axes avg x)).shape x.shape := reduceKeep_expand axes avg x
  obtain ⟨diff, d1, d2, d3⟩ := elementwise_eq (fun a b : K => a + b) x (⟨x.shape, bcGet (mapTensor (· * (-1)) (reduceKeep axes avg x))⟩ : Tensor K) rfl
  obtain ⟨sq, s1, s2, s3⟩ := elementwise_eq (fun a b : K => a * b) diff diff rfl
  have hs2 : sq.shape = x.shape := s2.trans d2
  have e2 : ExpandOk (mapTensor rsqrt (mapTensor (· + eps) (reduceKeep axes avg sq))).shape diff.shape := by
    have := reduceKeep_expand axes avg sq
    rw [s2] at this
    exact this
  obtain ⟨norm, n1, n2, n3⟩ := elementwise_left (fun a b : K => a * b) diff (mapTensor rsqrt (mapTensor (· + eps) (reduceKeep axes avg sq))) e2
  have hn2 : norm.shape = x.shape := n2.trans d2
  have hexp : ∀ v s : Tensor K, v.shape = x.shape.drop (x.shape.length - k) → s.shape = x.shape → ExpandOk v.shape s.shape := by
    intro v s hv hs
    have hvl : v.shape.length = k := by rw [hv]; simp; omega
    rw [hs]
    refine ⟨by omega, ?_⟩
    rw [hvl, ← hv]
    exact (by simpa using (expandOk_refl v.shape).2)
  obtain ⟨na, a1, a2, a3⟩ := elementwise_eq (fun a b : K => a * b) norm (⟨norm.shape, bcGet w⟩ : Tensor K) rfl
  have ha2 : na.shape = x.shape := a2.trans hn2
  obtain ⟨r, r1, r2, r3⟩ := elementwise_eq (fun a b : K => a + b) na (⟨na.shape, bcGet b⟩ : Tensor K) rfl
  refine ⟨r, ?_, by rw [r2, ha2]; rfl, fun idx hi => ?_⟩
  · simp only [qLayerNorm, Option.bind_eq_bind, Option.bind_some, ← hax, expandAs_ok _ x e1, d1, s1, n1, expandAs_ok w norm (hexp w norm hw hn2), a1, expandAs_ok b na (hexp b na hb ha2)]
    exact r1
  · rw [r2, ha2] at hi
    have hdiff : ∀ j, InBounds x.shape j → diff.get j = x.get j - (reduceKeep axes avg x).get j := by
      intro j hj
      rw [d3 j hj]
      simp only [bcGet_reduce axes avg (· * (-1)) x x rfl j hj]
      ring
    have hvar : (reduceKeep axes avg sq).get idx = variance (((allIndices x.shape).filter (agree axes x.shape.length idx)).map x.get) := by
      rw [reduceKeep_get, hs2, variance, List.map_map]
      congr 1
      refine List.map_congr_left (fun j hj => ?_)
      have hj' := List.mem_filter.mp hj
      have hjb := (allIndices_mem_iff _ _).1 hj'.1
      rw [s3 j (d2 ▸ hjb), hdiff j hjb, reduceKeep_agree _ _ _ idx j hj'.2, reduceKeep_get]
      simp only [Function.comp]
      ring
    rw [r3 idx (ha2 ▸ hi), a3 idx (hn2 ▸ hi), n3 idx (d2 ▸ hi), hdiff idx hi]
    have hbc : bcGet (mapTensor rsqrt (mapTensor (· + eps) (reduceKeep axes avg sq))) idx = rsqrt ((reduceKeep axes avg sq).get idx + eps) :=
      bcGet_reduce axes avg (fun v => rsqrt (v + eps)) sq x hs2 idx hi
    rw [hbc, hvar, hrs]
    simp only [layerNorm, tailParam, (bcGet_tail w _ idx k hk hw hi).1, (bcGet_tail b _ idx k hk hb hi).1]
    have hcong : normalised sqrt eps (fun i j => decide (j.take (x.shape.length - k) = i.take (x.shape.length - k))) x idx =
        normalised sqrt eps (agree axes x.shape.length) x idx := by
      refine normalised_congr _ _ _ _ _ _ (fun j hj => ?_)
      exact (agree_take axes _ _ (by omega) hmd rfl hi hj).symm
    rw [hcong, normalised, reduceKeep_get]
    ring

/-- **C88, RMSNorm** with `eps` and weight, over any number of last axes (`_partial`: the reciprocal square root is `1 / sqrt`). -/
theorem C88_rms_norm_partial (sqrt rsqrt : K → K) (hrs : ∀ v, rsqrt v = 1 / sqrt v) (machine eps : K) (k : Nat) (w x : Tensor K) (hk : k ≤ x.shape.length)
    (hw : w.shape = x.shape.drop (x.shape.length - k)) : ∃ r, qRMSNorm rsqrt (some eps) k (some w) x = some r ∧ Same r (rmsNorm sqrt machine (some eps) k (some w) x) := by
  have hmd := meanDims_mem k x.shape.length hk
  obtain ⟨axes, hax⟩ : ∃ axes, axes = meanDims k x.shape.length := ⟨_, rfl⟩
  rw [← hax] at hmd
  obtain ⟨sq, s1, s2, s3⟩ := elementwise_eq (fun a b : K => a * b) x x rfl
  have e2 : ExpandOk (mapTensor rsqrt (mapTensor (· + eps) (reduceKeep axes avg sq))).shape x.shape := by
    have := reduceKeep_expand axes avg sq
    rw [s2] at this
    exact this
  obtain ⟨norm, n1, n2, n3⟩ := elementwise_left (fun a b : K => a * b) x (mapTensor rsqrt (mapTensor (· + eps) (reduceKeep axes avg sq))) e2
  have hwe : ExpandOk w.shape norm.shape := by
    have hvl : w.shape.length = k := by rw [hw]; simp; omega
    rw [n2]
    refine ⟨by omega, ?_⟩
    rw [hvl, ← hw]
    exact (by simpa using (expandOk_refl w.shape).2)
  obtain ⟨r, r1, r2, r3⟩ := elementwise_eq (fun a b : K => a * b) norm (⟨norm.shape, bcGet w⟩ : Tensor K) rfl
  refine ⟨r, ?_, by rw [r2, n2]; rfl, fun idx hi => ?_⟩
  · simp only [qRMSNorm, Option.bind_eq_bind, Option.bind_some, ← hax, s1, n1, expandAs_ok w norm hwe]
    exact r1
  · rw [r2, n2] at hi
    have hbc : bcGet (mapTensor rsqrt (mapTensor (· + eps) (reduceKeep axes avg sq))) idx = rsqrt ((reduceKeep axes avg sq).get idx + eps) :=
      bcGet_reduce axes avg (fun v => rsqrt (v + eps)) sq x s2 idx hi
    rw [r3 idx (n2 ▸ hi), n3 idx hi, hbc, hrs, reduceKeep_get, s2]
    simp only [rmsNorm, tailParam, Option.getD_some, (bcGet_tail w _ idx k hk hw hi).1]
    have : ((allIndices x.shape).filter (agree axes x.shape.length idx)).map sq.get =
        (((allIndices x.shape).filter (fun j => decide (j.take (x.shape.length - k) = idx.take (x.shape.length - k)))).map x.get).map (fun y => y ^ 2) := by
      rw [List.map_map]
      have hf : (allIndices x.shape).filter (agree axes x.shape.length idx) = (allIndices x.shape).filter (fun j => decide (j.take (x.shape.length - k) = idx.take (x.shape.length - k))) :=
        List.filter_congr (fun j hj => agree_take axes _ _ (by omega) hmd rfl hi ((allIndices_mem_iff _ _).1 hj))
      rw [hf]
      refine List.map_congr_left (fun j hj => ?_)
      rw [s3 j ((allIndices_mem_iff _ _).1 (List.mem_filter.mp hj).1)]
      simp only [Function.comp]
      ring
    rw [this]
    ring

/-- Without weight or bias (`elementwise_affine=False`, `bias=False`) the replacement raises, whatever the layer computes. -/
theorem C88_layer_norm_no_affine_false (rsqrt : K → K) (eps : K) (k : Nat) (w b : Option (Tensor K)) (x : Tensor K) (h : w = none ∨ b = none) : qLayerNorm rsqrt eps k w b x = none := by
  rcases h with rfl | rfl
  · rfl
  · cases w <;> rfl

theorem C88_rms_norm_no_affine_false (rsqrt : K → K) (eps : Option K) (k : Nat) (x : Tensor K) : qRMSNorm rsqrt eps k none x = none := rfl

end

/-- Without `eps`, nothing is added to the mean square, while `nn.RMSNorm` adds the machine epsilon: for a single 1 the layer returns less than 1, the replacement returns 1. -/
theorem C88_rms_norm_no_eps_false (machine : ℝ) (hm : 0 < machine) :
    ∃ r, qRMSNorm (fun v => 1 / Real.sqrt v) none 1 (some ⟨[1], fun _ => 1⟩) ⟨[1], fun _ => 1⟩ = some r ∧ r.get [0] = 1 ∧
      (rmsNorm Real.sqrt machine none 1 (some ⟨[1], fun _ => 1⟩) ⟨[1], fun _ => 1⟩).get [0] < 1 := by
  refine ⟨_, rfl, ?_, ?_⟩
  · have h : ∀ i, bcGet (⟨[1], fun _ => (1 : ℝ)⟩ : Tensor ℝ) i = 1 := fun _ => rfl
    simp [bcGet, mapTensor, reduceKeep, allIndices, unflat, avg, List.range_succ]
  · have h1 : 1 < Real.sqrt (1 + machine) := by
      rw [Real.lt_sqrt (by norm_num)]
      linarith
    have : (rmsNorm Real.sqrt machine none 1 (some ⟨[1], fun _ => 1⟩) ⟨[1], fun _ => 1⟩).get [0] = 1 / Real.sqrt (1 + machine) := by
      simp [rmsNorm, allIndices, unflat, avg, List.range_succ, tailParam]
    rw [this, div_lt_one (by linarith)]
    exact h1

/-- An axis of size 3: `nn.GLU` raises, the replacement multiplies two positions by the third one. -/
theorem C88_glu_odd_false (v : List Nat → ℝ) : ∃ r, qGLU 0 ⟨[3], v⟩ = some r ∧ r.shape = [2] ∧ ∀ i < 2, r.get [i] = v [i] * Activation.sigmoid (v [2]) := by
  have h : bcShape [2] [1] = some [2] := by decide
  have h' : qGLU 0 ⟨[3], v⟩ = elementwise (· * ·) (splitPart 0 0 2 ⟨[3], v⟩) (mapTensor Activation.sigmoid (splitPart 0 2 1 ⟨[3], v⟩)) := by simp [qGLU, chunk2]
  refine ⟨⟨[2], _⟩, by rw [h', elementwise]; simp only [splitPart, mapTensor, List.set_cons_zero, h]; rfl, rfl, fun i hi => ?_⟩
  simp [bcGet, mapTensor, splitPart, chunk2]

/-! ### Cases that meet the hypotheses -/

example : ∃ r, qPReLU ⟨[3], fun idx => [1, 2, 3].getD (idx.getD 0 0) 0⟩ ⟨[2, 3, 4, 5], fun _ => -1⟩ = some r ∧ Same r (Activation.prelu [1, 2, 3] ⟨[2, 3, 4, 5], fun _ => -1⟩) :=
  C88_prelu [1, 2, 3] _ (Or.inr ⟨by simp, rfl⟩)

example (v : List Nat → ℝ) : ∃ r, qGLU 1 ⟨[2, 6, 3], v⟩ = some r ∧ Same r (Activation.glu 1 ⟨[2, 6, 3], v⟩) := C88_glu 1 _ (by simp) ⟨3, rfl⟩

example (v w b : List Nat → ℝ) : ∃ r, qLayerNorm (fun v => 1 / Real.sqrt v) (1 / 100000) 2 (some ⟨[3, 4], w⟩) (some ⟨[3, 4], b⟩) ⟨[2, 3, 4], v⟩ = some r ∧
    Same r (layerNorm Real.sqrt (1 / 100000) 2 (some ⟨[3, 4], w⟩) (some ⟨[3, 4], b⟩) ⟨[2, 3, 4], v⟩) :=
  C88_layer_norm_partial Real.sqrt _ (fun _ => rfl) _ 2 ⟨[3, 4], w⟩ ⟨[3, 4], b⟩ ⟨[2, 3, 4], v⟩ (by simp) rfl rfl

example (v w : List Nat → ℝ) : ∃ r, qRMSNorm (fun v => 1 / Real.sqrt v) (some (1 / 100000)) 1 (some ⟨[4], w⟩) ⟨[2, 3, 4], v⟩ = some r ∧
    Same r (rmsNorm Real.sqrt 1 (some (1 / 100000)) 1 (some ⟨[4], w⟩) ⟨[2, 3, 4], v⟩) :=
  C88_rms_norm_partial Real.sqrt _ (fun _ => rfl) 1 _ 1 ⟨[4], w⟩ ⟨[2, 3, 4], v⟩ (by simp) rfl

end Verif.Props
