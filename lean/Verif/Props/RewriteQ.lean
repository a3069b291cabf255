import Verif.Model.RewriteQ
import Verif.Lemmas.Dataflow
import Verif.Props.Requant
import Mathlib.Data.List.GetD

/-! C107: operators between DEQUANTIZE and QUANTIZE can be made to work on quantized tensors. -/

namespace Verif.Props
open Verif.Spec Verif.Spec.Dataflow Verif.Spec.RewriteQ Verif.Model.RewriteQ Verif.Lemmas.Dataflow

/-- Operators have the operands and results they need, and quantizations can be used. -/
def Form (op : Op Kind) : Prop :=
  match op.fn with
  | .quantize p | .dequantize p => p.Valid ∧ (∃ a, op.ins = [a]) ∧ ∃ z, op.outs = [z]
  | .const _ => op.ins = [] ∧ ∃ c, op.outs = [c]
  | .float c _ => (∀ i ∈ c.operands, i < op.ins.length) ∧ ∃ y, op.outs = [y]
  | .minmax _ => (∃ a b, op.ins = [a, b]) ∧ ∃ y, op.outs = [y]
  | _ => True

/-- The graph can run on inputs `env` named by `K`, and a DEQUANTIZE reads a tensor with the quantization it expects. -/
structure QNet.Wf (rnd : ℝ → ℤ) (K : Set ℕ) (env : ℕ → V) (g : Net) : Prop where
  ordered : Ordered K g.ops
  freshK : ∀ n ∈ K, n < g.next
  fresh : ∀ op ∈ g.ops, ∀ n ∈ op.outs, n < g.next
  returned : ∀ o ∈ g.outputs, o < g.next
  form : ∀ op ∈ g.ops, Form op
  stores : ∀ op ∈ g.ops, ∀ p a, op.fn = .dequantize p → op.ins = [a] → Stores p (run (sem rnd) env g.ops a)

/-- The operators that are considered. -/
def Candidate (op : Op Kind) : Prop := (∃ c f, op.fn = .float c f) ∨ ∃ m, op.fn = .minmax m

/-- What the code does not check. -/
structure QNet.Harmless (g : Net) : Prop where
  /-- The result of the operator is not returned. -/
  unreturned : ∀ op ∈ g.ops, Candidate op → ∀ y ∈ op.outs, y ∉ g.outputs
  /-- MINIMUM and MAXIMUM have operands and result with the same quantization. -/
  sameParam : ∀ op ∈ g.ops, ∀ m, op.fn = .minmax m → ∀ d ∈ g.ops, ∀ p, d.fn = .dequantize p → ∀ x ∈ op.ins, x ∈ d.outs → ∀ r ∈ g.ops, ∀ p', r.fn = .quantize p' → ∀ y ∈ op.outs, y ∈ r.ins → p' = p
  /-- A constant operand of MINIMUM or MAXIMUM has no other use. -/
  constOnce : ∀ op ∈ g.ops, ∀ m, op.fn = .minmax m → ∀ k ∈ g.ops, ∀ t, k.fn = .const t → ∀ c ∈ k.outs, c ∈ op.ins → op.ins.count c = 1 ∧ ∀ o ∈ g.ops, c ∈ o.ins → o = op
  /-- It does not lie halfway between two steps. -/
  noTie : ∀ op ∈ g.ops, ∀ m, op.fn = .minmax m → ∀ k ∈ g.ops, ∀ t, k.fn = .const t → ∀ c ∈ k.outs, c ∈ op.ins → ∀ d ∈ g.ops, ∀ p, d.fn = .dequantize p → ∀ x ∈ d.outs, x ∈ op.ins →
    ∀ i, ∀ j : ℤ, (t.get i).real / p.scale ≠ j + 1 / 2
  /-- A divisor or dividend has more than one element. -/
  divOne : ∀ op ∈ g.ops, ∀ f, op.fn = .float .div f → ∀ x ∈ op.ins, g.one x = false

namespace RewriteQ

theorem lookup_mem {l : List (ℕ × V)} {x : ℕ} {t : V} (h : l.lookup x = some t) : (x, t) ∈ l := by
  induction l with
  | nil => simp at h
  | cons a l ih =>
    obtain ⟨k, v⟩ := a
    simp only [List.lookup_cons] at h
    split at h
    · next hk => simp only [beq_iff_eq] at hk; cases h; rw [hk]; simp
    · exact List.mem_cons_of_mem _ (ih h)

theorem lookup_some {l : List (ℕ × V)} {x : ℕ} {t : V} (h : (x, t) ∈ l) : l.lookup x ≠ none := by
  induction l with
  | nil => simp at h
  | cons a l ih =>
    obtain ⟨k, v⟩ := a
    simp only [List.lookup_cons]
    split
    · simp
    · next hk =>
      rcases List.mem_cons.1 h with h | h
      · cases h; simp at hk
      · exact ih h

theorem producer_spec {g : Net} {n : ℕ} {op : Op Kind} (h : producer g n = some op) : op ∈ g.ops ∧ n ∈ op.outs :=
  ⟨List.mem_of_find?_eq_some h, by simpa using List.find?_some h⟩

theorem deqParam_spec {g : Net} {n : ℕ} {p : QP} (h : deqParam g n = some p) : ∃ d ∈ g.ops, d.fn = .dequantize p ∧ n ∈ d.outs := by
  unfold deqParam at h
  split at h
  · next p' ins outs hp =>
    cases h
    exact ⟨_, (producer_spec hp).1, rfl, (producer_spec hp).2⟩
  · cases h

theorem constVal_spec {g : Net} {n : ℕ} {t : V} (h : constVal g n = some t) : ∃ k ∈ g.ops, k.fn = .const t ∧ n ∈ k.outs := by
  unfold constVal at h
  split at h
  · next p' ins outs hp =>
    cases h
    exact ⟨_, (producer_spec hp).1, rfl, (producer_spec hp).2⟩
  · cases h

/-! Numbers. -/

theorem rnd_mono {rnd : ℝ → ℤ} (h : IsNearest rnd) : Monotone rnd := by
  intro x y hxy
  rcases hxy.eq_or_lt with rfl | hlt
  · exact le_refl _
  · have h1 := abs_le.1 (h x)
    have h2 := abs_le.1 (h y)
    have : (rnd x : ℝ) < (rnd y : ℝ) + 1 := by linarith [h1.2, h2.1]
    have : rnd x < rnd y + 1 := by exact_mod_cast this
    omega

theorem quant_mono {rnd : ℝ → ℤ} (h : IsNearest rnd) {p : QP} (hp : p.Valid) : Monotone (p.quant rnd) := by
  intro x y hxy
  unfold QP.quant
  have := rnd_mono h (div_le_div_of_nonneg_right hxy hp.1.le)
  exact max_le_max_left _ (min_le_min_left _ (by omega))

theorem quant_pick {rnd : ℝ → ℤ} (h : IsNearest rnd) {p : QP} (hp : p.Valid) (m : Bool) (x y : ℝ) : p.quant rnd (pick m x y) = pick m (p.quant rnd x) (p.quant rnd y) := by
  cases m
  · exact (quant_mono h hp).map_max
  · exact (quant_mono h hp).map_min

theorem rint_shift {rnd rint : ℝ → ℤ} (h : IsNearest rnd) (h' : IsNearest rint) (x : ℝ) (z : ℤ) (hx : ∀ j : ℤ, x ≠ j + 1 / 2) : rint (x + z) = rnd x + z := by
  have h1 := abs_le.1 (h x)
  have h2 := abs_le.1 (h' (x + z))
  have ha : rint (x + z) ≤ rnd x + z := by
    by_contra hc
    have : rnd x + z + 1 ≤ rint (x + z) := by omega
    have : (rnd x : ℝ) + z + 1 ≤ rint (x + z) := by exact_mod_cast this
    exact hx (rnd x) (by linarith [h1.1, h2.2])
  have hb : rnd x + z ≤ rint (x + z) := by
    by_contra hc
    have : rint (x + z) + 1 ≤ rnd x + z := by omega
    have : (rint (x + z) : ℝ) + 1 ≤ rnd x + z := by exact_mod_cast this
    refine hx (rnd x - 1) ?_
    push_cast
    linarith [h1.2, h2.1]
  omega

theorem quantConst_eq {rnd rint : ℝ → ℤ} (h : IsNearest rnd) (h' : IsNearest rint) (p : QP) (t : V) (ht : ∀ i, ∀ j : ℤ, (t.get i).real / p.scale ≠ j + 1 / 2) :
    quantConst rint p t = quantT rnd p t := by
  unfold quantConst quantT mapT QP.quant
  congr 1
  funext i
  beta_reduce
  rw [rint_shift h h' _ _ (ht i)]

theorem quantT_deq {rnd : ℝ → ℤ} (h : IsNearest rnd) {p : QP} (hp : p.Valid) {t : V} (ht : Stores p t) : quantT rnd p (deq t) = t := by
  unfold quantT deq mapT
  obtain ⟨s, f⟩ := t
  congr 1
  funext i
  obtain ⟨q, hq, hh⟩ := ht i
  simp only at hq
  simp only [hq, QVal.real]
  rw [quant_real h hp hh]

theorem quantT_stores {rnd : ℝ → ℤ} {p : QP} (hp : p.Valid) (t : V) : Stores p (quantT rnd p t) := fun i => ⟨_, rfl, quant_holds hp _⟩

theorem stores_quantized {p : QP} {t : V} (h : Stores p t) : IsQuantized t := fun i => ⟨p, (h i).choose, (h i).choose_spec.1⟩

theorem quantT_deq_quantT {rnd : ℝ → ℤ} (h : IsNearest rnd) {p : QP} (hp : p.Valid) (t : V) : quantT rnd p (deq (quantT rnd p t)) = quantT rnd p t :=
  quantT_deq h hp (quantT_stores hp t)

/-! New operators. -/

variable {rnd rint : ℝ → ℤ}

theorem run_news_keep {l : List ℕ} {h : ℕ → Op Kind} {N : ℕ} (ho : ∀ i, (h i).outs = [N + i]) (e : ℕ → V) {n : ℕ} (hn : n < N) : run (sem rnd) e (l.map h) n = e n := by
  refine run_keep (fun op hop => ?_) e
  obtain ⟨i, _, rfl⟩ := List.mem_map.1 hop
  rw [ho]
  simp; omega

theorem run_news {l : List ℕ} (hl : l.Nodup) {h : ℕ → Op Kind} {N : ℕ} (ho : ∀ i, (h i).outs = [N + i]) (hi : ∀ i ∈ l, ∀ x ∈ (h i).ins, x < N) (e : ℕ → V) {i : ℕ} (hil : i ∈ l) :
    run (sem rnd) e (l.map h) (N + i) = sem rnd (h i).fn ((h i).ins.map e) 0 := by
  induction l generalizing e with
  | nil => simp at hil
  | cons j l ih =>
    obtain ⟨hj, hl'⟩ := List.nodup_cons.1 hl
    rw [List.map_cons, run_cons]
    rcases List.mem_cons.1 hil with rfl | hil'
    · rw [run_keep]
      · simp [step, ho]
      · intro op hop
        obtain ⟨k, hk, rfl⟩ := List.mem_map.1 hop
        rw [ho]
        simp only [List.mem_singleton]
        intro he
        exact hj (by rwa [show i = k by omega])
    · rw [ih hl' (fun k hk => hi k (by simp [hk])) _ hil']
      congr 1
      refine List.map_congr_left fun x hx => ?_
      have := hi i hil x hx
      simp only [step, ho, List.mem_singleton]
      rw [if_neg (by omega)]

theorem ordered_news {l : List ℕ} (hl : l.Nodup) {h : ℕ → Op Kind} {N : ℕ} (ho : ∀ i, (h i).outs = [N + i]) {S : Set ℕ} (hS : ∀ i ∈ l, N + i ∉ S) (hi : ∀ i ∈ l, ∀ x ∈ (h i).ins, x ∈ S) :
    Ordered S (l.map h) := by
  induction l generalizing S with
  | nil => trivial
  | cons j l ih =>
    obtain ⟨hj, hl'⟩ := List.nodup_cons.1 hl
    refine ⟨hi j (by simp), by simp [ho], fun o hoo => ?_, ih hl' (fun i hil => ?_) (fun i hil x hx => Or.inl (hi i (by simp [hil]) x hx))⟩
    · rw [ho] at hoo
      rw [List.mem_singleton.1 hoo]
      exact hS j (by simp)
    · rintro (hm | hm)
      · exact hS i (by simp [hil]) hm
      · simp only [ho, List.mem_singleton, Set.mem_setOf_eq] at hm
        exact hj (by rwa [show j = i by omega])

theorem indices_nodup (g : Net) (op : Op Kind) : (indices g op).Nodup := by
  unfold indices
  split
  · decide
  · decide
  · split
    · decide
    · split <;> decide
  · decide

theorem indices_lt (g : Net) (op : Op Kind) : ∀ i ∈ indices g op, i < 2 := by
  unfold indices
  split
  · decide
  · decide
  · split
    · decide
    · split <;> decide
  · decide

theorem quantIn_outs (g : Net) (op : Op Kind) (i : ℕ) : (quantIn g op i).outs = [g.next + i] := by
  unfold quantIn
  split <;> rfl

theorem quantIn_ins (g : Net) (op : Op Kind) (i : ℕ) : ∀ x ∈ (quantIn g op i).ins, x = op.ins.getD i 0 := by
  unfold quantIn
  split <;> simp

/-! Invariant. -/

/-- What is known of quantized constants. -/
structure QmapOk (rint : ℝ → ℤ) (g : Net) : Prop where
  lt : ∀ c qt, (c, qt) ∈ g.qmap → c < g.next
  use : ∀ c qt, (c, qt) ∈ g.qmap → ∀ op ∈ g.ops, c ∈ op.ins → ∃ m a k t d p, op.fn = .minmax m ∧ op.ins = [a, c] ∧ a ≠ c ∧ k ∈ g.ops ∧ k.fn = .const t ∧ c ∈ k.outs ∧ d ∈ g.ops ∧
    d.fn = .dequantize p ∧ a ∈ d.outs ∧ qt = quantConst rint p t

/-- All of it. -/
structure Inv (rnd rint : ℝ → ℤ) (K : Set ℕ) (env : ℕ → V) (g : Net) : Prop where
  wf : QNet.Wf rnd K env g
  ok : QNet.Harmless g
  qmap : QmapOk rint g

section
variable {K : Set ℕ} {env : ℕ → V} {g : Net}

theorem ins_lt (h : QNet.Wf rnd K env g) {op : Op Kind} (ho : op ∈ g.ops) {x : ℕ} (hx : x ∈ op.ins) : x < g.next := by
  rcases ordered_ins h.ordered ho hx with hk | ⟨o, ho', hxo⟩
  · exact h.freshK x hk
  · exact h.fresh o ho' x hxo

/-- A dequantized tensor quantized again. -/
theorem deq_value (hr : IsNearest rnd) (h : QNet.Wf rnd K env g) {d : Op Kind} (hd : d ∈ g.ops) {p : QP} (hp : d.fn = .dequantize p) {x : ℕ} (hx : x ∈ d.outs) :
    p.Valid ∧ deq (quantT rnd p (run (sem rnd) env g.ops x)) = run (sem rnd) env g.ops x := by
  have hf := h.form d hd
  unfold Form at hf
  rw [hp] at hf
  obtain ⟨hv, ⟨a, ha⟩, z, hz⟩ := hf
  refine ⟨hv, ?_⟩
  rw [run_mem h.ordered hd hx, hp, ha]
  simp only [sem, List.map_cons, List.headD_cons]
  rw [quantT_deq hr hv (h.stores d hd p a hp ha)]

theorem const_value (h : QNet.Wf rnd K env g) {k : Op Kind} (hk : k ∈ g.ops) {t : V} (ht : k.fn = .const t) {x : ℕ} (hx : x ∈ k.outs) : run (sem rnd) env g.ops x = t := by
  rw [run_mem h.ordered hk hx, ht]
  rfl

theorem candidate_iff (op : Op Kind) : rewritable op = true ↔ Candidate op := by
  unfold rewritable Candidate
  cases op.fn <;> simp

/-- Every operand considered is quantized. -/
def Covered (g : Net) (op : Op Kind) : Prop := ∀ i ∈ indices g op, (g.qmap.lookup (op.ins.getD i 0)).isSome ∨ (deqParam g (op.ins.getD i 0)).isSome

/-- The operators considered have the operands they need quantized. -/
theorem indices_float (h : Inv rnd rint K env g) {op : Op Kind} (ho : op ∈ g.ops) {c : Code} {f : List V → V} (hf : op.fn = .float c f) : indices g op = c.operands := by
  have hF := h.wf.form op ho
  unfold Form at hF
  rw [hf] at hF
  unfold indices
  rw [hf]
  cases c <;> try rfl
  simp only
  have h0 := h.ok.divOne op ho f hf
  have l0 := hF.1 0 (by simp [Code.operands])
  have l1 := hF.1 1 (by simp [Code.operands])
  rw [h0 _ (by rw [List.getD_eq_getElem _ _ l1]; exact List.getElem_mem _), h0 _ (by rw [List.getD_eq_getElem _ _ l0]; exact List.getElem_mem _)]
  rfl

/-- The new operand of an operator on real numbers. -/
theorem new_float (hr : IsNearest rnd) (h : Inv rnd rint K env g) {op : Op Kind} (ho : op ∈ g.ops) {c : Code} {f : List V → V} (hf : op.fn = .float c f) (hc : Covered g op) {i : ℕ}
    (hi : i ∈ indices g op) (hil : i < op.ins.length) {e : ℕ → V} (he : ∀ x ∈ op.ins, e x = run (sem rnd) env g.ops x) :
    IsQuantized (sem rnd (quantIn g op i).fn ((quantIn g op i).ins.map e) 0) ∧ deq (sem rnd (quantIn g op i).fn ((quantIn g op i).ins.map e) 0) = run (sem rnd) env g.ops op.ins[i] := by
  have hx : op.ins.getD i 0 = op.ins[i] := List.getD_eq_getElem _ _ hil
  have hm : op.ins[i] ∈ op.ins := List.getElem_mem _
  have hn : g.qmap.lookup (op.ins.getD i 0) = none := by
    cases hl : g.qmap.lookup (op.ins.getD i 0) with
    | none => rfl
    | some qt =>
      obtain ⟨m, a, k, t, d, p, hmm, _⟩ := h.qmap.use _ _ (lookup_mem hl) op ho (hx ▸ hm)
      rw [hf] at hmm
      cases hmm
  rcases hc i hi with hs | hs
  · rw [hn] at hs; cases hs
  · obtain ⟨p, hp⟩ := Option.isSome_iff_exists.1 hs
    obtain ⟨d, hd, hdf, hdo⟩ := deqParam_spec hp
    rw [hx] at hdo
    obtain ⟨hv, hq⟩ := deq_value hr h.wf hd hdf hdo
    have : sem rnd (quantIn g op i).fn ((quantIn g op i).ins.map e) 0 = quantT rnd p (run (sem rnd) env g.ops op.ins[i]) := by
      unfold quantIn
      rw [hn, hp, hx]
      simp only [sem, List.map_cons, List.headD_cons]
      rw [he _ hm]
    rw [this]
    exact ⟨stores_quantized (quantT_stores hv _), hq⟩

/-- The new operand of MINIMUM or MAXIMUM. -/
theorem new_minmax (hr : IsNearest rnd) (hr' : IsNearest rint) (h : Inv rnd rint K env g) {op : Op Kind} (ho : op ∈ g.ops) {m : Bool} (hf : op.fn = .minmax m) (hc : Covered g op) {p : QP} {y : ℕ}
    (hy : y ∈ op.outs) {r : Op Kind} (hrm : r ∈ g.ops) (hrf : r.fn = .quantize p) (hry : y ∈ r.ins) {i : ℕ} (hi : i < 2) {e : ℕ → V} (he : ∀ x ∈ op.ins, e x = run (sem rnd) env g.ops x) :
    sem rnd (quantIn g op i).fn ((quantIn g op i).ins.map e) 0 = quantT rnd p (run (sem rnd) env g.ops (op.ins.getD i 0)) := by
  have hF := h.wf.form op ho
  unfold Form at hF
  rw [hf] at hF
  obtain ⟨⟨a, b, hab⟩, _⟩ := hF
  have hm : op.ins.getD i 0 ∈ op.ins := by
    rw [hab, List.getD_eq_getElem _ _ (by simpa using hi)]
    exact List.getElem_mem _
  have hii : i ∈ indices g op := by
    unfold indices
    rw [hf]
    simp
    omega
  unfold quantIn
  cases hl : g.qmap.lookup (op.ins.getD i 0) with
  | some qt =>
    obtain ⟨m', a', k, t, d, p', hmm, hins, hne, hk, hkf, hko, hd, hdf, hdo, rfl⟩ := h.qmap.use _ _ (lookup_mem hl) op ho hm
    have hpp := h.ok.sameParam op ho m hf d hd p' hdf a' (by rw [hins]; simp) hdo r hrm p hrf y hy hry
    subst hpp
    simp only [sem]
    rw [const_value h.wf hk hkf hko]
    exact quantConst_eq hr hr' p t (h.ok.noTie op ho m hf k hk t hkf _ hko hm d hd p hdf a' hdo (by rw [hins]; simp))
  | none =>
    rcases hc i hii with hs | hs
    · rw [hl] at hs; cases hs
    · obtain ⟨p', hp⟩ := Option.isSome_iff_exists.1 hs
      obtain ⟨d, hd, hdf, hdo⟩ := deqParam_spec hp
      have hpp := h.ok.sameParam op ho m hf d hd p' hdf _ hm hdo r hrm p hrf y hy hry
      subst hpp
      rw [hp]
      simp only [sem, List.map_cons, List.headD_cons]
      rw [he _ hm]

/-- The quantized operator gives the quantized form of the old result. -/
theorem kernel_value (hr : IsNearest rnd) (hr' : IsNearest rint) (h : Inv rnd rint K env g) {op : Op Kind} (ho : op ∈ g.ops) (hcand : Candidate op) (hc : Covered g op) {p : QP} {y : ℕ}
    (hy : y ∈ op.outs) {r : Op Kind} (hrm : r ∈ g.ops) (hrf : r.fn = .quantize p) (hry : y ∈ r.ins) {e : ℕ → V} (he : ∀ x ∈ op.ins, e x = run (sem rnd) env g.ops x) :
    sem rnd (quantizedKind p op.fn) ((op.ins.mapIdx fun i x => if i ∈ indices g op then g.next + i else x).map (run (sem rnd) e ((indices g op).map (quantIn g op)))) 0 =
      quantT rnd p (run (sem rnd) env g.ops y) := by
  have hlt : ∀ i ∈ indices g op, ∀ x ∈ (quantIn g op i).ins, i < op.ins.length → x < g.next := by
    intro i _ x hx hil
    rw [quantIn_ins g op i x hx, List.getD_eq_getElem _ _ hil]
    exact ins_lt h.wf ho (List.getElem_mem _)
  have hval : (∀ i ∈ indices g op, i < op.ins.length) → (op.ins.mapIdx fun i x => if i ∈ indices g op then g.next + i else x).map (run (sem rnd) e ((indices g op).map (quantIn g op))) =
      op.ins.mapIdx fun i x => if i ∈ indices g op then sem rnd (quantIn g op i).fn ((quantIn g op i).ins.map e) 0 else run (sem rnd) env g.ops x := by
    intro hle
    refine List.ext_getElem (by simp) fun i h1 h2 => ?_
    simp only [List.getElem_mapIdx, List.getElem_map]
    split
    · next hi => exact run_news (indices_nodup g op) (quantIn_outs g op) (fun j hj x hx => hlt j hj x hx (hle j hj)) e hi
    · rw [run_news_keep (quantIn_outs g op) e (ins_lt h.wf ho (List.getElem_mem _)), he _ (List.getElem_mem _)]
  have hF := h.wf.form op ho
  unfold Form at hF
  have hY := run_mem h.wf.ordered ho hy (sem := sem rnd) env
  rcases hcand with ⟨c, f, hf⟩ | ⟨m, hf⟩
  · rw [hf] at hF
    have hidx := indices_float h ho hf
    have hle : ∀ i ∈ indices g op, i < op.ins.length := by rw [hidx]; exact hF.1
    rw [hval hle, hf, hY, hf]
    simp only [quantizedKind, sem]
    rw [if_pos]
    · congr 2
      refine List.ext_getElem (by simp) fun i h1 h2 => ?_
      simp only [List.getElem_mapIdx, List.getElem_map]
      have hil : i < op.ins.length := by simpa using h2
      by_cases hi : i ∈ indices g op
      · rw [if_pos (hidx ▸ hi), if_pos hi]
        exact (new_float hr h ho hf hc hi hil he).2
      · rw [if_neg (hidx ▸ hi), if_neg hi]
    · intro i hi
      have hi' : i ∈ indices g op := hidx ▸ hi
      have hil := hle i hi'
      rw [List.getD_eq_getElem _ _ (by simpa using hil), List.getElem_mapIdx, if_pos hi']
      exact (new_float hr h ho hf hc hi' hil he).1
  · rw [hf] at hF
    obtain ⟨⟨a, b, hab⟩, _⟩ := hF
    have hidx : indices g op = [0, 1] := by unfold indices; rw [hf]
    have hle : ∀ i ∈ indices g op, i < op.ins.length := by rw [hidx, hab]; simp
    have hv : p.Valid := by
      have := h.wf.form r hrm
      unfold Form at this
      rw [hrf] at this
      exact this.1
    have h0 := new_minmax hr hr' h ho hf hc hy hrm hrf hry (i := 0) (by omega) he
    have h1 := new_minmax hr hr' h ho hf hc hy hrm hrf hry (i := 1) (by omega) he
    rw [hval hle, hf, hY, hf]
    simp only [hab, List.getD_cons_zero, List.getD_cons_succ] at h0 h1
    simp only [hab, hidx, List.mapIdx_cons, List.mapIdx_nil, List.map_cons, List.map_nil]
    simp only [List.mem_cons, true_or, or_true, if_true, Nat.zero_add]
    rw [h0, h1]
    simp only [quantizedKind, sem, List.getD_cons_zero, List.getD_cons_succ]
    rw [if_pos ⟨stores_quantized (quantT_stores hv _), stores_quantized (quantT_stores hv _)⟩]
    unfold zipT quantT mapT
    congr 1
    funext i
    simp only [bcGet, raw, QVal.real]
    rw [quant_pick hr hv]

/-- The changed graph. -/
noncomputable def changed (g : Net) (op : Op Kind) (p : QP) (y : ℕ) : Net :=
  { g with ops := g.ops.flatMap (fun o => if o.outs.contains y then rewritten g op p y else [o]), next := g.next + 3 }

theorem flat_keep (l : List (Op Kind)) (f : List (Op Kind)) (y : ℕ) (h : ∀ o ∈ l, y ∉ o.outs) : l.flatMap (fun o => if o.outs.contains y then f else [o]) = l := by
  induction l with
  | nil => rfl
  | cons o l ih =>
    rw [List.flatMap_cons, ih fun o' ho' => h o' (by simp [ho'])]
    have := h o (by simp)
    simp [this]

/-- Where the operator is. -/
theorem changed_split (h : Ordered K g.ops) {op : Op Kind} (ho : op ∈ g.ops) {y : ℕ} (hy : y ∈ op.outs) (p : QP) :
    ∃ pre post, g.ops = pre ++ op :: post ∧ (changed g op p y).ops = pre ++ (rewritten g op p y ++ post) ∧ (∀ o ∈ pre, y ∉ o.outs) ∧ ∀ o ∈ post, y ∉ o.outs := by
  obtain ⟨pre, post, e⟩ := List.append_of_mem ho
  rw [e] at h
  have h2 := (ordered_append.1 h).2
  have hpre : ∀ o ∈ pre, y ∉ o.outs := fun o ho' hyo => h2.2.2.1 y hy (mem_after.2 (Or.inr ⟨o, ho', hyo⟩))
  have hpost : ∀ o ∈ post, y ∉ o.outs := ordered_not_made h2.2.2.2 (Or.inr hy)
  refine ⟨pre, post, e, ?_, hpre, hpost⟩
  simp only [changed, e, List.flatMap_append, List.flatMap_cons]
  rw [flat_keep pre _ y hpre, flat_keep post _ y hpost]
  simp [hy]

theorem outs_single (h : QNet.Wf rnd K env g) {op : Op Kind} (ho : op ∈ g.ops) (hc : Candidate op) {y : ℕ} (hy : y ∈ op.outs) : op.outs = [y] := by
  have hF := h.form op ho
  unfold Form at hF
  rcases hc with ⟨c, f, hf⟩ | ⟨m, hf⟩ <;> rw [hf] at hF <;> obtain ⟨_, z, hz⟩ := hF <;> rw [hz] at hy ⊢ <;> simp at hy <;> rw [hy]

theorem indices_len (h : Inv rnd rint K env g) {op : Op Kind} (ho : op ∈ g.ops) (hc : Candidate op) : ∀ i ∈ indices g op, i < op.ins.length := by
  have hF := h.wf.form op ho
  unfold Form at hF
  rcases hc with ⟨c, f, hf⟩ | ⟨m, hf⟩
  · rw [hf] at hF
    rw [indices_float h ho hf]
    exact hF.1
  · rw [hf] at hF
    obtain ⟨⟨a, b, hab⟩, _⟩ := hF
    unfold indices
    rw [hf, hab]
    simp

/-- The operands of the new operators in front. -/
theorem quantIn_mem (h : Inv rnd rint K env g) {op : Op Kind} (ho : op ∈ g.ops) (hc : Candidate op) {i : ℕ} (hi : i ∈ indices g op) : ∀ x ∈ (quantIn g op i).ins, x ∈ op.ins := by
  intro x hx
  have hl := indices_len h ho hc i hi
  rw [quantIn_ins g op i x hx, List.getD_eq_getElem _ _ hl]
  exact List.getElem_mem _

/-- Values after the change. -/
theorem changed_values (hr : IsNearest rnd) (hr' : IsNearest rint) (h : Inv rnd rint K env g) {op : Op Kind} (ho : op ∈ g.ops) (hcand : Candidate op) (hc : Covered g op) {p : QP} {y : ℕ}
    (hy : y ∈ op.outs) {r : Op Kind} (hrm : r ∈ g.ops) (hrf : r.fn = .quantize p) (hry : y ∈ r.ins) (hall : ∀ o ∈ g.ops, y ∈ o.ins → o.fn = .quantize p) :
    (∀ n, n ≠ y → n < g.next → run (sem rnd) env (changed g op p y).ops n = run (sem rnd) env g.ops n) ∧
      run (sem rnd) env (changed g op p y).ops (g.next + 2) = quantT rnd p (run (sem rnd) env g.ops y) := by
  obtain ⟨pre, post, e, e', hpre, hpost⟩ := changed_split h.wf.ordered ho hy p
  have hord := h.wf.ordered
  have hout := outs_single h.wf ho hcand hy
  have hylt := h.wf.fresh op ho y hy
  have hv : p.Valid := by
    have := h.wf.form r hrm
    unfold Form at this
    rw [hrf] at this
    exact this.1
  have he1 : ∀ x ∈ op.ins, run (sem rnd) env pre x = run (sem rnd) env g.ops x := by
    intro x hx
    rw [e] at hord ⊢
    rw [run_prefix hord ((ordered_append.1 hord).2.1 x hx)]
  have hker := kernel_value hr hr' h ho hcand hc hy hrm hrf hry he1
  have hins : ∀ i ∈ indices g op, ∀ x ∈ (quantIn g op i).ins, x < g.next := fun i hi x hx => ins_lt h.wf ho (quantIn_mem h ho hcand hi x hx)
  -- the values in front of the rest
  obtain ⟨e4, he4⟩ : ∃ e4, e4 = run (sem rnd) (run (sem rnd) env pre) (rewritten g op p y) := ⟨_, rfl⟩
  have e4y : e4 y = deq (quantT rnd p (run (sem rnd) env g.ops y)) := by
    rw [he4, rewritten, run_append]
    simp only [run_cons]
    simp only [run, List.foldl_nil]
    simp only [step, List.mem_singleton, if_true, List.map_cons, List.map_nil, sem, List.headD_cons, List.idxOf_cons_self]
    congr 1
  have e4k : e4 (g.next + 2) = quantT rnd p (run (sem rnd) env g.ops y) := by
    rw [he4, rewritten, run_append]
    simp only [run_cons]
    rw [← hker]
    simp only [run, List.foldl_nil]
    simp only [step, List.mem_singleton]
    rw [if_neg (by omega), if_pos trivial, List.idxOf_cons_self]
  have e4n : ∀ n, n ≠ y → n < g.next → e4 n = run (sem rnd) env pre n := by
    intro n hn hlt
    rw [he4, rewritten, run_append, run_cons, run_cons]
    show step _ (step _ _ _) _ n = _
    simp only [step, List.mem_singleton]
    rw [if_neg hn, if_neg (by omega)]
    exact run_news_keep (quantIn_outs g op) _ hlt
  have hnew : run (sem rnd) env (changed g op p y).ops = run (sem rnd) e4 post := by rw [e', run_append, run_append, ← he4]
  have hold : run (sem rnd) env g.ops = run (sem rnd) (step (sem rnd) (run (sem rnd) env pre) op) post := by rw [e, run_append, run_cons]
  have holdy : step (sem rnd) (run (sem rnd) env pre) op y = run (sem rnd) env g.ops y := by rw [hold, run_keep hpost]
  have hpm : ∀ o ∈ post, o ∈ g.ops := fun o hm => by rw [e]; simp [hm]
  refine ⟨fun n hn hlt => ?_, ?_⟩
  · rw [hnew, hold]
    refine run_agree (D := {n | n = y ∨ g.next ≤ n}) ?_ ?_ ?_ n (by simp; omega)
    · intro n hn
      simp only [Set.mem_setOf_eq, not_or, not_le] at hn
      rw [e4n n hn.1 hn.2]
      simp [step, hout, hn.1]
    · intro o hom f f' hff hfd k
      by_cases hyo : y ∈ o.ins
      · have hfo := hall o (hpm o hom) hyo
        have hF := h.wf.form o (hpm o hom)
        unfold Form at hF
        rw [hfo] at hF
        obtain ⟨_, ⟨a, ha⟩, _⟩ := hF
        rw [ha] at hyo
        simp only [List.mem_singleton] at hyo
        subst hyo
        obtain ⟨h1, h2⟩ := hfd y (Or.inl rfl)
        rw [hfo, ha]
        simp only [sem, List.map_cons, List.headD_cons]
        rw [h1, h2, e4y, holdy, quantT_deq_quantT hr hv]
      · congr 1
        refine List.map_congr_left fun x hx => hff x ?_
        rintro (rfl | hge)
        · exact hyo hx
        · exact absurd (ins_lt h.wf (hpm o hom) hx) (by omega)
    · rintro o hom n hno (rfl | hge)
      · exact hpost o hom hno
      · exact absurd (h.wf.fresh o (hpm o hom) n hno) (by omega)
  · rw [hnew, run_keep, e4k]
    intro o hom hno
    exact absurd (h.wf.fresh o (hpm o hom) _ hno) (by omega)

/-- The new operators can run. -/
theorem changed_ordered (h : Inv rnd rint K env g) {op : Op Kind} (ho : op ∈ g.ops) (hcand : Candidate op) {p : QP} {y : ℕ} (hy : y ∈ op.outs) : Ordered K (changed g op p y).ops := by
  obtain ⟨pre, post, e, e', hpre, hpost⟩ := changed_split h.wf.ordered ho hy p
  have hord := h.wf.ordered
  have hout := outs_single h.wf ho hcand hy
  have hylt := h.wf.fresh op ho y hy
  have hpm : ∀ o ∈ post, o ∈ g.ops := fun o hm => by rw [e]; simp [hm]
  have hpm' : ∀ o ∈ pre, o ∈ g.ops := fun o hm => by rw [e]; simp [hm]
  rw [e, ordered_append] at hord
  obtain ⟨h1, h2, h3, h4, h5⟩ := hord
  have hS : ∀ n ∈ after K pre, n < g.next := by
    intro n hn
    rcases mem_after.1 hn with hk | ⟨o, hom, hno⟩
    · exact h.wf.freshK n hk
    · exact h.wf.fresh o (hpm' o hom) n hno
  rw [e', ordered_append]
  refine ⟨h1, ?_⟩
  rw [ordered_append]
  have hmem : ∀ n, n ∈ after (after K pre) ((indices g op).map (quantIn g op)) ↔ n ∈ after K pre ∨ ∃ i ∈ indices g op, n = g.next + i := by
    intro n
    rw [mem_after (K := after K pre)]
    simp only [List.mem_map]
    constructor
    · rintro (hm | ⟨o, ⟨i, hi, rfl⟩, hno⟩)
      · exact Or.inl hm
      · rw [quantIn_outs] at hno
        exact Or.inr ⟨i, hi, by simpa using hno⟩
    · rintro (hm | ⟨i, hi, rfl⟩)
      · exact Or.inl hm
      · exact Or.inr ⟨_, ⟨i, hi, rfl⟩, by rw [quantIn_outs]; simp⟩
  refine ⟨?_, ?_⟩
  · rw [rewritten, ordered_append]
    refine ⟨ordered_news (indices_nodup g op) (quantIn_outs g op) (fun i _ hm => absurd (hS _ hm) (by omega)) (fun i hi x hx => h2 x (quantIn_mem h ho hcand hi x hx)), ?_, by simp, ?_, ?_, by simp, ?_, trivial⟩
    · intro x hx
      rw [hmem]
      obtain ⟨i, hi, rfl⟩ := List.mem_iff_getElem.1 hx
      simp only [List.getElem_mapIdx]
      split
      · next hii => exact Or.inr ⟨i, hii, rfl⟩
      · exact Or.inl (h2 _ (List.getElem_mem _))
    · intro o hoo
      rw [List.mem_singleton.1 hoo, hmem]
      rintro (hm | ⟨i, hi, hii⟩)
      · exact absurd (hS _ hm) (by omega)
      · have := indices_lt g op i hi; omega
    · intro x hx
      exact Or.inr hx
    · intro o hoo
      rw [List.mem_singleton.1 hoo]
      rintro (hm | hm)
      · rw [hmem] at hm
        rcases hm with hm | ⟨i, hi, hii⟩
        · exact h4 y hy hm
        · omega
      · simp only [List.mem_singleton, Set.mem_setOf_eq] at hm; omega
  · refine ordered_mono h5 ?_ ?_
    · rintro n (hn | hn)
      · exact mem_after.2 (Or.inl hn)
      · simp only [hout, List.mem_singleton, Set.mem_setOf_eq] at hn
        subst hn
        exact mem_after.2 (Or.inr ⟨⟨.dequantize p, [g.next + 2], [n]⟩, by simp [rewritten], by simp⟩)
    · intro n hn hn' o hom hno
      have hlt := h.wf.fresh o (hpm o hom) n hno
      rcases mem_after.1 hn with hm | ⟨o', hom', hno'⟩
      · exact hn' (Or.inl hm)
      · simp only [rewritten, List.mem_append, List.mem_map, List.mem_cons, List.not_mem_nil, or_false] at hom'
        rcases hom' with ⟨i, _, rfl⟩ | rfl | rfl
        · rw [quantIn_outs] at hno'
          simp at hno'; omega
        · simp at hno'; omega
        · simp at hno'
          subst hno'
          exact hpost o hom hno

/-- The operators of the changed graph. -/
theorem changed_mem (h : Ordered K g.ops) {op : Op Kind} (ho : op ∈ g.ops) {y : ℕ} (hy : y ∈ op.outs) (p : QP) (o : Op Kind) :
    o ∈ (changed g op p y).ops ↔ (o ∈ g.ops ∧ y ∉ o.outs) ∨ (∃ i ∈ indices g op, o = quantIn g op i) ∨
      o = ⟨quantizedKind p op.fn, op.ins.mapIdx fun i x => if i ∈ indices g op then g.next + i else x, [g.next + 2]⟩ ∨ o = ⟨.dequantize p, [g.next + 2], [y]⟩ := by
  obtain ⟨pre, post, e, e', hpre, hpost⟩ := changed_split h ho hy p
  rw [e', e]
  simp only [rewritten, List.mem_append, List.mem_map, List.mem_cons, List.not_mem_nil, or_false]
  constructor
  · rintro (h1 | (⟨i, hi, rfl⟩ | h1 | h1) | h1)
    · exact Or.inl ⟨Or.inl h1, hpre o h1⟩
    · exact Or.inr (Or.inl ⟨i, hi, rfl⟩)
    · exact Or.inr (Or.inr (Or.inl h1))
    · exact Or.inr (Or.inr (Or.inr h1))
    · exact Or.inl ⟨Or.inr (Or.inr h1), hpost o h1⟩
  · rintro (⟨h1 | h1 | h1, h2⟩ | ⟨i, hi, rfl⟩ | h1 | h1)
    · exact Or.inl h1
    · rw [h1] at h2; exact absurd hy h2
    · exact Or.inr (Or.inr h1)
    · exact Or.inr (Or.inl (Or.inl ⟨i, hi, rfl⟩))
    · exact Or.inr (Or.inl (Or.inr (Or.inl h1)))
    · exact Or.inr (Or.inl (Or.inr (Or.inr h1)))

theorem quantIn_cases (h : Inv rnd rint K env g) {op : Op Kind} (ho : op ∈ g.ops) (hcand : Candidate op) (hc : Covered g op) {i : ℕ} (hi : i ∈ indices g op) :
    (∃ t, quantIn g op i = ⟨.const t, [], [g.next + i]⟩) ∨
      ∃ x q d, quantIn g op i = ⟨.quantize q, [x], [g.next + i]⟩ ∧ x ∈ op.ins ∧ g.qmap.lookup x = none ∧ d ∈ g.ops ∧ d.fn = .dequantize q ∧ x ∈ d.outs := by
  have hm : op.ins.getD i 0 ∈ op.ins := by
    rw [List.getD_eq_getElem _ _ (indices_len h ho hcand i hi)]
    exact List.getElem_mem _
  unfold quantIn
  cases hl : g.qmap.lookup (op.ins.getD i 0) with
  | some t => exact Or.inl ⟨t, rfl⟩
  | none =>
    rcases hc i hi with hs | hs
    · rw [hl] at hs; cases hs
    · obtain ⟨q, hq⟩ := Option.isSome_iff_exists.1 hs
      obtain ⟨d, hd, hdf, hdo⟩ := deqParam_spec hq
      rw [hq]
      exact Or.inr ⟨_, q, d, rfl, hm, hl, hd, hdf, hdo⟩

theorem quantizedKind_cases {op : Op Kind} (hcand : Candidate op) (p : QP) : (∃ c f, quantizedKind p op.fn = .kernel c f p) ∨ ∃ m, quantizedKind p op.fn = .minmaxQ m p := by
  rcases hcand with ⟨c, f, hf⟩ | ⟨m, hf⟩ <;> rw [hf]
  · exact Or.inl ⟨c, f, rfl⟩
  · exact Or.inr ⟨m, rfl⟩

/-- Operators of the changed graph by kind. -/
theorem changed_kind (h : Inv rnd rint K env g) {op : Op Kind} (ho : op ∈ g.ops) (hcand : Candidate op) (hc : Covered g op) {p : QP} {y : ℕ} (hy : y ∈ op.outs) {o : Op Kind}
    (hm : o ∈ (changed g op p y).ops) :
    (o ∈ g.ops ∧ y ∉ o.outs) ∨ (∃ t i, i ∈ indices g op ∧ o = ⟨.const t, [], [g.next + i]⟩) ∨
      (∃ x q d i, i ∈ indices g op ∧ o = ⟨.quantize q, [x], [g.next + i]⟩ ∧ x ∈ op.ins ∧ g.qmap.lookup x = none ∧ d ∈ g.ops ∧ d.fn = .dequantize q ∧ x ∈ d.outs) ∨
      (((∃ c f, o.fn = .kernel c f p) ∨ ∃ m, o.fn = .minmaxQ m p) ∧ o.ins = (op.ins.mapIdx fun i x => if i ∈ indices g op then g.next + i else x) ∧ o.outs = [g.next + 2]) ∨
      o = ⟨.dequantize p, [g.next + 2], [y]⟩ := by
  rcases (changed_mem h.wf.ordered ho hy p o).1 hm with h1 | ⟨i, hi, rfl⟩ | rfl | rfl
  · exact Or.inl h1
  · rcases quantIn_cases h ho hcand hc hi with ⟨t, ht⟩ | ⟨x, q, d, hq, h1, h2, h3, h4, h5⟩
    · exact Or.inr (Or.inl ⟨t, i, hi, ht⟩)
    · exact Or.inr (Or.inr (Or.inl ⟨x, q, d, i, hi, hq, h1, h2, h3, h4, h5⟩))
  · exact Or.inr (Or.inr (Or.inr (Or.inl ⟨quantizedKind_cases hcand p, rfl, rfl⟩)))
  · exact Or.inr (Or.inr (Or.inr (Or.inr rfl)))

/-- The invariant holds after the change. -/
theorem changed_inv (hr : IsNearest rnd) (hr' : IsNearest rint) (h : Inv rnd rint K env g) {op : Op Kind} (ho : op ∈ g.ops) (hcand : Candidate op) (hc : Covered g op) {p : QP} {y : ℕ}
    (hy : y ∈ op.outs) {r : Op Kind} (hrm : r ∈ g.ops) (hrf : r.fn = .quantize p) (hry : y ∈ r.ins) (hall : ∀ o ∈ g.ops, y ∈ o.ins → o.fn = .quantize p) :
    Inv rnd rint K env (changed g op p y) := by
  have hvals := changed_values hr hr' h ho hcand hc hy hrm hrf hry hall
  have hylt := h.wf.fresh op ho y hy
  have hv : p.Valid := by
    have := h.wf.form r hrm
    unfold Form at this
    rw [hrf] at this
    exact this.1
  have hU := fun {a b : Op Kind} (ha : a ∈ g.ops) (hb : b ∈ g.ops) {n : ℕ} (hna : n ∈ a.outs) (hnb : n ∈ b.outs) => ordered_unique h.wf.ordered ha hb hna hnb
  have hk := fun {o : Op Kind} (hm : o ∈ (changed g op p y).ops) => changed_kind h ho hcand hc hy hm
  -- old minimum and maximum operators
  have hmm : ∀ o ∈ (changed g op p y).ops, ∀ m, o.fn = .minmax m → o ∈ g.ops ∧ y ∉ o.outs := by
    intro o hm m hf
    rcases hk hm with h1 | ⟨t, i, _, rfl⟩ | ⟨x, q, d, i, _, rfl, _⟩ | ⟨h1 | h1, _⟩ | rfl
    · exact h1
    · cases hf
    · cases hf
    · obtain ⟨c, f, hcf⟩ := h1; rw [hcf] at hf; cases hf
    · obtain ⟨c, hcf⟩ := h1; rw [hcf] at hf; cases hf
    · cases hf
  have hfl : ∀ o ∈ (changed g op p y).ops, ∀ c f, o.fn = .float c f → o ∈ g.ops ∧ y ∉ o.outs := by
    intro o hm c f hf
    rcases hk hm with h1 | ⟨t, i, _, rfl⟩ | ⟨x, q, d, i, _, rfl, _⟩ | ⟨h1 | h1, _⟩ | rfl
    · exact h1
    · cases hf
    · cases hf
    · obtain ⟨c, f, hcf⟩ := h1; rw [hcf] at hf; cases hf
    · obtain ⟨c, hcf⟩ := h1; rw [hcf] at hf; cases hf
    · cases hf
  -- constants that an old operator reads are old
  have hco : ∀ o ∈ (changed g op p y).ops, ∀ t, o.fn = .const t → ∀ c ∈ o.outs, c < g.next → o ∈ g.ops ∧ y ∉ o.outs := by
    intro o hm t hf c hco hlt
    rcases hk hm with h1 | ⟨t, i, _, rfl⟩ | ⟨x, q, d, i, _, rfl, _⟩ | ⟨h1 | h1, _⟩ | rfl
    · exact h1
    · simp at hco; omega
    · cases hf
    · obtain ⟨c, f, hcf⟩ := h1; rw [hcf] at hf; cases hf
    · obtain ⟨c, hcf⟩ := h1; rw [hcf] at hf; cases hf
    · cases hf
  have hdo : ∀ o ∈ (changed g op p y).ops, ∀ q, o.fn = .dequantize q → (o ∈ g.ops ∧ y ∉ o.outs) ∨ o = ⟨.dequantize p, [g.next + 2], [y]⟩ := by
    intro o hm q hf
    rcases hk hm with h1 | ⟨t, i, _, rfl⟩ | ⟨x, q, d, i, _, rfl, _⟩ | ⟨h1 | h1, _⟩ | rfl
    · exact Or.inl h1
    · cases hf
    · cases hf
    · obtain ⟨c, f, hcf⟩ := h1; rw [hcf] at hf; cases hf
    · obtain ⟨c, hcf⟩ := h1; rw [hcf] at hf; cases hf
    · exact Or.inr rfl
  -- only QUANTIZE reads the result
  have hnoty : ∀ o ∈ g.ops, (∀ q, o.fn ≠ .quantize q) → y ∉ o.ins := fun o hm hn hyo => hn p (hall o hm hyo)
  -- what is kept
  have hkeep : ∀ o ∈ g.ops, ∀ k, o.fn = k → (∀ c f, k ≠ .float c f) → (∀ m, k ≠ .minmax m) → o ∈ (changed g op p y).ops := by
    intro o hm k hf h1 h2
    refine (changed_mem h.wf.ordered ho hy p o).2 (Or.inl ⟨hm, fun hyo => ?_⟩)
    have := hU hm ho hyo hy
    subst this
    rcases hcand with ⟨c, f, hc'⟩ | ⟨m, hc'⟩
    · exact h1 c f (hf ▸ hc')
    · exact h2 m (hf ▸ hc')
  refine ⟨⟨changed_ordered h ho hcand hy, fun n hn => ?_, fun o hm n hno => ?_, fun o hoo => ?_, fun o hm => ?_, fun o hm q a hf ha => ?_⟩, ⟨?_, ?_, ?_, ?_, ?_⟩, ⟨?_, ?_⟩⟩
  · have := h.wf.freshK n hn
    show n < g.next + 3
    omega
  · show n < g.next + 3
    rcases hk hm with ⟨h1, _⟩ | ⟨t, i, hi, rfl⟩ | ⟨x, q, d, i, hi, rfl, _⟩ | ⟨_, _, h1⟩ | rfl
    · have := h.wf.fresh o h1 n hno; omega
    · have := indices_lt g op i hi; simp at hno; omega
    · have := indices_lt g op i hi; simp at hno; omega
    · rw [h1] at hno; simp at hno; omega
    · simp at hno; omega
  · have := h.wf.returned o hoo
    show o < g.next + 3
    omega
  · rcases hk hm with ⟨h1, _⟩ | ⟨t, i, hi, rfl⟩ | ⟨x, q, d, i, hi, rfl, _, _, hd, hdf, _⟩ | ⟨h1 | h1, _⟩ | rfl
    · exact h.wf.form o h1
    · exact ⟨rfl, _, rfl⟩
    · have := h.wf.form d hd
      unfold Form at this
      rw [hdf] at this
      exact ⟨this.1, ⟨_, rfl⟩, _, rfl⟩
    · obtain ⟨c, f, hcf⟩ := h1; unfold Form; rw [hcf]; trivial
    · obtain ⟨c, hcf⟩ := h1; unfold Form; rw [hcf]; trivial
    · exact ⟨hv, ⟨_, rfl⟩, _, rfl⟩
  · rcases hdo o hm q hf with ⟨h1, _⟩ | rfl
    · have hay : a ≠ y := by
        rintro rfl
        exact hnoty o h1 (by rw [hf]; simp) (by rw [ha]; simp)
      rw [hvals.1 a hay (ins_lt h.wf h1 (by rw [ha]; simp))]
      exact h.wf.stores o h1 q a hf ha
    · cases hf
      simp only [List.cons.injEq, and_true] at ha
      subst ha
      rw [hvals.2]
      exact quantT_stores hv _
  · rintro o hm (⟨c, f, hf⟩ | ⟨m, hf⟩) z hz
    · exact h.ok.unreturned o (hfl o hm c f hf).1 (Or.inl ⟨c, f, hf⟩) z hz
    · exact h.ok.unreturned o (hmm o hm m hf).1 (Or.inr ⟨m, hf⟩) z hz
  · intro o hm m hf d hd q hdf x hx hxd r' hr'm q' hr'f z hz hzr
    have hom := (hmm o hm m hf).1
    rcases hdo d hd q hdf with ⟨hd', _⟩ | rfl
    · rcases hk hr'm with ⟨h1, _⟩ | ⟨t, i, hi, rfl⟩ | ⟨x', q'', d', i, hi, rfl, _, _, hd'm, hd'f, hxd'⟩ | ⟨h1 | h1, _⟩ | rfl
      · exact h.ok.sameParam o hom m hf d hd' q hdf x hx hxd r' h1 q' hr'f z hz hzr
      · cases hr'f
      · simp only [List.mem_singleton] at hzr
        subst hzr
        have := hU hom hd'm hz hxd'
        subst this
        rw [hf] at hd'f
        cases hd'f
      · obtain ⟨c, f, hcf⟩ := h1; rw [hcf] at hr'f; cases hr'f
      · obtain ⟨c, hcf⟩ := h1; rw [hcf] at hr'f; cases hr'f
      · cases hr'f
    · simp only [List.mem_singleton] at hxd
      subst hxd
      exact absurd hx (hnoty o hom (by rw [hf]; simp))
  · intro o hm m hf k hkm t hkf c hck hco'
    have hom := (hmm o hm m hf)
    have hclt := ins_lt h.wf hom.1 hco'
    have hk' := (hco k hkm t hkf c hck hclt).1
    obtain ⟨h1, h2⟩ := h.ok.constOnce o hom.1 m hf k hk' t hkf c hck hco'
    refine ⟨h1, fun o' hm' hc' => ?_⟩
    rcases hk hm' with ⟨h3, _⟩ | ⟨t, i, hi, rfl⟩ | ⟨x', q'', d', i, hi, rfl, hx', _, hd'm, hd'f, hxd'⟩ | ⟨_, h3, _⟩ | rfl
    · exact h2 o' h3 hc'
    · simp at hc'
    · simp only [List.mem_singleton] at hc'
      subst hc'
      have := hU hk' hd'm hck hxd'
      subst this
      rw [hkf] at hd'f
      cases hd'f
    · rw [h3] at hc'
      obtain ⟨i, hi, hii⟩ := List.mem_iff_getElem.1 hc'
      simp only [List.getElem_mapIdx] at hii
      split at hii
      · omega
      · have hop := h2 op ho (by rw [← hii]; exact List.getElem_mem _)
        exact absurd (hop ▸ hy) hom.2
    · simp at hc'; omega
  · intro o hm m hf k hkm t hkf c hck hco' d hd q hdf x hxd hx i j
    have hom := (hmm o hm m hf).1
    have hclt := ins_lt h.wf hom hco'
    rcases hdo d hd q hdf with ⟨hd', _⟩ | rfl
    · exact h.ok.noTie o hom m hf k (hco k hkm t hkf c hck hclt).1 t hkf c hck hco' d hd' q hdf x hxd hx i j
    · simp only [List.mem_singleton] at hxd
      subst hxd
      exact absurd hx (hnoty o hom (by rw [hf]; simp))
  · intro o hm f hf x hx
    exact h.ok.divOne o (hfl o hm _ f hf).1 f hf x hx
  · intro c qt hq
    have := h.qmap.lt c qt hq
    show c < g.next + 3
    omega
  · intro c qt hq o hm hco'
    have hclt := h.qmap.lt c qt hq
    rcases hk hm with ⟨h3, _⟩ | ⟨t, i, hi, rfl⟩ | ⟨x', q'', d', i, hi, rfl, hx', hnone, _⟩ | ⟨_, h3, _⟩ | rfl
    · obtain ⟨m, a, k, t, d, q, h4, h5, h6, h7, h8, h9, h10, h11, h12, h13⟩ := h.qmap.use c qt hq o h3 hco'
      exact ⟨m, a, k, t, d, q, h4, h5, h6, hkeep k h7 _ h8 (by simp) (by simp), h8, h9, hkeep d h10 _ h11 (by simp) (by simp), h11, h12, h13⟩
    · simp at hco'
    · simp only [List.mem_singleton] at hco'
      subst hco'
      exact absurd hnone (lookup_some hq)
    · rw [h3] at hco'
      obtain ⟨i, hi, hii⟩ := List.mem_iff_getElem.1 hco'
      simp only [List.getElem_mapIdx] at hii
      split at hii
      · omega
      · next hni =>
        have hil : i < op.ins.length := by simpa using hi
        obtain ⟨m, a, k, t, d, q, h4, h5, _⟩ := h.qmap.use c qt hq op ho (by rw [← hii]; exact List.getElem_mem _)
        have : i < 2 := by rw [h5] at hil; simpa using hil
        exfalso
        apply hni
        unfold indices
        rw [h4]
        simp
        omega
    · simp at hco'; omega

/-- Quantizing a constant keeps the invariant. -/
theorem withConst_inv (h : Inv rnd rint K env g) {op : Op Kind} (ho : op ∈ g.ops) {g' : Net} (hg : withConst rint g op = some g') :
    Inv rnd rint K env g' ∧ g'.ops = g.ops ∧ g'.outputs = g.outputs ∧ g'.next = g.next ∧ g'.one = g.one := by
  unfold withConst at hg
  split at hg
  · next m t hf hcv =>
    split at hg
    · cases hg; exact ⟨h, rfl, rfl, rfl, rfl⟩
    · split at hg
      · cases hg
      · next p hp =>
        cases hg
        refine ⟨⟨⟨h.wf.ordered, h.wf.freshK, h.wf.fresh, h.wf.returned, h.wf.form, h.wf.stores⟩, ⟨h.ok.unreturned, h.ok.sameParam, h.ok.constOnce, h.ok.noTie, h.ok.divOne⟩, ?_, ?_⟩, rfl, rfl, rfl, rfl⟩
        · intro c qt hq
          rcases List.mem_cons.1 hq with hq | hq
          · cases hq
            obtain ⟨k, hk, _, hko⟩ := constVal_spec hcv
            exact h.wf.fresh k hk _ hko
          · exact h.qmap.lt c qt hq
        · intro c qt hq o hm hco
          rcases List.mem_cons.1 hq with hq | hq
          · cases hq
            have hF := h.wf.form op ho
            unfold Form at hF
            rw [hf] at hF
            obtain ⟨⟨a, b, hab⟩, _⟩ := hF
            obtain ⟨k, hk, hkf, hko⟩ := constVal_spec hcv
            obtain ⟨d, hd, hdf, hdo⟩ := deqParam_spec hp
            rw [hab] at hko hco hdo
            simp only [List.getD_cons_zero, List.getD_cons_succ] at hko hco hdo
            obtain ⟨h1, h2⟩ := h.ok.constOnce op ho m hf k hk t hkf b hko (by rw [hab]; simp)
            have := h2 o hm hco
            subst this
            refine ⟨m, a, k, t, d, p, hf, by rw [hab]; rfl, ?_, hk, hkf, by rw [hab]; exact hko, hd, hdf, hdo, rfl⟩
            rw [hab]
            rintro rfl
            rw [hab] at h1
            simp at h1
          · exact h.qmap.use c qt hq o hm hco
  · cases hg; exact ⟨h, rfl, rfl, rfl, rfl⟩

/-! The count. -/

theorem filter_cover {α : Type} (l : List α) (p q : α → Bool) (hd : ∀ x ∈ l, ¬ (p x = true ∧ q x = true)) :
    (l.filter p).length + (l.filter q).length ≤ l.length ∧ ((l.filter p).length + (l.filter q).length = l.length → ∀ x ∈ l, p x = true ∨ q x = true) := by
  induction l with
  | nil => simp
  | cons a l ih =>
    obtain ⟨h1, h2⟩ := ih fun x hx => hd x (by simp [hx])
    have ha := hd a (by simp)
    by_cases hp : p a = true <;> by_cases hq : q a = true
    · exact absurd ⟨hp, hq⟩ ha
    · simp only [List.filter_cons, hp, hq, if_true, if_false, List.length_cons]
      refine ⟨by simp; omega, fun he x hx => ?_⟩
      rcases List.mem_cons.1 hx with rfl | hx
      · exact Or.inl hp
      · exact h2 (by simp at he; omega) x hx
    · simp only [List.filter_cons, hp, hq, if_true, if_false, List.length_cons]
      refine ⟨by simp; omega, fun he x hx => ?_⟩
      rcases List.mem_cons.1 hx with rfl | hx
      · exact Or.inr hq
      · exact h2 (by simp at he; omega) x hx
    · simp only [List.filter_cons, hp, hq, if_false, List.length_cons]
      refine ⟨by simp; omega, fun he => ?_⟩
      simp at he; omega

theorem mem_readers {y : ℕ} {o : Op Kind} (ho : o ∈ g.ops) (hy : y ∈ o.ins) : o ∈ readers g y := by
  unfold readers
  exact List.mem_flatMap.2 ⟨o, ho, List.mem_replicate.2 ⟨by simpa [List.count_eq_zero] using hy, rfl⟩⟩

theorem readers_mem {y : ℕ} {o : Op Kind} (h : o ∈ readers g y) : o ∈ g.ops ∧ y ∈ o.ins := by
  unfold readers at h
  obtain ⟨o', ho', hr⟩ := List.mem_flatMap.1 h
  obtain ⟨hne, rfl⟩ := List.mem_replicate.1 hr
  exact ⟨ho', by simpa [List.count_eq_zero] using hne⟩

/-- When the operator is changed, its operands are quantized, and only one QUANTIZE reads its result. -/
theorem count_spec (h : Inv rnd rint K env g) {op : Op Kind} (ho : op ∈ g.ops) (hcand : Candidate op) {ok : Kind → QP → Bool} {y : ℕ} {p : QP}
    (hp : Model.RewriteQ.outParam ok op.fn (readers g y) = some p)
    (hc : ¬ ((readers g y).length = 0 ∨ ((indices g op).map fun i => op.ins.getD i 0).length + (readers g y).length >
      (((indices g op).map fun i => op.ins.getD i 0).filter fun x => (g.qmap.lookup x).isSome).length +
      (((indices g op).map fun i => op.ins.getD i 0).filter fun x => (deqParam g x).isSome).dedup.length + 1)) :
    Covered g op ∧ (∃ r ∈ g.ops, r.fn = .quantize p ∧ y ∈ r.ins) ∧ ∀ o ∈ g.ops, y ∈ o.ins → o.fn = .quantize p := by
  obtain ⟨prev, hprev⟩ : ∃ prev, prev = (indices g op).map fun i => op.ins.getD i 0 := ⟨_, rfl⟩
  rw [← hprev] at hc
  have hdis : ∀ x ∈ prev, ¬ ((g.qmap.lookup x).isSome = true ∧ (deqParam g x).isSome = true) := by
    rintro x hx ⟨h1, h2⟩
    rw [hprev] at hx
    obtain ⟨i, hi, rfl⟩ := List.mem_map.1 hx
    have hm : op.ins.getD i 0 ∈ op.ins := by
      rw [List.getD_eq_getElem _ _ (indices_len h ho hcand i hi)]
      exact List.getElem_mem _
    obtain ⟨qt, hqt⟩ := Option.isSome_iff_exists.1 h1
    obtain ⟨q, hq⟩ := Option.isSome_iff_exists.1 h2
    obtain ⟨m, a, k, t, d, p', _, _, _, hk, hkf, hko, _⟩ := h.qmap.use _ _ (lookup_mem hqt) op ho hm
    obtain ⟨d', hd', hdf', hdo'⟩ := deqParam_spec hq
    have := ordered_unique h.wf.ordered hk hd' hko hdo'
    subst this
    rw [hkf] at hdf'
    cases hdf'
  obtain ⟨h1, h2⟩ := filter_cover prev _ _ hdis
  have h3 := (List.dedup_sublist (prev.filter fun x => (deqParam g x).isSome)).length_le
  have hlen : (readers g y).length = 1 := by omega
  have hcov := h2 (by omega)
  obtain ⟨r, hr⟩ := List.length_eq_one_iff.1 hlen
  have hrf : r.fn = .quantize p := by
    rw [hr] at hp
    unfold Model.RewriteQ.outParam at hp
    simp only [List.filterMap_cons, List.filterMap_nil] at hp
    cases hk : r.fn with
    | quantize q =>
      rw [hk] at hp
      simp only at hp
      split at hp
      · simp at hp
      · next b hb =>
        split at hb
        · cases hb; simp at hp; rw [hp]
        · cases hb
    | _ => rw [hk] at hp; simp at hp
  have hrm := readers_mem (g := g) (y := y) (o := r) (by rw [hr]; simp)
  refine ⟨fun i hi => hcov _ (by rw [hprev]; exact List.mem_map.2 ⟨i, hi, rfl⟩), ⟨r, hrm.1, hrf, hrm.2⟩, fun o hom hyo => ?_⟩
  have := mem_readers hom hyo
  rw [hr, List.mem_singleton] at this
  rw [this, hrf]

/-- One operator: either nothing but the quantized constants changes, or the operator is replaced. -/
theorem rewriteNode_cases (h : Inv rnd rint K env g) {ok : Kind → QP → Bool} {y : ℕ} {g' : Net} (hg : rewriteNode rint ok g y = some g') :
    ∃ g₁, Inv rnd rint K env g₁ ∧ g₁.ops = g.ops ∧ g₁.outputs = g.outputs ∧ g₁.next = g.next ∧ (g' = g₁ ∨ ∃ op p, op ∈ g₁.ops ∧ Candidate op ∧ y ∈ op.outs ∧ g' = changed g₁ op p y ∧
      Covered g₁ op ∧ (∃ r ∈ g₁.ops, r.fn = .quantize p ∧ y ∈ r.ins) ∧ ∀ o ∈ g₁.ops, y ∈ o.ins → o.fn = .quantize p) := by
  unfold rewriteNode at hg
  split at hg
  · cases hg
    exact ⟨g, h, rfl, rfl, rfl, Or.inl rfl⟩
  · next op hop =>
    obtain ⟨ho, hy⟩ := producer_spec hop
    split at hg
    · cases hg
      exact ⟨g, h, rfl, rfl, rfl, Or.inl rfl⟩
    · next hw =>
      have hcand := (candidate_iff op).1 (by simpa using hw)
      obtain ⟨g₁, hg₁, rfl⟩ := Option.map_eq_some_iff.1 hg
      obtain ⟨hi, e1, e2, e3, _⟩ := withConst_inv h ho hg₁
      refine ⟨g₁, hi, e1, e2, e3, ?_⟩
      have ho' : op ∈ g₁.ops := e1 ▸ ho
      dsimp only
      split
      · exact Or.inl rfl
      · next p hp =>
        split
        · exact Or.inl rfl
        · next hc =>
          obtain ⟨hc1, hc2, hc3⟩ := count_spec hi ho' hcand hp hc
          exact Or.inr ⟨op, p, ho', hcand, hy, rfl, hc1, hc2, hc3⟩

theorem rewriteNode_spec (hr : IsNearest rnd) (hr' : IsNearest rint) (h : Inv rnd rint K env g) {ok : Kind → QP → Bool} {y : ℕ} {g' : Net} (hg : rewriteNode rint ok g y = some g') :
    Inv rnd rint K env g' ∧ g'.outputs = g.outputs ∧ ∀ o ∈ g.outputs, run (sem rnd) env g'.ops o = run (sem rnd) env g.ops o := by
  obtain ⟨g₁, hi, e1, e2, e3, rfl | ⟨op, p, ho, hcand, hy, rfl, hc, ⟨r, hrm, hrf, hry⟩, hall⟩⟩ := rewriteNode_cases h hg
  · exact ⟨hi, e2, fun o _ => by rw [e1]⟩
  · refine ⟨changed_inv hr hr' hi ho hcand hc hy hrm hrf hry hall, e2, fun o hoo => ?_⟩
    rw [← e2] at hoo
    rw [(changed_values hr hr' hi ho hcand hc hy hrm hrf hry hall).1 o (fun h' => hi.ok.unreturned op ho hcand y hy (h' ▸ hoo)) (hi.wf.returned o hoo), e1]

theorem rewrite_spec (hr : IsNearest rnd) (hr' : IsNearest rint) {ok : Kind → QP → Bool} (ys : List ℕ) : ∀ {g : Net}, Inv rnd rint K env g → ∀ {g' : Net}, rewrite rint ok g ys = some g' →
    Inv rnd rint K env g' ∧ g'.outputs = g.outputs ∧ ∀ o ∈ g.outputs, run (sem rnd) env g'.ops o = run (sem rnd) env g.ops o := by
  induction ys with
  | nil => intro g h g' hg; cases hg; exact ⟨h, rfl, fun _ _ => rfl⟩
  | cons y ys ih =>
    intro g h g' hg
    obtain ⟨g₁, h1, h2⟩ := Option.bind_eq_some_iff.1 hg
    obtain ⟨i1, o1, v1⟩ := rewriteNode_spec hr hr' h h1
    obtain ⟨i2, o2, v2⟩ := ih i1 h2
    exact ⟨i2, o2.trans o1, fun o ho => (v2 o (o1 ▸ ho)).trans (v1 o ho)⟩

theorem inv_start (h : QNet.Wf rnd K env g) (h' : QNet.Harmless g) (hq : g.qmap = []) : Inv rnd rint K env g :=
  ⟨h, h', fun _ _ hm => by simp [hq] at hm, fun _ _ hm => by simp [hq] at hm⟩

theorem producer_of (h : Ordered K g.ops) {d : Op Kind} (hd : d ∈ g.ops) {x : ℕ} (hx : x ∈ d.outs) : producer g x = some d := by
  unfold producer
  cases hf : g.ops.find? fun op => op.outs.contains x with
  | none => exact absurd (by simpa using hx) (List.find?_eq_none.1 hf d hd)
  | some e =>
    have he : x ∈ e.outs := by simpa using List.find?_some hf
    rw [ordered_unique h (List.mem_of_find?_eq_some hf) hd he hx]

theorem deqParam_of (h : Ordered K g.ops) {d : Op Kind} (hd : d ∈ g.ops) {p : QP} (hf : d.fn = .dequantize p) {x : ℕ} (hx : x ∈ d.outs) : deqParam g x = some p := by
  obtain ⟨fn, ins, outs⟩ := d
  simp only at hf
  subst hf
  unfold deqParam
  rw [producer_of h hd hx]

end

end RewriteQ

open RewriteQ

/-- Operators between DEQUANTIZE and QUANTIZE work on quantized tensors and the model computes the same, for a result that is not returned, MINIMUM and MAXIMUM with one quantization, and constants used once;
also the model can still be run. -/
theorem C107_partial {rnd rint : ℝ → ℤ} (hr : IsNearest rnd) (hr' : IsNearest rint) {K : Set ℕ} {env : ℕ → V} {g : Net} (h : QNet.Wf rnd K env g) (h' : QNet.Harmless g) (hq : g.qmap = [])
    {ok : Kind → QP → Bool} {ys : List ℕ} {g' : Net} (hg : rewrite rint ok g ys = some g') :
    g'.outputs = g.outputs ∧ Ordered K g'.ops ∧ ∀ o ∈ g.outputs, run (sem rnd) env g'.ops o = run (sem rnd) env g.ops o := by
  obtain ⟨h1, h2, h3⟩ := rewrite_spec hr hr' ys (inv_start h h' hq) hg
  exact ⟨h2, h1.wf.ordered, h3⟩

/-- A constant operand of MINIMUM and MAXIMUM comes with a dequantized one. -/
def Dequantized (g : Net) : Prop :=
  ∀ op ∈ g.ops, ∀ m a b, op.fn = .minmax m → op.ins = [a, b] → ∀ k ∈ g.ops, ∀ t, k.fn = .const t → b ∈ k.outs → ∃ d ∈ g.ops, ∃ p, d.fn = .dequantize p ∧ a ∈ d.outs

namespace RewriteQ

theorem dequantized_changed {rnd rint : ℝ → ℤ} {K : Set ℕ} {env : ℕ → V} {g : Net} (h : Inv rnd rint K env g) {op : Op Kind} (ho : op ∈ g.ops) (hcand : Candidate op) (hc : Covered g op) {p : QP} {y : ℕ}
    (hy : y ∈ op.outs) (hd : Dequantized g) : Dequantized (changed g op p y) := by
  intro o hm m a b hf hab k hk t hkf hbk
  have hom : o ∈ g.ops := by
    rcases changed_kind h ho hcand hc hy hm with h1 | ⟨t, i, _, rfl⟩ | ⟨x, q, d, i, _, rfl, _⟩ | ⟨h1 | h1, _⟩ | rfl
    · exact h1.1
    · cases hf
    · cases hf
    · obtain ⟨c, f, hcf⟩ := h1; rw [hcf] at hf; cases hf
    · obtain ⟨c, hcf⟩ := h1; rw [hcf] at hf; cases hf
    · cases hf
  have hbl := ins_lt h.wf hom (x := b) (by rw [hab]; simp)
  have hkm : k ∈ g.ops := by
    rcases changed_kind h ho hcand hc hy hk with h1 | ⟨t, i, _, rfl⟩ | ⟨x, q, d, i, _, rfl, _⟩ | ⟨h1 | h1, _⟩ | rfl
    · exact h1.1
    · simp at hbk; omega
    · cases hkf
    · obtain ⟨c, f, hcf⟩ := h1; rw [hcf] at hkf; cases hkf
    · obtain ⟨c, hcf⟩ := h1; rw [hcf] at hkf; cases hkf
    · cases hkf
  obtain ⟨d, hdm, q, hdf, had⟩ := hd o hom m a b hf hab k hkm t hkf hbk
  refine ⟨d, (changed_mem h.wf.ordered ho hy p d).2 (Or.inl ⟨hdm, fun hyd => ?_⟩), q, hdf, had⟩
  have := ordered_unique h.wf.ordered hdm ho hyd hy
  subst this
  rcases hcand with ⟨c, f, h1⟩ | ⟨m, h1⟩ <;> rw [h1] at hdf <;> cases hdf

theorem rewriteNode_succeeds {rnd rint : ℝ → ℤ} {K : Set ℕ} {env : ℕ → V} {g : Net} (h : Inv rnd rint K env g) (hd : Dequantized g) (ok : Kind → QP → Bool) (y : ℕ) :
    ∃ g', rewriteNode rint ok g y = some g' := by
  unfold rewriteNode
  split
  · exact ⟨_, rfl⟩
  · next op hop =>
    split
    · exact ⟨_, rfl⟩
    · obtain ⟨g₁, hg₁⟩ : ∃ g₁, withConst rint g op = some g₁ := by
        unfold withConst
        split
        · next m t hf hcv =>
          split
          · exact ⟨_, rfl⟩
          · have ho := (producer_spec hop).1
            have hF := h.wf.form op ho
            unfold Form at hF
            rw [hf] at hF
            obtain ⟨⟨a, b, hab⟩, _⟩ := hF
            obtain ⟨k, hk, hkf, hko⟩ := constVal_spec hcv
            rw [hab] at hko ⊢
            obtain ⟨d, hdm, q, hdf, had⟩ := hd op ho m a b hf hab k hk t hkf hko
            simp only [List.getD_cons_zero]
            rw [deqParam_of h.wf.ordered hdm hdf had]
            exact ⟨_, rfl⟩
        · exact ⟨_, rfl⟩
      rw [hg₁]
      exact ⟨_, rfl⟩

end RewriteQ

/-- There is no exception if a constant operand comes with a dequantized one. -/
theorem C107_succeeds {rnd rint : ℝ → ℤ} (hr : IsNearest rnd) (hr' : IsNearest rint) {K : Set ℕ} {env : ℕ → V} {g : Net} (h : QNet.Wf rnd K env g) (h' : QNet.Harmless g) (hq : g.qmap = [])
    (hd : Dequantized g) (ok : Kind → QP → Bool) (ys : List ℕ) : ∃ g', rewrite rint ok g ys = some g' := by
  have hI := inv_start (rint := rint) h h' hq
  clear h h' hq
  induction ys generalizing g with
  | nil => exact ⟨g, rfl⟩
  | cons y ys ih =>
    obtain ⟨g₁, hg₁⟩ := rewriteNode_succeeds hI hd ok y
    have hd' : Dequantized g₁ := by
      obtain ⟨g₀, hi, e1, e2, e3, rfl | ⟨op, p, ho, hcand, hy, rfl, hc, _⟩⟩ := rewriteNode_cases hI hg₁
      · unfold Dequantized; rw [e1]; exact hd
      · refine dequantized_changed hi ho hcand hc hy ?_
        unfold Dequantized; rw [e1]; exact hd
    obtain ⟨g₂, hg₂⟩ := ih hd' (rewriteNode_spec hr hr' hI hg₁).1
    exact ⟨g₂, by simp [rewrite, hg₁, hg₂]⟩

/-- An operator with one operand between DEQUANTIZE and QUANTIZE is replaced by a quantized one. -/
theorem C107_applies {rint : ℝ → ℤ} {K : Set ℕ} {g : Net} (h : Ordered K g.ops) (hq : g.qmap = []) {op d r : Op Kind} {c : Code} {f : List V → V} {p q : QP} {a y : ℕ} (ho : op ∈ g.ops)
    (hf : op.fn = .float c f) (hc : c.operands = [0]) (ha : op.ins = [a]) (hy : op.outs = [y]) (hd : d ∈ g.ops) (hdf : d.fn = .dequantize q) (had : a ∈ d.outs) (hrf : r.fn = .quantize p)
    (hrs : readers g y = [r]) {ok : Kind → QP → Bool} (hok : ok op.fn p = true) :
    ∃ g', rewriteNode rint ok g y = some g' ∧ ⟨.kernel c f p, [g.next], [g.next + 2]⟩ ∈ g'.ops ∧ ⟨.quantize q, [a], [g.next]⟩ ∈ g'.ops ∧ ⟨.dequantize p, [g.next + 2], [y]⟩ ∈ g'.ops ∧ op ∉ g'.ops := by
  have hi : indices g op = [0] := by
    unfold indices
    rw [hf]
    cases c <;> first | rfl | cases hc
  have hyo : y ∈ op.outs := by rw [hy]; simp
  have hdq := deqParam_of h hd hdf had
  have hw : withConst rint g op = some g := by
    unfold withConst
    rw [hf]
  have hop : Model.RewriteQ.outParam ok op.fn (readers g y) = some p := by
    rw [hrs]
    unfold Model.RewriteQ.outParam
    simp [hrf, hok]
  have hqi : quantIn g op 0 = ⟨.quantize q, [a], [g.next]⟩ := by
    unfold quantIn
    rw [ha]
    simp [hq, hdq]
  refine ⟨changed g op p y, ?_, ?_⟩
  · unfold rewriteNode
    rw [producer_of h ho hyo]
    have : rewritable op = true := (candidate_iff op).2 (Or.inl ⟨c, f, hf⟩)
    simp only [this, not_true_eq_false, if_false, hw, Option.map_some, hop]
    rw [hi, ha, hrs]
    simp only [List.map_cons, List.map_nil, List.getD_cons_zero, hq, List.lookup_nil, hdq]
    simp [changed, List.filter_cons, hdq, hq]
  · have hm := fun o => changed_mem h ho hyo p o
    refine ⟨(hm _).2 (Or.inr (Or.inr (Or.inl ?_))), (hm _).2 (Or.inr (Or.inl ⟨0, by rw [hi]; simp, hqi.symm⟩)), (hm _).2 (Or.inr (Or.inr (Or.inr rfl))), fun hmem => ?_⟩
    · rw [hf, hi, ha]
      simp [quantizedKind, List.mapIdx_cons]
    · rcases (hm _).1 hmem with ⟨_, h1⟩ | ⟨i, _, h1⟩ | h1 | h1
      · exact h1 hyo
      · have h2 := congrArg Op.fn h1
        rw [hf] at h2
        unfold quantIn at h2
        split at h2 <;> cases h2
      · have h2 := congrArg Op.fn h1
        rw [hf] at h2
        cases h2
      · have h2 := congrArg Op.fn h1
        rw [hf] at h2
        cases h2

/-! Concrete models. -/

namespace RewriteQ

/-- One number. -/
noncomputable def num (v : QVal) : V := ⟨[], fun _ => v⟩

/-- DEQUANTIZE, an operator with one operand, QUANTIZE. -/
noncomputable def chain (outputs : List ℕ) (f : List V → V) : Net :=
  ⟨outputs, [⟨.dequantize (u8 1 0), [0], [1]⟩, ⟨.float .abs f, [1], [2]⟩, ⟨.quantize (u8 1 0), [2], [3]⟩], fun _ => false, 4, []⟩

theorem chain_wf (rnd : ℝ → ℤ) (outputs : List ℕ) (ho : ∀ o ∈ outputs, o < 4) (f : List V → V) : QNet.Wf rnd {0} (fun _ => num (.int (u8 1 0) 7)) (chain outputs f) where
  ordered := by simp [chain, Ordered]
  freshK := by simp [chain]
  fresh := by simp [chain]
  returned := ho
  form := by simp [chain, Form, Code.operands, QP.Valid, u8]
  stores := by
    intro op hop p a hf ha
    simp only [chain, List.mem_cons, List.not_mem_nil, or_false] at hop
    rcases hop with rfl | rfl | rfl
    · cases hf
      cases ha
      intro i
      refine ⟨7, ?_, by simp [QP.Holds, u8]⟩
      simp [chain, run, step, num]
    · cases hf
    · cases hf

theorem chain_ok (f : List V → V) : QNet.Harmless (chain [3] f) where
  unreturned := by simp [chain, Candidate]
  sameParam := by simp [chain]
  constOnce := by simp [chain]
  noTie := by simp [chain]
  divOne := by simp [chain]

theorem chain_applies {rint : ℝ → ℤ} (outputs : List ℕ) (f : List V → V) : rewrite rint (fun _ _ => true) (chain outputs f) [2] = some (changed (chain outputs f) ⟨.float .abs f, [1], [2]⟩ (u8 1 0) 2) := by
  simp [rewrite, rewriteNode, chain, producer, rewritable, withConst, readers, Model.RewriteQ.outParam, indices, deqParam, changed, List.filter_cons]

end RewriteQ

/-- The hypotheses can be met, and then the operator is replaced. -/
example (rnd : ℝ → ℤ) (f : List V → V) : QNet.Wf rnd {0} (fun _ => num (.int (u8 1 0) 7)) (chain [3] f) ∧ QNet.Harmless (chain [3] f) ∧ Dequantized (chain [3] f) ∧
    ∃ g', rewrite rint (fun _ _ => true) (chain [3] f) [2] = some g' ∧ ⟨.kernel .abs f (u8 1 0), [4], [6]⟩ ∈ g'.ops :=
  ⟨chain_wf rnd [3] (by simp) f, chain_ok f, by simp [Dequantized, chain], _, chain_applies [3] f, by simp [changed, chain, rewritten, quantizedKind, indices, List.mapIdx_cons]⟩

/-- A result that is also returned is rounded. -/
theorem C107_returned_false {rnd : ℝ → ℤ} (rint : ℝ → ℤ) : ∃ g g' : Net, QNet.Wf rnd {0} (fun _ => num (.int (u8 1 0) 7)) g ∧ rewrite rint (fun _ _ => true) g [2] = some g' ∧ ∃ o ∈ g.outputs,
    run (sem rnd) (fun _ => num (.int (u8 1 0) 7)) g'.ops o ≠ run (sem rnd) (fun _ => num (.int (u8 1 0) 7)) g.ops o := by
  refine ⟨chain [2, 3] fun _ => num (.float (1 / 4)), _, chain_wf rnd _ (by simp) _, chain_applies _ _, 2, by simp [chain], fun h => ?_⟩
  have h1 := congrArg (fun t : V => (t.get []).real) h
  simp [changed, chain, rewritten, quantizedKind, indices, List.mapIdx_cons, quantIn, deqParam, producer, List.lookup, run, step, sem, Code.operands, IsQuantized, quantT, mapT, deq, num, QVal.real, QP.real, dequant, u8] at h1
  have h2 : 4 * QP.quant rnd { scale := 1, zp := 0, lo := 0, hi := 255 } 4⁻¹ = 1 := by
    have h3 : (4 : ℝ) * (QP.quant rnd { scale := 1, zp := 0, lo := 0, hi := 255 } 4⁻¹ : ℤ) = 1 := by rw [h1]; norm_num
    exact_mod_cast h3
  omega

namespace RewriteQ

/-- MAXIMUM whose result has another quantization than its operand. -/
noncomputable def maxNet : Net :=
  ⟨[4], [⟨.dequantize (u8 1 0), [0], [1]⟩, ⟨.const (num (.float 0)), [], [2]⟩, ⟨.minmax false, [1, 2], [3]⟩, ⟨.quantize (u8 2 0), [3], [4]⟩], fun _ => false, 5, []⟩

theorem maxNet_wf (rnd : ℝ → ℤ) : QNet.Wf rnd {0} (fun _ => num (.int (u8 1 0) 10)) maxNet where
  ordered := by simp [maxNet, Ordered]
  freshK := by simp [maxNet]
  fresh := by simp [maxNet]
  returned := by simp [maxNet]
  form := by simp [maxNet, Form, QP.Valid, u8]
  stores := by
    intro op hop p a hf ha
    simp only [maxNet, List.mem_cons, List.not_mem_nil, or_false] at hop
    rcases hop with rfl | rfl | rfl | rfl
    · cases hf
      cases ha
      intro i
      refine ⟨10, ?_, by simp [QP.Holds, u8]⟩
      simp [maxNet, run, step, num]
    · cases hf
    · cases hf
    · cases hf

end RewriteQ

/-- MINIMUM and MAXIMUM with operands and result of different quantizations: the stored integers are taken as they are. -/
theorem C107_minmax_false {rnd rint : ℝ → ℤ} (hr : IsNearest rnd) (hr' : IsNearest rint) : ∃ (g g' : Net) (env : ℕ → V), QNet.Wf rnd {0} env g ∧ rewrite rint (fun _ _ => true) g [3] = some g' ∧
    (run (sem rnd) env g.ops 4).get [] = .int (u8 2 0) 5 ∧ (run (sem rnd) env g'.ops 4).get [] = .int (u8 2 0) 10 := by
  refine ⟨maxNet, changed { maxNet with qmap := [(2, quantConst rint (u8 1 0) (num (.float 0)))] } ⟨.minmax false, [1, 2], [3]⟩ (u8 2 0) 3, fun _ => num (.int (u8 1 0) 10), maxNet_wf rnd, ?_, ?_, ?_⟩
  · simp [rewrite, rewriteNode, maxNet, producer, rewritable, withConst, readers, Model.RewriteQ.outParam, indices, deqParam, constVal, List.filter_cons, changed]
  · have : rnd 5 = 5 := by exact_mod_cast rnd_int hr 5
    simp [maxNet, run, step, sem, quantT, mapT, deq, num, QVal.real, QP.real, dequant, u8, zipT, bcGet, pick, QP.quant]
    rw [show (10 : ℝ) / 2 = 5 by norm_num, this]
    rfl
  · have h10 : rnd 10 = 10 := by exact_mod_cast rnd_int hr 10
    have h0 : rint 0 = 0 := by exact_mod_cast rnd_int hr' 0
    simp [changed, maxNet, rewritten, quantizedKind, indices, List.mapIdx_cons, quantIn, deqParam, producer, List.lookup, run, step, sem, IsQuantized, quantT, mapT, deq, num, QVal.real, QP.real, dequant, u8, zipT, bcGet, pick, QP.quant,
      quantConst, raw, h0, h10]

/-- A clamp on both sides between DEQUANTIZE and QUANTIZE. -/
theorem C107_clamp_false (rint : ℝ → ℤ) (ok : Kind → QP → Bool) : ∃ g : Net, (∀ rnd, QNet.Wf rnd {0} (fun _ => num (.int (u8 1 0) 7)) g) ∧ QNet.Harmless g ∧ rewrite rint ok g [3, 5] = none := by
  refine ⟨⟨[6], [⟨.dequantize (u8 1 0), [0], [1]⟩, ⟨.const (num (.float 2)), [], [2]⟩, ⟨.minmax false, [1, 2], [3]⟩, ⟨.const (num (.float 9)), [], [4]⟩, ⟨.minmax true, [3, 4], [5]⟩,
    ⟨.quantize (u8 1 0), [5], [6]⟩], fun _ => false, 7, []⟩, fun rnd => ⟨?_, ?_, ?_, ?_, ?_, ?_⟩, ⟨?_, ?_, ?_, ?_, ?_⟩, ?_⟩
  · simp [Ordered]
  · simp
  · simp
  · simp
  · simp [Form, QP.Valid, u8]
  · simp [run, step, num, Stores, QP.Holds, u8]
  · simp [Candidate]
  · simp
  · simp
  · have : ∀ (n : ℤ) (j : ℤ), (n : ℝ) ≠ j + 1 / 2 := by
      intro n j h
      have h1 : (2 : ℝ) * n = 2 * j + 1 := by rw [h]; ring
      have h2 : 2 * n = 2 * j + 1 := by exact_mod_cast h1
      omega
    simp [num, QVal.real, u8]
    exact fun j => by simpa using this 2 j
  · simp
  · simp [rewrite, rewriteNode, producer, rewritable, withConst, readers, Model.RewriteQ.outParam, indices, deqParam, constVal, List.filter_cons]

namespace RewriteQ

/-- A quotient by one number. -/
noncomputable def divNet (f : List V → V) : Net :=
  ⟨[4], [⟨.dequantize (u8 1 0), [0], [1]⟩, ⟨.const ⟨[1], fun _ => .float 2⟩, [], [2]⟩, ⟨.float .div f, [1, 2], [3]⟩, ⟨.quantize (u8 1 0), [3], [4]⟩], fun n => n == 2, 5, []⟩

/-- A constant used twice. -/
noncomputable def sharedNet : Net :=
  ⟨[7, 8], [⟨.const (num (.float 6)), [], [0]⟩, ⟨.dequantize (u8 1 0), [1], [3]⟩, ⟨.dequantize (u8 2 0), [2], [4]⟩, ⟨.minmax false, [3, 0], [5]⟩, ⟨.minmax false, [4, 0], [6]⟩,
    ⟨.quantize (u8 1 0), [5], [7]⟩, ⟨.quantize (u8 2 0), [6], [8]⟩], fun _ => false, 9, []⟩

end RewriteQ

/-- A quotient by one number: the divisor stays a real number, which a quantized division does not accept. -/
theorem C107_div_false (rnd rint : ℝ → ℤ) (f : List V → V) : ∃ (g g' : Net) (env : ℕ → V), QNet.Wf rnd {0} env g ∧ rewrite rint (fun _ _ => true) g [3] = some g' ∧
    1 ∈ Code.div.operands ∧ ⟨.kernel .div f (u8 1 0), [5, 2], [7]⟩ ∈ g'.ops ∧ ¬ IsQuantized (run (sem rnd) env g'.ops 2) := by
  refine ⟨divNet f, changed (divNet f) ⟨.float .div f, [1, 2], [3]⟩ (u8 1 0) 3, fun _ => num (.int (u8 1 0) 7), ⟨?_, ?_, ?_, ?_, ?_, ?_⟩, ?_, ?_, ?_, ?_⟩
  · simp [divNet, Ordered]
  · simp [divNet]
  · simp [divNet]
  · simp [divNet]
  · simp [divNet, Form, QP.Valid, u8, Code.operands]
  · simp [divNet, run, step, num, Stores, QP.Holds, u8]
  · simp [divNet, changed, rewrite, rewriteNode, producer, rewritable, withConst, readers, Model.RewriteQ.outParam, indices, deqParam, constVal, List.filter_cons]
  · simp [Code.operands]
  · simp [divNet, changed, rewritten, quantizedKind, indices, List.mapIdx_cons]
  · simp [divNet, changed, rewritten, quantizedKind, indices, List.mapIdx_cons, run, step, IsQuantized, sem, quantIn, deqParam, producer, List.lookup]

/-- A constant used twice keeps the quantization of the first use. -/
theorem C107_shared_false {rnd rint : ℝ → ℤ} (hr : IsNearest rnd) (hr' : IsNearest rint) : ∃ (g g' : Net) (env : ℕ → V), QNet.Wf rnd {1, 2} env g ∧ rewrite rint (fun _ _ => true) g [5, 6] = some g' ∧
    (run (sem rnd) env g.ops 8).get [] = .int (u8 2 0) 3 ∧ (run (sem rnd) env g'.ops 8).get [] = .int (u8 2 0) 6 := by
  refine ⟨sharedNet, changed (changed { sharedNet with qmap := [(0, quantConst rint (u8 1 0) (num (.float 6)))] } ⟨.minmax false, [3, 0], [5]⟩ (u8 1 0) 5) ⟨.minmax false, [4, 0], [6]⟩ (u8 2 0) 6,
    fun n => num (.int (u8 n 0) 0), ⟨?_, ?_, ?_, ?_, ?_, ?_⟩, ?_, ?_, ?_⟩
  · simp [sharedNet, Ordered]
  · simp [sharedNet]
  · simp [sharedNet]
  · simp [sharedNet]
  · simp [sharedNet, Form, QP.Valid, u8]
  · simp [sharedNet, run, step, num, Stores, QP.Holds, u8]
  · simp [sharedNet, changed, rewrite, rewriteNode, producer, rewritable, withConst, readers, Model.RewriteQ.outParam, indices, deqParam, constVal, List.filter_cons, rewritten, quantizedKind, quantIn, List.lookup]
  · simp [sharedNet, run, step, sem, quantT, mapT, deq, num, QVal.real, QP.real, dequant, u8, zipT, bcGet, pick, QP.quant]
    have : rnd 3 = 3 := by exact_mod_cast rnd_int hr 3
    rw [show (6 : ℝ) / 2 = 3 by norm_num, this]
    rfl
  · have h6 : rnd 6 = 6 := by exact_mod_cast rnd_int hr 6
    have h6' : rint 6 = 6 := by exact_mod_cast rnd_int hr' 6
    have h0 : rnd 0 = 0 := by exact_mod_cast rnd_int hr 0
    simp [sharedNet, changed, rewritten, quantizedKind, indices, List.mapIdx_cons, quantIn, deqParam, producer, List.lookup, run, step, sem, IsQuantized, quantT, mapT, deq, num, QVal.real, QP.real, dequant, u8, zipT, bcGet, pick,
      QP.quant, quantConst, raw, h0, h6, h6']

end Verif.Props
