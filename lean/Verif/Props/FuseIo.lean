import Verif.Model.FuseIo
import Verif.Props.Requant
import Mathlib.Data.List.Nodup
import Mathlib.Data.List.Dedup

/-!
C91: removing the quantization nodes at the inputs and outputs of a model, and changing the 8-bit type of its inputs and outputs, leaves a model that
computes the same from the quantized data.
-/

namespace Verif.Props
open Verif.Spec.FuseIo Verif.Model.FuseIo

variable {V : Type}

/-- What must be fed to the new model in place of `x` for input `n`: `x` as quantized by the node that was removed. -/
def fedValue (idx : Option (List ℕ)) (g : Net V) (n : String) (x : V) : V :=
  match inputHeads idx g n with
  | h :: _ => h.fn [x]
  | [] => x

/-- What the new model's value `y` for output `n` stands for: `y` as dequantized by the node that was removed. -/
def readBack (idx : Option (List ℕ)) (g : Net V) (n : String) (y : V) : V :=
  match g.ops.find? fun o => fusedD idx g o && decide (o.dst = n) with
  | some o => o.fn [y]
  | none => y

/-- The removed nodes are private: a removed QUANTIZE is the only reader of its input, which is not an output, and the result of a removed DEQUANTIZE is
read by no operator. -/
structure Private (inIdx outIdx : Option (List ℕ)) (g : Net V) : Prop where
  input : ∀ n ∈ g.inputs, ∀ h ∈ inputHeads inIdx g n, n ∉ g.outputs ∧ ∀ o ∈ g.ops, n ∈ o.srcs → o = h
  output : ∀ d ∈ g.ops, fusedD outIdx g d = true → ∀ o ∈ g.ops, d.dst ∉ o.srcs

/-- QUANTIZE and DEQUANTIZE read one tensor. -/
def Unary (g : Net V) : Prop := ∀ o ∈ g.ops, o.kind ≠ .other → ∃ s, o.srcs = [s]

theorem all_some {e : Env V} : ∀ {ns : List String} {vs : List V}, e.all ns = some vs → vs.length = ns.length ∧ ∀ i (h : i < ns.length) (h' : i < vs.length), e ns[i] = some vs[i]
  | [], vs, h => by simp only [Env.all, Option.some.injEq] at h; subst h; simp
  | n :: ns, vs, h => by
    unfold Env.all at h
    cases hn : e n with
    | none => rw [hn] at h; cases h
    | some v =>
      cases ha : e.all ns with
      | none => rw [hn, ha] at h; cases h
      | some ws =>
        rw [hn, ha] at h
        cases h
        obtain ⟨l, p⟩ := all_some ha
        refine ⟨by simp [l], fun i h h' => ?_⟩
        cases i with
        | zero => simpa using hn
        | succ i => simpa using p i (by simpa using h) (by simpa using h')

theorem all_of {e : Env V} : ∀ {ns : List String} {vs : List V}, vs.length = ns.length → (∀ i (h : i < ns.length) (h' : i < vs.length), e ns[i] = some vs[i]) → e.all ns = some vs
  | [], vs, l, _ => by
    cases vs with
    | nil => rfl
    | cons a b => simp at l
  | n :: ns, vs, l, p => by
    cases vs with
    | nil => simp at l
    | cons v vs =>
      have h0 := p 0 (by simp) (by simp)
      have ht : e.all ns = some vs := all_of (by simpa using l) fun i h h' => by
        have := p (i + 1) (by simpa using h) (by simpa using h')
        simpa only [List.getElem_cons_succ] using this
      simp only [List.getElem_cons_zero] at h0
      simp [Env.all, h0, ht]

theorem feed_mem : ∀ {ns : List String} {xs : List V} {n : String} {x : V}, feed ns xs n = some x → n ∈ ns
  | [], xs, n, x, h => by simp [feed] at h
  | a :: ns, [], n, x, h => by simp [feed] at h
  | a :: ns, v :: vs, n, x, h => by
    simp only [feed, Env.put] at h
    split_ifs at h with e
    · subst e; exact List.mem_cons_self
    · exact List.mem_cons_of_mem _ (feed_mem h)

theorem feed_map (f : String → String) (F : String → V → V) : ∀ {ns : List String} {xs : List V} {n : String} {x : V}, (ns.map f).Nodup →
    feed ns xs n = some x → feed (ns.map f) (List.zipWith F ns xs) (f n) = some (F n x)
  | [], xs, n, x, _, h => by simp [feed] at h
  | a :: ns, [], n, x, _, h => by simp [feed] at h
  | a :: ns, v :: vs, n, x, hd, h => by
    simp only [List.map_cons, List.nodup_cons] at hd
    simp only [feed, Env.put] at h
    simp only [List.map_cons, List.zipWith_cons_cons, feed, Env.put]
    split_ifs at h with e
    · subst e; simp only [Option.some.injEq] at h; subst h; simp
    · have hm := feed_mem h
      have : f n ≠ f a := fun e2 => hd.1 (e2 ▸ List.mem_map_of_mem hm)
      rw [if_neg this]
      exact feed_map f F hd.2 h

section
variable {inIdx outIdx : Option (List ℕ)} {g : Net V}

theorem mem_inputHeads {n : String} {h : Op V} (hh : h ∈ inputHeads inIdx g n) : h ∈ g.ops ∧ h.kind = .quantize ∧ h.srcs.head? = some n ∧ allowed inIdx g.inputs n = true := by
  unfold inputHeads at hh
  split_ifs at hh with ha
  · simp only [List.mem_filter, readsInput, Bool.and_eq_true, decide_eq_true_eq] at hh
    exact ⟨hh.1, hh.2.1, hh.2.2, ha⟩
  · cases hh

theorem fusedQ_iff {o : Op V} (ho : o ∈ g.ops) : fusedQ inIdx g o = true ↔ ∃ n ∈ g.inputs, o ∈ inputHeads inIdx g n := by
  unfold fusedQ inputHeads
  simp only [List.any_eq_true, Bool.and_eq_true]
  constructor
  · rintro ⟨n, hn, ha, hr⟩
    exact ⟨n, hn, by rw [if_pos ha]; exact List.mem_filter.2 ⟨ho, hr⟩⟩
  · rintro ⟨n, hn, hm⟩
    split_ifs at hm with ha
    · exact ⟨n, hn, ha, (List.mem_filter.1 hm).2⟩
    · cases hm

/-- The name of the new input in place of `n`. -/
def newName (inIdx : Option (List ℕ)) (g : Net V) (n : String) : String :=
  match inputHeads inIdx g n with
  | h :: _ => h.dst
  | [] => n

theorem dst_inj (hd : (g.ops.map Op.dst).Nodup) {a b : Op V} (ha : a ∈ g.ops) (hb : b ∈ g.ops) (e : a.dst = b.dst) : a = b :=
  List.inj_on_of_nodup_map hd ha hb e

theorem inputHeads_single (hs : g.Single) (hp : Private inIdx outIdx g) {n : String} (hn : n ∈ g.inputs) :
    inputHeads inIdx g n = [] ∨ ∃ h, inputHeads inIdx g n = [h] := by
  have hnd : (inputHeads inIdx g n).Nodup := by
    unfold inputHeads
    split_ifs
    · exact (List.Nodup.of_map _ hs.2.1).filter _
    · exact List.nodup_nil
  match hh : inputHeads inIdx g n with
  | [] => exact Or.inl rfl
  | [h] => exact Or.inr ⟨h, rfl⟩
  | a :: b :: t =>
    exfalso
    have ha : a ∈ inputHeads inIdx g n := by rw [hh]; simp
    have hb : b ∈ inputHeads inIdx g n := by rw [hh]; simp
    have h2 := (hp.input n hn a ha).2 b (mem_inputHeads hb).1 (by
      have := (mem_inputHeads hb).2.2.1
      exact List.mem_of_mem_head? this)
    rw [hh] at hnd
    simp only [List.nodup_cons, List.mem_cons, not_or] at hnd
    exact hnd.1.1 h2.symm

theorem newInputs_eq (hs : g.Single) (hp : Private inIdx outIdx g) : newInputs inIdx g = g.inputs.map (newName inIdx g) := by
  unfold newInputs
  rw [List.map_eq_flatMap]
  apply List.flatMap_congr
  intro n hn
  unfold newName
  rcases inputHeads_single hs hp hn with e | ⟨h, e⟩ <;> simp [e]

theorem newName_nodup (hs : g.Single) : (g.inputs.map (newName inIdx g)).Nodup := by
  refine List.Nodup.map_on ?_ hs.1
  intro a ha b hb e
  unfold newName at e
  match h1 : inputHeads inIdx g a, h2 : inputHeads inIdx g b with
  | [], [] => rw [h1, h2] at e; exact e
  | x :: _, [] =>
    rw [h1, h2] at e
    have := mem_inputHeads (h := x) (by rw [h1]; simp : x ∈ inputHeads inIdx g a)
    simp only at e; exact absurd hb (e ▸ hs.2.2 x this.1)
  | [], y :: _ =>
    rw [h1, h2] at e
    have := mem_inputHeads (h := y) (by rw [h2]; simp : y ∈ inputHeads inIdx g b)
    simp only at e; exact absurd ha (by rw [e]; exact hs.2.2 y this.1)
  | x :: _, y :: _ =>
    rw [h1, h2] at e
    have hx := mem_inputHeads (h := x) (by rw [h1]; simp : x ∈ inputHeads inIdx g a)
    have hy := mem_inputHeads (h := y) (by rw [h2]; simp : y ∈ inputHeads inIdx g b)
    have := dst_inj hs.2.1 hx.1 hy.1 e
    subst this
    have := hx.2.2.1.symm.trans hy.2.2.1
    simpa using this

/-- A tensor the new model no longer has. -/
def Hidden (inIdx outIdx : Option (List ℕ)) (g : Net V) (n : String) : Prop :=
  (n ∈ g.inputs ∧ inputHeads inIdx g n ≠ []) ∨ ∃ o ∈ g.ops, fusedD outIdx g o = true ∧ o.dst = n

/-- What holds between the two runs after the operators `pre`, before the operators `os`. -/
structure Inv (inIdx outIdx : Option (List ℕ)) (g : Net V) (pre os : List (Op V)) (e e' : Env V) : Prop where
  agree : ∀ n v, ¬ Hidden inIdx outIdx g n → e n = some v → e' n = some v
  ready : ∀ n ∈ g.inputs, ∀ h ∈ inputHeads inIdx g n, h ∈ os → ∀ x, e n = some x → e' h.dst = some (h.fn [x])
  done : ∀ o ∈ pre, fusedD outIdx g o = true → ∀ s, o.srcs = [s] → ∃ v, e s = some v ∧ e o.dst = some (o.fn [v])
  known : ∀ n v, e n = some v → n ∈ g.inputs ∨ n ∈ pre.map Op.dst

theorem src_visible (hp : Private inIdx outIdx g) {o : Op V} (ho : o ∈ g.ops) (hq : fusedQ inIdx g o = false) {n : String} (hn : n ∈ o.srcs) :
    ¬ Hidden inIdx outIdx g n := by
  rintro (⟨h1, h2⟩ | ⟨d, h1, h2, h3⟩)
  · obtain ⟨h, hh⟩ := List.exists_mem_of_ne_nil _ h2
    have e := (hp.input n h1 h hh).2 o ho hn
    subst e
    have := (fusedQ_iff ho).2 ⟨n, h1, hh⟩
    rw [this] at hq
    cases hq
  · exact hp.output d h1 h2 o ho (h3 ▸ hn)

theorem run_inv (hs : g.Single) (hp : Private inIdx outIdx g) (hu : Unary g) : ∀ (os pre : List (Op V)) (e e' r : Env V), g.ops = pre ++ os →
    Inv inIdx outIdx g pre os e e' → runOps os e = some r →
    ∃ r', runOps (os.filter fun o => !(fusedQ inIdx g o) && !(fusedD outIdx g o)) e' = some r' ∧ Inv inIdx outIdx g (pre ++ os) [] r r'
  | [], pre, e, e', r, hg, hi, hr => by
    simp only [runOps, Option.some.injEq] at hr
    subst hr
    exact ⟨e', rfl, by simpa using hi⟩
  | o :: os, pre, e, e', r, hg, hi, hr => by
    have ho : o ∈ g.ops := by rw [hg]; simp
    have hnd := hs.2.1
    rw [hg, List.map_append, List.map_cons] at hnd
    have hdpre : o.dst ∉ pre.map Op.dst := fun hm => (List.nodup_append.1 hnd).2.2 _ hm _ List.mem_cons_self rfl
    have hdos : o.dst ∉ os.map Op.dst := ((List.nodup_append.1 hnd).2.1 |> List.nodup_cons.1).1
    have hfresh : ∀ n v, e n = some v → n ≠ o.dst := by
      intro n v hv hc
      rcases hi.known n v hv with h | h
      · exact hs.2.2 o ho (hc ▸ h)
      · exact hdpre (hc ▸ h)
    unfold runOps at hr
    cases hv : e.all o.srcs with
    | none => rw [hv] at hr; cases hr
    | some vs =>
      rw [hv] at hr
      simp only at hr
      have keep : ∀ n v, e n = some v → (e.put o.dst (o.fn vs)) n = some v := fun n v h => by
        unfold Env.put; rw [if_neg (hfresh n v h)]; exact h
      have hdone : ∀ a ∈ pre ++ [o], fusedD outIdx g a = true → ∀ s, a.srcs = [s] → ∃ v, (e.put o.dst (o.fn vs)) s = some v ∧ (e.put o.dst (o.fn vs)) a.dst = some (a.fn [v]) := by
        intro a ha hf s hs'
        rcases List.mem_append.1 ha with ha | ha
        · obtain ⟨v, h1, h2⟩ := hi.done a ha hf s hs'
          exact ⟨v, keep _ _ h1, keep _ _ h2⟩
        · simp only [List.mem_singleton] at ha
          subst ha
          rw [hs'] at hv
          obtain ⟨l, p⟩ := all_some hv
          simp only [List.length_cons, List.length_nil, zero_add] at l
          obtain ⟨v, rfl⟩ := List.length_eq_one_iff.1 l
          have h0 := p 0 (by simp) (by simp)
          simp only [List.getElem_cons_zero] at h0
          exact ⟨v, keep _ _ h0, by simp [Env.put]⟩
      have hknown : ∀ n v, (e.put o.dst (o.fn vs)) n = some v → n ∈ g.inputs ∨ n ∈ (pre ++ [o]).map Op.dst := by
        intro n v h
        unfold Env.put at h
        split_ifs at h with e1
        · right; rw [e1]; simp
        · rcases hi.known n v h with h | h
          · exact Or.inl h
          · right; rw [List.map_append]; exact List.mem_append_left _ h
      have hinput : ∀ n ∈ g.inputs, ∀ x, (e.put o.dst (o.fn vs)) n = some x → e n = some x := by
        intro n hn x h
        unfold Env.put at h
        split_ifs at h with e1
        · exact absurd (e1 ▸ hn) (hs.2.2 o ho)
        · exact h
      have hg' : g.ops = (pre ++ [o]) ++ os := by rw [hg]; simp
      by_cases hq : fusedQ inIdx g o = true
      · have hf : (List.filter (fun o => !(fusedQ inIdx g o) && !(fusedD outIdx g o)) (o :: os)) = os.filter fun o => !(fusedQ inIdx g o) && !(fusedD outIdx g o) := by
          rw [List.filter_cons_of_neg]; simp [hq]
        rw [hf]
        obtain ⟨n, hn, hm⟩ := (fusedQ_iff ho).1 hq
        have hmi := mem_inputHeads hm
        obtain ⟨s, hsrc⟩ := hu o ho (by rw [hmi.2.1]; decide)
        have : s = n := by have := hmi.2.2.1; rw [hsrc] at this; simpa using this
        subst this
        rw [hsrc] at hv
        obtain ⟨l, p⟩ := all_some hv
        simp only [List.length_cons, List.length_nil, zero_add] at l
        obtain ⟨v, rfl⟩ := List.length_eq_one_iff.1 l
        have h0 := p 0 (by simp) (by simp)
        simp only [List.getElem_cons_zero] at h0
        have hfin := run_inv hs hp hu os (pre ++ [o]) _ e' r hg' ⟨?_, ?_, hdone, hknown⟩ hr
        · simpa using hfin
        · intro m w hh hw
          unfold Env.put at hw
          split_ifs at hw with e1
          · rw [e1]; rw [← hw]
            exact hi.ready s hn o hm List.mem_cons_self v h0
          · exact hi.agree m w hh hw
        · intro m hm' h hh hos x hx
          exact hi.ready m hm' h hh (List.mem_cons_of_mem _ hos) x (hinput m hm' x hx)
      · have hq : fusedQ inIdx g o = false := by simpa using hq
        by_cases hd : fusedD outIdx g o = true
        · have hf : (List.filter (fun o => !(fusedQ inIdx g o) && !(fusedD outIdx g o)) (o :: os)) = os.filter fun o => !(fusedQ inIdx g o) && !(fusedD outIdx g o) := by
            rw [List.filter_cons_of_neg]; simp [hd]
          rw [hf]
          have hfin := run_inv hs hp hu os (pre ++ [o]) _ e' r hg' ⟨?_, ?_, hdone, hknown⟩ hr
          · simpa using hfin
          · intro m w hh hw
            unfold Env.put at hw
            split_ifs at hw with e1
            · exact absurd (Or.inr ⟨o, ho, hd, e1.symm⟩) hh
            · exact hi.agree m w hh hw
          · intro m hm' h hh hos x hx
            exact hi.ready m hm' h hh (List.mem_cons_of_mem _ hos) x (hinput m hm' x hx)
        · have hd : fusedD outIdx g o = false := by simpa using hd
          have hf : (List.filter (fun o => !(fusedQ inIdx g o) && !(fusedD outIdx g o)) (o :: os)) = o :: os.filter fun o => !(fusedQ inIdx g o) && !(fusedD outIdx g o) := by
            rw [List.filter_cons_of_pos]; simp [hq, hd]
          rw [hf]
          have hv' : e'.all o.srcs = some vs := by
            obtain ⟨l, p⟩ := all_some hv
            exact all_of l fun i h h' => hi.agree _ _ (src_visible hp ho hq (List.getElem_mem h)) (p i h h')
          have hfin := run_inv hs hp hu os (pre ++ [o]) _ (e'.put o.dst (o.fn vs)) r hg' ⟨?_, ?_, hdone, hknown⟩ hr
          · obtain ⟨r', h1, h2⟩ := hfin
            refine ⟨r', ?_, by simpa using h2⟩
            unfold runOps
            rw [hv']
            exact h1
          · intro m w hh hw
            unfold Env.put at hw ⊢
            split_ifs at hw ⊢ with e1
            · exact hw
            · exact hi.agree m w hh hw
          · intro m hm' h hh hos x hx
            have h1 := hi.ready m hm' h hh (List.mem_cons_of_mem _ hos) x (hinput m hm' x hx)
            have : h.dst ≠ o.dst := fun e1 => hdos (e1 ▸ List.mem_map_of_mem hos)
            unfold Env.put
            rw [if_neg this]
            exact h1

end

/-- When the removed nodes are private, the new model has one input and one output for each old one, in the same order; fed with the inputs as the
removed QUANTIZE nodes would have quantized them, it delivers the outputs as they were before the removed DEQUANTIZE nodes.
Missing from the full statement: models in which a removed node shares its tensor with another operator. -/
theorem C91_fuse_partial (inIdx outIdx : Option (List ℕ)) (g : Net V) (hs : g.Single) (hu : Unary g) (hp : Private inIdx outIdx g)
    (xs ys : List V) (hr : g.run xs = some ys) :
    (fuse inIdx outIdx g).inputs.length = g.inputs.length ∧ (fuse inIdx outIdx g).outputs.length = g.outputs.length ∧
    ∃ ys', (fuse inIdx outIdx g).run (List.zipWith (fedValue inIdx g) g.inputs xs) = some ys' ∧
      ys = List.zipWith (readBack outIdx g) g.outputs ys' := by
  have hlen : (fuse inIdx outIdx g).inputs.length = g.inputs.length := by
    show (newInputs inIdx g).length = _
    rw [newInputs_eq hs hp, List.length_map]
  refine ⟨hlen, by show (newOutputs outIdx g).length = _; simp [newOutputs], ?_⟩
  unfold Net.run at hr
  split_ifs at hr with hl
  obtain ⟨r, hrun, hout⟩ := Option.bind_eq_some_iff.1 hr
  have hinit : Inv inIdx outIdx g [] g.ops (feed g.inputs xs) (feed (newInputs inIdx g) (List.zipWith (fedValue inIdx g) g.inputs xs)) := by
    have hf : ∀ n x, feed g.inputs xs n = some x →
        feed (newInputs inIdx g) (List.zipWith (fedValue inIdx g) g.inputs xs) (newName inIdx g n) = some (fedValue inIdx g n x) := by
      intro n x h
      rw [newInputs_eq hs hp]
      exact feed_map _ _ (newName_nodup hs) h
    refine ⟨?_, ?_, fun o ho => absurd ho List.not_mem_nil, fun n v h => Or.inl (feed_mem h)⟩
    · intro n v hh h
      have hm := feed_mem h
      have e : inputHeads inIdx g n = [] := by
        by_contra hc
        exact hh (Or.inl ⟨hm, hc⟩)
      have := hf n v h
      simpa [newName, fedValue, e] using this
    · intro n hn h hh _ x hx
      have := hf n x hx
      rcases inputHeads_single hs hp hn with e | ⟨h', e⟩
      · rw [e] at hh; cases hh
      · rw [e] at hh
        simp only [List.mem_singleton] at hh
        subst hh
        simpa [newName, fedValue, e] using this
  obtain ⟨r', h1, h2⟩ := run_inv hs hp hu g.ops [] _ _ r rfl hinit hrun
  obtain ⟨lo, po⟩ := all_some hout
  -- the new outputs have values
  have val : ∀ i (h : i < g.outputs.length) (h' : i < ys.length), ∃ y, r' ((newOutputs outIdx g)[i]'(by simpa [newOutputs] using h)) = some y ∧
      ys[i] = readBack outIdx g g.outputs[i] y := by
    intro i h h'
    have hy := po i h h'
    simp only [newOutputs, List.getElem_map]
    unfold readBack
    cases hfind : g.ops.find? (fun o => fusedD outIdx g o && decide (o.dst = g.outputs[i])) with
    | some o =>
      have ho := List.mem_of_find?_eq_some hfind
      have hpd := List.find?_some hfind
      simp only [Bool.and_eq_true, decide_eq_true_eq] at hpd
      obtain ⟨s, hsrc⟩ := hu o ho (by
        have := hpd.1
        simp only [fusedD, Bool.and_eq_true, decide_eq_true_eq] at this
        rw [this.1.1]; decide)
      obtain ⟨v, hv1, hv2⟩ := h2.done o (by simpa using ho) hpd.1 s hsrc
      have hvis : ¬ Hidden inIdx outIdx g s := by
        refine src_visible hp ho ?_ (by rw [hsrc]; simp)
        by_contra hc
        have hc : fusedQ inIdx g o = true := by simpa using hc
        obtain ⟨n, hn, hm⟩ := (fusedQ_iff ho).1 hc
        have k1 := (mem_inputHeads hm).2.1
        have k2 := hpd.1
        simp only [fusedD, Bool.and_eq_true, decide_eq_true_eq] at k2
        rw [k1] at k2
        exact absurd k2.1.1 (by decide)
      refine ⟨v, ?_, ?_⟩
      · simp only [hsrc, List.headD_cons]
        exact h2.agree s v hvis hv1
      · rw [hpd.2, hy] at hv2
        simpa using hv2
    | none =>
      refine ⟨ys[i], ?_, rfl⟩
      refine h2.agree _ _ ?_ hy
      rintro (⟨k1, k2⟩ | ⟨d, k1, k2, k3⟩)
      · obtain ⟨hd, hm⟩ := List.exists_mem_of_ne_nil _ k2
        exact (hp.input _ k1 hd hm).1 (List.getElem_mem h)
      · have := List.find?_eq_none.1 hfind d k1
        simp [k2, k3] at this
  have hrunNew : (fuse inIdx outIdx g).run (List.zipWith (fedValue inIdx g) g.inputs xs) = r'.all (newOutputs outIdx g) := by
    unfold Net.run
    rw [if_pos (by rw [hlen, List.length_zipWith]; omega)]
    have : runOps (fuse inIdx outIdx g).ops (feed (fuse inIdx outIdx g).inputs (List.zipWith (fedValue inIdx g) g.inputs xs)) = some r' := h1
    rw [this]
    rfl
  choose f hf using val
  refine ⟨List.ofFn fun i : Fin g.outputs.length => f i i.2 (by omega), ?_, ?_⟩
  · rw [hrunNew]
    refine all_of (by simp [newOutputs]) fun i h h' => ?_
    have hi : i < g.outputs.length := by simpa [newOutputs] using h
    rw [List.getElem_ofFn]
    exact (hf i hi (by omega)).1
  · apply List.ext_getElem
    · simp [lo]
    · intro i h h'
      have hi : i < g.outputs.length := by omega
      rw [List.getElem_zipWith, List.getElem_ofFn]
      exact (hf i hi h).2

/-- Only the listed positions are touched, and they are: an input keeps its place and name unless its position is listed and a QUANTIZE reads it, and then
the QUANTIZE's result takes its place. -/
theorem C91_input_positions (l : List ℕ) (outIdx : Option (List ℕ)) (g : Net V) (hs : g.Single) (hp : Private (some l) outIdx g)
    (k : ℕ) (hk : k < g.inputs.length) :
    (k ∉ l → (fuse (some l) outIdx g).inputs[k]? = some g.inputs[k]) ∧
    (k ∈ l → ∀ o ∈ g.ops, o.kind = .quantize → o.srcs = [g.inputs[k]] → (fuse (some l) outIdx g).inputs[k]? = some o.dst) := by
  have e : (fuse (some l) outIdx g).inputs[k]? = some (newName (some l) g g.inputs[k]) := by
    show (newInputs (some l) g)[k]? = _
    rw [newInputs_eq hs hp, List.getElem?_map, List.getElem?_eq_getElem hk, Option.map_some]
  have hi : g.inputs.idxOf g.inputs[k] = k := List.Nodup.idxOf_getElem hs.1 k hk
  rw [e]
  constructor
  · intro hn
    simp [newName, inputHeads, allowed, hi, hn]
  · intro hm o ho hq hsrc
    have hmem : o ∈ inputHeads (some l) g g.inputs[k] := by
      simp [inputHeads, allowed, hi, hm, readsInput, ho, hq, hsrc]
    rcases inputHeads_single hs hp (List.getElem_mem hk) with e | ⟨h, e⟩
    · rw [e] at hmem; cases hmem
    · rw [e] at hmem
      simp only [List.mem_singleton] at hmem
      subst hmem
      simp [newName, e]

/-- The same for the outputs: the tensor a listed DEQUANTIZE read takes its place. -/
theorem C91_output_positions (inIdx : Option (List ℕ)) (l : List ℕ) (g : Net V) (hs : g.Single) (ho : g.outputs.Nodup)
    (k : ℕ) (hk : k < g.outputs.length) :
    (k ∉ l → (fuse inIdx (some l) g).outputs[k]? = some g.outputs[k]) ∧
    (k ∈ l → ∀ o ∈ g.ops, ∀ s, o.kind = .dequantize → o.srcs = [s] → o.dst = g.outputs[k] → (fuse inIdx (some l) g).outputs[k]? = some s) := by
  have hi : g.outputs.idxOf g.outputs[k] = k := List.Nodup.idxOf_getElem ho k hk
  have e : (fuse inIdx (some l) g).outputs[k]? = some (match g.ops.find? fun o => fusedD (some l) g o && decide (o.dst = g.outputs[k]) with
    | some o => o.srcs.headD g.outputs[k]
    | none => g.outputs[k]) := by
    show (newOutputs (some l) g)[k]? = _
    rw [newOutputs, List.getElem?_map, List.getElem?_eq_getElem hk, Option.map_some]
    cases g.ops.find? (fun o => fusedD (some l) g o && decide (o.dst = g.outputs[k])) <;> rfl
  rw [e]
  cases hf : g.ops.find? (fun o => fusedD (some l) g o && decide (o.dst = g.outputs[k])) with
  | none =>
    refine ⟨fun _ => rfl, fun hm o hop s hkd hsrc hd => ?_⟩
    have := List.find?_eq_none.1 hf o hop
    simp [fusedD, hkd, hd, allowed, hi, hm] at this
  | some d =>
    have hd := List.find?_some hf
    simp only [Bool.and_eq_true, decide_eq_true_eq, fusedD] at hd
    refine ⟨fun hn => ?_, fun hm o hop s hkd hsrc hdst => ?_⟩
    · have := hd.1.2
      rw [hd.2] at this
      simp [allowed, hi, hn] at this
    · have : d = o := dst_inj hs.2.1 (List.mem_of_find?_eq_some hf) hop (hd.2.trans hdst.symm)
      subst this
      simp [hsrc]

/-- A model that meets the hypotheses: input `x`, quantized to `q`, negated and dequantized. -/
def sample : Net ℤ := ⟨["x"], [⟨.quantize, ["x"], "q", fun l => l.headD 0 / 10⟩, ⟨.other, ["q"], "r", fun l => - l.headD 0⟩,
  ⟨.dequantize, ["r"], "y", fun l => 10 * l.headD 0⟩], ["y"]⟩

example : (fuse none none sample).inputs = ["q"] ∧ (fuse none none sample).outputs = ["r"] ∧ sample.run [57] = some [-50] ∧
    (fuse none none sample).run [5] = some [-5] := by decide +kernel

example : sample.Single ∧ Unary sample ∧ Private none none sample := by
  refine ⟨by unfold Net.Single; decide +kernel, ?_, ?_, ?_⟩
  · intro o ho hk
    simp only [sample, List.mem_cons, List.not_mem_nil, or_false] at ho
    rcases ho with rfl | rfl | rfl <;> exact ⟨_, rfl⟩
  · intro n hn h hh
    simp only [sample, List.mem_cons, List.not_mem_nil, or_false] at hn
    subst hn
    have := (mem_inputHeads hh)
    have h1 := this.1
    simp only [sample, List.mem_cons, List.not_mem_nil, or_false] at h1
    refine ⟨by decide, ?_⟩
    intro o ho hs
    simp only [sample, List.mem_cons, List.not_mem_nil, or_false] at ho
    rcases h1 with rfl | rfl | rfl
    · rcases ho with rfl | rfl | rfl
      · rfl
      · simp at hs
      · simp at hs
    · exact absurd this.2.1 (by decide)
    · exact absurd this.2.1 (by decide)
  · intro d hd hf o ho
    simp only [sample, List.mem_cons, List.not_mem_nil, or_false] at hd ho
    rcases hd with rfl | rfl | rfl
    · simp [fusedD] at hf
    · simp [fusedD] at hf
    · rcases ho with rfl | rfl | rfl <;> decide

/-- An input that is quantized for one operator and read as a float by another is lost: the model runs before and cannot run after. -/
theorem C91_shared_input_false : ∃ (g : Net ℤ) (xs ys : List ℤ), g.Single ∧ g.run xs = some ys ∧ ∀ xs', (fuse none none g).run xs' = none := by
  refine ⟨⟨["x"], [⟨.quantize, ["x"], "q", fun l => l.headD 0 / 10⟩, ⟨.other, ["x"], "r", fun l => - l.headD 0⟩], ["q", "r"]⟩, [57], [5, -57], by unfold Net.Single; decide +kernel,
    by decide +kernel, ?_⟩
  intro xs'
  have e : (fuse none none (⟨["x"], [⟨.quantize, ["x"], "q", fun l => l.headD 0 / 10⟩, ⟨.other, ["x"], "r", fun l => - l.headD 0⟩], ["q", "r"]⟩ : Net ℤ)) =
      ⟨["q"], [⟨.other, ["x"], "r", fun l => - l.headD 0⟩], ["q", "r"]⟩ := by
    simp [fuse, newInputs, inputHeads, allowed, readsInput, fusedQ, fusedD, newOutputs]
  rw [e]
  match xs' with
  | [] => rfl
  | [a] => simp [Net.run, runOps, feed, Env.all, Env.put]
  | a :: b :: t => simp [Net.run]

/-- An output that other operators read as a float is lost in the same way. -/
theorem C91_shared_output_false : ∃ (g : Net ℤ) (xs ys : List ℤ), g.Single ∧ g.run xs = some ys ∧ ∀ xs', (fuse none none g).run xs' = none := by
  refine ⟨⟨["q"], [⟨.dequantize, ["q"], "y", fun l => 10 * l.headD 0⟩, ⟨.other, ["y"], "z", fun l => - l.headD 0⟩], ["y", "z"]⟩, [5], [50, -50], by unfold Net.Single; decide +kernel,
    by decide +kernel, ?_⟩
  intro xs'
  have e : (fuse none none (⟨["q"], [⟨.dequantize, ["q"], "y", fun l => 10 * l.headD 0⟩, ⟨.other, ["y"], "z", fun l => - l.headD 0⟩], ["y", "z"]⟩ : Net ℤ)) =
      ⟨["q"], [⟨.other, ["y"], "z", fun l => - l.headD 0⟩], ["q", "z"]⟩ := by
    simp [fuse, newInputs, inputHeads, allowed, readsInput, fusedQ, fusedD, newOutputs]
  rw [e]
  match xs' with
  | [] => rfl
  | [a] => simp [Net.run, runOps, feed, Env.all, Env.put]
  | a :: b :: t => simp [Net.run]

/-- An input quantized twice becomes two inputs, and the inputs behind it move: position 1, the untouched second input before, is the second copy of the
first one after. -/
theorem C91_input_count_false : ∃ g : Net ℤ, g.Single ∧ g.inputs = ["x", "w"] ∧ (fuse (some [0]) none g).inputs = ["q1", "q2", "w"] := by
  refine ⟨⟨["x", "w"], [⟨.quantize, ["x"], "q1", fun l => l.headD 0 / 10⟩, ⟨.quantize, ["x"], "q2", fun l => l.headD 0 / 20⟩], ["q1", "q2", "w"]⟩, by unfold Net.Single; decide +kernel, rfl, ?_⟩
  decide +kernel

/-! ### The type of inputs and outputs -/

open Verif.Spec

theorem qp_shift_up (s : ℝ) (z q : ℤ) : (u8 s (z + 128)).real (q + 128) = (i8 s z).real q := by
  simp only [QP.real, dequant, u8, i8]; push_cast; ring

/-- Changing the 8-bit type of an input: the new input means the same number for the user's shifted integer, and the model receives exactly the integer it
received before. -/
theorem C91_input_type {rnd : ℝ → ℤ} (h : IsNearest rnd) (want : DType) (t t' : IoTensor) (hs : 0 < t.scale) (hf : t.dtype ≠ .float32)
    (ht : ioTensor want t = some t') (q : ℤ) (hq : t.qp.Holds q) :
    t'.dtype = want ∧ ∃ q', t'.qp.Holds q' ∧ t'.qp.real q' = t.qp.real q ∧ feedInput rnd want t q' = some q := by
  obtain ⟨d, s, z⟩ := t
  simp only at hs hf
  unfold feedInput
  rw [ht]
  unfold ioTensor at ht
  simp only at ht
  split_ifs at ht with h1 h2 h3
  · cases ht
    exact ⟨h1, q, hq, rfl, by simp [h1]⟩
  · cases ht
    obtain ⟨rfl, rfl⟩ := h2
    have e := qp_shift_up s z q
    refine ⟨rfl, q + 128, ?_, e, ?_⟩
    · simp only [IoTensor.qp, QP.Holds, i8, u8] at hq ⊢; omega
    · simp only [Option.map_some, IoTensor.qp, reduceCtorEq, if_false, e]
      rw [quant_real (p := i8 s z) h ⟨hs, by simp [i8]⟩ hq]
  · cases ht
    obtain ⟨rfl, rfl⟩ := h3
    have e := qp_shift_up s (z - 128) (q - 128)
    rw [sub_add_cancel, sub_add_cancel] at e
    refine ⟨rfl, q - 128, ?_, e.symm, ?_⟩
    · simp only [IoTensor.qp, QP.Holds, i8, u8] at hq ⊢; omega
    · simp only [Option.map_some, IoTensor.qp, reduceCtorEq, if_false, ← e]
      rw [quant_real (p := u8 s z) h ⟨hs, by simp [u8]⟩ hq]

/-- Changing the 8-bit type of an output: the user reads exactly the same number. -/
theorem C91_output_type {rnd : ℝ → ℤ} (h : IsNearest rnd) (want : DType) (t t' : IoTensor) (hs : 0 < t.scale) (hf : t.dtype ≠ .float32)
    (ht : ioTensor want t = some t') (q : ℤ) (hq : t.qp.Holds q) :
    t'.dtype = want ∧ ∃ q', readOutput rnd want t q = some q' ∧ t'.qp.Holds q' ∧ t'.qp.real q' = t.qp.real q := by
  obtain ⟨d, s, z⟩ := t
  simp only at hs hf
  unfold readOutput
  rw [ht]
  unfold ioTensor at ht
  simp only at ht
  split_ifs at ht with h1 h2 h3
  · cases ht
    exact ⟨h1, q, by simp [h1], hq, rfl⟩
  · cases ht
    obtain ⟨rfl, rfl⟩ := h2
    have e := qp_shift_up s z q
    have hh : (u8 s (z + 128)).Holds (q + 128) := by simp only [IoTensor.qp, QP.Holds, i8, u8] at hq ⊢; omega
    refine ⟨rfl, q + 128, ?_, hh, e⟩
    simp only [Option.map_some, IoTensor.qp, reduceCtorEq, if_false, ← e]
    rw [quant_real h ⟨hs, by simp [u8]⟩ hh]
  · cases ht
    obtain ⟨rfl, rfl⟩ := h3
    have e := qp_shift_up s (z - 128) (q - 128)
    rw [sub_add_cancel, sub_add_cancel] at e
    have hh : (i8 s (z - 128)).Holds (q - 128) := by simp only [IoTensor.qp, QP.Holds, i8, u8] at hq ⊢; omega
    refine ⟨rfl, q - 128, ?_, hh, e.symm⟩
    simp only [Option.map_some, IoTensor.qp, reduceCtorEq, if_false, e]
    rw [quant_real h ⟨hs, by simp [i8]⟩ hh]

/-- An input that meets the hypotheses. -/
example : ioTensor .uint8 ⟨.int8, 1, -3⟩ = some ⟨.uint8, 1, 125⟩ ∧ (IoTensor.qp ⟨.int8, 1, -3⟩).Holds (-128) := by
  constructor
  · simp [ioTensor]
  · simp [IoTensor.qp, QP.Holds, i8]

/-- A model with an input or output that is not quantized to 8 bits cannot be converted with a requested type. -/
theorem C91_type_refused (want : DType) (t : IoTensor) : ioTensor want t = none ↔
    t.dtype ≠ want ∧ ¬ (t.dtype = .int8 ∧ want = .uint8) ∧ ¬ (t.dtype = .uint8 ∧ want = .int8) := by
  unfold ioTensor
  split_ifs with h1 h2 h3 <;> simp_all

end Verif.Props
