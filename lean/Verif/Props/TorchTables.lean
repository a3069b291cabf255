import Verif.Model.TorchTables
import Verif.Spec.TorchTables
import Mathlib.Tactic.SplitIfs
import Mathlib.Data.List.Nodup
import Mathlib.Data.List.Infix

/-! C144: PyTorch's own tables and classes after preparing and converting models. -/

namespace Verif.Props
open Verif.Model.TorchTables Verif.Spec.TorchTables

namespace TorchTables
variable {C : Type} [DecidableEq C]

/-- The attribute inside `convert`: replaced for the classes of the table that have it, and the original value is kept aside. -/
theorem cvt_fold (items : List (C × C)) (hn : (items.map (·.2)).Nodup) (m sv : C → Option C)
    (hs : ∀ q ∈ items.map (·.2), sv q = none) :
    let p := items.foldl cvtStep (m, sv)
    (∀ c, c ∉ items.map (·.2) → p.1 c = m c ∧ p.2 c = sv c) ∧
    (∀ a q, (a, q) ∈ items → (m q = none → p.1 q = none ∧ p.2 q = none) ∧ ∀ f, m q = some f → p.1 q = some a ∧ p.2 q = some f) := by
  induction items generalizing m sv with
  | nil => simp
  | cons it items ih =>
    obtain ⟨a, q⟩ := it
    simp only [List.map_cons, List.nodup_cons] at hn
    obtain ⟨hq, hn⟩ := hn
    dsimp only
    rw [List.foldl_cons]
    cases hmq : m q with
    | none =>
      have hstep : cvtStep (m, sv) (a, q) = (m, sv) := by simp [cvtStep, hmq]
      rw [hstep]
      obtain ⟨h1, h2⟩ := ih hn m sv (fun x hx => hs x (by simp at hx ⊢; exact Or.inr hx))
      refine ⟨fun c hc => h1 c (fun h => hc (by simp at h ⊢; exact Or.inr h)), fun a' q' h => ?_⟩
      rcases List.mem_cons.mp h with e | h
      · cases e
        have := h1 q hq
        refine ⟨fun _ => ⟨this.1.trans hmq, this.2.trans (hs q (by simp))⟩, fun f hf => ?_⟩
        rw [hmq] at hf; cases hf
      · exact h2 a' q' h
    | some f =>
      have hstep : cvtStep (m, sv) (a, q) =
          (fun c => if c = q then some a else m c, fun c => if c = q then some f else sv c) := by simp [cvtStep, hmq]
      rw [hstep]
      obtain ⟨h1, h2⟩ := ih hn (fun c => if c = q then some a else m c) (fun c => if c = q then some f else sv c) (fun x hx => by
        have hxq : x ≠ q := fun e => hq (e ▸ hx)
        simp only [hxq, if_false]
        exact hs x (by simp at hx ⊢; exact Or.inr hx))
      refine ⟨fun c hc => ?_, fun a' q' h => ?_⟩
      · have hcq : c ≠ q := fun e => hc (by simp [e])
        have := h1 c (fun h => hc (by simp at h ⊢; exact Or.inr h))
        simpa [hcq] using this
      · rcases List.mem_cons.mp h with e | h
        · cases e
          have := h1 q hq
          simp only [if_true] at this
          refine ⟨fun hf => ?_, fun f' hf' => ?_⟩
          · rw [hmq] at hf; cases hf
          · rw [hmq] at hf'; cases hf'; exact this
        · have hqq : q' ≠ q := fun e => hq (e ▸ List.mem_map.mpr ⟨(a', q'), h, rfl⟩)
          have := h2 a' q' h
          simpa [hqq] using this

theorem update_idem (m : C → Option C) (d : List (C × C)) : update (update m d) d = update m d := by
  funext k
  unfold update
  cases d.lookup k <;> simp

/-- The classes the function names, when the stack does not matter. -/
def value : Fn C → List C
  | .orig s => s
  | .patched e f => e ++ value f

theorem call_some (f : Fn C) (n : Nat) (r : List C) (h : f.call n = some r) : r = value f := by
  induction f generalizing n r with
  | orig s =>
    cases n with
    | zero => simp [Fn.call] at h
    | succ n => simp [Fn.call] at h; exact h.symm
  | patched e f ih =>
    cases n with
    | zero => simp [Fn.call] at h
    | succ n =>
      simp only [Fn.call, Option.map_eq_some_iff] at h
      obtain ⟨r', h1, h2⟩ := h
      rw [← h2, ih n r' h1, value]

/-- `k` closures around `f`. -/
def wrap (e : List C) : Nat → Fn C → Fn C
  | 0, f => f
  | k + 1, f => .patched e (wrap e k f)

theorem wrap_call (e : List C) (k n : Nat) (f : Fn C) (h : n ≤ k) : (wrap e k f).call n = none := by
  induction k generalizing n with
  | zero => have : n = 0 := by omega
            subst this; cases f <;> rfl
  | succ k ih =>
    cases n with
    | zero => rfl
    | succ n => simp [wrap, Fn.call, ih n (by omega)]

theorem ptq_times (l : Lib C) (g : Globals C) (n frames : Nat) :
    (after (step l .v113 frames) g (List.replicate n Ev.ptq)).noObs = wrap (l.custom.map (·.2)) n g.noObs := by
  induction n with
  | zero => rfl
  | succ n ih =>
    rw [List.replicate_succ', after, List.foldl_append]
    show (preparePtq l .v113 (after (step l .v113 frames) g (List.replicate n Ev.ptq))).noObs = _
    simp [preparePtq, ih, wrap]

end TorchTables

open TorchTables

variable {C : Type} [DecidableEq C]

/-- C144 for `QATQuantizer.prepare_qat`, when PyTorch's function returns: `LSTM.from_float`, `no_observer_set` and `_FLOAT_MODULE` are
what they were.  Missing: the dictionary of custom modules (`C144_custom_false`) and calls that raise (`C144_crash_false`). -/
theorem C144_qat_partial (l : Lib C) (v : Ver) (frames : Nat) (asks : Bool) (g : Globals C)
    (hret : observed frames false asks (Fn.patched (l.custom.map (·.2)) g.noObs) = true) :
    (prepareQat l v frames false asks g).fromFloat = g.fromFloat ∧ (prepareQat l v frames false asks g).noObs = g.noObs ∧
      (prepareQat l v frames false asks g).floatMod = g.floatMod := by
  unfold prepareQat
  by_cases h : v = .v113
  · rw [if_pos h]
    dsimp only
    rw [if_pos hret]
    exact ⟨rfl, rfl, rfl⟩
  · rw [if_neg h]
    exact ⟨rfl, rfl, rfl⟩

/-- C144 for `convert`, when PyTorch's function returns: everything is what it was.  The table names every quantized class once. -/
theorem C144_convert (l : Lib C) (hn : (l.cvt.map (·.2)).Nodup) : Preserves (convertQat l false) id := by
  intro g
  have hp := cvt_fold l.cvt hn g.floatMod (fun _ => none) (fun _ _ => rfl)
  dsimp only at hp
  obtain ⟨h1, h2⟩ := hp
  have : (fun c => ((cvtPatch l g.floatMod).2 c).or ((cvtPatch l g.floatMod).1 c)) = g.floatMod := by
    funext c
    unfold cvtPatch
    by_cases hc : c ∈ l.cvt.map (·.2)
    · obtain ⟨⟨a, q⟩, hm, rfl⟩ := List.mem_map.mp hc
      have := h2 a q hm
      dsimp only
      cases hq : g.floatMod q with
      | none => have := this.1 hq; simp [this.1, this.2]
      | some f => have := this.2 f hq; simp [this.1, this.2]
    · have := h1 c hc
      simp [this.1, this.2]
  simp only [convertQat, id]
  simp [this]

/-- C144: inside `convert`, every class of the table that has the attribute names the class that this library put into the model. -/
theorem C144_inside (l : Lib C) (hn : (l.cvt.map (·.2)).Nodup) (g : Globals C) (a q : C) (h : (a, q) ∈ l.cvt) (f : C)
    (hf : g.floatMod q = some f) : (cvtPatch l g.floatMod).1 q = some a :=
  (((cvt_fold l.cvt hn g.floatMod (fun _ => none) (fun _ _ => rfl)).2 a q h).2 f hf).1

/-- C144 over all histories of calls, returning or raising: `LSTM.from_float` is PyTorch's or this library's; `no_observer_set`, if it
can be called, names PyTorch's classes and otherwise only this library's; the dictionary is PyTorch's or PyTorch's with this library's
entries; and the attribute of every class is PyTorch's or the one of the table. -/
theorem C144_history (l : Lib C) (hn : (l.cvt.map (·.2)).Nodup) (v : Ver) (frames : Nat) (g : Globals C) (h : List Ev) :
    let g' := after (step l v frames) g h
    (g'.fromFloat = g.fromFloat ∨ g'.fromFloat = l.lstmFromFloat) ∧
    (∀ n m s s', g.noObs.call n = some s → g'.noObs.call m = some s' →
      ∀ c, (c ∈ s → c ∈ s') ∧ (c ∈ s' → c ∈ s ∨ c ∈ l.custom.map (·.2))) ∧
    (g'.custom = g.custom ∨ ∀ k, (∀ c, l.custom.lookup k = some c → g'.custom k = some c) ∧ (l.custom.lookup k = none → g'.custom k = g.custom k)) ∧
    ∀ q, g'.floatMod q = g.floatMod q ∨ ∃ a, (a, q) ∈ l.cvt ∧ g'.floatMod q = some a := by
  suffices H : let g' := after (step l v frames) g h
      (g'.fromFloat = g.fromFloat ∨ g'.fromFloat = l.lstmFromFloat) ∧
      (∀ c, (c ∈ value g.noObs → c ∈ value g'.noObs) ∧ (c ∈ value g'.noObs → c ∈ value g.noObs ∨ c ∈ l.custom.map (·.2))) ∧
      (g'.custom = g.custom ∨ g'.custom = update g.custom l.custom) ∧
      ∀ q, g'.floatMod q = g.floatMod q ∨ ∃ a, (a, q) ∈ l.cvt ∧ g'.floatMod q = some a by
    obtain ⟨h1, h2, h3, h4⟩ := H
    refine ⟨h1, fun n m s s' hs hs' c => ?_, h3.imp id (fun e k => ?_), h4⟩
    swap
    · rw [e]
      unfold update
      exact ⟨fun c hc => by rw [hc]; rfl, fun hc => by rw [hc]; rfl⟩
    rw [call_some _ _ _ hs, call_some _ _ _ hs']
    exact h2 c
  induction h using List.reverseRecOn with
  | nil => exact ⟨Or.inl rfl, fun c => ⟨id, Or.inl⟩, Or.inl rfl, fun q => Or.inl rfl⟩
  | append_singleton h e ih =>
    dsimp only at ih ⊢
    have hstep : after (step l v frames) g (h ++ [e]) = step l v frames (after (step l v frames) g h) e := by
      simp [after, List.foldl_append]
    rw [hstep]
    generalize after (step l v frames) g h = g1 at ih
    obtain ⟨i1, i2, i3, i4⟩ := ih
    have hcust : update g1.custom l.custom = update g.custom l.custom := by
      rcases i3 with e | e <;> rw [e]
      exact update_idem _ _
    have hval : ∀ c, (c ∈ value g.noObs → c ∈ value (Fn.patched (l.custom.map (·.2)) g1.noObs)) ∧
        (c ∈ value (Fn.patched (l.custom.map (·.2)) g1.noObs) → c ∈ value g.noObs ∨ c ∈ l.custom.map (·.2)) := by
      intro c
      simp only [value, List.mem_append]
      exact ⟨fun hc => Or.inr ((i2 c).1 hc), fun hc => hc.elim Or.inr (i2 c).2⟩
    cases e with
    | qat r a =>
      simp only [step, prepareQat]
      by_cases hv : v = .v113
      · rw [if_pos hv]
        by_cases ho : observed frames r a (Fn.patched (l.custom.map (·.2)) g1.noObs) = true
        · rw [if_pos ho]
          exact ⟨i1, i2, Or.inr hcust, i4⟩
        · rw [if_neg ho]
          exact ⟨Or.inr rfl, hval, Or.inr hcust, i4⟩
      · rw [if_neg hv]
        exact ⟨i1, i2, i3, i4⟩
    | ptq =>
      simp only [step, preparePtq]
      refine ⟨i1, ?_, ?_, i4⟩
      · by_cases hv : v = .v113 ∨ v = .v19
        · simp only [if_pos hv]; exact hval
        · simp only [if_neg hv]; exact i2
      · by_cases hv : v = .v113
        · simp only [if_pos hv]; exact Or.inr hcust
        · simp only [if_neg hv]; exact i3
    | convert r =>
      cases r with
      | false =>
        have := C144_convert l hn g1
        simp only [id] at this
        simp only [step, this]
        exact ⟨i1, i2, i3, i4⟩
      | true =>
        refine ⟨i1, i2, i3, fun q => ?_⟩
        have hp := cvt_fold l.cvt hn g1.floatMod (fun _ => none) (fun _ _ => rfl)
        dsimp only at hp
        obtain ⟨h1, h2⟩ := hp
        show (cvtPatch l g1.floatMod).1 q = _ ∨ ∃ a, _ ∧ (cvtPatch l g1.floatMod).1 q = _
        unfold cvtPatch
        by_cases hc : q ∈ l.cvt.map (·.2)
        · obtain ⟨⟨a, q⟩, hm, rfl⟩ := List.mem_map.mp hc
          have := h2 a q hm
          dsimp only
          cases hq : g1.floatMod q with
          | none =>
            rw [(this.1 hq).1, ← hq]
            exact i4 q
          | some f => exact Or.inr ⟨a, hm, (this.2 f hq).1⟩
        · rw [(h1 q hc).1]
          exact i4 q

/-- A copy of the library's constants: 0 `lstm.from_float`, 1 `nn.GRU`, 2 the library's `GRU`, 3, 5, 7 its `Conv1d`, `ConvTranspose1d`,
`ConvTranspose2d`, 4, 6, 8 PyTorch's quantized classes. -/
def tinyLib : Lib Nat := ⟨0, [(1, 2)], [(3, 4), (5, 6), (7, 8)]⟩

/-- PyTorch as imported: 10 its `from_float`, 11 a class that is not observed, 14, 16, 18 the floating-point classes. -/
def fresh : Globals Nat :=
  ⟨10, .orig [11], fun _ => none, fun c => if c = 4 then some 14 else if c = 6 then some 16 else if c = 8 then some 18 else none⟩

/-- C144 is false for post-training quantization.  On current versions of PyTorch, from every state: a preparation, let alone several,
leaves `no_observer_set` replaced; and after as many preparations as Python's stack has room for, preparing a model with a custom module
(`nn.GRU`) raises `RecursionError`. -/
theorem C144_ptq_false (l : Lib C) (g : Globals C) (frames n : Nat) :
    (0 < n → (after (step l .v113 frames) g (List.replicate n Ev.ptq)).noObs ≠ g.noObs) ∧
    (frames ≤ n → ptqReturns l .v113 frames true (after (step l .v113 frames) g (List.replicate n Ev.ptq)) = false) := by
  constructor
  · intro hn
    rw [ptq_times]
    cases n with
    | zero => omega
    | succ n =>
      intro h
      have : ∀ (e : List C) (k : Nat) (f : Fn C), sizeOf f ≤ sizeOf (wrap e k f) := by
        intro e k f
        induction k with
        | zero => exact Nat.le_refl _
        | succ k ih => simp only [wrap]; simp; omega
      have h1 := this (l.custom.map (·.2)) n g.noObs
      have h2 := congrArg sizeOf h
      simp only [wrap] at h2
      simp at h2
      omega
  · intro hn
    have h1 : (preparePtq l .v113 (after (step l .v113 frames) g (List.replicate n Ev.ptq))).noObs =
        wrap (l.custom.map (·.2)) (n + 1) g.noObs := by
      simp [preparePtq, ptq_times, wrap]
    unfold ptqReturns observed
    rw [h1, wrap_call _ _ _ _ (by omega)]
    rfl

/-- C144 is false for calls that raise: what they replaced stays replaced, and later calls that return put back the replacement, not the
original.  Here for a failed preparation followed by any number of preparations that return, and the same for `convert`. -/
theorem C144_crash_false (k frames : Nat) (hf : 2 < frames) :
    fresh.fromFloat = 10 ∧
    (after (step tinyLib .v113 frames) fresh (Ev.qat true false :: List.replicate k (Ev.qat false true))).fromFloat = 0 ∧
    fresh.floatMod 4 = some 14 ∧
    (after (step tinyLib .v113 frames) fresh (Ev.convert true :: List.replicate k (Ev.convert false))).floatMod 4 = some 3 := by
  refine ⟨rfl, ?_, rfl, ?_⟩
  · suffices H : (after (step tinyLib .v113 frames) fresh (Ev.qat true false :: List.replicate k (Ev.qat false true))).fromFloat = 0 ∧
        (after (step tinyLib .v113 frames) fresh (Ev.qat true false :: List.replicate k (Ev.qat false true))).noObs =
          .patched [2] (.orig [11]) from H.1
    induction k with
    | zero => exact ⟨rfl, rfl⟩
    | succ k ih =>
      rw [List.replicate_succ', ← List.cons_append, after, List.foldl_append]
      change (prepareQat tinyLib .v113 frames false true (after (step tinyLib .v113 frames) fresh
        (Ev.qat true false :: List.replicate k (Ev.qat false true)))).fromFloat = 0 ∧ (prepareQat tinyLib .v113 frames false true
        (after (step tinyLib .v113 frames) fresh (Ev.qat true false :: List.replicate k (Ev.qat false true)))).noObs = _
      have := C144_qat_partial tinyLib .v113 frames true (after (step tinyLib .v113 frames) fresh
        (Ev.qat true false :: List.replicate k (Ev.qat false true))) (by
          rw [ih.2]
          obtain ⟨m, rfl⟩ : ∃ m, frames = m + 3 := ⟨frames - 3, by omega⟩
          rfl)
      rw [this.1, this.2.1]
      exact ih
  · suffices H : after (step tinyLib .v113 frames) fresh (Ev.convert true :: List.replicate k (Ev.convert false)) =
        convertQat tinyLib true fresh by
      rw [H]; rfl
    induction k with
    | zero => rfl
    | succ k ih =>
      rw [List.replicate_succ', ← List.cons_append, after, List.foldl_append]
      change convertQat tinyLib false (after (step tinyLib .v113 frames) fresh (Ev.convert true :: List.replicate k (Ev.convert false))) = _
      have := C144_convert tinyLib (by decide) (after (step tinyLib .v113 frames) fresh
        (Ev.convert true :: List.replicate k (Ev.convert false)))
      simp only [id] at this
      rw [this]
      exact ih

/-- C144 is false for the dictionary of custom modules, even when everything returns: afterwards PyTorch's own preparation would put
this library's `GRU` into models that have nothing to do with it. -/
theorem C144_custom_false (frames : Nat) (hf : 1 < frames) :
    fresh.custom 1 = none ∧ (prepareQat tinyLib .v113 frames false true fresh).custom 1 = some 2 ∧
      (prepareQat tinyLib .v113 frames false true fresh).noObs = fresh.noObs := by
  obtain ⟨m, rfl⟩ : ∃ m, frames = m + 2 := ⟨frames - 2, by omega⟩
  exact ⟨rfl, rfl, rfl⟩

/-- The hypotheses of the positive theorems are met by the library and a fresh PyTorch, with a realistic stack. -/
example : observed 900 false true (Fn.patched (tinyLib.custom.map (·.2)) fresh.noObs) = true ∧ (tinyLib.cvt.map (·.2)).Nodup ∧
    (cvtPatch tinyLib fresh.floatMod).1 8 = some 7 ∧ (convertQat tinyLib false fresh).floatMod 8 = some 18 ∧
    ptqReturns tinyLib .v113 900 true (after (step tinyLib .v113 900) fresh (List.replicate 3 Ev.ptq)) = true := by decide +kernel

end Verif.Props
