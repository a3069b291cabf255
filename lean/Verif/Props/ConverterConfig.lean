import Verif.Spec.ConverterConfig
import Mathlib.Tactic.Common

/-!
C43 (converter configuration) and C44 (option validation).
-/

namespace Verif.Props
open Verif.Model Verif.Spec

theorem resolve_spec (arg : TransArg) (ts : List ConfTensor) (rep : Nat) (fl : List (Option Bool)) (h : resolveFlags arg ts.length rep = some fl)
    (hrep : ts.length ≤ rep) : wantedFlags arg ts ((ts.zip fl).map (fun p => flagOf p.1 p.2)) := by
  cases arg with
  | none =>
    simp only [resolveFlags, Option.some.injEq] at h
    subst h
    unfold wantedFlags
    clear * - hrep
    induction ts generalizing rep with
    | nil => simp
    | cons t ts ih =>
      obtain ⟨r, rfl⟩ : ∃ r, rep = r + 1 := ⟨rep - 1, by simp at hrep; omega⟩
      simp only [List.replicate_succ, List.zip_cons_cons, List.map_cons, ih r (by simpa using hrep)]
      rfl
  | one b =>
    simp only [resolveFlags, Option.some.injEq] at h
    subst h
    unfold wantedFlags
    clear * - hrep
    induction ts generalizing rep with
    | nil => simp
    | cons t ts ih =>
      obtain ⟨r, rfl⟩ : ∃ r, rep = r + 1 := ⟨rep - 1, by simp at hrep; omega⟩
      simp only [List.replicate_succ, List.zip_cons_cons, List.map_cons, ih r (by simpa using hrep)]
      rfl
  | many l =>
    simp only [resolveFlags] at h
    split at h
    · cases h
    · rename_i hc
      simp only [Option.some.injEq] at h
      subst h
      have hlen : l.length = ts.length := by
        by_cases e : l.length = ts.length
        · exact e
        · exact absurd (Or.inl e) hc
      have hall : ∀ x ∈ l, x.isSome = true := by
        by_cases e : l.all (fun x => x.isSome) = true
        · exact List.all_eq_true.mp e
        · exact absurd (Or.inr e) hc
      refine ⟨?_, by simp [hlen]⟩
      clear * - hlen hall
      induction ts generalizing l with
      | nil => simp at hlen; simp [hlen]
      | cons t ts ih =>
        cases l with
        | nil => simp at hlen
        | cons x l =>
          obtain ⟨b, rfl⟩ := Option.isSome_iff_exists.mp (hall x (by simp))
          have := ih l (by simpa using hlen) (fun y hy => hall y (by simp [hy]))
          simp only [List.zip_cons_cons, List.map_cons, this]
          rfl
  | other => simp [resolveFlags] at h

private theorem zip_fst_length {α β : Type} (a : List α) (b : List β) (h : a.length ≤ b.length) : (a.zip b).map (·.1) = a := by
  rw [List.map_fst_zip h]

theorem resolve_length (arg : TransArg) (n rep : Nat) (fl : List (Option Bool)) (h : resolveFlags arg n rep = some fl) (hrep : n ≤ rep) : n ≤ fl.length := by
  cases arg with
  | none => simp [resolveFlags] at h; subst h; simpa using hrep
  | one b => simp [resolveFlags] at h; subst h; simpa using hrep
  | many l =>
    simp only [resolveFlags] at h
    split at h
    · cases h
    · rename_i hc
      simp only [Option.some.injEq] at h; subst h
      by_cases e : l.length = n
      · omega
      · exact absurd (Or.inl e) hc
  | other => simp [resolveFlags] at h

private theorem prepareInput_eq (shape : List Nat) (b : Bool) (h : b = true → shape.length = 4) : prepareInput shape b = some shape := by
  cases b with
  | false => rfl
  | true =>
    have := h rfl
    match shape, this with
    | [a, b, c, d], _ => rfl

private theorem mapM_id_some {α β : Type} (f : α → Option β) (g : α → β) (l : List α) (h : ∀ a ∈ l, f a = some (g a)) : l.mapM f = some (l.map g) := by
  induction l with
  | nil => rfl
  | cons a l ih => simp [h a (by simp), ih (fun x hx => h x (by simp [hx]))]

/-- **C43** Reading a generated configuration gives back the paths, the wanted flag for every input and output, and the inputs' shapes and types.  Partial:
a single flag for all outputs (or the default) works only if there are at most as many outputs as inputs, flags may be set only for four-dimensional inputs, and
the inputs must be prepared. -/
theorem C43_round_trip_partial (inputs outputs : List ConfTensor) (inT outT : TransArg) (src dst : String) (c : ConvConfig)
    (hc : generateConfig inputs outputs inT outT src dst = some c)
    (hout : (∃ l, outT = .many l) ∨ outputs.length ≤ inputs.length)
    (h4 : ∀ flags, wantedFlags inT inputs flags → ∀ p ∈ inputs.zip flags, p.2 = true → p.1.shape.length = 4) :
    ∃ p, parseConfig c true = some p ∧ p.torchModel = src ∧ p.tfliteModel = dst ∧ wantedFlags inT inputs p.inputTranspose
      ∧ p.inputs = inputs.map (fun t => (t.shape, t.dtype)) ∧ wantedFlags outT outputs p.outputTranspose := by
  unfold generateConfig at hc
  cases hfi : resolveFlags inT inputs.length inputs.length with
  | none => rw [hfi] at hc; cases hc
  | some fi =>
    cases hfo : resolveFlags outT outputs.length inputs.length with
    | none => rw [hfi, hfo] at hc; cases hc
    | some fo =>
      rw [hfi, hfo] at hc
      simp only [Option.bind_some, Option.map_some, Option.some.injEq] at hc
      have hwi := resolve_spec inT inputs inputs.length fi hfi (Nat.le_refl _)
      have hli := resolve_length inT _ _ fi hfi (Nat.le_refl _)
      have hwo : wantedFlags outT outputs ((outputs.zip fo).map (fun p => flagOf p.1 p.2)) := by
        rcases hout with ⟨l, hl⟩ | hle
        · subst hl
          exact resolve_spec _ outputs outputs.length fo (by simpa [resolveFlags] using hfo) (Nat.le_refl _)
        · exact resolve_spec outT outputs inputs.length fo hfo hle
      have hprep : ∀ i ∈ c.inputs, (prepareInput i.1 i.2.2).map (fun s => (s, i.2.1)) = some (i.1, i.2.1) := by
        intro i hi
        rw [← hc] at hi
        simp only [List.mem_map] at hi
        obtain ⟨p, hp, rfl⟩ := hi
        rw [prepareInput_eq _ _ ?_]
        · rfl
        · intro hb
          refine h4 _ hwi (p.1, flagOf p.1 p.2) ?_ hb
          have hz : inputs.zip ((inputs.zip fi).map (fun p => flagOf p.1 p.2)) = (inputs.zip fi).map (fun p => (p.1, flagOf p.1 p.2)) := by
            clear * - hli
            induction inputs generalizing fi with
            | nil => rfl
            | cons t ts ih =>
              cases fi with
              | nil => simp at hli
              | cons f fs => simp only [List.zip_cons_cons, List.map_cons, ih fs (by simpa using hli)]
          rw [hz]
          exact List.mem_map.mpr ⟨p, hp, rfl⟩
      refine ⟨⟨c.srcModel, c.dstModel, c.inputs.map (·.2.2), c.inputs.map (fun i => (i.1, i.2.1)), c.outputs.map (·.2)⟩, ?_, ?_, ?_, ?_, ?_, ?_⟩
      · simp only [parseConfig, if_true, mapM_id_some _ _ _ hprep, Option.map_some]
      · rw [← hc]
      · rw [← hc]
      · rw [← hc]; simpa [List.map_map, Function.comp_def] using hwi
      · rw [← hc]
        simp only [List.map_map, Function.comp_def]
        conv_rhs => rw [← zip_fst_length inputs fi hli, List.map_map]
        rfl
      · rw [← hc]; simpa [List.map_map, Function.comp_def] using hwo

/-- **C43** Generation fails exactly for a list of the wrong length or with an element that is not a boolean, and for other types. -/
theorem C43_accepts (inputs outputs : List ConfTensor) (inT outT : TransArg) (src dst : String) :
    (∃ c, generateConfig inputs outputs inT outT src dst = some c) ↔ (∃ f, wantedFlags inT inputs f) ∧ ∃ f, wantedFlags outT outputs f := by
  have key : ∀ (arg : TransArg) (ts : List ConfTensor) (rep : Nat), (∃ fl, resolveFlags arg ts.length rep = some fl) ↔ ∃ f, wantedFlags arg ts f := by
    intro arg ts rep
    cases arg with
    | none => simp [resolveFlags, wantedFlags]
    | one b => simp [resolveFlags, wantedFlags]
    | other => simp [resolveFlags, wantedFlags]
    | many l =>
      simp only [resolveFlags, wantedFlags]
      constructor
      · rintro ⟨fl, h⟩
        have := resolve_spec (.many l) ts ts.length fl (by simpa [resolveFlags] using h) (Nat.le_refl _)
        exact ⟨_, this⟩
      · rintro ⟨f, h1, h2⟩
        refine ⟨l, ?_⟩
        rw [if_neg]
        rintro (h | h)
        · apply h; rw [← h1]; simpa using h2
        · apply h
          rw [← h1]
          simp
  rw [← key inT inputs inputs.length, ← key outT outputs inputs.length]
  unfold generateConfig
  constructor
  · rintro ⟨c, h⟩
    cases h1 : resolveFlags inT inputs.length inputs.length with
    | none => rw [h1] at h; cases h
    | some a =>
      cases h2 : resolveFlags outT outputs.length inputs.length with
      | none => rw [h1, h2] at h; cases h
      | some b => exact ⟨⟨a, rfl⟩, ⟨b, rfl⟩⟩
  · rintro ⟨⟨a, h1⟩, ⟨b, h2⟩⟩
    exact ⟨_, by rw [h1, h2]; rfl⟩

/-- Two inputs of different rank, one output, default flags: the hypotheses hold. -/
example : (generateConfig [⟨[1, 3, 8, 8], "float32"⟩, ⟨[1, 5], "int64"⟩] [⟨[1, 4, 8, 8], "float32"⟩] .none .none "m.pt" "m.tflite").bind (parseConfig · true)
    = some ⟨"m.pt", "m.tflite", [true, false], [([1, 3, 8, 8], "float32"), ([1, 5], "int64")], [true]⟩ := by decide

/-- One input and two outputs: the second output is lost. -/
theorem C43_outputs_false : (generateConfig [⟨[1, 3, 8, 8], "float32"⟩] [⟨[1, 4, 8, 8], "float32"⟩, ⟨[1, 4, 4, 4], "float32"⟩] .none (.one true) "m.pt" "m.tflite").map
    (fun c => c.outputs.length) = some 1 := by decide

/-- `True` for an input that is not four-dimensional is accepted, but the configuration cannot be parsed; without `prepare_inputs` no configuration can. -/
theorem C43_parse_false : (generateConfig [⟨[1, 5], "float32"⟩] [] (.one true) .none "m.pt" "m.tflite").map (fun c => parseConfig c true) = some none
    ∧ ∀ c, parseConfig c false = none := ⟨by decide, fun _ => rfl⟩

/-- **C44** Every supported combination is accepted, and the chosen types are stored unchanged (the hybrid weight type defaults to the target type). -/
theorem C44_accepts (o : ConvOptions) (h : Supported o) :
    converterInit o = some ⟨o.targetType, o.inputOutputType, some (o.hybridWeightType.getD o.targetType)⟩ := by
  obtain ⟨h1, h2, h3, h4, h5, h6, h7⟩ := h
  obtain ⟨tt, ss, io, fq, hy, pc, wt, dc, dj⟩ := o
  simp only at h1 h2 h3 h4 h5 h6 h7
  have ht : checkTarget ⟨tt, ss, io, fq, hy, pc, wt, dc, dj⟩ = some tt := by
    rcases h1 with rfl | rfl | rfl
    · rfl
    · rfl
    · have := h2 rfl; subst this; rfl
  have hio : checkInputOutput ⟨tt, ss, io, fq, hy, pc, wt, dc, dj⟩ = some io := by
    cases io with
    | none => rfl
    | some t =>
      obtain ⟨a, b, c⟩ := h3 t rfl
      subst a
      simp only [checkInputOutput, Bool.not_true, Bool.false_eq_true, if_false]
      rw [if_neg (fun hn => hn b), if_neg (by rintro ⟨x, y⟩; exact y (c x))]
  have hh : checkHybrid ⟨tt, ss, io, fq, hy, pc, wt, dc, dj⟩ = some (some (wt.getD tt)) := by
    have hk : wt.getD tt = "uint8" ∨ wt.getD tt = "int8" ∨ wt.getD tt = "int16" := by
      cases wt with
      | none => exact h1
      | some t => exact h4 t rfl
    simp only [checkHybrid]
    rcases hk with e | e | e
    · simp only [e, if_true]
      cases hy with
      | false => rfl
      | true =>
        cases pc with
        | false => rfl
        | true => exact absurd e (h6 rfl rfl)
    · simp [e]
    · simp only [e]
      cases hy with
      | false => rfl
      | true => exact absurd e (h5 rfl)
  unfold converterInit
  rw [ht, hio, hh]
  simp only [Option.bind_some]
  cases dc with
  | false => rfl
  | true => have := h7 rfl; subst this; rfl

/-- **C44** Every unsupported combination is rejected.  Partial: an unknown hybrid weight type is accepted, see below. -/
theorem C44_rejects_partial (o : ConvOptions) (hw : ∀ t, o.hybridWeightType = some t → t = "uint8" ∨ t = "int8" ∨ t = "int16") (h : ¬ Supported o) :
    converterInit o = none := by
  cases hr : converterInit o with
  | none => rfl
  | some a =>
    exfalso
    apply h
    obtain ⟨tt, ss, io, fq, hy, pc, wt, dc, dj⟩ := o
    unfold converterInit at hr
    cases h1 : checkTarget ⟨tt, ss, io, fq, hy, pc, wt, dc, dj⟩ with
    | none => rw [h1] at hr; cases hr
    | some q =>
      cases h2 : checkInputOutput ⟨tt, ss, io, fq, hy, pc, wt, dc, dj⟩ with
      | none => rw [h1, h2] at hr; cases hr
      | some i =>
        cases h3 : checkHybrid ⟨tt, ss, io, fq, hy, pc, wt, dc, dj⟩ with
        | none => rw [h1, h2, h3] at hr; cases hr
        | some hq =>
          rw [h1, h2, h3] at hr
          simp only [Option.bind_some] at hr
          have hd : ¬ ((dc && !dj) = true) := by intro hc; rw [if_pos hc] at hr; cases hr
          refine ⟨?_, ?_, ?_, hw, ?_, ?_, ?_⟩
          · simp only [checkTarget] at h1 ⊢
            split at h1
            · left; assumption
            · split at h1
              · right; left; assumption
              · split at h1
                · right; right; assumption
                · cases h1
          · intro e
            simp only at e
            subst e
            simp only [checkTarget] at h1 ⊢
            cases ss with
            | true => rfl
            | false => simp at h1
          · intro t e
            simp only at e
            subst e
            simp only [checkInputOutput] at h2
            split at h2
            · cases h2
            · rename_i hf
              split at h2
              · cases h2
              · rename_i hk
                split at h2
                · cases h2
                · rename_i h16
                  exact ⟨by simpa using hf, Classical.not_not.mp hk, fun e => Classical.byContradiction (fun hne => h16 ⟨e, hne⟩)⟩
          · intro e e2
            simp only at e e2
            subst e
            simp [checkHybrid, e2] at h3
          · intro e e' e2
            simp only at e e' e2
            subst e e'
            simp [checkHybrid, e2] at h3
          · intro e
            simp only at e
            subst e
            cases dj with
            | true => rfl
            | false => exact absurd rfl hd

/-- Supported and unsupported combinations exist. -/
example : Supported ⟨"int8", false, some "uint8", true, true, true, none, false, false⟩
    ∧ ¬ Supported ⟨"int16", true, none, true, true, false, none, false, false⟩ := by
  constructor
  · constructor <;> simp
  · intro h; exact h.hybridInt8 rfl rfl

/-- An unknown hybrid weight type is accepted silently and the attribute is never set. -/
theorem C44_unknown_type_false : converterInit ⟨"int8", false, none, false, true, true, some "float16", false, false⟩ = some ⟨"int8", none, none⟩ := by decide

end Verif.Props
