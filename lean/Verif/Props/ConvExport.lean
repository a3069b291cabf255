import Verif.Model.ConvExport
import Verif.Props.ConverterConfig

/-! C168: exporting the files for the converter. -/

namespace Verif.Props
open Verif.Model Verif.Spec Verif.Spec.ConvExport Verif.Model.ConvExport

theorem ce_noPt_cons (c : Char) (r : List Char) (h : ¬ HasPt (c :: r)) : ¬ HasPt r := by
  rintro ⟨a, b, rfl⟩
  exact h ⟨c :: a, b, rfl⟩

theorem ce_step (new : List Char) (c : Char) (r : List Char) (h : ¬ ∃ s, c :: r = '.' :: 'p' :: 't' :: s) : replacePt new (c :: r) = c :: replacePt new r := by
  rw [replacePt]
  intro s hc hr
  exact h ⟨s, by rw [hc, hr]⟩

theorem ce_border (c : Char) (r s : List Char) (h : c :: (r ++ ['.', 'p', 't']) = '.' :: 'p' :: 't' :: s) : ∃ s', c :: r = '.' :: 'p' :: 't' :: s' := by
  cases r with
  | nil => simp at h
  | cons d r => cases r with
    | nil => simp at h
    | cons e r =>
      simp only [List.cons_append, List.cons.injEq] at h
      obtain ⟨rfl, rfl, rfl, _⟩ := h
      exact ⟨r, rfl⟩

theorem ce_replace (new : List Char) : ∀ base, ¬ HasPt base → replacePt new (base ++ ['.', 'p', 't']) = base ++ new
  | [], _ => by simp [replacePt]
  | c :: r, h => by
    rw [List.cons_append, ce_step, ce_replace new r (ce_noPt_cons c r h)]
    · rfl
    · rintro ⟨s, hs⟩
      obtain ⟨s', hs'⟩ := ce_border c r s hs
      exact h ⟨[], s', by simp [hs']⟩

theorem ce_length (new : List Char) (hn : 3 < new.length) : ∀ (n : ℕ) (base : List Char), base.length ≤ n →
    base.length + new.length ≤ (replacePt new (base ++ ['.', 'p', 't'])).length ∧ (HasPt base → base.length + new.length < (replacePt new (base ++ ['.', 'p', 't'])).length)
  | _, [], _ => by
    refine ⟨by simp [replacePt], ?_⟩
    rintro ⟨a, b, h⟩
    simp at h
  | 0, _ :: _, h => by simp at h
  | n + 1, c :: r, h => by
    by_cases hp : ∃ s, c :: r = '.' :: 'p' :: 't' :: s
    · obtain ⟨s, hs⟩ := hp
      have := (ce_length new hn n s (by
        have := congrArg List.length hs
        simp only [List.length_cons] at this h
        omega)).1
      rw [hs]
      simp only [List.cons_append, replacePt, List.length_append, List.length_cons]
      exact ⟨by omega, fun _ => by omega⟩
    · have ih := ce_length new hn n r (by simpa using h)
      rw [List.cons_append, ce_step _ _ _ (fun ⟨s, hs⟩ => hp (ce_border c r s hs))]
      simp only [List.length_cons]
      refine ⟨by omega, fun hh => ?_⟩
      have : HasPt r := by
        obtain ⟨a, b, hab⟩ := hh
        cases a with
        | nil => exact absurd ⟨b, by simpa using hab⟩ hp
        | cons d a =>
          simp only [List.cons_append, List.cons.injEq] at hab
          exact ⟨a, b, by simp [hab.2]⟩
      have := ih.2 this
      omega

/-- The model, the configuration and the TFLite file lie beside each other exactly if neither the directory nor the name of the model contains ".pt". -/
theorem C168_paths (base : List Char) : files base = wanted base ↔ ¬ HasPt base := by
  have e : ".pt".toList = ['.', 'p', 't'] := rfl
  constructor
  · intro h hp
    have := congrArg (fun f => f.config.length) h
    have h2 := (ce_length ".json".toList (by decide) _ base (Nat.le_refl _)).2 hp
    simp only [files, wanted, e, List.length_append] at this
    omega
  · intro h
    unfold files wanted
    rw [e, ce_replace _ _ h, ce_replace _ _ h]

/-- Two such models have different files. -/
theorem C168_distinct (a b : List Char) (ha : ¬ HasPt a) (hb : ¬ HasPt b) (hab : a ≠ b) :
    (files a).config ≠ (files b).config ∧ (files a).tflite ≠ (files b).tflite ∧ (files a).model ≠ (files b).model := by
  rw [(C168_paths a).2 ha, (C168_paths b).2 hb]
  simp [wanted, hab]

/-- Exporting to a directory whose name contains ".pt" writes the configuration to another directory; two models of one directory can have one configuration file. -/
theorem C168_paths_false : (files "/d.pth/net".toList).config = "/d.jsonh/net.json".toList ∧
    (files "/net.pt".toList).config = (files "/net.json".toList).config ∧ "/net.pt" ≠ "/net.json" := by decide +kernel

/-- Hypotheses met. -/
example : ¬ HasPt "/out/net".toList := (C168_paths _).1 (by decide +kernel)

theorem ce_tensors (l : List Out) (h : ∀ o ∈ l, ∃ t, o = .tensor t) : l.mapM tensorOf = some (leavesAll l) := by
  induction l with
  | nil => rfl
  | cons o l ih =>
    obtain ⟨t, rfl⟩ := h o List.mem_cons_self
    simp [List.mapM_cons, tensorOf, ih (fun o ho => h o (List.mem_cons_of_mem _ ho)), leavesAll, leaves]

theorem ce_append (a b : List Out) : leavesAll (a ++ b) = leavesAll a ++ leavesAll b := by
  induction a with
  | nil => rfl
  | cons o a ih => simp [leavesAll, ih]

theorem ce_flat (out : Out) (h : Shallow out) : (∀ o ∈ flattenOnce out, ∃ t, o = .tensor t) ∧ leavesAll (flattenOnce out) = leaves out := by
  cases out with
  | tensor t => simp [flattenOnce, leavesAll, leaves]
  | other => exact h.elim
  | seq l =>
    unfold Shallow at h
    simp only [flattenOnce, leaves]
    induction l with
    | nil => simp [leavesAll]
    | cons o l ih =>
      obtain ⟨i1, i2⟩ := ih (fun o ho => h o (List.mem_cons_of_mem _ ho))
      simp only [List.flatMap_cons, ce_append, leavesAll]
      rw [i2]
      rcases h o List.mem_cons_self with ⟨t, rfl⟩ | ⟨l', rfl, hl'⟩
      · refine ⟨?_, by simp [leavesAll, leaves]⟩
        intro o ho
        rcases List.mem_append.1 ho with ho | ho
        · simp only [List.mem_singleton] at ho
          exact ⟨t, ho⟩
        · exact i1 o ho
      · refine ⟨?_, by simp [leaves]⟩
        intro o ho
        rcases List.mem_append.1 ho with ho | ho
        · exact hl' o ho
        · exact i1 o ho

theorem ce_len (l : List Out) (h : ∀ o ∈ l, ∃ t, o = .tensor t) : (leavesAll l).length = l.length := by
  induction l with
  | nil => rfl
  | cons o l ih =>
    obtain ⟨t, rfl⟩ := h o List.mem_cons_self
    simp [leavesAll, leaves, ih (fun o ho => h o (List.mem_cons_of_mem _ ho))]

theorem ce_take (l : List Out) (h : ∀ o ∈ l, ∃ t, o = .tensor t) (n : ℕ) : leavesAll (l.take n) = (leavesAll l).take n := by
  induction l generalizing n with
  | nil => simp [leavesAll]
  | cons o l ih =>
    obtain ⟨t, rfl⟩ := h o List.mem_cons_self
    cases n with
    | zero => simp [leavesAll]
    | succ n => simp [leavesAll, leaves, ih (fun o ho => h o (List.mem_cons_of_mem _ ho))]

/-- What the export of a model that returns a tensor, or a tuple of tensors and of tuples of tensors, writes: the configuration of its tensors, from left to right. -/
theorem ce_export (inputs : List ConfTensor) (out : Out) (inT outT : TransArg) (base : List Char) (h : Shallow out) :
    exportFiles inputs out inT outT base = (resolveFlags outT (leaves out).length inputs.length).bind fun fo =>
      (generateConfig inputs ((leaves out).take fo.length) inT outT (String.ofList (files base).model) (String.ofList (files base).tflite)).map fun c => (c, (files base).config) := by
  obtain ⟨h1, h2⟩ := ce_flat out h
  unfold exportFiles
  rw [← h2, ce_len _ h1]
  congr 1
  funext fo
  rw [ce_tensors _ (fun o ho => h1 o (List.mem_of_mem_take ho)), ce_take _ h1]
  rfl

/-- The configuration has an entry for every tensor the model returns, with its type and the flag that was asked for.  Partial: tuples are nested once, and without a list of flags
there are at most as many results as inputs. -/
theorem C168_outputs_partial (inputs : List ConfTensor) (out : Out) (inT outT : TransArg) (base : List Char) (c : ConvConfig) (path : List Char) (h : Shallow out)
    (hout : (∃ l, outT = .many l) ∨ (leaves out).length ≤ inputs.length) (hc : exportFiles inputs out inT outT base = some (c, path)) :
    c.outputs.map Prod.fst = (leaves out).map ConfTensor.dtype ∧ wantedFlags outT (leaves out) (c.outputs.map Prod.snd) ∧
    c.inputs.map Prod.fst = inputs.map ConfTensor.shape ∧ c.srcModel = String.ofList (files base).model ∧ c.dstModel = String.ofList (files base).tflite ∧ path = (files base).config := by
  rw [ce_export _ _ _ _ _ h] at hc
  cases hfo : resolveFlags outT (leaves out).length inputs.length with
  | none => rw [hfo] at hc; cases hc
  | some fo =>
    rw [hfo] at hc
    simp only [Option.bind_some] at hc
    have hle : (leaves out).length ≤ fo.length := by
      rcases hout with ⟨l, rfl⟩ | hle
      · simp only [resolveFlags] at hfo
        split_ifs at hfo with hh
        simp only [not_or, ne_eq, not_not] at hh
        cases hfo
        omega
      · cases outT with
        | none => cases hfo; simpa using hle
        | one b => cases hfo; simpa using hle
        | many l =>
          simp only [resolveFlags] at hfo
          split_ifs at hfo with hh
          simp only [not_or, ne_eq, not_not] at hh
          cases hfo
          omega
        | other => cases hfo
    rw [List.take_of_length_le hle] at hc
    cases hg : generateConfig inputs (leaves out) inT outT (String.ofList (files base).model) (String.ofList (files base).tflite) with
    | none => rw [hg] at hc; cases hc
    | some c' =>
      rw [hg] at hc
      simp only [Option.map_some, Option.some.injEq, Prod.mk.injEq] at hc
      obtain ⟨rfl, rfl⟩ := hc
      unfold generateConfig at hg
      cases hfi : resolveFlags inT inputs.length inputs.length with
      | none => rw [hfi] at hg; cases hg
      | some fi =>
        rw [hfi, hfo] at hg
        simp only [Option.bind_some, Option.map_some, Option.some.injEq] at hg
        have hli := resolve_length inT _ _ fi hfi (Nat.le_refl _)
        have hw : wantedFlags outT (leaves out) (((leaves out).zip fo).map (fun p => flagOf p.1 p.2)) := by
          rcases hout with ⟨l, rfl⟩ | hle'
          · exact resolve_spec _ _ (leaves out).length fo (by simpa [resolveFlags] using hfo) (Nat.le_refl _)
          · exact resolve_spec outT _ inputs.length fo hfo hle'
        rw [← hg]
        refine ⟨?_, by simpa [List.map_map, Function.comp_def] using hw, ?_, rfl, rfl, rfl⟩
        · simp only [List.map_map, Function.comp_def]
          rw [show (fun p : ConfTensor × Option Bool => p.1.dtype) = ConfTensor.dtype ∘ Prod.fst from rfl, ← List.map_map, List.map_fst_zip hle]
        · simp only [List.map_map, Function.comp_def]
          rw [show (fun p : ConfTensor × Option Bool => p.1.shape) = ConfTensor.shape ∘ Prod.fst from rfl, ← List.map_map, List.map_fst_zip hli]

/-- Without a list of flags, a model with more results than inputs loses results: there are as many entries as inputs. -/
theorem C168_outputs_false (inputs : List ConfTensor) (out : Out) (inT outT : TransArg) (base : List Char) (c : ConvConfig) (path : List Char) (h : Shallow out)
    (hout : outT = .none ∨ ∃ b, outT = .one b) (hlt : inputs.length < (leaves out).length) (hc : exportFiles inputs out inT outT base = some (c, path)) :
    c.outputs.length = inputs.length := by
  rw [ce_export _ _ _ _ _ h] at hc
  have : ∃ f, ∀ n, resolveFlags outT n inputs.length = some (List.replicate inputs.length f) := by
    rcases hout with rfl | ⟨b, rfl⟩
    · exact ⟨none, fun _ => rfl⟩
    · exact ⟨some b, fun _ => rfl⟩
  obtain ⟨f, hf⟩ := this
  rw [hf] at hc
  simp only [Option.bind_some, List.length_replicate, generateConfig, hf, Option.map_some] at hc
  cases hfi : resolveFlags inT inputs.length inputs.length with
  | none => rw [hfi] at hc; cases hc
  | some fi =>
    rw [hfi] at hc
    simp only [Option.bind_some, Option.map_some, Option.some.injEq, Prod.mk.injEq] at hc
    rw [← hc.1]
    simp only [List.length_map, List.length_zip, List.length_take, List.length_replicate]
    omega

/-- One input and two results, default flags: the hypotheses hold and a result is lost. -/
example : (exportFiles [⟨[1, 3, 8, 8], "float32"⟩] (.seq [.tensor ⟨[1, 10], "float32"⟩, .tensor ⟨[1, 4], "int64"⟩]) .none .none "/out/net".toList).map
    (fun p => p.1.outputs) = some [("float32", false)] := by decide +kernel

/-- The export succeeds for every such model, if the flags are `None`, one boolean, or as many booleans as there are tensors. -/
theorem C168_accepts (inputs : List ConfTensor) (out : Out) (inT outT : TransArg) (base : List Char) (h : Shallow out)
    (hi : inT = .none ∨ (∃ b, inT = .one b) ∨ ∃ l : List Bool, inT = .many (l.map some) ∧ l.length = inputs.length)
    (ho : outT = .none ∨ (∃ b, outT = .one b) ∨ ∃ l : List Bool, outT = .many (l.map some) ∧ l.length = (leaves out).length) :
    ∃ c path, exportFiles inputs out inT outT base = some (c, path) := by
  rw [ce_export _ _ _ _ _ h]
  have hi' : ∃ fi, resolveFlags inT inputs.length inputs.length = some fi := by
    rcases hi with rfl | ⟨b, rfl⟩ | ⟨l, rfl, hl⟩
    · exact ⟨_, rfl⟩
    · exact ⟨_, rfl⟩
    · exact ⟨l.map some, by simp [resolveFlags, hl]⟩
  obtain ⟨fi, hfi⟩ := hi'
  have hg : ∀ ts : List ConfTensor, (∃ fo, resolveFlags outT ts.length inputs.length = some fo) → ∃ c, generateConfig inputs ts inT outT (String.ofList (files base).model)
      (String.ofList (files base).tflite) = some c := by
    rintro ts ⟨fo, hfo⟩
    unfold generateConfig
    rw [hfi, hfo]
    exact ⟨_, rfl⟩
  have ho' : ∃ fo, resolveFlags outT (leaves out).length inputs.length = some fo ∧ ∃ fo', resolveFlags outT ((leaves out).take fo.length).length inputs.length = some fo' := by
    rcases ho with rfl | ⟨b, rfl⟩ | ⟨l, rfl, hl⟩
    · exact ⟨_, rfl, _, rfl⟩
    · exact ⟨_, rfl, _, rfl⟩
    · exact ⟨l.map some, by simp [resolveFlags, hl], l.map some, by simp [resolveFlags, hl]⟩
  obtain ⟨fo, hfo, hfo'⟩ := ho'
  obtain ⟨c, hc⟩ := hg _ hfo'
  exact ⟨c, (files base).config, by rw [hfo]; simp only [Option.bind_some, hc, Option.map_some]⟩

/-- A model that returns something that is neither a tensor nor a tuple or list, for instance a dict or a named tuple, or a tuple nested twice at a place that is looked at, cannot be exported. -/
theorem C168_nested_false (inputs : List ConfTensor) (out : Out) (inT outT : TransArg) (base : List Char) (i : ℕ) (o : Out) (hi : i < inputs.length)
    (hio : (flattenOnce out)[i]? = some o) (ho : ∀ t, o ≠ .tensor t) : exportFiles inputs out inT outT base = none := by
  unfold exportFiles
  cases hfo : resolveFlags outT (flattenOnce out).length inputs.length with
  | none => rfl
  | some fo =>
    have hlen : i < fo.length := by
      have hil : i < (flattenOnce out).length := (List.getElem?_eq_some_iff.1 hio).1
      cases outT with
      | none => cases hfo; simpa using hi
      | one b => cases hfo; simpa using hi
      | many l =>
        simp only [resolveFlags] at hfo
        split_ifs at hfo with hh
        simp only [not_or, ne_eq, not_not] at hh
        cases hfo
        omega
      | other => cases hfo
    have hm : o ∈ (flattenOnce out).take fo.length := List.mem_of_getElem? (by rw [List.getElem?_take_of_lt hlen]; exact hio)
    have key : ∀ l : List Out, o ∈ l → l.mapM tensorOf = none := by
      intro l
      induction l with
      | nil => intro h; cases h
      | cons p l ih =>
        intro h
        rw [List.mapM_cons]
        rcases List.mem_cons.1 h with rfl | h
        · cases o with
          | tensor t => exact absurd rfl (ho t)
          | seq _ => rfl
          | other => rfl
        · rw [ih h]
          cases tensorOf p <;> rfl
    simp only [Option.bind_some, key _ hm]
    rfl

/-- A dict, and a pair inside of a pair inside of a pair. -/
example : exportFiles [⟨[1, 3], "float32"⟩] .other .none .none "/out/net".toList = none := C168_nested_false _ _ _ _ _ 0 .other (by decide) rfl (by simp)
example : exportFiles [⟨[1, 3], "float32"⟩] (.seq [.seq [.seq [.tensor ⟨[1], "float32"⟩]]]) .none .none "/out/net".toList = none :=
  C168_nested_false _ _ _ _ _ 0 (.seq [.tensor ⟨[1], "float32"⟩]) (by decide) rfl (by simp)

/-- Hypotheses met: a pair of a tensor and a pair, two inputs, a list of flags. -/
example : ∃ c path, exportFiles [⟨[1, 3, 8, 8], "float32"⟩] (.seq [.tensor ⟨[1, 4, 8, 8], "float32"⟩, .seq [.tensor ⟨[1, 2], "float32"⟩, .tensor ⟨[3], "int64"⟩]]) .none
    (.many ([true, false, false].map some)) "/out/net".toList = some (c, path) :=
  C168_accepts _ _ _ _ _ (by simp [Shallow]) (Or.inl rfl) (Or.inr (Or.inr ⟨_, rfl, rfl⟩))

end Verif.Props
