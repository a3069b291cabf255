import Verif.Model.LstmStates
import Mathlib.Data.List.Nodup
import Mathlib.Data.List.Basic
import Mathlib.Data.List.GetD
/-!
C155: `parse_lstm_states` gives the states of the LSTM layers.
-/

namespace Verif.Props
namespace LstmStates
open Verif.Spec.LstmStates Verif.Model.LstmStates

/-- Other operators are not LSTM operators. -/
def Plain : Part → Prop
  | .lstm .. => True
  | .other op => op.code ≠ 44 ∧ op.code ≠ 52

/-- The states a user expects of a part. -/
def wanted : Part → List T
  | .lstm m l bidir => statesOf m l bidir
  | .other _ => []

/-- The variables an LSTM operator reads. -/
def varsOf (o : Op) : List T := if o.code = 52 ∨ o.code = 44 then o.inputs.filterMap fun i => i.filter isVariable else []

theorem layer_vars (mapBi : Bool) (m l : Nat) (bidir : Bool) : (layerOps mapBi m l bidir).flatMap varsOf = statesOf m l bidir := by
  cases mapBi <;> cases bidir <;>
    simp [layerOps, layerInputs, inputHelper, varsOf, statesOf, isVariable, bidirectionalSequenceLstm, unidirectionalSequenceLstm, reverseV2, concatenation, List.range, List.range.loop, List.replicate, Option.filter]

theorem ops_vars (mapBi : Bool) (ps : List Part) (hp : ∀ p ∈ ps, Plain p) : (opsOf mapBi ps).flatMap varsOf = ps.flatMap wanted := by
  induction ps with
  | nil => rfl
  | cons p ps ih =>
    have ih' := ih fun q hq => hp q (List.mem_cons_of_mem _ hq)
    cases p with
    | lstm m l bidir => rw [opsOf, List.flatMap_append, layer_vars, ih', List.flatMap_cons]; rfl
    | other op =>
      have h := hp _ (List.mem_cons_self ..)
      simp only [Plain] at h
      rw [opsOf, List.flatMap_cons, ih', List.flatMap_cons]
      simp [varsOf, wanted, h.1, h.2]

theorem written_vars (labels : List T) (inputs : List (Option T)) (hl : ∀ t, some t ∈ inputs → t ∈ labels) :
    (inputs.map fun i => match i with | none => (-1 : Int) | some t => (labels.idxOf t : Int)).filter (fun i => if i < 0 then false else (labels.map isVariable).getD i.toNat false) =
      (inputs.filterMap fun i => i.filter isVariable).map fun t => (labels.idxOf t : Int) := by
  induction inputs with
  | nil => rfl
  | cons i inputs ih =>
    have ih' := ih fun t ht => hl t (List.mem_cons_of_mem _ ht)
    cases i with
    | none =>
      rw [List.map_cons, List.filter_cons, if_neg (by simp), ih']
      rfl
    | some t =>
      have ht := hl t (List.mem_cons_self ..)
      have hv : (labels.map isVariable).getD (labels.idxOf t) false = isVariable t := by
        have hlt := List.idxOf_lt_length_of_mem ht
        rw [List.getD_eq_getElem _ _ (by simpa using hlt), List.getElem_map, List.getElem_idxOf]
      have hneg : ¬ ((labels.idxOf t : Nat) : Int) < 0 := by omega
      rw [List.map_cons, List.filter_cons]
      simp only [hneg, if_false, Int.toNat_natCast, hv]
      by_cases h : isVariable t = true
      · rw [if_pos h, List.filterMap_cons_some (b := t) (by simp [Option.filter, h]), List.map_cons, ih']
      · rw [if_neg h, List.filterMap_cons_none (by simp [Option.filter, h]), ih']

theorem parse_write (labels : List T) (ops : List Op) (hl : ∀ o ∈ ops, ∀ t, some t ∈ o.inputs → t ∈ labels) :
    parseLstmStates (write labels ops) = (ops.flatMap varsOf).map fun t => (labels.idxOf t : Int) := by
  unfold parseLstmStates write
  rw [List.flatMap_map, List.map_flatMap]
  apply List.flatMap_congr
  intro o ho
  have hcode : (deprecatedCode o.code = bidirectionalSequenceLstm ∨ deprecatedCode o.code = unidirectionalSequenceLstm) ↔ (o.code = 52 ∨ o.code = 44) := by
    unfold deprecatedCode bidirectionalSequenceLstm unidirectionalSequenceLstm
    omega
  by_cases h : o.code = 52 ∨ o.code = 44
  · simp only [varsOf]
    rw [if_pos (hcode.mpr h), if_pos h]
    exact written_vars labels o.inputs (hl o ho)
  · simp only [varsOf]
    rw [if_neg (mt hcode.mp h), if_neg h]
    rfl

/-- A model of a bidirectional LSTM with two layers, an operator with a variable of its own, and another LSTM. -/
def demoParts : List Part := [.lstm 0 0 true, .lstm 0 1 true, .other ⟨9, [some (.other 0 true), none]⟩, .lstm 1 0 false]

/-- Its tensors. -/
def demoLabels : List T := ((opsOf true demoParts).flatMap (·.inputs)).reduceOption.eraseDups

end LstmStates

open Verif.Spec.LstmStates Verif.Model.LstmStates LstmStates

/-- **C155.** For every model with any number of LSTM layers, with one or two directions, fused or written as two operators, any other operators and any numbering of the tensors: `parse_lstm_states` gives
the indices of the states, operator by operator, forwards before backwards, hidden state before cell state. -/
theorem C155_states (mapBi : Bool) (parts : List Part) (hp : ∀ p ∈ parts, match p with | .lstm .. => True | .other op => op.code ≠ 44 ∧ op.code ≠ 52) (labels : List T)
    (hl : ∀ o ∈ opsOf mapBi parts, ∀ t, some t ∈ o.inputs → t ∈ labels) :
    parseLstmStates (write labels (opsOf mapBi parts)) = (parts.flatMap fun p => match p with | .lstm m l bidir => statesOf m l bidir | .other _ => []).map fun t => (labels.idxOf t : Int) := by
  rw [parse_write labels _ hl, ops_vars mapBi parts (fun p h => by have := hp p h; cases p <;> exact this)]
  rfl

/-- **C155, as a set.** An index is given if and only if it is that of a state of one of the layers; and none is given twice, if no layer occurs twice. -/
theorem C155_exactly (mapBi : Bool) (parts : List Part) (hp : ∀ p ∈ parts, match p with | .lstm .. => True | .other op => op.code ≠ 44 ∧ op.code ≠ 52) (labels : List T)
    (hl : ∀ o ∈ opsOf mapBi parts, ∀ t, some t ∈ o.inputs → t ∈ labels) :
    (∀ i, i ∈ parseLstmStates (write labels (opsOf mapBi parts)) ↔
      ∃ m l bidir back cell, Part.lstm m l bidir ∈ parts ∧ (back = true → bidir = true) ∧ i = (labels.idxOf (T.state m l back cell) : Int)) ∧
    ((parts.filterMap fun p => match p with | .lstm m l _ => some (m, l) | .other _ => none).Nodup → (parseLstmStates (write labels (opsOf mapBi parts))).Nodup) := by
  have hmem : ∀ t, t ∈ parts.flatMap wanted ↔ ∃ m l bidir back cell, Part.lstm m l bidir ∈ parts ∧ (back = true → bidir = true) ∧ t = T.state m l back cell := by
    intro t
    rw [List.mem_flatMap]
    constructor
    · rintro ⟨p, hp, ht⟩
      cases p with
      | other _ => simp [wanted] at ht
      | lstm m l bidir =>
        cases bidir
        · simp [wanted, statesOf] at ht
          rcases ht with rfl | rfl
          · exact ⟨m, l, false, false, false, hp, by simp, rfl⟩
          · exact ⟨m, l, false, false, true, hp, by simp, rfl⟩
        · simp [wanted, statesOf] at ht
          rcases ht with rfl | rfl | rfl | rfl
          · exact ⟨m, l, true, false, false, hp, by simp, rfl⟩
          · exact ⟨m, l, true, false, true, hp, by simp, rfl⟩
          · exact ⟨m, l, true, true, false, hp, by simp, rfl⟩
          · exact ⟨m, l, true, true, true, hp, by simp, rfl⟩
    · rintro ⟨m, l, bidir, back, cell, hp, hb, rfl⟩
      refine ⟨_, hp, ?_⟩
      cases bidir <;> cases back <;> cases cell <;> simp [wanted, statesOf] at hb ⊢
  have hpl : ∀ p ∈ parts, Plain p := fun p h => by have := hp p h; cases p <;> exact this
  have hin : ∀ t ∈ parts.flatMap wanted, t ∈ labels := by
    intro t ht
    rw [← ops_vars mapBi parts hpl, List.mem_flatMap] at ht
    obtain ⟨o, ho, ht⟩ := ht
    unfold varsOf at ht
    by_cases h : o.code = 52 ∨ o.code = 44
    · rw [if_pos h, List.mem_filterMap] at ht
      obtain ⟨i, hi, hf⟩ := ht
      cases i with
      | none => simp at hf
      | some u =>
        have : u = t := by
          simp [Option.filter] at hf
          exact hf.2
        exact hl o ho t (this ▸ hi)
    · rw [if_neg h] at ht
      simp at ht
  rw [parse_write labels _ hl, ops_vars mapBi parts hpl]
  constructor
  · intro i
    rw [List.mem_map]
    constructor
    · rintro ⟨t, ht, rfl⟩
      obtain ⟨m, l, bidir, back, cell, h1, h2, rfl⟩ := (hmem t).mp ht
      exact ⟨m, l, bidir, back, cell, h1, h2, rfl⟩
    · rintro ⟨m, l, bidir, back, cell, h1, h2, rfl⟩
      exact ⟨_, (hmem _).mpr ⟨m, l, bidir, back, cell, h1, h2, rfl⟩, rfl⟩
  · intro hnd
    refine List.Nodup.map_on ?_ ?_
    · intro a ha b _ hab
      exact (List.idxOf_inj (hin a ha)).mp (by exact_mod_cast hab)
    · clear hmem hpl hin hp hl
      induction parts with
      | nil => simp
      | cons p ps ih =>
        rw [List.flatMap_cons]
        cases p with
        | other op => exact ih hnd
        | lstm m l bidir =>
          have hnd := List.nodup_cons.mp (show ((m, l) :: ps.filterMap fun p => match p with | .lstm m l _ => some (m, l) | .other _ => none).Nodup from hnd)
          refine List.Nodup.append ?_ (ih hnd.2) ?_
          · cases bidir <;> simp [wanted, statesOf]
          · intro t ht1 ht2
            apply hnd.1
            rw [List.mem_flatMap] at ht2
            obtain ⟨q, hq, ht2⟩ := ht2
            cases q with
            | other _ => simp [wanted] at ht2
            | lstm m' l' bidir' =>
              have hs : ∀ m l bidir, t ∈ wanted (.lstm m l bidir) → ∃ back cell, t = T.state m l back cell := by
                intro m l bidir h
                cases bidir
                · simp [wanted, statesOf] at h
                  rcases h with h | h <;> exact ⟨_, _, h⟩
                · simp [wanted, statesOf] at h
                  rcases h with h | h | h | h <;> exact ⟨_, _, h⟩
              obtain ⟨b1, c1, e1⟩ := hs m l bidir ht1
              obtain ⟨b2, c2, e2⟩ := hs m' l' bidir' ht2
              rw [e1] at e2
              cases e2
              exact List.mem_filterMap.mpr ⟨_, hq, rfl⟩

/-- The hypotheses hold for two LSTMs, one of them with two layers and two directions, beside an operator with a variable of its own: ten states are found. -/
example : (∀ p ∈ demoParts, match p with | .lstm .. => True | .other op => op.code ≠ 44 ∧ op.code ≠ 52) ∧ (∀ o ∈ opsOf true demoParts, ∀ t, some t ∈ o.inputs → t ∈ demoLabels) ∧
    (parseLstmStates (write demoLabels (opsOf true demoParts))).length = 10 := by
  refine ⟨?_, ?_, by decide +kernel⟩
  · intro p hp
    simp [demoParts] at hp
    rcases hp with rfl | rfl | rfl | rfl <;> simp
  · have : ∀ o ∈ opsOf true demoParts, ∀ i ∈ o.inputs, i = none ∨ ∃ t ∈ demoLabels, i = some t := by decide +kernel
    intro o ho t ht
    rcases this o ho _ ht with h | ⟨u, hu, h⟩
    · cases h
    · cases h; exact hu

end Verif.Props
