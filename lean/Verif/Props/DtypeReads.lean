import Verif.Model.DtypeReads
/-!
C160: types passed to functions in a traced model.
-/

namespace Verif.Props
open Verif.Spec.DtypeReads Verif.Model.DtypeReads

variable {D : Type} [DecidableEq D]

/-- The table holds, for each type, a tensor read before that had it; and it has an entry for the type of every tensor read before. -/
def TypesFrom (traced : Nat → D) (past : List Nat) (s : Table D) : Prop := (∀ d t, s d = some t → t ∈ past ∧ traced t = d) ∧ ∀ t ∈ past, (s (traced t)).isSome

theorem readDtype_from (traced : Nat → D) (past : List Nat) (s : Table D) (t : Nat) (h : TypesFrom traced past s) : TypesFrom traced (t :: past) (readDtype traced s t) := by
  constructor
  · intro d u hu
    unfold readDtype at hu
    by_cases hd : d = traced t
    · simp only [hd, if_true, Option.some.injEq] at hu
      subst hu
      exact ⟨by simp, hd.symm⟩
    · simp only [hd, if_false] at hu
      obtain ⟨h1, h2⟩ := h.1 d u hu
      exact ⟨by simp [h1], h2⟩
  · intro u hu
    unfold readDtype
    by_cases hd : traced u = traced t
    · simp [hd]
    · simp only [hd, if_false]
      rcases List.mem_cons.mp hu with rfl | hu
      · exact absurd rfl hd
      · exact h.2 u hu

theorem arguments_value (traced types : Nat → D) (es : List (Event D)) (past : List Nat) (s : Table D) (h : TypesFrom traced past s) (hw : WellFormed past es)
    (hs : ∀ t, (t ∈ past ∨ Event.read t ∈ es) → ∀ u, Event.use u ∈ es → u.value traced = traced t → u.value types = types t) :
    (arguments traced s es).map (Source.value types) = expected types es := by
  induction es generalizing past s with
  | nil => rfl
  | cons e es ih =>
    cases e with
    | read t =>
      refine ih (t :: past) _ (readDtype_from traced past s t h) hw fun u hu v hv => hs u ?_ v (by simp [hv])
      rcases hu with hu | hu
      · rcases List.mem_cons.mp hu with rfl | hu
        · simp
        · exact Or.inl hu
      · simp [hu]
    | use u =>
      have hw' : WellFormed past es := by
        cases u with
        | named d => exact hw
        | of t => exact hw.2
      have he : (useDtype s (u.value traced)).value types = u.value types := by
        unfold useDtype
        cases hd : s (u.value traced) with
        | some t =>
          obtain ⟨h1, h2⟩ := h.1 _ _ hd
          exact (hs t (Or.inl h1) u (by simp) h2.symm).symm
        | none =>
          cases u with
          | named d => rfl
          | of t =>
            have := h.2 t hw.1
            simp only [Source.value] at hd
            simp [hd] at this
      unfold arguments expected
      rw [List.map_cons, he, ih past s h hw' fun t ht v hv => hs t (by rcases ht with ht | ht <;> simp [ht]) v (by simp [hv])]

/-- The types passed are right for tensors of any types if each type used has, with the present types, the type of every tensor read that had it when traced. -/
theorem C160_types_partial (traced types : Nat → D) (es : List (Event D)) (hw : WellFormed [] es)
    (hs : ∀ t, Event.read t ∈ es → ∀ u, Event.use u ∈ es → u.value traced = traced t → u.value types = types t) : passed traced types es = expected types es :=
  arguments_value traced types es [] _ ⟨fun _ _ h => (by cases h), fun _ h => (by cases h)⟩ hw fun t ht => hs t (by simpa using ht)

/-- With the types when traced, the types passed are right. -/
theorem C160_traced (traced : Nat → D) (es : List (Event D)) (hw : WellFormed [] es) : passed traced traced es = expected traced es :=
  C160_types_partial traced traced es hw fun _ _ _ _ h => h

/-- If no type is read, types named stay what they are. -/
theorem C160_named (traced types : Nat → D) (es : List (Event D)) (hw : WellFormed [] es) (hn : ∀ t, Event.read t ∉ es) : passed traced types es = expected types es :=
  C160_types_partial traced types es hw fun t ht => absurd ht (hn t)

/-- A type named after the type of a tensor was read that had it: the traced graph passes the type of the tensor. -/
theorem C160_named_after (traced types : Nat → D) (t : Nat) : passed traced types [.read t, .use (.named (traced t))] = [types t] := by
  simp [passed, arguments, readDtype, useDtype, Source.value]

/-- `float32` named after reading the type of an input traced with `float32`: with an input in `float16`, `float16` is passed. -/
theorem C160_named_false : ∃ (traced types : Nat → String) (es : List (Event String)), WellFormed [] es ∧ expected types es = ["float32"] ∧ passed traced types es = ["float16"] :=
  ⟨fun _ => "float32", fun _ => "float16", [.read 0, .use (.named "float32")], trivial, by decide +kernel, by decide +kernel⟩

/-- The type of one tensor used after that of another was read: the latter is passed. -/
theorem C160_latest_false : ∃ (traced types : Nat → String) (es : List (Event String)), WellFormed [] es ∧ expected types es = ["float32"] ∧ passed traced types es = ["float16"] :=
  ⟨fun _ => "float32", fun t => if t = 0 then "float32" else "float16", [.read 0, .read 1, .use (.of 0)], ⟨by simp, trivial⟩, by decide +kernel, by decide +kernel⟩

/-- A model with tensors of two types, one of which is given in another type later. -/
example : let traced : Nat → String := fun t => if t = 0 then "float32" else "int64"
    let types : Nat → String := fun t => if t = 0 then "float16" else "int64"
    let es : List (Event String) := [.read 0, .read 1, .use (.of 0), .use (.named "int64"), .use (.named "bool")]
    WellFormed [] es ∧ passed traced types es = ["float16", "int64", "bool"]
      ∧ ∀ t, Event.read t ∈ es → ∀ u, Event.use u ∈ es → u.value traced = traced t → u.value types = types t := by
  refine ⟨⟨by simp, trivial⟩, by decide +kernel, ?_⟩
  intro t ht u hu
  simp only [List.mem_cons, Event.read.injEq, Event.use.injEq, List.not_mem_nil, or_false, reduceCtorEq, false_or] at ht hu
  rcases ht with rfl | rfl <;> rcases hu with rfl | rfl | rfl <;> decide +kernel

end Verif.Props
