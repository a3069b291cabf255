import Verif.Model.PrunerContext

/-! C170: the items a pruner trains with. -/

namespace Verif.Props
open Verif.Spec.PrunerContext Verif.Model.PrunerContext

variable {V : Type}

theorem pc_first (config : Items V) (key : String) (ps : List String) (c : Items V) (k : String) :
    copyFirst config key ps c k = if k = key then (match firstGiven config ps with
      | some v => some v
      | none => c k) else c k := by
  induction ps with
  | nil => simp [copyFirst, firstGiven]
  | cons p ps ih =>
    simp only [copyFirst, firstGiven]
    cases config p with
    | some v => simp [put]
    | none => exact ih

theorem pc_all (config : Items V) (k : String) : ∀ (table : List (String × List String)) (c : Items V), (table.map Prod.fst).Nodup →
    copyAll config table c k = match table.lookup k with
      | some ps => (match firstGiven config ps with
        | some v => some v
        | none => c k)
      | none => c k
  | [], c, _ => rfl
  | (key, ps) :: t, c, h => by
    rw [List.map_cons, List.nodup_cons] at h
    rw [copyAll, pc_all config k t _ h.2, pc_first, List.lookup_cons]
    by_cases hk : k = key
    · subst hk
      have hl : t.lookup k = none := by
        rw [List.lookup_eq_none_iff]
        intro p hp
        simp only [beq_eq_false_iff_ne, ne_eq, bne_iff_ne]
        intro he
        exact h.1 (List.mem_map.2 ⟨p, hp, he.symm⟩)
      simp [hl]
    · have : (k == key) = false := by simpa using hk
      simp [hk, this]

theorem pc_admm (config context : Items V) (k : String) : copyAll config admmTable context k = wantedItem admmNames config context k := by
  rw [pc_all config k admmTable context (by decide)]
  unfold wantedItem admmTable
  by_cases h1 : k = "optimizer"
  · subst h1; rfl
  · by_cases h2 : k = "criterion"
    · subst h2; rfl
    · have : admmNames k = [] := by
        unfold admmNames
        split <;> simp_all
      rw [this]
      simp [List.lookup_cons, h1, h2, firstGiven, beq_eq_false_iff_ne.2 h1, beq_eq_false_iff_ne.2 h2]

theorem pc_netadapt (config context : Items V) (k : String) : copyAll config netadaptTable context k = wantedItem netadaptNames config context k := by
  rw [pc_all config k netadaptTable context (by decide)]
  unfold wantedItem netadaptTable
  by_cases h1 : k = "optimizer"
  · subst h1; rfl
  · by_cases h2 : k = "criterion"
    · subst h2; rfl
    · have : netadaptNames k = [] := by
        unfold netadaptNames
        split <;> simp_all
      rw [this]
      simp [List.lookup_cons, h1, h2, firstGiven, beq_eq_false_iff_ne.2 h1, beq_eq_false_iff_ne.2 h2]

/-- Both pruners train with the setting of their own name, else with the general setting, else with the item of the context; all other items are those of the context. -/
theorem C170_items (truthy : V → Bool) (config context : Items V) (k : String) :
    (parseContext truthy admmTable required config context).1 k = wantedItem admmNames config context k ∧
    (parseContext truthy netadaptTable required config context).1 k = wantedItem netadaptNames config context k :=
  ⟨pc_admm config context k, pc_netadapt config context k⟩

/-- A context is accepted exactly if every item that is needed is there and is true for Python. -/
theorem C170_accepts_partial (truthy : V → Bool) (config context : Items V) :
    ((parseContext truthy admmTable required config context).2 = true ↔ ∀ k ∈ needed, ∃ v, wantedItem admmNames config context k = some v ∧ truthy v = true) ∧
    ((parseContext truthy netadaptTable required config context).2 = true ↔ ∀ k ∈ needed, ∃ v, wantedItem netadaptNames config context k = some v ∧ truthy v = true) := by
  have key : ∀ (table : List (String × List String)) (w : String → Option V), (∀ k, copyAll config table context k = w k) →
      ((parseContext truthy table required config context).2 = true ↔ ∀ k ∈ needed, ∃ v, w k = some v ∧ truthy v = true) := by
    intro table w hw
    unfold parseContext
    simp only [List.all_eq_true]
    have : required = needed := rfl
    rw [this]
    refine forall_congr' fun k => imp_congr_right fun _ => ?_
    rw [hw]
    cases w k with
    | none => simp
    | some v => simp
  exact ⟨key _ _ (pc_admm config context), key _ _ (pc_netadapt config context)⟩

/-- An item that is there but false for Python, for instance an empty list of batches, is reported as missing. -/
theorem C170_empty_false (truthy : V → Bool) (config context : Items V) (v : V) (hv : truthy v = false) (hc : context "val_loader" = some v) :
    (parseContext truthy admmTable required config context).2 = false := by
  cases h : (parseContext truthy admmTable required config context).2 with
  | false => rfl
  | true =>
    obtain ⟨w, hw, ht⟩ := ((C170_accepts_partial truthy config context).1.1 h) "val_loader" (by decide)
    have : wantedItem admmNames config context "val_loader" = some v := hc
    rw [this] at hw
    cases hw
    rw [hv] at ht
    cases ht

/-- The context handed in is changed: a second pruner made with it, without settings of its own, trains with the items of the first configuration. -/
theorem C170_shared_false (truthy : V → Bool) (config1 config2 context : Items V) (k : String) (v : V)
    (h1 : firstGiven config1 (admmNames k) = some v) (h2 : firstGiven config2 (admmNames k) = none) :
    (parseContext truthy admmTable required config2 (parseContext truthy admmTable required config1 context).1).1 k = some v ∧
    wantedItem admmNames config2 context k = context k := by
  constructor
  · rw [(C170_items truthy config2 _ k).1]
    unfold wantedItem
    rw [h2]
    simp only
    rw [(C170_items truthy config1 context k).1]
    unfold wantedItem
    rw [h1]
  · unfold wantedItem
    rw [h2]

/-- Hypotheses met: an own setting before a general one, a context with all items, and a second pruner that takes over the optimizer of the first. -/
def pcContext : Items Nat := fun k => if k ∈ needed then some 1 else none
def pcSettings : Items Nat := fun k => [("optimizer", 2), ("admm_optimizer", 3)].lookup k

example : (parseContext (· != 0) admmTable required pcSettings pcContext).2 = true ∧ (parseContext (· != 0) admmTable required pcSettings pcContext).1 "optimizer" = some 3 ∧
    (parseContext (· != 0) netadaptTable required pcSettings pcContext).1 "optimizer" = some 2 := by decide +kernel
example : (parseContext (· != 0) admmTable required (fun _ => none) (parseContext (· != 0) admmTable required pcSettings pcContext).1).1 "optimizer" = some 3 :=
  (C170_shared_false (· != 0) pcSettings (fun _ => none) pcContext "optimizer" 3 (by decide +kernel) (by decide +kernel)).1
example : (parseContext (· != 0) admmTable required pcSettings (put pcContext "val_loader" 0)).2 = false := C170_empty_false _ _ _ 0 rfl rfl

end Verif.Props
