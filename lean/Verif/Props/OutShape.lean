import Verif.Model.OutShape

/-!
C152: the generated model returns its results in the form in which the model returned them.
-/

namespace Verif.Props

open Verif.Spec.OutShape Verif.Model.OutShape

namespace OutShape

variable {T : Type}

/-- Tensors and sequences of tensors. -/
def Plain : Item T → Prop
  | .else_ => False
  | _ => True

instance : DecidablePred (Plain (T := T)) := fun x => by cases x <;> unfold Plain <;> infer_instance

/-- Turns a sequence into a list, as the generated code does. -/
def listed : Item T → Item T
  | .seq _ l => .seq .list l
  | x => x

theorem listed_get (x : Item T) (p : List Step) : (listed x).get p = x.get p := by
  cases x with
  | tensor t => rfl
  | else_ => rfl
  | seq k l =>
    cases p with
    | nil => rfl
    | cons s p => cases s <;> cases p <;> rfl

theorem addItem_plain (known : T → Bool) (x : Item T) (hx : Plain x) (hk : ∀ t ∈ x.tensors, known t = true) :
    ∃ n, addItem known x = some [n] ∧ genItem n = listed x := by
  cases x with
  | tensor t =>
    have := hk t (by simp [Item.tensors])
    exact ⟨⟨[t], false⟩, by simp [addItem, addNode, this], by simp [genItem, listed]⟩
  | seq k l =>
    have : l.all known = true := by simpa [Item.tensors] using hk
    exact ⟨⟨l, true⟩, by simp [addItem, addNode, this], by simp [genItem, listed]⟩
  | else_ => exact absurd hx (by simp [Plain])

theorem addAll_plain (known : T → Bool) (l : List (Item T)) (hp : ∀ x ∈ l, Plain x) (hk : ∀ x ∈ l, ∀ t ∈ x.tensors, known t = true) :
    ∃ ns, addAll (addItem known) l = some ns ∧ ns.map genItem = l.map listed := by
  induction l with
  | nil => exact ⟨[], rfl, rfl⟩
  | cons x r ih =>
    obtain ⟨n, hn, hg⟩ := addItem_plain known x (hp x (by simp)) (hk x (by simp))
    obtain ⟨ns, hns, hgs⟩ := ih (fun y hy => hp y (by simp [hy])) (fun y hy => hk y (by simp [hy]))
    exact ⟨n :: ns, by simp [addAll, hn, hns], by simp [hg, hgs]⟩

theorem genReturn_many (ns : List (Node T)) (h : 2 ≤ ns.length) : genReturn ns = .seq .tuple (ns.map genItem) := by
  match ns, h with
  | a :: b :: r, _ => rfl

theorem addNode_tensors (known : T → Bool) (ts : List T) (b : Bool) (n : Node T) (h : addNode known ts b = some n) : n.tensors = ts ∧ n.index = b := by
  unfold addNode at h
  by_cases hk : ts.all known = true
  · rw [if_pos hk] at h
    cases h
    exact ⟨rfl, rfl⟩
  · rw [if_neg hk] at h
    cases h

theorem addItem_whole (known : T → Bool) (x : Item T) (ns : List (Node T)) (h : addItem known x = some ns) :
    ns.flatMap (fun n => (genItem n).tensors) = x.tensors := by
  cases x with
  | tensor t =>
    simp only [addItem, Option.map_eq_some_iff] at h
    obtain ⟨n, hn, rfl⟩ := h
    obtain ⟨h1, h2⟩ := addNode_tensors _ _ _ _ hn
    simp [genItem, h1, h2, Item.tensors]
  | seq k l =>
    simp only [addItem, Option.map_eq_some_iff] at h
    obtain ⟨n, hn, rfl⟩ := h
    obtain ⟨h1, h2⟩ := addNode_tensors _ _ _ _ hn
    simp [genItem, h1, h2, Item.tensors]
  | else_ =>
    simp only [addItem, Option.some.injEq] at h
    subst h
    rfl

theorem addAll_whole (f : Item T → Option (List (Node T))) (l : List (Item T)) (ns : List (Node T))
    (hf : ∀ x ∈ l, ∀ m, f x = some m → m.flatMap (fun n => (genItem n).tensors) = x.tensors) (h : addAll f l = some ns) :
    ns.flatMap (fun n => (genItem n).tensors) = l.flatMap Item.tensors := by
  induction l generalizing ns with
  | nil => simp only [addAll, Option.some.injEq] at h; subst h; rfl
  | cons x r ih =>
    simp only [addAll, Option.bind_eq_some_iff, Option.map_eq_some_iff] at h
    obtain ⟨a, ha, b, hb, rfl⟩ := h
    rw [List.flatMap_append, List.flatMap_cons, hf x (by simp) a ha, ih b (fun y hy => hf y (by simp [hy])) hb]

theorem genReturn_tensors (ns : List (Node T)) : (genReturn ns).tensors = ns.flatMap (fun n => (genItem n).tensors) := by
  match ns with
  | [] => rfl
  | [n] =>
    cases hg : genItem n with
    | tensor t => simp [genReturn, hg, alone, Out.tensors, Item.tensors]
    | seq k l =>
      simp only [genReturn, hg, alone, Out.tensors, Item.tensors, List.flatMap_cons, List.flatMap_nil, List.append_nil]
      rw [List.flatMap_map]
      clear hg
      induction l with
      | nil => rfl
      | cons t r ih => rw [List.flatMap_cons, ih]; rfl
    | else_ => simp [genReturn, hg, alone, Out.tensors, Item.tensors]
  | a :: b :: r => simp [genReturn, Out.tensors, List.flatMap_map]

end OutShape

open OutShape

/-- **C152 (restricted).** A model that returns a tensor, or at least two results each of which is a tensor or a sequence of tensors, is replaced by one from which a caller gets the same tensors by the same steps, provided the tensors are results of recorded calls. -/
theorem C152_results_partial {T : Type} (known : T → Bool) (o : Out T)
    (h : (∃ t, o = .tensor t) ∨ ∃ k l, o = .seq k l ∧ 2 ≤ l.length ∧ ∀ x ∈ l, x ≠ .else_)
    (hk : ∀ t ∈ o.tensors, known t = true) :
    ∃ o', regenerate known o = some o' ∧ SameResults o o' := by
  rcases h with ⟨t, rfl⟩ | ⟨k, l, rfl, h2, hp⟩
  · have := hk t (by simp [Out.tensors])
    exact ⟨.tensor t, by simp [regenerate, modelTracer, addNode, this, genReturn, genItem, alone], fun _ => rfl⟩
  · obtain ⟨ns, hns, hg⟩ := addAll_plain known l (fun x hx => by
      cases hc : x with
      | else_ => exact absurd hc (hp x hx)
      | tensor t => trivial
      | seq k l => trivial) (fun x hx t ht => hk t (by simp only [Out.tensors, List.mem_flatMap]; exact ⟨x, hx, ht⟩))
    have hl : ns.length = l.length := by
      have := congrArg List.length hg
      simpa using this
    refine ⟨.seq .tuple (l.map listed), ?_, fun p => ?_⟩
    · simp only [regenerate, modelTracer, hns, Option.map_some]
      rw [genReturn_many ns (by omega), hg]
    · cases p with
      | nil => rfl
      | cons s p =>
        cases s with
        | pos i =>
          simp only [Out.get, List.getElem?_map]
          cases hi : l[i]? with
          | none => rfl
          | some x => simp [listed_get]
        | key s => rfl
        | attr s => rfl

/-- The hypotheses hold for a model that returns a tensor and a list of two, and for the tensor alone. -/
example : (∀ t ∈ (Out.seq .tuple [Item.tensor 1, Item.seq .list [2, 3]]).tensors, (fun n : Nat => decide (n < 5)) t = true)
    ∧ 2 ≤ [Item.tensor 1, Item.seq .list [2, 3]].length ∧ (∀ x ∈ [Item.tensor 1, Item.seq .list [2, 3]], x ≠ .else_)
    ∧ regenerate (fun n : Nat => decide (n < 5)) (.seq .list [Item.tensor 1, Item.seq .derived [2, 3]]) = some (.seq .tuple [.tensor 1, .seq .list [2, 3]]) := by decide +kernel

/-- **C152 (no tensor lost).** Whatever a model returns in a tensor, a sequence or a dictionary: if tracing succeeds, the generated model returns the same tensors in the same order, except those in deeper containers. -/
theorem C152_tensors {T : Type} (known : T → Bool) (o o' : Out T) (ho : ∀ l, o ≠ .object l) (h : regenerate known o = some o') :
    o'.tensors = o.tensors := by
  simp only [regenerate, Option.map_eq_some_iff] at h
  obtain ⟨ns, hns, rfl⟩ := h
  rw [genReturn_tensors]
  cases o with
  | tensor t =>
    simp only [modelTracer] at hns
    exact addItem_whole known (.tensor t) ns hns
  | seq k l => exact addAll_whole _ l ns (fun x _ m hm => addItem_whole known x m hm) hns
  | dict l =>
    have := addAll_whole _ _ ns (fun x _ m hm => addItem_whole known x m hm) hns
    rw [this, List.flatMap_map]
    rfl
  | object l => exact absurd rfl (ho l)
  | none => simp only [modelTracer, Option.some.injEq] at hns; subst hns; rfl

example : regenerate (fun _ : Nat => true) (.dict [("boxes", .tensor 1), ("n", .else_), ("scores", .seq .tuple [2, 3])]) = some (.seq .tuple [.tensor 1, .seq .list [2, 3]]) := by decide +kernel

/-- **C152 (tracing fails exactly for tensors that were not recorded).** -/
theorem C152_fails {T : Type} (known : T → Bool) (o : Out T) (ho : ∀ l, o ≠ .object l) :
    regenerate known o = none ↔ ∃ t ∈ o.tensors, known t = false := by
  have item : ∀ x : Item T, addItem known x = none ↔ ∃ t ∈ x.tensors, known t = false := by
    intro x
    cases x with
    | tensor t => simp [addItem, addNode, Item.tensors]
    | seq k l => simp [addItem, addNode, Item.tensors]
    | else_ => simp [addItem, Item.tensors]
  have all : ∀ l : List (Item T), addAll (addItem known) l = none ↔ ∃ t ∈ l.flatMap Item.tensors, known t = false := by
    intro l
    induction l with
    | nil => simp [addAll]
    | cons x r ih =>
      rw [List.flatMap_cons]
      simp only [List.mem_append, or_and_right, exists_or]
      rw [← item x, ← ih]
      cases hx : addItem known x with
      | none => simp [addAll, hx]
      | some a => simp [addAll, hx]
  cases o with
  | tensor t => simpa [regenerate, modelTracer, Out.tensors, addItem, Item.tensors] using item (.tensor t)
  | seq k l => simpa [regenerate, modelTracer, Out.tensors] using all l
  | dict l =>
    have := all (l.map Prod.snd)
    rw [List.flatMap_map] at this
    simpa only [regenerate, modelTracer, Out.tensors, Option.map_eq_none_iff] using this
  | object l => exact absurd rfl (ho l)
  | none => simp [regenerate, modelTracer, Out.tensors]

/-- **C152 fails for a single result in a tuple.** A model that returns `(x,)` becomes one that returns `x`: what a caller takes out by `r[0]` is the first row of the result. -/
theorem C152_single_false : ∃ (known : Nat → Bool) (o o' : Out Nat), (∀ t ∈ o.tensors, known t = true) ∧ regenerate known o = some o'
    ∧ o.get [.pos 0] = some 1 ∧ o'.get [.pos 0] = none := by
  exact ⟨fun _ => true, .seq .tuple [.tensor 1], .tensor 1, by decide, by decide, by decide, by decide⟩

/-- **C152 fails for dictionaries.** The names of the results are lost. -/
theorem C152_dict_false : ∃ (known : Nat → Bool) (o o' : Out Nat), (∀ t ∈ o.tensors, known t = true) ∧ regenerate known o = some o'
    ∧ o.get [.key "logits"] = some 1 ∧ ∀ s, o'.get [.key s] = none := by
  exact ⟨fun _ => true, .dict [("logits", .tensor 1), ("aux", .tensor 2)], .seq .tuple [.tensor 1, .tensor 2], by decide, by decide, by decide, fun _ => rfl⟩

/-- **C152 fails next to a result that is no tensor.** A model that returns `(None, x, y)` becomes one that returns `(x, y)`: a caller gets another tensor by the same steps. -/
theorem C152_shift_false : ∃ (known : Nat → Bool) (o o' : Out Nat), (∀ t ∈ o.tensors, known t = true) ∧ regenerate known o = some o'
    ∧ o.get [.pos 1] = some 1 ∧ o'.get [.pos 1] = some 2 := by
  exact ⟨fun _ => true, .seq .tuple [.else_, .tensor 1, .tensor 2], .seq .tuple [.tensor 1, .tensor 2], by decide, by decide, by decide, by decide⟩

end Verif.Props
