import Verif.Model.ConvInputs

/-!
C165: the sample inputs reach the inputs of the converted model, and what a conversion does to the model it is given.
-/

namespace Verif.Props
open Verif.Spec Verif.Spec.ConvInputs Verif.Model.ConvInputs

variable {α : Type}

theorem ci_leavesAll_append (a b : List (Arg (Tensor α))) : leavesAll (a ++ b) = leavesAll a ++ leavesAll b := by
  induction a with
  | nil => simp [leavesAll]
  | cons x a ih => simp only [List.cons_append, leavesAll, ih, List.append_assoc]

theorem ci_leaves_ones : ∀ l : List (Arg (Tensor α)), (∀ a ∈ l, ∃ t, a = .one t) → (leavesAll l).map Arg.one = l
  | [], _ => rfl
  | a :: l, h => by
    obtain ⟨t, rfl⟩ := h a List.mem_cons_self
    simp only [leavesAll, Arg.leaves, List.singleton_append, List.map_cons, List.cons.injEq, true_and]
    exact ci_leaves_ones l fun b hb => h b (List.mem_cons_of_mem _ hb)

/-- One level is opened: the list is that of all tensors. -/
theorem ci_flatten : ∀ args : List (Arg (Tensor α)), (∀ a ∈ args, a.Shallow) → flatten args = (leavesAll args).map Arg.one
  | [], _ => rfl
  | a :: args, h => by
    have ih := ci_flatten args fun b hb => h b (List.mem_cons_of_mem _ hb)
    unfold flatten at ih ⊢
    rw [List.flatMap_cons, ih]
    have ha := h a List.mem_cons_self
    cases a with
    | one t => rfl
    | many l =>
      simp only [opened, leavesAll, Arg.leaves, List.map_append, List.append_cancel_right_eq]
      exact (ci_leaves_ones l ha).symm

/-- The inputs of the graph are the tensors of the sample inputs in their order, each under its name.
Missing from the full statement: lists in lists, see `C165_nested_false`. -/
theorem C165_inputs_partial (names : List String) (c : Conv α) (hc : c.nodes = []) (hs : ∀ a ∈ c.args, a.Shallow) (hl : names.length = (leavesAll c.args).length)
    (he : (start names c).2 = none) :
    (start names c).1.nodes.map Prod.fst = names ∧ (start names c).1.nodes.map Prod.snd = (leavesAll c.args).map Arg.one := by
  have hf := ci_flatten c.args hs
  unfold start at he ⊢
  simp only at he ⊢
  cases hi : Verif.Model.IoLayout.inputFlags c.flagArg ((flatten c.args).map isFour) with
  | none => rw [hi] at he; simp at he
  | some fl =>
    rw [hi] at he
    simp only at he ⊢
    by_cases h1 : (!ready (traced c.own)) = true
    · rw [if_pos h1] at he; simp at he
    · rw [if_neg h1] at he ⊢
      by_cases h2 : (flatten c.args).length < names.length
      · rw [if_pos h2] at he; simp at he
      · rw [if_neg h2] at he ⊢
        rw [hc] at he ⊢
        simp only [List.map_nil, List.contains_nil, List.any_eq_true, Bool.false_eq_true, and_false, exists_false, if_false, List.nil_append]
        rw [hf]
        exact ⟨by rw [List.map_fst_zip (by simp [hl])], by rw [List.map_snd_zip (by simp [hl])]⟩

/-- A fresh converter gets that far, with the flags that were asked for, if there is a flag for every tensor (for a tuple: none of them missing) and a scripted model is in
evaluation mode. -/
theorem C165_starts (names : List String) (user : Handed) (input : Arg (Tensor α)) (nchw : Bool) (fa : Verif.Spec.IoLayout.Arg)
    (hs : ∀ a ∈ (new user input nchw fa).args, a.Shallow) (hl : names.length = (leavesAll (new user input nchw fa).args).length)
    (hflag : EnoughFlags names.length fa)
    (hu : user ≠ .script true) :
    (start names (new user input nchw fa)).2 = none ∧
    ∃ fl, (start names (new user input nchw fa)).1.flags = some fl ∧ fl.length = names.length ∧
      ∀ (i : ℕ) (t : Tensor α), (leavesAll (new user input nchw fa).args)[i]? = some t → fl[i]? = some (nchw && fa.wants i (t.shape.length == 4)) := by
  have hf := ci_flatten _ hs
  generalize hargs : (new user input nchw fa).args = args at hs hl hf
  have hrd : ready (traced user) = true := by
    cases user with
    | module _ _ => rfl
    | wrapped _ _ => rfl
    | function => rfl
    | script t => cases t <;> first | rfl | exact absurd rfl hu
  have hfl : ∃ fl, Verif.Model.IoLayout.inputFlags (new user input nchw fa).flagArg ((flatten args).map isFour) = some fl ∧ fl.length = names.length ∧
      ∀ (i : ℕ) (t : Tensor α), (leavesAll args)[i]? = some t → fl[i]? = some (nchw && fa.wants i (t.shape.length == 4)) := by
    have hlen : ((flatten args).map isFour).length = names.length := by rw [hf]; simp [hl]
    have hget : ∀ (i : ℕ) (t : Tensor α), (leavesAll args)[i]? = some t → ((flatten args).map isFour)[i]? = some (t.shape.length == 4) := by
      intro i t ht
      rw [hf, List.map_map, List.getElem?_map, ht]; rfl
    generalize (flatten args).map isFour = fours at hlen hget
    cases nchw with
    | false =>
      refine ⟨fours.map fun _ => false, rfl, by simp [hlen], fun i t ht => ?_⟩
      rw [List.getElem?_map, hget i t ht]; rfl
    | true =>
      have hz : ∀ (l : List (Option Bool)), names.length ≤ l.length → ∀ (i : ℕ) (t : Tensor α), (leavesAll args)[i]? = some t →
          ((fours.zip l).map fun p => p.2.getD p.1)[i]? = some (((l[i]?).getD none).getD (t.shape.length == 4)) := by
        intro l hll i t ht
        have hi : i < l.length := by
          have := (List.getElem?_eq_some_iff.1 ht).1
          omega
        rw [List.getElem?_map, List.getElem?_zip_eq_some (z := (t.shape.length == 4, l[i])) |>.2 ⟨hget i t ht, List.getElem?_eq_getElem hi⟩, List.getElem?_eq_getElem hi]
        rfl
      cases fa with
      | one b => exact ⟨fours.map fun four => b.getD four, rfl, by simp [hlen], fun i t ht => by rw [List.getElem?_map, hget i t ht]; rfl⟩
      | list l =>
        refine ⟨(fours.zip l).map fun p => p.2.getD p.1, ?_, ?_, hz l hflag⟩
        · show (if fours.length ≤ l.length then _ else _) = _
          rw [if_pos (by rw [hlen]; exact hflag)]
        · rw [List.length_map, List.length_zip, hlen, Nat.min_eq_left hflag]
      | tuple l =>
        refine ⟨(fours.zip l).map fun p => p.2.getD p.1, ?_, ?_, hz l hflag.1⟩
        · show (if fours.length ≤ l.length ∧ ((l.take fours.length).all fun b => b.isSome) = true then _ else _) = _
          rw [if_pos ⟨by rw [hlen]; exact hflag.1, List.all_eq_true.2 fun b hb => hflag.2 b (List.mem_of_mem_take hb)⟩]
        · rw [List.length_map, List.length_zip, hlen, Nat.min_eq_left hflag.1]
  obtain ⟨fl, h1, h2, h3⟩ := hfl
  have hown : (new user input nchw fa).own = user := rfl
  have hlt : ¬ (flatten args).length < names.length := by rw [hf, List.length_map, hl]; omega
  have hst : start names (new user input nchw fa) = ({ new user input nchw fa with flags := some fl, user := touched user, own := traced user, nodes := [] ++ names.zip (flatten args) }, none) := by
    unfold start
    simp only [hargs, h1, hown, hrd, Bool.not_true, Bool.false_eq_true, if_false, if_neg hlt]
    simp only [new, List.map_nil, List.contains_nil, List.any_eq_true, Bool.false_eq_true, and_false, exists_false, if_false]
  rw [hst]
  exact ⟨rfl, fl, rfl, h2, h3⟩

/-- Too few tensors are found when lists are nested: the conversion stops. -/
theorem C165_nested (names : List String) (c : Conv α) (h : (flatten c.args).length < names.length) : (start names c).2 ≠ none := by
  unfold start
  simp only
  cases Verif.Model.IoLayout.inputFlags c.flagArg ((flatten c.args).map isFour) with
  | none => simp
  | some fl =>
    simp only
    by_cases h1 : (!ready (traced c.own)) = true
    · rw [if_pos h1]; simp
    · rw [if_neg h1, if_pos h]; simp

/-- A model that takes `[[a, b], c]` as its argument cannot be converted. -/
theorem C165_nested_false (a b d : Tensor α) : ∃ c : Conv α, c = new (.module false true) (.many [.many [.many [.one a, .one b], .one d]]) true (.one none) ∧
    (leavesAll c.args) = [a, b, d] ∧ (start ["x", "y", "z"] c).2 = some "list index out of range" :=
  ⟨_, rfl, rfl, rfl⟩

/-! ### Arrays for the converted model -/

theorem ci_arrays : ∀ (ts : List (Tensor α)) (fl : List Bool), fl.length = ts.length → (∀ p ∈ ts.zip fl, p.2 = true → p.1.shape.length = 4) →
    (((ts.map Arg.one).zip fl).mapM fun p => array p.1 p.2) = some ((ts.zip fl).map fun p => fed p.2 p.1)
  | [], [], _, _ => rfl
  | t :: ts, f :: fl, hl, h => by
    have ih := ci_arrays ts fl (by simpa using hl) fun p hp => h p (by simp only [List.zip_cons_cons]; exact List.mem_cons_of_mem _ hp)
    have ht : array (.one t) f = some (fed f t) := by
      cases f with
      | false => rfl
      | true =>
        have := h (t, true) (by simp) rfl
        simp [array, fed, this]
    simp only [List.map_cons, List.zip_cons_cons, List.mapM_cons, ht, ih, Option.bind_eq_bind, Option.bind_some]
    rfl

/-- After the conversion `inputs_for_tflite` gives one array per sample input, channels last where that was asked for.
Missing from the full statement: lists among the sample inputs, see `C165_list_false`, and the time before the conversion, see `C165_before_false`. -/
theorem C165_arrays_partial (c : Conv α) (ts : List (Tensor α)) (fl : List Bool) (ha : c.args = ts.map Arg.one) (hf : c.flags = some fl) (hl : fl.length = ts.length)
    (h4 : ∀ p ∈ ts.zip fl, p.2 = true → p.1.shape.length = 4) : inputsForTflite c = some ((ts.zip fl).map fun p => fed p.2 p.1) := by
  unfold inputsForTflite
  rw [hf, ha]
  exact ci_arrays ts fl hl h4

/-- Hypotheses met: an image and a vector. -/
example (a b : Tensor α) (ha : a.shape = [1, 3, 8, 8]) (hb : b.shape = [1, 5]) :
    (start ["x", "y"] (new (.module true false) (.many [.one a, .one b]) true (.one none))).2 = none ∧
    inputsForTflite (start ["x", "y"] (new (.module true false) (.many [.one a, .one b]) true (.one none))).1 = some [transpose [0, 2, 3, 1] a, b] := by
  constructor
  · rfl
  · have h1 : isFour (.one a) = true := by simp [isFour, ha]
    have h2 : isFour (.one b) = false := by simp [isFour, hb]
    have : (start ["x", "y"] (new (.module true false) (.many [.one a, .one b]) true (.one none))).1.flags = some [isFour (.one a), isFour (.one b)] := rfl
    rw [h1, h2] at this
    rw [C165_arrays_partial _ [a, b] [true, false] rfl this rfl (by simp [ha])]
    rfl

/-- A model that takes a list of tensors is converted, but its arrays cannot be had. -/
theorem C165_list_false (a : Tensor α) : ∃ c : Conv α, c = new (.module false true) (.many [.many [.one a]]) true (.one none) ∧ (start ["x"] c).2 = none ∧
    inputsForTflite (start ["x"] c).1 = none :=
  ⟨_, rfl, rfl, by
    unfold inputsForTflite
    have : (start ["x"] (new (.module false true) (.many [.many [.one a]]) true (.one none))).1.flags = some [isFour (.one a)] := rfl
    rw [this]
    rfl⟩

/-- Before the conversion they cannot be had either, unless a list of flags was given. -/
theorem C165_before_false (user : Handed) (input : Arg (Tensor α)) (nchw : Bool) (b : Option Bool) : inputsForTflite (new user input nchw (.one b)) = none := by
  cases nchw <;> rfl

/-! ### The model that is handed in -/

/-- What happens to the caller's model, however the conversion ends: nothing if the flags are wrong; else a module, wrapped or not, is put into evaluation mode and on the CPU, and a
scripted model is left alone. -/
theorem C165_model (names : List String) (c : Conv α) :
    (start names c).1.user = c.user ∨ ∃ t cpu, (c.user = .module t cpu ∧ (start names c).1.user = .module false true) ∨ (c.user = .wrapped t cpu ∧ (start names c).1.user = .wrapped false true) := by
  have key : (start names c).1.user = c.user ∨ (start names c).1.user = touched c.user := by
    unfold start
    simp only
    cases Verif.Model.IoLayout.inputFlags c.flagArg ((flatten c.args).map isFour) with
    | none => left; rfl
    | some fl =>
      right
      simp only
      by_cases h1 : (!ready (traced c.own)) = true
      · rw [if_pos h1]
      · rw [if_neg h1]
        by_cases h2 : (flatten c.args).length < names.length
        · rw [if_pos h2]
        · rw [if_neg h2]
          by_cases h3 : (names.any fun n => (c.nodes.map Prod.fst).contains n) = true
          · rw [if_pos h3]
          · rw [if_neg h3]
  rcases key with h | h
  · exact Or.inl h
  · rw [h]
    cases c.user with
    | module t cpu => exact Or.inr ⟨t, cpu, Or.inl ⟨rfl, rfl⟩⟩
    | wrapped t cpu => exact Or.inr ⟨t, cpu, Or.inr ⟨rfl, rfl⟩⟩
    | script t => exact Or.inl rfl
    | function => exact Or.inl rfl

/-- A model in training mode on a GPU comes back in evaluation mode on the CPU, after a conversion that succeeds and after one that fails. -/
theorem C165_model_false (a : Tensor α) : ∃ c : Conv α, c.user = .module true false ∧ (start ["x"] c).2 = none ∧ (start ["x"] c).1.user = .module false true ∧
    (start ["x", "y"] c).2 ≠ none ∧ (start ["x", "y"] c).1.user = .module false true :=
  ⟨new (.module true false) (.one a) true (.one none), rfl, rfl, rfl, by simp [start, new, flatten, opened, Verif.Model.IoLayout.inputFlags, traced, ready], rfl⟩

/-- A scripted model in training mode is refused. -/
theorem C165_script (names : List String) (c : Conv α) (h : c.own = .script true) : (start names c).2 ≠ none := by
  unfold start
  simp only
  cases Verif.Model.IoLayout.inputFlags c.flagArg ((flatten c.args).map isFour) with
  | none => simp
  | some fl =>
    simp only
    rw [h, if_pos (by decide)]
    simp

/-- A converter converts once: a second call fails for every model that has an input. -/
theorem C165_again_false (names : List String) (hn : names ≠ []) (c : Conv α) (h : (start names c).2 = none) : (start names (start names c).1).2 ≠ none := by
  have hnodes : ∃ flat, names.length ≤ flat.length ∧ (start names c).1.nodes = c.nodes ++ names.zip flat := by
    unfold start at h ⊢
    simp only at h ⊢
    cases hi : Verif.Model.IoLayout.inputFlags c.flagArg ((flatten c.args).map isFour) with
    | none => rw [hi] at h; simp at h
    | some fl =>
      rw [hi] at h
      simp only at h ⊢
      by_cases h1 : (!ready (traced c.own)) = true
      · rw [if_pos h1] at h; simp at h
      · rw [if_neg h1] at h ⊢
        by_cases h2 : (flatten c.args).length < names.length
        · rw [if_pos h2] at h; simp at h
        · rw [if_neg h2] at h ⊢
          by_cases h3 : (names.any fun n => (c.nodes.map Prod.fst).contains n) = true
          · rw [if_pos h3] at h; simp at h
          · rw [if_neg h3]
            exact ⟨flatten c.args, by omega, rfl⟩
  obtain ⟨flat, hlen, hnd⟩ := hnodes
  generalize (start names c).1 = d at hnd
  have hany : (names.any fun n => (d.nodes.map Prod.fst).contains n) = true := by
    cases names with
    | nil => exact absurd rfl hn
    | cons n r =>
      refine List.any_eq_true.2 ⟨n, List.mem_cons_self, ?_⟩
      rw [List.contains_eq_mem, decide_eq_true_eq, hnd, List.map_append, List.map_fst_zip hlen]
      exact List.mem_append_right _ List.mem_cons_self
  unfold start
  simp only
  cases Verif.Model.IoLayout.inputFlags d.flagArg ((flatten d.args).map isFour) with
  | none => simp
  | some fl =>
    simp only
    by_cases h1 : (!ready (traced d.own)) = true
    · rw [if_pos h1]; simp
    · rw [if_neg h1]
      by_cases h2 : (flatten d.args).length < names.length
      · rw [if_pos h2]; simp
      · rw [if_neg h2, if_pos hany]; simp

end Verif.Props
