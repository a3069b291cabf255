import Verif.Lemmas.FuncRewriteAll

/-!
Lemmas for C87: which functions are left after the rewriting.
-/

namespace Verif.Lemmas.FuncRewrite
open Verif.Spec Verif.Spec.FuncCall Verif.Model.FuncRewrite

/-- Only functions and numbers of tensors in `ok` are left. -/
def Left (ok : Fn → Nat → Prop) (i : Instr) : Prop := i.on = true → i.float = true → ∀ f a, i.op = .fn f a → ok f i.ins.length

def A1 (f : Fn) (_ : Nat) : Prop := f ≠ .neg
def A2 (f : Fn) (n : Nat) : Prop := A1 f n ∧ ¬ (f = .div ∧ n = 1)
def A3 (f : Fn) (n : Nat) : Prop := A2 f n ∧ ¬ ((f = .sub ∨ f = .rsub) ∧ (n = 1 ∨ n = 2))
def A4 (f : Fn) (n : Nat) : Prop := A3 f n ∧ f ≠ .stack
def A5 (f : Fn) (n : Nat) : Prop := A4 f n ∧ f ∉ [Fn.add, .radd, .mul, .rmul, .cat]
def A8 (f : Fn) (n : Nat) : Prop := A5 f n ∧ f ∉ [Fn.relu, .relu6, .silu, .hardswish, .sigmoid, .tanh, .elu, .leakyRelu, .glu]
def A9 (f : Fn) (n : Nat) : Prop := A8 f n ∧ f ≠ .dropout

theorem left_keep {A B : Fn → Nat → Prop} {i : Instr} {l : List Instr} (hi : Left A i) (h : some [i] = some l)
    (hB : i.on = true → i.float = true → ∀ f a, i.op = .fn f a → A f i.ins.length → B f i.ins.length) : ∀ x ∈ l, Left B x := by
  simp at h
  subst h
  intro x hx
  simp only [List.mem_singleton] at hx
  subst hx
  exact fun h1 h2 f a h3 => hB h1 h2 f a h3 (hi h1 h2 f a h3)

theorem left_op {B : Fn → Nat → Prop} {i : Instr} {o : Op} {l : List Instr} (h : withOp i o = some l) (hB : ∀ f a, o = .fn f a → B f i.ins.length) : ∀ x ∈ l, Left B x := by
  simp only [withOp, Option.some.injEq] at h
  subst h
  intro x hx
  simp only [List.mem_singleton] at hx
  subst hx
  exact fun _ _ f a h3 => hB f a h3

theorem neg_left (i : Instr) (l : List Instr) (_ : True) (h : negPass i = some l) : ∀ x ∈ l, Left A1 x := by
  have hi : Left (fun _ _ => True) i := fun _ _ _ _ _ => trivial
  unfold negPass at h
  split at h
  · split at h
    · refine left_op h ?_
      rintro f a h
      simp at h
      simp [A1, ← h.1]
    · rename_i hc
      exact left_keep hi h (fun h1 h2 => absurd ⟨h1, h2⟩ hc)
  · rename_i hne
    exact left_keep hi h (fun _ _ f a ho _ => by rintro rfl; exact hne a ho)

theorem div_left (i : Instr) (l : List Instr) (hi : Left A1 i) (h : divPass i = some l) : ∀ x ∈ l, Left A2 x := by
  unfold divPass at h
  split at h
  · rename_i a ha
    split at h
    · simp only [Option.bind_eq_bind, Option.bind_eq_some_iff] at h
      obtain ⟨c, -, h⟩ := h
      split at h
      · simp at h
      · refine left_op h ?_
        rintro f a h
        simp at h
        simp [A2, A1, ← h.1]
    · rename_i hc
      exact left_keep hi h (fun h1 h2 f a' ho hA => ⟨hA, fun h3 => hc ⟨h1, h2, h3.2⟩⟩)
  · rename_i hne
    exact left_keep hi h (fun _ _ f a ho hA => ⟨hA, fun h => hne a (h.1 ▸ ho)⟩)

theorem sub_left (i : Instr) (l : List Instr) (hi : Left A2 i) (h : subPass i = some l) : ∀ x ∈ l, Left A3 x := by
  have two : ∀ x y, some (subTensors i x y) = some l → ∀ x ∈ l, Left A3 x := by
    intro x y h
    simp only [Option.some.injEq] at h
    subst h
    intro z hz
    simp only [subTensors, List.mem_cons, List.not_mem_nil, or_false] at hz
    rcases hz with rfl | rfl <;> intro _ _ f a h <;> simp at h <;> simp [A3, A2, A1, ← h.1]
  unfold subPass at h
  split at h
  · rename_i a ha
    split at h
    · split at h
      · simp only [Option.bind_eq_bind, Option.bind_eq_some_iff] at h
        obtain ⟨c, -, h⟩ := h
        refine left_op h ?_
        rintro f a h
        simp at h
        simp [A3, A2, A1, ← h.1]
      · exact two _ _ h
      · rename_i h1 h2
        refine left_keep hi h (fun _ _ f a' ho hA => ⟨hA, fun h => ?_⟩)
        rcases h.2 with h | h
        · obtain ⟨x, hx⟩ := List.length_eq_one_iff.mp h
          exact h1 x hx
        · obtain ⟨x, y, hx⟩ := List.length_eq_two.mp h
          exact h2 x y hx
    · rename_i hc
      exact left_keep hi h (fun h1 h2 => absurd ⟨h1, h2⟩ hc)
  · rename_i a ha
    split at h
    · split at h
      · simp only [Option.bind_eq_bind, Option.bind_eq_some_iff, Option.some.injEq] at h
        obtain ⟨c, -, h⟩ := h
        subst h
        intro z hz
        simp only [List.mem_cons, List.not_mem_nil, or_false] at hz
        rcases hz with rfl | rfl <;> intro _ _ f a h <;> simp at h <;> simp [A3, A2, A1, ← h.1]
      · exact two _ _ h
      · rename_i h1 h2
        refine left_keep hi h (fun _ _ f a' ho hA => ⟨hA, fun h => ?_⟩)
        rcases h.2 with h | h
        · obtain ⟨x, hx⟩ := List.length_eq_one_iff.mp h
          exact h1 x hx
        · obtain ⟨x, y, hx⟩ := List.length_eq_two.mp h
          exact h2 x y hx
    · rename_i hc
      exact left_keep hi h (fun h1 h2 => absurd ⟨h1, h2⟩ hc)
  · rename_i h1 h2
    refine left_keep hi h (fun _ _ f a ho hA => ⟨hA, fun h => ?_⟩)
    rcases h.1 with rfl | rfl
    · exact h1 a ho
    · exact h2 a ho

theorem stack_left (i : Instr) (l : List Instr) (hi : Left A3 i) (h : stackPass i = some l) : ∀ x ∈ l, Left A4 x := by
  unfold stackPass at h
  split at h
  · split at h
    · simp only [Option.bind_eq_bind, Option.bind_eq_some_iff, Option.some.injEq] at h
      obtain ⟨⟨d, a'⟩, hd, h⟩ := h
      subst h
      intro x hx
      rcases List.mem_append.mp hx with hx | hx
      · obtain ⟨j, hj, rfl⟩ := List.mem_mapIdx.mp hx
        intro _ _ f a h
        simp at h
        simp [A4, A3, A2, A1, ← h.1]
      · simp only [List.mem_singleton] at hx
        subst hx
        intro _ _ f a h
        simp at h
        simp [A4, A3, A2, A1, ← h.1]
    · rename_i hc
      exact left_keep hi h (fun h1 h2 => absurd ⟨h1, h2⟩ hc)
  · rename_i hne
    exact left_keep hi h (fun _ _ f a ho hA => ⟨hA, fun h => hne a (h ▸ ho)⟩)

theorem binary_left {B : Fn → Nat → Prop} {i : Instr} {two one : FF} {a : Args} {l : List Instr} (h : binary i two one a = some l) : ∀ x ∈ l, Left B x := by
  unfold binary at h
  split at h
  · exact left_op h (by simp)
  · exact left_op h (by simp)
  · simp at h

theorem convert_left (i : Instr) (l : List Instr) (hi : Left A4 i) (h : convertPass i = some l) : ∀ x ∈ l, Left A5 x := by
  unfold convertPass at h
  split at h
  · split at h
    case h_6 =>
      rename_i h1 h2 h3 h4 h5
      refine left_keep hi h (fun _ _ f a ho hA => ⟨hA, fun h => ?_⟩)
      simp only [List.mem_cons, List.not_mem_nil, or_false] at h
      rcases h with rfl | rfl | rfl | rfl | rfl
      · exact h1 a ho
      · exact h2 a ho
      · exact h3 a ho
      · exact h4 a ho
      · exact h5 a ho
    case h_5 => exact left_op h (by simp)
    all_goals exact binary_left h
  · rename_i hc
    exact left_keep hi h (fun h1 h2 => absurd ⟨h1, h2⟩ hc)

theorem clampMin_left (i : Instr) (l : List Instr) (hi : Left A5 i) (h : clampMinPass i = some l) : ∀ x ∈ l, Left A5 x := by
  unfold clampMinPass at h
  repeat' split at h
  all_goals first
    | exact left_keep hi h (fun _ _ _ _ _ h => h)
    | (refine left_op h ?_; intro f a h; simp at h; simp [A5, A4, A3, A2, A1, ← h.1])
    | simp at h

theorem clamp_left (i : Instr) (l : List Instr) (hi : Left A5 i) (h : clampPass i = some l) : ∀ x ∈ l, Left A5 x := by
  unfold clampPass at h
  repeat' split at h
  all_goals first
    | exact left_keep hi h (fun _ _ _ _ _ h => h)
    | (refine left_op h ?_; intro f a h; simp at h; simp [A5, A4, A3, A2, A1, ← h.1])
    | simp at h

theorem fuse_left {p : List Instr} {outs : List Name} (hS : ∀ i ∈ p, Left A5 i) : ∀ x ∈ fusePass p outs, Left A5 x := by
  intro x hx
  unfold fusePass at hx
  obtain ⟨i, hi, h⟩ := List.mem_filterMap.mp hx
  split at h
  · simp only [Option.some.injEq] at h
    subst h
    intro _ _ f a h
    simp only [fusedOp] at h
    split at h <;> simp at h
  · split at h
    · simp at h
    · simp only [Option.some.injEq] at h
      subst h
      exact hS i hi

theorem module_left (i : Instr) (l : List Instr) (hi : Left A5 i) (h : modulePass i = some l) : ∀ x ∈ l, Left A8 x := by
  unfold modulePass at h
  split at h
  · split at h
    case h_7 | h_8 | h_9 =>
      split at h
      · exact left_op h (by simp)
      · split at h
        · obtain ⟨q, -, h⟩ := Option.bind_eq_some_iff.mp h
          exact left_op h (by simp)
        · simp at h
    case h_10 =>
      rename_i h1 h2 h3 h4 h5 h6 h7 h8 h9
      refine left_keep hi h (fun _ _ f a ho hA => ⟨hA, fun h => ?_⟩)
      simp only [List.mem_cons, List.not_mem_nil, or_false] at h
      rcases h with rfl | rfl | rfl | rfl | rfl | rfl | rfl | rfl | rfl
      · exact h1 a ho
      · exact h2 a ho
      · exact h3 a ho
      · exact h4 a ho
      · exact h5 a ho
      · exact h6 a ho
      · exact h7 a ho
      · exact h8 a ho
      · exact h9 a ho
    all_goals exact left_op h (by simp)
  · rename_i hc
    exact left_keep hi h (fun h1 => absurd h1 hc)

theorem dropout_left (i : Instr) (l : List Instr) (hi : Left A8 i) (h : dropoutPass i = some l) : ∀ x ∈ l, Left A9 x := by
  unfold dropoutPass at h
  split at h
  · split at h
    · split at h
      · obtain ⟨q, -, h⟩ := Option.bind_eq_some_iff.mp h
        exact left_op h (by simp)
      · simp at h
    · rename_i hc
      exact left_keep hi h (fun h1 => absurd h1 hc)
  · rename_i hne
    exact left_keep hi h (fun _ _ f a ho hA => ⟨hA, fun h => hne a (h ▸ ho)⟩)

theorem rewrite_left {p p' : List Instr} {outs : List Name} (hp : rewrite outs p = some p') : ∀ i ∈ p', Left A9 i := by
  unfold rewrite at hp
  simp only [Option.bind_eq_bind, Option.bind_eq_some_iff] at hp
  obtain ⟨p1, h1, p2, h2, p3, h3, p4, h4, p5, h5, p6, h6, p7, h7, p8, h8, h9⟩ := hp
  have s1 := pass_forall neg_left p p1 (fun _ _ => trivial) h1
  have s2 := pass_forall div_left p1 p2 s1 h2
  have s3 := pass_forall sub_left p2 p3 s2 h3
  have s4 := pass_forall stack_left p3 p4 s3 h4
  have s5 := pass_forall convert_left p4 p5 s4 h5
  have s6 := pass_forall clampMin_left p5 p6 s5 h6
  have s7 := pass_forall clamp_left p6 p7 s6 h7
  have s9 := pass_forall module_left _ p8 (fuse_left (outs := outs) s7) h8
  exact pass_forall dropout_left p8 p' s9 h9

end Verif.Lemmas.FuncRewrite
