import Verif.Spec.Dataflow
import Mathlib.Data.Set.Basic
import Mathlib.Tactic.Push

/-! Lemmas about programs on named tensors. -/

namespace Verif.Lemmas.Dataflow
open Verif.Spec.Dataflow

variable {F V : Type}

/-- Everything known after some operators. -/
def after (K : Set ℕ) : List (Op F) → Set ℕ
  | [] => K
  | op :: ops => after (K ∪ {n | n ∈ op.outs}) ops

theorem mem_after {K : Set ℕ} {ops : List (Op F)} {n : ℕ} : n ∈ after K ops ↔ n ∈ K ∨ ∃ op ∈ ops, n ∈ op.outs := by
  induction ops generalizing K with
  | nil => simp [after]
  | cons op ops ih => simp [after, ih, or_assoc]

theorem ordered_append {K : Set ℕ} {a b : List (Op F)} : Ordered K (a ++ b) ↔ Ordered K a ∧ Ordered (after K a) b := by
  induction a generalizing K with
  | nil => simp [Ordered, after]
  | cons op a ih => simp [Ordered, after, ih, and_assoc]

/-- What is known is not made again. -/
theorem ordered_not_made {K : Set ℕ} {ops : List (Op F)} (h : Ordered K ops) {n : ℕ} (hn : n ∈ K) : ∀ op ∈ ops, n ∉ op.outs := by
  induction ops generalizing K with
  | nil => simp
  | cons op ops ih =>
    obtain ⟨_, _, h3, h4⟩ := h
    intro o ho
    rcases List.mem_cons.1 ho with rfl | ho
    · exact fun hm => h3 n hm hn
    · exact ih h4 (Or.inl hn) o ho

/-- More may be known. -/
theorem ordered_mono {K K' : Set ℕ} {ops : List (Op F)} (h : Ordered K ops) (hs : K ⊆ K') (hf : ∀ n ∈ K', n ∉ K → ∀ op ∈ ops, n ∉ op.outs) : Ordered K' ops := by
  induction ops generalizing K K' with
  | nil => trivial
  | cons op ops ih =>
    obtain ⟨h1, h2, h3, h4⟩ := h
    refine ⟨fun i hi => hs (h1 i hi), h2, fun o ho hk => ?_, ih h4 (Set.union_subset_union_left _ hs) ?_⟩
    · by_cases hK : o ∈ K
      · exact h3 o ho hK
      · exact hf o hk hK op (by simp) ho
    · rintro n (hn | hn) hn' o ho
      · exact hf n hn (fun hh => hn' (Or.inl hh)) o (by simp [ho])
      · exact absurd (Or.inr hn) hn'

/-- A tensor is made by one operator. -/
theorem ordered_unique {K : Set ℕ} {ops : List (Op F)} (h : Ordered K ops) {a b : Op F} (ha : a ∈ ops) (hb : b ∈ ops) {n : ℕ} (hna : n ∈ a.outs) (hnb : n ∈ b.outs) : a = b := by
  induction ops generalizing K with
  | nil => simp at ha
  | cons op ops ih =>
    obtain ⟨_, _, _, h4⟩ := h
    rcases List.mem_cons.1 ha with rfl | ha'
    · rcases List.mem_cons.1 hb with rfl | hb
      · rfl
      · exact absurd hnb (ordered_not_made h4 (Or.inr hna) b hb)
    · rcases List.mem_cons.1 hb with rfl | hb
      · exact absurd hna (ordered_not_made h4 (Or.inr hnb) a ha')
      · exact ih h4 ha' hb

/-- Operands are known. -/
theorem ordered_ins {K : Set ℕ} {ops : List (Op F)} (h : Ordered K ops) {op : Op F} (ho : op ∈ ops) {i : ℕ} (hi : i ∈ op.ins) : i ∈ K ∨ ∃ o ∈ ops, i ∈ o.outs := by
  obtain ⟨a, b, rfl⟩ := List.append_of_mem ho
  have := ((ordered_append.1 h).2.1 i hi)
  rcases mem_after.1 this with hk | ⟨o, ho, hio⟩
  · exact Or.inl hk
  · exact Or.inr ⟨o, by simp [ho], hio⟩

variable {sem : F → List V → ℕ → V}

theorem run_append (env : ℕ → V) (a b : List (Op F)) : run sem env (a ++ b) = run sem (run sem env a) b := by simp [run]

theorem run_cons (env : ℕ → V) (op : Op F) (b : List (Op F)) : run sem env (op :: b) = run sem (step sem env op) b := by simp [run]

/-- A tensor no operator makes keeps its value. -/
theorem run_keep {ops : List (Op F)} {n : ℕ} (h : ∀ op ∈ ops, n ∉ op.outs) (env : ℕ → V) : run sem env ops n = env n := by
  induction ops generalizing env with
  | nil => rfl
  | cons op ops ih =>
    rw [run_cons, ih (fun o ho => h o (by simp [ho]))]
    simp [step, h op (by simp)]

/-- The same values outside `D`, and what each operator computes does not depend on `D`. -/
theorem run_agree {D : Set ℕ} {ops : List (Op F)} {env env' : ℕ → V} (he : ∀ n, n ∉ D → env' n = env n)
    (h : ∀ op ∈ ops, ∀ e e' : ℕ → V, (∀ n, n ∉ D → e' n = e n) → (∀ n ∈ D, e' n = env' n ∧ e n = env n) → ∀ k, sem op.fn (op.ins.map e') k = sem op.fn (op.ins.map e) k)
    (hD : ∀ op ∈ ops, ∀ n ∈ op.outs, n ∉ D) :
    ∀ n, n ∉ D → run sem env' ops n = run sem env ops n := by
  suffices H : ∀ (e e' : ℕ → V), (∀ n, n ∉ D → e' n = e n) → (∀ n ∈ D, e' n = env' n ∧ e n = env n) → ∀ n, n ∉ D → run sem e' ops n = run sem e ops n from
    H env env' he fun n _ => ⟨rfl, rfl⟩
  induction ops with
  | nil => exact fun e e' h1 _ => h1
  | cons op ops ih =>
    intro e e' h1 h2
    rw [run_cons, run_cons]
    apply ih (fun o ho => h o (by simp [ho])) (fun o ho => hD o (by simp [ho]))
    · intro n hn
      simp only [step]
      split
      · exact h op (by simp) e e' h1 h2 _
      · exact h1 n hn
    · intro n hn
      have : n ∉ op.outs := fun hm => hD op (by simp) n hm hn
      simp only [step, this, if_false]
      exact h2 n hn

/-- At the end every result is what its operator computes from the values at the end. -/
theorem run_mem {K : Set ℕ} {ops : List (Op F)} (h : Ordered K ops) {op : Op F} (ho : op ∈ ops) {n : ℕ} (hn : n ∈ op.outs) (env : ℕ → V) :
    run sem env ops n = sem op.fn (op.ins.map (run sem env ops)) (op.outs.idxOf n) := by
  obtain ⟨a, b, rfl⟩ := List.append_of_mem ho
  have h2 := (ordered_append.1 h).2
  obtain ⟨h1, _, h3, h4⟩ := h2
  have hk : ∀ m, m ∈ after K a → run sem env (a ++ op :: b) m = run sem env a m := by
    intro m hm
    rw [run_append]
    refine run_keep (fun o ho' => ?_) _
    rcases List.mem_cons.1 ho' with rfl | ho'
    · exact fun hh => h3 m hh hm
    · exact ordered_not_made h4 (Or.inl hm) o ho'
  have hins : op.ins.map (run sem env (a ++ op :: b)) = op.ins.map (run sem env a) := List.map_congr_left fun i hi => hk i (h1 i hi)
  rw [hins, run_append, run_cons, run_keep (fun o ho' => ordered_not_made h4 (Or.inr hn) o ho')]
  simp [step, hn]

/-- What is known before a place has its final value there. -/
theorem run_prefix {K : Set ℕ} {a b : List (Op F)} (h : Ordered K (a ++ b)) {m : ℕ} (hm : m ∈ after K a) (env : ℕ → V) : run sem env (a ++ b) m = run sem env a m := by
  rw [run_append]
  exact run_keep (ordered_not_made (ordered_append.1 h).2 hm) _

end Verif.Lemmas.Dataflow
