import Verif.Model.IoLayout
import Mathlib.Data.Set.Basic
import Mathlib.Data.List.Dedup
import Mathlib.Tactic.Push

/-!
Lemmas about networks with named tensors: rewiring operators to a tensor with the same value does not change what they compute.
-/

namespace Verif.Lemmas.IoLayout
open Verif.Spec.IoLayout Verif.Model.IoLayout

variable {α : Type}

theorem nchw_nhwc (v : Val α) : nchw (nhwc v) = v := by cases v <;> rfl

theorem nhwc_nchw (v : Val α) : nhwc (nchw v) = v := by cases v <;> rfl

theorem nhwc_map (g : α → α) (v : Val α) : (nhwc v).map g = nhwc (v.map g) := by cases v <;> rfl

/-- Everything known after some operators. -/
def after (K : Set ℕ) : List (Op α) → Set ℕ
  | [] => K
  | op :: ops => after (K ∪ {n | n ∈ op.outs}) ops

theorem mem_after {K : Set ℕ} {ops : List (Op α)} {n : ℕ} : n ∈ after K ops ↔ n ∈ K ∨ ∃ op ∈ ops, n ∈ op.outs := by
  induction ops generalizing K with
  | nil => simp [after]
  | cons op ops ih => simp [after, ih, or_assoc]

theorem ordered_append {K : Set ℕ} {a b : List (Op α)} : Ordered K (a ++ b) ↔ Ordered K a ∧ Ordered (after K a) b := by
  induction a generalizing K with
  | nil => simp [Ordered, after]
  | cons op a ih => simp [Ordered, after, ih, and_assoc]

/-- What is known is not made again. -/
theorem ordered_not_made {K : Set ℕ} {ops : List (Op α)} (h : Ordered K ops) {n : ℕ} (hn : n ∈ K) : ∀ op ∈ ops, n ∉ op.outs := by
  induction ops generalizing K with
  | nil => simp
  | cons op ops ih =>
    obtain ⟨_, _, h3, h4⟩ := h
    intro o ho
    rcases List.mem_cons.1 ho with rfl | ho
    · exact fun hm => h3 n hm hn
    · exact ih h4 (Or.inl hn) o ho

/-- More may be known. -/
theorem ordered_mono {K K' : Set ℕ} {ops : List (Op α)} (h : Ordered K ops) (hs : K ⊆ K') (hf : ∀ n ∈ K', n ∉ K → ∀ op ∈ ops, n ∉ op.outs) : Ordered K' ops := by
  induction ops generalizing K K' with
  | nil => trivial
  | cons op ops ih =>
    obtain ⟨h1, h2, h3, h4⟩ := h
    refine ⟨fun i hi => hs (h1 i hi), h2, fun o ho hk => ?_, ih h4 (Set.union_subset_union_left _ hs) ?_⟩
    · by_cases hK : o ∈ K
      · exact h3 o ho hK
      · exact hf o hk hK op (by simp) ho
    · rintro n (hn | hn) hn' o ho
      · exact hf n hn (fun hh => hn' (Or.inl hh)) o (by simp [ho])
      · exact absurd (Or.inr hn) hn'

/-- Operators may read another tensor that is known. -/
theorem ordered_rewire {K : Set ℕ} {ops : List (Op α)} {a f : ℕ} (h : Ordered K ops) (hf : f ∈ K) : Ordered K (ops.map (rewire a f)) := by
  induction ops generalizing K with
  | nil => trivial
  | cons op ops ih =>
    obtain ⟨h1, h2, h3, h4⟩ := h
    refine ⟨?_, h2, h3, ih h4 (Or.inl hf)⟩
    intro i hi
    simp only [rewire, List.mem_map] at hi
    obtain ⟨j, hj, rfl⟩ := hi
    split
    · exact hf
    · exact h1 j hj

theorem splitFirst_spec {p : Op α → Bool} {ops pre post : List (Op α)} {op : Op α} (h : splitFirst p ops = some (pre, op, post)) : ops = pre ++ op :: post ∧ p op = true := by
  induction ops generalizing pre with
  | nil => simp [splitFirst] at h
  | cons o os ih =>
    unfold splitFirst at h
    split at h
    · next hp => simp at h; obtain ⟨rfl, rfl, rfl⟩ := h; exact ⟨rfl, hp⟩
    · next hp =>
      simp only [Option.map_eq_some_iff] at h
      obtain ⟨⟨pre', op', post'⟩, h1, h2⟩ := h
      simp at h2
      obtain ⟨rfl, rfl, rfl⟩ := h2
      obtain ⟨e, hp'⟩ := ih h1
      exact ⟨by rw [e]; rfl, hp'⟩

theorem splitFirst_some {p : Op α → Bool} {ops : List (Op α)} (h : ∃ op ∈ ops, p op = true) : (splitFirst p ops).isSome = true := by
  induction ops with
  | nil => simp at h
  | cons o os ih =>
    unfold splitFirst
    split
    · rfl
    · next hp =>
      obtain ⟨op, ho, hpo⟩ := h
      rcases List.mem_cons.1 ho with rfl | ho
      · exact absurd hpo hp
      · simp [ih ⟨op, ho, hpo⟩]

variable [Inhabited α]

theorem run_append (env : ℕ → Val α) (a b : List (Op α)) : run env (a ++ b) = run (run env a) b := by simp [run]

theorem run_cons (env : ℕ → Val α) (op : Op α) (b : List (Op α)) : run env (op :: b) = run (step env op) b := by simp [run]

/-- A tensor no operator makes keeps its value. -/
theorem run_keep {ops : List (Op α)} {n : ℕ} (h : ∀ op ∈ ops, n ∉ op.outs) (env : ℕ → Val α) : run env ops n = env n := by
  induction ops generalizing env with
  | nil => rfl
  | cons op ops ih =>
    rw [run_cons, ih (fun o ho => h o (by simp [ho]))]
    simp [step, h op (by simp)]

/-- The same values outside `D`, which is not read. -/
theorem run_agree {D : Set ℕ} {ops : List (Op α)} (h : ∀ op ∈ ops, ∀ i ∈ op.ins, i ∉ D) {env env' : ℕ → Val α} (he : ∀ n, n ∉ D → env' n = env n) :
    ∀ n, n ∉ D → run env' ops n = run env ops n := by
  induction ops generalizing env env' with
  | nil => exact he
  | cons op ops ih =>
    rw [run_cons, run_cons]
    apply ih (fun o ho => h o (by simp [ho]))
    intro n hn
    have : op.ins.map env' = op.ins.map env := List.map_congr_left fun i hi => he i (h op (by simp) i hi)
    simp only [step, this]
    split
    · rfl
    · exact he n hn

/-- Operators that read `f` for `a` compute the same if `f` has the value of `a`. -/
theorem run_rewire {D : Set ℕ} {a f : ℕ} {ops : List (Op α)} (haf : ∀ op ∈ ops, a ∉ op.outs ∧ f ∉ op.outs ∧ f ∉ op.ins ∧ ∀ i ∈ op.ins, i ∉ D) {env env' : ℕ → Val α}
    (hf : env' f = env a) (he : ∀ n, n ∉ D → n ≠ a → n ≠ f → env' n = env n) :
    ∀ n, n ∉ D → n ≠ a → n ≠ f → run env' (ops.map (rewire a f)) n = run env ops n := by
  induction ops generalizing env env' with
  | nil => exact he
  | cons op ops ih =>
    obtain ⟨h1, h2, h3, h4⟩ := haf op (by simp)
    rw [List.map_cons, run_cons, run_cons]
    have hins : (rewire a f op).ins.map env' = op.ins.map env := by
      simp only [rewire, List.map_map]
      apply List.map_congr_left
      intro i hi
      simp only [Function.comp]
      split
      · next hia => rw [hia]; exact hf
      · next hia => exact he i (h4 i hi) hia fun hif => h3 (hif ▸ hi)
    apply ih (fun o ho => haf o (by simp [ho]))
    · simp only [step, hins]
      simp [rewire, h1, h2, hf]
    · intro n hn hna hnf
      simp only [step, hins]
      show (if n ∈ op.outs then _ else _) = _
      split
      · rfl
      · exact he n hn hna hnf

/-- Position in a list where one element is renamed. -/
theorem idxOf_rename {l : List ℕ} {y f : ℕ} (hf : f ∉ l) (n : ℕ) (hn : n ≠ f) : (l.map fun n => if n = y then f else n).idxOf (if n = y then f else n) = l.idxOf n := by
  induction l with
  | nil => rfl
  | cons a l ih =>
    have hfa : f ≠ a := fun h => hf (by simp [h])
    have hfl : f ∉ l := fun h => hf (by simp [h])
    simp only [List.map_cons, List.idxOf_cons]
    have : ((if a = y then f else a) == (if n = y then f else n)) = (a == n) := by
      by_cases h1 : a = y <;> by_cases h2 : n = y <;> simp only [h1, h2, if_true, if_false]
      · simp
      · rw [Bool.eq_iff_iff]; simp only [beq_iff_eq]; exact ⟨fun h => absurd h.symm hn, fun h => absurd h.symm h2⟩
      · rw [Bool.eq_iff_iff]; simp only [beq_iff_eq]; exact ⟨fun h => absurd h.symm hfa, fun h => absurd h h1⟩
    rw [this]
    cases a == n <;> simp [ih hfl]

end Verif.Lemmas.IoLayout
