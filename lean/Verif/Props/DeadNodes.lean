import Verif.Model.DeadNodes
import Mathlib.Data.List.Basic
import Mathlib.Data.Fintype.Basic
import Mathlib.Order.WellFounded
import Mathlib.Data.Fintype.Order
import Mathlib.Order.Fin.Basic
import Mathlib.Order.Preorder.Finite

/-! C24: removal of dead nodes. -/

namespace Verif.Props
open Verif.Spec Verif.Model

/-- A model output (or a node standing for an unused output of an operator that is kept) can be reached from `v`. -/
def Needed (g : Graph) (v : Nat) : Prop :=
  ∃ o, o < g.n ∧ (g.kind o = .output ∨ g.kind o = .unused) ∧ Relation.ReflTransGen g.Edge v o

/-- igraph's weak connectivity: any two nodes are joined by a path that ignores directions. -/
def WeaklyConnected (g : Graph) : Prop :=
  ∀ u v, u < g.n → v < g.n → Relation.ReflTransGen (fun a b => g.Edge a b ∨ g.Edge b a) u v

private theorem mem_dead {g : Graph} {alive : List Nat} {v : Nat} :
    v ∈ deadNodes g alive ↔ v ∈ alive ∧ g.kind v ≠ .output ∧ g.kind v ≠ .unused ∧ g.kind v ≠ .input ∧
      ∀ u, g.Edge v u → u ∉ alive := by
  simp only [deadNodes, outdegree, List.mem_filter, Bool.and_eq_true, decide_eq_true_eq, List.length_eq_zero_iff,
    List.filter_eq_nil_iff, List.contains_iff_mem, Graph.Edge]
  tauto

/-- The loop keeps needed nodes and inputs, and stops only at a set without dead nodes. -/
private theorem loop_spec (g : Graph) (hg : g.Consistent) : ∀ (f : Nat) (alive : List Nat), alive.length < f →
    (∀ v ∈ alive, v < g.n) → (∀ v, v < g.n → Needed g v ∨ g.kind v = .input → v ∈ alive) →
    ∃ r, (∀ f', alive.length < f' → cleanupLoop g f' alive = some r) ∧ (∀ v ∈ r, v ∈ alive) ∧
      (∀ v, v < g.n → Needed g v ∨ g.kind v = .input → v ∈ r) ∧ deadNodes g r = [] := by
  intro f
  induction f with
  | zero => intro alive h; omega
  | succ f ih =>
    intro alive hf hlt hneed
    by_cases hd : deadNodes g alive = []
    · refine ⟨alive, ?_, fun v hv => hv, hneed, hd⟩
      intro f' hf'
      obtain ⟨k, rfl⟩ : ∃ k, f' = k + 1 := ⟨f' - 1, by omega⟩
      simp [cleanupLoop, hd]
    · have hshort : (alive.filter (fun v => !(deadNodes g alive).contains v)).length < alive.length := by
        obtain ⟨d, hdm⟩ := List.exists_mem_of_ne_nil _ hd
        have h1 := List.length_filter_lt_length_iff_exists (p := fun v => !(deadNodes g alive).contains v) (l := alive)
        exact h1.2 ⟨d, (mem_dead.1 hdm).1, by simp [hdm]⟩
      obtain ⟨r, r1, r2, r3, r4⟩ := ih (alive.filter (fun v => !(deadNodes g alive).contains v)) (by omega)
        (fun v hv => hlt v (List.mem_of_mem_filter hv)) (by
          intro v hv hn
          rw [List.mem_filter]
          refine ⟨hneed v hv hn, ?_⟩
          simp only [Bool.not_eq_true', List.contains_eq_mem, decide_eq_false_iff_not]
          intro hdv
          obtain ⟨_, k1, k2, k3, k4⟩ := mem_dead.1 hdv
          rcases hn with ⟨o, ho, hk, hr⟩ | hn
          · rcases Relation.ReflTransGen.cases_head hr with rfl | ⟨u, hu, hr'⟩
            · rcases hk with hk | hk
              · exact k1 hk
              · exact k2 hk
            · exact k4 u hu (hneed u (hg.lt v u hu).2 (Or.inl ⟨o, ho, hk, hr'⟩))
          · exact k3 hn)
      refine ⟨r, ?_, fun v hv => List.mem_of_mem_filter (r2 v hv), r3, r4⟩
      intro f' hf'
      obtain ⟨k, rfl⟩ : ∃ k, f' = k + 1 := ⟨f' - 1, by omega⟩
      have : (deadNodes g alive).isEmpty = false := by simpa using hd
      simp only [cleanupLoop, this]
      exact r1 k (by omega)

/-- C24, safety.  For every graph and whatever the connectivity test says: the cleanup terminates (fuel above the number of nodes is
enough) and no model input, and no node from which an output can be reached, is removed. -/
theorem C24_keeps_needed (g : Graph) (hg : g.Consistent) (connected : Bool) :
    ∃ r, (∀ fuel, g.n < fuel → cleanupDeadNodes g connected fuel = some r) ∧ (∀ v ∈ r, v < g.n) ∧
      ∀ v, v < g.n → Needed g v ∨ g.kind v = .input → v ∈ r := by
  cases connected with
  | true => exact ⟨List.range g.n, fun _ _ => rfl, by simp, fun v hv _ => by simpa using hv⟩
  | false =>
    obtain ⟨r, r1, r2, r3, _⟩ := loop_spec g hg (g.n + 1) (List.range g.n) (by simp) (by simp)
      (fun v hv _ => by simpa using hv)
    refine ⟨r, fun fuel hf => ?_, fun v hv => by simpa using r2 v hv, r3⟩
    exact r1 fuel (by simpa using hf)

/-- C24, completeness, for graphs that are not weakly connected: afterwards every remaining node that is not an input reaches an
output.  Missing for the full property: weakly connected graphs, in which nothing is removed (`C24_connected_false`). -/
theorem C24_removes_dead_partial (g : Graph) (hg : g.Consistent) (ha : g.Acyclic)
    (hin : ∀ u v, g.Edge u v → g.kind v ≠ .input) (connected : Bool)
    (hc : connected = true ↔ WeaklyConnected g) (hnc : ¬ WeaklyConnected g) (fuel : Nat) (hf : g.n < fuel) (r : List Nat)
    (hr : cleanupDeadNodes g connected fuel = some r) : ∀ v ∈ r, g.kind v = .input ∨ Needed g v := by
  have hcf : connected = false := by
    cases connected with
    | true => exact absurd (hc.1 rfl) hnc
    | false => rfl
  subst hcf
  obtain ⟨r', r1, r2, _, r4⟩ := loop_spec g hg (g.n + 1) (List.range g.n) (by simp) (by simp)
    (fun v hv _ => by simpa using hv)
  have he : r' = r := by
    have := r1 fuel (by simpa using hf)
    rw [show cleanupDeadNodes g false fuel = cleanupLoop g fuel (List.range g.n) from rfl] at hr
    rw [hr] at this
    exact (Option.some.inj this).symm
  subst he
  -- descend along edges inside `r'`; acyclicity makes this well founded
  let S : Fin g.n → Fin g.n → Prop := fun u v => Relation.TransGen g.Edge v.1 u.1
  have : IsTrans (Fin g.n) S := ⟨fun a b c hab hbc => Relation.TransGen.trans hbc hab⟩
  have : Std.Irrefl S := ⟨fun a h => ha _ h⟩
  have wf : WellFounded S := Finite.wellFounded_of_trans_of_irrefl S
  have key : ∀ v : Fin g.n, v.1 ∈ r' → g.kind v.1 = .input ∨ Needed g v.1 := by
    intro v
    induction v using wf.induction with
    | _ v ih =>
      intro hv
      by_cases h1 : g.kind v.1 = .output
      · exact Or.inr ⟨v.1, v.2, Or.inl h1, .refl⟩
      by_cases h2 : g.kind v.1 = .unused
      · exact Or.inr ⟨v.1, v.2, Or.inr h2, .refl⟩
      by_cases h3 : g.kind v.1 = .input
      · exact Or.inl h3
      right
      by_contra hcon
      have : v.1 ∈ deadNodes g r' := by
        refine mem_dead.2 ⟨hv, h1, h2, h3, ?_⟩
        intro u hu hur
        rcases ih ⟨u, (hg.lt _ _ hu).2⟩ (Relation.TransGen.single hu) hur with h | ⟨o, ho, hk, hr'⟩
        · exact hin _ _ hu h
        · exact hcon ⟨o, ho, hk, Relation.ReflTransGen.head hu hr'⟩
      rw [r4] at this
      simp at this
  intro v hv
  exact key ⟨v, by simpa using r2 v hv⟩ hv

/-- Input 0, operator 1 with output 2, and a separate constant 3 feeding operator 4. -/
def deadExample : Graph where
  n := 5
  kind := fun v => match v with | 0 => .input | 2 => .output | 3 => .constant | _ => .op
  ins := fun v => match v with | 1 => [0] | 2 => [1] | 4 => [3] | _ => []
  outs := fun v => match v with | 0 => [1] | 1 => [2] | 3 => [4] | _ => []

/-- It meets the hypotheses of `C24_removes_dead_partial`. -/
example : deadExample.Consistent ∧ deadExample.Acyclic ∧ (∀ u v, deadExample.Edge u v → deadExample.kind v ≠ .input) ∧
    ¬ WeaklyConnected deadExample := by
  have hedge : ∀ u v, deadExample.Edge u v ↔ (u = 0 ∧ v = 1) ∨ (u = 1 ∧ v = 2) ∨ (u = 3 ∧ v = 4) := by
    intro u v
    simp only [Graph.Edge, deadExample]
    rcases u with _ | _ | _ | _ | _ | u <;> simp
  have hinc : ∀ u v, u ∈ deadExample.ins v ↔ (u = 0 ∧ v = 1) ∨ (u = 1 ∧ v = 2) ∨ (u = 3 ∧ v = 4) := by
    intro u v
    simp only [deadExample]
    rcases v with _ | _ | _ | _ | _ | v <;> simp
  refine ⟨⟨fun u v => (hinc u v).trans (hedge u v).symm, fun u v h => ?_⟩, ?_, ?_, ?_⟩
  · have := (hedge u v).1 h
    simp only [deadExample]
    omega
  · have hlt : ∀ u v, Relation.TransGen deadExample.Edge u v → u < v := by
      intro u v h
      induction h with
      | single h => have := (hedge _ _).1 h; omega
      | tail _ h ih => have := (hedge _ _).1 h; omega
    intro v h
    exact Nat.lt_irrefl _ (hlt _ _ h)
  · intro u v h
    rcases (hedge u v).1 h with ⟨_, rfl⟩ | ⟨_, rfl⟩ | ⟨_, rfl⟩ <;> simp [deadExample]
  · intro h
    have h03 := h 0 3 (by decide) (by decide)
    have inv : ∀ v, Relation.ReflTransGen (fun a b => deadExample.Edge a b ∨ deadExample.Edge b a) 0 v → v < 3 := by
      intro v hv
      induction hv with
      | refl => decide
      | tail _ h ih =>
        rcases h with h | h <;> have := (hedge _ _).1 h <;> omega
    exact absurd (inv 3 h03) (by decide)

/-- Here the separate component is removed. -/
example : cleanupDeadNodes deadExample false 6 = some [0, 1, 2] := by decide

/-- Input 0 feeding operators 1 and 2; only operator 1 feeds the output 3. -/
def deadBranch : Graph where
  n := 4
  kind := fun v => match v with | 0 => .input | 3 => .output | _ => .op
  ins := fun v => match v with | 1 => [0] | 2 => [0] | 3 => [1] | _ => []
  outs := fun v => match v with | 0 => [1, 2] | 1 => [3] | _ => []

/-- C24 fails for weakly connected graphs: an operator whose result nobody uses is kept. -/
theorem C24_connected_false : ∃ (g : Graph) (r : List Nat) (v : Nat), g.Consistent ∧ g.Acyclic ∧ WeaklyConnected g ∧
    (∀ fuel, cleanupDeadNodes g true fuel = some r) ∧ v ∈ r ∧ g.kind v = .op ∧ ¬ Needed g v := by
  have hedge : ∀ u v, deadBranch.Edge u v → (u = 0 ∧ v = 1) ∨ (u = 0 ∧ v = 2) ∨ (u = 1 ∧ v = 3) := by
    intro u v h
    simp only [Graph.Edge, deadBranch] at h
    split at h <;> simp at h <;> omega
  have hinc : ∀ u v, u ∈ deadBranch.ins v ↔ (u = 0 ∧ v = 1) ∨ (u = 0 ∧ v = 2) ∨ (u = 1 ∧ v = 3) := by
    intro u v
    simp only [deadBranch]
    rcases v with _ | _ | _ | _ | v <;> simp
  have e01 : deadBranch.Edge 0 1 := by simp [Graph.Edge, deadBranch]
  have e02 : deadBranch.Edge 0 2 := by simp [Graph.Edge, deadBranch]
  have e13 : deadBranch.Edge 1 3 := by simp [Graph.Edge, deadBranch]
  refine ⟨deadBranch, [0, 1, 2, 3], 2, ⟨?_, ?_⟩, ?_, ?_, ?_, by decide, rfl, ?_⟩
  · intro u v
    rw [hinc]
    constructor
    · rintro (⟨rfl, rfl⟩ | ⟨rfl, rfl⟩ | ⟨rfl, rfl⟩) <;> assumption
    · exact hedge u v
  · intro u v h
    have := hedge u v h
    simp only [deadBranch]
    omega
  · have hlt : ∀ u v, Relation.TransGen deadBranch.Edge u v → u < v := by
      intro u v h
      induction h with
      | single h => have := hedge _ _ h; omega
      | tail _ h ih => have := hedge _ _ h; omega
    intro v h
    exact Nat.lt_irrefl _ (hlt _ _ h)
  · have base : ∀ v, v < 4 → Relation.ReflTransGen (fun a b => deadBranch.Edge a b ∨ deadBranch.Edge b a) v 0 := by
      intro v hv
      have h1 : Relation.ReflTransGen (fun a b => deadBranch.Edge a b ∨ deadBranch.Edge b a) 1 0 := .single (Or.inr e01)
      rcases (show v = 0 ∨ v = 1 ∨ v = 2 ∨ v = 3 by omega) with rfl | rfl | rfl | rfl
      · exact .refl
      · exact h1
      · exact .single (Or.inr e02)
      · exact .head (Or.inr e13) h1
    intro u v hu hv
    refine (base u hu).trans ?_
    have := base v hv
    rw [← Relation.reflTransGen_swap] at this
    clear hv
    generalize (0 : Nat) = z at this ⊢
    induction this with
    | refl => exact .refl
    | tail _ h ih => exact ih.tail (Or.symm h)
  · intro fuel; rfl
  · rintro ⟨o, _, hk, hr⟩
    rcases Relation.ReflTransGen.cases_head hr with rfl | ⟨u, hu, _⟩
    · simp [deadBranch] at hk
    · have := hedge _ _ hu
      omega

end Verif.Props
