import Verif.Model.CrossNet
import Verif.Props.CrossLayer

/-! C35 for whole networks. -/

namespace Verif.Props
open Verif.Model Verif.Spec

variable {M E : Type} [AddCommGroup M] [Module ℝ M]

/-- The activation of a step. -/
def cnAct : NetStep M E → Option (Nat → M → M)
  | .conv _ _ act => some act
  | .other _ => none

theorem cn_at_act (threshold : ℝ) (i : ℕ) (net net' : List (NetStep M E)) (h : equalizeAt threshold i net = some net') : net'.map cnAct = net.map cnAct := by
  induction i generalizing net net' with
  | zero =>
    unfold equalizeAt at h
    split at h
    · rw [Option.map_eq_some_iff] at h
      obtain ⟨pq, _, rfl⟩ := h
      rfl
    · rename_i heq; cases heq
    · cases h; rfl
  | succ i ih =>
    cases net with
    | nil => simp only [equalizeAt, Option.some.injEq] at h; rw [h]
    | cons l ls =>
      simp only [equalizeAt, Option.map_eq_some_iff] at h
      obtain ⟨ls', h1, rfl⟩ := h
      simp [ih ls ls' h1]

theorem cn_at (threshold : ℝ) (one : M) (i : ℕ) (net net' : List (NetStep M E)) (h : equalizeAt threshold i net = some net')
    (hact : ∀ act, (net.map cnAct)[i]? = some (some act) → PosHom act) (s : (Nat → M) × E) : runNet one net' s = runNet one net s := by
  induction i generalizing net net' s with
  | zero =>
    unfold equalizeAt at h
    split at h
    · rename_i p T act q U act' ls _
      rw [Option.map_eq_some_iff] at h
      obtain ⟨⟨p', q'⟩, hw, rfl⟩ := h
      obtain ⟨x, e⟩ := s
      simp only [runNet, NetStep.run]
      have hit : equalizeIters threshold 1 (p, q) = some (p', q') := by simp [equalizeIters, hw]
      congr 2
      funext c
      have := C35_function_partial threshold 1 p q p' q' hit T U one act (hact act (by simp [cnAct])) x c
      unfold pairApply at this
      rw [this]
    · rename_i heq; cases heq
    · cases h; rfl
  | succ i ih =>
    cases net with
    | nil => simp only [equalizeAt, Option.some.injEq] at h; rw [h]
    | cons l ls =>
      simp only [equalizeAt, Option.map_eq_some_iff] at h
      obtain ⟨ls', h1, rfl⟩ := h
      simp only [runNet]
      exact ih ls ls' h1 (fun act ha => hact act (by simpa using ha)) _

theorem cn_groups (threshold : ℝ) (one : M) (groups : List ℕ) (net net' : List (NetStep M E)) (h : equalizeGroups threshold groups net = some net')
    (hact : ∀ i ∈ groups, ∀ act, (net.map cnAct)[i]? = some (some act) → PosHom act) : net'.map cnAct = net.map cnAct ∧ ∀ s, runNet one net' s = runNet one net s := by
  induction groups generalizing net with
  | nil => cases h; exact ⟨rfl, fun _ => rfl⟩
  | cons i is ih =>
    simp only [equalizeGroups, Option.bind_eq_some_iff] at h
    obtain ⟨n1, h1, h2⟩ := h
    have ha := cn_at_act threshold i net n1 h1
    obtain ⟨h3, h4⟩ := ih n1 h2 (fun j hj act hj' => hact j (List.mem_cons_of_mem _ hj) act (by rw [← ha]; exact hj'))
    exact ⟨h3.trans ha, fun s => (h4 s).trans (cn_at threshold one i net n1 h1 (hact i List.mem_cons_self) s)⟩

/-- **C35, whole networks** Equalizing any pairs of convolutions of a network that follow each other, in any order, with common members, any number of times and with any threshold, does not
change what the network computes, whatever else it computes before, between and behind them, if the activation inside of every pair is positively homogeneous.  Partial: no scale is NaN. -/
theorem C35_network_partial (threshold : ℝ) (one : M) (groups : List ℕ) (iters : ℕ) (net net' : List (NetStep M E)) (h : equalizeNet threshold groups iters net = some net')
    (hact : ∀ i ∈ groups, ∀ p T act, net[i]? = some (.conv p T act) → PosHom act) (s : (Nat → M) × E) : runNet one net' s = runNet one net s := by
  have hact' : ∀ i ∈ groups, ∀ act, (net.map cnAct)[i]? = some (some act) → PosHom act := by
    intro i hi act h
    rw [List.getElem?_map, Option.map_eq_some_iff] at h
    obtain ⟨st, h1, h2⟩ := h
    cases st with
    | other f => cases h2
    | conv p T a =>
      simp only [cnAct, Option.some.injEq] at h2
      subst h2
      exact hact i hi p T a h1
  clear hact
  induction iters generalizing net with
  | zero => cases h; rfl
  | succ n ih =>
    simp only [equalizeNet, Option.bind_eq_some_iff] at h
    obtain ⟨n1, h1, h2⟩ := h
    obtain ⟨h3, h4⟩ := cn_groups threshold one groups net n1 h1 hact'
    rw [ih n1 h2 (fun i hi act ha => hact' i hi act (by rw [← h3]; exact ha)), h4]

/-- One step of the loop equalizes the two convolutions of its pair and nothing else. -/
theorem C35_step (threshold : ℝ) (i : ℕ) (net net' : List (NetStep M E)) (h : equalizeAt threshold i net = some net') (p q : ConvParams) (T U : Nat → M →ₗ[ℝ] M)
    (act act' : Nat → M → M) (h1 : net[i]? = some (.conv p T act)) (h2 : net[i + 1]? = some (.conv q U act')) :
    ∃ p' q', weightEqual threshold p q = some (p', q') ∧ net'[i]? = some (.conv p' T act) ∧ net'[i + 1]? = some (.conv q' U act') ∧
      ∀ (j : ℕ), j ≠ i → j ≠ i + 1 → net'[j]? = net[j]? := by
  induction i generalizing net net' with
  | zero =>
    cases net with
    | nil => cases h1
    | cons a ls => cases ls with
      | nil => cases h2
      | cons b ls =>
        simp only [List.getElem?_cons_zero, Option.some.injEq, List.getElem?_cons_succ] at h1 h2
        subst h1 h2
        simp only [equalizeAt, Option.map_eq_some_iff] at h
        obtain ⟨⟨p', q'⟩, hw, rfl⟩ := h
        refine ⟨p', q', hw, rfl, rfl, ?_⟩
        intro j hj hj'
        match j, hj, hj' with
        | 0, hj, _ => exact absurd rfl hj
        | 1, _, hj' => exact absurd rfl hj'
        | j + 2, _, _ => rfl
  | succ i ih =>
    cases net with
    | nil => cases h1
    | cons l ls =>
      simp only [equalizeAt, Option.map_eq_some_iff] at h
      obtain ⟨ls', h3, rfl⟩ := h
      obtain ⟨p', q', e1, e2, e3, e4⟩ := ih ls ls' h3 (by simpa using h1) (by simpa using h2)
      refine ⟨p', q', e1, by simpa using e2, by simpa using e3, ?_⟩
      intro j hj hj'
      cases j with
      | zero => rfl
      | succ j => simpa using e4 j (by omega) (by omega)

/-- With two iterations over the groups the pairs are handled in the order of the groups, twice. -/
theorem C35_order (threshold : ℝ) (i j : ℕ) (net : List (NetStep M E)) : equalizeNet threshold [i, j] 2 net =
    (equalizeAt threshold i net).bind fun n1 => (equalizeAt threshold j n1).bind fun n2 => (equalizeAt threshold i n2).bind fun n3 => equalizeAt threshold j n3 := by
  simp [equalizeNet, equalizeGroups, Option.bind_assoc]

/-- Hypotheses met: the pair of `CrossLayer`, with the identity between its layers and a shortcut around it, is equalized. -/
noncomputable def cnNet : List (NetStep ℝ (Nat → ℝ)) :=
  [.other fun s => (s.1, s.1), .conv sampleP (fun _ => LinearMap.id) (fun _ m => m), .conv sampleQ (fun _ => LinearMap.id) (fun _ m => max m 0), .other fun s => (fun c => s.1 c + s.2 c, s.2)]

example : ∃ net', equalizeNet (1 / 2) [1] 1 cnNet = some net' ∧ ∀ s, runNet 1 net' s = runNet 1 cnNet s := by
  have hw : weightEqual (1 / 2) sampleP sampleQ = some (scaleFirst (fun c => [2, 1 / 3].getD c 1) sampleP, scaleSecond (fun c => [2, 1 / 3].getD c 1) sampleQ) := by
    have h4 : Real.sqrt 4 = 2 := by rw [show (4 : ℝ) = 2 ^ 2 by norm_num, Real.sqrt_sq (by norm_num)]
    have h9 : Real.sqrt 9 = 3 := by rw [show (9 : ℝ) = 3 ^ 2 by norm_num, Real.sqrt_sq (by norm_num)]
    simp only [weightEqual, equalizeScales, sampleP, sampleQ, range1, range2]
    norm_num [List.range_succ, maxAbs, equalizeChannel, rawScale, clampScale, XReal.toReal?, h4, h9]
  have h : ∃ net', equalizeNet (1 / 2) [1] 1 cnNet = some net' := by
    simp only [equalizeNet, equalizeGroups, cnNet, equalizeAt, hw, Option.map_some, Option.bind_some]
    exact ⟨_, rfl⟩
  obtain ⟨net', h⟩ := h
  refine ⟨net', h, fun s => C35_network_partial (1 / 2) 1 [1] 1 cnNet net' h ?_ s⟩
  intro i hi p T act hc
  simp only [List.mem_singleton] at hi
  subst hi
  simp only [cnNet, List.getElem?_cons_succ, List.getElem?_cons_zero, Option.some.injEq, NetStep.conv.injEq] at hc
  rw [← hc.2.2]
  intro c a m _
  rfl

end Verif.Props
