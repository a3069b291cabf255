import Verif.Model.OnnxRepeat
import Mathlib.Data.List.Basic
import Mathlib.Tactic.Common
import Mathlib.Tactic.IntervalCases
import Mathlib.Tactic.NormNum
import Mathlib.Tactic.Ring

/-!
C148: repeating quantizers before exporting to ONNX.
-/

namespace Verif.Props
open Verif.Spec.OnnxRepeat Verif.Model.OnnxRepeat

namespace OnnxRepeat

/-- What is known about an entry of the queue. -/
def Good (nodes : List Node) (it : Item) : Prop :=
  (∃ nd, nodes[it.node]? = some nd ∧ nd.kind.mod = none ∧ nd.prevs = [] ∧ it.prev = none) ∨
  ∃ nd m, nodes[it.node]? = some nd ∧ nd.prevs[it.idx]? = some m ∧ Comes nodes m it.prev

/-- A swap whose end reads, at its place, a tensor that was quantized last by its start. -/
def Sound (nodes : List Node) (s : Swap) : Prop :=
  ∃ (n : Nat) (nd : Node) (m : Nat), nodes[n]? = some nd ∧ nd.kind.mod = some s.stop ∧ nd.prevs[s.idx]? = some m ∧ Comes nodes m (some s.start) ∧ s.start ≠ s.stop

theorem modAfter_some {nd : Node} {it : Item} {q : Nat} (h : nd.kind.mod = some q) : modAfter nd it = some q := by
  cases hk : nd.kind <;> rw [hk] at h <;> simp [Kind.mod] at h <;> simp [modAfter, hk, h]

theorem modAfter_none {nd : Node} {it : Item} (h : nd.kind.mod = none) : modAfter nd it = it.prev := by
  cases hk : nd.kind <;> rw [hk] at h <;> simp [Kind.mod] at h <;> simp [modAfter, hk]

theorem comes_after {nodes : List Node} {it : Item} {nd : Node} (hnd : nodes[it.node]? = some nd) (h : Good nodes it) : Comes nodes it.node (modAfter nd it) := by
  cases hm : nd.kind.mod with
  | some q =>
    rw [modAfter_some hm]
    exact .here hnd hm
  | none =>
    rw [modAfter_none hm]
    rcases h with ⟨nd', h1, h2, h3, h4⟩ | ⟨nd', m, h1, h2, h3⟩
    · rw [hnd] at h1
      cases h1
      rw [h4]
      exact .start hnd hm h3
    · rw [hnd] at h1
      cases h1
      exact .pass hnd hm (List.mem_of_getElem? h2) h3

theorem found_sound {nodes : List Node} {it : Item} {nd : Node} (hnd : nodes[it.node]? = some nd) (h : Good nodes it) (s : Swap) (hs : found nd it = some s) : Sound nodes s := by
  unfold found at hs
  have key : ∀ a b, it.prev = some a → modAfter nd it = some b → b ≠ a → s = ⟨a, b, it.idx⟩ → Sound nodes s := by
    intro a b ha hb hab e
    subst e
    rcases h with ⟨nd', h1, h2, h3, h4⟩ | ⟨nd', m, h1, h2, h3⟩
    · rw [ha] at h4; cases h4
    · rw [hnd] at h1
      cases h1
      have hm : nd.kind.mod = some b := by
        cases hm : nd.kind.mod with
        | some q => rw [modAfter_some hm] at hb; exact hb
        | none => rw [modAfter_none hm, ha] at hb; cases hb; exact absurd rfl hab
      exact ⟨it.node, nd, m, hnd, hm, h2, ha ▸ h3, Ne.symm hab⟩
  cases ha : it.prev with
  | none =>
    rw [ha] at hs
    cases hk : nd.kind <;> rw [hk] at hs <;> simp at hs
  | some a =>
    cases hb : modAfter nd it with
    | none =>
      rw [ha, hb] at hs
      cases hk : nd.kind <;> rw [hk] at hs <;> simp at hs
    | some b =>
      rw [ha, hb] at hs
      by_cases hc : passed nd it = true ∧ b ≠ a
      · refine key a b ha hb hc.2 ?_
        cases hk : nd.kind <;> rw [hk] at hs <;> simp [hc] at hs <;> exact hs.symm
      · cases hk : nd.kind <;> rw [hk] at hs <;> simp only [if_neg hc] at hs <;> cases hs

theorem follow_good {nodes : List Node} {it : Item} {nd : Node} (hnd : nodes[it.node]? = some nd) (h : Good nodes it) : ∀ j ∈ follow nodes nd it, Good nodes j := by
  intro j hj
  unfold follow at hj
  obtain ⟨k, hk, rfl⟩ := List.mem_map.1 hj
  unfold nexts at hk
  obtain ⟨hk1, hk2⟩ := List.mem_filter.1 hk
  cases hn : nodes[k]? with
  | none => rw [hn] at hk2; cases hk2
  | some nk =>
    rw [hn] at hk2
    simp only [decide_eq_true_eq] at hk2
    refine Or.inr ⟨nk, it.node, hn, ?_, comes_after hnd h⟩
    simp only [hn, Option.map_some, Option.getD_some]
    rw [List.getElem?_eq_getElem (List.idxOf_lt_length_iff.2 hk2)]
    simp

theorem search_sound (nodes : List Node) : ∀ (k : Nat) (q : List Item) (vis : List (Nat × Nat)) (sw : List Swap), (∀ it ∈ q, Good nodes it) → (∀ s ∈ sw, Sound nodes s) →
    ∀ s ∈ search nodes k q vis sw, Sound nodes s := by
  intro k
  induction k with
  | zero => intro q vis sw _ hs; exact hs
  | succ k ih =>
    intro q vis sw hq hs
    cases q with
    | nil => exact hs
    | cons it q =>
      rw [search]
      have hq' : ∀ i ∈ q, Good nodes i := fun i hi => hq i (by simp [hi])
      by_cases hv : (it.node, it.idx) ∈ vis
      · rw [if_pos hv]
        exact ih q vis sw hq' hs
      · rw [if_neg hv]
        cases hn : nodes[it.node]? with
        | none => exact ih q _ sw hq' hs
        | some nd =>
          have hg := hq it (by simp)
          refine ih _ _ _ ?_ ?_
          · intro i hi
            rcases List.mem_append.1 hi with hi | hi
            · exact hq' i hi
            · exact follow_good hn hg i hi
          · intro s hsm
            rcases List.mem_append.1 hsm with hsm | hsm
            · exact hs s hsm
            · exact found_sound hn hg s (by simpa using hsm)

theorem fold_fixed {V : Type} (Q : Nat → V → V) (x : V) (l : List Swap) (h : ∀ s ∈ l, Q s.start x = x) : l.foldl (fun x s => Q s.start x) x = x := by
  induction l with
  | nil => rfl
  | cons s l ih =>
    rw [List.foldl_cons, h s (by simp)]
    exact ih (fun t ht => h t (by simp [ht]))

theorem hooks_fixed {V : Type} (Q : Nat → V → V) (sw : List Swap) (nd : Node) (i : Nat) (x : V) (h : ∀ b, nd.kind.mod = some b → ∀ s ∈ sw, s.stop = b → s.idx = i → Q s.start x = x) :
    hooks Q sw nd i x = x := by
  unfold hooks
  cases hm : nd.kind.mod with
  | none => rfl
  | some b =>
    apply fold_fixed
    intro s hs
    obtain ⟨hs1, hs2⟩ := List.mem_filter.1 hs
    simp only [decide_eq_true_eq] at hs2
    exact h b hm s hs1 hs2.1 hs2.2

end OnnxRepeat

/-- Every quantizer that is repeated in front of a module is the last one on some way to the tensor the module reads there, and not the module's own. -/
theorem C148_sound (nodes : List Node) (steps : Nat) (inputs : List Nat) (hin : ∀ n ∈ inputs, ∃ nd, nodes[n]? = some nd ∧ nd.kind.mod = none ∧ nd.prevs = []) :
    ∀ s ∈ swaps nodes steps inputs, ∃ (n : Nat) (nd : Node) (m : Nat), nodes[n]? = some nd ∧ nd.kind.mod = some s.stop ∧ nd.prevs[s.idx]? = some m ∧ Comes nodes m (some s.start) ∧ s.start ≠ s.stop := by
  apply OnnxRepeat.search_sound
  · intro it hit
    obtain ⟨n, hn, rfl⟩ := List.mem_map.1 hit
    obtain ⟨nd, h1, h2, h3⟩ := hin n hn
    exact Or.inl ⟨nd, h1, h2, h3, rfl⟩
  · simp

/-- **C148** (for models in which every operator without quantizer reads one tensor and keeps the values of its quantization, and no module is called twice): the repeated quantizers change
no value of the model, for any inputs. -/
theorem C148_same_partial {V : Type} [Inhabited V] (g : Nat → List V → V) (Q : Nat → V → V) (acp : Nat → Bool) (nodes : List Node) (steps : Nat) (inputs : List Nat) (sw : List Swap)
    (hin : ∀ n ∈ inputs, ∃ nd, nodes[n]? = some nd ∧ nd.kind.mod = none ∧ nd.prevs = [])
    (horder : ∀ (n : Nat) (nd : Node), nodes[n]? = some nd → ∀ m ∈ nd.prevs, m < n)
    (hacp : ∀ (n : Nat) (nd : Node) (q : Nat), nodes[n]? = some nd → nd.kind = .deq q → acp q = false)
    (hQ : ∀ (q : Nat) (x : V), Q q (Q q x) = Q q x)
    (hone : ∀ (n : Nat) (nd : Node) (q : Nat), nodes[n]? = some nd → nd.kind.mod = none → Comes nodes n (some q) → acp q = true → nd.prevs.length = 1 ∧ ∀ x, Q q x = x → Q q (g n [x]) = g n [x])
    (honce : ∀ (n n' : Nat) (nd nd' : Node), nodes[n]? = some nd → nodes[n']? = some nd' → nd.kind.mod ≠ none → nd.kind.mod = nd'.kind.mod → n = n')
    (h : exported acp (swaps nodes steps inputs) = some sw) : run g Q (hooks Q sw) nodes [] = run g Q asIs nodes [] := by
  have hsw : sw = swaps nodes steps inputs ∧ ∀ s ∈ sw, acp s.start = true := by
    unfold exported at h
    by_cases hc : (swaps nodes steps inputs).all (fun s => acp s.start)
    · rw [if_pos hc] at h
      cases h
      exact ⟨rfl, fun s hs => List.all_eq_true.1 hc s hs⟩
    · rw [if_neg hc] at h
      cases h
  have hsound := C148_sound nodes steps inputs hin
  rw [← hsw.1] at hsound
  have main : ∀ (rest done : List Node) (vs : List V), done ++ rest = nodes → vs.length = done.length →
      (∀ m a x, vs[m]? = some x → Comes nodes m (some a) → acp a = true → Q a x = x) → run g Q (hooks Q sw) rest vs = run g Q asIs rest vs := by
    intro rest
    induction rest with
    | nil => intro _ _ _ _ _; rfl
    | cons nd rest ih =>
      intro done vs he hl hinv
      have hnd : nodes[vs.length]? = some nd := by
        rw [← he, hl]
        simp
      have hlt : ∀ m ∈ nd.prevs, m < vs.length := horder _ _ hnd
      have hval : value g Q (hooks Q sw) vs.length nd vs = value g Q asIs vs.length nd vs := by
        have hargs : nd.prevs.mapIdx (fun i m => hooks Q sw nd i (vs.getD m default)) = nd.prevs.mapIdx (fun i m => asIs nd i (vs.getD m default)) := by
          apply List.ext_getElem
          · simp
          · intro i h1 h2
            simp only [List.getElem_mapIdx, asIs]
            have hi : i < nd.prevs.length := by simpa using h1
            apply OnnxRepeat.hooks_fixed
            · intro b hm s hs1 hb hidx
              obtain ⟨n', nd', m, e1, e2, e3, e4, -⟩ := hsound s hs1
              have : vs.length = n' := honce _ _ _ _ hnd e1 (by simp [hm]) (by rw [hm, e2, hb])
              subst this
              rw [hnd] at e1
              cases e1
              rw [hidx, List.getElem?_eq_getElem hi] at e3
              cases e3
              have hml := hlt _ (List.getElem_mem hi)
              have hget : vs[nd.prevs[i]]? = some (vs.getD nd.prevs[i] default) := by
                rw [List.getD_eq_getElem?_getD, List.getElem?_eq_getElem hml]
                rfl
              exact hinv _ _ _ hget e4 (hsw.2 s hs1)
        unfold value
        rw [hargs]
      rw [run, run, hval]
      refine ih (done ++ [nd]) _ (by simp [he]) (by simp [hl]) ?_
      intro m a x hx hc ha
      by_cases hm : m < vs.length
      · rw [List.getElem?_append_left hm] at hx
        exact hinv m a x hx hc ha
      · have hm' : m = vs.length := by
          have : m < (vs ++ [value g Q asIs vs.length nd vs]).length := by
            by_contra hge
            rw [List.getElem?_eq_none (by omega)] at hx
            cases hx
          simp at this
          omega
        subst hm'
        simp only [List.length_append, List.getElem?_append_right (Nat.le_refl _), Nat.sub_self, List.getElem?_cons_zero, Option.some.injEq] at hx
        subst hx
        cases hc with
        | here h1 h2 =>
          rw [hnd] at h1
          cases h1
          cases hk : nd.kind with
          | obs q =>
            rw [hk] at h2
            simp only [Kind.mod, Option.some.injEq] at h2
            subst h2
            simp only [value, hk]
            exact hQ _ _
          | deq q =>
            have := hacp _ _ _ hnd hk
            rw [hk] at h2
            simp only [Kind.mod, Option.some.injEq] at h2
            subst h2
            rw [this] at ha
            cases ha
          | ident => rw [hk] at h2; cases h2
          | plain => rw [hk] at h2; cases h2
          | float => rw [hk] at h2; cases h2
        | pass h1 h2 h3 h4 =>
          rename_i p nd'
          rw [hnd] at h1
          cases h1
          obtain ⟨k1, k2⟩ := hone _ _ _ hnd h2 (.pass hnd h2 h3 h4) ha
          obtain ⟨p', hp'⟩ := List.length_eq_one_iff.1 k1
          rw [hp'] at h3
          simp only [List.mem_singleton] at h3
          subst h3
          have hpl := hlt p (by simp [hp'])
          have hget : vs[p]? = some (vs.getD p default) := by
            rw [List.getD_eq_getElem?_getD, List.getElem?_eq_getElem hpl]
            rfl
          have hfix := hinv p a _ hget h4 ha
          have := k2 _ hfix
          unfold value
          simp only [hp', List.mapIdx_cons, List.mapIdx_nil, asIs]
          cases hk : nd.kind <;> rw [hk] at h2 <;> simp [Kind.mod] at h2 <;> exact this
  exact main nodes [] [] rfl rfl (by simp)

/-- Input, `QuantStub`, convolution, flattening, linear layer, `DeQuantStub`: the quantizer of the convolution is repeated in front of the linear layer. -/
example : swaps [⟨.float, []⟩, ⟨.obs 0, [0]⟩, ⟨.obs 1, [1]⟩, ⟨.plain, [2]⟩, ⟨.obs 2, [3]⟩, ⟨.deq 3, [4]⟩] 20 [0] = [⟨1, 2, 0⟩] := by decide

def flatNodes : List Node := [⟨.float, []⟩, ⟨.obs 0, [0]⟩, ⟨.obs 1, [1]⟩, ⟨.plain, [2]⟩, ⟨.obs 2, [3]⟩, ⟨.deq 3, [4]⟩]

def evenG (n : Nat) (xs : List Int) : Int := if n = 0 then 7 else if n = 3 then 2 * xs.headD 0 else xs.headD 0 + 1

/-- The hypotheses of `C148_same_partial` hold for this model when quantizers round down to even numbers and the operator in between doubles. -/
example : run evenG (fun _ x => x / 2 * 2) (hooks (fun _ x => x / 2 * 2) [⟨1, 2, 0⟩]) flatNodes [] = run evenG (fun _ x => x / 2 * 2) asIs flatNodes [] := by
  have hlt : ∀ (n : Nat) (nd : Node), flatNodes[n]? = some nd → n < 6 := by
    intro n nd h
    by_contra hge
    rw [List.getElem?_eq_none (by simp [flatNodes]; omega)] at h
    cases h
  refine C148_same_partial evenG _ (fun q => decide (q ≠ 3)) flatNodes 20 [0] [⟨1, 2, 0⟩] ?_ ?_ ?_ ?_ ?_ ?_ (by decide)
  · intro n hn
    simp only [List.mem_singleton] at hn
    subst hn
    exact ⟨_, rfl, rfl, rfl⟩
  · intro n nd h
    have := hlt n nd h
    interval_cases n <;> cases h <;> simp
  · intro n nd q h hk
    have := hlt n nd h
    interval_cases n <;> cases h <;> cases hk
    decide
  · intro q x
    omega
  · intro n nd q h hk hc _
    have := hlt n nd h
    interval_cases n <;> cases h <;> simp [Kind.mod] at hk
    · exfalso
      cases hc with
      | here h1 h2 => cases h1; cases h2
      | pass h1 _ h3 _ => cases h1; cases h3
    · refine ⟨rfl, fun x _ => ?_⟩
      simp only [evenG, List.headD_cons]
      norm_num
      ring
  · intro n n' nd nd' h h' hk he
    have h6 := hlt n nd h
    have h6' := hlt n' nd' h'
    interval_cases n <;> cases h <;> interval_cases n' <;> cases h' <;> simp [Kind.mod] at hk he ⊢

/-- The model `x.view(x0.size(0), -1)` after two convolutions: `QuantStub`, two convolutions, `size` of the input, `view`, linear layer. -/
def sizeNodes : List Node := [⟨.float, []⟩, ⟨.obs 0, [0]⟩, ⟨.obs 1, [1]⟩, ⟨.obs 2, [2]⟩, ⟨.float, [1]⟩, ⟨.plain, [3, 4]⟩, ⟨.obs 3, [5]⟩]

/-- The full claim is false: if the size of the input is used in `view`, the quantizer of the input is repeated in front of the next layer, instead of that of the layer before, and what the
layer reads is cut to the range of the input. -/
theorem C148_size_false : swaps sizeNodes 40 [0] = [⟨0, 3, 0⟩] ∧
    (run (fun n xs => if n = 0 then (1 : Int) else if n = 2 ∨ n = 3 then 10 * xs.headD 0 else xs.headD 0) (fun q x => min x (if q = 0 then 1 else 100)) asIs sizeNodes []).getLast? = some 100 ∧
    (run (fun n xs => if n = 0 then (1 : Int) else if n = 2 ∨ n = 3 then 10 * xs.headD 0 else xs.headD 0) (fun q x => min x (if q = 0 then 1 else 100))
      (hooks (fun q x => min x (if q = 0 then 1 else 100)) [⟨0, 3, 0⟩]) sizeNodes []).getLast? = some 1 := by decide +kernel

/-- A layer that is called twice, on the flattened results of two layers. -/
def sharedNodes : List Node := [⟨.float, []⟩, ⟨.obs 0, [0]⟩, ⟨.obs 1, [1]⟩, ⟨.obs 2, [1]⟩, ⟨.plain, [2]⟩, ⟨.plain, [3]⟩, ⟨.obs 3, [4]⟩, ⟨.obs 3, [5]⟩]

/-- It is false for a layer that is called twice: both quantizers are applied in both calls. -/
theorem C148_shared_false : swaps sharedNodes 40 [0] = [⟨1, 3, 0⟩, ⟨2, 3, 0⟩] ∧
    run (fun n xs => if n = 0 then (50 : Int) else xs.headD 0) (fun q x => min x (if q = 1 then 1 else 100)) asIs sharedNodes [] = [50, 50, 1, 50, 1, 50, 1, 50] ∧
    run (fun n xs => if n = 0 then (50 : Int) else xs.headD 0) (fun q x => min x (if q = 1 then 1 else 100))
      (hooks (fun q x => min x (if q = 1 then 1 else 100)) [⟨1, 3, 0⟩, ⟨2, 3, 0⟩]) sharedNodes [] = [50, 50, 1, 50, 1, 50, 1, 1] := by decide +kernel

/-- Preparing the export of a model with a quantized input that is dequantized at once, and quantized again later, fails with an AttributeError. -/
theorem C148_input_false : exported (fun q => decide (q ≠ 0)) (swaps [⟨.plain, []⟩, ⟨.deq 0, [0]⟩, ⟨.float, [1]⟩, ⟨.obs 1, [2]⟩, ⟨.obs 2, [3]⟩] 40 [0]) = none := by decide +kernel

end Verif.Props
