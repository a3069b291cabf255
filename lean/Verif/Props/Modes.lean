import Verif.Model.Modes
import Mathlib.Data.List.Nodup

/-!
C136: modes of models are put back, and frozen statistics stay.
-/

namespace Verif.Props
open Verif.Spec.Modes Verif.Model.Modes

theorem restoreModes_cons (e : Nat × List Nat × Bool) (l : List (Nat × List Nat × Bool)) (flags : Nat → Bool) : restoreModes (e :: l) flags = restoreModes l (setAll flags e.2.1 e.2.2) := by
  unfold restoreModes
  rw [List.foldl_cons]
  cases e.2.2 <;> rfl

/-- A module keeps its flag when no later module contains it. -/
theorem restoreModes_other (x : Nat) : ∀ (l : List (Nat × List Nat × Bool)) (flags : Nat → Bool), (∀ e ∈ l, x ∉ e.2.1) → restoreModes l flags x = flags x
  | [], _, _ => rfl
  | e :: l, flags, h => by
    rw [restoreModes_cons, restoreModes_other x l _ (fun q hq => h q (List.mem_cons_of_mem _ hq))]
    exact if_neg (h e List.mem_cons_self)

theorem restoreModes_all (x : Nat) (b : Bool) : ∀ (l : List (Nat × List Nat × Bool)) (flags : Nat → Bool), flags x = b → (∀ e ∈ l, e.2.2 = b) → restoreModes l flags x = b
  | [], _, hf, _ => hf
  | e :: l, flags, hf, h => by
    rw [restoreModes_cons]
    refine restoreModes_all x b l _ ?_ fun q hq => h q (List.mem_cons_of_mem _ hq)
    unfold setAll
    by_cases hx : x ∈ e.2.1
    · rw [if_pos hx, h e List.mem_cons_self]
    · rw [if_neg hx, hf]

theorem modules_memo : ∀ (m : Forest) (memo : List Nat), m.ids.Nodup → (∀ i ∈ m.ids, i ∉ memo) →
    (m.modules memo).1.map Prod.fst = m.ids ∧ (∀ i, i ∈ (m.modules memo).2 ↔ i ∈ memo ∨ i ∈ m.ids) ∧ (∀ e ∈ (m.modules memo).1, ∀ i ∈ e.2, i ∈ m.ids) ∧ (∀ e ∈ (m.modules memo).1, e.1 ∈ e.2) ∧
    (m.modules memo).1.Pairwise (fun a b => a.1 ∉ b.2)
  | .nil, memo, _, _ => by simp [Forest.modules, Forest.ids]
  | .cons i k r, memo, hn, hm => by
    rw [Forest.ids, List.nodup_cons, List.nodup_append] at hn
    obtain ⟨hi, hk, hr, hkr⟩ := hn
    have him : i ∉ memo := hm i (by simp [Forest.ids])
    have h1 := modules_memo k (i :: memo) hk (by
      intro j hj hmem
      rcases List.mem_cons.mp hmem with rfl | hmem
      · exact hi (List.mem_append_left _ hj)
      · exact hm j (by simp [Forest.ids, hj]) hmem)
    obtain ⟨a1, a2, a3, a4, a5⟩ := h1
    have h2 := modules_memo r (k.modules (i :: memo)).2 hr (by
      intro j hj hmem
      rcases (a2 j).mp hmem with hmem | hmem
      · rcases List.mem_cons.mp hmem with rfl | hmem
        · exact hi (List.mem_append_right _ hj)
        · exact hm j (by simp [Forest.ids, hj]) hmem
      · exact hkr j hmem j hj rfl)
    obtain ⟨b1, b2, b3, b4, b5⟩ := h2
    rw [Forest.modules, if_neg him]
    refine ⟨?_, ?_, ?_, ?_, ?_⟩
    · simp [Forest.ids, a1, b1]
    · intro j
      rw [b2, a2]
      simp only [Forest.ids, List.mem_cons, List.mem_append]
      tauto
    · intro e he j hj
      rcases List.mem_cons.mp he with rfl | he
      · simp only [Forest.ids, List.mem_cons, List.mem_append] at hj ⊢
        tauto
      · rcases List.mem_append.mp he with he | he
        · have := a3 e he j hj
          simp [Forest.ids, this]
        · have := b3 e he j hj
          simp [Forest.ids, this]
    · intro e he
      rcases List.mem_cons.mp he with rfl | he
      · exact List.mem_cons_self
      · rcases List.mem_append.mp he with he | he
        · exact a4 e he
        · exact b4 e he
    · rw [List.pairwise_cons]
      refine ⟨?_, ?_⟩
      · intro e he hie
        rcases List.mem_append.mp he with he | he
        · exact hi (List.mem_append_left _ (a3 e he i hie))
        · exact hi (List.mem_append_right _ (b3 e he i hie))
      · rw [List.pairwise_append]
        refine ⟨a5, b5, ?_⟩
        intro p hp q hq hpq
        exact hkr p.1 (a3 p hp p.1 (a4 p hp)) p.1 (b3 q hq p.1 hpq) rfl

theorem restoreModes_pairwise (x : Nat) (flags : Nat → Bool) : ∀ (l : List (Nat × List Nat)) (now : Nat → Bool), l.Pairwise (fun a b => a.1 ∉ b.2) → (∀ e ∈ l, e.1 ∈ e.2) → x ∈ l.map Prod.fst →
    restoreModes (l.map fun e => (e.1, e.2, flags e.1)) now x = flags x
  | [], _, _, _, h => by simp at h
  | e :: l, now, hp, hs, h => by
    rw [List.pairwise_cons] at hp
    rw [List.map_cons, restoreModes_cons]
    by_cases hx : x ∈ l.map Prod.fst
    · exact restoreModes_pairwise x flags l _ hp.2 (fun q hq => hs q (List.mem_cons_of_mem _ hq)) hx
    · have hxe : x = e.1 := by
        rcases List.mem_cons.mp h with h | h
        · exact h
        · exact absurd h hx
      rw [restoreModes_other]
      · unfold setAll
        rw [if_pos (by rw [hxe]; exact hs e List.mem_cons_self), hxe]
      · intro q hq
        obtain ⟨q', hq', rfl⟩ := List.mem_map.mp hq
        rw [hxe]
        exact hp.1 q' hq'

/-- **C136**.  After a model in which no module is used twice has been quantized, each of its modules is in the mode it had, whatever happened to the modes in between. -/
theorem C136_modes_partial (m : Forest) (flags now : Nat → Bool) (h : m.ids.Nodup) : ∀ i ∈ m.ids, restoreModes (saveModes m flags) now i = flags i := by
  intro i hi
  obtain ⟨h1, _, _, h4, h5⟩ := modules_memo m [] h (by simp)
  exact restoreModes_pairwise i flags _ now h5 h4 (by rw [h1]; exact hi)

example : ∀ i ∈ [1, 2, 3, 4], restoreModes (saveModes (.cons 1 (.cons 2 (.cons 3 .nil .nil) (.cons 4 .nil .nil)) .nil) (fun i => i = 1 ∨ i = 3)) (fun _ => true) i = decide (i = 1 ∨ i = 3) := by
  intro i hi
  exact C136_modes_partial (.cons 1 (.cons 2 (.cons 3 .nil .nil) (.cons 4 .nil .nil)) .nil) (fun i => i = 1 ∨ i = 3) _ (by decide) i hi

/-- **C136**.  The same holds for models that use modules several times when all modules are in one mode. -/
theorem C136_uniform (root : Nat) (kids : Forest) (b : Bool) (flags now : Nat → Bool) (h : ∀ e ∈ ((Forest.cons root kids .nil).modules []).1, flags e.1 = b) :
    ∀ i ∈ (Forest.cons root kids .nil).ids, restoreModes (saveModes (.cons root kids .nil) flags) now i = b := by
  intro i hi
  have hm : ((Forest.cons root kids .nil).modules []).1 = (root, root :: kids.ids) :: (kids.modules [root]).1 := by
    rw [Forest.modules, if_neg (by simp)]
    simp [Forest.modules]
  unfold saveModes
  rw [hm] at h ⊢
  rw [List.map_cons, restoreModes_cons]
  refine restoreModes_all i b _ _ ?_ ?_
  · unfold setAll
    rw [if_pos (by simpa [Forest.ids] using hi)]
    exact h _ List.mem_cons_self
  · intro e he
    obtain ⟨q, hq, rfl⟩ := List.mem_map.mp he
    exact h q (List.mem_cons_of_mem _ hq)

example : restoreModes (saveModes (.cons 1 (.cons 2 (.cons 3 .nil .nil) (.cons 4 (.cons 3 .nil .nil) .nil)) .nil) (fun _ => false)) (fun _ => true) 3 = false :=
  C136_uniform 1 (.cons 2 (.cons 3 .nil .nil) (.cons 4 (.cons 3 .nil .nil) .nil)) false _ _ (by simp) 3 (by decide)

/-- **C136** fails: a frozen module (3) inside two modules, one of them in evaluation (2) and one in training mode (4), is in training mode afterwards. -/
theorem C136_shared_false : ∃ (m : Forest) (flags : Nat → Bool) (i : Nat), i ∈ m.ids ∧ restoreModes (saveModes m flags) (switchAll m flags true) i ≠ flags i :=
  ⟨.cons 1 (.cons 2 (.cons 3 .nil .nil) (.cons 4 (.cons 3 .nil .nil) .nil)) .nil, fun i => i = 1 ∨ i = 4, 3, by decide, by decide⟩

/-- What any use keeps of a frozen layer. -/
theorem use_frozen {S X : Type} (upd : S → X → S) (l : BnLayer S) (hk : l.kind ≠ .single) (hf : l.freezeBn = true) (ht : l.bnTraining = false) (us : List (Use X)) :
    (us.foldl (use upd) l).kind = l.kind ∧ (us.foldl (use upd) l).freezeBn = true ∧ (us.foldl (use upd) l).bnTraining = false ∧ (us.foldl (use upd) l).stats = l.stats := by
  induction us generalizing l with
  | nil => exact ⟨rfl, hf, ht, rfl⟩
  | cons u us ih =>
    rw [List.foldl_cons]
    cases u with
    | train b =>
      have he : use upd l (.train b) = { l with training := b } := by
        show l.train b = _
        unfold BnLayer.train
        rw [if_neg hk, if_pos hf]
      rw [he]
      exact ih _ hk hf ht
    | forward x =>
      have he : use upd l (.forward x) = l := by
        show l.forward upd x = _
        unfold BnLayer.forward
        rw [if_neg (by rw [ht]; simp)]
      rw [he]
      exact ih _ hk hf ht

/-- **C136**.  After `train` froze the batch norms, PyTorch's fused layers keep their statistics, whatever modes and batches follow. -/
theorem C136_frozen_partial {S X : Type} (upd : S → X → S) (l : BnLayer S) (hk : l.kind = .torchFused) (us : List (Use X)) : (us.foldl (use upd) (applyFreeze l)).stats = l.stats := by
  unfold applyFreeze
  rw [if_pos hk]
  exact (use_frozen upd l.freeze (by show l.kind ≠ _; rw [hk]; decide) rfl rfl us).2.2.2

/-- **C136**.  The same for TinyNN's transposed convolution with batch norm when its own method is called. -/
theorem C136_frozen_method {S X : Type} (upd : S → X → S) (l : BnLayer S) (hk : l.kind = .convTranspose) (us : List (Use X)) : (us.foldl (use upd) l.freeze).stats = l.stats :=
  (use_frozen upd l.freeze (by show l.kind ≠ _; rw [hk]; decide) rfl rfl us).2.2.2

/-- Not a matter of layers that would not change anyway. -/
example : ([Use.train true, .forward 5].foldl (use fun s x : Nat => s + x) (newLayer .torchFused 1)).stats = 6 ∧
    ([Use.train true, .forward 5].foldl (use fun s x : Nat => s + x) (applyFreeze (newLayer .torchFused 1))).stats = 1 := by decide

/-- **C136** fails: `train` does not freeze TinyNN's own transposed convolutions with batch norm, nor batch norms that were not fused. -/
theorem C136_apply_false {S X : Type} (upd : S → X → S) (s : S) (x : X) (k : BnKind) (hk : k ≠ .torchFused) :
    ([Use.train true, .forward x].foldl (use upd) (applyFreeze (newLayer k s))).stats = upd s x := by
  cases k with
  | torchFused => exact absurd rfl hk
  | convTranspose => rfl
  | single => rfl

theorem forwards_eval {S X : Type} (upd : S → X → S) (l : BnLayer S) (h : l.bnTraining = false) (xs : List X) : xs.foldl (BnLayer.forward upd) l = l := by
  induction xs with
  | nil => rfl
  | cons x xs ih =>
    have : l.forward upd x = l := by
      unfold BnLayer.forward
      rw [if_neg (by rw [h]; simp)]
    rw [List.foldl_cons, this, ih]

/-- The flags of layers as users leave them: a frozen batch norm is not training. -/
def Reached {S : Type} (l : BnLayer S) : Prop := l.kind ≠ .single → l.freezeBn = true → l.bnTraining = false

/-- **C136**.  After `eval()`, batches do not change the statistics, of any layer. -/
theorem C136_eval {S X : Type} (upd : S → X → S) (l : BnLayer S) (h : Reached l) (xs : List X) : (xs.foldl (BnLayer.forward upd) (l.train false)).stats = l.stats := by
  have h1 : (l.train false).bnTraining = false ∧ (l.train false).stats = l.stats := by
    unfold BnLayer.train
    by_cases hk : l.kind = .single
    · rw [if_pos hk]
      exact ⟨rfl, rfl⟩
    · rw [if_neg hk]
      by_cases hf : l.freezeBn = true
      · rw [if_pos hf]
        exact ⟨h hk hf, rfl⟩
      · rw [if_neg hf]
        exact ⟨rfl, rfl⟩
  rw [forwards_eval upd _ h1.1 xs, h1.2]

/-- All calls on a new layer keep `Reached`. -/
inductive FromNew {S X : Type} (upd : S → X → S) : BnLayer S → Prop
  | new (k : BnKind) (s : S) : FromNew upd (newLayer k s)
  | use (l : BnLayer S) (u : Use X) : FromNew upd l → FromNew upd (use upd l u)
  | freeze (l : BnLayer S) : FromNew upd l → FromNew upd l.freeze
  | unfreeze (l : BnLayer S) : FromNew upd l → FromNew upd l.unfreeze
  | apply (l : BnLayer S) : FromNew upd l → FromNew upd (applyFreeze l)

theorem C136_reached {S X : Type} (upd : S → X → S) (l : BnLayer S) (h : FromNew upd l) : Reached l := by
  induction h with
  | new k s => intro _ h; exact absurd h (by simp [newLayer])
  | use l u _ ih =>
    cases u with
    | train b =>
      show Reached (l.train b)
      unfold BnLayer.train
      by_cases hk : l.kind = .single
      · rw [if_pos hk]
        exact fun h => absurd hk h
      · rw [if_neg hk]
        by_cases hf : l.freezeBn = true
        · rw [if_pos hf]
          exact fun _ _ => ih hk hf
        · rw [if_neg hf]
          exact fun _ h => absurd h hf
    | forward x =>
      show Reached (l.forward upd x)
      unfold BnLayer.forward
      by_cases hb : l.bnTraining = true
      · rw [if_pos hb]
        exact ih
      · rw [if_neg hb]
        exact ih
  | freeze l _ ih => exact fun _ _ => rfl
  | unfreeze l _ ih => exact fun _ h => absurd h (by simp [BnLayer.unfreeze])
  | apply l _ ih =>
    unfold applyFreeze
    by_cases hk : l.kind = .torchFused
    · rw [if_pos hk]
      exact fun _ _ => rfl
    · rw [if_neg hk]
      exact ih

/-- **C136** fails: `update_bn_stats` on a model in evaluation mode makes evaluation change the statistics. -/
theorem C136_update_false {S X : Type} (upd : S → X → S) (s : S) (x : X) : (((newLayer .convTranspose s).train false).unfreeze.forward upd x).stats = upd s x ∧
    (((newLayer .convTranspose s).train false).unfreeze.forward upd x).training = false := ⟨rfl, rfl⟩

end Verif.Props
