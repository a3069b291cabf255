import Mathlib.Logic.Relation
import Verif.Lemmas.FuncRewrite2

/-! Lemmas for C87: well-formed programs, and the fusion of additions with `relu`. -/

namespace Verif.Lemmas.FuncRewrite
open Verif.Spec Verif.Spec.FuncCall Verif.Model.FuncRewrite

/-! ### Well-formed programs stay well-formed -/

/-- The form of what a pass puts in place of an instruction. -/
def GoodPass (A : Name → Prop) (f : Instr → Option (List Instr)) : Prop :=
  ∀ i l, Avoids A i → f i = some l → ∃ (as : List Instr) (m : Instr), l = as ++ [m] ∧ m.out = i.out ∧
    (∀ a ∈ as, (∀ n ∈ a.ins, n ∈ i.ins) ∧ A a.out ∧ ∃ j, a.out = .aux i.out j) ∧ (as.map Instr.out).Nodup ∧ ∀ n ∈ m.ins, n ∈ i.ins ∨ n ∈ as.map Instr.out

theorem wf_congr {K K' : Name → Prop} (h : ∀ n, K n ↔ K' n) (p : List Instr) : WellFormed K p ↔ WellFormed K' p := by
  have : K = K' := funext (fun n => propext (h n))
  rw [this]

theorem wf_append : ∀ (p q : List Instr) (K : Name → Prop), WellFormed K (p ++ q) ↔ WellFormed K p ∧ WellFormed (fun n => K n ∨ n ∈ p.map Instr.out) q
  | [], q, K => by
    simp only [List.nil_append, WellFormed, true_and]
    exact wf_congr (by simp) q
  | i :: p, q, K => by
    simp only [List.cons_append, WellFormed, wf_append p q, and_assoc]
    have : WellFormed (fun n => (K n ∨ n = i.out) ∨ n ∈ p.map Instr.out) q ↔ WellFormed (fun n => K n ∨ n ∈ (i :: p).map Instr.out) q :=
      wf_congr (by intro n; simp only [List.map_cons, List.mem_cons]; tauto) q
    rw [this]

theorem wf_new {K : Name → Prop} : ∀ (as : List Instr), (∀ a ∈ as, (∀ n ∈ a.ins, K n) ∧ ¬ K a.out) → (as.map Instr.out).Nodup → WellFormed K as := by
  intro as
  induction as generalizing K with
  | nil => intro _ _; trivial
  | cons a as ih =>
    intro h hn
    rw [List.map_cons, List.nodup_cons] at hn
    refine ⟨(h a (by simp)).1, (h a (by simp)).2, ih (fun b hb => ⟨fun n hb' => Or.inl ((h b (by simp [hb])).1 n hb'), ?_⟩) hn.2⟩
    rintro (hk | hk)
    · exact (h b (by simp [hb])).2 hk
    · exact hn.1 (hk ▸ List.mem_map_of_mem hb)

theorem wf_pass {A : Name → Prop} {f : Instr → Option (List Instr)} (hf : GoodPass A f) : ∀ (p q : List Instr) (K K' : Name → Prop),
    (∀ i ∈ p, Avoids A i) → pass f p = some q → WellFormed K p → (∀ n, K n → K' n) → (∀ n, K n → ¬ A n) →
    (∀ n, K' n → K n ∨ (A n ∧ ∃ m j, n = .aux m j ∧ K m)) → WellFormed K' q
  | [], q, _, _, _, h, _, _, _, _ => by rw [pass_nil h]; trivial
  | i :: p, q, K, K', hA, h, hw, h1, h2, h3 => by
    obtain ⟨l, q', hl, hq', rfl⟩ := pass_cons h
    obtain ⟨as, m, rfl, hm, has, hnd, hin⟩ := hf i l (hA i (by simp)) hl
    obtain ⟨hk, hno, hw⟩ := hw
    have hiA := (hA i (by simp)).1
    have hnew : ∀ n, n = i.out ∨ (A n ∧ ∃ j, n = .aux i.out j) → ¬ K' n := by
      intro n hn hk'
      rcases h3 n hk' with h | ⟨hAn, m', j', he, hkm⟩
      · rcases hn with rfl | ⟨hAn, -⟩
        · exact hno h
        · exact h2 n h hAn
      · rcases hn with rfl | ⟨-, j, hj⟩
        · exact hiA hAn
        · rw [hj] at he
          simp only [Name.aux.injEq] at he
          rw [← he.1] at hkm
          exact hno hkm
    rw [wf_append, wf_append]
    refine ⟨⟨wf_new as (fun a ha => ⟨fun n hn => h1 n (hk n ((has a ha).1 n hn)), hnew _ (Or.inr (has a ha).2)⟩) hnd, ?_, ?_, trivial⟩, ?_⟩
    · intro n hn
      rcases hin n hn with hn | hn
      · exact Or.inl (h1 n (hk n hn))
      · exact Or.inr hn
    · rw [hm]
      rintro (h | h)
      · exact hnew _ (Or.inl rfl) h
      · obtain ⟨a, ha, he⟩ := List.mem_map.mp h
        exact hiA (he ▸ (has a ha).2.1)
    · refine wf_pass hf p q' (fun n => K n ∨ n = i.out) _ (fun x hx => hA x (by simp [hx])) hq' hw ?_ ?_ ?_
      · rintro n (h | rfl)
        · exact Or.inl (h1 n h)
        · exact Or.inr (by simp [hm])
      · rintro n (h | rfl)
        · exact h2 n h
        · exact hiA
      · rintro n (h | h)
        · rcases h3 n h with h | ⟨hAn, m', j', he, hkm⟩
          · exact Or.inl (Or.inl h)
          · exact Or.inr ⟨hAn, m', j', he, Or.inl hkm⟩
        · rw [List.map_append, List.mem_append] at h
          rcases h with h | h
          · obtain ⟨a, ha, rfl⟩ := List.mem_map.mp h
            obtain ⟨-, hAa, j, hj⟩ := has a ha
            exact Or.inr ⟨hAa, i.out, j, hj, Or.inr rfl⟩
          · simp at h
            exact Or.inl (Or.inr (h.trans hm))

theorem good_of_op {f : Instr → Option (List Instr)} (hf : ∀ i l, f i = some l → ∃ o, l = [{ i with op := o }]) (A : Name → Prop) : GoodPass A f := by
  intro i l _ h
  obtain ⟨o, rfl⟩ := hf i l h
  exact ⟨[], _, rfl, rfl, by simp, by simp, fun n hn => Or.inl hn⟩

theorem keepOp {i : Instr} {l : List Instr} (h : some [i] = some l) : ∃ o, l = [{ i with op := o }] := by
  simp at h
  exact ⟨i.op, by rw [← h]⟩

theorem newOp {i : Instr} {l : List Instr} {o : Op} (h : withOp i o = some l) : ∃ o, l = [{ i with op := o }] := by
  simp only [withOp, Option.some.injEq] at h
  exact ⟨o, h.symm⟩

theorem neg_form (i : Instr) (l : List Instr) (h : negPass i = some l) : ∃ o, l = [{ i with op := o }] := by
  unfold negPass at h
  repeat' split at h
  all_goals first | exact keepOp h | exact newOp h

theorem div_form (i : Instr) (l : List Instr) (h : divPass i = some l) : ∃ o, l = [{ i with op := o }] := by
  unfold divPass at h
  split at h
  · split at h
    · simp only [Option.bind_eq_bind, Option.bind_eq_some_iff] at h
      obtain ⟨c, -, h⟩ := h
      split at h
      · simp at h
      · exact newOp h
    · exact keepOp h
  · exact keepOp h

theorem convert_form (i : Instr) (l : List Instr) (h : convertPass i = some l) : ∃ o, l = [{ i with op := o }] := by
  unfold convertPass binary at h
  repeat' split at h
  all_goals first | exact keepOp h | exact newOp h | simp at h

theorem clampMin_form (i : Instr) (l : List Instr) (h : clampMinPass i = some l) : ∃ o, l = [{ i with op := o }] := by
  unfold clampMinPass at h
  repeat' split at h
  all_goals first | exact keepOp h | exact newOp h | simp at h

theorem clamp_form (i : Instr) (l : List Instr) (h : clampPass i = some l) : ∃ o, l = [{ i with op := o }] := by
  unfold clampPass at h
  repeat' split at h
  all_goals first | exact keepOp h | exact newOp h | simp at h

theorem sub_good : GoodPass auxSub subPass := by
  intro i l hA h
  have one : ∀ l, (∃ o, l = [{ i with op := o }]) → ∃ (as : List Instr) (m : Instr), l = as ++ [m] ∧ m.out = i.out ∧
      (∀ a ∈ as, (∀ n ∈ a.ins, n ∈ i.ins) ∧ auxSub a.out ∧ ∃ j, a.out = .aux i.out j) ∧ (as.map Instr.out).Nodup ∧ ∀ n ∈ m.ins, n ∈ i.ins ∨ n ∈ as.map Instr.out := by
    rintro l ⟨o, rfl⟩
    exact ⟨[], _, rfl, rfl, by simp, by simp, fun n hn => Or.inl hn⟩
  have two : ∀ x y, i.ins = [x, y] → some (subTensors i x y) = some l → ∃ (as : List Instr) (m : Instr), l = as ++ [m] ∧ m.out = i.out ∧
      (∀ a ∈ as, (∀ n ∈ a.ins, n ∈ i.ins) ∧ auxSub a.out ∧ ∃ j, a.out = .aux i.out j) ∧ (as.map Instr.out).Nodup ∧ ∀ n ∈ m.ins, n ∈ i.ins ∨ n ∈ as.map Instr.out := by
    intro x y hi h
    simp only [Option.some.injEq] at h
    refine ⟨[_], _, h.symm, rfl, ?_, by simp, ?_⟩
    · intro a ha
      simp only [List.mem_singleton] at ha
      subst ha
      exact ⟨by simp [hi], ⟨_, rfl⟩, 0, rfl⟩
    · intro n hn
      simp only [List.mem_cons, List.not_mem_nil, or_false] at hn
      rcases hn with rfl | rfl
      · exact Or.inl (by simp [hi])
      · exact Or.inr (by simp)
  unfold subPass at h
  split at h
  · split at h
    · split at h
      · simp only [Option.bind_eq_bind, Option.bind_eq_some_iff] at h
        obtain ⟨c, -, h⟩ := h
        exact one l (newOp h)
      · rename_i x y hi
        exact two x y hi h
      · exact one l (keepOp h)
    · exact one l (keepOp h)
  · split at h
    · split at h
      · rename_i x hi
        simp only [Option.bind_eq_bind, Option.bind_eq_some_iff, Option.some.injEq] at h
        obtain ⟨c, -, h⟩ := h
        refine ⟨[_], _, h.symm, rfl, ?_, by simp, ?_⟩
        · intro a ha
          simp only [List.mem_singleton] at ha
          subst ha
          exact ⟨by simp [hi], ⟨_, rfl⟩, 0, rfl⟩
        · intro n hn
          simp only [List.mem_cons, List.not_mem_nil, or_false] at hn
          exact Or.inr (by simp [hn])
      · rename_i x y hi
        exact two x y hi h
      · exact one l (keepOp h)
    · exact one l (keepOp h)
  · exact one l (keepOp h)

theorem stack_good : GoodPass auxStack stackPass := by
  intro i l hA h
  have one : ∀ l, (∃ o, l = [{ i with op := o }]) → ∃ (as : List Instr) (m : Instr), l = as ++ [m] ∧ m.out = i.out ∧
      (∀ a ∈ as, (∀ n ∈ a.ins, n ∈ i.ins) ∧ auxStack a.out ∧ ∃ j, a.out = .aux i.out j) ∧ (as.map Instr.out).Nodup ∧ ∀ n ∈ m.ins, n ∈ i.ins ∨ n ∈ as.map Instr.out := by
    rintro l ⟨o, rfl⟩
    exact ⟨[], _, rfl, rfl, by simp, by simp, fun n hn => Or.inl hn⟩
  unfold stackPass at h
  split at h
  · split at h
    · simp only [Option.bind_eq_bind, Option.bind_eq_some_iff, Option.some.injEq] at h
      obtain ⟨⟨d, a'⟩, -, h⟩ := h
      refine ⟨unsqCalls i d i.ins.dedup, _, h.symm, rfl, ?_, ?_, ?_⟩
      · intro a ha
        obtain ⟨j, hj, rfl⟩ := List.mem_mapIdx.mp ha
        exact ⟨by simp only [List.mem_singleton]; rintro n rfl; exact List.mem_dedup.mp (List.getElem_mem _), ⟨_, _, rfl⟩, _, rfl⟩
      · have : (unsqCalls i d i.ins.dedup).map Instr.out = (List.range i.ins.dedup.length).map (fun j => Name.aux i.out (j + 1)) := by
          apply List.ext_getElem
          · simp [unsqCalls]
          · intro k h1 h2
            simp [unsqCalls]
        rw [this]
        exact List.Nodup.map (fun a b hab => by simpa using hab) List.nodup_range
      · intro n hn
        obtain ⟨x, hx, rfl⟩ := List.mem_map.mp hn
        have hlt := List.idxOf_lt_length_of_mem (List.mem_dedup.mpr hx)
        exact Or.inr (List.mem_map.mpr ⟨_, List.mem_mapIdx.mpr ⟨_, hlt, rfl⟩, rfl⟩)
    · exact one l (keepOp h)
  · exact one l (keepOp h)

end Verif.Lemmas.FuncRewrite
