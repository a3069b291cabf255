import Verif.Lemmas.IoLayout
import Mathlib.Tactic.IntervalCases

/-!
C105: the layout of inputs and outputs of a converted model.
-/

namespace Verif.Props
open Verif.Spec Verif.Spec.IoLayout Verif.Model.IoLayout Verif.Lemmas.IoLayout

section IoLayout
variable {α : Type}

/-- A graph as the converter builds it: operators in order, every tensor made once, one operand and result for QUANTIZE and DEQUANTIZE, and names from `next` on unused. -/
structure IoValid (g : Net α) : Prop where
  ordered : Ordered {n | n ∈ g.inputs ∨ n ∈ g.consts} g.ops
  arity : ∀ op ∈ g.ops, isQuantize op = true ∨ isDequantize op = true → op.ins.length = 1 ∧ op.outs.length = 1
  known : ∀ n, n ∈ g.inputs ∨ n ∈ g.consts → n < g.next
  insLt : ∀ op ∈ g.ops, ∀ n ∈ op.ins, n < g.next
  outsLt : ∀ op ∈ g.ops, ∀ n ∈ op.outs, n < g.next
  outputsLt : ∀ n ∈ g.outputs, n < g.next

/-- The parts the passes do not change. -/
structure IoSame (g g' : Net α) : Prop where
  inputs : g'.inputs = g.inputs
  consts : g'.consts = g.consts
  outputs : g'.outputs = g.outputs
  four : g'.four = g.four
  next : g.next ≤ g'.next

theorem ioSame_refl (g : Net α) : IoSame g g := ⟨rfl, rfl, rfl, rfl, le_refl _⟩

theorem IoSame.trans {g g' g'' : Net α} (h : IoSame g g') (h' : IoSame g' g'') : IoSame g g'' :=
  ⟨h'.inputs.trans h.inputs, h'.consts.trans h.consts, h'.outputs.trans h.outputs, h'.four.trans h.four, h.next.trans h'.next⟩

theorem reads_append (x : ℕ) (a b : List (Op α)) : reads x (a ++ b) = reads x a + reads x b := by simp [reads]

theorem reads_cons (x : ℕ) (a : Op α) (b : List (Op α)) : reads x (a :: b) = a.ins.count x + reads x b := by simp [reads]

theorem reads_zero {x : ℕ} {ops : List (Op α)} (h : reads x ops = 0) : ∀ op ∈ ops, x ∉ op.ins := by
  induction ops with
  | nil => simp
  | cons a b ih =>
    rw [reads_cons] at h
    intro op ho
    rcases List.mem_cons.1 ho with rfl | ho
    · exact List.count_eq_zero.1 (by omega)
    · exact ih (by omega) op ho

theorem rewire_quantize (a f : ℕ) (op : Op α) : isQuantize (rewire a f op) = isQuantize op := rfl

theorem rewire_dequantize (a f : ℕ) (op : Op α) : isDequantize (rewire a f op) = isDequantize op := rfl

theorem rewire_ins_lt {a f m : ℕ} {op : Op α} (h : ∀ n ∈ op.ins, n < m) (hf : f < m) : ∀ n ∈ (rewire a f op).ins, n < m := by
  intro n hn
  simp only [rewire, List.mem_map] at hn
  obtain ⟨j, hj, rfl⟩ := hn
  split
  · exact hf
  · exact h j hj

/-- What `soleQuantize` finds. -/
theorem soleQuantize_spec {g : Net α} {x : ℕ} {pre post : List (Op α)} {op : Op α} (h : soleQuantize g x = some (pre, op, post)) :
    g.ops = pre ++ op :: post ∧ x ∈ op.ins ∧ isQuantize op = true ∧ (∀ o ∈ pre, x ∉ o.ins) ∧ ∀ o ∈ post, x ∉ o.ins := by
  unfold soleQuantize at h
  split at h
  · next hr =>
    split at h
    · next pre' op' post' hs =>
      split at h
      · next hq =>
        simp only [Option.some.injEq, Prod.mk.injEq] at h
        obtain ⟨rfl, rfl, rfl⟩ := h
        obtain ⟨e, hx⟩ := splitFirst_spec hs
        have hx : x ∈ op'.ins := by simpa using hx
        rw [e, reads_append, reads_cons] at hr
        have hc : 0 < op'.ins.count x := List.count_pos_iff.2 hx
        exact ⟨e, hx, hq, reads_zero (by omega), reads_zero (by omega)⟩
      · simp at h
    · simp at h
  · simp at h

variable [Inhabited α]

/-- One input in another layout. -/
theorem inputStep_spec {g g' : Net α} {x : ℕ} (hv : IoValid g) (hx : x ∈ g.inputs) (h : inputStep g x = some g') :
    IoValid g' ∧ IoSame g g' ∧ ∀ env env' : ℕ → Val α, env' x = nhwc (env x) → (∀ n, n ≠ x → env' n = env n) → ∀ o ∈ g.outputs, run env' g'.ops o = run env g.ops o := by
  unfold inputStep at h
  split at h
  · simp at h
  next hc =>
  have hxo : x ∉ g.outputs := fun hh => hc (Or.inr hh)
  have hxK : x ∈ ({n | n ∈ g.inputs ∨ n ∈ g.consts} : Set ℕ) := Or.inl hx
  have hfK : g.next ∉ ({n | n ∈ g.inputs ∨ n ∈ g.consts} : Set ℕ) := fun hh => absurd (hv.known _ hh) (lt_irrefl _)
  have hfo : ∀ op ∈ g.ops, g.next ∉ op.outs := fun op ho hh => absurd (hv.outsLt op ho _ hh) (lt_irrefl _)
  have hfi : ∀ op ∈ g.ops, g.next ∉ op.ins := fun op ho hh => absurd (hv.insLt op ho _ hh) (lt_irrefl _)
  split at h
  · -- the input itself
    simp only [Option.some.injEq] at h
    subst h
    refine ⟨⟨?_, ?_, ?_, ?_, ?_, ?_⟩, ⟨rfl, rfl, rfl, rfl, Nat.le_succ _⟩, ?_⟩
    · refine ⟨by simp [hx], by simp, by simpa using hfK, ?_⟩
      apply ordered_rewire _ (Or.inr (by simp))
      refine ordered_mono hv.ordered (fun n hn => Or.inl hn) ?_
      rintro n (hn | hn) hn' op ho
      · exact absurd hn hn'
      · simp at hn; subst hn; exact hfo op ho
    · intro op ho hq
      rcases List.mem_cons.1 ho with rfl | ho
      · simp
      · obtain ⟨o, hom, rfl⟩ := List.mem_map.1 ho
        have := hv.arity o hom hq
        simpa [rewire] using this
    · exact fun n hn => Nat.lt_succ_of_lt (hv.known n hn)
    · intro op ho
      rcases List.mem_cons.1 ho with rfl | ho
      · simpa using Nat.lt_succ_of_lt (hv.known x (Or.inl hx))
      · obtain ⟨o, hom, rfl⟩ := List.mem_map.1 ho
        exact rewire_ins_lt (fun n hn => Nat.lt_succ_of_lt (hv.insLt o hom n hn)) (Nat.lt_succ_self _)
    · intro op ho n hn
      rcases List.mem_cons.1 ho with rfl | ho
      · simp at hn; subst hn; exact Nat.lt_succ_self _
      · obtain ⟨o, hom, rfl⟩ := List.mem_map.1 ho
        exact Nat.lt_succ_of_lt (hv.outsLt o hom n hn)
    · exact fun n hn => Nat.lt_succ_of_lt (hv.outputsLt n hn)
    · intro env env' h1 h2 o ho
      show run env' (_ :: _) o = _
      rw [run_cons]
      refine run_rewire (D := ∅) (a := x) (f := g.next) ?_ ?_ ?_ o (by simp) (fun hh => hxo (hh ▸ ho)) (fun hh => absurd (hv.outputsLt o ho) (by omega))
      · intro op hop
        exact ⟨ordered_not_made hv.ordered hxK op hop, hfo op hop, hfi op hop, by simp⟩
      · simp [step, exec, h1, nchw_nhwc]
      · intro n _ hnx hnf
        simp [step, hnf, h2 n hnx]
  · -- after QUANTIZE
    next pre op post hs =>
    obtain ⟨e, hxi, hq, hpre, hpost⟩ := soleQuantize_spec hs
    simp only at h
    split at h
    · simp at h
    next hqo =>
    simp only [Option.some.injEq] at h
    subst h
    have hmem : op ∈ g.ops := by rw [e]; simp
    obtain ⟨hl1, hl2⟩ := hv.arity op hmem (Or.inl hq)
    obtain ⟨x', hins⟩ := List.length_eq_one_iff.1 hl1
    obtain ⟨q, houts⟩ := List.length_eq_one_iff.1 hl2
    have hxx : x = x' := by rw [hins] at hxi; simpa using hxi
    subst hxx
    have hqd : op.outs.headD 0 = q := by simp [houts]
    rw [hqd] at hqo ⊢
    have hord := hv.ordered
    rw [e, ordered_append] at hord
    obtain ⟨ho1, ho2, ho3, ho4, ho5⟩ := hord
    have hmp : ∀ o ∈ pre, o ∈ g.ops := fun o ho => by rw [e]; simp [ho]
    have hmq : ∀ o ∈ post, o ∈ g.ops := fun o ho => by rw [e]; simp [ho]
    have hfA : g.next ∉ after {n | n ∈ g.inputs ∨ n ∈ g.consts} pre ∪ {n | n ∈ op.outs} := by
      rintro (hh | hh)
      · rcases mem_after.1 hh with hh | ⟨o, ho, hh⟩
        · exact hfK hh
        · exact hfo o (hmp o ho) hh
      · exact hfo op hmem hh
    refine ⟨⟨?_, ?_, ?_, ?_, ?_, ?_⟩, ⟨rfl, rfl, rfl, rfl, Nat.le_succ _⟩, ?_⟩
    · refine ordered_append.2 ⟨ho1, ho2, ho3, ho4, ?_⟩
      refine ⟨by simp [houts], by simp, by simpa using hfA, ?_⟩
      apply ordered_rewire _ (Or.inr (by simp))
      refine ordered_mono ho5 (fun n hn => Or.inl hn) ?_
      rintro n (hn | hn) hn' o ho
      · exact absurd hn hn'
      · simp at hn; subst hn; exact hfo o (hmq o ho)
    · intro o ho hqq
      simp only [List.mem_append, List.mem_cons, List.mem_map] at ho
      rcases ho with ho | rfl | rfl | ⟨o, ho, rfl⟩
      · exact hv.arity o (hmp o ho) hqq
      · exact hv.arity o hmem hqq
      · simp
      · simpa [rewire] using hv.arity o (hmq o ho) hqq
    · exact fun n hn => Nat.lt_succ_of_lt (hv.known n hn)
    · intro o ho
      simp only [List.mem_append, List.mem_cons, List.mem_map] at ho
      rcases ho with ho | rfl | rfl | ⟨o, ho, rfl⟩
      · exact fun n hn => Nat.lt_succ_of_lt (hv.insLt o (hmp o ho) n hn)
      · exact fun n hn => Nat.lt_succ_of_lt (hv.insLt o hmem n hn)
      · simpa using Nat.lt_succ_of_lt (hv.outsLt op hmem q (by simp [houts]))
      · exact rewire_ins_lt (fun n hn => Nat.lt_succ_of_lt (hv.insLt o (hmq o ho) n hn)) (Nat.lt_succ_self _)
    · intro o ho n hn
      simp only [List.mem_append, List.mem_cons, List.mem_map] at ho
      rcases ho with ho | rfl | rfl | ⟨o, ho, rfl⟩
      · exact Nat.lt_succ_of_lt (hv.outsLt o (hmp o ho) n hn)
      · exact Nat.lt_succ_of_lt (hv.outsLt o hmem n hn)
      · simp at hn; subst hn; exact Nat.lt_succ_self _
      · exact Nat.lt_succ_of_lt (hv.outsLt o (hmq o ho) n hn)
    · exact fun n hn => Nat.lt_succ_of_lt (hv.outputsLt n hn)
    · intro env env' h1 h2 o ho
      show run env' (pre ++ op :: _) o = _
      rw [e, run_append, run_append, run_cons, run_cons, run_cons]
      have hxm : ∀ o ∈ pre, x ∉ o.outs := fun o ho => ordered_not_made hv.ordered hxK o (hmp o ho)
      have hA := run_agree (D := {x}) (ops := pre) (fun o ho i hi hix => hpre o ho (by simpa using (Set.mem_singleton_iff.1 hix) ▸ hi)) (fun n hn => h2 n (by simpa using hn))
      have hx1 : run env pre x = env x := run_keep hxm env
      have hx2 : run env' pre x = nhwc (env x) := by rw [run_keep hxm env', h1]
      obtain ⟨gq, hfn⟩ : ∃ gq, op.fn = .quantize gq := by
        unfold isQuantize at hq
        split at hq
        · next gq hg => exact ⟨gq, hg⟩
        · simp at hq
      have hqx : q ≠ g.next := fun hh => hfo op hmem (by rw [houts, ← hh]; simp)
      refine run_rewire (D := {x}) (a := q) (f := g.next) ?_ ?_ ?_ o ?_ (fun hh => hqo (hh ▸ ho)) (fun hh => absurd (hv.outputsLt o ho) (by omega))
      · intro o' ho'
        refine ⟨ordered_not_made ho5 (Or.inr (by simp [houts])) o' ho', hfo o' (hmq o' ho'), hfi o' (hmq o' ho'), ?_⟩
        intro i hi hix
        exact hpost o' ho' ((Set.mem_singleton_iff.1 hix) ▸ hi)
      · simp [step, exec, houts, hfn, hins, hx1, hx2, nhwc_map, nchw_nhwc]
      · intro n hnx hnq hnf
        have := hA n hnx
        simp [step, houts, hnq, hnf, this]
      · intro hh
        exact hxo ((Set.mem_singleton_iff.1 hh) ▸ ho)

/-- All chosen inputs. -/
theorem inputPass_spec {g g' : Net α} {xs : List ℕ} (hv : IoValid g) (hn : xs.Nodup) (hx : ∀ x ∈ xs, x ∈ g.inputs) (h : inputPass g xs = some g') :
    IoValid g' ∧ IoSame g g' ∧
      ∀ env env' : ℕ → Val α, (∀ x ∈ xs, env' x = nhwc (env x)) → (∀ n, n ∉ xs → env' n = env n) → ∀ o ∈ g.outputs, run env' g'.ops o = run env g.ops o := by
  induction xs generalizing g with
  | nil =>
    simp only [inputPass, Option.some.injEq] at h
    subst h
    refine ⟨hv, ioSame_refl g, fun env env' _ h2 o _ => ?_⟩
    have : env' = env := funext fun n => h2 n (by simp)
    rw [this]
  | cons x xs ih =>
    simp only [inputPass, Option.bind_eq_some_iff] at h
    obtain ⟨g1, hs, h⟩ := h
    obtain ⟨hv1, hsame, hsem⟩ := inputStep_spec hv (hx x (by simp)) hs
    obtain ⟨hnx, hnn⟩ := List.nodup_cons.1 hn
    obtain ⟨hv2, hsame2, hsem2⟩ := ih hv1 hnn (fun z hz => by rw [hsame.inputs]; exact hx z (by simp [hz])) h
    refine ⟨hv2, hsame.trans hsame2, ?_⟩
    intro env env' h1 h2 o ho
    have hmid := hsem env (fun n => if n = x then nhwc (env x) else env n) (by simp) (fun n hn => by simp [hn]) o ho
    rw [← hmid]
    apply hsem2 _ _ _ _ o (by rw [hsame.outputs]; exact ho)
    · intro z hz
      have hzx : z ≠ x := fun hh => hnx (hh ▸ hz)
      simp [hzx, h1 z (by simp [hz])]
    · intro n hn'
      by_cases hnx' : n = x
      · simp [hnx', h1 x (by simp)]
      · simp [hnx', h2 n (by simp [hnx', hn'])]

/-- One output in another layout. -/
theorem outputStep_spec {g g' : Net α} {y : ℕ} (hv : IoValid g) (h : outputStep g y = some g') :
    IoValid g' ∧ IoSame g g' ∧ ∀ env : ℕ → Val α, run env g'.ops y = nhwc (run env g.ops y) ∧ ∀ n < g.next, n ≠ y → run env g'.ops n = run env g.ops n := by
  unfold outputStep at h
  split at h
  · simp at h
  split at h
  · simp at h
  next pre op post hs =>
  obtain ⟨e, hy⟩ := splitFirst_spec hs
  have hy : y ∈ op.outs := by simpa using hy
  have hfK : g.next ∉ ({n | n ∈ g.inputs ∨ n ∈ g.consts} : Set ℕ) := fun hh => absurd (hv.known _ hh) (lt_irrefl _)
  have hfo : ∀ m, g.next ≤ m → ∀ op ∈ g.ops, m ∉ op.outs := fun m hm op ho hh => absurd (hv.outsLt op ho _ hh) (by omega)
  have hfi : ∀ m, g.next ≤ m → ∀ op ∈ g.ops, m ∉ op.ins := fun m hm op ho hh => absurd (hv.insLt op ho _ hh) (by omega)
  have hmem : op ∈ g.ops := by rw [e]; simp
  have hmp : ∀ o ∈ pre, o ∈ g.ops := fun o ho => by rw [e]; simp [ho]
  have hmq : ∀ o ∈ post, o ∈ g.ops := fun o ho => by rw [e]; simp [ho]
  have hyl : y < g.next := hv.outsLt op hmem y hy
  have hord := hv.ordered
  rw [e, ordered_append] at hord
  obtain ⟨ho1, ho2, ho3, ho4, ho5⟩ := hord
  have hfA : ∀ m, g.next ≤ m → m ∉ after {n | n ∈ g.inputs ∨ n ∈ g.consts} pre := by
    intro m hm hh
    rcases mem_after.1 hh with hh | ⟨o, ho, hh⟩
    · exact absurd (hv.known m hh) (by omega)
    · exact hfo m hm o (hmp o ho) hh
  have hypost : ∀ o ∈ post, y ∉ o.outs := fun o ho => ordered_not_made ho5 (Or.inr hy) o ho
  split at h
  · -- after DEQUANTIZE
    next hd =>
    simp only [Option.some.injEq] at h
    subst h
    obtain ⟨hl1, hl2⟩ := hv.arity op hmem (Or.inr hd)
    obtain ⟨q, hins⟩ := List.length_eq_one_iff.1 hl1
    obtain ⟨y', houts⟩ := List.length_eq_one_iff.1 hl2
    have hyy : y = y' := by rw [houts] at hy; simpa using hy
    subst hyy
    have hqd : op.ins.headD 0 = q := by simp [hins]
    rw [hqd]
    have hqA : q ∈ after {n | n ∈ g.inputs ∨ n ∈ g.consts} pre := ho2 q (by simp [hins])
    have hql : q < g.next := hv.insLt op hmem q (by simp [hins])
    have hyA : y ∉ after {n | n ∈ g.inputs ∨ n ∈ g.consts} pre := ho4 y hy
    obtain ⟨gq, hfn⟩ : ∃ gq, op.fn = .dequantize gq := by
      unfold isDequantize at hd
      split at hd
      · next gq hg => exact ⟨gq, hg⟩
      · simp at hd
    have hyf : y ≠ g.next := by omega
    by_cases hr : reads y post = 0
    · simp only [hr, if_true]
      refine ⟨⟨?_, ?_, ?_, ?_, ?_, ?_⟩, ⟨rfl, rfl, rfl, rfl, by simp⟩, ?_⟩
      · refine ordered_append.2 ⟨ho1, by simpa using hqA, by simp, by simpa using hfA _ (le_refl _), by simp, by simp [houts], ?_, ?_⟩
        · simp only [houts, List.mem_singleton, forall_eq]
          rintro (hh | hh)
          · exact hyA hh
          · simp at hh; exact hyf hh
        · refine ordered_mono ho5 ?_ ?_
          · rintro n (hn | hn)
            · exact Or.inl (Or.inl hn)
            · exact Or.inr hn
          · rintro n ((hn | hn) | hn) hn' o ho
            · exact absurd (Or.inl hn) hn'
            · simp at hn; subst hn; exact hfo _ (le_refl _) o (hmq o ho)
            · exact absurd (Or.inr hn) hn'
      · intro o ho hqq
        simp only [List.mem_append, List.mem_cons] at ho
        rcases ho with ho | rfl | rfl | ho
        · exact hv.arity o (hmp o ho) hqq
        · simp
        · simp [houts]
        · exact hv.arity o (hmq o ho) hqq
      · exact fun n hn => Nat.lt_add_right 2 (hv.known n hn)
      · intro o ho n hn
        simp only [List.mem_append, List.mem_cons] at ho
        rcases ho with ho | rfl | rfl | ho
        · exact Nat.lt_add_right 2 (hv.insLt o (hmp o ho) n hn)
        · simp at hn; simp only; omega
        · simp at hn; simp only; omega
        · exact Nat.lt_add_right 2 (hv.insLt o (hmq o ho) n hn)
      · intro o ho n hn
        simp only [List.mem_append, List.mem_cons] at ho
        rcases ho with ho | rfl | rfl | ho
        · exact Nat.lt_add_right 2 (hv.outsLt o (hmp o ho) n hn)
        · simp at hn; simp only; omega
        · exact Nat.lt_add_right 2 (hv.outsLt op hmem n hn)
        · exact Nat.lt_add_right 2 (hv.outsLt o (hmq o ho) n hn)
      · exact fun n hn => Nat.lt_add_right 2 (hv.outputsLt n hn)
      · intro env
        show run env (pre ++ _ :: _ :: _) y = _ ∧ ∀ n < g.next, n ≠ y → run env (pre ++ _ :: _ :: _) n = _
        rw [e, run_append, run_append, run_cons, run_cons, run_cons]
        refine ⟨?_, ?_⟩
        · rw [run_keep hypost, run_keep hypost]
          simp [step, houts, exec, hfn, hins, nhwc_map]
        · intro n hn hny
          refine run_agree (D := {n | n = y ∨ n = g.next}) ?_ ?_ n (by simp only [Set.mem_setOf_eq]; omega)
          · rintro o ho i hi (hh | hh)
            · exact reads_zero hr o ho (hh ▸ hi)
            · exact hfi _ (le_refl _) o (hmq o ho) (hh ▸ hi)
          · intro m hm
            simp only [Set.mem_setOf_eq, not_or] at hm
            simp [step, houts, hm.1, hm.2]
    · simp only [hr, if_false]
      refine ⟨⟨?_, ?_, ?_, ?_, ?_, ?_⟩, ⟨rfl, rfl, rfl, rfl, by simp⟩, ?_⟩
      · refine ordered_append.2 ⟨ho1, by simpa using hqA, by simp, by simpa using hfA _ (le_refl _), by simp, by simp [houts], ?_, by simp [houts], by simp, ?_, ?_⟩
        · simp only [houts, List.mem_singleton, forall_eq]
          rintro (hh | hh)
          · exact hyA hh
          · simp at hh; exact hyf hh
        · simp only [houts, List.mem_singleton, forall_eq]
          rintro ((hh | hh) | hh)
          · exact hfA _ (Nat.le_succ _) hh
          · simp at hh
          · simp at hh; omega
        · apply ordered_rewire _ (Or.inr (by simp))
          refine ordered_mono ho5 ?_ ?_
          · rintro n (hn | hn)
            · exact Or.inl (Or.inl (Or.inl hn))
            · exact Or.inl (Or.inr hn)
          · rintro n (((hn | hn) | hn) | hn) hn' o ho
            · exact absurd (Or.inl hn) hn'
            · simp at hn; subst hn; exact hfo _ (le_refl _) o (hmq o ho)
            · exact absurd (Or.inr hn) hn'
            · simp at hn; subst hn; exact hfo _ (Nat.le_succ _) o (hmq o ho)
      · intro o ho hqq
        simp only [List.mem_append, List.mem_cons, List.mem_map] at ho
        rcases ho with ho | rfl | rfl | rfl | ⟨o, ho, rfl⟩
        · exact hv.arity o (hmp o ho) hqq
        · simp
        · simp [houts]
        · simp
        · simpa [rewire] using hv.arity o (hmq o ho) hqq
      · exact fun n hn => Nat.lt_add_right 2 (hv.known n hn)
      · intro o ho n hn
        simp only [List.mem_append, List.mem_cons, List.mem_map] at ho
        rcases ho with ho | rfl | rfl | rfl | ⟨o, ho, rfl⟩
        · exact Nat.lt_add_right 2 (hv.insLt o (hmp o ho) n hn)
        · simp at hn; simp only; omega
        · simp at hn; simp only; omega
        · simp at hn; simp only; omega
        · exact rewire_ins_lt (fun n hn => Nat.lt_add_right 2 (hv.insLt o (hmq o ho) n hn)) (Nat.lt_succ_self _) n hn
      · intro o ho n hn
        simp only [List.mem_append, List.mem_cons, List.mem_map] at ho
        rcases ho with ho | rfl | rfl | rfl | ⟨o, ho, rfl⟩
        · exact Nat.lt_add_right 2 (hv.outsLt o (hmp o ho) n hn)
        · simp at hn; simp only; omega
        · exact Nat.lt_add_right 2 (hv.outsLt op hmem n hn)
        · simp at hn; simp only; omega
        · exact Nat.lt_add_right 2 (hv.outsLt o (hmq o ho) n hn)
      · exact fun n hn => Nat.lt_add_right 2 (hv.outputsLt n hn)
      · intro env
        show run env (pre ++ _ :: _ :: _ :: _) y = _ ∧ ∀ n < g.next, n ≠ y → run env (pre ++ _ :: _ :: _ :: _) n = _
        rw [e, run_append, run_append, run_cons, run_cons, run_cons, run_cons]
        have hyf2 : y ≠ g.next + 1 := by omega
        refine ⟨?_, ?_⟩
        · rw [run_keep (ops := post) hypost, run_keep (ops := post.map _) ?_]
          · simp [step, houts, exec, hfn, hins, nhwc_map, hyf2]
          · intro o ho
            obtain ⟨o, hom, rfl⟩ := List.mem_map.1 ho
            exact hypost o hom
        · intro n hn hny
          refine run_rewire (D := {n | n = g.next}) (a := y) (f := g.next + 1) ?_ ?_ ?_ n (by simp only [Set.mem_setOf_eq]; omega) hny (by omega)
          · intro o ho
            refine ⟨hypost o ho, hfo _ (Nat.le_succ _) o (hmq o ho), hfi _ (Nat.le_succ _) o (hmq o ho), ?_⟩
            intro i hi hh
            exact hfi _ (le_refl _) o (hmq o ho) (hh ▸ hi)
          · simp [step, houts, exec, hfn, hins, nhwc_map, nchw_nhwc]
          · intro m hm hmy hmf
            simp only [Set.mem_setOf_eq] at hm
            simp [step, houts, hm, hmy, hmf]
  · -- after any other operator
    simp only [Option.some.injEq] at h
    subst h
    have hyf : y ≠ g.next := by omega
    have hmo : ∀ n, n ∈ op.outs.map (fun n => if n = y then g.next else n) ↔ n = g.next ∨ (n ∈ op.outs ∧ n ≠ y) := by
      intro n
      simp only [List.mem_map]
      constructor
      · rintro ⟨m, hm, rfl⟩
        split
        · exact Or.inl rfl
        · next hmy => exact Or.inr ⟨hm, hmy⟩
      · rintro (rfl | ⟨hm, hmy⟩)
        · exact ⟨y, hy, by simp⟩
        · exact ⟨n, hm, by simp [hmy]⟩
    have hfop : g.next ∉ op.outs := hfo _ (le_refl _) op hmem
    refine ⟨⟨?_, ?_, ?_, ?_, ?_, ?_⟩, ⟨rfl, rfl, rfl, rfl, by simp⟩, ?_⟩
    · refine ordered_append.2 ⟨ho1, ho2, ?_, ?_, ?_, by simp, ?_, ?_⟩
      · refine List.Nodup.map_on ?_ ho3
        intro a ha b hb hab
        by_cases h1 : a = y <;> by_cases h2 : b = y <;> simp only [h1, h2, if_true, if_false] at hab ⊢
        · exact absurd (hab ▸ hb) hfop
        · exact absurd (hab ▸ ha) hfop
        · exact hab
      · intro n hn
        rcases (hmo n).1 hn with rfl | ⟨hn, _⟩
        · exact hfA _ (le_refl _)
        · exact ho4 n hn
      · simp only [List.mem_singleton, forall_eq]
        exact Or.inr ((hmo _).2 (Or.inl rfl))
      · simp only [List.mem_singleton, forall_eq]
        rintro (hh | hh)
        · exact ho4 y hy hh
        · rcases (hmo y).1 hh with hh | ⟨_, hh⟩
          · exact hyf hh
          · exact hh rfl
      · apply ordered_rewire _ (Or.inl (Or.inr ((hmo _).2 (Or.inl rfl))))
        refine ordered_mono ho5 ?_ ?_
        · rintro n (hn | hn)
          · exact Or.inl (Or.inl hn)
          · by_cases hny : n = y
            · exact Or.inr (by simp [hny])
            · exact Or.inl (Or.inr ((hmo n).2 (Or.inr ⟨hn, hny⟩)))
        · rintro n ((hn | hn) | hn) hn' o ho
          · exact absurd (Or.inl hn) hn'
          · rcases (hmo n).1 hn with rfl | ⟨hn, _⟩
            · exact hfo _ (le_refl _) o (hmq o ho)
            · exact absurd (Or.inr hn) hn'
          · simp at hn; subst hn; exact hypost o ho
    · intro o ho hqq
      simp only [List.mem_append, List.mem_cons, List.mem_map] at ho
      rcases ho with ho | rfl | rfl | ⟨o, ho, rfl⟩
      · exact hv.arity o (hmp o ho) hqq
      · simpa using hv.arity op hmem hqq
      · simp
      · simpa [rewire] using hv.arity o (hmq o ho) hqq
    · exact fun n hn => Nat.lt_succ_of_lt (hv.known n hn)
    · intro o ho n hn
      simp only [List.mem_append, List.mem_cons, List.mem_map] at ho
      rcases ho with ho | rfl | rfl | ⟨o, ho, rfl⟩
      · exact Nat.lt_succ_of_lt (hv.insLt o (hmp o ho) n hn)
      · exact Nat.lt_succ_of_lt (hv.insLt op hmem n hn)
      · simp at hn; subst hn; exact Nat.lt_succ_self _
      · exact rewire_ins_lt (fun n hn => Nat.lt_succ_of_lt (hv.insLt o (hmq o ho) n hn)) (Nat.lt_succ_self _) n hn
    · intro o ho n hn
      simp only [List.mem_append, List.mem_cons] at ho
      rcases ho with ho | rfl | rfl | ho
      · exact Nat.lt_succ_of_lt (hv.outsLt o (hmp o ho) n hn)
      · rcases (hmo n).1 hn with rfl | ⟨hn, _⟩
        · exact Nat.lt_succ_self _
        · exact Nat.lt_succ_of_lt (hv.outsLt op hmem n hn)
      · simp at hn; subst hn; exact Nat.lt_succ_of_lt hyl
      · obtain ⟨o, hom, rfl⟩ := List.mem_map.1 ho
        exact Nat.lt_succ_of_lt (hv.outsLt o (hmq o hom) n hn)
    · exact fun n hn => Nat.lt_succ_of_lt (hv.outputsLt n hn)
    · intro env
      show run env (pre ++ _ :: _ :: _) y = _ ∧ ∀ n < g.next, n ≠ y → run env (pre ++ _ :: _ :: _) n = _
      rw [e, run_append, run_append, run_cons, run_cons, run_cons]
      have hidx : (op.outs.map fun n => if n = y then g.next else n).idxOf g.next = op.outs.idxOf y := by
        have := idxOf_rename (y := y) hfop y hyf
        simpa using this
      have hE : step (run env pre) { op with outs := op.outs.map fun n => if n = y then g.next else n } g.next = step (run env pre) op y := by
        simp only [step, hy, if_true, (hmo _).2 (Or.inl rfl), hidx]
      refine ⟨?_, ?_⟩
      · rw [run_keep (ops := post) hypost, run_keep (ops := post.map _) ?_]
        · rw [← hE]
          simp [step, exec]
        · intro o ho
          obtain ⟨o, hom, rfl⟩ := List.mem_map.1 ho
          exact hypost o hom
      · intro n hn hny
        refine run_rewire (D := ∅) (a := y) (f := g.next) ?_ ?_ ?_ n (by simp) hny (by omega)
        · intro o ho
          exact ⟨hypost o ho, hfo _ (le_refl _) o (hmq o ho), hfi _ (le_refl _) o (hmq o ho), by simp⟩
        · rw [← hE]
          have : g.next ≠ y := fun hh => hyf hh.symm
          show (if g.next ∈ [y] then _ else _) = _
          rw [if_neg (by simpa using this)]
        · intro m _ hmy hmf
          have hid := idxOf_rename hfop (y := y) m hmf
          simp only [hmy, if_false] at hid
          conv_lhs => unfold step
          simp only [List.mem_singleton, hmy, if_false]
          simp only [step, hmo, hmf, hmy, false_or, and_true, ne_eq, not_false_eq_true]
          split
          · rw [hid]
          · rfl

/-- All chosen outputs. -/
theorem outputSteps_spec {g g' : Net α} {ys : List ℕ} (hv : IoValid g) (hn : ys.Nodup) (hy : ∀ y ∈ ys, y ∈ g.outputs) (h : outputSteps g ys = some g') :
    IoValid g' ∧ IoSame g g' ∧ ∀ env : ℕ → Val α, ∀ o ∈ g.outputs, run env g'.ops o = if o ∈ ys then nhwc (run env g.ops o) else run env g.ops o := by
  induction ys generalizing g with
  | nil =>
    simp only [outputSteps, Option.some.injEq] at h
    subst h
    exact ⟨hv, ioSame_refl g, fun env o _ => by simp⟩
  | cons y ys ih =>
    simp only [outputSteps, Option.bind_eq_some_iff] at h
    obtain ⟨g1, hs, h⟩ := h
    obtain ⟨hv1, hsame, hsem⟩ := outputStep_spec hv hs
    obtain ⟨hny, hnn⟩ := List.nodup_cons.1 hn
    obtain ⟨hv2, hsame2, hsem2⟩ := ih hv1 hnn (fun z hz => by rw [hsame.outputs]; exact hy z (by simp [hz])) h
    refine ⟨hv2, hsame.trans hsame2, ?_⟩
    intro env o ho
    rw [hsem2 env o (by rw [hsame.outputs]; exact ho)]
    obtain ⟨h1, h2⟩ := hsem env
    by_cases hoy : o = y
    · subst hoy
      simp [hny, h1]
    · rw [h2 o (hv.outputsLt o ho) hoy]
      simp [hoy]

theorem mem_chosen {names : List ℕ} {flags : List Bool} {x : ℕ} : x ∈ chosen names flags ↔ ∃ i : ℕ, names[i]? = some x ∧ flags[i]? = some true := by
  simp only [chosen, List.mem_dedup, List.mem_map, List.mem_filter]
  constructor
  · rintro ⟨⟨y, b⟩, ⟨hm, hb⟩, rfl⟩
    obtain ⟨i, hi⟩ := List.mem_iff_getElem?.1 hm
    rw [List.getElem?_zip_eq_some] at hi
    simp only at hb hi
    exact ⟨i, hi.1, by rw [hi.2, hb]⟩
  · rintro ⟨i, h1, h2⟩
    exact ⟨(x, true), ⟨List.mem_iff_getElem?.2 ⟨i, List.getElem?_zip_eq_some.2 ⟨h1, h2⟩⟩, rfl⟩, rfl⟩

theorem inputFlags_spec {arg : Arg} {fours fi : List Bool} (h : inputFlags arg fours = some fi) (i : ℕ) (four : Bool) (hi : fours[i]? = some four) : fi[i]? = some (arg.wants i four) := by
  unfold inputFlags at h
  have key : ∀ l : List (Option Bool), fours.length ≤ l.length → ((fours.zip l).map fun p => p.2.getD p.1)[i]? = some (((l[i]?).getD none).getD four) := by
    intro l hl
    obtain ⟨hlt, _⟩ := List.getElem?_eq_some_iff.1 hi
    obtain ⟨b, hb⟩ : ∃ b, l[i]? = some b := ⟨l[i]'(by omega), List.getElem?_eq_getElem _⟩
    rw [List.getElem?_map, (List.getElem?_zip_eq_some (z := (four, b))).2 ⟨hi, hb⟩]
    simp [hb]
  split at h
  · simp only [Option.some.injEq] at h
    subst h
    simp [List.getElem?_map, hi, Arg.wants]
  · split at h
    · next hl => simp only [Option.some.injEq] at h; subst h; exact key _ hl
    · simp at h
  · split at h
    · next hl => simp only [Option.some.injEq] at h; subst h; exact key _ hl.1
    · simp at h

theorem conflict_false {l : List (ℕ × Option Bool)} (h : conflict l = false) {n : ℕ} {a b : Option Bool} (ha : (n, a) ∈ l) (hb : (n, b) ∈ l) : a = b := by
  unfold conflict at h
  rw [List.any_eq_false] at h
  have := h _ ha
  simp only [Bool.not_eq_true] at this
  rw [List.any_eq_false] at this
  have := this _ hb
  simpa using this

theorem outputFlags_spec {arg : Arg} {outs : List (ℕ × Bool)} {fo : List Bool} (h : outputFlags arg outs = some fo) :
    (∀ (i n : ℕ) (four : Bool), outs[i]? = some (n, four) → fo[i]? = some (arg.wants i four)) ∧
      ∀ (i j n : ℕ) (four : Bool), outs[i]? = some (n, four) → outs[j]? = some (n, four) → arg.wants i four = arg.wants j four := by
  unfold outputFlags at h
  split at h
  · simp only [Option.some.injEq] at h
    subst h
    exact ⟨fun i n four hi => by simp [List.getElem?_map, hi, Arg.wants], fun _ _ _ _ _ _ => rfl⟩
  · next l =>
    split at h
    · simp at h
    next hc =>
    simp only [not_or, ne_eq, not_not, Bool.not_eq_true] at hc
    simp only [Option.some.injEq] at h
    subst h
    have hget : ∀ (i n : ℕ) (four : Bool), outs[i]? = some (n, four) → ∃ b, l[i]? = some b := by
      intro i n four hi
      obtain ⟨hlt, _⟩ := List.getElem?_eq_some_iff.1 hi
      exact ⟨l[i]'(by omega), List.getElem?_eq_getElem _⟩
    refine ⟨?_, ?_⟩
    · intro i n four hi
      obtain ⟨b, hb⟩ := hget i n four hi
      rw [List.getElem?_map, (List.getElem?_zip_eq_some (z := ((n, four), b))).2 ⟨hi, hb⟩]
      simp [Arg.wants, hb]
    · intro i j n four hi hj
      obtain ⟨b, hb⟩ := hget i n four hi
      obtain ⟨c, hc'⟩ := hget j n four hj
      have hm : ∀ (k : ℕ) (d : Option Bool), outs[k]? = some (n, four) → l[k]? = some d → (n, d) ∈ (outs.map Prod.fst).zip l := by
        intro k d hk hd
        refine List.mem_iff_getElem?.2 ⟨k, List.getElem?_zip_eq_some.2 ⟨?_, hd⟩⟩
        simp [List.getElem?_map, hk]
      have := conflict_false hc.2 (hm i b hi hb) (hm j c hj hc')
      simp [Arg.wants, hb, hc', this]
  · split at h
    · simp at h
    next hc =>
    simp only [not_or, ne_eq, not_not] at hc
    rw [hc.2]
    simp

/-- C105.  The converted model, given channels-last images where the caller asked for that, returns what the original returns for the same images, as channels-last images where the caller asked for that. -/
theorem C105_layout {g g' : Net α} (hv : IoValid g) {inArg outArg : Arg} (h : convertLayout g inArg outArg = some g') (env env' : ℕ → Val α)
    (hin : ∀ (i x : ℕ), g.inputs[i]? = some x → env' x = if inArg.wants i (g.four x) then nhwc (env x) else env x) (hc : ∀ n, n ∉ g.inputs → env' n = env n) :
    g'.inputs = g.inputs ∧ g'.outputs = g.outputs ∧
      ∀ (i o : ℕ), g.outputs[i]? = some o → run env' g'.ops o = if outArg.wants i (g.four o) then nhwc (run env g.ops o) else run env g.ops o := by
  simp only [convertLayout, Option.bind_eq_bind, Option.bind_eq_some_iff] at h
  obtain ⟨fi, hfi, g1, hg1, fo, hfo, hg2⟩ := h
  have hflag : ∀ (i x : ℕ), g.inputs[i]? = some x → fi[i]? = some (inArg.wants i (g.four x)) := fun i x hx => inputFlags_spec hfi i _ (by simp [List.getElem?_map, hx])
  have hin1 : ∀ x ∈ chosen g.inputs fi, x ∈ g.inputs := by
    intro x hx
    obtain ⟨i, h1, _⟩ := mem_chosen.1 hx
    exact List.mem_of_getElem? h1
  obtain ⟨hv1, hs1, hsem1⟩ := inputPass_spec hv (List.nodup_dedup _) hin1 hg1
  have hmid : ∀ o ∈ g.outputs, run env' g1.ops o = run env g.ops o := by
    apply hsem1 env env'
    · intro x hx
      obtain ⟨i, h1, h2⟩ := mem_chosen.1 hx
      have := hin i x h1
      rw [hflag i x h1] at h2
      simp only [Option.some.injEq] at h2
      rw [this, h2]
      rfl
    · intro n hnc
      by_cases hni : n ∈ g.inputs
      · obtain ⟨i, hi⟩ := List.mem_iff_getElem?.1 hni
        rw [hin i n hi]
        have : inArg.wants i (g.four n) = false := by
          by_contra hw
          simp only [Bool.not_eq_false] at hw
          exact hnc (mem_chosen.2 ⟨i, hi, by rw [hflag i n hi, hw]⟩)
        simp [this]
      · exact hc n hni
  unfold outputPass at hg2
  simp only at hg2
  have hperm := List.filter_append_perm (fun y => g1.ops.any fun op => isDequantize op && op.outs.contains y) (chosen g1.outputs fo)
  have hy1 : ∀ y ∈ chosen g1.outputs fo, y ∈ g1.outputs := by
    intro y hy
    obtain ⟨i, h1, _⟩ := mem_chosen.1 hy
    exact List.mem_of_getElem? h1
  obtain ⟨_, hs2, hsem2⟩ := outputSteps_spec hv1 (hperm.nodup_iff.2 (List.nodup_dedup _)) (fun y hy => hy1 y (hperm.mem_iff.1 hy)) hg2
  refine ⟨hs2.inputs.trans hs1.inputs, hs2.outputs.trans hs1.outputs, ?_⟩
  intro i o ho
  have hmo : o ∈ g.outputs := List.mem_of_getElem? ho
  obtain ⟨hf1, hf2⟩ := outputFlags_spec hfo
  have hout : ∀ k : ℕ, g.outputs[k]? = some o → (g1.outputs.map fun o => (o, g1.four o))[k]? = some (o, g.four o) := by
    intro k hk
    rw [hs1.outputs, hs1.four]
    simp [List.getElem?_map, hk]
  rw [hsem2 env' o (by rw [hs1.outputs]; exact hmo), hmid o hmo]
  have : (o ∈ List.filter (fun y => g1.ops.any fun op => isDequantize op && op.outs.contains y) (chosen g1.outputs fo) ++
      List.filter (fun y => !g1.ops.any fun op => isDequantize op && op.outs.contains y) (chosen g1.outputs fo)) ↔ outArg.wants i (g.four o) = true := by
    rw [hperm.mem_iff, mem_chosen]
    constructor
    · rintro ⟨k, hk1, hk2⟩
      have hk1' : g.outputs[k]? = some o := by rw [← hs1.outputs]; exact hk1
      rw [hf1 k o _ (hout k hk1')] at hk2
      simp only [Option.some.injEq] at hk2
      rw [hf2 i k o _ (hout i ho) (hout k hk1'), hk2]
    · intro hw
      exact ⟨i, by rw [hs1.outputs]; exact ho, by rw [hf1 i o _ (hout i ho), hw]⟩
  by_cases hw : outArg.wants i (g.four o) = true
  · rw [if_pos (this.2 hw), if_pos hw]
  · rw [if_neg (fun hh => hw (this.1 hh)), if_neg hw]

theorem rewire_ins {a f i : ℕ} {op : Op α} (h : i ∈ (rewire a f op).ins) : i ∈ op.ins ∨ i = f := by
  simp only [rewire, List.mem_map] at h
  obtain ⟨j, hj, rfl⟩ := h
  split
  · exact Or.inr rfl
  · exact Or.inl hj

/-- The operators after one input. -/
theorem inputStep_ops {g g' : Net α} {x : ℕ} (h : inputStep g x = some g') :
    (∀ op' ∈ g'.ops, isQuantize op' = true → ∃ op ∈ g.ops, isQuantize op = true ∧ op'.outs = op.outs ∧ ∀ i ∈ op'.ins, i ∈ op.ins ∨ i = g.next) ∧
      ∀ op ∈ g.ops, ∃ op' ∈ g'.ops, op'.outs = op.outs := by
  unfold inputStep at h
  split at h
  · simp at h
  split at h
  · simp only [Option.some.injEq] at h
    subst h
    refine ⟨?_, fun op ho => ⟨rewire x g.next op, by simpa using Or.inr ⟨op, ho, rfl⟩, rfl⟩⟩
    intro op' ho hq
    rcases List.mem_cons.1 ho with rfl | ho
    · simp [isQuantize] at hq
    · obtain ⟨o, hom, rfl⟩ := List.mem_map.1 ho
      exact ⟨o, hom, hq, rfl, fun i hi => rewire_ins hi⟩
  · next pre op post hs =>
    obtain ⟨e, _⟩ := soleQuantize_spec hs
    simp only at h
    split at h
    · simp at h
    simp only [Option.some.injEq] at h
    subst h
    refine ⟨?_, ?_⟩
    · intro op' ho hq
      simp only [List.mem_append, List.mem_cons, List.mem_map] at ho
      rcases ho with ho | rfl | rfl | ⟨o, ho, rfl⟩
      · exact ⟨op', by rw [e]; simp [ho], hq, rfl, fun i hi => Or.inl hi⟩
      · exact ⟨op', by rw [e]; simp, hq, rfl, fun i hi => Or.inl hi⟩
      · simp [isQuantize] at hq
      · exact ⟨o, by rw [e]; simp [ho], hq, rfl, fun i hi => rewire_ins hi⟩
    · intro o ho
      rw [e] at ho
      simp only [List.mem_append, List.mem_cons] at ho
      rcases ho with ho | rfl | ho
      · exact ⟨o, by simp [ho], rfl⟩
      · exact ⟨o, by simp, rfl⟩
      · exact ⟨rewire (op.outs.headD 0) g.next o, by simp only [List.mem_append, List.mem_cons, List.mem_map]; exact Or.inr (Or.inr (Or.inr ⟨o, ho, rfl⟩)), rfl⟩

theorem inputPass_isSome {g : Net α} {xs : List ℕ} (hv : IoValid g) (hn : xs.Nodup) (hx : ∀ x ∈ xs, x ∈ g.inputs ∧ g.four x = true ∧ x ∉ g.outputs)
    (hq : ∀ x ∈ xs, ∀ op ∈ g.ops, isQuantize op = true → x ∈ op.ins → ∀ q ∈ op.outs, q ∉ g.outputs) :
    ∃ g', inputPass g xs = some g' ∧ ∀ op ∈ g.ops, ∃ op' ∈ g'.ops, op'.outs = op.outs := by
  induction xs generalizing g with
  | nil => exact ⟨g, rfl, fun op ho => ⟨op, ho, rfl⟩⟩
  | cons x xs ih =>
    obtain ⟨hxi, h4, hxo⟩ := hx x (by simp)
    obtain ⟨g1, hg1⟩ : ∃ g1, inputStep g x = some g1 := by
      unfold inputStep
      rw [if_neg (by simp [h4, hxo])]
      cases hs : soleQuantize g x with
      | none => exact ⟨_, rfl⟩
      | some r =>
        obtain ⟨pre, op, post⟩ := r
        obtain ⟨e, hxi', hqq, _⟩ := soleQuantize_spec hs
        have hmem : op ∈ g.ops := by rw [e]; simp
        obtain ⟨_, hl2⟩ := hv.arity op hmem (Or.inl hqq)
        obtain ⟨q, houts⟩ := List.length_eq_one_iff.1 hl2
        have hqo := hq x (by simp) op hmem hqq hxi' q (by simp [houts])
        simp only [houts, List.headD_cons, hqo, if_false]
        exact ⟨_, rfl⟩
    obtain ⟨hv1, hs1, _⟩ := inputStep_spec hv hxi hg1
    obtain ⟨hops, hkeep⟩ := inputStep_ops hg1
    obtain ⟨g2, hg2, hk2⟩ := ih hv1 (List.nodup_cons.1 hn).2 (fun z hz => by rw [hs1.inputs, hs1.four, hs1.outputs]; exact hx z (by simp [hz])) (by
      intro z hz op' hop' hq' hzi q hqo
      obtain ⟨op, hop, hqq, ho, hi⟩ := hops op' hop' hq'
      rw [hs1.outputs]
      rcases hi z hzi with hi | hi
      · exact hq z (by simp [hz]) op hop hqq hi q (ho ▸ hqo)
      · exact absurd (hv.known z (Or.inl (hx z (by simp [hz])).1)) (by omega))
    refine ⟨g2, by simp [inputPass, hg1, hg2], ?_⟩
    intro op ho
    obtain ⟨op1, h1, e1⟩ := hkeep op ho
    obtain ⟨op2, h2, e2⟩ := hk2 op1 h1
    exact ⟨op2, h2, e2.trans e1⟩

theorem outputStep_made {g g' : Net α} {y : ℕ} (h : outputStep g y = some g') {o : ℕ} (ho : ∃ op ∈ g.ops, o ∈ op.outs) : ∃ op ∈ g'.ops, o ∈ op.outs := by
  unfold outputStep at h
  split at h
  · simp at h
  split at h
  · simp at h
  next pre op post hs =>
  obtain ⟨e, _⟩ := splitFirst_spec hs
  obtain ⟨op', hop', hoo⟩ := ho
  rw [e] at hop'
  simp only [List.mem_append, List.mem_cons] at hop'
  split at h
  · simp only [Option.some.injEq] at h
    subst h
    rcases hop' with hop' | rfl | hop'
    · exact ⟨op', by simp [hop'], hoo⟩
    · exact ⟨{ op' with ins := [g.next] }, by simp, hoo⟩
    · by_cases hr : reads y post = 0
      · exact ⟨op', by simp [hr, hop'], hoo⟩
      · refine ⟨rewire y (g.next + 1) op', ?_, hoo⟩
        simp only [hr, if_false, List.mem_append, List.mem_cons, List.mem_map]
        exact Or.inr (Or.inr (Or.inr (Or.inr ⟨op', hop', rfl⟩)))
  · simp only [Option.some.injEq] at h
    subst h
    rcases hop' with hop' | rfl | hop'
    · exact ⟨op', by simp [hop'], hoo⟩
    · by_cases hoy : o = y
      · exact ⟨⟨.toNhwc, [g.next], [y]⟩, by simp, by simp [hoy]⟩
      · exact ⟨{ op' with outs := op'.outs.map fun n => if n = y then g.next else n }, by simp, List.mem_map.2 ⟨o, hoo, by simp [hoy]⟩⟩
    · refine ⟨rewire y g.next op', ?_, hoo⟩
      simp only [List.mem_append, List.mem_cons, List.mem_map]
      exact Or.inr (Or.inr (Or.inr ⟨op', hop', rfl⟩))

theorem outputSteps_isSome {g : Net α} {ys : List ℕ} (hv : IoValid g) (hy : ∀ y ∈ ys, g.four y = true ∧ ∃ op ∈ g.ops, y ∈ op.outs) : ∃ g', outputSteps g ys = some g' := by
  induction ys generalizing g with
  | nil => exact ⟨g, rfl⟩
  | cons y ys ih =>
    obtain ⟨h4, op, hop, hyo⟩ := hy y (by simp)
    obtain ⟨g1, hg1⟩ : ∃ g1, outputStep g y = some g1 := by
      unfold outputStep
      rw [if_neg (by simp [h4])]
      cases hs : splitFirst (fun op => op.outs.contains y) g.ops with
      | none =>
        have := splitFirst_some (p := fun op => op.outs.contains y) ⟨op, hop, by simpa using hyo⟩
        rw [hs] at this
        simp at this
      | some r =>
        obtain ⟨pre, op, post⟩ := r
        simp only
        split
        · exact ⟨_, rfl⟩
        · exact ⟨_, rfl⟩
    obtain ⟨hv1, hs1, _⟩ := outputStep_spec hv hg1
    obtain ⟨g2, hg2⟩ := ih hv1 (fun z hz => by
      obtain ⟨h4z, hz'⟩ := hy z (by simp [hz])
      exact ⟨by rw [hs1.four]; exact h4z, outputStep_made hg1 hz'⟩)
    exact ⟨g2, by simp [outputSteps, hg1, hg2]⟩

/-- C105.  With single flags or lists the conversion succeeds if channels last is asked only for tensors with four dimensions, for no input the model returns (also not after a QUANTIZE), for outputs some
operator makes, and not differently for the same output. -/
theorem C105_succeeds {g : Net α} (hv : IoValid g) {inArg outArg : Arg}
    (hia : (∃ b, inArg = .one b) ∨ ∃ l, inArg = .list l ∧ g.inputs.length ≤ l.length)
    (hoa : (∃ b, outArg = .one b) ∨ ∃ l, outArg = .list l ∧ l.length = g.outputs.length ∧ ∀ (i j o : ℕ), g.outputs[i]? = some o → g.outputs[j]? = some o → l[i]? = l[j]?)
    (hi : ∀ (i x : ℕ), g.inputs[i]? = some x → inArg.wants i (g.four x) = true →
      g.four x = true ∧ x ∉ g.outputs ∧ ∀ op ∈ g.ops, isQuantize op = true → x ∈ op.ins → ∀ q ∈ op.outs, q ∉ g.outputs)
    (ho : ∀ (i o : ℕ), g.outputs[i]? = some o → outArg.wants i (g.four o) = true → g.four o = true ∧ ∃ op ∈ g.ops, o ∈ op.outs) :
    ∃ g', convertLayout g inArg outArg = some g' := by
  obtain ⟨fi, hfi⟩ : ∃ fi, inputFlags inArg (g.inputs.map g.four) = some fi := by
    rcases hia with ⟨b, rfl⟩ | ⟨l, rfl, hl⟩
    · exact ⟨_, rfl⟩
    · simp only [inputFlags, List.length_map, hl, if_true]
      exact ⟨_, rfl⟩
  have hflag : ∀ x ∈ chosen g.inputs fi, ∃ i : ℕ, g.inputs[i]? = some x ∧ inArg.wants i (g.four x) = true := by
    intro x hx
    obtain ⟨i, h1, h2⟩ := mem_chosen.1 hx
    rw [inputFlags_spec hfi i (g.four x) (by simp [List.getElem?_map, h1])] at h2
    exact ⟨i, h1, by simpa using h2⟩
  have hin1 : ∀ x ∈ chosen g.inputs fi, x ∈ g.inputs := fun x hx => let ⟨_, h1, _⟩ := hflag x hx; List.mem_of_getElem? h1
  obtain ⟨g1, hg1, hkeep⟩ := inputPass_isSome hv (List.nodup_dedup _ : (chosen g.inputs fi).Nodup)
    (fun x hx => let ⟨i, h1, h2⟩ := hflag x hx; ⟨hin1 x hx, (hi i x h1 h2).1, (hi i x h1 h2).2.1⟩)
    (fun x hx => let ⟨i, h1, h2⟩ := hflag x hx; (hi i x h1 h2).2.2)
  obtain ⟨hv1, hs1, _⟩ := inputPass_spec hv (List.nodup_dedup _) hin1 hg1
  obtain ⟨fo, hfo⟩ : ∃ fo, outputFlags outArg (g1.outputs.map fun o => (o, g1.four o)) = some fo := by
    rw [hs1.outputs, hs1.four]
    rcases hoa with ⟨b, rfl⟩ | ⟨l, rfl, hl, hcf⟩
    · exact ⟨_, rfl⟩
    · have hc : conflict (((g.outputs.map fun o => (o, g.four o)).map Prod.fst).zip l) = false := by
        rw [List.map_map]
        have : (Prod.fst ∘ fun o => (o, g.four o)) = (id : ℕ → ℕ) := rfl
        rw [this, List.map_id]
        unfold conflict
        rw [List.any_eq_false]
        intro a ha
        simp only [Bool.not_eq_true]
        rw [List.any_eq_false]
        intro b hb
        obtain ⟨i, hi⟩ := List.mem_iff_getElem?.1 ha
        obtain ⟨j, hj⟩ := List.mem_iff_getElem?.1 hb
        rw [List.getElem?_zip_eq_some] at hi hj
        simp only [Bool.and_eq_true, beq_iff_eq, bne_iff_ne, ne_eq, not_and, not_not]
        intro hab
        have := hcf i j a.1 hi.1 (by rw [hj.1, hab])
        rw [hi.2, hj.2] at this
        simpa using this
      simp only [outputFlags, List.length_map, hl, hc]
      exact ⟨_, if_neg (by simp)⟩
  have hy : ∀ y ∈ chosen g1.outputs fo, g1.four y = true ∧ ∃ op ∈ g1.ops, y ∈ op.outs := by
    intro y hy
    obtain ⟨i, h1, h2⟩ := mem_chosen.1 hy
    have h1' : g.outputs[i]? = some y := by rw [← hs1.outputs]; exact h1
    rw [(outputFlags_spec hfo).1 i y (g.four y) (by rw [hs1.outputs, hs1.four]; simp [List.getElem?_map, h1'])] at h2
    obtain ⟨h4, op, hop, hyo⟩ := ho i y h1' (by simpa using h2)
    obtain ⟨op', hop', e⟩ := hkeep op hop
    exact ⟨by rw [hs1.four]; exact h4, op', hop', e ▸ hyo⟩
  obtain ⟨g2, hg2⟩ := outputSteps_isSome hv1 (ys := List.filter (fun y => g1.ops.any fun op => isDequantize op && op.outs.contains y) (chosen g1.outputs fo) ++
      List.filter (fun y => !g1.ops.any fun op => isDequantize op && op.outs.contains y) (chosen g1.outputs fo)) (fun y hm => hy y (by
        simp only [List.mem_append, List.mem_filter] at hm
        rcases hm with hm | hm
        · exact hm.1
        · exact hm.1))
  refine ⟨g2, ?_⟩
  simp only [convertLayout, hfi, Option.bind_eq_bind, Option.bind_some]
  rw [show inputPass g (chosen g.inputs fi) = some g1 from hg1]
  simp only [Option.bind_some]
  rw [hfo]
  exact hg2

/-- A quantized network: quantize, a convolution whose result is also returned, and a dequantized result that another operator reads. -/
def ioExample : Net ℤ where
  inputs := [0]
  consts := [1]
  outputs := [3, 5, 4]
  ops := [⟨.quantize (· + 1), [0], [2]⟩, ⟨.other fun vs _ => (vs.headD default).map (· * 2), [2, 1], [3]⟩, ⟨.dequantize (· - 1), [3], [4]⟩, ⟨.other fun vs _ => (vs.headD default).map (· * 5), [4], [5]⟩]
  four := fun n => n != 1
  next := 6

/-- The example is a graph the theorems speak about. -/
theorem ioExample_valid : IoValid ioExample where
  ordered := by simp [ioExample, Ordered]
  arity := by simp [ioExample, isQuantize, isDequantize]
  known := by simp [ioExample]
  insLt := by simp [ioExample]
  outsLt := by simp [ioExample]
  outputsLt := by simp [ioExample]

example : ∃ g', convertLayout ioExample (.one none) (.list [some true, some true, some true]) = some g' ∧
    ∀ env env' : ℕ → Val ℤ, env' 0 = nhwc (env 0) → (∀ n, n ≠ 0 → env' n = env n) →
      run env' g'.ops 3 = nhwc (run env ioExample.ops 3) ∧ run env' g'.ops 4 = nhwc (run env ioExample.ops 4) ∧ run env' g'.ops 5 = nhwc (run env ioExample.ops 5) := by
  obtain ⟨g', hg'⟩ := C105_succeeds ioExample_valid (inArg := .one none) (outArg := .list [some true, some true, some true]) (Or.inl ⟨_, rfl⟩)
    (Or.inr ⟨_, rfl, rfl, by
      intro i j o hi hj
      have hi' : i < 3 := (List.getElem?_eq_some_iff.1 hi).1
      have hj' : j < 3 := (List.getElem?_eq_some_iff.1 hj).1
      interval_cases i <;> interval_cases j <;> simp_all⟩)
    (by
      intro i x hi _
      simp only [ioExample, List.getElem?_singleton] at hi
      split at hi
      · simp only [Option.some.injEq] at hi
        subst hi
        simp [ioExample, isQuantize]
      · simp at hi)
    (by
      intro i o hi _
      have hi' : i < 3 := (List.getElem?_eq_some_iff.1 hi).1
      interval_cases i <;> simp [ioExample] at hi <;> subst hi <;> simp [ioExample])
  refine ⟨g', hg', fun env env' h1 h2 => ?_⟩
  obtain ⟨_, _, h⟩ := C105_layout ioExample_valid hg' env env' (by
      intro i x hi
      simp only [ioExample, List.getElem?_singleton] at hi
      split at hi
      · simp only [Option.some.injEq] at hi
        subst hi
        simpa [ioExample, Arg.wants] using h1
      · simp at hi) (fun n hn => h2 n (by simpa [ioExample] using hn))
  exact ⟨by simpa [Arg.wants] using h 0 3 rfl, by simpa [Arg.wants] using h 2 4 rfl, by simpa [Arg.wants] using h 1 5 rfl⟩

/-- C105 is false for flags given as a tuple: for outputs a tuple is never accepted, although the list with the same flags is. -/
theorem C105_tuple_false : (∀ (g : Net ℤ) (inArg : Arg) (l : List (Option Bool)), g.outputs ≠ [] → convertLayout g inArg (.tuple l) = none) ∧
    (convertLayout ioExample (.one none) (.tuple [some true, some true, some true])).isNone = true ∧
    (convertLayout ioExample (.one none) (.list [some true, some true, some true])).isSome = true ∧
    (convertLayout ioExample (.tuple [none]) (.one none)).isNone = true ∧ (convertLayout ioExample (.list [none]) (.one none)).isSome = true := by
  refine ⟨?_, by decide +kernel, by decide +kernel, by decide +kernel, by decide +kernel⟩
  intro g inArg l hne
  unfold convertLayout
  cases hfi : inputFlags inArg (g.inputs.map g.four) with
  | none => rfl
  | some fi =>
    cases hg : inputPass g (chosen g.inputs fi) with
    | none => simp [hg]
    | some g1 =>
      have hout : g1.outputs = g.outputs := by
        have : ∀ (xs : List ℕ) (a b : Net ℤ), inputPass a xs = some b → b.outputs = a.outputs := by
          intro xs
          induction xs with
          | nil => intro a b h; simp [inputPass] at h; rw [h]
          | cons x xs ih =>
            intro a b h
            simp only [inputPass, Option.bind_eq_some_iff] at h
            obtain ⟨c, h1, h2⟩ := h
            rw [ih c b h2]
            unfold inputStep at h1
            split at h1
            · simp at h1
            split at h1
            · simp only [Option.some.injEq] at h1; rw [← h1]
            · simp only at h1
              split at h1
              · simp at h1
              · simp only [Option.some.injEq] at h1; rw [← h1]
        exact this _ _ _ hg
      simp [hg, outputFlags, hout, hne]

/-- C105 is false for a model that returns its input: converting fails with the default flags. -/
theorem C105_returned_input_false : ∃ g : Net ℤ, IoValid g ∧ convertLayout g (.one none) (.one none) = none := by
  refine ⟨⟨[0], [], [1, 0], [⟨.other fun vs _ => (vs.headD default).map (· * 2), [0], [1]⟩], fun _ => true, 2⟩, ?_, ?_⟩
  · exact ⟨by simp [Ordered], by simp [isQuantize, isDequantize], by simp, by simp, by simp, by simp⟩
  · simp [convertLayout, inputFlags, chosen, inputPass, inputStep]

end IoLayout

end Verif.Props
