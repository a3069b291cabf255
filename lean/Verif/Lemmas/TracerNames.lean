import Verif.Model.Tracer
import Mathlib.Data.List.Basic

/-! Names given out by the tracer never repeat (used by C81). -/

namespace Verif.Lemmas.Tracer
open Verif.Spec.Trace Verif.Model.Tracer

theorem split_last {α : Type} {c : α} {xs xs' ys ys' : List α} (h : xs ++ c :: ys = xs' ++ c :: ys') (hy : c ∉ ys) (hy' : c ∉ ys') :
    xs = xs' ∧ ys = ys' := by
  rcases List.append_eq_append_iff.1 h with ⟨as, h1, h2⟩ | ⟨as, h1, h2⟩
  · cases as with
    | nil => simp at h1 h2; exact ⟨h1.symm, h2⟩
    | cons a as =>
      simp only [List.cons_append, List.cons.injEq] at h2
      exact absurd (h2.2 ▸ by simp) hy
  · cases as with
    | nil => simp at h1 h2; exact ⟨h1, h2.symm⟩
    | cons a as =>
      simp only [List.cons_append, List.cons.injEq] at h2
      exact absurd (h2.2 ▸ by simp) hy'

theorem toList_toString (n : Nat) : (toString n).toList = Nat.toDigits 10 n := by
  rw [Nat.toString_eq_repr, Nat.toList_repr]

theorem toString_inj {m n : Nat} (h : toString m = toString n) : m = n := by
  have h1 := congrArg String.toList h
  rw [toList_toString, toList_toString] at h1
  have h2 := congrArg (fun l => Nat.ofDigitChars 10 l 0) h1
  simpa only [Nat.ofDigitChars_ten_toDigits] using h2

theorem numbered_inj {b b' : String} {k k' : Nat} (h : b ++ "_" ++ toString k = b' ++ "_" ++ toString k') : b = b' ∧ k = k' := by
  have h1 := congrArg String.toList h
  simp only [String.toList_append, toList_toString, List.append_assoc] at h1
  obtain ⟨h2, h3⟩ := split_last (c := '_') (by simpa using h1) Nat.underscore_not_in_toDigits Nat.underscore_not_in_toDigits
  refine ⟨String.toList_inj.1 h2, toString_inj ?_⟩
  apply String.toList_inj.1
  rw [toList_toString, toList_toString, h3]

theorem f_ne_numbered {s b : String} {k : Nat} (h : s ++ "_f" = b ++ "_" ++ toString k) : False := by
  have h1 := congrArg String.toList h
  simp only [String.toList_append, toList_toString, List.append_assoc] at h1
  obtain ⟨-, h3⟩ := split_last (c := '_') (ys := ['f']) (by simpa using h1) (by decide) Nat.underscore_not_in_toDigits
  have h4 : 'f' ∈ Nat.toDigits 10 k := by rw [← h3]; simp
  have h5 := Nat.isDigit_of_mem_toDigits (by omega) (by omega) h4
  revert h5; decide

theorem fnName_inj {a b : String} {k n : Nat} (h : fnName a k = fnName b n) : a = b ∧ k = n := by
  unfold fnName at h
  have h1 := congrArg String.toList h
  rw [String.toList_append, String.toList_append (s := b ++ "_" ++ toString n)] at h1
  exact numbered_inj (String.toList_inj.1 (List.append_cancel_right h1))

theorem tensor_numbered {b : String} {n k : Nat} (h : "tensor_" ++ toString n = b ++ "_" ++ toString k) : b = "tensor" ∧ n = k := by
  have : "tensor_" ++ toString n = "tensor" ++ "_" ++ toString n := by
    apply String.toList_inj.1
    simp [String.toList_append]
  rw [this] at h
  obtain ⟨h1, h2⟩ := numbered_inj h
  exact ⟨h1.symm, h2⟩

theorem fnName_ne_tensor {a : String} {k n : Nat} (h : fnName a k = "tensor_" ++ toString n) : False := by
  have : "tensor_" ++ toString n = "tensor" ++ "_" ++ toString n := by
    apply String.toList_inj.1
    simp [String.toList_append]
  rw [this] at h
  exact f_ne_numbered h

theorem tensor_inj {n k : Nat} (h : "tensor_" ++ toString n = "tensor_" ++ toString k) : n = k := by
  have h1 := congrArg String.toList h
  rw [String.toList_append, String.toList_append] at h1
  exact toString_inj (String.toList_inj.1 (List.append_cancel_left h1))

/-- The `k`-th name for a base name. -/
def num (b : String) (k : Nat) : String := if k = 0 then b else b ++ "_" ++ toString k

/-- Names given out so far. -/
def Issued (gn : String → Option Nat) (x : String) : Prop := ∃ b N k, gn b = some N ∧ k ≤ N ∧ x = num b k

variable {F M K : Type}

structure NameInv (U : String → Prop) (st : State F M K) : Prop where
  big : ∀ b N, st.gn b = some N → 1 ≤ N → U b
  src : ∀ b N, st.gn b = some N → U b ∨ (∃ kind n G, b = fnName kind n ∧ st.gf kind = some G ∧ n ≤ G) ∨
    (∃ n G, b = "tensor_" ++ toString n ∧ st.gf "tensor" = some G ∧ n ≤ G)
  nodes : ∀ n ∈ st.nodes, Issued st.gn n.name

/-- A base name the tracer may number next. -/
def Usable (U : String → Prop) (st : State F M K) (b : String) : Prop :=
  U b ∨ (st.gn b = none ∧ ((∃ kind n G, b = fnName kind n ∧ st.gf kind = some G ∧ n ≤ G) ∨
    (∃ n G, b = "tensor_" ++ toString n ∧ st.gf "tensor" = some G ∧ n ≤ G)))

theorem number_name (st : State F M K) (b : String) :
    ∃ N, (number st b).1 = num b N ∧ (number st b).2.gn b = some N ∧ (∀ x, x ≠ b → (number st b).2.gn x = st.gn x) ∧
      (∀ k, st.gn b = some k → N = k + 1) ∧ (st.gn b = none → N = 0) := by
  unfold number
  cases h : st.gn b with
  | none => exact ⟨0, by simp [num], by simp [upd], fun x hx => by simp [upd, hx], by simp, fun _ => rfl⟩
  | some k => exact ⟨k + 1, by simp [num], by simp [upd], fun x hx => by simp [upd, hx], by simp, by simp⟩

theorem number_frame (st : State F M K) (b : String) :
    (number st b).2.nodes = st.nodes ∧ (number st b).2.inputs = st.inputs ∧ (number st b).2.forward = st.forward ∧
      (number st b).2.outputs = st.outputs ∧ (number st b).2.consts = st.consts ∧ (number st b).2.nodesMap = st.nodesMap ∧
      (number st b).2.preNode = st.preNode ∧ (number st b).2.preIdx = st.preIdx ∧ (number st b).2.gf = st.gf := by
  unfold number
  cases st.gn b <;> simp

theorem number_fresh {U : String → Prop} (hU : NamesOk U) {st : State F M K} (hi : NameInv U st) {b : String} (hb : Usable U st b) :
    ¬ Issued st.gn (number st b).1 := by
  rintro ⟨b', N', k', h1, h2, h3⟩
  obtain ⟨N, e1, -, -, e4, e5⟩ := number_name st b
  rw [e1] at h3
  cases hg : st.gn b with
  | some k =>
    have hN := e4 k hg
    subst hN
    have hUb : U b := by
      rcases hb with hb | ⟨hb, -⟩
      · exact hb
      · rw [hg] at hb; cases hb
    rw [num, if_neg (by omega)] at h3
    by_cases hk : k' = 0
    · rw [num, if_pos hk] at h3
      rcases hi.src b' N' h1 with hu | ⟨kind, n, G, hf, -⟩ | ⟨n, G, hf, -⟩
      · exact hU.1 b' b k hu hUb h3.symm
      · exact f_ne_numbered (by rw [← h3] at hf; exact hf.symm)
      · obtain ⟨ht, -⟩ := tensor_numbered (by rw [← h3] at hf; exact hf.symm)
        exact (hU.2.2 b hUb).1 ht
    · rw [num, if_neg hk] at h3
      obtain ⟨e, ek⟩ := numbered_inj h3
      subst e
      rw [hg] at h1
      cases h1
      omega
  | none =>
    have hN := e5 hg
    subst hN
    rw [num, if_pos rfl] at h3
    by_cases hk : k' = 0
    · rw [num, if_pos hk] at h3
      subst h3
      rw [hg] at h1; cases h1
    · rw [num, if_neg hk] at h3
      have hub' := hi.big b' N' h1 (by omega)
      rcases hb with hb | ⟨-, ⟨kind, n, G, hf, -⟩ | ⟨n, G, hf, -⟩⟩
      · refine hU.1 b b' (k' - 1) hb hub' ?_
        rw [h3]; congr 2; omega
      · exact f_ne_numbered (hf.symm.trans h3)
      · obtain ⟨ht, -⟩ := tensor_numbered (hf.symm.trans h3)
        exact (hU.2.2 b' hub').1 ht

theorem number_issued (st : State F M K) (b : String) :
    Issued (number st b).2.gn (number st b).1 ∧ ∀ x, Issued st.gn x → Issued (number st b).2.gn x := by
  obtain ⟨N, e1, e2, e3, e4, e5⟩ := number_name st b
  refine ⟨⟨b, N, N, e2, Nat.le_refl _, e1⟩, ?_⟩
  rintro x ⟨b', N', k', h1, h2, h3⟩
  by_cases h : b' = b
  · subst h
    exact ⟨b', N, k', e2, by have := e4 N' h1; omega, h3⟩
  · exact ⟨b', N', k', by rw [e3 b' h]; exact h1, h2, h3⟩

theorem number_inv {U : String → Prop} {st : State F M K} (hi : NameInv U st) {b : String} (hb : Usable U st b) :
    NameInv U (number st b).2 := by
  obtain ⟨N, e1, e2, e3, e4, e5⟩ := number_name st b
  obtain ⟨f1, -, -, -, -, -, -, -, f9⟩ := number_frame st b
  refine ⟨?_, ?_, ?_⟩
  · intro b' N' h1 h2
    by_cases h : b' = b
    · subst h
      rw [e2] at h1
      cases h1
      cases hg : st.gn b' with
      | none => have := e5 hg; omega
      | some k =>
        rcases hb with hb | ⟨hb, -⟩
        · exact hb
        · rw [hg] at hb; cases hb
    · rw [e3 b' h] at h1
      exact hi.big b' N' h1 h2
  · intro b' N' h1
    rw [f9]
    by_cases h : b' = b
    · subst h
      rcases hb with hb | ⟨-, hb⟩
      · exact Or.inl hb
      · exact Or.inr hb
    · rw [e3 b' h] at h1
      exact hi.src b' N' h1
  · intro n hn
    rw [f1] at hn
    exact (number_issued st b).2 _ (hi.nodes n hn)

theorem bump_frame (st : State F M K) (kind : String) :
    (bump st kind).2 = { st with gf := (bump st kind).2.gf } ∧ (bump st kind).2.gf kind = some (bump st kind).1 ∧
      (∀ k N, st.gf k = some N → ∃ N', (bump st kind).2.gf k = some N' ∧ N ≤ N') ∧
      (∀ N, st.gf kind = some N → N < (bump st kind).1) := by
  refine ⟨rfl, by simp [bump, upd], ?_, ?_⟩
  · intro k N h
    by_cases hk : k = kind
    · subst hk
      exact ⟨(bump st k).1, by simp [bump, upd], by simp [bump, h]⟩
    · exact ⟨N, by simp [bump, upd, hk, h], Nat.le_refl _⟩
  · intro N h
    simp [bump, h]

theorem bump_inv {U : String → Prop} {st : State F M K} (hi : NameInv U st) (kind : String) : NameInv U (bump st kind).2 := by
  obtain ⟨e, -, h3, -⟩ := bump_frame st kind
  refine ⟨fun b N h => hi.big b N (by rw [e] at h; exact h), ?_, fun n hn => by rw [e] at hn ⊢; exact hi.nodes n hn⟩
  intro b N h
  rcases hi.src b N (by rw [e] at h; exact h) with hu | ⟨k, n, G, hf, hg, hle⟩ | ⟨n, G, hf, hg, hle⟩
  · exact Or.inl hu
  · obtain ⟨N', h4, h5⟩ := h3 k G hg
    exact Or.inr (Or.inl ⟨k, n, N', hf, h4, by omega⟩)
  · obtain ⟨N', h4, h5⟩ := h3 _ G hg
    exact Or.inr (Or.inr ⟨n, N', hf, h4, by omega⟩)

/-- A name just made for a function has not been used. -/
theorem bump_unused {U : String → Prop} (hU : NamesOk U) {st : State F M K} (hi : NameInv U st) (kind : String) :
    st.gn (fnName kind (bump st kind).1) = none := by
  cases h : st.gn (fnName kind (bump st kind).1) with
  | none => rfl
  | some N =>
    exfalso
    rcases hi.src _ N h with hu | ⟨k, n, G, hf, hg, hle⟩ | ⟨n, G, hf, -⟩
    · exact hU.2.1 _ _ hu rfl
    · obtain ⟨e1, e2⟩ := fnName_inj hf
      subst e1
      have := (bump_frame st kind).2.2.2 G hg
      omega
    · exact fnName_ne_tensor hf

theorem bump_unused_tensor {U : String → Prop} (hU : NamesOk U) {st : State F M K} (hi : NameInv U st) :
    st.gn ("tensor_" ++ toString (bump st "tensor").1) = none := by
  cases h : st.gn ("tensor_" ++ toString (bump st "tensor").1) with
  | none => rfl
  | some N =>
    exfalso
    rcases hi.src _ N h with hu | ⟨k, n, G, hf, -⟩ | ⟨n, G, hf, hg, hle⟩
    · exact (hU.2.2 _ hu).2 _ rfl
    · exact fnName_ne_tensor hf.symm
    · have e2 := tensor_inj hf
      have := (bump_frame st "tensor").2.2.2 G hg
      omega

end Verif.Lemmas.Tracer
