import Verif.Model.Subgraph
import Mathlib.Tactic.Common

/-!
C49: overlapping dependency subgraphs are merged.
-/

namespace Verif.Props
open Verif.Model Verif.Spec

variable {C : Type} [LinearOrder C]

/-- Known centres: those of some operator. -/
private def Known (ops : List (CenterInfo C)) (c : C) : Prop := ∃ m ∈ ops, c ∈ m.centers

/-- Invariant after linking by the relation `L`, with redirection chains of length at most `k`. -/
private structure Inv (ops : List (CenterInfo C)) (L : C → C → Prop) (k : Nat) (s : DivState C) where
  rep : C → C
  depth : C → Nat
  alive_rep : ∀ c, Known ops c → (s.sub (rep c)).isSome = true
  rep_alive : ∀ c, (s.sub c).isSome = true → rep c = c ∧ Known ops c
  dead : ∀ c, Known ops c → s.sub c = none → ∃ d, s.mapping c = some d ∧ rep d = rep c ∧ depth d < depth c ∧ Known ops d
  bound : ∀ c, depth c ≤ k
  same : ∀ a b, Known ops a → Known ops b → (rep a = rep b ↔ L a b)
  members : ∀ c g, s.sub c = some g → ∀ m, m ∈ g ↔ ∃ o, ops[m]? = some o ∧ ∃ a ∈ o.centers, rep a = c

private theorem findMain_eq {ops : List (CenterInfo C)} {L : C → C → Prop} {k : Nat} {s : DivState C} (I : Inv ops L k s) :
    ∀ (fuel : Nat) (c : C), Known ops c → I.depth c < fuel → findMain s fuel c = some (I.rep c) := by
  intro fuel
  induction fuel with
  | zero => intro c _ h; omega
  | succ f ih =>
    intro c hc hd
    unfold findMain
    cases hs : s.sub c with
    | some g => simp [(I.rep_alive c (by rw [hs]; rfl)).1]
    | none =>
      obtain ⟨d, h1, h2, h3, h4⟩ := I.dead c hc hs
      simp only [Option.isSome_none, Bool.false_eq_true, if_false, h1]
      rw [ih d h4 (by omega), h2]

private theorem findRedirect_eq {ops : List (CenterInfo C)} {L : C → C → Prop} {k : Nat} {s : DivState C} (I : Inv ops L k s) :
    ∀ (fuel : Nat) (c : C), Known ops c → I.depth c < fuel → findRedirect s fuel c = some (I.rep c) := by
  intro fuel
  induction fuel with
  | zero => intro c _ h; omega
  | succ f ih =>
    intro c hc hd
    unfold findRedirect
    cases hs : s.sub c with
    | some g => simp [(I.rep_alive c (by rw [hs]; rfl)).1]
    | none =>
      obtain ⟨d, h1, h2, h3, h4⟩ := I.dead c hc hs
      simp only [Option.isSome_none, Bool.false_eq_true, if_false, h1]
      rw [ih d h4 (by omega), h2]

/-- Merging two live centres links their classes. -/
private theorem merge_inv {ops : List (CenterInfo C)} {L L' : C → C → Prop} {k : Nat} {s : DivState C} (I : Inv ops L k s) (main r : C)
    (hm : (s.sub main).isSome = true) (hr : (s.sub r).isSome = true) (hne : r ≠ main)
    (hL' : ∀ a b, Known ops a → Known ops b → (L' a b ↔ I.rep a = I.rep b ∨ (I.rep a = main ∧ I.rep b = r) ∨ (I.rep a = r ∧ I.rep b = main))) :
    ∃ s', mergeSub s main r = some s' ∧ (s'.sub main).isSome = true ∧ Nonempty { J : Inv ops L' (k + 1) s' // ∀ a, Known ops a → J.rep a = if I.rep a = r then main else I.rep a } := by
  obtain ⟨gm, hgm⟩ := Option.isSome_iff_exists.mp hm
  obtain ⟨gr, hgr⟩ := Option.isSome_iff_exists.mp hr
  have hmrep := (I.rep_alive main hm).1
  have hrrep := (I.rep_alive r hr).1
  have hmk := (I.rep_alive main hm).2
  have hrk := (I.rep_alive r hr).2
  refine ⟨⟨fun x => if x = r then none else if x = main then some (gm ++ gr) else s.sub x, fun x => if x = r then some main else s.mapping x⟩, by simp [mergeSub, hgm, hgr], ?_, ⟨⟨⟨fun a => if I.rep a = r then main else I.rep a,
    fun a => if a = r then 1 else if a = main then 0 else if (s.sub a).isSome then 0 else I.depth a + 1, ?_, ?_, ?_, ?_, ?_, ?_⟩, fun a _ => rfl⟩⟩⟩
  · simp [Ne.symm hne]
  · intro c hc
    by_cases h : I.rep c = r
    · simp [h, Ne.symm hne]
    · simp only [h, if_false]
      by_cases h2 : I.rep c = main
      · simp [h2]
      · simp only [h2, if_false]; exact I.alive_rep c hc
  · intro c hc
    simp only at hc ⊢
    by_cases h : c = r
    · simp [h] at hc
    · simp only [h, if_false] at hc
      by_cases h2 : c = main
      · subst h2; rw [hmrep, if_neg h]; exact ⟨rfl, hmk⟩
      · simp only [h2, if_false] at hc
        obtain ⟨e1, e2⟩ := I.rep_alive c hc
        rw [e1, if_neg h]; exact ⟨rfl, e2⟩
  · intro c hc hs
    simp only at hs ⊢
    by_cases h : c = r
    · subst h
      refine ⟨main, by simp, by rw [hmrep, hrrep]; simp [Ne.symm hne], by simp [Ne.symm hne], hmk⟩
    · simp only [h, if_false] at hs ⊢
      by_cases h2 : c = main
      · simp [h2] at hs
      · simp only [h2, if_false] at hs ⊢
        obtain ⟨d, h3, h4, h5, h6⟩ := I.dead c hc hs
        refine ⟨d, h3, by rw [h4], ?_, h6⟩
        simp only [hs, Option.isSome_none, Bool.false_eq_true, if_false]
        split
        · omega
        · split
          · omega
          · split <;> omega
  · intro c
    have := I.bound c
    have := I.bound c
    split
    · omega
    · split
      · omega
      · split <;> omega
  · intro a b ha hb
    rw [hL' a b ha hb]
    by_cases h1 : I.rep a = r <;> by_cases h2 : I.rep b = r <;> simp only [h1, h2, if_true, if_false]
    · simp
    · constructor
      · intro h; right; right; exact ⟨trivial, h.symm⟩
      · rintro (h | ⟨h, _⟩ | ⟨_, h⟩)
        · exact absurd h.symm h2
        · exact absurd h hne
        · exact h.symm
    · constructor
      · intro h; right; left; exact ⟨h, trivial⟩
      · rintro (h | ⟨h, _⟩ | ⟨h, _⟩)
        · exact h.elim
        · exact h
        · exact absurd h (by simp)
    · constructor
      · intro h; left; exact h
      · rintro (h | ⟨_, h⟩ | ⟨h, _⟩)
        · exact h
        · exact absurd h (by simp)
        · exact absurd h (by simp)
  · intro c g hg m
    simp only at hg
    by_cases h : c = r
    · simp [h] at hg
    · simp only [h, if_false] at hg
      by_cases h2 : c = main
      · subst h2
        simp only [if_true, Option.some.injEq] at hg
        subst hg
        rw [List.mem_append, I.members c gm hgm, I.members r gr hgr]
        constructor
        · rintro (⟨o, h3, a, h4, h5⟩ | ⟨o, h3, a, h4, h5⟩)
          · exact ⟨o, h3, a, h4, by simp [h5, h]⟩
          · exact ⟨o, h3, a, h4, by simp [h5]⟩
        · rintro ⟨o, h3, a, h4, h5⟩
          by_cases h6 : I.rep a = r
          · right; exact ⟨o, h3, a, h4, h6⟩
          · left; exact ⟨o, h3, a, h4, by simpa [h6] using h5⟩
      · simp only [h2, if_false] at hg
        rw [I.members c g hg]
        constructor
        · rintro ⟨o, h3, a, h4, h5⟩
          exact ⟨o, h3, a, h4, by simp [h5, h]⟩
        · rintro ⟨o, h3, a, h4, h5⟩
          refine ⟨o, h3, a, h4, ?_⟩
          by_cases h6 : I.rep a = r
          · simp [h6] at h5; exact absurd h5.symm h2
          · simpa [h6] using h5

omit [LinearOrder C] in
private theorem eqvGen_mono {r t : C → C → Prop} (h : ∀ a b, r a b → t a b) {a b : C} (hab : Relation.EqvGen r a b) : Relation.EqvGen t a b := by
  induction hab with
  | rel _ _ h' => exact .rel _ _ (h _ _ h')
  | refl => exact .refl _
  | symm _ _ _ ih => exact .symm _ _ ih
  | trans _ _ _ _ _ ih1 ih2 => exact .trans _ _ _ ih1 ih2

/-- `L` joined with the pair `(x, y)`. -/
private def join (L : C → C → Prop) (x y : C) : C → C → Prop := Relation.EqvGen (fun a b => L a b ∨ (a = x ∧ b = y))

omit [LinearOrder C] in
private theorem join_iff {ops : List (CenterInfo C)} {L : C → C → Prop} (rep : C → C) (hdom : ∀ a b, L a b → Known ops a ∧ Known ops b ∨ a = b)
    (same : ∀ a b, Known ops a → Known ops b → (rep a = rep b ↔ L a b)) (x y : C) (hx : Known ops x) (hy : Known ops y) (a b : C)
    (ha : Known ops a) (hb : Known ops b) :
    join L x y a b ↔ rep a = rep b ∨ (rep a = rep x ∧ rep b = rep y) ∨ (rep a = rep y ∧ rep b = rep x) := by
  constructor
  · intro h
    have key : ∀ a b, join L x y a b → a = b ∨ (Known ops a ∧ Known ops b ∧ (rep a = rep b ∨ (rep a = rep x ∧ rep b = rep y) ∨ (rep a = rep y ∧ rep b = rep x))) := by
      intro a b h
      induction h with
      | rel a b h =>
        rcases h with h | ⟨rfl, rfl⟩
        · rcases hdom a b h with ⟨h1, h2⟩ | h1
          · right; exact ⟨h1, h2, Or.inl ((same a b h1 h2).mpr h)⟩
          · left; exact h1
        · right; exact ⟨hx, hy, Or.inr (Or.inl ⟨rfl, rfl⟩)⟩
      | refl a => left; rfl
      | symm a b _ ih =>
        rcases ih with ih | ⟨h1, h2, ih⟩
        · left; exact ih.symm
        · right
          refine ⟨h2, h1, ?_⟩
          rcases ih with ih | ⟨p, q⟩ | ⟨p, q⟩
          · left; exact ih.symm
          · right; right; exact ⟨q, p⟩
          · right; left; exact ⟨q, p⟩
      | trans a b c _ _ ih1 ih2 =>
        rcases ih1 with ih1 | ⟨h1, h2, ih1⟩
        · subst ih1; exact ih2
        · rcases ih2 with ih2 | ⟨h3, h4, ih2⟩
          · subst ih2; right; exact ⟨h1, h2, ih1⟩
          · right
            refine ⟨h1, h4, ?_⟩
            rcases ih1 with ih1 | ⟨p, q⟩ | ⟨p, q⟩ <;> rcases ih2 with ih2 | ⟨p', q'⟩ | ⟨p', q'⟩ <;> clear same hdom <;> simp_all
    rcases key a b h with h | ⟨_, _, h⟩
    · left; rw [h]
    · exact h
  · have inL : ∀ a b, Known ops a → Known ops b → rep a = rep b → join L x y a b := fun a b h1 h2 h => .rel _ _ (Or.inl ((same a b h1 h2).mp h))
    rintro (h | ⟨h1, h2⟩ | ⟨h1, h2⟩)
    · exact inL a b ha hb h
    · exact .trans _ _ _ (inL a x ha hx h1) (.trans _ _ _ (.rel _ _ (Or.inr ⟨rfl, rfl⟩)) (.symm _ _ (inL b y hb hy h2)))
    · exact .trans _ _ _ (inL a y ha hy h1) (.trans _ _ _ (.symm _ _ (.rel _ _ (Or.inr ⟨rfl, rfl⟩))) (.symm _ _ (inL b x hb hx h2)))

omit [LinearOrder C] in
private theorem inv_congr {ops : List (CenterInfo C)} {L L' : C → C → Prop} {k k' : Nat} {s : DivState C} (I : Inv ops L k s) (hk : k ≤ k')
    (h : ∀ a b, Known ops a → Known ops b → (L a b ↔ L' a b)) : ∃ J : Inv ops L' k' s, J.rep = I.rep :=
  ⟨⟨I.rep, I.depth, I.alive_rep, I.rep_alive, I.dead, fun c => le_trans (I.bound c) hk, fun a b ha hb => (I.same a b ha hb).trans (h a b ha hb), I.members⟩, rfl⟩

/-- One redundant centre `r`, with `c` in the class of `main`. -/
private theorem redundant_inv {ops : List (CenterInfo C)} {L : C → C → Prop} {k : Nat} {s : DivState C} (I : Inv ops L k s)
    (hdom : ∀ a b, L a b → Known ops a ∧ Known ops b ∨ a = b) (fuel : Nat) (hf : k < fuel) (c r : C) (hc : Known ops c) (hr : Known ops r)
    (main : C) (hmain : I.rep c = main) :
    ∃ s', divRedundant fuel main s r = some s' ∧ ∃ J : Inv ops (join L c r) (k + 1) s', J.rep c = main := by
  have hma : (s.sub main).isSome = true := by rw [← hmain]; exact I.alive_rep c hc
  have hmrep := (I.rep_alive main hma).1
  have J0 := fun a b ha hb => join_iff (ops := ops) I.rep hdom I.same c r hc hr a b ha hb
  by_cases hsame : I.rep r = main
  · -- nothing to do
    have hnoop : divRedundant fuel main s r = some s := by
      unfold divRedundant
      by_cases h1 : r = main
      · rw [if_pos h1]
      · rw [if_neg h1]
        have h2 : (s.sub r).isSome = false := by
          cases h : (s.sub r).isSome with
          | false => rfl
          | true => have := (I.rep_alive r h).1; rw [hsame] at this; exact absurd this.symm h1
        rw [h2, findRedirect_eq I fuel r hr (lt_of_le_of_lt (I.bound r) hf), hsame]
        simp
    refine ⟨s, hnoop, ?_⟩
    obtain ⟨J, hJ⟩ := inv_congr (L' := join L c r) (k' := k + 1) I (by omega) (fun a b ha hb => by
      rw [J0 a b ha hb, hmain, hsame, ← I.same a b ha hb]
      constructor
      · intro h; left; exact h
      · rintro (h | ⟨h1, h2⟩ | ⟨h1, h2⟩)
        · exact h
        · rw [h1, h2]
        · rw [h1, h2])
    exact ⟨J, by rw [hJ]; exact hmain⟩
  · have hra : (s.sub (I.rep r)).isSome = true := I.alive_rep r hr
    have hstep : divRedundant fuel main s r = mergeSub s main (I.rep r) := by
      unfold divRedundant
      by_cases h1 : (s.sub r).isSome = true
      · have e := (I.rep_alive r h1).1
        rw [if_neg (by intro h; rw [← e] at h; exact hsame h), if_pos h1, e]
      · rw [if_neg (by intro h; rw [h] at h1; exact h1 hma), if_neg h1, findRedirect_eq I fuel r hr (lt_of_le_of_lt (I.bound r) hf)]
        simp [hra, hsame]
    obtain ⟨s', h1, _, ⟨J, hJ⟩⟩ := merge_inv (L' := join L c r) I main (I.rep r) hma hra hsame (fun a b ha hb => by rw [J0 a b ha hb, hmain])
    refine ⟨s', by rw [hstep, h1], J, ?_⟩
    rw [hJ c hc, hmain]
    split <;> rfl

/-- Joining a list of centres with `c`. -/
private def joins (L : C → C → Prop) (c : C) (rest : List C) : C → C → Prop := rest.foldl (fun L r => join L c r) L

omit [LinearOrder C] in
private theorem join_dom {ops : List (CenterInfo C)} {L : C → C → Prop} (hdom : ∀ a b, L a b → Known ops a ∧ Known ops b ∨ a = b) (x y : C)
    (hx : Known ops x) (hy : Known ops y) : ∀ a b, join L x y a b → Known ops a ∧ Known ops b ∨ a = b := by
  intro a b h
  induction h with
  | rel a b h =>
    rcases h with h | ⟨rfl, rfl⟩
    · exact hdom a b h
    · left; exact ⟨hx, hy⟩
  | refl a => right; rfl
  | symm a b _ ih => rcases ih with ⟨h1, h2⟩ | h <;> [exact Or.inl ⟨h2, h1⟩; exact Or.inr h.symm]
  | trans a b c _ _ ih1 ih2 =>
    rcases ih1 with ⟨h1, h2⟩ | h
    · rcases ih2 with ⟨h3, h4⟩ | h'
      · left; exact ⟨h1, h4⟩
      · subst h'; left; exact ⟨h1, h2⟩
    · subst h; exact ih2

private theorem rest_inv {ops : List (CenterInfo C)} (fuel : Nat) (c : C) (hc : Known ops c) (main : C) (rest : List C) :
    ∀ {L : C → C → Prop} {k : Nat} {s : DivState C} (I : Inv ops L k s), (∀ a b, L a b → Known ops a ∧ Known ops b ∨ a = b) → I.rep c = main →
      k + rest.length ≤ fuel → (∀ r ∈ rest, Known ops r) →
      ∃ s', rest.foldlM (divRedundant fuel main) s = some s' ∧ Nonempty (Inv ops (joins L c rest) (k + rest.length) s')
        ∧ ∀ a b, joins L c rest a b → Known ops a ∧ Known ops b ∨ a = b := by
  induction rest with
  | nil => intro L k s I hdom _ _ _; exact ⟨s, rfl, ⟨I⟩, hdom⟩
  | cons r rest ih =>
    intro L k s I hdom hmain hf hr
    simp only [List.length_cons] at hf
    obtain ⟨s1, h1, J, hJ⟩ := redundant_inv I hdom fuel (by omega) c r hc (hr r (by simp)) main hmain
    obtain ⟨s2, h2, J2, hd2⟩ := ih J (join_dom hdom c r hc (hr r (by simp))) hJ (by omega) (fun x hx => hr x (by simp [hx]))
    refine ⟨s2, ?_, ?_, hd2⟩
    · simp [h1, h2]
    · simp only [List.length_cons]
      rw [show k + (rest.length + 1) = k + 1 + rest.length by omega]
      exact J2

omit [LinearOrder C] in
private theorem eqvGen_idem {r : C → C → Prop} (a b : C) : Relation.EqvGen (fun a b => Relation.EqvGen r a b) a b ↔ Relation.EqvGen r a b := by
  constructor
  · intro h
    induction h with
    | rel _ _ h => exact h
    | refl => exact .refl _
    | symm _ _ _ ih => exact .symm _ _ ih
    | trans _ _ _ _ _ ih1 ih2 => exact .trans _ _ _ ih1 ih2
  · intro h; exact .rel _ _ h

omit [LinearOrder C] in
/-- Joining the classes of one operator's inputs. -/
private theorem joins_iff (r : C → C → Prop) (c : C) (rest : List C) : ∀ L, (∀ a b, L a b ↔ Relation.EqvGen r a b) →
    ∀ a b, joins L c rest a b ↔ Relation.EqvGen (fun a b => r a b ∨ (a = c ∧ b ∈ rest)) a b := by
  induction rest generalizing r with
  | nil => intro L hL a b; simp [joins, hL]
  | cons x rest ih =>
    intro L hL a b
    have h1 : ∀ a b, join L c x a b ↔ Relation.EqvGen (fun a b => r a b ∨ (a = c ∧ b = x)) a b := by
      intro a b
      constructor
      · intro h
        induction h with
        | rel a b h =>
          rcases h with h | h
          · have := (hL a b).mp h
            clear h
            induction this with
            | rel _ _ h => exact .rel _ _ (Or.inl h)
            | refl => exact .refl _
            | symm _ _ _ ih => exact .symm _ _ ih
            | trans _ _ _ _ _ ih1 ih2 => exact .trans _ _ _ ih1 ih2
          · exact .rel _ _ (Or.inr h)
        | refl => exact .refl _
        | symm _ _ _ ih => exact .symm _ _ ih
        | trans _ _ _ _ _ ih1 ih2 => exact .trans _ _ _ ih1 ih2
      · intro h
        refine eqvGen_mono ?_ h
        rintro a b (h | h)
        · left; exact (hL a b).mpr (.rel _ _ h)
        · right; exact h
    have h2 := ih (fun a b => r a b ∨ (a = c ∧ b = x)) (join L c x) h1 a b
    change joins (join L c x) c rest a b ↔ _
    rw [h2]
    have : ∀ a b, ((r a b ∨ a = c ∧ b = x) ∨ a = c ∧ b ∈ rest) ↔ (r a b ∨ (a = c ∧ b ∈ x :: rest)) := by
      intro a b; simp only [List.mem_cons]; tauto
    simp only [this]

/-- One operator. -/
private theorem step_inv {ops : List (CenterInfo C)} (fuel : Nat) (m : CenterInfo C) (hm : ∀ c ∈ m.inputCenters, Known ops c) (r : C → C → Prop)
    {k : Nat} {s : DivState C} (I : Inv ops (Relation.EqvGen r) k s) (hdom : ∀ a b, Relation.EqvGen r a b → Known ops a ∧ Known ops b ∨ a = b)
    (hf : k + m.inputCenters.length ≤ fuel) :
    ∃ s', divStep fuel s m = some s'
      ∧ Nonempty (Inv ops (Relation.EqvGen (fun a b => r a b ∨ (a ∈ m.inputCenters ∧ b ∈ m.inputCenters))) (k + m.inputCenters.length) s')
      ∧ ∀ a b, Relation.EqvGen (fun a b => r a b ∨ (a ∈ m.inputCenters ∧ b ∈ m.inputCenters)) a b → Known ops a ∧ Known ops b ∨ a = b := by
  have hdom' : ∀ a b, Relation.EqvGen (fun a b => r a b ∨ (a ∈ m.inputCenters ∧ b ∈ m.inputCenters)) a b → Known ops a ∧ Known ops b ∨ a = b := by
    intro a b h
    induction h with
    | rel a b h =>
      rcases h with h | ⟨h1, h2⟩
      · exact hdom a b (.rel _ _ h)
      · left; exact ⟨hm _ h1, hm _ h2⟩
    | refl => right; rfl
    | symm a b _ ih => rcases ih with ⟨h1, h2⟩ | h <;> [exact Or.inl ⟨h2, h1⟩; exact Or.inr h.symm]
    | trans a b c _ _ ih1 ih2 =>
      rcases ih1 with ⟨h1, h2⟩ | h
      · rcases ih2 with ⟨h3, h4⟩ | h'
        · left; exact ⟨h1, h4⟩
        · subst h'; left; exact ⟨h1, h2⟩
      · subst h; exact ih2
  have hmem : ∀ x, x ∈ m.inputCenters.dedup.insertionSort (· ≤ ·) ↔ x ∈ m.inputCenters := by
    intro x; rw [List.mem_insertionSort, List.mem_dedup]
  have hlen : (m.inputCenters.dedup.insertionSort (· ≤ ·)).length ≤ m.inputCenters.length := by
    rw [List.length_insertionSort]; exact (List.dedup_sublist _).length_le
  unfold divStep
  generalize m.inputCenters.dedup.insertionSort (· ≤ ·) = l at hmem hlen
  -- at most one centre: the relation does not change
  have hsmall : (∀ a b, a ∈ m.inputCenters → b ∈ m.inputCenters → a = b) →
      ∀ a b, Relation.EqvGen r a b ↔ Relation.EqvGen (fun a b => r a b ∨ (a ∈ m.inputCenters ∧ b ∈ m.inputCenters)) a b := by
    intro hs a b
    constructor
    · exact eqvGen_mono (fun _ _ h => Or.inl h)
    · intro h
      induction h with
      | rel a b h =>
        rcases h with h | ⟨h1, h2⟩
        · exact .rel _ _ h
        · rw [hs a b h1 h2]; exact .refl _
      | refl => exact .refl _
      | symm _ _ _ ih => exact .symm _ _ ih
      | trans _ _ _ _ _ ih1 ih2 => exact .trans _ _ _ ih1 ih2
  match l, hmem, hlen with
  | [], hmem, hlen =>
    obtain ⟨J, _⟩ := inv_congr (k' := k + m.inputCenters.length) I (by omega) (fun a b _ _ => hsmall (fun a b ha _ => by have := (hmem a).mpr ha; simp at this) a b)
    exact ⟨s, rfl, ⟨J⟩, hdom'⟩
  | [x], hmem, hlen =>
    obtain ⟨J, _⟩ := inv_congr (k' := k + m.inputCenters.length) I (by omega) (fun a b _ _ => hsmall (fun a b ha hb => by
      have h1 := (hmem a).mpr ha; have h2 := (hmem b).mpr hb; simp at h1 h2; rw [h1, h2]) a b)
    exact ⟨s, rfl, ⟨J⟩, hdom'⟩
  | c :: d :: rest, hmem, hlen =>
    have hc : Known ops c := hm c ((hmem c).mp (by simp))
    simp only [List.length_cons] at hlen
    simp only [findMain_eq I fuel c hc (lt_of_le_of_lt (I.bound c) (by omega)), Option.bind_some]
    obtain ⟨s', h1, ⟨J⟩, _⟩ := rest_inv fuel c hc (I.rep c) (d :: rest) I hdom rfl (by simp only [List.length_cons]; omega)
      (fun x hx => hm x ((hmem x).mp (by simp [List.mem_cons.mp hx])))
    refine ⟨s', h1, ?_, hdom'⟩
    obtain ⟨J', _⟩ := inv_congr (L' := Relation.EqvGen (fun a b => r a b ∨ (a ∈ m.inputCenters ∧ b ∈ m.inputCenters))) (k' := k + m.inputCenters.length) J
      (by simp only [List.length_cons]; omega) (fun a b ha hb => by
        clear ha hb
        rw [joins_iff r c (d :: rest) _ (fun _ _ => Iff.rfl)]
        constructor
        · refine eqvGen_mono ?_
          rintro a b (h | ⟨rfl, h⟩)
          · left; exact h
          · right; exact ⟨(hmem _).mp (by simp), (hmem b).mp (List.mem_cons_of_mem _ h)⟩
        · intro h
          have toC : ∀ x ∈ m.inputCenters, Relation.EqvGen (fun a b => r a b ∨ (a = c ∧ b ∈ d :: rest)) c x := by
            intro x hx
            rcases List.mem_cons.mp ((hmem x).mpr hx) with h | h
            · rw [h]; exact .refl _
            · exact .rel _ _ (Or.inr ⟨rfl, h⟩)
          induction h with
          | rel a b h =>
            rcases h with h | ⟨h1, h2⟩
            · exact .rel _ _ (Or.inl h)
            · exact .trans _ _ _ (.symm _ _ (toC a h1)) (toC b h2)
          | refl => exact .refl _
          | symm _ _ _ ih => exact .symm _ _ ih
          | trans _ _ _ _ _ ih1 ih2 => exact .trans _ _ _ ih1 ih2)
    exact ⟨J'⟩

/-- All operators from a prefix on. -/
private theorem all_inv {ops : List (CenterInfo C)} (fuel : Nat) (todo : List (CenterInfo C)) :
    ∀ (r : C → C → Prop) {k : Nat} {s : DivState C} (_ : Inv ops (Relation.EqvGen r) k s), (∀ a b, Relation.EqvGen r a b → Known ops a ∧ Known ops b ∨ a = b) →
      (∀ m ∈ todo, ∀ c ∈ m.inputCenters, Known ops c) → k + (todo.map (fun m => m.inputCenters.length)).sum ≤ fuel →
      ∃ s' k', todo.foldlM (divStep fuel) s = some s'
        ∧ Nonempty (Inv ops (Relation.EqvGen (fun a b => r a b ∨ ∃ m ∈ todo, a ∈ m.inputCenters ∧ b ∈ m.inputCenters)) k' s') := by
  induction todo with
  | nil =>
    intro r k s I _ _ _
    refine ⟨s, k, rfl, ?_⟩
    simp only [List.not_mem_nil, false_and, exists_false, or_false]
    exact ⟨I⟩
  | cons m todo ih =>
    intro r k s I hdom hk hf
    simp only [List.map_cons, List.sum_cons] at hf
    obtain ⟨s1, h1, ⟨J⟩, hd⟩ := step_inv fuel m (hk m (by simp)) r I hdom (by omega)
    obtain ⟨s2, k2, h2, ⟨J2⟩⟩ := ih _ J hd (fun x hx => hk x (by simp [hx])) (by omega)
    refine ⟨s2, k2, by simp [h1, h2], ?_⟩
    have : ∀ a b, ((r a b ∨ a ∈ m.inputCenters ∧ b ∈ m.inputCenters) ∨ ∃ x ∈ todo, a ∈ x.inputCenters ∧ b ∈ x.inputCenters)
        ↔ (r a b ∨ ∃ x ∈ m :: todo, a ∈ x.inputCenters ∧ b ∈ x.inputCenters) := by
      intro a b
      simp only [List.mem_cons, exists_eq_or_imp]
      tauto
    simp only [this] at J2
    exact ⟨J2⟩

private theorem addAll_spec (cs : List C) (m : Nat) : ∀ (sub : C → Option (List Nat)) (c : C),
    (((cs.foldl (fun sub c => addToSub sub c m) sub) c).isSome = true ↔ (sub c).isSome = true ∨ c ∈ cs)
    ∧ ∀ x, x ∈ ((cs.foldl (fun sub c => addToSub sub c m) sub) c).getD [] ↔ x ∈ (sub c).getD [] ∨ (x = m ∧ c ∈ cs) := by
  induction cs with
  | nil => intro sub c; simp
  | cons d cs ih =>
    intro sub c
    obtain ⟨h1, h2⟩ := ih (addToSub sub d m) c
    rw [List.foldl_cons]
    constructor
    · rw [h1]
      unfold addToSub
      by_cases h : c = d
      · simp [h]
      · simp [h]
    · intro x
      rw [h2]
      unfold addToSub
      by_cases h : c = d
      · subst h; simp; tauto
      · simp [h]

private theorem initSub_spec (ops : List (CenterInfo C)) (c : C) :
    ((initSub ops c).isSome = true ↔ Known ops c) ∧ ∀ m, m ∈ (initSub ops c).getD [] ↔ ∃ o, ops[m]? = some o ∧ c ∈ o.centers := by
  have key : ∀ (l : List (CenterInfo C × Nat)) (sub : C → Option (List Nat)),
      (((l.foldl (fun sub p => p.1.centers.foldl (fun sub c => addToSub sub c p.2) sub) sub) c).isSome = true ↔ (sub c).isSome = true ∨ ∃ p ∈ l, c ∈ p.1.centers)
      ∧ ∀ m, m ∈ ((l.foldl (fun sub p => p.1.centers.foldl (fun sub c => addToSub sub c p.2) sub) sub) c).getD []
        ↔ m ∈ (sub c).getD [] ∨ ∃ p ∈ l, p.2 = m ∧ c ∈ p.1.centers := by
    intro l
    induction l with
    | nil => intro sub; simp
    | cons p l ih =>
      intro sub
      obtain ⟨h1, h2⟩ := ih (p.1.centers.foldl (fun sub c => addToSub sub c p.2) sub)
      obtain ⟨g1, g2⟩ := addAll_spec p.1.centers p.2 sub c
      rw [List.foldl_cons]
      constructor
      · rw [h1, g1]; simp only [List.mem_cons, exists_eq_or_imp]; tauto
      · intro m
        rw [h2, g2]; simp only [List.mem_cons, exists_eq_or_imp]
        constructor
        · rintro ((h | ⟨rfl, h⟩) | h)
          · left; exact h
          · right; left; exact ⟨rfl, h⟩
          · right; right; exact h
        · rintro (h | ⟨rfl, h⟩ | h)
          · left; left; exact h
          · left; right; exact ⟨rfl, h⟩
          · right; exact h
  obtain ⟨h1, h2⟩ := key ops.zipIdx (fun _ => none)
  constructor
  · unfold initSub
    rw [h1]
    simp only [Option.isSome_none, Bool.false_eq_true, false_or]
    constructor
    · rintro ⟨p, hp, hc⟩
      exact ⟨p.1, List.mem_of_getElem? (List.mem_zipIdx_iff_getElem?.mp hp), hc⟩
    · rintro ⟨o, ho, hc⟩
      obtain ⟨i, hi⟩ := List.mem_iff_getElem?.mp ho
      exact ⟨(o, i), List.mem_zipIdx_iff_getElem?.mpr hi, hc⟩
  · intro m
    unfold initSub
    rw [h2]
    simp only [Option.getD_none, List.not_mem_nil, false_or]
    constructor
    · rintro ⟨p, hp, rfl, hc⟩
      exact ⟨p.1, List.mem_zipIdx_iff_getElem?.mp hp, hc⟩
    · rintro ⟨o, ho, hc⟩
      exact ⟨(o, m), List.mem_zipIdx_iff_getElem?.mpr ho, rfl, hc⟩

/-- **C49** For every assignment of centres to operators (an operator's input centres being among its centres), with fuel for all lookups, division succeeds;
every centre is linked to exactly one remaining subgraph; and an operator is in a subgraph exactly if one of its centres is linked to it.  In particular no
operator with a centre is lost, and centres that reach the inputs of a common operator end in the same subgraph. -/
theorem C49_division (ops : List (CenterInfo C)) (hin : ∀ m ∈ ops, ∀ c ∈ m.inputCenters, c ∈ m.centers) (fuel : Nat)
    (hf : (ops.map (fun m => m.inputCenters.length)).sum ≤ fuel) :
    ∃ s, divideSubgraph fuel ops = some s
      ∧ (∀ m ∈ ops, ∀ c ∈ m.centers, ∃ key, ((s.sub key).isSome = true ∧ CentersLinked ops c key) ∧ ∀ key', (s.sub key').isSome = true → CentersLinked ops c key' → key' = key)
      ∧ ∀ key group, s.sub key = some group → ∀ m, m ∈ group ↔ ∃ o, ops[m]? = some o ∧ ∃ c ∈ o.centers, CentersLinked ops c key := by
  have I0 : Inv ops (Relation.EqvGen (fun _ _ => False)) 0 ⟨initSub ops, fun _ => none⟩ := by
    have hE : ∀ a b : C, Relation.EqvGen (fun _ _ => False) a b ↔ a = b := by
      intro a b
      constructor
      · intro h
        induction h with
        | rel _ _ h => exact h.elim
        | refl => rfl
        | symm _ _ _ ih => exact ih.symm
        | trans _ _ _ _ _ ih1 ih2 => exact ih1.trans ih2
      · rintro rfl; exact .refl _
    refine ⟨fun c => c, fun _ => 0, ?_, ?_, ?_, fun _ => Nat.le_refl _, ?_, ?_⟩
    · intro c hc; exact (initSub_spec ops c).1.mpr hc
    · intro c hc; exact ⟨rfl, (initSub_spec ops c).1.mp hc⟩
    · intro c hc hs
      have := (initSub_spec ops c).1.mpr hc
      simp only at hs
      rw [hs] at this; simp at this
    · intro a b _ _; rw [hE]
    · intro c g hg m
      have := (initSub_spec ops c).2 m
      simp only at hg
      rw [hg] at this
      simp only [Option.getD_some] at this
      rw [this]
      simp
  obtain ⟨s, k, h1, ⟨J⟩⟩ := all_inv fuel ops _ I0 (by
      intro a b h
      right
      induction h with
      | rel _ _ h => exact h.elim
      | refl => rfl
      | symm _ _ _ ih => exact ih.symm
      | trans _ _ _ _ _ ih1 ih2 => exact ih1.trans ih2)
    (fun m hm c hc => ⟨m, hm, hin m hm c hc⟩) (by omega)
  simp only [false_or] at J
  refine ⟨s, h1, ?_, ?_⟩
  · intro m hm c hc
    have hk : Known ops c := ⟨m, hm, hc⟩
    have ha := J.alive_rep c hk
    obtain ⟨e, hk2⟩ := J.rep_alive _ ha
    refine ⟨J.rep c, ⟨ha, (J.same c (J.rep c) hk hk2).mp e.symm⟩, ?_⟩
    intro key' ha' hl
    obtain ⟨e', hk'⟩ := J.rep_alive key' ha'
    rw [← e', (J.same c key' hk hk').mpr hl]
  · intro key group hg m
    obtain ⟨e, hk⟩ := J.rep_alive key (by rw [hg]; rfl)
    rw [J.members key group hg m]
    constructor
    · rintro ⟨o, h2, a, h3, h4⟩
      refine ⟨o, h2, a, h3, (J.same a key ⟨o, List.mem_of_getElem? h2, h3⟩ hk).mp (by rw [h4, e])⟩
    · rintro ⟨o, h2, a, h3, h4⟩
      refine ⟨o, h2, a, h3, ?_⟩
      rw [(J.same a key ⟨o, List.mem_of_getElem? h2, h3⟩ hk).mpr h4, e]

/-- Four operators: two additions that link three convolutions in an order that needs redirection. -/
example : (divideSubgraph (C := Nat) 4 [⟨[2, 3], [2, 3]⟩, ⟨[1, 3], [1, 3]⟩, ⟨[4], []⟩]).map (fun s => (s.sub 1, s.sub 2, s.sub 3, s.sub 4))
    = some (some [1, 0, 0, 1], none, none, some [2]) := by decide

end Verif.Props
