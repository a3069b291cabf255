import Verif.Model.MoveAcross
import Verif.Spec.Reshape
import Verif.Lemmas.Regroup
import Verif.Props.ReshapeMap
import Verif.Props.Layout
import Verif.Props.TransposePass2
import Mathlib.Algebra.BigOperators.Ring.List
import Mathlib.Algebra.Order.BigOperators.GroupWithZero.List

/-!
C119: moving a TRANSPOSE from one side of a RESHAPE to the other keeps the values.
-/

namespace Verif.Props
open Verif.Spec Verif.Model Verif.Model.MoveAcross Verif.Lemmas

namespace Across

/-! ### permutations that keep blocks together -/

private theorem infix_of_append {b t c : List Nat} (hc : c ≠ []) (h : c <:+: b ++ t) (hd : ∀ x ∈ c, x ∉ b) : c <:+: t := by
  obtain ⟨s, u, e⟩ := h
  rw [List.append_assoc] at e
  rcases List.append_eq_append_iff.1 e with ⟨a, e1, e2⟩ | ⟨a, e1, e2⟩
  · -- `b = s ++ a`
    cases a with
    | nil => exact ⟨[], u, by simpa using e2⟩
    | cons y a =>
      exfalso
      cases c with
      | nil => exact hc rfl
      | cons x c =>
        simp only [List.cons_append, List.cons.injEq] at e2
        apply hd x List.mem_cons_self
        rw [e1, e2.1]
        simp
  · exact ⟨a, u, by rw [List.append_assoc]; exact e2.symm⟩

theorem blocks_of_infix : ∀ (k : Nat) (p : List Nat) (A : List (List Nat)), A.length = k → p.Nodup → p.Perm A.flatten → (∀ b ∈ A, b ≠ [] ∧ b <:+: p) →
    ∃ A' : List (List Nat), A'.Perm A ∧ A'.flatten = p := by
  intro k
  induction k with
  | zero =>
    intro p A hA _ hp _
    have : A = [] := List.length_eq_zero_iff.1 hA
    subst this
    exact ⟨[], List.Perm.refl _, by simpa using hp.symm⟩
  | succ k ih =>
    intro p A hA hn hp hb
    cases p with
    | nil =>
      exfalso
      cases A with
      | nil => simp at hA
      | cons b A =>
        have := hb b List.mem_cons_self
        have h2 := List.infix_nil.1 this.2
        exact this.1 h2
    | cons x p' =>
      have hx : x ∈ A.flatten := hp.mem_iff.1 List.mem_cons_self
      obtain ⟨b, hbA, hxb⟩ := List.mem_flatten.1 hx
      obtain ⟨s, t, e⟩ := (hb b hbA).2
      have hs : s = [] := by
        cases s with
        | nil => rfl
        | cons y s =>
          exfalso
          simp only [List.cons_append, List.cons.injEq] at e
          obtain ⟨rfl, e⟩ := e
          rw [List.nodup_cons, ← e] at hn
          exact hn.1 (by simp [hxb])
      subst hs
      rw [List.nil_append] at e
      have hperm : A.Perm (b :: A.erase b) := List.perm_cons_erase hbA
      rw [← e] at hn hp hb
      have hf : (b ++ t).Perm (b ++ (A.erase b).flatten) := hp.trans (by simpa using hperm.flatten)
      have ht : t.Perm (A.erase b).flatten := (List.perm_append_left_iff b).1 hf
      rw [List.nodup_append] at hn
      have hdis : ∀ c ∈ A.erase b, ∀ y ∈ c, y ∉ b := by
        intro c hc y hy hyb
        have : y ∈ t := ht.mem_iff.2 (List.mem_flatten.2 ⟨c, hc, hy⟩)
        exact hn.2.2 y hyb y this rfl
      obtain ⟨A', h1, h2⟩ := ih t (A.erase b) (by rw [List.length_erase_of_mem hbA, hA]; rfl) hn.2.1 ht (by
        intro c hc
        have hcA := List.mem_of_mem_erase hc
        exact ⟨(hb c hcA).1, infix_of_append (hb c hcA).1 (hb c hcA).2 (hdis c hc)⟩)
      refine ⟨b :: A', (h1.cons b).trans hperm.symm, ?_⟩
      rw [List.flatten_cons, h2, e]

/-- A permutation of the axes that keeps the blocks together moves the blocks. -/
theorem order_of_infix {n : Nat} {p : List Nat} (hp : IsPerm n p) (A : List (List Nat)) (hA : A.flatten = List.range n) (hb : ∀ b ∈ A, b ≠ [] ∧ b <:+: p) :
    ∃ o, IsPerm A.length o ∧ p = (o.map (fun k => A.getD k [])).flatten := by
  obtain ⟨A', h1, h2⟩ := blocks_of_infix A.length p A rfl (IsPerm.nodup hp) (by rw [hA]; exact hp) hb
  have hnd : A.Nodup := by
    have : A.flatten.Nodup := by rw [hA]; exact List.nodup_range
    rw [List.nodup_flatten] at this
    rw [List.nodup_iff_pairwise_ne]
    refine List.Pairwise.imp_of_mem ?_ this.2
    intro a b ha _ hdis hab
    subst hab
    have hne := (hb a ha).1
    cases a with
    | nil => exact hne rfl
    | cons x a => exact hdis List.mem_cons_self List.mem_cons_self
  refine ⟨A'.map A.idxOf, ?_, ?_⟩
  · refine (h1.map A.idxOf).trans ?_
    have : A.map A.idxOf = List.range A.length := by
      apply List.ext_getElem (by simp)
      intro i h1 h2
      simp only [List.getElem_map, List.getElem_range]
      exact hnd.idxOf_getElem i (by simpa using h2)
    rw [this]
  · rw [List.map_map, ← h2]
    congr 1
    conv_lhs => rw [← List.map_id A']
    apply List.map_congr_left
    intro b hbA
    have hm : b ∈ A := h1.mem_iff.1 hbA
    have hlt := List.idxOf_lt_length_of_mem hm
    show b = A.getD (A.idxOf b) []
    rw [getD_eq_getElem _ _ _ hlt, List.getElem_idxOf]

/-! ### moving blocks commutes with reshaping inside them -/

private theorem sizes_eq {s : List Nat} {B : List (List Nat)} (hB : B.flatten = List.range s.length) :
    B.map (fun b => (b.map (fun k => s.getD k 0)).prod) = B.map (groupSize s) := by
  apply List.map_congr_left
  intro b hb
  unfold groupSize
  congr 1
  apply List.map_congr_left
  intro k hk
  have : k ∈ B.flatten := List.mem_flatten.2 ⟨b, hb, hk⟩
  rw [hB, List.mem_range] at this
  rw [getD_eq_getElem _ _ _ this, getD_eq_getElem _ _ _ this]

private theorem prod_groups {s : List Nat} {B : List (List Nat)} (hB : B.flatten = List.range s.length) : (B.map (groupSize s)).prod = s.prod := by
  rw [← sizes_eq hB]
  have : (B.map (fun b => b.map (fun k => s.getD k 0))).flatten = s := by
    rw [← List.map_flatten, hB, map_range_getD]
  conv_rhs => rw [← this]
  rw [prod_flatten, List.map_map]
  rfl

theorem prod_transpose {α : Type} {p : List Nat} (t : Tensor α) (hp : IsPerm t.shape.length p) : (transpose p t).shape.prod = t.shape.prod := by
  show (p.map (fun k => t.shape.getD k 0)).prod = _
  have := (List.Perm.map (fun k => t.shape.getD k 0) hp).prod_eq
  rw [this, map_range_getD]

theorem block_move {α : Type} (x : Tensor α) (r : List Nat) (hr : r.prod = x.shape.prod) (A B : List (List Nat)) (hA : A.flatten = List.range x.shape.length) (hB : B.flatten = List.range r.length)
    (hAB : List.Forall₂ (fun a b => groupSize x.shape a = groupSize r b) A B) (o : List Nat) (ho : IsPerm A.length o) :
    IsPerm x.shape.length (o.map (fun k => A.getD k [])).flatten ∧ IsPerm r.length (o.map (fun k => B.getD k [])).flatten ∧
    Same (reshape ((o.map (fun k => B.getD k [])).flatten.map (fun k => r.getD k 0)) (transpose (o.map (fun k => A.getD k [])).flatten x))
      (transpose (o.map (fun k => B.getD k [])).flatten (reshape r x)) := by
  have hlen : A.length = B.length := hAB.length_eq
  obtain ⟨hpA, hsA⟩ := regroup x A o hA ho
  obtain ⟨hpB, hsB⟩ := regroup (reshape r x) B o (by simpa [reshape] using hB) (by rw [← hlen]; exact ho)
  refine ⟨hpA, by simpa [reshape] using hpB, ?_⟩
  set pA := (o.map (fun k => A.getD k [])).flatten with hpAe
  set pB := (o.map (fun k => B.getD k [])).flatten with hpBe
  have hmap : A.map (groupSize x.shape) = B.map (groupSize r) := by
    clear hsA hsB hpA hpB hA hB ho hlen pA pB hpAe hpBe
    induction hAB with
    | nil => rfl
    | cons h _ ih => simp [h, ih]
  rw [sizes_eq hA] at hsA
  have hns2 : B.map (fun b => (b.map (fun k => (reshape r x).shape.getD k 0)).prod) = A.map (groupSize x.shape) := by
    rw [show (reshape r x).shape = r from rfl, sizes_eq hB, hmap]
  simp only [hns2] at hsB
  set ns := A.map (groupSize x.shape) with hns
  have hnsp : ns.prod = x.shape.prod := prod_groups hA
  have hnsl : ns.length = A.length := by simp [ns]
  -- the two ways to reach the merged shape
  have h1 : Same (reshape ns (reshape r x)) (reshape ns x) := reshape_reshape r ns x (by rw [hnsp, hr])
  have h2 : Same (transpose o (reshape ns (reshape r x))) (transpose o (reshape ns x)) := transpose_congr ho (by simp [reshape, hnsl]) h1
  have hop : (transpose o (reshape ns x)).shape.prod = x.shape.prod := by
    rw [prod_transpose (reshape ns x) (by simpa [reshape, hnsl] using ho)]
    exact hnsp
  have hpBprod : (transpose pB (reshape r x)).shape.prod = x.shape.prod := by
    rw [prod_transpose (reshape r x) hpB]; exact hr
  have hpAprod : (transpose pA x).shape.prod = x.shape.prod := prod_transpose x hpA
  have hshape : pB.map (fun k => r.getD k 0) = (transpose pB (reshape r x)).shape := rfl
  rw [hshape]
  -- left side
  have h3 : Same (reshape (transpose pB (reshape r x)).shape (transpose pA x)) (reshape (transpose pB (reshape r x)).shape (reshape (transpose pA x).shape (transpose o (reshape ns x)))) :=
    reshape_congr hsA.symm (by rw [hpBprod, hpAprod])
  have h4 : Same (reshape (transpose pB (reshape r x)).shape (reshape (transpose pA x).shape (transpose o (reshape ns x)))) (reshape (transpose pB (reshape r x)).shape (transpose o (reshape ns x))) :=
    reshape_reshape _ _ _ (by rw [hpBprod, hpAprod])
  have h5 : Same (reshape (transpose pB (reshape r x)).shape (transpose o (reshape ns x))) (reshape (transpose pB (reshape r x)).shape (transpose o (reshape ns (reshape r x)))) :=
    reshape_congr h2.symm (by rw [hpBprod, hop])
  exact h3.trans (h4.trans (h5.trans hsB))

/-! ### the groups the pass works with -/

/-- What the loop over the groups has found out. -/
theorem modeGo_spec : ∀ (z : List (List Nat × List Nat)) (m : Option Dir) (c : Bool) (m' : Option Dir) (c' : Bool), modeGo m c z = some (m', c') →
    (∀ d, m = some d → m' = some d) ∧ (c = true → c' = true) ∧
    ∀ e ∈ z, (1 < e.1.length → e.2.length = 1 → m' = some .up) ∧ (1 < e.2.length → e.1.length = 1 → m' = some .down) ∧ (1 < e.1.length → 1 < e.2.length → e.2 = e.1 ∧ c' = true) := by
  intro z
  induction z with
  | nil =>
    intro m c m' c' h
    simp only [modeGo, Option.some.injEq, Prod.mk.injEq] at h
    obtain ⟨rfl, rfl⟩ := h
    exact ⟨fun _ h => h, fun h => h, by simp⟩
  | cons e z ih =>
    obtain ⟨l, r⟩ := e
    intro m c m' c' h
    simp only [modeGo] at h
    by_cases h1 : 1 < l.length ∧ r.length = 1
    · rw [if_pos h1] at h
      by_cases hm : m ≠ some .down
      · rw [if_pos hm] at h
        obtain ⟨i1, i2, i3⟩ := ih _ _ _ _ h
        have hu := i1 .up rfl
        refine ⟨?_, i2, ?_⟩
        · intro d hd
          cases d with
          | up => exact hu
          | down => exact absurd hd hm
        · intro e he
          rcases List.mem_cons.1 he with rfl | he
          · exact ⟨fun _ _ => hu, fun h => by dsimp only at h; omega, fun _ h => by dsimp only at h; omega⟩
          · exact i3 e he
      · rw [if_neg hm] at h
        cases h
    rw [if_neg h1] at h
    by_cases h2 : 1 < r.length ∧ l.length = 1
    · rw [if_pos h2] at h
      by_cases hm : m ≠ some .up
      · rw [if_pos hm] at h
        obtain ⟨i1, i2, i3⟩ := ih _ _ _ _ h
        have hu := i1 .down rfl
        refine ⟨?_, i2, ?_⟩
        · intro d hd
          cases d with
          | up => exact absurd hd hm
          | down => exact hu
        · intro e he
          rcases List.mem_cons.1 he with rfl | he
          · exact ⟨fun h => by dsimp only at h; omega, fun _ _ => hu, fun h => by dsimp only at h; omega⟩
          · exact i3 e he
      · rw [if_neg hm] at h
        cases h
    rw [if_neg h2] at h
    by_cases h3 : 1 < r.length ∧ 1 < l.length
    · rw [if_pos h3] at h
      by_cases hr : r = l
      · rw [if_pos hr] at h
        obtain ⟨i1, i2, i3⟩ := ih _ _ _ _ h
        refine ⟨i1, fun _ => i2 rfl, ?_⟩
        intro e he
        rcases List.mem_cons.1 he with rfl | he
        · exact ⟨fun _ h => by dsimp only at h; omega, fun _ h => by dsimp only at h; omega, fun _ _ => ⟨hr, i2 rfl⟩⟩
        · exact i3 e he
      · rw [if_neg hr] at h
        cases h
    rw [if_neg h3] at h
    obtain ⟨i1, i2, i3⟩ := ih _ _ _ _ h
    refine ⟨i1, i2, ?_⟩
    intro e he
    rcases List.mem_cons.1 he with rfl | he
    · exact ⟨fun a b => absurd ⟨a, b⟩ h1, fun a b => absurd ⟨a, b⟩ h2, fun a b => absurd ⟨b, a⟩ h3⟩
    · exact i3 e he

/-- One group on the side of the keys has one axis, or both sides have the same axes. -/
def Keyed (e : List Nat × List Nat) : Prop := e.1.length = 1 ∨ (1 < e.1.length ∧ 1 < e.2.length ∧ e.2 = e.1)

theorem keys_heads : ∀ (z : List (List Nat × List Nat)), (∀ e ∈ z, Keyed e) → (splitL z).mapM List.head? = some (z.map Prod.fst).flatten := by
  intro z
  induction z with
  | nil => intro _; rfl
  | cons e z ih =>
    intro h
    have ih := ih fun x hx => h x (List.mem_cons_of_mem _ hx)
    have hs : splitL (e :: z) = (if 1 < e.1.length ∧ 1 < e.2.length then e.1.map (fun i => [i]) else [e.1]) ++ splitL z := rfl
    rw [hs, List.mapM_append, ih]
    have : (if 1 < e.1.length ∧ 1 < e.2.length then e.1.map (fun i => [i]) else [e.1]).mapM List.head? = some e.1 := by
      rcases h e List.mem_cons_self with h1 | ⟨h1, h2, _⟩
      · rw [if_neg (by omega)]
        obtain ⟨a, ha⟩ := List.length_eq_one_iff.1 h1
        rw [ha]
        rfl
      · rw [if_pos ⟨h1, h2⟩]
        clear hs ih h h1 h2
        induction e.1 with
        | nil => rfl
        | cons a l ih => rw [List.map_cons, List.mapM_cons, ih]; rfl
    rw [this]
    rfl

private theorem len_eq (z : List (List Nat × List Nat)) (h : ∀ e ∈ z, Keyed e) : (z.map Prod.fst).flatten.length = (splitR z).length := by
  induction z with
  | nil => rfl
  | cons e z ih =>
    have ih := ih fun x hx => h x (List.mem_cons_of_mem _ hx)
    have hs : splitR (e :: z) = (if 1 < e.1.length ∧ 1 < e.2.length then e.2.map (fun i => [i]) else [e.2]) ++ splitR z := rfl
    rw [hs, List.map_cons, List.flatten_cons, List.length_append, List.length_append, ih]
    congr 1
    rcases h e List.mem_cons_self with h1 | ⟨h1, h2, h3⟩
    · rw [if_neg (by omega)]; simpa using h1
    · rw [if_pos ⟨h1, h2⟩, h3]; simp

private theorem lookup_none {ks : List Nat} {vs : List (List Nat)} {x : Nat} (h : x ∉ ks) : (ks.zip vs).lookup x = none := by
  induction ks generalizing vs with
  | nil => rfl
  | cons k ks ih =>
    cases vs with
    | nil => rfl
    | cons v vs =>
      rw [List.zip_cons_cons, List.lookup_cons]
      have : (x == k) = false := by
        simp only [beq_eq_false_iff_ne]
        intro e; exact h (by simp [e])
      rw [this]
      exact ih fun hm => h (List.mem_cons_of_mem _ hm)

private theorem lookup_self {l : List Nat} (hn : l.Nodup) {x : Nat} (hx : x ∈ l) : (l.zip (l.map fun i => [i])).lookup x = some [x] := by
  induction l with
  | nil => cases hx
  | cons k l ih =>
    rw [List.map_cons, List.zip_cons_cons, List.lookup_cons]
    by_cases e : x = k
    · subst e; simp
    · have : (x == k) = false := by simpa using e
      rw [this]
      rw [List.nodup_cons] at hn
      exact ih hn.2 (by simpa [e] using hx)

/-- The dictionary takes the axes of a group to the axes of the other group. -/
theorem lookup_group : ∀ (z : List (List Nat × List Nat)), (∀ e ∈ z, Keyed e) → (z.map Prod.fst).flatten.Nodup →
    ∀ e ∈ z, (∀ x ∈ e.1, ((((z.map Prod.fst).flatten).zip (splitR z)).lookup x).isSome = true) ∧
      (e.1.map fun x => ((((z.map Prod.fst).flatten).zip (splitR z)).lookup x).getD []).flatten = e.2 := by
  intro z
  induction z with
  | nil => intro _ _ e he; cases he
  | cons a z ih =>
    intro h hn
    have hz : ∀ e ∈ z, Keyed e := fun x hx => h x (List.mem_cons_of_mem _ hx)
    rw [List.map_cons, List.flatten_cons, List.nodup_append] at hn
    have ih := ih hz hn.2.1
    have hs : splitR (a :: z) = (if 1 < a.1.length ∧ 1 < a.2.length then a.2.map (fun i => [i]) else [a.2]) ++ splitR z := rfl
    have hla : a.1.length = (if 1 < a.1.length ∧ 1 < a.2.length then a.2.map (fun i => [i]) else [a.2]).length := by
      rcases h a List.mem_cons_self with h1 | ⟨h1, h2, h3⟩
      · rw [if_neg (by omega)]; simpa using h1
      · rw [if_pos ⟨h1, h2⟩, h3]; simp
    rw [hs, List.map_cons, List.flatten_cons]
    set V := if 1 < a.1.length ∧ 1 < a.2.length then a.2.map (fun i => [i]) else [a.2] with hV
    rw [List.zip_append hla]
    intro e he
    rcases List.mem_cons.1 he with rfl | he'
    · have hk : (∀ x ∈ e.1, ((e.1.zip V).lookup x).isSome = true) ∧ (e.1.map fun x => ((e.1.zip V).lookup x).getD []).flatten = e.2 := by
        rcases h e List.mem_cons_self with h1 | ⟨h1, h2, h3⟩
        · rw [if_neg (by omega)] at hV
          obtain ⟨y, hy⟩ := List.length_eq_one_iff.1 h1
          rw [hV, hy]
          simp
        · rw [if_pos ⟨h1, h2⟩, h3] at hV
          rw [hV]
          have hl : ∀ x ∈ e.1, (e.1.zip (e.1.map fun i => [i])).lookup x = some [x] := fun x hx => lookup_self hn.1 hx
          refine ⟨fun x hx => by rw [hl x hx]; rfl, ?_⟩
          rw [List.map_congr_left (g := fun x => [x]) (fun x hx => by rw [hl x hx]; rfl), h3]
          clear * -
          induction e.1 with
          | nil => rfl
          | cons b l ih => simpa using ih
      have hl : ∀ x ∈ e.1, ((e.1.zip V) ++ ((z.map Prod.fst).flatten.zip (splitR z))).lookup x = (e.1.zip V).lookup x := by
        intro x hx
        rw [List.lookup_append]
        obtain ⟨v, hv⟩ := Option.isSome_iff_exists.1 (hk.1 x hx)
        rw [hv]
        rfl
      refine ⟨fun x hx => by rw [hl x hx]; exact hk.1 x hx, ?_⟩
      rw [List.map_congr_left (fun x hx => by rw [hl x hx]), hk.2]
    · have hl : ∀ x ∈ e.1, ((a.1.zip V) ++ ((z.map Prod.fst).flatten.zip (splitR z))).lookup x = ((z.map Prod.fst).flatten.zip (splitR z)).lookup x := by
        intro x hx
        rw [List.lookup_append, lookup_none (fun hm => hn.2.2 x hm x (List.mem_flatten.2 ⟨e.1, List.mem_map_of_mem he', hx⟩) rfl)]
        rfl
      refine ⟨fun x hx => by rw [hl x hx]; exact (ih e he').1 x hx, ?_⟩
      rw [List.map_congr_left (fun x hx => by rw [hl x hx]), (ih e he').2]

private theorem mapM_some {f : Nat → Option (List Nat)} : ∀ (l : List Nat), (∀ x ∈ l, (f x).isSome = true) → l.mapM f = some (l.map fun x => (f x).getD []) := by
  intro l
  induction l with
  | nil => intro _; rfl
  | cons a l ih =>
    intro h
    obtain ⟨v, hv⟩ := Option.isSome_iff_exists.1 (h a List.mem_cons_self)
    rw [List.mapM_cons, ih fun x hx => h x (List.mem_cons_of_mem _ hx), hv]
    simp [hv]

/-- The joined lookups of axes that come in groups are the other groups, in the same order. -/
theorem joined_groups (z : List (List Nat × List Nat)) (hz : ∀ e ∈ z, Keyed e) (hn : (z.map Prod.fst).flatten.Nodup) (o : List Nat) (ho : ∀ k ∈ o, k < z.length) :
    joined (splitL z) (splitR z) (o.map fun k => (z.map Prod.fst).getD k []).flatten = some (o.map fun k => (z.map Prod.snd).getD k []).flatten := by
  have hg := lookup_group z hz hn
  unfold joined
  rw [keys_heads z hz]
  set f := fun x => ((z.map Prod.fst).flatten.zip (splitR z)).lookup x with hf
  show (List.mapM f _).map List.flatten = _
  have hmem : ∀ k ∈ o, ∃ e ∈ z, (z.map Prod.fst).getD k [] = e.1 ∧ (z.map Prod.snd).getD k [] = e.2 := by
    intro k hk
    refine ⟨z[k]'(ho k hk), List.getElem_mem _, ?_, ?_⟩ <;> simp [List.getD, ho k hk]
  rw [mapM_some]
  · show some _ = some _
    congr 1
    rw [List.map_flatten, List.map_map, ← List.flatMap_def, List.flatMap_def]
    induction o with
    | nil => rfl
    | cons k o ih =>
      obtain ⟨e, he, e1, e2⟩ := hmem k List.mem_cons_self
      rw [List.map_cons, List.map_cons, List.flatten_cons, List.flatten_cons, List.flatten_append, ih (fun j hj => ho j (List.mem_cons_of_mem _ hj)) (fun j hj => hmem j (List.mem_cons_of_mem _ hj))]
      congr 1
      show (List.map _ ((z.map Prod.fst).getD k [])).flatten = _
      rw [e1, e2]
      exact (hg e he).2
  · intro x hx
    obtain ⟨b, hb, hxb⟩ := List.mem_flatten.1 hx
    obtain ⟨k, hk, rfl⟩ := List.mem_map.1 hb
    obtain ⟨e, he, e1, _⟩ := hmem k hk
    rw [e1] at hxb
    exact (hg e he).1 x hxb

/-! ### the test for consecutive axes -/

private theorem range_block {n : Nat} {A : List (List Nat)} (hA : A.flatten = List.range n) {b : List Nat} (hb : b ∈ A) : ∃ a, b = List.range' a b.length ∧ a + b.length ≤ n := by
  obtain ⟨s, t, e⟩ := List.infix_of_mem_flatten hb
  rw [hA, List.range_eq_range'] at e
  obtain ⟨k, hk, h1, _⟩ := List.range'_eq_append_iff.1 e.symm
  obtain ⟨j, hj, _, h3⟩ := List.range'_eq_append_iff.1 h1.symm
  have hl : b.length = k - j := by rw [h3]; simp
  refine ⟨0 + j * 1, by rw [hl]; exact h3, by omega⟩

/-- If the test succeeds, the axes stand next to each other in the permutation. -/
theorem infix_of_consecutive {n : Nat} {p q : List Nat} (hp : p.length = n) (hq : IsPerm n q) (hpq : ∀ j < n, p.getD (q.getD j 0) 0 = j) {a k : Nat} (hk : 0 < k) (hak : a + k ≤ n)
    (h : consecutive (List.range' a k) (npTake q (List.range' a k)) = true) : List.range' a k <:+: p := by
  unfold consecutive at h
  rw [decide_eq_true_eq] at h
  have hhead : (List.range' a k).headD 0 = a := by
    cases k with
    | zero => omega
    | succ k => rfl
  have hhead2 : (npTake q (List.range' a k)).headD 0 = q.getD a 0 := by
    cases k with
    | zero => omega
    | succ k => rfl
  rw [hhead, hhead2] at h
  have hi : ∀ i < k, q.getD (a + i) 0 = q.getD a 0 + i := by
    intro i hik
    have := congrArg (fun l => l[i]?) h
    simp only [npTake, List.map_map, List.getElem?_map, List.getElem?_range', hik, Option.map_some, if_true, Option.some.injEq, Function.comp] at this
    simp only [Nat.one_mul] at this
    omega
  have ht : q.getD a 0 + k ≤ n := by
    have := IsPerm.get_lt hq (i := a + (k - 1)) (by omega)
    rw [hi (k - 1) (by omega)] at this
    omega
  have : List.range' a k = (p.drop (q.getD a 0)).take k := by
    apply ext_getD (by rw [List.length_range', List.length_take, List.length_drop]; omega)
    intro i hik
    have hik' : i < k := by simpa using hik
    have e1 : (List.range' a k).getD i 0 = a + i := by
      simp [List.getD, List.getElem?_range', hik']
    have e2 : ((p.drop (q.getD a 0)).take k).getD i 0 = p.getD (q.getD a 0 + i) 0 := by
      simp [List.getD, List.getElem?_take, hik']
    rw [e1, e2, ← hi i hik', hpq (a + i) (by omega)]
  rw [this]
  exact (List.take_prefix _ _).isInfix.trans (List.drop_suffix _ _).isInfix

theorem argsort_twice {n : Nat} {r : List Nat} (hr : IsPerm n r) : npArgsort (npArgsort r) = r := by
  have h1 := argsort_isPerm (IsPerm.length hr)
  have h2 := argsort_isPerm (IsPerm.length h1)
  apply ext_getD (by rw [IsPerm.length h2, IsPerm.length hr])
  intro j hj
  have hj' : j < n := by rw [IsPerm.length h2] at hj; exact hj
  have e1 := pass_argsort_getD h1 hj'
  have e2 := pass_argsort_idxOf hr hj'
  have e3 := IsPerm.idxOf_get h1 (IsPerm.get_lt h2 hj')
  rw [e1, e2] at e3
  exact e3.symm

theorem argsort_left {n : Nat} {r : List Nat} (hr : IsPerm n r) {j : Nat} (hj : j < n) : (npArgsort r).getD (r.getD j 0) 0 = j := by
  rw [← pass_argsort_idxOf hr hj]
  exact IsPerm.get_idxOf (argsort_isPerm (IsPerm.length hr)) hj

theorem cancel_right {α : Type} {n : Nat} {p : List Nat} (hp : IsPerm n p) (u : Tensor α) (hu : u.shape.length = n) : Same (transpose p (transpose (npArgsort p) u)) u :=
  pass_of_commute' hp _ u hu (Same.refl _)

theorem cancel_left {α : Type} {n : Nat} {p : List Nat} (hp : IsPerm n p) (u : Tensor α) (hu : u.shape.length = n) : Same (transpose (npArgsort p) (transpose p u)) u := by
  have := cancel_right (argsort_isPerm (IsPerm.length hp)) u hu
  rwa [argsort_twice hp] at this

/-! ### the shape tensor -/

theorem resolve_perm {arg : List Int} {q : List Nat} (hq : IsPerm arg.length q) (total : Nat) :
    resolveShape total (q.map fun k => arg.getD k 0) = q.map fun k => (resolveShape total arg).getD k 0 := by
  have hk : knownProduct (q.map fun k => arg.getD k 0) = knownProduct arg := by
    unfold knownProduct
    have hperm : (q.map fun k => arg.getD k 0).Perm arg := by
      refine (List.Perm.map _ hq).trans ?_
      have : (List.range arg.length).map (fun k => arg.getD k 0) = arg := by
        apply List.ext_getElem (by simp)
        intro i h1 h2
        simp [List.getD, h2]
      rw [this]
    exact ((hperm.filter _).map _).prod_eq
  unfold resolveShape
  rw [hk, List.map_map]
  apply List.map_congr_left
  intro k hkq
  have := (IsPerm.mem hq k).1 hkq
  simp [List.getD, this]

/-! ### the pass -/

private theorem zip_fst {z1 z2 : List (List Nat)} (h : z1.length = z2.length) : (z1.zip z2).map Prod.fst = z1 := by
  rw [List.map_fst_zip]; omega
private theorem zip_snd {z1 z2 : List (List Nat)} (h : z1.length = z2.length) : (z1.zip z2).map Prod.snd = z2 := by
  rw [List.map_snd_zip]; omega

private theorem split_noop {z : List (List Nat × List Nat)} (h : ∀ e ∈ z, ¬ (1 < e.1.length ∧ 1 < e.2.length)) : splitL z = z.map Prod.fst ∧ splitR z = z.map Prod.snd := by
  induction z with
  | nil => exact ⟨rfl, rfl⟩
  | cons e z ih =>
    have ih := ih fun x hx => h x (List.mem_cons_of_mem _ hx)
    have he := h e List.mem_cons_self
    constructor
    · show (if _ then _ else _) ++ splitL z = _
      rw [if_neg he, ih.1]; rfl
    · show (if _ then _ else _) ++ splitR z = _
      rw [if_neg he, ih.2]; rfl

private theorem split_swap (z : List (List Nat × List Nat)) : splitL (z.map Prod.swap) = splitR z ∧ splitR (z.map Prod.swap) = splitL z := by
  unfold splitL splitR
  constructor <;>
  · rw [List.flatMap_map]
    congr 1
    funext e
    simp only [Prod.fst_swap, Prod.snd_swap, and_comm]

/-- A group of several axes on both sides is among the tested ones. -/
private theorem mem_checks {d : Dir} {z : List (List Nat × List Nat)} {e : List Nat × List Nat} (he : e ∈ z) (h1 : 1 < e.1.length) (h2 : 1 < e.2.length) :
    (match d with | .down => e.1 | .up => e.2) ∈ checks d z := by
  unfold checks
  rw [List.mem_filterMap]
  exact ⟨e, he, by rw [if_pos ⟨h1, h2⟩]; cases d <;> rfl⟩

theorem mostOften_mem {cands : List (List Nat)} {p : List Nat} (h : mostOften cands = some p) : p ∈ cands := by
  unfold mostOften at h
  have key : ∀ (l : List (List Nat)) (b : Option (List Nat)), (∀ q, b = some q → q ∈ cands) → (∀ q ∈ l, q ∈ cands) →
      ∀ p, l.foldl (fun b p => match b with
        | none => some p
        | some q => if cands.count q < cands.count p then some p else some q) b = some p → p ∈ cands := by
    intro l
    induction l with
    | nil => intro b hb _ p hp; exact hb p hp
    | cons a l ih =>
      intro b hb hl p hp
      rw [List.foldl_cons] at hp
      refine ih _ ?_ (fun q hq => hl q (List.mem_cons_of_mem _ hq)) p hp
      intro q hq
      cases b with
      | none => simp only [Option.some.injEq] at hq; subst hq; exact hl a List.mem_cons_self
      | some c =>
        simp only at hq
        split at hq
        · simp only [Option.some.injEq] at hq; subst hq; exact hl a List.mem_cons_self
        · simp only [Option.some.injEq] at hq; subst hq; exact hb c rfl
  exact key cands none (by simp) (fun _ h => h) p h

/-- The permutation that is moved belongs to a TRANSPOSE on the right side. -/
theorem choose_mem {ext : Bool} {d : Dir} {prev : Prev} {nexts : List Next} {p : List Nat} (h : choose ext d prev nexts = some p) :
    match (generalizing := false) d with
    | .down => ∃ hint, prev = .transpose p hint
    | .up => ∃ hint, Next.transpose p hint ∈ nexts := by
  have hm : p ∈ (match d with | .down => prev.perm?.toList | .up => nexts.filterMap Next.perm?) := by
    unfold choose at h
    simp only at h
    by_cases c1 : ext = true ∧ prev.hint = some .up
    · rw [if_pos c1] at h; cases h
    rw [if_neg c1] at h
    by_cases c2 : ext = true ∧ some Dir.down ∈ nexts.map Next.hint
    · rw [if_pos c2] at h; cases h
    rw [if_neg c2] at h
    cases d <;> simp only at h ⊢ <;> split_ifs at h <;> exact mostOften_mem h
  cases d with
  | down =>
    cases prev with
    | transpose q hint => simp only [Prev.perm?, Option.toList_some, List.mem_singleton] at hm; subst hm; exact ⟨hint, rfl⟩
    | const => simp [Prev.perm?] at hm
    | other => simp [Prev.perm?] at hm
  | up =>
    simp only [List.mem_filterMap] at hm
    obtain ⟨n, hn, e⟩ := hm
    cases n with
    | transpose q hint => simp only [Next.perm?, Option.some.injEq] at e; subst e; exact ⟨hint, hn⟩
    | output => simp [Next.perm?] at e
    | other => simp [Next.perm?] at e

/-- The permutations of the rewritten operator. -/
theorem perms_spec {α : Type} (x : Tensor α) (r : List Nat) (hr : r.prod = x.shape.prod) (A B : List (List Nat)) (hA : A.flatten = List.range x.shape.length) (hB : B.flatten = List.range r.length)
    (hA0 : ∀ g ∈ A, g ≠ []) (hB0 : ∀ g ∈ B, g ≠ []) (hAB : List.Forall₂ (fun a b => groupSize x.shape a = groupSize r b) A B) (mode : Option Dir) (chain : Bool)
    (hm : modeGo none false (A.zip B) = some (mode, chain)) (perm : List Nat) (hperm : IsPerm (match mode.getD .down with | .down => x.shape.length | .up => r.length) perm)
    (hc : (checks (mode.getD .down) (A.zip B)).all (fun c => consecutive c (target (mode.getD .down) perm c)) = true) :
    ∃ inv q post, perms (mode.getD .down) (if chain then splitL (A.zip B) else A) (if chain then splitR (A.zip B) else B) perm = some (inv, q, post) ∧
      IsPerm x.shape.length inv ∧ IsPerm r.length q ∧ post = npArgsort q ∧ Same (reshape (q.map fun k => r.getD k 0) (transpose inv x)) (transpose q (reshape r x)) ∧
      (match mode.getD .down with | .down => inv = npArgsort perm | .up => q = perm) := by
  have hlen : A.length = B.length := hAB.length_eq
  obtain ⟨-, -, hz⟩ := modeGo_spec _ _ _ _ _ hm
  have hne : ∀ e ∈ A.zip B, e.1 ≠ [] ∧ e.2 ≠ [] := by
    intro e he
    obtain ⟨a, b⟩ := e
    have := List.of_mem_zip he
    exact ⟨hA0 _ this.1, hB0 _ this.2⟩
  have hpos : ∀ l : List Nat, l ≠ [] → 0 < l.length := fun l h => List.length_pos_iff.2 h
  have hLR : (if chain then splitL (A.zip B) else A) = splitL (A.zip B) ∧ (if chain then splitR (A.zip B) else B) = splitR (A.zip B) := by
    cases hcn : chain with
    | true => exact ⟨rfl, rfl⟩
    | false =>
      have := split_noop (z := A.zip B) (fun e he h => by
        have h3 := ((hz e he).2.2 h.1 h.2).2
        rw [hcn] at h3
        cases h3)
      rw [zip_fst hlen, zip_snd hlen] at this
      exact ⟨this.1.symm, this.2.symm⟩
  rw [hLR.1, hLR.2]
  have hcheck : ∀ c ∈ checks (mode.getD .down) (A.zip B), consecutive c (target (mode.getD .down) perm c) = true := by
    rw [List.all_eq_true] at hc; exact hc
  cases hd : mode.getD .down with
  | down =>
    rw [hd] at hperm hcheck
    simp only at hperm
    have hq := argsort_isPerm (IsPerm.length hperm)
    have hmode : mode ≠ some .up := by intro e; rw [e] at hd; cases hd
    have hkey : ∀ e ∈ A.zip B, Keyed e := by
      intro e he
      have h1 := hpos _ (hne e he).1
      have h2 := hpos _ (hne e he).2
      by_cases e1 : e.1.length = 1
      · exact Or.inl e1
      · have h3 : 1 < e.1.length := by omega
        have h4 : 1 < e.2.length := by
          by_contra h4
          exact hmode ((hz e he).1 h3 (by omega))
        exact Or.inr ⟨h3, h4, ((hz e he).2.2 h3 h4).1⟩
    obtain ⟨o, ho, e⟩ := order_of_infix hq A hA (by
      intro b hb
      refine ⟨hA0 b hb, ?_⟩
      have hb' : b ∈ (A.zip B).map Prod.fst := by rw [zip_fst hlen]; exact hb
      obtain ⟨e, he, rfl⟩ := List.mem_map.1 hb'
      rcases hkey e he with h1 | ⟨h1, h2, _⟩
      · obtain ⟨y, hy⟩ := List.length_eq_one_iff.1 h1
        rw [hy]
        have hyn : y < x.shape.length := by
          have : y ∈ A.flatten := List.mem_flatten.2 ⟨e.1, hb, by rw [hy]; simp⟩
          rw [hA, List.mem_range] at this; exact this
        obtain ⟨s, t, hst⟩ := List.append_of_mem ((IsPerm.mem hq y).2 hyn)
        exact ⟨s, t, by rw [hst]; simp⟩
      · obtain ⟨a, ha, hal⟩ := range_block hA hb
        have hcc := hcheck e.1 (mem_checks (d := .down) he h1 h2)
        rw [ha] at hcc ⊢
        exact infix_of_consecutive (IsPerm.length hq) hperm (fun j hj => argsort_left hperm hj) (by omega) hal hcc)
    have hzl : (A.zip B).length = A.length := by simp [hlen]
    have hj := joined_groups (A.zip B) hkey (by rw [zip_fst hlen, hA]; exact List.nodup_range) o (fun k hk => by rw [hzl]; exact (IsPerm.mem ho k).1 hk)
    rw [zip_fst hlen, zip_snd hlen, ← e] at hj
    obtain ⟨_, b2, b3⟩ := block_move x r hr A B hA hB hAB o ho
    rw [← e] at b3
    refine ⟨npArgsort perm, _, _, ?_, hq, b2, rfl, b3, rfl⟩
    unfold perms
    simp only [hj, Option.map_some]
  | up =>
    rw [hd] at hperm hcheck
    simp only at hperm
    have hq := argsort_isPerm (IsPerm.length hperm)
    have hmode : mode ≠ some .down := by intro e; rw [e] at hd; cases hd
    have hkey : ∀ e ∈ (A.zip B).map Prod.swap, Keyed e := by
      intro e' he'
      obtain ⟨e, he, rfl⟩ := List.mem_map.1 he'
      have h1 := hpos _ (hne e he).1
      have h2 := hpos _ (hne e he).2
      by_cases e1 : e.2.length = 1
      · exact Or.inl e1
      · have h3 : 1 < e.2.length := by omega
        have h4 : 1 < e.1.length := by
          by_contra h4
          exact hmode ((hz e he).2.1 h3 (by omega))
        exact Or.inr ⟨h3, h4, ((hz e he).2.2 h4 h3).1.symm⟩
    obtain ⟨o, ho, e⟩ := order_of_infix hperm B hB (by
      intro b hb
      refine ⟨hB0 b hb, ?_⟩
      have hb' : b ∈ (A.zip B).map Prod.snd := by rw [zip_snd hlen]; exact hb
      obtain ⟨e, he, rfl⟩ := List.mem_map.1 hb'
      rcases hkey e.swap (List.mem_map_of_mem he) with h1 | ⟨h1, h2, _⟩
      · simp only [Prod.fst_swap] at h1
        obtain ⟨y, hy⟩ := List.length_eq_one_iff.1 h1
        rw [hy]
        have hyn : y < r.length := by
          have : y ∈ B.flatten := List.mem_flatten.2 ⟨e.2, hb, by rw [hy]; simp⟩
          rw [hB, List.mem_range] at this; exact this
        obtain ⟨s, t, hst⟩ := List.append_of_mem ((IsPerm.mem hperm y).2 hyn)
        exact ⟨s, t, by rw [hst]; simp⟩
      · simp only [Prod.fst_swap, Prod.snd_swap] at h1 h2
        obtain ⟨a, ha, hal⟩ := range_block hB hb
        have hcc := hcheck e.2 (mem_checks (d := .up) he h2 h1)
        rw [ha] at hcc ⊢
        exact infix_of_consecutive (IsPerm.length hperm) hq (fun j hj => pass_argsort_getD hperm hj) (by omega) hal hcc)
    have hzl : ((A.zip B).map Prod.swap).length = B.length := by simp [hlen]
    have hf : ((A.zip B).map Prod.swap).map Prod.fst = B := by rw [List.map_map]; exact zip_snd hlen
    have hs : ((A.zip B).map Prod.swap).map Prod.snd = A := by rw [List.map_map]; exact zip_fst hlen
    have hj := joined_groups ((A.zip B).map Prod.swap) hkey (by rw [hf, hB]; exact List.nodup_range) o (fun k hk => by rw [hzl]; exact (IsPerm.mem ho k).1 hk)
    rw [(split_swap _).1, (split_swap _).2, hf, hs, ← e] at hj
    obtain ⟨b1, _, b3⟩ := block_move x r hr A B hA hB hAB o (by rw [hlen]; exact ho)
    rw [← e] at b3
    refine ⟨_, perm, npArgsort perm, ?_, b1, hperm, rfl, b3, rfl⟩
    unfold perms
    simp only [hj, Option.map_some, argsort_twice hperm]

end Across
open Across

private theorem resolved {α : Type} {arg : List Int} {x y : Tensor α} (h : reshapeOp arg x = some y) :
    y = reshape (resolveShape x.shape.prod arg) x ∧ (resolveShape x.shape.prod arg).prod = x.shape.prod := by
  unfold reshapeOp at h
  simp only at h
  split at h
  · rename_i hp
    simp only [Option.some.injEq] at h
    exact ⟨h.symm, hp⟩
  · cases h

private theorem pos_of_prod {s : List Nat} (h : 0 < s.prod) : ∀ d ∈ s, 0 < d := by
  intro d hd
  by_contra h0
  have : d = 0 := by omega
  subst this
  rw [List.prod_eq_zero hd] at h
  omega

/-- C119: when the pass rewrites a RESHAPE, the new operators TRANSPOSE, RESHAPE, TRANSPOSE compute what the RESHAPE computed, and one of the new TRANSPOSE operators undoes one that was there. -/
theorem C119_same {α : Type} (ext : Bool) (x y : Tensor α) (hx : ∀ d ∈ x.shape, 0 < d) (arg : List Int) (hy : reshapeOp arg x = some y) (prev : Prev) (nexts : List Next)
    (hprev : ∀ p hint, prev = .transpose p hint → IsPerm x.shape.length p) (hnext : ∀ p hint, Next.transpose p hint ∈ nexts → IsPerm y.shape.length p)
    (inv : List Nat) (arg' : List Int) (post : List Nat) (hm : move ext x.shape y.shape arg prev nexts = some (some (inv, arg', post))) :
    ∃ z, reshapeOp arg' (transpose inv x) = some z ∧ Same (transpose post z) y ∧
      ((∃ p hint, prev = .transpose p hint ∧ ∀ u : Tensor α, u.shape.length = x.shape.length → Same (transpose inv (transpose p u)) u) ∨
       (∃ p hint, Next.transpose p hint ∈ nexts ∧ Same (transpose p (transpose post z)) z)) := by
  obtain ⟨hyr, hprod⟩ := resolved hy
  set r := resolveShape x.shape.prod arg with hrd
  have hys : y.shape = r := by rw [hyr]; rfl
  rw [hys] at hm hnext
  have hxp : 0 < x.shape.prod := List.prod_pos (fun d hd => hx d hd)
  have hrpos : ∀ d ∈ r, 0 < d := pos_of_prod (by rw [hprod]; exact hxp)
  unfold move at hm
  by_cases h0 : x.shape = [] ∨ r = []
  · rw [if_pos h0] at hm; simp at hm
  rw [if_neg h0] at hm
  obtain ⟨A, B, no, hmap, hA, hB, hA0, hB0, hAB, -⟩ := C07_reshape_mapping_partial x.shape r hx hrpos hprod.symm
    ⟨fun h => absurd (Or.inl h) h0, fun h => absurd (Or.inr h) h0⟩
  rw [hmap] at hm
  simp only [Option.bind_some] at hm
  cases hmode : modeGo none false (A.zip B) with
  | none =>
    rw [hmode] at hm
    simp only at hm
    split at hm <;> simp at hm
  | some mc =>
    obtain ⟨mode, chain⟩ := mc
    rw [hmode] at hm
    simp only at hm
    cases hch : choose ext (mode.getD .down) prev nexts with
    | none => rw [hch] at hm; simp at hm
    | some perm =>
      rw [hch] at hm
      simp only at hm
      by_cases hc : (checks (mode.getD .down) (A.zip B)).all (fun c => consecutive c (target (mode.getD .down) perm c)) = true
      swap
      · rw [if_neg hc] at hm; simp at hm
      rw [if_pos hc] at hm
      have hcm := choose_mem hch
      have hperm : IsPerm (match mode.getD .down with | .down => x.shape.length | .up => r.length) perm := by
        cases hd : mode.getD .down with
        | down => rw [hd] at hcm; obtain ⟨hint, e⟩ := hcm; exact hprev _ _ e
        | up => rw [hd] at hcm; obtain ⟨hint, e⟩ := hcm; exact hnext _ _ e
      obtain ⟨inv0, q, post0, hp, hinv, hq, hpost, hsame, hlast⟩ := perms_spec x r hprod A B hA hB hA0 hB0 hAB mode chain hmode perm hperm hc
      rw [hp] at hm
      simp only [Option.map_some, Option.some.injEq, Prod.mk.injEq] at hm
      obtain ⟨rfl, rfl, rfl⟩ := hm
      have harg : arg.length = r.length := by rw [hrd]; simp [resolveShape]
      have hres : resolveShape (transpose inv0 x).shape.prod (q.map fun k => arg.getD k 0) = q.map fun k => r.getD k 0 := by
        rw [prod_transpose x hinv]
        exact resolve_perm (by rw [harg]; exact hq) _
      have hzp : (q.map fun k => r.getD k 0).prod = (transpose inv0 x).shape.prod := by
        rw [prod_transpose x hinv, ← hprod]
        exact prod_transpose (⟨r, x.get⟩ : Tensor α) hq
      refine ⟨reshape (q.map fun k => r.getD k 0) (transpose inv0 x), ?_, ?_, ?_⟩
      · unfold reshapeOp
        simp only [hres]
        rw [if_pos hzp]
      · rw [hpost, hyr]
        have hql := argsort_isPerm (IsPerm.length hq)
        refine (transpose_congr hql (by simp [reshape, IsPerm.length hq]) hsame).trans ?_
        exact cancel_left hq _ rfl
      · cases hd : mode.getD .down with
        | down =>
          rw [hd] at hcm hlast hperm
          obtain ⟨hint, e⟩ := hcm
          left
          refine ⟨perm, hint, e, ?_⟩
          intro u hu
          simp only at hlast
          rw [hlast]
          exact cancel_left hperm u hu
        | up =>
          rw [hd] at hcm hlast hperm
          obtain ⟨hint, e⟩ := hcm
          right
          refine ⟨perm, hint, e, ?_⟩
          simp only at hlast
          rw [hpost, hlast]
          exact cancel_right hperm _ (by simp [reshape, IsPerm.length hperm])

/-- C119, in part: the pass ends without an exception if no consumer of the RESHAPE is an output of the model.  Missing: models that return the reshaped tensor (`C119_output_false`) and tensors without
elements (`C119_empty_false`). -/
theorem C119_ends_partial {α : Type} (ext : Bool) (x y : Tensor α) (hx : ∀ d ∈ x.shape, 0 < d) (arg : List Int) (hy : reshapeOp arg x = some y) (prev : Prev) (nexts : List Next)
    (hprev : ∀ p hint, prev = .transpose p hint → IsPerm x.shape.length p) (hnext : ∀ p hint, Next.transpose p hint ∈ nexts → IsPerm y.shape.length p) (hout : Next.output ∉ nexts) :
    ∃ o, move ext x.shape y.shape arg prev nexts = some o := by
  obtain ⟨hyr, hprod⟩ := resolved hy
  set r := resolveShape x.shape.prod arg with hrd
  have hys : y.shape = r := by rw [hyr]; rfl
  rw [hys] at hnext ⊢
  have hxp : 0 < x.shape.prod := List.prod_pos (fun d hd => hx d hd)
  have hrpos : ∀ d ∈ r, 0 < d := pos_of_prod (by rw [hprod]; exact hxp)
  unfold move
  by_cases h0 : x.shape = [] ∨ r = []
  · rw [if_pos h0]; exact ⟨_, rfl⟩
  rw [if_neg h0]
  obtain ⟨A, B, no, hmap, hA, hB, hA0, hB0, hAB, -⟩ := C07_reshape_mapping_partial x.shape r hx hrpos hprod.symm
    ⟨fun h => absurd (Or.inl h) h0, fun h => absurd (Or.inr h) h0⟩
  rw [hmap]
  simp only [Option.bind_some]
  cases hmode : modeGo none false (A.zip B) with
  | none => simp only [if_neg hout]; exact ⟨_, rfl⟩
  | some mc =>
    obtain ⟨mode, chain⟩ := mc
    simp only
    cases hch : choose ext (mode.getD .down) prev nexts with
    | none => exact ⟨_, rfl⟩
    | some perm =>
      simp only
      by_cases hc : (checks (mode.getD .down) (A.zip B)).all (fun c => consecutive c (target (mode.getD .down) perm c)) = true
      swap
      · rw [if_neg hc]; exact ⟨_, rfl⟩
      rw [if_pos hc]
      have hcm := choose_mem hch
      have hperm : IsPerm (match mode.getD .down with | .down => x.shape.length | .up => r.length) perm := by
        cases hd : mode.getD .down with
        | down => rw [hd] at hcm; obtain ⟨hint, e⟩ := hcm; exact hprev _ _ e
        | up => rw [hd] at hcm; obtain ⟨hint, e⟩ := hcm; exact hnext _ _ e
      obtain ⟨inv0, q, post0, hp, -⟩ := perms_spec x r hprod A B hA hB hA0 hB0 hAB mode chain hmode perm hperm hc
      rw [hp]
      exact ⟨_, rfl⟩

/-- A model that returns `x.permute(0, 2, 1).reshape(3, 8)` for an `x` of shape `[1, 6, 4]`: the pass raises, at the optimization level that is the default. -/
theorem C119_output_false : reshapeOp [3, 8] (transpose [0, 2, 1] (arange [1, 6, 4])) ≠ none ∧ move true [1, 4, 6] [3, 8] [3, 8] (.transpose [0, 2, 1] none) [.output] = none := by
  constructor
  · simp [reshapeOp, resolveShape, knownProduct, transpose, arange]
  · decide +kernel

/-- A tensor without elements: the pass raises. -/
theorem C119_empty_false : move true [0, 3] [0] [0] (.transpose [1, 0] none) [.other] = none := by decide +kernel

/-- The hypotheses are met: a transpose of `[2, 12]` moves behind a reshape that splits an axis, one moves in front of a reshape that joins two axes, and one stays because the axes it would separate
belong together. -/
example : move true [12, 2] [3, 4, 2] [3, -1, 2] (.transpose [1, 0] none) [.transpose [2, 0, 1] none] = some (some ([1, 0], [2, 3, -1], [1, 2, 0])) ∧
    move true [3, 4, 2] [12, 2] [12, 2] .other [.transpose [1, 0] (some .up)] = some (some ([2, 0, 1], [2, 12], [1, 0])) ∧
    move true [4, 6, 2] [6, 4, 2] [6, 4, 2] (.transpose [2, 0, 1] none) [.transpose [2, 0, 1] none] = some none ∧
    move true [4, 6, 2] [6, 4, 2] [6, 4, 2] (.transpose [1, 2, 0] none) [.transpose [2, 0, 1] none] = some (some ([2, 0, 1], [2, 6, 4], [1, 2, 0])) := by
  refine ⟨by decide +kernel, by decide +kernel, by decide +kernel, by decide +kernel⟩

end Verif.Props
