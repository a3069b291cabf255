import Verif.Model.LayerExpr
import Mathlib.Tactic.Common

/-!
C151: the expressions by which a traced graph refers to the user's layers.
-/

namespace Verif.Props
open Verif.Spec.LayerExpr Verif.Model.LayerExpr

namespace LayerExpr

/-- The text of one step behind another one. -/
def segT (k : Kind) (n : Name) : List Char :=
  if (k = .sequential ∨ k = .list) ∧ numeric n = true then '[' :: (n ++ [']'])
  else if k = .dict then '[' :: '"' :: (n ++ ['"', ']'])
  else if '.' ∈ n ∨ '-' ∈ n then '.' :: (subOpen ++ (n ++ ['"', ')']))
  else '.' :: n

def segA (k : Kind) (n : Name) : Access :=
  if (k = .sequential ∨ k = .list) ∧ numeric n = true then .item n
  else if k = .dict then .key n
  else if '.' ∈ n ∨ '-' ∈ n then .sub n
  else .attr n

theorem childText_seg (p : List Char) (k : Kind) (n : Name) (hp : p ≠ []) : childText p k n = p ++ segT k n := by
  unfold childText segT
  split
  · rfl
  · split
    · rfl
    · split <;> rfl

/-- The text of the steps behind the first one. -/
def restT (H : Heap) (i : Nat) : List Name → List Char
  | [] => []
  | n :: ns => segT (H.kind i) n ++ (match (H.children i).lookup n with
    | some c => restT H c ns
    | none => [])

def restA (H : Heap) (i : Nat) : List Name → List Access
  | [] => []
  | n :: ns => segA (H.kind i) n :: (match (H.children i).lookup n with
    | some c => restA H c ns
    | none => [])

theorem textFrom_rest (H : Heap) (ns : List Name) : ∀ (i j : Nat) (p : List Char), p ≠ [] → resolve H i ns = some j → textFrom H i p ns = some (p ++ restT H i ns) := by
  induction ns with
  | nil => intro i j p _ _; simp [textFrom, restT]
  | cons n ns ih =>
    intro i j p hp h
    unfold resolve at h
    unfold textFrom restT
    cases hc : (H.children i).lookup n with
    | none => rw [hc] at h; cases h
    | some c =>
      rw [hc] at h
      dsimp only at h ⊢
      rw [childText_seg _ _ _ hp, ih c j _ (by simp [hp]) h, List.append_assoc]

/-- A text at whose beginning a name ends. -/
def Clean (t : List Char) : Prop := ∀ c ∈ t.head?, c = '.' ∨ c = '['

theorem segT_ne (k : Kind) (n : Name) : ∃ c r, segT k n = c :: r ∧ (c = '.' ∨ c = '[') := by
  unfold segT
  split
  · exact ⟨_, _, rfl, Or.inr rfl⟩
  · split
    · exact ⟨_, _, rfl, Or.inr rfl⟩
    · split
      · exact ⟨_, _, rfl, Or.inl rfl⟩
      · exact ⟨_, _, rfl, Or.inl rfl⟩

theorem rest_clean (H : Heap) (i : Nat) (ns : List Name) : Clean (restT H i ns) := by
  cases ns with
  | nil => intro c hc; simp [restT] at hc
  | cons n ns =>
    obtain ⟨c, r, h, hc⟩ := segT_ne (H.kind i) n
    intro c' hc'
    unfold restT at hc'
    rw [h] at hc'
    simp only [List.cons_append, List.head?_cons, Option.mem_def, Option.some.injEq] at hc'
    exact hc' ▸ hc

/-- Names for which Python reads back what was written. -/
def SegOk (k : Kind) (n : Name) : Prop :=
  if (k = .sequential ∨ k = .list) ∧ numeric n = true then True
  else if k = .dict then '"' ∉ n
  else if '.' ∈ n ∨ '-' ∈ n then '"' ∉ n
  else IsIdent n

theorem take_stop {p : Char → Bool} {l : List Char} (h : ∀ c ∈ l, p c = true) {t : List Char} (ht : ∀ c ∈ t.head?, p c = false) : (l ++ t).takeWhile p = l ∧ (l ++ t).dropWhile p = t := by
  induction l with
  | nil =>
    cases t with
    | nil => simp
    | cons c t => simp [ht c (by simp)]
  | cons c l ih =>
    have := ih (fun x hx => h x (by simp [hx]))
    simp [h c (by simp), this.1, this.2]

theorem notQuote_of {n : Name} (h : '"' ∉ n) : ∀ c ∈ n, notQuote c = true := by
  intro c hc
  have : c ≠ '"' := by
    rintro rfl
    exact h hc
  simpa [notQuote] using this

theorem read_seg (k : Kind) (n : Name) (t : List Char) (f : Nat) (h : SegOk k n) (ht : Clean t) : readPy (f + 1) (segT k n ++ t) = (readPy f t).map (fun as => segA k n :: as) := by
  unfold SegOk at h
  unfold segT segA
  by_cases h1 : (k = .sequential ∨ k = .list) ∧ numeric n = true
  · rw [if_pos h1, if_pos h1]
    have hn := h1.2
    unfold numeric at hn
    simp only [Bool.and_eq_true, Bool.not_eq_true', List.isEmpty_eq_false_iff, List.all_eq_true] at hn
    obtain ⟨hne, hd⟩ := hn
    have ts := take_stop (p := Char.isDigit) (l := n) hd (t := ']' :: t) (by simp)
    cases n with
    | nil => exact absurd rfl hne
    | cons d n =>
      have hdq : d ≠ '"' := by
        rintro rfl
        exact absurd (hd '"' (by simp)) (by decide)
      have e : '[' :: (d :: n ++ [']']) ++ t = '[' :: d :: (n ++ ']' :: t) := by simp
      have e2 : d :: (n ++ ']' :: t) = (d :: n) ++ ']' :: t := rfl
      rw [e]
      have hh : (d :: (n ++ ']' :: t)).head? ≠ some '"' := by simpa using hdq
      simp only [readPy]
      rw [if_neg hh, e2, ts.1, ts.2]
      simp
  · rw [if_neg h1] at h ⊢
    rw [if_neg h1]
    by_cases h2 : k = .dict
    · rw [if_pos h2] at h ⊢
      rw [if_pos h2]
      have ts := take_stop (p := notQuote) (notQuote_of h) (t := '"' :: ']' :: t) (by simp [notQuote])
      have e : '[' :: '"' :: (n ++ ['"', ']']) ++ t = '[' :: '"' :: (n ++ '"' :: ']' :: t) := by simp
      rw [e]
      simp only [readPy, List.head?_cons, if_true, List.tail_cons, ts.1, ts.2]
    · rw [if_neg h2] at h ⊢
      rw [if_neg h2]
      by_cases h3 : '.' ∈ n ∨ '-' ∈ n
      · rw [if_pos h3] at h ⊢
        rw [if_pos h3]
        have ts := take_stop (p := notQuote) (notQuote_of h) (t := '"' :: ')' :: t) (by simp [notQuote])
        have g : ∀ q : List Char, ("get_submodule".toList ++ '(' :: '"' :: q).takeWhile isId = "get_submodule".toList ∧ ("get_submodule".toList ++ '(' :: '"' :: q).dropWhile isId = '(' :: '"' :: q :=
          fun q => take_stop (by decide) (by simp; decide)
        have e : '.' :: (subOpen ++ (n ++ ['"', ')'])) ++ t = '.' :: ("get_submodule".toList ++ '(' :: '"' :: (n ++ '"' :: ')' :: t)) := by simp [subOpen]
        rw [e]
        simp only [readPy, (g _).1, (g _).2]
        rw [if_pos (by decide)]
        simp only [if_true, ts.1, ts.2]
      · rw [if_neg h3] at h ⊢
        rw [if_neg h3]
        have ts := take_stop (p := isId) h.2.1 (t := t) (by
          intro c hc
          rcases ht c hc with rfl | rfl <;> decide)
        rw [List.cons_append]
        simp only [readPy, ts.1, ts.2, if_pos h]
        cases t with
        | nil => rfl
        | cons c t =>
          rcases ht c (by simp) with rfl | rfl <;> rfl

/-- Names along a path, and numbered children at their place. -/
def PathOk (H : Heap) (i : Nat) : List Name → Prop
  | [] => True
  | n :: ns => SegOk (H.kind i) n ∧
    ((H.kind i = .sequential ∨ H.kind i = .list) ∧ numeric n = true → ((H.children i)[value n]?).map Prod.snd = (H.children i).lookup n) ∧
    ∀ c, (H.children i).lookup n = some c → PathOk H c ns

theorem access_seg (H : Heap) (i : Nat) (n : Name)
    (hpos : (H.kind i = .sequential ∨ H.kind i = .list) ∧ numeric n = true → ((H.children i)[value n]?).map Prod.snd = (H.children i).lookup n) :
    access H i (segA (H.kind i) n) = (H.children i).lookup n := by
  unfold segA
  by_cases h1 : (H.kind i = .sequential ∨ H.kind i = .list) ∧ numeric n = true
  · rw [if_pos h1]
    simp only [access, if_pos h1.1]
    exact hpos h1
  · rw [if_neg h1]
    by_cases h2 : H.kind i = .dict
    · rw [if_pos h2]
      simp [access, h2]
    · rw [if_neg h2]
      split <;> rfl

theorem read_rest (H : Heap) (ns : List Name) : ∀ (i j f : Nat), resolve H i ns = some j → PathOk H i ns → (restT H i ns).length ≤ f →
    readPy f (restT H i ns) = some (restA H i ns) ∧ follow H i (restA H i ns) = some j := by
  induction ns with
  | nil =>
    intro i j f h _ _
    cases h
    refine ⟨?_, rfl⟩
    cases f <;> rfl
  | cons n ns ih =>
    intro i j f h ok hf
    unfold resolve at h
    cases hc : (H.children i).lookup n with
    | none => rw [hc] at h; cases h
    | some c =>
      rw [hc] at h
      dsimp only at h
      have e : restT H i (n :: ns) = segT (H.kind i) n ++ restT H c ns := by simp [restT, hc]
      have e2 : restA H i (n :: ns) = segA (H.kind i) n :: restA H c ns := by simp [restA, hc]
      rw [e] at hf ⊢
      rw [e2]
      obtain ⟨x, r, hx, -⟩ := segT_ne (H.kind i) n
      have hlen : 1 ≤ (segT (H.kind i) n).length := by rw [hx]; simp
      rw [List.length_append] at hf
      obtain ⟨f', rfl⟩ : ∃ f', f = f' + 1 := ⟨f - 1, by omega⟩
      obtain ⟨r1, r2⟩ := ih c j f' h (ok.2.2 c hc) (by omega)
      refine ⟨?_, ?_⟩
      · rw [read_seg _ _ _ _ ok.1 (rest_clean H c ns), r1]
        rfl
      · unfold follow
        rw [access_seg H i n ok.2.1, hc]
        exact r2

/-- A name without the characters that have a meaning in expressions. -/
def NameOk (n : Name) : Prop := '.' ∉ n ∧ '(' ∉ n ∧ ')' ∉ n ∧ '"' ∉ n ∧ '[' ∉ n ∧ ']' ∉ n

theorem no_open : ∀ (pre u t : List Char), '(' ∈ pre → '(' ∉ u → (∀ c ∈ t.head?, c ∉ pre) → ¬ pre <+: u ++ t := by
  intro pre u
  induction u generalizing pre with
  | nil =>
    rintro t hp - ht ⟨r, hr⟩
    cases pre with
    | nil => simp at hp
    | cons a pre =>
      simp only [List.nil_append] at hr
      rw [← hr] at ht
      exact ht a (by simp) (by simp)
  | cons c u ih =>
    rintro t hp hu ht ⟨r, hr⟩
    cases pre with
    | nil => simp at hp
    | cons a pre =>
      simp only [List.cons_append, List.cons.injEq] at hr
      obtain ⟨rfl, hr⟩ := hr
      simp only [List.mem_cons, not_or] at hu
      refine ih pre t ?_ hu.2 ?_ ⟨r, hr⟩
      · rcases List.mem_cons.1 hp with h | h
        · exact absurd h hu.1
        · exact h
      · intro c hc hcp
        exact ht c hc (by simp [hcp])

theorem clean_open {t : List Char} (ht : Clean t) : ∀ c ∈ t.head?, c ∉ subOpen := by
  intro c hc
  rcases ht c hc with rfl | rfl <;> decide

theorem sub1_skip {t : List Char} (ht : Clean t) : ∀ (u : List Char) (f : Nat), '(' ∉ u → u.length ≤ f → sub1 f (u ++ t) = u ++ sub1 (f - u.length) t := by
  intro u
  induction u with
  | nil => intro f _ _; simp
  | cons c u ih =>
    intro f hu hf
    simp only [List.length_cons] at hf
    obtain ⟨f', rfl⟩ : ∃ f', f = f' + 1 := ⟨f - 1, by omega⟩
    have hno := no_open subOpen (c :: u) t (by decide) hu (clean_open ht)
    rw [List.cons_append] at hno ⊢
    conv_lhs => unfold sub1
    rw [if_neg hno, ih f' (fun h => hu (by simp [h])) (by omega)]
    simp

theorem beforeClose_of (n t : List Char) (h : ')' ∉ n) (hq : '"' ∉ n) : beforeClose (n ++ '"' :: ')' :: t) = some (n, t) := by
  induction n with
  | nil => simp [beforeClose]
  | cons c n ih =>
    simp only [List.mem_cons, not_or] at h hq
    rw [List.cons_append]
    unfold beforeClose
    rw [if_neg (fun x => hq.1 x.1.symm), ih h.2 hq.2]
    rfl

/-- The text of a step after the first substitution. -/
def segT1 (k : Kind) (n : Name) : List Char :=
  if (k = .sequential ∨ k = .list) ∧ numeric n = true then '[' :: (n ++ [']'])
  else if k = .dict then '[' :: '"' :: (n ++ ['"', ']'])
  else '.' :: n

def restT1 (H : Heap) (i : Nat) : List Name → List Char
  | [] => []
  | n :: ns => segT1 (H.kind i) n ++ (match (H.children i).lookup n with
    | some c => restT1 H c ns
    | none => [])

theorem sub1_nil (f : Nat) : sub1 f [] = [] := by cases f <;> rfl
theorem sub2_nil (f : Nat) : sub2 f [] = [] := by cases f <;> rfl

theorem sub1_seg (k : Kind) (n : Name) (h : NameOk n) (t : List Char) (ht : Clean t) (f : Nat) (hf : (segT k n ++ t).length ≤ f) : ∃ f', t.length ≤ f' ∧ sub1 f (segT k n ++ t) = segT1 k n ++ sub1 f' t := by
  rw [List.length_append] at hf
  unfold segT at hf ⊢
  unfold segT1
  by_cases h1 : (k = .sequential ∨ k = .list) ∧ numeric n = true
  · rw [if_pos h1] at hf ⊢
    rw [if_pos h1]
    exact ⟨_, by omega, sub1_skip ht _ f (by simp [h.2.1]) (by omega)⟩
  · rw [if_neg h1] at hf ⊢
    rw [if_neg h1]
    by_cases h2 : k = .dict
    · rw [if_pos h2] at hf ⊢
      rw [if_pos h2]
      exact ⟨_, by omega, sub1_skip ht _ f (by simp [h.2.1]) (by omega)⟩
    · rw [if_neg h2] at hf ⊢
      rw [if_neg h2]
      by_cases h3 : '.' ∈ n ∨ '-' ∈ n
      · rw [if_pos h3] at hf ⊢
        simp only [List.length_cons, List.length_append, List.length_nil] at hf
        obtain ⟨f', rfl⟩ : ∃ f', f = f' + 1 + 1 := ⟨f - 2, by omega⟩
        refine ⟨f', by omega, ?_⟩
        have e : '.' :: (subOpen ++ (n ++ ['"', ')'])) ++ t = '.' :: (subOpen ++ (n ++ '"' :: ')' :: t)) := by simp [subOpen]
        rw [e]
        have hdot : ¬ subOpen <+: '.' :: (subOpen ++ (n ++ '"' :: ')' :: t)) := by
          rintro ⟨r, hr⟩
          have : subOpen = 'g' :: subOpen.tail := by decide
          rw [this] at hr
          simp at hr
        have step : ∀ q : List Char, ∀ x, beforeClose q = some x → sub1 (f' + 1) (subOpen ++ q) = x.1 ++ sub1 f' x.2 := by
          intro q x hx
          have hc : subOpen ++ q = 'g' :: (subOpen.tail ++ q) := rfl
          rw [hc]
          conv_lhs => unfold sub1
          rw [if_pos (by rw [← hc]; exact List.prefix_append _ _), ← hc, List.drop_left, hx]
        conv_lhs => unfold sub1
        rw [if_neg hdot, step _ _ (beforeClose_of n t h.2.2.1 h.2.2.2.1)]
        rfl
      · rw [if_neg h3] at hf ⊢
        exact ⟨_, by omega, sub1_skip ht _ f (by simp [h.2.1]) (by omega)⟩

theorem sub1_rest (H : Heap) (ns : List Name) : ∀ (i j f : Nat), resolve H i ns = some j → (∀ n ∈ ns, NameOk n) → (restT H i ns).length ≤ f → sub1 f (restT H i ns) = restT1 H i ns := by
  induction ns with
  | nil => intro i j f _ _ _; exact sub1_nil f
  | cons n ns ih =>
    intro i j f h ok hf
    unfold resolve at h
    cases hc : (H.children i).lookup n with
    | none => rw [hc] at h; cases h
    | some c =>
      rw [hc] at h
      have e : restT H i (n :: ns) = segT (H.kind i) n ++ restT H c ns := by simp [restT, hc]
      have e2 : restT1 H i (n :: ns) = segT1 (H.kind i) n ++ restT1 H c ns := by simp [restT1, hc]
      rw [e] at hf ⊢
      rw [e2]
      obtain ⟨f', hf', hs⟩ := sub1_seg (H.kind i) n (ok n (by simp)) _ (rest_clean H c ns) f hf
      rw [hs, ih c j f' h (fun x hx => ok x (by simp [hx])) hf']

theorem sub2_skip (t : List Char) : ∀ (u : List Char) (f : Nat), '[' ∉ u → u.length ≤ f → sub2 f (u ++ t) = u ++ sub2 (f - u.length) t := by
  intro u
  induction u with
  | nil => intro f _ _; simp
  | cons c u ih =>
    intro f hu hf
    simp only [List.length_cons] at hf
    simp only [List.mem_cons, not_or] at hu
    obtain ⟨f', rfl⟩ : ∃ f', f = f' + 1 := ⟨f - 1, by omega⟩
    rw [List.cons_append]
    conv_lhs => unfold sub2
    rw [if_neg (fun x => hu.1 x.symm), ih f' hu.2 (by omega)]
    simp

theorem beforeEnd_of (n t : List Char) (h : ']' ∉ n) (hq : '"' ∉ n) : beforeEnd (n ++ ']' :: t) = some (n, t) ∧ beforeEnd (n ++ '"' :: ']' :: t) = some (n, t) := by
  induction n with
  | nil => simp [beforeEnd]
  | cons c n ih =>
    simp only [List.mem_cons, not_or] at h hq
    obtain ⟨i1, i2⟩ := ih h.2 hq.2
    rw [List.cons_append, List.cons_append]
    constructor
    · unfold beforeEnd
      rw [if_neg (fun x => hq.1 x.1.symm), if_neg (fun x => h.1 x.symm), i1]
      rfl
    · unfold beforeEnd
      rw [if_neg (fun x => hq.1 x.1.symm), if_neg (fun x => h.1 x.symm), i2]
      rfl

theorem sub2_seg (k : Kind) (n : Name) (h : NameOk n) (t : List Char) (f : Nat) (hf : (segT1 k n ++ t).length ≤ f) : ∃ f', t.length ≤ f' ∧ sub2 f (segT1 k n ++ t) = '.' :: n ++ sub2 f' t := by
  rw [List.length_append] at hf
  unfold segT1 at hf ⊢
  by_cases h1 : (k = .sequential ∨ k = .list) ∧ numeric n = true
  · rw [if_pos h1] at hf ⊢
    simp only [List.length_cons, List.length_append, List.length_nil] at hf
    obtain ⟨f', rfl⟩ : ∃ f', f = f' + 1 := ⟨f - 1, by omega⟩
    refine ⟨f', by omega, ?_⟩
    have e : '[' :: (n ++ [']']) ++ t = '[' :: (n ++ ']' :: t) := by simp
    have hq : (n ++ ']' :: t).head? ≠ some '"' := by
      cases n with
      | nil => simp
      | cons d n =>
        simp only [List.cons_append, List.head?_cons, ne_eq, Option.some.injEq]
        rintro rfl
        exact h.2.2.2.1 (by simp)
    rw [e]
    conv_lhs => unfold sub2
    rw [if_pos rfl, if_neg hq, (beforeEnd_of n t h.2.2.2.2.2 h.2.2.2.1).1]
    rfl
  · rw [if_neg h1] at hf ⊢
    by_cases h2 : k = .dict
    · rw [if_pos h2] at hf ⊢
      simp only [List.length_cons, List.length_append, List.length_nil] at hf
      obtain ⟨f', rfl⟩ : ∃ f', f = f' + 1 := ⟨f - 1, by omega⟩
      refine ⟨f', by omega, ?_⟩
      have e : '[' :: '"' :: (n ++ ['"', ']']) ++ t = '[' :: '"' :: (n ++ '"' :: ']' :: t) := by simp
      rw [e]
      conv_lhs => unfold sub2
      rw [if_pos rfl, if_pos (by simp), List.tail_cons, (beforeEnd_of n t h.2.2.2.2.2 h.2.2.2.1).2]
      rfl
    · rw [if_neg h2] at hf ⊢
      exact ⟨_, by omega, sub2_skip t _ f (by simp [h.2.2.2.2.1]) (by omega)⟩

/-- The names with dots in front. -/
def dotted : List Name → List Char
  | [] => []
  | n :: ns => '.' :: n ++ dotted ns

theorem sub2_rest (H : Heap) (ns : List Name) : ∀ (i j f : Nat), resolve H i ns = some j → (∀ n ∈ ns, NameOk n) → (restT1 H i ns).length ≤ f → sub2 f (restT1 H i ns) = dotted ns := by
  induction ns with
  | nil => intro i j f _ _ _; exact sub2_nil f
  | cons n ns ih =>
    intro i j f h ok hf
    unfold resolve at h
    cases hc : (H.children i).lookup n with
    | none => rw [hc] at h; cases h
    | some c =>
      rw [hc] at h
      have e2 : restT1 H i (n :: ns) = segT1 (H.kind i) n ++ restT1 H c ns := by simp [restT1, hc]
      rw [e2] at hf ⊢
      obtain ⟨f', hf', hs⟩ := sub2_seg (H.kind i) n (ok n (by simp)) _ f hf
      rw [hs, ih c j f' h (fun x hx => ok x (by simp [hx])) hf']
      rfl

theorem split_name (n : Name) (h : '.' ∉ n) (t : List Char) (l : List Name) (m : Name) (ht : splitDots t = m :: l) : splitDots (n ++ t) = (n ++ m) :: l := by
  induction n with
  | nil => simpa using ht
  | cons c n ih =>
    simp only [List.mem_cons, not_or] at h
    rw [List.cons_append]
    unfold splitDots
    rw [if_neg (fun x => h.1 x.symm), ih h.2]
    rfl

theorem split_dotted (ns : List Name) (h : ∀ n ∈ ns, '.' ∉ n) : splitDots (dotted ns) = [] :: ns := by
  induction ns with
  | nil => rfl
  | cons n ns ih =>
    have := split_name n (h n (by simp)) _ _ _ (ih (fun x hx => h x (by simp [hx])))
    simp only [dotted, List.cons_append]
    unfold splitDots
    rw [if_pos rfl, this]
    simp

/-- The first step: not by number, and not out of a dictionary. -/
def FirstPlain (H : Heap) (root : Nat) (n : Name) : Prop := n ≠ [] ∧ H.kind root ≠ .dict ∧ ¬ ((H.kind root = .sequential ∨ H.kind root = .list) ∧ numeric n = true)

theorem text_eq (H : Heap) (root j c : Nat) (n : Name) (ns : List Name) (hc : (H.children root).lookup n = some c) (h : resolve H c ns = some j) (hf : FirstPlain H root n) :
    text H root (n :: ns) = some (n ++ restT H c ns) := by
  unfold text textFrom
  rw [hc]
  dsimp only
  have : childText [] (H.kind root) n = n := by
    unfold childText
    rw [if_neg hf.2.2, if_neg hf.2.1]
    simp
  rw [this]
  exact textFrom_rest H ns c j n hf.1 h

end LayerExpr

open LayerExpr

/-- **C151** (for models whose layers are attributes of the model with ordinary names; further down there may be sequences, lists and dictionaries, and names with dashes): the expression leads to the
layer. -/
theorem C151_leads_partial (H : Heap) (root j : Nat) (n : Name) (ns : List Name) (h : resolve H root (n :: ns) = some j) (hf : FirstPlain H root n) (hid : IsIdent n)
    (ok : ∀ c, (H.children root).lookup n = some c → PathOk H c ns) : ∃ t, text H root (n :: ns) = some t ∧ python H root t = some j := by
  unfold resolve at h
  cases hc : (H.children root).lookup n with
  | none => rw [hc] at h; cases h
  | some c =>
    rw [hc] at h
    dsimp only at h
    refine ⟨_, text_eq H root j c n ns hc h hf, ?_⟩
    obtain ⟨r1, r2⟩ := read_rest H ns c j ((restT H c ns).length + n.length) h (ok c hc) (by omega)
    have hread : readPy ('.' :: (n ++ restT H c ns)).length ('.' :: (n ++ restT H c ns)) = some (.attr n :: restA H c ns) := by
      have hlen : ('.' :: (n ++ restT H c ns)).length = ((restT H c ns).length + n.length) + 1 := by simp; omega
      rw [hlen]
      have ts := take_stop (p := isId) hid.2.1 (t := restT H c ns) (by
        intro x hx
        rcases rest_clean H c ns x hx with rfl | rfl <;> decide)
      have hcl := rest_clean H c ns
      generalize restT H c ns = t at *
      simp only [readPy, ts.1, ts.2, if_pos hid]
      cases t with
      | nil => simpa using congrArg (Option.map (fun as => Access.attr n :: as)) r1
      | cons x t =>
        rcases hcl x (by simp) with rfl | rfl <;> exact congrArg (Option.map (fun as => Access.attr n :: as)) r1
    unfold python
    rw [hread]
    dsimp only
    unfold follow
    simp only [access, hc]
    exact r2

/-- Turned back into names, it gives the name of the layer, for all names without the characters `. ( ) " [ ]`. -/
theorem C151_back_partial (H : Heap) (root j : Nat) (n : Name) (ns : List Name) (h : resolve H root (n :: ns) = some j) (hf : FirstPlain H root n) (ok : ∀ m ∈ n :: ns, NameOk m) :
    ∃ t, text H root (n :: ns) = some t ∧ names t = n :: ns := by
  unfold resolve at h
  cases hc : (H.children root).lookup n with
  | none => rw [hc] at h; cases h
  | some c =>
    rw [hc] at h
    dsimp only at h
    refine ⟨_, text_eq H root j c n ns hc h hf, ?_⟩
    have okn := ok n (by simp)
    have okns : ∀ m ∈ ns, NameOk m := fun m hm => ok m (by simp [hm])
    have s1 : sub1 (n ++ restT H c ns).length (n ++ restT H c ns) = n ++ restT1 H c ns := by
      rw [sub1_skip (rest_clean H c ns) n _ okn.2.1 (by simp), sub1_rest H ns c j _ h okns (by simp)]
    have s2 : sub2 (n ++ restT1 H c ns).length (n ++ restT1 H c ns) = n ++ dotted ns := by
      rw [sub2_skip _ n _ okn.2.2.2.2.1 (by simp), sub2_rest H ns c j _ h okns (by simp)]
    unfold names
    dsimp only
    rw [s1, s2, split_name n okn.1 _ _ _ (split_dotted ns (fun m hm => (okns m hm).1))]
    simp

/-- A model with a sequence in a dictionary in a block, and a layer with a dash in its name. -/
def exprHeap : Heap where
  kind i := if i = 2 then .dict else if i = 3 then .sequential else .plain
  children i := match i with
    | 0 => [("body".toList, 1)]
    | 1 => [("parts".toList, 2), ("my-layer".toList, 5)]
    | 2 => [("left".toList, 3)]
    | 3 => [("0".toList, 4), ("act".toList, 6)]
    | _ => []

example : (text exprHeap 0 (["body", "parts", "left", "0"].map String.toList)).map String.ofList = some "body.parts[\"left\"][0]" ∧
    (text exprHeap 0 (["body", "my-layer"].map String.toList)).map String.ofList = some "body.get_submodule(\"my-layer\")" := by decide +kernel

example : ∃ t, text exprHeap 0 (["body", "parts", "left", "0"].map String.toList) = some t ∧ python exprHeap 0 t = some 4 := by
  refine C151_leads_partial exprHeap 0 4 "body".toList (["parts", "left", "0"].map String.toList) (by decide +kernel) ⟨by decide, by decide, by decide⟩ (by decide +kernel) ?_
  intro c hc
  have : c = 1 := by
    have h : (exprHeap.children 0).lookup "body".toList = some 1 := by decide +kernel
    rw [h] at hc
    exact (Option.some.inj hc).symm
  subst this
  refine ⟨?_, by decide +kernel, ?_⟩
  · unfold SegOk; decide +kernel
  intro c hc
  have : c = 2 := by
    have h : (exprHeap.children 1).lookup "parts".toList = some 2 := by decide +kernel
    rw [h] at hc
    exact (Option.some.inj hc).symm
  subst this
  refine ⟨?_, by decide +kernel, ?_⟩
  · unfold SegOk; decide +kernel
  intro c hc
  have : c = 3 := by
    have h : (exprHeap.children 2).lookup "left".toList = some 3 := by decide +kernel
    rw [h] at hc
    exact (Option.some.inj hc).symm
  subst this
  refine ⟨?_, by decide +kernel, fun _ _ => trivial⟩
  unfold SegOk; decide +kernel

example : names "body.parts[\"left\"][0]".toList = ["body", "parts", "left", "0"].map String.toList ∧ names "body.get_submodule(\"my-layer\")".toList = ["body", "my-layer"].map String.toList := by
  decide +kernel

/-- The full claim is false. A model that is a sequence: `self.[0]` is no Python, and turned back the expression gives a name that begins with nothing. -/
theorem C151_sequence_false : ∃ H : Heap, resolve H 0 ["0".toList] = some 1 ∧ text H 0 ["0".toList] = some "[0]".toList ∧ python H 0 "[0]".toList = none ∧
    names "[0]".toList = [[], "0".toList] :=
  ⟨⟨fun i => if i = 0 then .sequential else .plain, fun i => if i = 0 then [("0".toList, 1)] else []⟩, by decide +kernel, by decide +kernel, by decide +kernel, by decide +kernel⟩

/-- A layer with a dash in its name directly in the model: `self.my-layer` is a difference. -/
theorem C151_dash_false : ∃ H : Heap, resolve H 0 ["my-layer".toList] = some 1 ∧ text H 0 ["my-layer".toList] = some "my-layer".toList ∧ python H 0 "my-layer".toList = none :=
  ⟨⟨fun _ => .plain, fun i => if i = 0 then [("my-layer".toList, 1)] else []⟩, by decide +kernel, by decide +kernel, by decide +kernel⟩

/-- A sequence whose numbered children are not at their place: the expression leads to another layer. -/
theorem C151_numbered_false : ∃ H : Heap, resolve H 0 ["seq".toList, "1".toList] = some 2 ∧ text H 0 ["seq".toList, "1".toList] = some "seq[1]".toList ∧ python H 0 "seq[1]".toList = some 3 :=
  ⟨⟨fun i => if i = 1 then .sequential else .plain, fun i => match i with
    | 0 => [("seq".toList, 1)]
    | 1 => [("1".toList, 2), ("0".toList, 3)]
    | _ => []⟩, by decide +kernel, by decide +kernel, by decide +kernel⟩

end Verif.Props
