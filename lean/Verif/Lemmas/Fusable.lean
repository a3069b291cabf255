import Verif.Model.Fusable
import Mathlib.Data.List.Basic
import Mathlib.Data.List.Count
import Mathlib.Data.List.Induction
import Mathlib.Data.List.GetD
import Mathlib.Tactic.Common

/-! Lemmas for C85. -/

namespace Verif.Lemmas.Fusable

open Verif.Spec.FuseNet Verif.Model.Fusable

/-! The dictionary of rules. -/

def accept : Trie → List String → Prop
  | _, [] => False
  | t, k :: ks =>
    match t.find k with
    | none => False
    | some (f, c) => if ks = [] then f = true else accept c ks

theorem find_update (t : Trie) (k : String) (f : Bool → Trie → Bool × Trie) (x : String) :
    (t.update k f).find x = if x = k then some (f ((t.find k).getD (false, .nil)).1 ((t.find k).getD (false, .nil)).2) else t.find x := by
  induction t with
  | nil => by_cases h : x = k <;> simp [Trie.update, Trie.find, h]
  | cons k' b c r _ ihr =>
    by_cases hk : k = k'
    · subst hk
      by_cases h : x = k <;> simp [Trie.update, Trie.find, h]
    · by_cases h : x = k
      · subst h
        simp [Trie.update, Trie.find, hk, ihr]
      · by_cases hx : x = k'
        · subst hx
          simp [Trie.update, Trie.find, hk, h]
        · simp [Trie.update, Trie.find, hk, h, hx, ihr]

theorem find_insert (t : Trie) (k : String) (ks : List String) (x : String) :
    (t.insert (k :: ks)).find x =
      if x = k then some (((t.find k).getD (false, .nil)).1 || ks.isEmpty, ((t.find k).getD (false, .nil)).2.insert ks) else t.find x := by
  simp only [Trie.insert, find_update]

theorem insert_nil (t : Trie) : t.insert [] = t := rfl

theorem accept_nil (ks : List String) : ¬ accept .nil ks := by
  cases ks <;> simp [accept, Trie.find]

theorem accept_insert (ks : List String) : ∀ (t : Trie) (r : List String), accept (t.insert r) ks ↔ accept t ks ∨ (r = ks ∧ r ≠ []) := by
  induction ks with
  | nil => intro t r; simp only [accept, false_or, ne_eq, false_iff, not_and, not_not]; exact id
  | cons k ks ih =>
    intro t r
    cases r with
    | nil => simp [insert_nil]
    | cons k' r =>
      simp only [accept, find_insert]
      by_cases hk : k = k'
      · subst hk
        simp only [if_true]
        cases hf : t.find k with
        | none =>
          simp only [Option.getD_none, Bool.false_or]
          by_cases hks : ks = []
          · subst hks; cases r <;> simp
          · simp only [if_neg hks, ih]
            simp only [accept_nil, false_or]
            constructor
            · rintro ⟨rfl, _⟩; simp
            · rintro ⟨h, _⟩; simp only [List.cons.injEq, true_and] at h; subst h; exact ⟨rfl, hks⟩
        | some p =>
          obtain ⟨f, c⟩ := p
          simp only [Option.getD_some]
          by_cases hks : ks = []
          · subst hks; cases r <;> simp
          · simp only [if_neg hks, ih]
            constructor
            · rintro (h | ⟨rfl, _⟩)
              · exact Or.inl h
              · right; simp
            · rintro (h | ⟨h, _⟩)
              · exact Or.inl h
              · simp only [List.cons.injEq, true_and] at h; subst h; exact Or.inr ⟨rfl, hks⟩
      · simp only [if_neg hk, List.cons.injEq]
        constructor
        · exact Or.inl
        · rintro (h | ⟨⟨h, _⟩, _⟩)
          · exact h
          · exact absurd h.symm hk

theorem accept_foldl (rules : List (List String)) : ∀ (t : Trie) (ks : List String),
    accept (rules.foldl (fun t r => t.insert r.reverse) t) ks ↔ accept t ks ∨ (ks.reverse ∈ rules ∧ ks ≠ []) := by
  induction rules with
  | nil => simp
  | cons r rs ih =>
    intro t ks
    simp only [List.foldl_cons, ih, accept_insert, List.mem_cons]
    constructor
    · rintro ((h | ⟨rfl, h⟩) | h)
      · exact Or.inl h
      · right; simpa using h
      · exact Or.inr ⟨Or.inr h.1, h.2⟩
    · rintro (h | ⟨h | h, h'⟩)
      · exact Or.inl (Or.inl h)
      · left; right; subst h; simpa using h'
      · exact Or.inr ⟨h, h'⟩

theorem accept_getDict (rules : List (List String)) (ks : List String) : accept (getDict rules) ks ↔ ks.reverse ∈ rules ∧ ks ≠ [] := by
  unfold getDict; rw [accept_foldl]; simp [accept_nil]

/-- No rule mentions `nn.Identity`. -/
def NoId : Trie → Prop
  | .nil => True
  | .cons k _ c r => k ≠ "Identity" ∧ NoId c ∧ NoId r

theorem noId_find {t : Trie} (h : NoId t) {x f c} (hf : t.find x = some (f, c)) : x ≠ "Identity" ∧ NoId c := by
  induction t with
  | nil => simp [Trie.find] at hf
  | cons k f' c' r _ ihr =>
    simp only [Trie.find] at hf
    split at hf
    · rename_i hx
      cases hf; exact ⟨hx ▸ h.1, h.2.1⟩
    · exact ihr h.2.2 hf

theorem noId_update {k : String} {f : Bool → Trie → Bool × Trie} (hk : k ≠ "Identity") (hf : ∀ b c, NoId c → NoId (f b c).2) : ∀ t, NoId t → NoId (t.update k f) := by
  intro t
  induction t with
  | nil => intro h; exact ⟨hk, hf _ _ h, trivial⟩
  | cons k' b c r _ ihr =>
    intro h
    simp only [Trie.update]
    split
    · exact ⟨h.1, hf _ _ h.2.1, h.2.2⟩
    · exact ⟨h.1, h.2.1, ihr h.2.2⟩

theorem noId_insert (ks : List String) : ∀ t, NoId t → "Identity" ∉ ks → NoId (t.insert ks) := by
  induction ks with
  | nil => intro t h _; rwa [insert_nil]
  | cons k ks ih =>
    intro t h hk
    simp only [List.mem_cons, not_or] at hk
    exact noId_update (Ne.symm hk.1) (fun b c hc => ih c hc hk.2) t h

theorem noId_foldl (rules : List (List String)) : ∀ t, NoId t → (∀ r ∈ rules, "Identity" ∉ r) →
    NoId (rules.foldl (fun t r => t.insert r.reverse) t) := by
  induction rules with
  | nil => intro t h _; exact h
  | cons r rs ih =>
    intro t h hr
    exact ih _ (noId_insert _ _ h (by simpa using hr r (by simp))) (fun r' h' => hr r' (by simp [h']))

theorem noId_getDict {rules : List (List String)} (h : ∀ r ∈ rules, "Identity" ∉ r) : NoId (getDict rules) :=
  noId_foldl rules _ trivial h

/-! The walk. -/

theorem accept_some {t : Trie} {k f c} (h : t.find k = some (f, c)) : accept t [k] ↔ f = true := by
  simp [accept, h]

theorem accept_cons {t : Trie} {k f c ks} (h : t.find k = some (f, c)) (hk : ks ≠ []) : accept t (k :: ks) ↔ accept c ks := by
  simp [accept, h, hk]

theorem Back.ne_nil {g used i ks as} (h : Back g used i ks as) : ks ≠ [] ∧ as ≠ [] := by
  induction h with
  | stop => simp
  | step => simp
  | skip _ _ _ _ _ _ ih => exact ih

theorem walk_sound (g : Net) (used : List String) : ∀ (fuel i : Nat) (t : Trie) (names final : List String), NoId t →
    walk g used fuel i t names final = [] ∨ walk g used fuel i t names final = final ∨
      ∃ ks as, Back g used i ks as ∧ accept t ks ∧ walk g used fuel i t names final = names ++ as := by
  intro fuel
  induction fuel with
  | zero => intros; right; left; rfl
  | succ fuel ih =>
    intro i t names final hid
    unfold walk
    split
    · right; left; rfl
    · rename_i n hn
      split
      · right; left; rfl
      · rename_i hq
        have hq' : n.quantized = true := by simpa using hq
        split
        · rename_i state t' hf
          split
          · right; left; rfl
          · rename_i hu
            split
            · right; left; rfl
            · rename_i hp
              have hk := (noId_find hid hf).1
              have stop : Back g used i [n.kind] [n.name] := .stop hn hq' hu hk hp
              dsimp only
              split
              · rename_i p hp1
                rcases ih p t' (names ++ [n.name]) (if state = true then names ++ [n.name] else final) (noId_find hid hf).2 with h | h | ⟨ks, as, hb, ha, h⟩
                · left; exact h
                · by_cases hs : state = true
                  · simp only [hs, if_true] at h ⊢
                    right; right
                    exact ⟨_, _, stop, (accept_some hf).2 hs, h⟩
                  · simp only [hs] at h ⊢
                    right; left; exact h
                · right; right
                  refine ⟨_, _, .step hn hq' hu hk hp1 hb, (accept_cons hf (Back.ne_nil hb).1).2 ha, ?_⟩
                  rw [h]; simp
              · by_cases hs : state = true
                · right; right
                  refine ⟨_, _, stop, (accept_some hf).2 hs, by simp [hs]⟩
                · right; left; simp [hs]
        · split
          · rename_i hk
            split
            · right; left; rfl
            · rename_i hu
              split
              · rename_i p hp1
                rcases ih p t names final hid with h | h | ⟨ks, as, hb, ha, h⟩
                · left; exact h
                · right; left; exact h
                · right; right
                  exact ⟨ks, as, .skip hn hq' hu hk hp1 hb, ha, h⟩
              · right; left; rfl
          · split
            · left; rfl
            · right; left; rfl

/-- The exception for a `ConvTranspose2d` in front of a batch norm and a ReLU. -/
def Exc (g : Net) : Prop := ∃ j n m, g[j]? = some n ∧ n.kind = "ConvTranspose2d" ∧ nextKinds g m j = ["BatchNorm2d", "ReLU"]

theorem walk_mono (g : Net) (used : List String) : ∀ (fuel i : Nat) (t : Trie) (names final : List String), final.length ≤ names.length →
    Exc g ∨ final.length ≤ (walk g used fuel i t names final).length := by
  intro fuel
  induction fuel with
  | zero => intros; right; exact Nat.le_refl _
  | succ fuel ih =>
    intro i t names final hl
    unfold walk
    split
    · right; exact Nat.le_refl _
    · rename_i n hn
      split
      · right; exact Nat.le_refl _
      · split
        · rename_i state t' hf
          have hl' : (if state = true then names ++ [n.name] else final).length ≤ (names ++ [n.name]).length := by
            split
            · exact Nat.le_refl _
            · simp; omega
          have hl2 : final.length ≤ (if state = true then names ++ [n.name] else final).length := by
            split
            · simp; omega
            · exact Nat.le_refl _
          split
          · right; exact Nat.le_refl _
          · split
            · right; exact Nat.le_refl _
            · dsimp only
              split
              · rename_i p hp1
                rcases ih p t' _ _ hl' with h | h
                · left; exact h
                · right; omega
              · right; exact hl2
        · split
          · split
            · right; exact Nat.le_refl _
            · split
              · exact ih _ _ _ _ hl
              · right; exact Nat.le_refl _
          · split
            · rename_i h
              left; exact ⟨i, n, _, hn, h.1, h.2.2⟩
            · right; exact Nat.le_refl _

theorem walk_longest {g : Net} {used : List String} (ho : g.Ordered) {i ks as} (h : Back g used i ks as) :
    ∀ (fuel : Nat) (t : Trie) (names final : List String), i < fuel → NoId t → accept t ks → final.length ≤ names.length →
    Exc g ∨ names.length + as.length ≤ (walk g used fuel i t names final).length := by
  induction h with
  | @stop i n hn hq hu hk hp =>
    intro fuel t names final hfu hid ha hl
    obtain ⟨fuel, rfl⟩ : ∃ m, fuel = m + 1 := ⟨fuel - 1, by omega⟩
    unfold walk
    simp only [hn, hq, Bool.not_true, Bool.false_eq_true, if_false]
    cases hf : t.find n.kind with
    | none => simp [accept, hf] at ha
    | some p =>
      obtain ⟨state, t'⟩ := p
      have hs := (accept_some hf).1 ha
      simp only [hu, hp, if_false, hs, if_true]
      split
      · rename_i p hp1
        rcases walk_mono g used fuel p t' (names ++ [n.name]) (names ++ [n.name]) (Nat.le_refl _) with h | h
        · exact Or.inl h
        · right; simpa using h
      · right; simp
  | @step i n p ks as hn hq hu hk hp1 hb ih =>
    intro fuel t names final hfu hid ha hl
    obtain ⟨fuel, rfl⟩ : ∃ m, fuel = m + 1 := ⟨fuel - 1, by omega⟩
    unfold walk
    simp only [hn, hq, Bool.not_true, Bool.false_eq_true, if_false]
    cases hf : t.find n.kind with
    | none => simp [accept, hf] at ha
    | some pr =>
      obtain ⟨state, t'⟩ := pr
      have ha' := (accept_cons hf (Back.ne_nil hb).1).1 ha
      have hpi := ho i n hn p (by simp [hp1])
      simp only [hu, hp1, if_false, List.cons_ne_nil]
      have hl' : (if state = true then names ++ [n.name] else final).length ≤ (names ++ [n.name]).length := by
        split
        · exact Nat.le_refl _
        · simp; omega
      rcases ih fuel t' _ _ (by omega) (noId_find hid hf).2 ha' hl' with h | h
      · exact Or.inl h
      · right; simp only [List.length_append, List.length_cons, List.length_nil] at h ⊢; omega
  | @skip i n p ks as hn hq hu hk hp1 hb ih =>
    intro fuel t names final hfu hid ha hl
    obtain ⟨fuel, rfl⟩ : ∃ m, fuel = m + 1 := ⟨fuel - 1, by omega⟩
    unfold walk
    simp only [hn, hq, Bool.not_true, Bool.false_eq_true, if_false]
    have hpi := ho i n hn p (by simp [hp1])
    cases hf : t.find n.kind with
    | some pr => exact absurd hk (noId_find hid (by rw [hf])).1
    | none =>
      simp only [hk, hu, hp1, if_false, if_true]
      exact ih fuel t names final (by omega) hid ha hl

/-! Running the network. -/

variable {V : Type} [Inhabited V]

def val (g : Net) (sem : String → List V → V) (i : Nat) : V := (g.eval sem).getD i default

theorem eval_append (g : Net) (n : Node) (sem : String → List V → V) :
    Net.eval (g ++ [n]) sem = g.eval sem ++ [sem n.name (n.prev.map (val g sem))] := by
  simp only [Net.eval, List.foldl_append, List.foldl_cons, List.foldl_nil]; rfl

theorem eval_length (g : Net) (sem : String → List V → V) : (g.eval sem).length = g.length := by
  induction g using List.reverseRecOn with
  | nil => rfl
  | append_singleton g n ih => rw [eval_append]; simp [ih]

theorem ordered_append {g : Net} {n : Node} (h : Net.Ordered (g ++ [n])) : g.Ordered ∧ ∀ p ∈ n.prev, p < g.length := by
  constructor
  · intro i m hm
    exact h i m (by rw [List.getElem?_append_left (List.getElem?_eq_some_iff.1 hm).1]; exact hm)
  · exact h g.length n (by simp)

theorem val_append {g : Net} {n : Node} {sem : String → List V → V} {i : Nat} (hi : i < g.length) : val (g ++ [n]) sem i = val g sem i := by
  unfold val
  rw [eval_append, List.getD_append]
  rwa [eval_length]

theorem val_eq {g : Net} (ho : g.Ordered) (sem : String → List V → V) {i : Nat} {n : Node} (hn : g[i]? = some n) :
    val g sem i = sem n.name (n.prev.map (val g sem)) := by
  induction g using List.reverseRecOn with
  | nil => simp at hn
  | append_singleton g m ih =>
    obtain ⟨ho', hp⟩ := ordered_append ho
    have hmap : ∀ l : List Nat, (∀ p ∈ l, p < g.length) → l.map (val (g ++ [m]) sem) = l.map (val g sem) := by
      intro l hl
      exact List.map_congr_left (fun p h => val_append (hl p h))
    by_cases hi : i < g.length
    · rw [List.getElem?_append_left hi] at hn
      rw [val_append hi, ih ho' hn, hmap]
      intro p h
      exact Nat.lt_trans (ho' i n hn p h) hi
    · have hi' : i = g.length := by
        have := (List.getElem?_eq_some_iff.1 hn).1
        simp at this; omega
      subst hi'
      simp only [List.getElem?_concat_length, Option.some.injEq] at hn
      subst hn
      rw [hmap _ hp]
      show (Net.eval (g ++ [m]) sem).getD g.length default = _
      rw [eval_append, List.getD_append_right _ _ _ _ (Nat.le_of_eq (eval_length _ _)), eval_length, Nat.sub_self]
      rfl

/-! Counting. -/

theorem count_two {α β : Type} [DecidableEq β] (f : α → List β) (b : β) : ∀ (l : List α) (i j : Nat) (x y : α), l[i]? = some x → l[j]? = some y → b ∈ f x → b ∈ f y →
    i < j → 2 ≤ (l.flatMap f).count b := by
  intro l
  induction l with
  | nil => intro i j x y hx; simp at hx
  | cons a l ih =>
    intro i j x y hx hy hbx hby hij
    cases j with
    | zero => omega
    | succ j =>
      simp only [List.flatMap_cons, List.count_append]
      simp only [List.getElem?_cons_succ] at hy
      cases i with
      | zero =>
        simp only [List.getElem?_cons_zero, Option.some.injEq] at hx
        subst hx
        have h1 : 0 < (f a).count b := List.count_pos_iff.2 hbx
        have h2 : 0 < (l.flatMap f).count b := List.count_pos_iff.2 (List.mem_flatMap.2 ⟨y, List.mem_of_getElem? hy, hby⟩)
        omega
      | succ i =>
        have := ih i j x y (by simpa using hx) hy hbx hby (by omega)
        omega

theorem reader_unique {g : Net} {p i j : Nat} {n m : Node} (h : g.readers p = 1) (hn : g[i]? = some n) (hm : g[j]? = some m)
    (hpn : p ∈ n.prev) (hpm : p ∈ m.prev) : i = j := by
  unfold Net.readers at h
  rcases Nat.lt_trichotomy i j with hl | hl | hl
  · have := count_two Node.prev p g i j n m hn hm hpn hpm hl; omega
  · exact hl
  · have := count_two Node.prev p g j i m n hm hn hpm hpn hl; omega

theorem use_unique {g : Net} {a : String} {i j : Nat} {n m : Node} (h : g.uses a = 1) (hn : g[i]? = some n) (hm : g[j]? = some m)
    (han : n.name = a) (ham : m.name = a) : i = j := by
  have hu : g.uses a = (List.flatMap (fun n : Node => [n.name]) g).count a := by
    unfold Net.uses
    congr 1
    clear h hn hm
    induction g with
    | nil => rfl
    | cons x l ih => simp [ih]
  rw [hu] at h
  rcases Nat.lt_trichotomy i j with hl | hl | hl
  · have := count_two (fun n : Node => [n.name]) a g i j n m hn hm (by simp [han]) (by simp [ham]) hl; omega
  · exact hl
  · have := count_two (fun n : Node => [n.name]) a g j i m n hm hn (by simp [ham]) (by simp [han]) hl; omega

/-! The nodes of a run. -/

inductive Path (g : Net) (h : Nat) : List Nat → List String → Prop
  | single : Path g h [h] []
  | mod {i n p ps as} : g[i]? = some n → n.kind ≠ "Identity" → n.prev = [p] → Path g h (p :: ps) as → Path g h (i :: p :: ps) (n.name :: as)
  | ident {i n p ps as} : g[i]? = some n → n.kind = "Identity" → n.prev = [p] → Path g h (p :: ps) as → Path g h (i :: p :: ps) as

theorem back_path {g : Net} {used i ks as} (hb : Back g used i ks as) :
    ∃ h nh ps as', g[h]? = some nh ∧ nh.kind ≠ "Identity" ∧ Path g h (i :: ps) as' ∧ as = as' ++ [nh.name] := by
  induction hb with
  | @stop i n hn _ _ hk _ => exact ⟨i, n, [], [], hn, hk, .single, rfl⟩
  | step hn _ _ hk hp _ ih =>
    obtain ⟨h, nh, ps, as', hh, hkh, hpath, rfl⟩ := ih
    exact ⟨h, nh, _, _, hh, hkh, .mod hn hk hp hpath, rfl⟩
  | skip hn _ _ hk hp _ ih =>
    obtain ⟨h, nh, ps, as', hh, hkh, hpath, rfl⟩ := ih
    exact ⟨h, nh, _, _, hh, hkh, .ident hn hk hp hpath, rfl⟩

/-- Leading identities can be left out. -/
theorem path_trim {g : Net} {h ps as} (hp : Path g h ps as) :
    ∃ i ps', Path g h (i :: ps') as ∧ (as = [] → ps' = []) ∧
      ∀ a as', as = a :: as' → ∃ n : Node, g[i]? = some n ∧ n.kind ≠ "Identity" := by
  induction hp with
  | single => exact ⟨h, [], .single, fun _ => rfl, fun _ _ he => nomatch he⟩
  | @mod i n p ps as hn hk hp1 hp _ => exact ⟨i, p :: ps, .mod hn hk hp1 hp, fun he => (nomatch he), fun _ _ _ => ⟨n, hn, hk⟩⟩
  | ident _ _ _ _ ih => exact ih

theorem path_ge {g : Net} (ho : g.Ordered) {h ps as} (hp : Path g h ps as) : ∀ j ∈ ps, h ≤ j := by
  induction hp with
  | single => simp
  | @mod i n p ps as hn _ hp1 _ ih =>
    intro j hj
    rcases List.mem_cons.1 hj with rfl | hj
    · have := ho j n hn p (by simp [hp1]); have := ih p (by simp); omega
    · exact ih j hj
  | @ident i n p ps as hn _ hp1 _ ih =>
    intro j hj
    rcases List.mem_cons.1 hj with rfl | hj
    · have := ho j n hn p (by simp [hp1]); have := ih p (by simp); omega
    · exact ih j hj

theorem path_prev {g : Net} {h ps as} (hp : Path g h ps as) : ∀ j ∈ ps, j ≠ h →
    ∃ n p, g[j]? = some n ∧ n.prev = [p] ∧ p ∈ ps ∧ (n.name ∈ as ∨ n.kind = "Identity") := by
  induction hp with
  | single => intro j hj hne; simp at hj; exact absurd hj hne
  | @mod i n p ps as hn _ hp1 _ ih =>
    intro j hj hne
    rcases List.mem_cons.1 hj with rfl | hj
    · exact ⟨n, p, hn, hp1, by simp, Or.inl (by simp)⟩
    · obtain ⟨n', p', h1, h2, h3, h4⟩ := ih j hj hne
      exact ⟨n', p', h1, h2, List.mem_cons_of_mem _ h3, h4.imp (List.mem_cons_of_mem _) id⟩
  | @ident i n p ps as hn hk hp1 _ ih =>
    intro j hj hne
    rcases List.mem_cons.1 hj with rfl | hj
    · exact ⟨n, p, hn, hp1, by simp, Or.inr hk⟩
    · obtain ⟨n', p', h1, h2, h3, h4⟩ := ih j hj hne
      exact ⟨n', p', h1, h2, List.mem_cons_of_mem _ h3, h4⟩

theorem path_name {g : Net} {h ps as} (hp : Path g h ps as) : ∀ a ∈ as, ∃ q n, q ∈ ps ∧ g[q]? = some n ∧ n.name = a := by
  induction hp with
  | single => simp
  | @mod i n p ps as hn _ _ _ ih =>
    intro a ha
    rcases List.mem_cons.1 ha with rfl | ha
    · exact ⟨i, n, by simp, hn, rfl⟩
    · obtain ⟨q, m, h1, h2, h3⟩ := ih a ha
      exact ⟨q, m, List.mem_cons_of_mem _ h1, h2, h3⟩
  | ident _ _ _ _ ih =>
    intro a ha
    obtain ⟨q, m, h1, h2, h3⟩ := ih a ha
    exact ⟨q, m, List.mem_cons_of_mem _ h1, h2, h3⟩

/-- Every node of the run but the last is read by a node of the run. -/
theorem path_reader {g : Net} {h ps as} (hp : Path g h ps as) : ∀ q ∈ ps.tail, ∃ j n, j ∈ ps ∧ g[j]? = some n ∧ n.prev = [q] := by
  induction hp with
  | single => simp
  | @mod i n p ps as hn _ hp1 _ ih =>
    intro q hq
    rcases List.mem_cons.1 hq with rfl | hq
    · exact ⟨i, n, by simp, hn, hp1⟩
    · obtain ⟨j, m, h1, h2, h3⟩ := ih q hq
      exact ⟨j, m, List.mem_cons_of_mem _ h1, h2, h3⟩
  | @ident i n p ps as hn _ hp1 _ ih =>
    intro q hq
    rcases List.mem_cons.1 hq with rfl | hq
    · exact ⟨i, n, by simp, hn, hp1⟩
    · obtain ⟨j, m, h1, h2, h3⟩ := ih q hq
      exact ⟨j, m, List.mem_cons_of_mem _ h1, h2, h3⟩

theorem path_val {g : Net} (ho : g.Ordered) {sem : String → List V → V} (hid : g.IdentityOk sem) {h ps as} (hp : Path g h ps as) :
    ∀ i ps', ps = i :: ps' → val g sem i = as.reverse.foldl (fun v b => sem b [v]) (val g sem h) := by
  induction hp with
  | single => intro i ps' he; cases he; rfl
  | @mod i n p ps as hn _ hp1 _ ih =>
    intro i' ps' he
    cases he
    rw [val_eq ho sem hn, hp1, List.reverse_cons, List.foldl_append]
    simp only [List.map_cons, List.map_nil, List.foldl_cons, List.foldl_nil]
    rw [ih p ps rfl]
  | @ident i n p ps as hn hk hp1 _ ih =>
    intro i' ps' he
    cases he
    rw [val_eq ho sem hn, hp1]
    simp only [List.map_cons, List.map_nil]
    rw [hid n (List.mem_of_getElem? hn) hk, ih p ps rfl]

theorem fuse_step {g : Net} (ho : g.Ordered) {sem : String → List V → V} (hid : g.IdentityOk sem) {h : Nat} {nh : Node} {i ps as} (hh : g[h]? = some nh)
    (hp : Path g h (i :: ps) as) (huse : ∀ b ∈ nh.name :: as, g.uses b = 1) (hread : ∀ q ∈ ps, g.readers q = 1) :
    ∀ j, j < g.length → val g (fuse sem (nh.name :: as.reverse)) j = if j ∈ i :: ps then val g sem i else val g sem j := by
  intro j
  induction j using Nat.strongRecOn with
  | _ j ih =>
    intro hj
    obtain ⟨n, hn⟩ : ∃ n, g[j]? = some n := ⟨g[j], List.getElem?_eq_getElem hj⟩
    rw [val_eq ho _ hn]
    have hprev := ho j n hn
    by_cases hjh : j = h
    · subst hjh
      rw [hh] at hn; cases hn
      have hmem : j ∈ i :: ps := by
        have : ∀ {ps as}, Path g j ps as → j ∈ ps := by
          intro ps as hp
          induction hp with
          | single => simp
          | mod _ _ _ _ ih => exact List.mem_cons_of_mem _ ih
          | ident _ _ _ _ ih => exact List.mem_cons_of_mem _ ih
        exact this hp
      rw [if_pos hmem, path_val ho hid hp i ps rfl, val_eq ho sem hh]
      simp only [fuse, if_true]
      congr 2
      apply List.map_congr_left
      intro p hpn
      have hlt := hprev p hpn
      rw [ih p hlt (Nat.lt_trans hlt hj), if_neg]
      intro hmem
      have := path_ge ho hp p hmem
      omega
    · by_cases hjp : j ∈ i :: ps
      · obtain ⟨n', p, hn', hp1, hpm, hname⟩ := path_prev hp j hjp hjh
        rw [hn] at hn'; cases hn'
        have hlt := hprev p (by simp [hp1])
        rw [hp1, if_pos hjp]
        simp only [List.map_cons, List.map_nil]
        rw [ih p hlt (Nat.lt_trans hlt hj), if_pos hpm]
        have hne : n.name ≠ nh.name := fun he => hjh (use_unique (huse nh.name (by simp)) hn hh he rfl)
        simp only [fuse, if_neg hne, List.mem_reverse]
        split
        · rfl
        · rename_i hna
          rcases hname with h' | h'
          · exact absurd h' hna
          · exact hid n (List.mem_of_getElem? hn) h' _
      · rw [if_neg hjp]
        have hne : n.name ≠ nh.name := fun he => hjh (use_unique (huse nh.name (by simp)) hn hh he rfl)
        have hna : n.name ∉ as := by
          intro ha
          obtain ⟨q, m, hq, hm, hmn⟩ := path_name hp _ ha
          have := use_unique (huse n.name (by simp [ha])) hn hm rfl hmn
          subst this; exact hjp hq
        simp only [fuse, if_neg hne, List.mem_reverse, if_neg hna]
        rw [val_eq ho sem hn]
        congr 1
        apply List.map_congr_left
        intro p hpn
        have hlt := hprev p hpn
        rw [ih p hlt (Nat.lt_trans hlt hj)]
        split
        · rename_i hpm
          rcases List.mem_cons.1 hpm with rfl | hps
          · rfl
          · obtain ⟨q, m, hq, hm, hmp⟩ := path_reader hp p (by simpa using hps)
            have := reader_unique (hread p hps) hn hm hpn (by simp [hmp])
            subst this; exact absurd hq hjp
        · rfl

theorem identityOk_fuse {g : Net} {sem : String → List V → V} (hid : g.IdentityOk sem) {h : Nat} {nh : Node} {cs} (hh : g[h]? = some nh) (hk : nh.kind ≠ "Identity")
    (huse : g.uses nh.name = 1) : g.IdentityOk (fuse sem (nh.name :: cs)) := by
  intro n hn hkn v
  obtain ⟨j, hj⟩ := List.getElem?_of_mem hn
  have hne : n.name ≠ nh.name := by
    intro he
    have := use_unique huse hj hh he rfl
    subst this; rw [hh] at hj; cases hj; exact hk hkn
  simp only [fuse, if_neg hne]
  split
  · rfl
  · exact hid n hn hkn v

theorem path_all_inner {g : Net} {h : Nat} {nh : Node} {ps as} (hh : g[h]? = some nh) (hp : Path g h ps as) (c : List String)
    (hc : nh.name ∈ c.dropLast) (ha : ∀ a ∈ as, a ∈ c.dropLast) : ∀ q ∈ ps, Inner g c q := by
  induction hp with
  | single => intro q hq; simp at hq; subst hq; exact .mod hh hc
  | @mod i n p ps as hn _ hp1 _ ih =>
    intro q hq
    rcases List.mem_cons.1 hq with rfl | hq
    · exact .mod hn (ha _ (by simp))
    · exact ih (fun a h => ha a (List.mem_cons_of_mem _ h)) q hq
  | @ident i n p ps as hn hk hp1 _ ih =>
    intro q hq
    rcases List.mem_cons.1 hq with rfl | hq
    · exact .ident hn hk hp1 (ih ha p (by simp))
    · exact ih ha q hq

theorem path_tail_inner {g : Net} {h : Nat} {nh : Node} {i ps as} (hh : g[h]? = some nh) (hp : Path g h (i :: ps) as)
    (hs : as = [] → ps = []) (hne : ∀ a as', as = a :: as' → ∃ n : Node, g[i]? = some n ∧ n.kind ≠ "Identity") :
    ∀ q ∈ ps, Inner g (nh.name :: as.reverse) q := by
  cases hp with
  | single => simp
  | @mod _ n p ps as hn hk hp1 hp =>
    apply path_all_inner hh hp
    · simp [List.dropLast_cons_of_ne_nil]
    · intro a ha
      simp only [List.reverse_cons]
      rw [← List.cons_append, List.dropLast_concat]
      simp [ha]
  | @ident _ n p ps as hn hk hp1 hp =>
    cases as with
    | nil => cases hs rfl
    | cons a as =>
      obtain ⟨m, hm, hmk⟩ := hne a as rfl
      rw [hn] at hm; cases hm; exact absurd hk hmk

/-! The whole search. -/

theorem Back.mono {g : Net} {used used' : List String} {i ks as} (hb : Back g used' i ks as) (h : ∀ a ∈ used, a ∈ used') : Back g used i ks as := by
  induction hb with
  | stop hn hq hu hk hp => exact .stop hn hq (fun h' => hu (h _ h')) hk hp
  | step hn hq hu hk hp _ ih => exact .step hn hq (fun h' => hu (h _ h')) hk hp ih
  | skip hn hq hu hk hp _ ih => exact .skip hn hq (fun h' => hu (h _ h')) hk hp ih

theorem Back.unused {g : Net} {used : List String} {i ks as} (hb : Back g used i ks as) : ∀ a ∈ as, a ∉ used := by
  induction hb with
  | stop _ _ hu _ _ => intro a ha; simp at ha; subst ha; exact hu
  | step _ _ hu _ _ _ ih => intro a ha; rcases List.mem_cons.1 ha with rfl | ha; exacts [hu, ih a ha]
  | skip _ _ _ _ _ _ ih => exact ih

theorem isFusable_sound {g : Net} {used : List String} {t : Trie} (hid : NoId t) {i : Nat} (h : isFusable g used t i ≠ []) :
    ∃ ks, Back g used i ks (isFusable g used t i).reverse ∧ accept t ks := by
  unfold isFusable at h ⊢
  simp only [List.reverse_reverse]
  rcases walk_sound g used (i + 1) i t [] [] hid with h' | h' | ⟨ks, as, hb, ha, h'⟩
  · simp [h'] at h
  · simp [h'] at h
  · rw [h']; exact ⟨ks, hb, ha⟩

theorem scan_spec {g : Net} {t : Trie} (hid : NoId t) : ∀ (is : List Nat) (found : List (List String)) (used : List String),
    ∃ new, (scan g t is (found, used)).1 = found ++ new ∧ new.Pairwise List.Disjoint ∧
      ∀ c ∈ new, c ≠ [] ∧ ∃ i ∈ is, ∃ ks, Back g used i ks c.reverse ∧ accept t ks := by
  intro is
  induction is with
  | nil => intro found used; exact ⟨[], by simp [scan], List.Pairwise.nil, by simp⟩
  | cons i is ih =>
    intro found used
    simp only [scan]
    split
    · obtain ⟨new, h1, h2, h3⟩ := ih found used
      refine ⟨new, h1, h2, fun c hc => ?_⟩
      obtain ⟨hne, j, hj, rest⟩ := h3 c hc
      exact ⟨hne, j, List.mem_cons_of_mem _ hj, rest⟩
    · rename_i hne
      obtain ⟨ks, hb, ha⟩ := isFusable_sound hid hne
      obtain ⟨new, h1, h2, h3⟩ := ih (found ++ [isFusable g used t i]) (used ++ isFusable g used t i)
      refine ⟨isFusable g used t i :: new, by rw [h1]; simp, ?_, ?_⟩
      · refine List.Pairwise.cons (fun c hc => ?_) h2
        obtain ⟨_, j, _, ks', hb', _⟩ := h3 c hc
        intro a ha1 ha2
        exact Back.unused hb' a (by simpa using ha2) (by simp [ha1])
      · intro c hc
        rcases List.mem_cons.1 hc with rfl | hc
        · exact ⟨hne, i, by simp, ks, hb, ha⟩
        · obtain ⟨hne', j, hj, ks', hb', ha'⟩ := h3 c hc
          exact ⟨hne', j, List.mem_cons_of_mem _ hj, ks', Back.mono hb' (fun a h => by simp [h]), ha'⟩

/-- Where names are used up, the search misses nothing else. -/
theorem Back.of_unused {g : Net} {used : List String} {i ks as} (hb : Back g [] i ks as) (ha : ∀ a ∈ as, a ∉ used)
    (hid : ∀ n ∈ g, n.kind = "Identity" → n.name ∉ used) : Back g used i ks as := by
  induction hb with
  | stop hn hq _ hk hp => exact .stop hn hq (ha _ (by simp)) hk hp
  | step hn hq _ hk hp _ ih => exact .step hn hq (ha _ (by simp)) hk hp (ih (fun a h => ha a (by simp [h])))
  | skip hn hq _ hk hp _ ih => exact .skip hn hq (hid _ (List.mem_of_getElem? hn) hk) hk hp (ih ha)

theorem Back.names {g : Net} {used : List String} {i ks as} (hb : Back g used i ks as) :
    ∀ a ∈ as, ∃ n ∈ g, n.name = a ∧ n.kind ≠ "Identity" := by
  induction hb with
  | stop hn _ _ hk _ => intro a ha; simp at ha; subst ha; exact ⟨_, List.mem_of_getElem? hn, rfl, hk⟩
  | step hn _ _ hk _ _ ih =>
    intro a ha
    rcases List.mem_cons.1 ha with rfl | ha
    · exact ⟨_, List.mem_of_getElem? hn, rfl, hk⟩
    · exact ih a ha
  | skip _ _ _ _ _ _ ih => exact ih

/-- Two walks from the same node meet the same nodes. -/
theorem Back.prefix {g : Net} {used : List String} {i ks as} (hb : Back g used i ks as) : ∀ {ks' as'}, Back g used i ks' as' →
    as.head? = as'.head? ∧ (as.length ≤ as'.length → as <+: as' ∧ ks <+: ks') := by
  induction hb with
  | @stop i n hn _ _ hk _ =>
    intro ks' as' hb'
    cases hb' with
    | stop hn' => rw [hn] at hn'; cases hn'; simp
    | step hn' => rw [hn] at hn'; cases hn'; simp
    | skip hn' _ _ hk' => rw [hn] at hn'; cases hn'; exact absurd hk' hk
  | @step i n p ks as hn _ _ hk hp1 hb ih =>
    intro ks' as' hb'
    cases hb' with
    | stop hn' =>
      rw [hn] at hn'; cases hn'
      refine ⟨by simp, fun hl => ?_⟩
      have := (Back.ne_nil hb).2
      cases as with
      | nil => exact absurd rfl this
      | cons => simp at hl
    | step hn' _ _ _ hp1' hb' =>
      rw [hn] at hn'; cases hn'
      rw [hp1] at hp1'; cases hp1'
      refine ⟨by simp, fun hl => ?_⟩
      have := (ih hb').2 (by simpa using hl)
      exact ⟨List.cons_prefix_cons.2 ⟨rfl, this.1⟩, List.cons_prefix_cons.2 ⟨rfl, this.2⟩⟩
    | skip hn' _ _ hk' => rw [hn] at hn'; cases hn'; exact absurd hk' hk
  | @skip i n p ks as hn _ _ hk hp1 hb ih =>
    intro ks' as' hb'
    cases hb' with
    | stop hn' _ _ hk' => rw [hn] at hn'; cases hn'; exact absurd hk hk'
    | step hn' _ _ hk' => rw [hn] at hn'; cases hn'; exact absurd hk hk'
    | skip hn' _ _ _ hp1' hb' =>
      rw [hn] at hn'; cases hn'
      rw [hp1] at hp1'; cases hp1'
      exact ih hb'

theorem scan_complete {g : Net} (ho : g.Ordered) (hnm : g.Named) {t : Trie} (hid : NoId t) (hx : ¬ Exc g) :
    ∀ (is : List Nat) (found : List (List String)) (used : List String), (∀ a ∈ used, ∃ c ∈ found, a ∈ c) →
      (∀ a ∈ used, ∃ n ∈ g, n.name = a ∧ n.kind ≠ "Identity") →
      ∀ i ∈ is, ∀ ks as, Back g [] i ks as → accept t ks → ∃ c ∈ (scan g t is (found, used)).1, ∃ a ∈ as, a ∈ c := by
  intro is
  induction is with
  | nil => intro _ _ _ _ i hi; simp at hi
  | cons i is ih =>
    intro found used hu hun j hj ks as hb ha
    have hfound : ∀ is' found' used', ∀ c ∈ found', c ∈ (scan g t is' (found', used')).1 := by
      intro is' found' used' c hc
      obtain ⟨new, h1, _⟩ := scan_spec (g := g) hid is' found' used'
      rw [h1]; simp [hc]
    by_cases hov : ∃ a ∈ as, a ∈ used
    · obtain ⟨a, ha1, ha2⟩ := hov
      obtain ⟨c, hc, hac⟩ := hu a ha2
      exact ⟨c, hfound _ _ _ c hc, a, ha1, hac⟩
    · have hidu : ∀ n ∈ g, n.kind = "Identity" → n.name ∉ used := by
        intro n hn hk hmem
        obtain ⟨m, hm, hmn, hmk⟩ := hun _ hmem
        exact hmk ((hnm m hm n hn hmn).trans hk)
      have hb' := Back.of_unused hb (fun a h h' => hov ⟨a, h, h'⟩) hidu
      simp only [scan]
      split
      · rename_i hnil
        rcases List.mem_cons.1 hj with rfl | hj
        · exfalso
          rcases walk_longest ho hb' (j + 1) t [] [] (by omega) hid ha (by simp) with h | h
          · exact hx h
          · unfold isFusable at hnil
            have : walk g used (j + 1) j t [] [] = [] := by simpa using hnil
            rw [this] at h
            have := (Back.ne_nil hb').2
            cases as with
            | nil => exact this rfl
            | cons => simp at h
        · exact ih found used hu hun j hj ks as hb ha
      · rename_i hne
        rcases List.mem_cons.1 hj with rfl | hj
        · obtain ⟨ks', hb2, _⟩ := isFusable_sound hid hne
          refine ⟨isFusable g used t j, hfound _ _ _ _ (by simp), ?_⟩
          have hh := (Back.prefix hb' hb2).1
          have := (Back.ne_nil hb').2
          cases as with
          | nil => exact absurd rfl this
          | cons a as =>
            refine ⟨a, by simp, ?_⟩
            have : a ∈ (isFusable g used t j).reverse := by
              simp only [List.head?_cons] at hh
              exact List.mem_of_mem_head? hh.symm
            simpa using this
        · obtain ⟨ks', hb2, _⟩ := isFusable_sound hid hne
          refine ih _ _ ?_ ?_ j hj ks as hb ha
          · intro a ha'
            rcases List.mem_append.1 ha' with h | h
            · obtain ⟨c, hc, hac⟩ := hu a h
              exact ⟨c, by simp [hc], hac⟩
            · exact ⟨_, by simp, h⟩
          · intro a ha'
            rcases List.mem_append.1 ha' with h | h
            · exact hun a h
            · exact Back.names hb2 a (by simpa using h)

/-- One run found by the search can be fused. -/
theorem chain_step {g : Net} (ho : g.Ordered) {sem : String → List V → V} (hid : g.IdentityOk sem) {i ks} {c : List String}
    (hb : Back g [] i ks c.reverse) (huse : ∀ a ∈ c, g.uses a = 1) (hread : ∀ q, Inner g c q → g.readers q = 1) :
    g.IdentityOk (fuse sem c) ∧ ∀ j, ¬ Inner g c j → val g (fuse sem c) j = val g sem j := by
  obtain ⟨h, nh, ps0, as, hh, hkh, hpath, hc⟩ := back_path hb
  have hc' : c = nh.name :: as.reverse := by
    have := congrArg List.reverse hc
    simpa using this
  obtain ⟨i', ps, hp, hs, hne⟩ := path_trim hpath
  subst hc'
  have hin := path_tail_inner hh hp hs hne
  have huse' : ∀ b ∈ nh.name :: as, g.uses b = 1 := fun b hb => huse b (by simpa using hb)
  refine ⟨identityOk_fuse hid hh hkh (huse _ (by simp)), fun j hj => ?_⟩
  by_cases hl : j < g.length
  · rw [fuse_step ho hid hh hp huse' (fun q hq => hread q (hin q hq)) j hl]
    split
    · rename_i hm
      rcases List.mem_cons.1 hm with rfl | hm
      · rfl
      · exact absurd (hin j hm) hj
    · rfl
  · unfold val
    rw [List.getD_eq_default _ _ (by rw [eval_length]; omega), List.getD_eq_default _ _ (by rw [eval_length]; omega)]

theorem chains_fuse {g : Net} (ho : g.Ordered) : ∀ (cs : List (List String)) {sem : String → List V → V}, g.IdentityOk sem →
    (∀ c ∈ cs, (∃ i ks, Back g [] i ks c.reverse) ∧ (∀ a ∈ c, g.uses a = 1) ∧ ∀ q, Inner g c q → g.readers q = 1) →
    ∀ j, (∀ c ∈ cs, ¬ Inner g c j) → val g (fuseAll sem cs) j = val g sem j := by
  intro cs
  induction cs with
  | nil => intros; rfl
  | cons c cs ih =>
    intro sem hid hc j hj
    obtain ⟨⟨i, ks, hb⟩, hu, hr⟩ := hc c (by simp)
    obtain ⟨h1, h2⟩ := chain_step ho hid hb hu hr
    rw [← h2 j (hj c (by simp))]
    exact ih h1 (fun c' h => hc c' (by simp [h])) j (fun c' h => hj c' (by simp [h]))

end Verif.Lemmas.Fusable
