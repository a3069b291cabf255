import Verif.Model.CenterConstraint
import Verif.Props.MergeConstraint
import Mathlib.Data.List.Nodup
import Mathlib.Data.Nat.Cast.Basic
import Mathlib.Data.Int.Cast.Lemmas

/-!
C103.  Which channels are pruned together.
-/

namespace Verif.Props
open Verif.Model Verif.Spec Verif.Lemmas Verif.Spec.Ties Verif.Model.CenterConstraint

/-! ### `merge_constraint` -/

theorem mem_of_removeMinusOne {c : List PySet} {s : PySet} (h : s ∈ removeMinusOne c) : s ∈ c := by
  induction c with
  | nil => simp [removeMinusOne] at h
  | cons a r ih =>
    unfold removeMinusOne at h
    split at h
    · exact List.mem_cons_of_mem _ h
    · rcases List.mem_cons.1 h with h | h
      · exact h ▸ List.mem_cons_self
      · exact List.mem_cons_of_mem _ (ih h)

theorem mem_removeMinusOne {c : List PySet} {s : PySet} (h : s ∈ c) {x : ℤ} (hx : x ∈ s) (h1 : x ≠ -1) : s ∈ removeMinusOne c := by
  induction c with
  | nil => simp at h
  | cons a r ih =>
    unfold removeMinusOne
    rcases List.mem_cons.1 h with h | h
    · subst h
      rw [if_neg]
      · exact List.mem_cons_self
      · intro hh
        rw [pySetEq_iff] at hh
        exact h1 (by simpa using (hh x).1 hx)
    · split
      · exact h
      · exact List.mem_cons_of_mem _ (ih h)

theorem merged_rel {c : List PySet} (R : ℤ → ℤ → Prop) (ht : ∀ x y z, R x y → R y z → R x z) (h : ∀ s ∈ c, ∀ x ∈ s, ∀ y ∈ s, R x y) :
    ∀ s ∈ mergeConstraint c, ∀ x ∈ s, ∀ y ∈ s, R x y := by
  intro s hs x hx y hy
  have hl := ((C25_merge_constraint c).2.2.2 s hs x hx y).1 hy
  clear hx hy
  induction hl with
  | same hs hx hy => exact h _ (mem_of_removeMinusOne hs) _ hx _ hy
  | trans _ _ h1 h2 => exact ht _ _ _ h1 h2

theorem merged_mem {c : List PySet} {s : PySet} (h : s ∈ c) {x : ℤ} (hx : x ∈ s) (h1 : x ≠ -1) : ∃ B ∈ mergeConstraint c, ∀ y ∈ s, y ∈ B := by
  obtain ⟨_, _, hc, hl⟩ := C25_merge_constraint c
  have hm := mem_removeMinusOne h hx h1
  obtain ⟨B, hB, hxB⟩ := (hc x).2 ⟨s, hm, hx⟩
  exact ⟨B, hB, fun y hy => (hl B hB x hxB y).2 (.same hm hx hy)⟩

theorem merged_same {c : List PySet} {B D : PySet} (hB : B ∈ mergeConstraint c) (hD : D ∈ mergeConstraint c) {x : ℤ} (h1 : x ∈ B) (h2 : x ∈ D) (y : ℤ) :
    y ∈ B ↔ y ∈ D := by
  obtain ⟨_, _, _, hl⟩ := C25_merge_constraint c
  rw [hl B hB x h1 y, hl D hD x h2 y]

theorem merged_from {c : List PySet} {s : PySet} (h : s ∈ mergeConstraint c) {x : ℤ} (hx : x ∈ s) : ∃ r ∈ c, x ∈ r := by
  obtain ⟨_, _, hc, _⟩ := C25_merge_constraint c
  obtain ⟨r, hr, hxr⟩ := (hc x).1 ⟨s, h, hx⟩
  exact ⟨r, mem_of_removeMinusOne hr, hxr⟩

/-! ### Building lists of sets -/

theorem addSet_mem {all : List PySet} {s r : PySet} (h : r ∈ addSet all s) : r ∈ all ∨ r = s := by
  unfold addSet at h
  split at h
  · exact .inl h
  · simpa using h

theorem addSet_keeps {all : List PySet} {s r : PySet} (h : r ∈ all) : r ∈ addSet all s := by
  unfold addSet
  split
  · exact h
  · exact List.mem_append_left _ h

theorem addSet_has (all : List PySet) (s : PySet) : ∃ r ∈ addSet all s, ∀ x, x ∈ r ↔ x ∈ s := by
  unfold addSet
  split
  · next h =>
    obtain ⟨r, hr, h⟩ := List.any_eq_true.1 h
    exact ⟨r, hr, fun x => ((pySetEq_iff s r).1 h x).symm⟩
  · exact ⟨s, by simp, fun _ => Iff.rfl⟩

theorem foldAdd_mem {l all : List PySet} {r : PySet} (h : r ∈ l.foldl addSet all) : r ∈ all ∨ r ∈ l := by
  induction l generalizing all with
  | nil => exact .inl h
  | cons a l ih =>
    rcases ih h with h | h
    · rcases addSet_mem h with h | h
      · exact .inl h
      · exact .inr (h ▸ List.mem_cons_self)
    · exact .inr (List.mem_cons_of_mem _ h)

theorem foldAdd_keeps {l all : List PySet} {r : PySet} (h : r ∈ all) : r ∈ l.foldl addSet all := by
  induction l generalizing all with
  | nil => exact h
  | cons a l ih => exact ih (addSet_keeps h)

theorem foldAdd_has {l all : List PySet} {s : PySet} (h : s ∈ l) : ∃ r ∈ l.foldl addSet all, ∀ x, x ∈ r ↔ x ∈ s := by
  induction l generalizing all with
  | nil => simp at h
  | cons a l ih =>
    rcases List.mem_cons.1 h with h | h
    · subst h
      obtain ⟨r, hr, h⟩ := addSet_has all s
      exact ⟨r, foldAdd_keeps (l := l) hr, h⟩
    · exact ih h

/-! ### One leaf -/

theorem mem_centerToLeaf {l : Leaf} {c : ℕ} {x : ℤ} {i : ℕ} : i ∈ centerToLeaf l c x ↔ Feeds l c x i := by
  unfold centerToLeaf Feeds
  by_cases hx : x = -1
  · simp [hx]
  · simp only [hx, if_false, List.mem_flatMap, List.mem_filter, decide_eq_true_eq, List.mem_range, List.contains_iff_mem, ne_eq, not_false_eq_true, true_and]
    constructor
    · rintro ⟨e, ⟨he, hc⟩, t, ht, hi, hm⟩
      refine ⟨e, he, hc, t, ht, t.getD i [], ?_, hm⟩
      simp [List.getD, List.getElem?_eq_getElem hi]
    · rintro ⟨e, he, hc, t, ht, s, hs, hm⟩
      refine ⟨e, ⟨he, hc⟩, t, ht, ?_, ?_⟩
      · exact (List.getElem?_eq_some_iff.1 hs).1
      · simpa [List.getD, hs] using hm

theorem mem_leafToCenter {l : Leaf} {c : ℕ} {x : ℤ} {i : ℕ} (hx : x ≠ -1) : x ∈ leafToCenter l c i ↔ Feeds l c x i := by
  unfold leafToCenter Feeds
  simp only [List.mem_flatMap, List.mem_filter, decide_eq_true_eq, ne_eq, hx, not_false_eq_true, true_and]
  constructor
  · rintro ⟨e, ⟨he, hc⟩, t, ht, hm⟩
    refine ⟨e, he, hc, t, ht, ?_⟩
    cases h : t[i]? with
    | none => simp [List.getD, h] at hm
    | some s => exact ⟨s, rfl, by simpa [List.getD, h] using hm⟩
  · rintro ⟨e, he, hc, t, ht, s, hs, hm⟩
    exact ⟨e, ⟨he, hc⟩, t, ht, by simpa [List.getD, hs] using hm⟩

theorem feeds_any {l : Leaf} {c : ℕ} {x : ℤ} {i : ℕ} (h : Feeds l c x i) : l.any (fun d => d.1 = c) = true := by
  obtain ⟨_, e, he, hc, _⟩ := h
  exact List.any_eq_true.2 ⟨e, he, by simpa using hc⟩

/-- The positions of a set of channels. -/
def positionsOf (l : Leaf) (c : ℕ) (s : PySet) : PySet := s.flatMap fun x => (centerToLeaf l c x).map fun (i : ℕ) => (i : ℤ)

/-- The sets of positions before they are merged, with repetitions. -/
def rawSets (t : Table) (l : Leaf) : List PySet := t.flatMap fun e => if l.any (fun d => d.1 = e.1) then e.2.map (positionsOf l e.1) else []

theorem rawFold_eq (t : Table) (l : Leaf) (all : List PySet) :
    t.foldl (fun all e => if l.any (fun d => d.1 = e.1) then e.2.foldl (fun all s => addSet all (positionsOf l e.1 s)) all else all) all = (rawSets t l).foldl addSet all := by
  unfold rawSets
  induction t generalizing all with
  | nil => rfl
  | cons e t ih =>
    rw [List.foldl_cons, ih, List.flatMap_cons, List.foldl_append]
    congr 1
    split
    · rw [List.foldl_map]
    · rfl

theorem leafSets_eq (t : Table) (l : Leaf) : leafSets t l = mergeConstraint ((rawSets t l).foldl addSet []) := by
  rw [← rawFold_eq]; rfl

theorem mem_positionsOf {l : Leaf} {c : ℕ} {s : PySet} {z : ℤ} : z ∈ positionsOf l c s ↔ ∃ x ∈ s, ∃ i : ℕ, Feeds l c x i ∧ (i : ℤ) = z := by
  unfold positionsOf
  simp only [List.mem_flatMap, List.mem_map, mem_centerToLeaf]

theorem mem_rawSets {t : Table} {l : Leaf} {r : PySet} (h : r ∈ rawSets t l) : ∃ e ∈ t, ∃ s ∈ e.2, r = positionsOf l e.1 s := by
  unfold rawSets at h
  obtain ⟨e, he, h⟩ := List.mem_flatMap.1 h
  split at h
  · obtain ⟨s, hs, h⟩ := List.mem_map.1 h
    exact ⟨e, he, s, hs, h.symm⟩
  · simp at h

theorem rawSets_mem {t : Table} {l : Leaf} {e : ℕ × List PySet} {s : PySet} (he : e ∈ t) (hs : s ∈ e.2) (h : l.any (fun d => d.1 = e.1) = true) :
    positionsOf l e.1 s ∈ rawSets t l := by
  unfold rawSets
  refine List.mem_flatMap.2 ⟨e, he, ?_⟩
  rw [if_pos h]
  exact List.mem_map.2 ⟨s, hs, rfl⟩

/-- The channels at a set of positions. -/
def channelsOf (l : Leaf) (c : ℕ) (p : PySet) : PySet := (p.flatMap fun i => leafToCenter l c i.toNat).filter fun x => x ≠ -1

theorem mem_channelsOf {l : Leaf} {c : ℕ} {p : PySet} {x : ℤ} : x ∈ channelsOf l c p ↔ ∃ z ∈ p, Feeds l c x z.toNat := by
  unfold channelsOf
  simp only [List.mem_filter, List.mem_flatMap, ne_eq, decide_not, Bool.not_eq_true', decide_eq_false_iff_not]
  constructor
  · rintro ⟨⟨z, hz, h⟩, hx⟩
    exact ⟨z, hz, (mem_leafToCenter hx).1 h⟩
  · rintro ⟨z, hz, h⟩
    exact ⟨⟨z, hz, (mem_leafToCenter h.1).2 h⟩, h.1⟩

theorem backSets_eq (l : Leaf) (c : ℕ) (p : List PySet) : backSets l c p = (p.map (channelsOf l c)).foldl addSet [] := by
  unfold backSets
  rw [List.foldl_map]; rfl

/-! ### Nothing unrelated is put together -/

/-- All sets of the table are sets of connected channels. -/
def SoundTable (ls : List Leaf) (t : Table) : Prop :=
  ∀ e ∈ t, ∀ s ∈ e.2, ∀ x ∈ s, ∀ y ∈ s, Connected ls (fun _ => True) (.channel e.1 x) (.channel e.1 y)

theorem connected_feeds {ls : List Leaf} {only : ℕ → Prop} {k : ℕ} {l : Leaf} {c : ℕ} {x : ℤ} {i : ℕ} (hk : ls[k]? = some l) (ho : only k) (h : Feeds l c x i) :
    Connected ls only (.channel c x) (.position k i) := .rel _ _ (.feeds hk ho h)

theorem aggregateLeaf_sound {ls : List Leaf} {t : Table} {k : ℕ} {l : Leaf} (hk : ls[k]? = some l) (ht : SoundTable ls t) : SoundTable ls (aggregateLeaf t l) := by
  have hp : ∀ p ∈ leafSets t l, ∀ z ∈ p, ∀ w ∈ p, Connected ls (fun _ => True) (.position k z.toNat) (.position k w.toNat) := by
    rw [leafSets_eq]
    refine merged_rel (fun z w => Connected ls (fun _ => True) (.position k z.toNat) (.position k w.toNat)) (fun _ _ _ h1 h2 => .trans _ _ _ h1 h2) ?_
    intro r hr z hz w hw
    rcases foldAdd_mem hr with hr | hr
    · simp at hr
    · obtain ⟨e, he, s, hs, rfl⟩ := mem_rawSets hr
      obtain ⟨x, hx, i, hi, rfl⟩ := mem_positionsOf.1 hz
      obtain ⟨y, hy, j, hj, rfl⟩ := mem_positionsOf.1 hw
      simp only [Int.toNat_natCast]
      exact .trans _ _ _ (.symm _ _ (connected_feeds hk trivial hi)) (.trans _ _ _ (ht e he s hs x hx y hy) (connected_feeds hk trivial hj))
  intro e he
  unfold aggregateLeaf at he
  obtain ⟨d, hd, rfl⟩ := List.mem_map.1 he
  split
  · refine merged_rel (fun x y => Connected ls (fun _ => True) (.channel d.1 x) (.channel d.1 y)) (fun _ _ _ h1 h2 => .trans _ _ _ h1 h2) ?_
    intro s hs x hx y hy
    rcases List.mem_append.1 hs with hs | hs
    · exact ht d hd s hs x hx y hy
    · rw [backSets_eq] at hs
      rcases foldAdd_mem hs with hs | hs
      · simp at hs
      · obtain ⟨p, hpm, rfl⟩ := List.mem_map.1 hs
        obtain ⟨z, hz, hfz⟩ := mem_channelsOf.1 hx
        obtain ⟨w, hw, hfw⟩ := mem_channelsOf.1 hy
        exact .trans _ _ _ (connected_feeds hk trivial hfz) (.trans _ _ _ (hp p hpm z hz w hw) (.symm _ _ (connected_feeds hk trivial hfw)))
  · exact ht d hd

theorem mem_extend {c : ℕ} {sets : List PySet} {t : Table} {e : ℕ × List PySet} (he : e ∈ extend c sets t) {s : PySet} (hs : s ∈ e.2) :
    (∃ d ∈ t, d.1 = e.1 ∧ s ∈ d.2) ∨ (e.1 = c ∧ s ∈ sets) := by
  induction t with
  | nil =>
    simp only [extend, List.mem_singleton] at he
    subst he; exact .inr ⟨rfl, hs⟩
  | cons d t ih =>
    unfold extend at he
    split at he
    · next hc =>
      rcases List.mem_cons.1 he with he | he
      · subst he
        rcases List.mem_append.1 hs with hs | hs
        · exact .inl ⟨d, List.mem_cons_self, rfl, hs⟩
        · exact .inr ⟨hc, hs⟩
      · exact .inl ⟨e, List.mem_cons_of_mem _ he, rfl, hs⟩
    · rcases List.mem_cons.1 he with he | he
      · subst he; exact .inl ⟨e, List.mem_cons_self, rfl, hs⟩
      · rcases ih he with ⟨d', hd', h⟩ | h
        · exact .inl ⟨d', List.mem_cons_of_mem _ hd', h⟩
        · exact .inr h

theorem extend_keeps {c : ℕ} {sets : List PySet} {t : Table} {e : ℕ × List PySet} (he : e ∈ t) {s : PySet} (hs : s ∈ e.2) :
    ∃ d ∈ extend c sets t, d.1 = e.1 ∧ s ∈ d.2 := by
  induction t with
  | nil => simp at he
  | cons d t ih =>
    unfold extend
    split
    · rcases List.mem_cons.1 he with he | he
      · subst he; exact ⟨_, List.mem_cons_self, rfl, List.mem_append_left _ hs⟩
      · exact ⟨e, List.mem_cons_of_mem _ he, rfl, hs⟩
    · rcases List.mem_cons.1 he with he | he
      · subst he; exact ⟨_, List.mem_cons_self, rfl, hs⟩
      · obtain ⟨d', hd', h⟩ := ih he
        exact ⟨d', List.mem_cons_of_mem _ hd', h⟩

theorem extend_has (c : ℕ) {sets : List PySet} (t : Table) {s : PySet} (hs : s ∈ sets) : ∃ d ∈ extend c sets t, d.1 = c ∧ s ∈ d.2 := by
  induction t with
  | nil => exact ⟨_, List.mem_singleton.2 rfl, rfl, hs⟩
  | cons d t ih =>
    unfold extend
    split
    · next h => exact ⟨_, List.mem_cons_self, h, List.mem_append_right _ hs⟩
    · obtain ⟨d', hd', h⟩ := ih
      exact ⟨d', List.mem_cons_of_mem _ hd', h⟩

theorem extend_keys (c : ℕ) (sets : List PySet) (t : Table) (h : (t.map Prod.fst).Nodup) : ((extend c sets t).map Prod.fst).Nodup ∧ ∀ k ∈ (extend c sets t).map Prod.fst, k = c ∨ k ∈ t.map Prod.fst := by
  induction t with
  | nil => simp [extend]
  | cons d t ih =>
    rw [List.map_cons, List.nodup_cons] at h
    obtain ⟨h1, h2⟩ := ih h.2
    unfold extend
    split
    · refine ⟨by rw [List.map_cons, List.nodup_cons]; exact h, ?_⟩
      intro k hk; exact .inr hk
    · next hc =>
      constructor
      · rw [List.map_cons, List.nodup_cons]
        refine ⟨fun hm => ?_, h1⟩
        rcases h2 _ hm with hm | hm
        · exact hc hm
        · exact h.1 hm
      · intro k hk
        rw [List.map_cons, List.mem_cons] at hk
        rcases hk with hk | hk
        · exact .inr (by rw [hk]; exact List.mem_cons_self)
        · rcases h2 _ hk with hk | hk
          · exact .inl hk
          · exact .inr (List.mem_cons_of_mem _ hk)

/-- The tables of a leaf, one after the other. -/
def tables (l : Leaf) : List (ℕ × List (List ℤ)) := l.flatMap fun e => e.2.map fun t => (e.1, t)

theorem extendLeaf_eq (t : Table) (l : Leaf) : extendLeaf t l = (tables l).foldl (fun t e => extend e.1 e.2 t) t := by
  unfold extendLeaf tables
  induction l generalizing t with
  | nil => rfl
  | cons e l ih => rw [List.foldl_cons, ih, List.flatMap_cons, List.foldl_append, List.foldl_map]

theorem allTables_eq (ls : List Leaf) (t : Table) : ls.foldl extendLeaf t = (ls.flatMap tables).foldl (fun t e => extend e.1 e.2 t) t := by
  induction ls generalizing t with
  | nil => rfl
  | cons l ls ih => rw [List.foldl_cons, ih, List.flatMap_cons, List.foldl_append, extendLeaf_eq]

theorem foldExtend_from {T : List (ℕ × List (List ℤ))} {t : Table} {e : ℕ × List PySet} (he : e ∈ T.foldl (fun t e => extend e.1 e.2 t) t) {s : PySet} (hs : s ∈ e.2) :
    (∃ d ∈ t, d.1 = e.1 ∧ s ∈ d.2) ∨ ∃ d ∈ T, d.1 = e.1 ∧ s ∈ d.2 := by
  induction T generalizing t with
  | nil => exact .inl ⟨e, he, rfl, hs⟩
  | cons a T ih =>
    rcases ih he with ⟨d, hd, h1, h2⟩ | ⟨d, hd, h⟩
    · rcases mem_extend hd h2 with ⟨d', hd', h3, h4⟩ | ⟨h3, h4⟩
      · exact .inl ⟨d', hd', h3.trans h1, h4⟩
      · exact .inr ⟨a, List.mem_cons_self, h3.symm.trans h1, h4⟩
    · exact .inr ⟨d, List.mem_cons_of_mem _ hd, h⟩

theorem foldExtend_keeps {T : List (ℕ × List (List ℤ))} {t : Table} {e : ℕ × List PySet} (he : e ∈ t) {s : PySet} (hs : s ∈ e.2) :
    ∃ d ∈ T.foldl (fun t e => extend e.1 e.2 t) t, d.1 = e.1 ∧ s ∈ d.2 := by
  induction T generalizing t e with
  | nil => exact ⟨e, he, rfl, hs⟩
  | cons a T ih =>
    obtain ⟨d, hd, h1, h2⟩ := extend_keeps (c := a.1) (sets := a.2) he hs
    obtain ⟨d', hd', h3, h4⟩ := ih hd h2
    exact ⟨d', hd', h3.trans h1, h4⟩

theorem foldExtend_has {T : List (ℕ × List (List ℤ))} {t : Table} {a : ℕ × List (List ℤ)} (ha : a ∈ T) {s : PySet} (hs : s ∈ a.2) :
    ∃ d ∈ T.foldl (fun t e => extend e.1 e.2 t) t, d.1 = a.1 ∧ s ∈ d.2 := by
  induction T generalizing t with
  | nil => simp at ha
  | cons b T ih =>
    rcases List.mem_cons.1 ha with h | h
    · subst h
      obtain ⟨d, hd, h1, h2⟩ := extend_has a.1 t hs
      obtain ⟨d', hd', h3, h4⟩ := foldExtend_keeps (T := T) hd h2
      exact ⟨d', hd', h3.trans h1, h4⟩
    · exact ih h

theorem foldExtend_keys {T : List (ℕ × List (List ℤ))} {t : Table} (h : (t.map Prod.fst).Nodup) : ((T.foldl (fun t e => extend e.1 e.2 t) t).map Prod.fst).Nodup := by
  induction T generalizing t with
  | nil => exact h
  | cons a T ih => exact ih (extend_keys a.1 a.2 t h).1

theorem mem_tables {ls : List Leaf} {d : ℕ × List (List ℤ)} : d ∈ ls.flatMap tables ↔ ∃ l ∈ ls, ∃ e ∈ l, e.1 = d.1 ∧ d.2 ∈ e.2 := by
  unfold tables
  simp only [List.mem_flatMap, List.mem_map]
  constructor
  · rintro ⟨l, hl, e, he, t, ht, rfl⟩; exact ⟨l, hl, e, he, rfl, ht⟩
  · rintro ⟨l, hl, e, he, h1, h2⟩; exact ⟨l, hl, e, he, d.2, h2, by rw [h1]⟩

theorem initial_sound {ls : List Leaf} (hm : Marked ls) : SoundTable ls (initial ls) := by
  intro e he
  unfold initial at he
  rw [allTables_eq] at he
  obtain ⟨d, hd, rfl⟩ := List.mem_map.1 he
  refine merged_rel (fun x y => Connected ls (fun _ => True) (.channel d.1 x) (.channel d.1 y)) (fun _ _ _ h1 h2 => .trans _ _ _ h1 h2) ?_
  intro s hs x hx y hy
  rcases foldExtend_from hd hs with ⟨_, h, _⟩ | ⟨a, ha, h1, h2⟩
  · simp at h
  · obtain ⟨l, hl, f, hf, h3, h4⟩ := mem_tables.1 ha
    by_cases hn : (-1 : ℤ) ∈ s
    · have := hm l hl f hf a.2 h4 s h2 hn
      rw [this x hx, this y hy]
      exact .refl _
    · obtain ⟨k, hk⟩ := List.mem_iff_getElem?.1 hl
      obtain ⟨i, hi⟩ := List.mem_iff_getElem?.1 h2
      have feed : ∀ x ∈ s, Feeds l d.1 x i := fun x hx => ⟨fun h => hn (h ▸ hx), f, hf, h3.trans h1, a.2, h4, s, hi, hx⟩
      exact .trans _ _ _ (connected_feeds hk trivial (feed x hx)) (.symm _ _ (connected_feeds hk trivial (feed y hy)))

theorem foldLeaves_inv {P : Table → Prop} (ls : List Leaf) (t : Table) (h0 : P t) (h : ∀ l ∈ ls, ∀ t, P t → P (aggregateLeaf t l)) : P (ls.foldl aggregateLeaf t) := by
  induction ls generalizing t with
  | nil => exact h0
  | cons l ls ih => exact ih _ (h l List.mem_cons_self _ h0) fun l' hl' => h l' (List.mem_cons_of_mem _ hl')

/-- C103: channels that are put together are connected. -/
theorem C103_sound (ls : List Leaf) (hm : Marked ls) (c : ℕ) (x y : ℤ) (h : Together (aggregate ls) c x y) :
    Connected ls (fun _ => True) (.channel c x) (.channel c y) := by
  have hs : SoundTable ls (aggregate ls) := by
    refine foldLeaves_inv ls _ (initial_sound hm) fun l hl t ht => ?_
    obtain ⟨k, hk⟩ := List.mem_iff_getElem?.1 hl
    exact aggregateLeaf_sound hk ht
  obtain ⟨e, he, rfl, s, hs', hx, hy⟩ := h
  exact hs e he s hs' x hx y hy

/-! ### What is connected through one leaf is put together -/

theorem aggregateLeaf_keeps {t : Table} {l : Leaf} {c : ℕ} {x y : ℤ} (hx : x ≠ -1) (h : Together t c x y) : Together (aggregateLeaf t l) c x y := by
  obtain ⟨e, he, rfl, s, hs, hxs, hys⟩ := h
  by_cases ha : l.any (fun d => d.1 = e.1) = true
  · obtain ⟨B, hB, h⟩ := merged_mem (c := e.2 ++ backSets l e.1 (leafSets t l)) (List.mem_append_left _ hs) hxs hx
    refine ⟨(e.1, mergeConstraint (e.2 ++ backSets l e.1 (leafSets t l))), ?_, rfl, B, hB, h x hxs, h y hys⟩
    unfold aggregateLeaf
    exact List.mem_map.2 ⟨e, he, by rw [if_pos ha]⟩
  · refine ⟨e, ?_, rfl, s, hs, hxs, hys⟩
    unfold aggregateLeaf
    exact List.mem_map.2 ⟨e, he, by rw [if_neg ha]⟩

theorem initial_covers {ls : List Leaf} {l : Leaf} (hl : l ∈ ls) {c : ℕ} {x : ℤ} {i : ℕ} (h : Feeds l c x i) : Together (initial ls) c x x := by
  obtain ⟨hx, e, he, rfl, t, ht, s, hs, hxs⟩ := h
  have hs := List.mem_of_getElem? hs
  obtain ⟨d, hd, h1, h2⟩ := foldExtend_has (T := ls.flatMap tables) (t := []) (mem_tables.2 ⟨l, hl, e, he, rfl, ht⟩ : (e.1, t) ∈ _) hs
  obtain ⟨B, hB, h⟩ := merged_mem h2 hxs hx
  refine ⟨(d.1, mergeConstraint d.2), ?_, h1, B, hB, h x hxs, h x hxs⟩
  unfold initial
  rw [allTables_eq]
  exact List.mem_map.2 ⟨d, hd, rfl⟩

theorem covered_positions {t : Table} {l : Leaf} {c : ℕ} {x : ℤ} {i : ℕ} (hc : Together t c x x) (h : Feeds l c x i) :
    ∃ p ∈ leafSets t l, ∀ j, Feeds l c x j → (j : ℤ) ∈ p := by
  obtain ⟨e, he, rfl, s, hs, hxs, _⟩ := hc
  obtain ⟨r, hr, hrr⟩ := foldAdd_has (all := []) (rawSets_mem he hs (feeds_any h))
  have hi : (i : ℤ) ∈ r := (hrr _).2 (mem_positionsOf.2 ⟨x, hxs, i, h, rfl⟩)
  obtain ⟨B, hB, hh⟩ := merged_mem hr hi (by omega)
  rw [leafSets_eq]
  exact ⟨B, hB, fun j hj => hh _ ((hrr _).2 (mem_positionsOf.2 ⟨x, hxs, j, hj, rfl⟩))⟩

/-- The node is at the positions. -/
def At (k : ℕ) (l : Leaf) (p : PySet) : Node → Prop
  | .channel c x => ∃ i : ℕ, Feeds l c x i ∧ (i : ℤ) ∈ p
  | .position m i => m = k ∧ (i : ℤ) ∈ p

theorem leaf_connected {ls : List Leaf} {t : Table} {k : ℕ} {l : Leaf} (hk : ls[k]? = some l) (hc : ∀ c x i, Feeds l c x i → Together t c x x) {a b : Node}
    (h : Connected ls (fun m => m = k) a b) : a = b ∨ ∃ p ∈ leafSets t l, At k l p a ∧ At k l p b := by
  have same : ∀ p ∈ leafSets t l, ∀ q ∈ leafSets t l, ∀ b, At k l p b → At k l q b → ∀ z, z ∈ p ↔ z ∈ q := by
    intro p hp q hq b h1 h2
    rw [leafSets_eq] at hp hq
    cases b with
    | channel c x =>
      obtain ⟨i, hi, hip⟩ := h1
      obtain ⟨j, hj, hjq⟩ := h2
      obtain ⟨r, hr, hh⟩ := covered_positions (hc c x i hi) hi
      rw [leafSets_eq] at hr
      intro z
      rw [merged_same hp hr hip (hh i hi), merged_same hr hq (hh j hj) hjq]
    | position m i => exact fun z => merged_same hp hq h1.2 h2.2 z
  have move : ∀ p q : PySet, (∀ z, z ∈ p ↔ z ∈ q) → ∀ b, At k l q b → At k l p b := by
    intro p q hpq b hb
    cases b with
    | channel c x => obtain ⟨i, hi, h⟩ := hb; exact ⟨i, hi, (hpq _).2 h⟩
    | position m i => exact ⟨hb.1, (hpq _).2 hb.2⟩
  unfold Connected at h
  induction h with
  | rel a b h =>
    cases h with
    | @feeds k' l' c x i hk' ho h =>
      subst ho
      rw [hk] at hk'
      obtain rfl := Option.some.inj hk'
      obtain ⟨p, hp, hh⟩ := covered_positions (hc c x i h) h
      exact .inr ⟨p, hp, ⟨i, h, hh i h⟩, rfl, hh i h⟩
  | refl a => exact .inl rfl
  | symm a b _ ih =>
    rcases ih with h | ⟨p, hp, h1, h2⟩
    · exact .inl h.symm
    · exact .inr ⟨p, hp, h2, h1⟩
  | trans a b d _ _ ih1 ih2 =>
    rcases ih1 with rfl | ⟨p, hp, h1, h2⟩
    · exact ih2
    · rcases ih2 with rfl | ⟨q, hq, h3, h4⟩
      · exact .inr ⟨p, hp, h1, h2⟩
      · exact .inr ⟨p, hp, h1, move p q (same p hp q hq b h2 h3) d h4⟩

theorem aggregateLeaf_ties {ls : List Leaf} {t : Table} {k : ℕ} {l : Leaf} (hk : ls[k]? = some l) (hc : ∀ c x i, Feeds l c x i → Together t c x x) {c : ℕ} {x y : ℤ} {i : ℕ}
    (hx : Feeds l c x i) (h : Connected ls (fun m => m = k) (.channel c x) (.channel c y)) : Together (aggregateLeaf t l) c x y := by
  rcases leaf_connected hk hc h with h | ⟨p, hp, ⟨i, hi, hip⟩, j, hj, hjp⟩
  · obtain rfl : x = y := by injection h
    exact aggregateLeaf_keeps hx.1 (hc c x i hx)
  · obtain ⟨e, he, rfl, _⟩ := hc c x i hi
    have hxc : x ∈ channelsOf l e.1 p := mem_channelsOf.2 ⟨i, hip, by simpa using hi⟩
    have hyc : y ∈ channelsOf l e.1 p := mem_channelsOf.2 ⟨j, hjp, by simpa using hj⟩
    obtain ⟨r, hr, hrr⟩ := foldAdd_has (all := []) (List.mem_map.2 ⟨p, hp, rfl⟩ : channelsOf l e.1 p ∈ (leafSets t l).map (channelsOf l e.1))
    rw [← backSets_eq] at hr
    obtain ⟨B, hB, hh⟩ := merged_mem (c := e.2 ++ backSets l e.1 (leafSets t l)) (List.mem_append_right _ hr) ((hrr x).2 hxc) hi.1
    refine ⟨(e.1, mergeConstraint (e.2 ++ backSets l e.1 (leafSets t l))), ?_, rfl, B, hB, hh x ((hrr x).2 hxc), hh y ((hrr y).2 hyc)⟩
    unfold aggregateLeaf
    exact List.mem_map.2 ⟨e, he, by rw [if_pos (feeds_any hi)]⟩

/-- All sets of an entry are merged, and no center has two entries. -/
def MergedTable (t : Table) : Prop := (t.map Prod.fst).Nodup ∧ ∀ e ∈ t, ∃ s, e.2 = mergeConstraint s

theorem initial_merged (ls : List Leaf) : MergedTable (initial ls) := by
  unfold initial
  rw [allTables_eq]
  constructor
  · rw [List.map_map]
    exact foldExtend_keys (T := ls.flatMap tables) (t := []) (by simp)
  · intro e he
    obtain ⟨d, _, rfl⟩ := List.mem_map.1 he
    exact ⟨d.2, rfl⟩

theorem aggregateLeaf_merged {t : Table} (l : Leaf) (h : MergedTable t) : MergedTable (aggregateLeaf t l) := by
  unfold aggregateLeaf
  constructor
  · rw [List.map_map]
    have : (Prod.fst ∘ fun e : ℕ × List PySet => if l.any (fun d => d.1 = e.1) then (e.1, mergeConstraint (e.2 ++ backSets l e.1 (leafSets t l))) else e) = Prod.fst := by
      funext e; simp only [Function.comp]; split <;> rfl
    rw [this]; exact h.1
  · intro e he
    obtain ⟨d, hd, rfl⟩ := List.mem_map.1 he
    split
    · exact ⟨_, rfl⟩
    · exact h.2 d hd

theorem aggregate_merged (ls : List Leaf) : MergedTable (aggregate ls) :=
  foldLeaves_inv ls _ (initial_merged ls) fun l _ _ ht => aggregateLeaf_merged l ht

theorem together_trans {ls : List Leaf} {c : ℕ} {x y z : ℤ} (h1 : Together (aggregate ls) c x y) (h2 : Together (aggregate ls) c y z) : Together (aggregate ls) c x z := by
  obtain ⟨e, he, rfl, s, hs, hx, hy⟩ := h1
  obtain ⟨d, hd, hde, r, hr, hy', hz⟩ := h2
  obtain rfl : d = e := List.inj_on_of_nodup_map (aggregate_merged ls).1 hd he hde
  obtain ⟨m, hm⟩ := (aggregate_merged ls).2 d hd
  have hs' := hs
  rw [hm] at hs hr
  exact ⟨d, he, rfl, s, hs', hx, (merged_same hs hr hy hy' z).2 hz⟩

theorem keeps_all {t : Table} (ls : List Leaf) {c : ℕ} {x y : ℤ} (hx : x ≠ -1) (h : Together t c x y) : Together (ls.foldl aggregateLeaf t) c x y :=
  foldLeaves_inv (P := fun t => Together t c x y) ls t h fun _ _ _ ht => aggregateLeaf_keeps hx ht

theorem one_leaf {ls : List Leaf} {k : ℕ} {l : Leaf} (hk : ls[k]? = some l) {c : ℕ} {x y : ℤ} {i : ℕ} (hx : Feeds l c x i)
    (h : Connected ls (fun m => m = k) (.channel c x) (.channel c y)) : Together (aggregate ls) c x y := by
  obtain ⟨hkl, hkk⟩ := List.getElem?_eq_some_iff.1 hk
  have hsplit : ls = ls.take k ++ l :: ls.drop (k + 1) := by
    rw [← hkk, List.getElem_cons_drop, List.take_append_drop]
  have hl : l ∈ ls := List.mem_of_getElem? hk
  have key : aggregate ls = (ls.drop (k + 1)).foldl aggregateLeaf (aggregateLeaf ((ls.take k).foldl aggregateLeaf (initial ls)) l) := by
    unfold aggregate
    conv_lhs => arg 3; rw [hsplit]
    rw [List.foldl_append, List.foldl_cons]
  rw [key]
  refine keeps_all _ hx.1 (aggregateLeaf_ties hk (fun c x i hf => ?_) hx h)
  exact keeps_all _ hf.1 (initial_covers hl hf)

/-- A channel connected through one leaf with another channel feeds that leaf. -/
theorem feeds_of_connected {ls : List Leaf} {k : ℕ} {a b : Node} (h : Connected ls (fun m => m = k) a b) :
    a = b ∨ ∃ l, ls[k]? = some l ∧ (∀ c x, a = .channel c x → ∃ i, Feeds l c x i) ∧ ∀ c x, b = .channel c x → ∃ i, Feeds l c x i := by
  unfold Connected at h
  induction h with
  | rel a b h =>
    cases h with
    | @feeds k' l' c x i hk' ho h =>
      subst ho
      exact .inr ⟨l', hk', fun c' x' hh => by injection hh with h1 h2; subst h1 h2; exact ⟨i, h⟩, fun _ _ hh => by cases hh⟩
  | refl a => exact .inl rfl
  | symm a b _ ih =>
    rcases ih with h | ⟨l, hl, h1, h2⟩
    · exact .inl h.symm
    · exact .inr ⟨l, hl, h2, h1⟩
  | trans a b d _ _ ih1 ih2 =>
    rcases ih1 with rfl | ⟨l, hl, h1, _⟩
    · exact ih2
    · rcases ih2 with rfl | ⟨l', hl', _, h4⟩
      · exact .inr ⟨l, hl, h1, by assumption⟩
      · rw [hl] at hl'
        obtain rfl := Option.some.inj hl'
        exact .inr ⟨l, hl, h1, h4⟩

/-- C103: two channels of a center that feed the subgraph and are linked by a chain of channels of this center, each step through a single leaf (and any of its centers), are put together. -/
theorem C103_complete_partial (ls : List Leaf) (c : ℕ) (x y : ℤ) (hx : ∃ l ∈ ls, ∃ i, Feeds l c x i)
    (h : Relation.ReflTransGen (fun x y => ∃ k, Connected ls (fun m => m = k) (.channel c x) (.channel c y)) x y) : Together (aggregate ls) c x y := by
  induction h with
  | refl =>
    obtain ⟨l, hl, i, hi⟩ := hx
    exact keeps_all _ hi.1 (initial_covers hl hi)
  | tail _ hk ih =>
    obtain ⟨k, hk⟩ := hk
    rcases feeds_of_connected hk with h | ⟨l, hl, h1, _⟩
    · injection h with _ h
      exact h ▸ ih
    · obtain ⟨i, hi⟩ := h1 _ _ rfl
      exact together_trans ih (one_leaf hl hi hk)

/-- C103: the groups of a center are non-empty and have no channel in common; every channel that feeds a leaf is in a group, and every member of a group is from a leaf. -/
theorem C103_partition (ls : List Leaf) :
    ((aggregate ls).map Prod.fst).Nodup ∧
    (∀ e ∈ aggregate ls, (∀ s ∈ e.2, s ≠ []) ∧ e.2.Pairwise DisjointSets) ∧
    ∀ c x, x ≠ -1 → (Together (aggregate ls) c x x ↔ ∃ l ∈ ls, ∃ i, Feeds l c x i) := by
  refine ⟨(aggregate_merged ls).1, fun e he => ?_, fun c x hx => ⟨fun h => ?_, fun ⟨l, hl, i, hi⟩ => ?_⟩⟩
  · obtain ⟨s, hs⟩ := (aggregate_merged ls).2 e he
    rw [hs]
    exact ⟨(C25_merge_constraint s).1, (C25_merge_constraint s).2.1⟩
  · have inv : ∀ e ∈ aggregate ls, ∀ s ∈ e.2, ∀ x ∈ s, x ≠ -1 → ∃ l ∈ ls, ∃ i, Feeds l e.1 x i := by
      refine foldLeaves_inv (P := fun t => ∀ e ∈ t, ∀ s ∈ e.2, ∀ x ∈ s, x ≠ -1 → ∃ l ∈ ls, ∃ i, Feeds l e.1 x i) ls _ ?_ ?_
      · intro e he s hs x hx hx1
        unfold initial at he
        rw [allTables_eq] at he
        obtain ⟨d, hd, rfl⟩ := List.mem_map.1 he
        obtain ⟨r, hr, hxr⟩ := merged_from hs hx
        rcases foldExtend_from hd hr with ⟨_, h, _⟩ | ⟨a, ha, h1, h2⟩
        · simp at h
        · obtain ⟨l, hl, f, hf, h3, h4⟩ := mem_tables.1 ha
          obtain ⟨i, hi⟩ := List.mem_iff_getElem?.1 h2
          exact ⟨l, hl, i, hx1, f, hf, h3.trans h1, a.2, h4, r, hi, hxr⟩
      · intro l hl t ht e he s hs x hx hx1
        unfold aggregateLeaf at he
        obtain ⟨d, hd, rfl⟩ := List.mem_map.1 he
        split at hs
        · obtain ⟨r, hr, hxr⟩ := merged_from hs hx
          have : ∃ l ∈ ls, ∃ i, Feeds l d.1 x i := by
            rcases List.mem_append.1 hr with hr | hr
            · exact ht d hd r hr x hxr hx1
            · rw [backSets_eq] at hr
              rcases foldAdd_mem hr with hr | hr
              · simp at hr
              · obtain ⟨p, _, rfl⟩ := List.mem_map.1 hr
                obtain ⟨z, _, hz⟩ := mem_channelsOf.1 hxr
                exact ⟨l, hl, _, hz⟩
          split <;> exact this
        · next hn =>
          rw [if_neg hn]
          exact ht d hd s hs x hx hx1
    obtain ⟨e, he, rfl, s, hs, hxs, _⟩ := h
    exact inv e he s hs x hxs hx
  · exact keeps_all _ hi.1 (initial_covers hl hi)

/-- C103: with one center what is connected is put together, however many leaves there are. -/
theorem C103_single (ls : List Leaf) (c : ℕ) (hc : ∀ l ∈ ls, ∀ e ∈ l, e.1 = c) (x y : ℤ) (hx : ∃ l ∈ ls, ∃ i, Feeds l c x i)
    (h : Connected ls (fun _ => True) (.channel c x) (.channel c y)) : Together (aggregate ls) c x y := by
  refine C103_complete_partial ls c x y hx ?_
  let R : ℤ → ℤ → Prop := Relation.ReflTransGen (fun x y => ∃ k, Connected ls (fun m => m = k) (.channel c x) (.channel c y))
  have Rsymm : ∀ x y, R x y → R y x := fun x y h => by
    induction h with
    | refl => exact .refl
    | tail _ h ih =>
      obtain ⟨k, hk⟩ := h
      exact .head ⟨k, .symm _ _ hk⟩ ih
  have Rpos : ∀ k l i x y, ls[k]? = some l → Feeds l c x i → Feeds l c y i → R x y := fun k l i x y hk h1 h2 =>
    .single ⟨k, .trans _ _ _ (connected_feeds hk rfl h1) (.symm _ _ (connected_feeds hk rfl h2))⟩
  -- channels at a node
  let F : Node → ℤ → Prop := fun n x => match n with
    | .channel d y => d = c ∧ y = x
    | .position k i => ∃ l, ls[k]? = some l ∧ Feeds l c x i
  have FF : ∀ n x y, F n x → F n y → R x y := by
    intro n x y h1 h2
    cases n with
    | channel d z => obtain rfl := h1.2; obtain rfl := h2.2; exact .refl
    | position k i =>
      obtain ⟨l, hl, h1⟩ := h1
      obtain ⟨l', hl', h2⟩ := h2
      rw [hl] at hl'
      obtain rfl := Option.some.inj hl'
      exact Rpos k l i x y hl h1 h2
  have key : ∀ a b, Connected ls (fun _ => True) a b → ((∃ x, F a x) ↔ ∃ x, F b x) ∧ ∀ x y, F a x → F b y → R x y := by
    intro a b h
    unfold Connected at h
    induction h with
    | rel a b h =>
      cases h with
      | @feeds k l d z i hk _ hf =>
        have hd : d = c := by
          obtain ⟨_, e, he, h1, _⟩ := hf
          exact h1 ▸ hc l (List.mem_of_getElem? hk) e he
        subst hd
        refine ⟨⟨fun _ => ⟨z, l, hk, hf⟩, fun _ => ⟨z, rfl, rfl⟩⟩, fun x y h1 h2 => ?_⟩
        obtain rfl := h1.2
        obtain ⟨l', hl', h2⟩ := h2
        rw [hk] at hl'
        obtain rfl := Option.some.inj hl'
        exact Rpos k l i z y hk hf h2
    | refl a => exact ⟨Iff.rfl, fun x y => FF a x y⟩
    | symm a b _ ih => exact ⟨ih.1.symm, fun x y h1 h2 => Rsymm _ _ (ih.2 y x h2 h1)⟩
    | trans a b d _ _ ih1 ih2 =>
      refine ⟨ih1.1.trans ih2.1, fun x y h1 h2 => ?_⟩
      obtain ⟨z, hz⟩ := ih1.1.1 ⟨x, h1⟩
      exact (ih1.2 x z h1 hz).trans (ih2.2 z y hz h2)
  exact (key _ _ h).2 x y ⟨rfl, rfl⟩ ⟨rfl, rfl⟩

/-! ### Connections through several leaves -/

/-- Two centers with two channels each, added. -/
def straight (a b : ℕ) : Leaf := [(a, [[[0], [1]]]), (b, [[[0], [1]]])]

/-- The second center crossed. -/
def crossed (a b : ℕ) : Leaf := [(a, [[[0], [1]]]), (b, [[[1], [0]]])]

/-- The second center has one channel that feeds both positions. -/
def shared (a b : ℕ) : Leaf := [(a, [[[0], [1]]]), (b, [[[0], [0]]])]

theorem feeds_dec {l : Leaf} {c : ℕ} {x : ℤ} {i : ℕ} (h : i ∈ centerToLeaf l c x) : Feeds l c x i := mem_centerToLeaf.1 h

theorem not_together {t : Table} {c : ℕ} {x y : ℤ} (h : (t.all fun e => e.1 != c || e.2.all fun s => !(s.contains x && s.contains y)) = true) : ¬ Together t c x y := by
  rintro ⟨e, he, rfl, s, hs, hx, hy⟩
  have h1 := List.all_eq_true.1 h e he
  simp only [bne_self_eq_false, Bool.false_or] at h1
  have h2 := List.all_eq_true.1 h1 s hs
  simp [hx, hy] at h2

/-- C103: three sums in a cycle, one of them with two channels exchanged.  The two channels of each center are connected and are not put together. -/
theorem C103_cycle_false : ∃ ls : List Leaf, Marked ls ∧ Connected ls (fun _ => True) (.channel 0 0) (.channel 0 1) ∧ ¬ Together (aggregate ls) 0 0 1 := by
  refine ⟨[straight 0 1, straight 1 2, crossed 2 0], ?_, ?_, ?_⟩
  · unfold Marked; decide +kernel
  · have e := fun {k l c x i} (hk : [straight 0 1, straight 1 2, crossed 2 0][k]? = some l) (h : i ∈ centerToLeaf l c x) => connected_feeds (only := fun _ => True) hk trivial (feeds_dec h)
    have h1 : Connected [straight 0 1, straight 1 2, crossed 2 0] (fun _ => True) (.channel 0 0) (.position 0 0) := e (l := straight 0 1) rfl (by decide +kernel)
    have h2 : Connected [straight 0 1, straight 1 2, crossed 2 0] (fun _ => True) (.channel 1 0) (.position 0 0) := e (l := straight 0 1) rfl (by decide +kernel)
    have h3 : Connected [straight 0 1, straight 1 2, crossed 2 0] (fun _ => True) (.channel 1 0) (.position 1 0) := e (l := straight 1 2) rfl (by decide +kernel)
    have h4 : Connected [straight 0 1, straight 1 2, crossed 2 0] (fun _ => True) (.channel 2 0) (.position 1 0) := e (l := straight 1 2) rfl (by decide +kernel)
    have h5 : Connected [straight 0 1, straight 1 2, crossed 2 0] (fun _ => True) (.channel 2 0) (.position 2 0) := e (l := crossed 2 0) rfl (by decide +kernel)
    have h6 : Connected [straight 0 1, straight 1 2, crossed 2 0] (fun _ => True) (.channel 0 1) (.position 2 0) := e (l := crossed 2 0) rfl (by decide +kernel)
    exact .trans _ _ _ h1 (.trans _ _ _ (.symm _ _ h2) (.trans _ _ _ h3 (.trans _ _ _ (.symm _ _ h4) (.trans _ _ _ h5 (.symm _ _ h6)))))
  · exact not_together (by decide +kernel)

/-- C103: the result depends on the order of the leaves: a connection found at a later leaf is not carried to earlier ones. -/
theorem C103_order_false : ∃ ls : List Leaf, Marked ls ∧ Together (aggregate ls.reverse) 0 0 1 ∧ ¬ Together (aggregate ls) 0 0 1 := by
  refine ⟨[straight 0 1, straight 1 2, shared 2 3], by unfold Marked; decide +kernel, ?_, not_together (by decide +kernel)⟩
  exact ⟨(0, [[1, 0]]), by decide +kernel, rfl, [1, 0], by simp, by simp, by simp⟩

/-- Non-vacuity: a sum in which the second center shares a channel ties both channels of the first. -/
example : Together (aggregate [shared 0 1]) 0 0 1 :=
  C103_complete_partial _ 0 0 1 ⟨shared 0 1, by simp, 0, feeds_dec (by decide +kernel)⟩ (.single ⟨0,
    .trans _ _ _ (connected_feeds (l := shared 0 1) (i := 0) rfl rfl (feeds_dec (by decide +kernel)))
      (.trans _ _ _ (.symm _ _ (connected_feeds (c := 1) (x := 0) (l := shared 0 1) rfl rfl (feeds_dec (by decide +kernel))))
        (.trans _ _ _ (connected_feeds (c := 1) (x := 0) (i := 1) (l := shared 0 1) rfl rfl (feeds_dec (by decide +kernel)))
          (.symm _ _ (connected_feeds (l := shared 0 1) rfl rfl (feeds_dec (by decide +kernel))))))⟩)

example : Marked [shared 0 1] := by unfold Marked; decide +kernel

end Verif.Props
