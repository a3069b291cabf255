import Verif.Model.IdentityPrune
import Mathlib.Data.List.Basic
import Mathlib.Data.List.Induction
import Mathlib.Data.List.Perm.Basic
import Mathlib.Tactic.Ring
import Mathlib.Tactic.Tauto

/-! C29 and C53: the channels the identity pruner removes. -/

namespace Verif.Props
open Verif.Model

/-- C29 for the case in which the number of dead channels is not a multiple of `m`: the removed channels are dead, distinct if the dead
ones are, and their number is the largest multiple of `m` not above the number of dead channels.  Missing for the full property: an
exact multiple, where nothing is removed (`C29_exact_multiple_false`). -/
theorem C29_multiple_partial (dead : List Nat) (m : Nat) (hm : 0 < m) (hr : dead.length % m ≠ 0) :
    ∃ removed, roundMultiple dead (some m) = some removed ∧ removed.Sublist dead ∧ m ∣ removed.length ∧
      removed.length ≤ dead.length ∧ ∀ k, m ∣ k → k ≤ dead.length → k ≤ removed.length := by
  obtain ⟨m, rfl⟩ : ∃ k, m = k + 1 := ⟨m - 1, by omega⟩
  refine ⟨dead.take (dead.length - dead.length % (m + 1)), ?_, List.take_sublist _ _, ?_, ?_, ?_⟩
  · simp [roundMultiple, sliceNeg, hr]
  · rw [List.length_take, Nat.min_eq_left (Nat.sub_le _ _)]
    exact Nat.dvd_sub_mod _
  · rw [List.length_take]; exact Nat.min_le_right _ _
  · rintro k ⟨q, rfl⟩ hk
    rw [List.length_take, Nat.min_eq_left (Nat.sub_le _ _)]
    have h1 := Nat.div_add_mod dead.length (m + 1)
    have h2 : q ≤ dead.length / (m + 1) := by
      rw [Nat.le_div_iff_mul_le (by omega)]
      rw [Nat.mul_comm]; exact hk
    have h3 : (m + 1) * q ≤ (m + 1) * (dead.length / (m + 1)) := Nat.mul_le_mul_left _ h2
    omega

/-- Five dead channels and multiple 2: four are removed. -/
example : roundMultiple [3, 4, 6, 8, 9] (some 2) = some [3, 4, 6, 8] := by decide

/-- C29 fails whenever the number of dead channels is a positive multiple of `m`: nothing is removed. -/
theorem C29_exact_multiple_false (dead : List Nat) (m : Nat) (hm : 0 < m) (hne : dead ≠ []) (hr : dead.length % m = 0) :
    roundMultiple dead (some m) = some [] ∧ m ∣ dead.length ∧ 0 < dead.length := by
  obtain ⟨m, rfl⟩ : ∃ k, m = k + 1 := ⟨m - 1, by omega⟩
  refine ⟨by simp [roundMultiple, sliceNeg, hr], Nat.dvd_of_mod_eq_zero hr, List.length_pos_iff.2 hne⟩

/-- Four dead channels and multiple 2: none is removed. -/
example : roundMultiple [3, 4, 6, 8] (some 2) = some [] := by decide

theorem dictGet_nil (j : Nat) : dictGet [] j = none := rfl

theorem dictGet_cons (a : Nat) (b : Bool) (r : List (Nat × Bool)) (j : Nat) :
    dictGet ((a, b) :: r) j = if a = j then some b else dictGet r j := by
  unfold dictGet
  by_cases h : a = j
  · subst h; simp
  · rw [List.find?_cons_of_neg (by simpa using h), if_neg h]

theorem dictGet_set (d : List (Nat × Bool)) (k j : Nat) (v : Bool) :
    dictGet (dictSet d k v) j = if j = k then some v else dictGet d j := by
  induction d with
  | nil => simp only [dictSet, dictGet_cons, dictGet_nil, eq_comm]
  | cons p r ih =>
    obtain ⟨a, b⟩ := p
    unfold dictSet
    by_cases h : a = k
    · subst h
      rw [if_pos rfl, dictGet_cons, dictGet_cons]
      by_cases hj : a = j
      · simp [hj]
      · rw [if_neg hj, if_neg hj, if_neg (fun e => hj e.symm)]
    · rw [if_neg h, dictGet_cons, dictGet_cons, ih]
      by_cases hj : a = j
      · subst hj; rw [if_pos rfl, if_pos rfl, if_neg h]
      · rw [if_neg hj, if_neg hj]

theorem mem_keys_set (d : List (Nat × Bool)) (k j : Nat) (v : Bool) :
    j ∈ (dictSet d k v).map Prod.fst ↔ j = k ∨ j ∈ d.map Prod.fst := by
  induction d with
  | nil => simp [dictSet]
  | cons p r ih =>
    obtain ⟨a, b⟩ := p
    unfold dictSet
    by_cases h : a = k
    · subst h; simp
    · simp only [if_neg h, List.map_cons, List.mem_cons, ih]; tauto

theorem nodup_set (d : List (Nat × Bool)) (k : Nat) (v : Bool) (h : (d.map Prod.fst).Nodup) :
    ((dictSet d k v).map Prod.fst).Nodup := by
  induction d with
  | nil => simp [dictSet]
  | cons p r ih =>
    obtain ⟨a, b⟩ := p
    rw [List.map_cons, List.nodup_cons] at h
    unfold dictSet
    by_cases hk : a = k
    · subst hk; simpa using h
    · rw [if_neg hk, List.map_cons, List.nodup_cons, mem_keys_set]
      refine ⟨?_, ih h.2⟩
      rintro (e | e)
      · exact hk e
      · exact h.1 e

theorem dictGet_iff (d : List (Nat × Bool)) (h : (d.map Prod.fst).Nodup) (k : Nat) (v : Bool) :
    dictGet d k = some v ↔ (k, v) ∈ d := by
  induction d with
  | nil => simp [dictGet_nil]
  | cons p r ih =>
    obtain ⟨a, b⟩ := p
    rw [List.map_cons, List.nodup_cons] at h
    rw [dictGet_cons, List.mem_cons]
    by_cases hk : a = k
    · subst hk
      rw [if_pos rfl]
      constructor
      · intro e; left; cases e; rfl
      · rintro (e | e)
        · cases e; rfl
        · exact absurd (List.mem_map.2 ⟨_, e, rfl⟩) h.1
    · rw [if_neg hk, ih h.2]
      constructor
      · exact Or.inr
      · rintro (e | e)
        · cases e; exact absurd rfl hk
        · exact e

theorem dictGet_none (d : List (Nat × Bool)) (k : Nat) : dictGet d k = none ↔ k ∉ d.map Prod.fst := by
  induction d with
  | nil => simp [dictGet_nil]
  | cons p r ih =>
    obtain ⟨a, b⟩ := p
    rw [dictGet_cons]
    by_cases hk : a = k
    · subst hk; simp
    · rw [if_neg hk, ih]; simp [Ne.symm hk]

/-- The (centre channel, state) pairs a leaf writes, in order. -/
def writes (leaf : BnLeaf) : List (Nat × Bool) := leaf.chans.flatMap (fun c => c.2.map (fun k => (k, c.1)))

theorem leafStates_eq (leaf : BnLeaf) : leafStates leaf = (writes leaf).foldl (fun d p => dictSet d p.1 p.2) [] := by
  unfold leafStates writes
  generalize ([] : List (Nat × Bool)) = d
  induction leaf.chans generalizing d with
  | nil => rfl
  | cons c cs ih =>
    rw [List.foldl_cons, List.flatMap_cons, List.foldl_append, ih, List.foldl_map]

theorem nodup_fold (ps d : List (Nat × Bool)) (h : (d.map Prod.fst).Nodup) :
    ((ps.foldl (fun d p => dictSet d p.1 p.2) d).map Prod.fst).Nodup := by
  induction ps generalizing d with
  | nil => exact h
  | cons p r ih => exact ih _ (nodup_set _ _ _ h)

/-- If all writes to `k` agree, the dictionary holds that state. -/
theorem get_fold (ps d : List (Nat × Bool)) (k : Nat) (hag : ∀ a b, (k, a) ∈ ps → (k, b) ∈ ps → a = b) (v : Bool) :
    dictGet (ps.foldl (fun d p => dictSet d p.1 p.2) d) k = some v ↔
      (k, v) ∈ ps ∨ ((∀ w, (k, w) ∉ ps) ∧ dictGet d k = some v) := by
  induction ps generalizing d with
  | nil => simp
  | cons p r ih =>
    obtain ⟨a, b⟩ := p
    rw [List.foldl_cons, ih _ (fun x y hx hy => hag x y (List.mem_cons_of_mem _ hx) (List.mem_cons_of_mem _ hy)), dictGet_set]
    by_cases hk : k = a
    · subst hk
      rw [if_pos rfl]
      constructor
      · rintro (h | ⟨h1, h2⟩)
        · exact Or.inl (List.mem_cons_of_mem _ h)
        · cases h2; exact Or.inl (List.mem_cons_self)
      · rintro (h | ⟨h1, h2⟩)
        · have hvb := hag v b h List.mem_cons_self
          subst hvb
          by_cases hr : ∃ w, (k, w) ∈ r
          · obtain ⟨w, hw⟩ := hr
            have := hag v w h (List.mem_cons_of_mem _ hw)
            subst this
            exact Or.inl hw
          · push Not at hr
            exact Or.inr ⟨hr, rfl⟩
        · exact absurd List.mem_cons_self (h1 b)
    · rw [if_neg hk]
      have e : ∀ w, (k, w) ∈ (a, b) :: r ↔ (k, w) ∈ r := by
        intro w
        rw [List.mem_cons]
        constructor
        · rintro (h | h)
          · cases h; exact absurd rfl hk
          · exact h
        · exact Or.inr
      simp only [e]

/-- What folding one leaf into `invalid_center_idx_dict` does. -/
theorem get_andFold (ps d : List (Nat × Bool)) (hp : (ps.map Prod.fst).Nodup) (k : Nat) :
    dictGet (ps.foldl andSet d) k =
      match dictGet ps k, dictGet d k with
      | none, x => x
      | some s, none => some s
      | some s, some t => some (t && s) := by
  induction ps generalizing d with
  | nil => simp [dictGet_nil]
  | cons p r ih =>
    obtain ⟨a, b⟩ := p
    rw [List.map_cons, List.nodup_cons] at hp
    rw [List.foldl_cons, ih _ hp.2, dictGet_cons]
    by_cases hk : a = k
    · subst hk
      have hr : dictGet r a = none := (dictGet_none r a).2 hp.1
      rw [hr, if_pos rfl]
      cases hd : dictGet d a with
      | none => simp [andSet, hd, dictGet_set]
      | some t => simp [andSet, hd, dictGet_set]
    · rw [if_neg hk]
      have : dictGet (andSet d (a, b)) k = dictGet d k := by
        unfold andSet
        cases dictGet d (a, b).1 <;> simp [dictGet_set, Ne.symm hk]
      rw [this]

theorem nodup_andFold (ps d : List (Nat × Bool)) (h : (d.map Prod.fst).Nodup) :
    ((ps.foldl andSet d).map Prod.fst).Nodup := by
  induction ps generalizing d with
  | nil => exact h
  | cons p r ih =>
    rw [List.foldl_cons]
    apply ih
    unfold andSet
    cases dictGet d p.1 <;> exact nodup_set _ _ _ h

/-- `ReadsWith leaves k v`: some batch-norm channel of zero variance (`v = true`) or positive variance (`v = false`) reads the centre
channel `k`. -/
def ReadsWith (leaves : List BnLeaf) (k : Nat) (v : Bool) : Prop := ∃ leaf ∈ leaves, ∃ c ∈ leaf.chans, c.1 = v ∧ k ∈ c.2

/-- Every use of `k` inside one leaf has the same state.  Holds if no leaf reads a centre channel twice. -/
def Agree (leaf : BnLeaf) (k : Nat) : Prop := ∀ c ∈ leaf.chans, ∀ c' ∈ leaf.chans, k ∈ c.2 → k ∈ c'.2 → c.1 = c'.1

theorem mem_writes (leaf : BnLeaf) (k : Nat) (v : Bool) : (k, v) ∈ writes leaf ↔ ∃ c ∈ leaf.chans, c.1 = v ∧ k ∈ c.2 := by
  unfold writes
  simp only [List.mem_flatMap, List.mem_map, Prod.mk.injEq]
  constructor
  · rintro ⟨c, hc, j, hj, rfl, rfl⟩; exact ⟨c, hc, rfl, hj⟩
  · rintro ⟨c, hc, rfl, hk⟩; exact ⟨c, hc, k, hk, rfl, rfl⟩

theorem get_leafStates (leaf : BnLeaf) (k : Nat) (h : Agree leaf k) (v : Bool) :
    dictGet (leafStates leaf) k = some v ↔ ∃ c ∈ leaf.chans, c.1 = v ∧ k ∈ c.2 := by
  rw [leafStates_eq, get_fold, ← mem_writes]
  · simp [dictGet_nil]
  · intro a b ha hb
    rw [mem_writes] at ha hb
    obtain ⟨c, hc, rfl, hk⟩ := ha
    obtain ⟨c', hc', rfl, hk'⟩ := hb
    exact h c hc c' hc' hk hk'

theorem centerStates_spec (leaves : List BnLeaf) (k : Nat) (hag : ∀ leaf ∈ leaves, Agree leaf k) :
    ((centerStates leaves).map Prod.fst).Nodup ∧
    (dictGet (centerStates leaves) k = some true ↔ ReadsWith leaves k true ∧ ¬ ReadsWith leaves k false) ∧
    (dictGet (centerStates leaves) k = some false ↔ ReadsWith leaves k false) := by
  unfold centerStates
  induction leaves using List.reverseRecOn with
  | nil => simp [dictGet_nil, ReadsWith]
  | append_singleton ls leaf ih =>
    obtain ⟨h1, h2, h3⟩ := ih (fun l hl => hag l (by simp [hl]))
    rw [List.foldl_append, List.foldl_cons, List.foldl_nil]
    have hnd : ((leafStates leaf).map Prod.fst).Nodup := by rw [leafStates_eq]; exact nodup_fold _ _ (by simp)
    refine ⟨nodup_andFold _ _ h1, ?_⟩
    have hl := get_leafStates leaf k (hag leaf (by simp))
    have hrw : ∀ v, ReadsWith (ls ++ [leaf]) k v ↔ ReadsWith ls k v ∨ ∃ c ∈ leaf.chans, c.1 = v ∧ k ∈ c.2 := by
      intro v; unfold ReadsWith; simp [or_and_right, exists_or]
    rw [hrw, hrw, ← hl, ← hl, get_andFold _ _ hnd]
    cases hlg : dictGet (leafStates leaf) k with
    | none => simp [h2, h3]
    | some s =>
      revert h2 h3
      generalize dictGet (List.foldl _ _ ls) k = x
      cases x with
      | none => cases s <;> simp <;> tauto
      | some t => cases s <;> cases t <;> simp <;> tauto

/-- C53, when the uses of a centre channel inside one batch norm agree (in particular when no batch norm reads a centre channel twice):
a channel is a candidate for removal exactly if it is used, and every batch-norm channel that reads it has zero variance.  Missing for
the full property: batch norms that read a channel twice (`C53_live_channel_false`). -/
theorem C53_dead_partial (leaves : List BnLeaf) (k : Nat) (hag : ∀ leaf ∈ leaves, Agree leaf k) :
    k ∈ deadSet leaves ↔ ReadsWith leaves k true ∧ ¬ ReadsWith leaves k false := by
  obtain ⟨h1, h2, -⟩ := centerStates_spec leaves k hag
  rw [← h2, dictGet_iff _ h1]
  unfold deadSet
  simp

/-- Two batch norms over three channels: the second one keeps channel 1 alive. -/
example : deadSet [⟨[(true, [0]), (true, [1]), (false, [2])]⟩, ⟨[(true, [0]), (false, [1]), (true, [2])]⟩] = [0] ∧
    ∀ leaf ∈ ([⟨[(true, [0]), (true, [1]), (false, [2])]⟩, ⟨[(true, [0]), (false, [1]), (true, [2])]⟩] : List BnLeaf), ∀ k, Agree leaf k := by
  refine ⟨by decide, ?_⟩
  intro leaf hl k
  simp only [List.mem_cons, List.not_mem_nil, or_false] at hl
  rcases hl with rfl | rfl <;> intro c hc c' hc' h1 h2 <;>
    simp only [List.mem_cons, List.not_mem_nil, or_false] at hc hc' <;>
    rcases hc with rfl | rfl | rfl <;> rcases hc' with rfl | rfl | rfl <;> simp_all

/-- C53 and what the pruner finally removes: the rounding to a multiple only drops channels, so everything removed is dead in every use. -/
theorem C53_removed_partial (order : List Nat → List Nat) (horder : ∀ l, (order l).Perm l) (leaves : List BnLeaf)
    (hag : ∀ leaf ∈ leaves, ∀ k, Agree leaf k) (multiple : Option Nat) (removed : List Nat)
    (h : identityPrune order leaves multiple = some removed) :
    ∀ k ∈ removed, ReadsWith leaves k true ∧ ¬ ReadsWith leaves k false := by
  intro k hk
  rw [← C53_dead_partial leaves k (fun l hl => hag l hl k)]
  unfold identityPrune roundMultiple at h
  rcases multiple with _ | _ | m
  · simp only [Option.some.injEq] at h; rw [h]; exact hk
  · simp at h
  · simp only [Option.some.injEq] at h
    subst h
    rw [← (horder _).mem_iff]
    unfold sliceNeg at hk
    split at hk
    · simp at hk
    · exact List.mem_of_mem_take hk

/-- C53 fails for a batch norm over `cat(x, relu(x))`: channel 0 feeds leaf channel 0, which is alive, and leaf channel 1, which is dead;
the later one overwrites the earlier one and the live channel is removed. -/
theorem C53_live_channel_false : ∃ leaves : List BnLeaf,
    identityPrune id leaves none = some [0] ∧ ReadsWith leaves 0 false := by
  refine ⟨[⟨[(false, [0]), (true, [0])]⟩], by decide, ⟨_, List.mem_singleton.2 rfl, (false, [0]), by simp, rfl, by simp⟩⟩

end Verif.Props
