import Verif.Model.PrepHooks
import Mathlib.Tactic.Common
import Mathlib.Data.List.Nodup
import Mathlib.Logic.Function.Iterate

/-!
C140: which modules are observed after preparing, and what becomes of the user's hooks.
-/

namespace Verif.Props
open Verif.Spec.PrepHooks Verif.Model.PrepHooks

/-- Parents come before their children. -/
def ParentsFirst : List ℕ → List (ℕ × ℕ) → Prop
  | _, [] => True
  | seen, (m, p) :: l => p ∈ seen ∧ ParentsFirst (m :: seen) l

/-- A model before preparing: the root has a qconfig, no module refuses one, and nothing is observed. -/
structure Unprepared (root : ℕ) (tree : List (ℕ × ℕ)) (s : Mods) : Prop where
  cfg : ∃ c, (s root).qconfig = some (some c)
  own : ∀ m, (s m).qconfig ≠ some none
  order : ParentsFirst [root] tree
  observer : ∀ m, (s m).observer = false
  hooks : ∀ m, Hook.observe ∉ (s m).hooks

theorem foldl_point (f : Mods → ℕ → Mods) (g : Mod → Mod) (hf : ∀ s x y, f s x y = if y = x then g (s y) else s y) (m : ℕ) : ∀ (l : List ℕ) (s : Mods), l.foldl f s m = g^[l.count m] (s m)
  | [], s => rfl
  | x :: l, s => by
    rw [List.foldl_cons, foldl_point f g hf m l, hf]
    by_cases h : m = x
    · subst h
      rw [if_pos rfl, List.count_cons_self, Function.iterate_succ_apply]
    · rw [if_neg h, List.count_cons_of_ne (Ne.symm h)]

def gDrop (v : Mod) : Mod := { v with qconfig := none }

def gObserve (v : Mod) : Mod := if v.leaf = true ∧ (v.qconfig.getD none).isSome = true then { v with hooks := .observe :: v.hooks, observer := true } else v

def gClean (v : Mod) : Mod := { v with hooks := v.hooks.dropLast, qconfig := none, observer := false }

theorem drop_point (s : Mods) (x y : ℕ) : dropQconfig s x y = if y = x then gDrop (s y) else s y := by
  unfold dropQconfig put
  by_cases h : y = x
  · subst h; rw [if_pos rfl, if_pos rfl]; rfl
  · rw [if_neg h, if_neg h]

theorem clean_point (s : Mods) (x y : ℕ) : clean s x y = if y = x then gClean (s y) else s y := by
  unfold clean put
  by_cases h : y = x
  · subst h; rw [if_pos rfl, if_pos rfl]; rfl
  · rw [if_neg h, if_neg h]

theorem observe_point (s : Mods) (x y : ℕ) : observe s x y = if y = x then gObserve (s y) else s y := by
  unfold observe gObserve put
  by_cases h : y = x
  · subst h
    rw [if_pos rfl]
    by_cases hc : (s y).leaf = true ∧ ((s y).qconfig.getD none).isSome = true
    · rw [if_pos hc, if_pos hc]; simp
    · rw [if_neg hc, if_neg hc]
  · rw [if_neg h]
    by_cases hc : (s x).leaf = true ∧ ((s x).qconfig.getD none).isSome = true
    · rw [if_pos hc]; simp [h]
    · rw [if_neg hc]

theorem propagate_keeps (m : ℕ) (v : Option ℕ) : ∀ (l : List (ℕ × ℕ)) (s : Mods), (s m).qconfig = some v → propagate l s m = s m
  | [], s, _ => rfl
  | (x, p) :: l, s, h => by
    unfold propagate
    cases hq : (s x).qconfig with
    | some w => exact propagate_keeps m v l s h
    | none =>
      have hne : m ≠ x := by rintro rfl; rw [h] at hq; exact nomatch hq
      have hs : put s x { s x with qconfig := some ((s p).qconfig.getD none) } m = s m := by unfold put; rw [if_neg hne]
      dsimp only
      rw [propagate_keeps m v l _ (by rw [hs]; exact h), hs]

theorem propagate_rest (m : ℕ) : ∀ (l : List (ℕ × ℕ)) (s : Mods), ∃ q, propagate l s m = { s m with qconfig := q }
  | [], s => ⟨(s m).qconfig, rfl⟩
  | (x, p) :: l, s => by
    unfold propagate
    cases hq : (s x).qconfig with
    | some w => exact propagate_rest m l s
    | none =>
      obtain ⟨q, h⟩ := propagate_rest m l (put s x { s x with qconfig := some ((s p).qconfig.getD none) })
      refine ⟨q, ?_⟩
      dsimp only
      rw [h]
      unfold put
      by_cases e : m = x
      · subst e; simp
      · simp [e]

theorem propagate_some (m : ℕ) : ∀ (l : List (ℕ × ℕ)) (seen : List ℕ) (s : Mods), ParentsFirst seen l → (∀ x ∈ seen, ∃ c, (s x).qconfig = some (some c)) → (∀ x, (s x).qconfig ≠ some none) →
    m ∈ seen ∨ m ∈ l.map (·.1) → ∃ c, (propagate l s m).qconfig = some (some c)
  | [], seen, s, _, hs, _, hm => by
    rcases hm with hm | hm
    · exact hs m hm
    · simp at hm
  | (x, p) :: l, seen, s, ho, hs, hn, hm => by
    obtain ⟨hp, ho⟩ := ho
    obtain ⟨c, hc⟩ := hs p hp
    have hm' : m ∈ x :: seen ∨ m ∈ l.map (·.1) := by
      rcases hm with hm | hm
      · exact .inl (List.mem_cons_of_mem _ hm)
      · rw [List.map_cons] at hm
        rcases List.mem_cons.mp hm with rfl | hm
        · exact .inl List.mem_cons_self
        · exact .inr hm
    unfold propagate
    cases hq : (s x).qconfig with
    | some w =>
      refine propagate_some m l (x :: seen) s ho ?_ hn hm'
      intro y hy
      rcases List.mem_cons.mp hy with rfl | hy
      · cases w with
        | none => exact absurd hq (hn y)
        | some w => exact ⟨w, hq⟩
      · exact hs y hy
    | none =>
      dsimp only
      have hval : ∀ y, (put s x { s x with qconfig := some ((s p).qconfig.getD none) } y).qconfig = if y = x then some (some c) else (s y).qconfig := by
        intro y
        unfold put
        by_cases e : y = x
        · rw [if_pos e, if_pos e, hc]; rfl
        · rw [if_neg e, if_neg e]
      refine propagate_some m l (x :: seen) _ ho ?_ ?_ hm'
      · intro y hy
        rw [hval]
        by_cases e : y = x
        · exact ⟨c, if_pos e⟩
        · rw [if_neg e]
          exact hs y ((List.mem_cons.mp hy).resolve_left e)
      · intro y
        rw [hval]
        by_cases e : y = x
        · rw [if_pos e]; simp
        · rw [if_neg e]; exact hn y

theorem lookup_mem_fst {β : Type} (k : ℕ) : ∀ (d : List (ℕ × β)), (∃ v, d.lookup k = some v) ↔ k ∈ d.map (·.1)
  | [] => by simp
  | (a, b) :: d => by
    rw [List.lookup_cons, List.map_cons, List.mem_cons, ← lookup_mem_fst k d]
    by_cases h : k = a
    · rw [beq_iff_eq.mpr h]; simp [h]
    · rw [beq_eq_false_iff_ne.mpr h]; simp [h]

/-- What `q_dict` holds after some of the nodes. -/
theorem qDict_mem : ∀ (uses : List Use) (d : List (ℕ × Bool)) (m : ℕ) (b : Bool), (d.map (·.1)).Nodup →
    ((m, b) ∈ qDict uses d ↔ ((m ∈ d.map (·.1) ∨ ∃ u ∈ uses, u.mod = m) ∧ (b = true ↔ (m, true) ∈ d ∨ ∃ u ∈ uses, u.mod = m ∧ u.quantized = true)))
  | [], d, m, b, hd => by
    unfold qDict
    constructor
    · intro h
      refine ⟨.inl (List.mem_map.mpr ⟨_, h, rfl⟩), ⟨fun e => .inl (e ▸ h), fun e => ?_⟩⟩
      rcases e with e | ⟨_, hu, _⟩
      · cases b
        · have := List.inj_on_of_nodup_map hd h e rfl
          simp at this
        · rfl
      · simp at hu
    · rintro ⟨h1, h2⟩
      rcases h1 with h1 | ⟨_, hu, _⟩
      · obtain ⟨⟨a, c⟩, hac, rfl⟩ := List.mem_map.mp h1
        have : b = c := by
          cases b <;> cases c
          · rfl
          · exact (h2.mpr (.inl hac)).symm ▸ rfl
          · rcases h2.mp rfl with h | ⟨_, hu, _⟩
            · have := List.inj_on_of_nodup_map hd h hac rfl
              simp at this
            · simp at hu
          · rfl
        rw [this]
        exact hac
      · simp at hu
  | u :: l, d, m, b, hd => by
    unfold qDict
    cases hl : d.lookup u.mod with
    | some v =>
      dsimp only
      have hin : u.mod ∈ d.map (·.1) := (lookup_mem_fst _ d).mp ⟨v, hl⟩
      have hmap : (d.map fun p => if p.1 = u.mod then (p.1, p.2 || u.quantized) else p).map (·.1) = d.map (·.1) := by
        rw [List.map_map]
        refine List.map_congr_left fun p _ => ?_
        by_cases e : p.1 = u.mod <;> simp [e]
      rw [qDict_mem l _ m b (by rw [hmap]; exact hd), hmap]
      have htrue : (m, true) ∈ d.map (fun p => if p.1 = u.mod then (p.1, p.2 || u.quantized) else p) ↔ (m, true) ∈ d ∨ (u.mod = m ∧ u.quantized = true) := by
        constructor
        · intro h
          obtain ⟨⟨a, c⟩, hp, he⟩ := List.mem_map.mp h
          dsimp only at he
          by_cases e : a = u.mod
          · rw [if_pos e] at he
            obtain ⟨h1, h2⟩ := Prod.mk.inj he
            rcases (Bool.or_eq_true _ _).mp h2 with h2 | h2
            · left; rw [← h1, ← h2]; exact hp
            · right; exact ⟨by rw [← e, h1], h2⟩
          · rw [if_neg e] at he
            left; rw [← he]; exact hp
        · rintro (h | ⟨h1, h2⟩)
          · refine List.mem_map.mpr ⟨_, h, ?_⟩
            by_cases e : m = u.mod <;> simp [e]
          · obtain ⟨⟨a, c⟩, hp, ha⟩ := List.mem_map.mp hin
            dsimp only at ha
            refine List.mem_map.mpr ⟨_, hp, ?_⟩
            dsimp only
            rw [if_pos ha, h2, Bool.or_true, ha, h1]
      rw [htrue]
      constructor
      · rintro ⟨h1, h2⟩
        refine ⟨?_, h2.trans ?_⟩
        · rcases h1 with h1 | ⟨w, hw, e⟩
          · exact .inl h1
          · exact .inr ⟨w, List.mem_cons_of_mem _ hw, e⟩
        · constructor
          · rintro ((h | ⟨h, h'⟩) | ⟨w, hw, e⟩)
            · exact .inl h
            · exact .inr ⟨u, List.mem_cons_self, h, h'⟩
            · exact .inr ⟨w, List.mem_cons_of_mem _ hw, e⟩
          · rintro (h | ⟨w, hw, e⟩)
            · exact .inl (.inl h)
            · rcases List.mem_cons.mp hw with rfl | hw
              · exact .inl (.inr e)
              · exact .inr ⟨w, hw, e⟩
      · rintro ⟨h1, h2⟩
        refine ⟨?_, h2.trans ?_⟩
        · rcases h1 with h1 | ⟨w, hw, e⟩
          · exact .inl h1
          · rcases List.mem_cons.mp hw with rfl | hw
            · exact .inl (e ▸ hin)
            · exact .inr ⟨w, hw, e⟩
        · constructor
          · rintro (h | ⟨w, hw, e⟩)
            · exact .inl (.inl h)
            · rcases List.mem_cons.mp hw with rfl | hw
              · exact .inl (.inr e)
              · exact .inr ⟨w, hw, e⟩
          · rintro ((h | ⟨h, h'⟩) | ⟨w, hw, e⟩)
            · exact .inl h
            · exact .inr ⟨u, List.mem_cons_self, h, h'⟩
            · exact .inr ⟨w, List.mem_cons_of_mem _ hw, e⟩
    | none =>
      dsimp only
      have hnin : u.mod ∉ d.map (·.1) := fun h => by
        obtain ⟨v, hv⟩ := (lookup_mem_fst _ d).mpr h
        rw [hl] at hv
        exact nomatch hv
      have hd' : ((d ++ [(u.mod, u.quantized)]).map (·.1)).Nodup := by
        rw [List.map_append]
        exact List.nodup_append.mpr ⟨hd, by simp, by
          intro a ha b hb e
          simp only [List.map_cons, List.map_nil, List.mem_singleton] at hb
          subst hb
          exact hnin (e ▸ ha)⟩
      rw [qDict_mem l _ m b hd']
      simp only [List.map_append, List.map_cons, List.map_nil, List.mem_append, List.mem_singleton, List.mem_cons, Prod.mk.injEq, exists_eq_or_imp, List.not_mem_nil, or_false]
      constructor
      · rintro ⟨h1, h2⟩
        refine ⟨?_, h2.trans ?_⟩
        · rcases h1 with (h1 | h1) | h1
          · exact .inl h1
          · exact .inr (.inl h1.symm)
          · exact .inr (.inr h1)
        · constructor
          · rintro ((h | ⟨h, h'⟩) | h)
            · exact .inl h
            · exact .inr (.inl ⟨h.symm, h'.symm⟩)
            · exact .inr (.inr h)
          · rintro (h | ⟨h, h'⟩ | h)
            · exact .inl (.inl h)
            · exact .inl (.inr ⟨h.symm, h'.symm⟩)
            · exact .inr h
      · rintro ⟨h1, h2⟩
        refine ⟨?_, h2.trans ?_⟩
        · rcases h1 with h1 | h1 | h1
          · exact .inl (.inl h1)
          · exact .inl (.inr h1.symm)
          · exact .inr h1
        · constructor
          · rintro (h | ⟨h, h'⟩ | h)
            · exact .inl (.inl h)
            · exact .inl (.inr ⟨h.symm, h'.symm⟩)
            · exact .inr h
          · rintro ((h | ⟨h, h'⟩) | h)
            · exact .inl h
            · exact .inr (.inl ⟨h.symm, h'.symm⟩)
            · exact .inr (.inr h)

theorem nonQuantized_iff (uses : List Use) (m : ℕ) : m ∈ nonQuantized uses ↔ FloatOnly uses m := by
  have key : m ∈ nonQuantized uses ↔ (m, false) ∈ qDict uses [] := by
    unfold nonQuantized
    constructor
    · intro h
      obtain ⟨⟨a, b⟩, hp, rfl⟩ := List.mem_map.mp h
      obtain ⟨hp, hb⟩ := List.mem_filter.mp hp
      have : b = false := by simpa using hb
      subst this
      exact hp
    · intro h
      exact List.mem_map.mpr ⟨_, List.mem_filter.mpr ⟨h, by simp⟩, rfl⟩
  rw [key, qDict_mem uses [] m false (by simp)]
  unfold FloatOnly
  constructor
  · rintro ⟨h1, h2⟩
    refine ⟨?_, fun u hu e => ?_⟩
    · rcases h1 with h1 | h1
      · simp at h1
      · exact h1
    · by_contra hq
      have := h2.mpr (.inr ⟨u, hu, e, by simpa using hq⟩)
      simp at this
  · rintro ⟨h1, h2⟩
    refine ⟨.inr h1, by simp, ?_⟩
    rintro (h | ⟨u, hu, e, hq⟩)
    · simp at h
    · rw [h2 u hu e] at hq; exact hq

theorem iterate_drop (v : Mod) : ∀ n, 0 < n → gDrop^[n] v = gDrop v
  | 1, _ => rfl
  | n + 2, _ => by
    rw [Function.iterate_succ_apply', iterate_drop v (n + 1) (by omega)]
    rfl

theorem iterate_clean : ∀ (n : ℕ) (v : Mod), 0 < n → (gClean^[n] v).observer = false ∧ (gClean^[n] v).qconfig = none ∧ (Hook.observe ∉ v.hooks → Hook.observe ∉ (gClean^[n] v).hooks)
  | 1, v, _ => ⟨rfl, rfl, fun h hm => h ((List.dropLast_sublist _).subset hm)⟩
  | n + 2, v, _ => by
    obtain ⟨h1, h2, h3⟩ := iterate_clean (n + 1) v (by omega)
    rw [Function.iterate_succ_apply']
    exact ⟨rfl, rfl, fun h hm => h3 h ((List.dropLast_sublist _).subset hm)⟩

theorem userHooks_observe (l : List Hook) : userHooks (.observe :: l) = userHooks l := by
  unfold userHooks
  rfl

/-- What is expected of a module that works on quantized values, or that is not used. -/
def Kept (v w : Mod) : Prop := userHooks w.hooks = userHooks v.hooks ∧ w.observer = v.leaf ∧ (Hook.observe ∈ w.hooks ↔ v.leaf = true) ∧ ∃ c, w.qconfig = some (some c)

/-- What is expected of the observer of a module that works on other values only. -/
def Bare (w : Mod) : Prop := w.observer = false ∧ w.qconfig = none ∧ Hook.observe ∉ w.hooks

theorem observed_kept (v w : Mod) (c : ℕ) (hq : w.qconfig = some (some c)) (hl : w.leaf = v.leaf) (hh : w.hooks = v.hooks) (ho : w.observer = false) (hv : Hook.observe ∉ v.hooks) : Kept v (gObserve w) := by
  unfold gObserve
  rw [hq]
  by_cases e : w.leaf = true
  · rw [if_pos ⟨e, rfl⟩]
    refine ⟨?_, ?_, ?_, c, rfl⟩
    · dsimp only; rw [userHooks_observe, hh]
    · rw [← hl, e]
    · dsimp only
      rw [← hl, e]
      simp
  · rw [if_neg fun h => e h.1]
    refine ⟨by rw [hh], ?_, ?_, c, hq⟩
    · rw [ho, ← hl]; simpa using e
    · rw [hh, ← hl]
      exact ⟨fun h => absurd h hv, fun h => absurd h e⟩

/-- C140, in part: quantization-aware training.  Modules with some use on quantized values are observed and keep the user's hooks; modules used on other values only are not observed.
Missing: the user's hooks of the latter (`C140_hooks_false`), and PyTorch before 1.13 (`C140_old_false`). -/
theorem C140_qat_partial (root : ℕ) (tree : List (ℕ × ℕ)) (all : List ℕ) (uses : List Use) (s : Mods) (h : Unprepared root tree s) (hall : all.Nodup) (m : ℕ) (hm : m ∈ all) (ht : m = root ∨ m ∈ tree.map (·.1)) :
    (¬ FloatOnly uses m → Kept (s m) (prepareQat tree all uses s m)) ∧ (FloatOnly uses m → Bare (prepareQat tree all uses s m)) := by
  obtain ⟨c, hc⟩ := propagate_some m tree [root] s h.order (fun x hx => by rw [List.mem_singleton.mp hx]; exact h.cfg) h.own (ht.imp (fun e => by rw [e]; exact List.mem_singleton.mpr rfl) id)
  obtain ⟨q, hq⟩ := propagate_rest m tree s
  have hcount : all.count m = 1 := List.count_eq_one_of_mem hall hm
  unfold prepareQat
  rw [foldl_point clean gClean clean_point, foldl_point observe gObserve observe_point, hcount, foldl_point dropQconfig gDrop drop_point]
  constructor
  · intro hf
    have hn : (nonQuantized uses).count m = 0 := List.count_eq_zero.mpr fun hm' => hf ((nonQuantized_iff uses m).mp hm')
    have hs1 : (nonQuantized uses).foldl dropQconfig (propagate tree s) m = propagate tree s m := by
      rw [foldl_point dropQconfig gDrop drop_point, hn]
      rfl
    rw [hn, propagate_keeps m (some c) _ _ (by rw [hs1]; exact hc), hs1]
    exact observed_kept _ _ c hc (by rw [hq]; rfl) (by rw [hq]; rfl) (by rw [hq]; exact h.observer m) (h.hooks m)
  · intro hf
    have hn : 0 < (nonQuantized uses).count m := List.count_pos_iff.mpr ((nonQuantized_iff uses m).mpr hf)
    obtain ⟨q2, hq2⟩ := propagate_rest m tree ((nonQuantized uses).foldl dropQconfig (propagate tree s))
    rw [iterate_drop _ _ hn, hq2, foldl_point dropQconfig gDrop drop_point, iterate_drop _ _ hn, hq]
    obtain ⟨h1, h2, h3⟩ := iterate_clean _ (gObserve^[1] (gDrop { gDrop { s m with qconfig := q } with qconfig := q2 })) hn
    refine ⟨h1, h2, h3 ?_⟩
    show Hook.observe ∉ (gObserve _).hooks
    unfold gObserve
    rw [if_neg fun e => by simp [gDrop] at e]
    exact h.hooks m

/-- C140, in part: calibration.  Modules all of whose uses are on quantized values are observed and keep the user's hooks; modules used on other values only are not observed.
Missing: modules used on both (`C140_shared_false`), and the user's hooks of the latter (`C140_hooks_false`). -/
theorem C140_ptq_partial (root : ℕ) (tree : List (ℕ × ℕ)) (all : List ℕ) (uses : List Use) (s : Mods) (h : Unprepared root tree s) (hall : all.Nodup) (m : ℕ) (hm : m ∈ all) (ht : m = root ∨ m ∈ tree.map (·.1)) :
    ((∀ u ∈ uses, u.mod = m → u.quantized = true) → Kept (s m) (preparePtq tree all uses s m)) ∧ (FloatOnly uses m → Bare (preparePtq tree all uses s m)) := by
  obtain ⟨c, hc⟩ := propagate_some m tree [root] s h.order (fun x hx => by rw [List.mem_singleton.mp hx]; exact h.cfg) h.own (ht.imp (fun e => by rw [e]; exact List.mem_singleton.mpr rfl) id)
  obtain ⟨q, hq⟩ := propagate_rest m tree s
  have hcount : all.count m = 1 := List.count_eq_one_of_mem hall hm
  unfold preparePtq
  rw [foldl_point clean gClean clean_point, foldl_point observe gObserve observe_point, hcount, foldl_point dropQconfig gDrop drop_point]
  constructor
  · intro hf
    have hn : ((uses.filter fun u => u.quantized = false).map (·.mod)).count m = 0 := List.count_eq_zero.mpr fun hm' => by
      obtain ⟨u, hu, e⟩ := List.mem_map.mp hm'
      obtain ⟨hu, hu'⟩ := List.mem_filter.mp hu
      rw [hf u hu e] at hu'
      simp at hu'
    rw [hn]
    exact observed_kept _ _ c hc (by rw [Function.iterate_zero, id, hq]) (by rw [Function.iterate_zero, id, hq]) (by rw [Function.iterate_zero, id, hq]; exact h.observer m) (h.hooks m)
  · intro hf
    obtain ⟨⟨u, hu, e⟩, hall'⟩ := hf
    have hn : 0 < ((uses.filter fun u => u.quantized = false).map (·.mod)).count m :=
      List.count_pos_iff.mpr (List.mem_map.mpr ⟨u, List.mem_filter.mpr ⟨hu, by simp [hall' u hu e]⟩, e⟩)
    rw [iterate_drop _ _ hn, hq]
    obtain ⟨h1, h2, h3⟩ := iterate_clean _ (gObserve^[1] (gDrop { s m with qconfig := q })) hn
    refine ⟨h1, h2, h3 ?_⟩
    show Hook.observe ∉ (gObserve _).hooks
    unfold gObserve
    rw [if_neg fun e => by simp [gDrop] at e]
    exact h.hooks m

/-- A model with the modules 1 and 2, observable leaves with the user's hooks 7 and 8, under the root 0. -/
def prepSample : Mods := fun m => if m = 0 then ⟨false, some (some 5), [], false⟩ else if m = 1 then ⟨true, none, [.user 7], false⟩ else if m = 2 then ⟨true, none, [.user 8], false⟩ else ⟨false, none, [], false⟩

theorem prepSample_ok : Unprepared 0 [(1, 0), (2, 0)] prepSample := by
  refine ⟨⟨5, rfl⟩, fun m => ?_, ⟨by simp, by simp, trivial⟩, fun m => ?_, fun m => ?_⟩ <;> unfold prepSample <;> by_cases h0 : m = 0 <;> by_cases h1 : m = 1 <;> by_cases h2 : m = 2 <;> simp_all

example : ¬ FloatOnly [⟨1, true⟩, ⟨1, false⟩, ⟨2, false⟩] 1 ∧ FloatOnly [⟨1, true⟩, ⟨1, false⟩, ⟨2, false⟩] 2 := by
  unfold FloatOnly
  constructor
  · rintro ⟨_, h⟩
    exact nomatch h ⟨1, true⟩ (by simp) rfl
  · exact ⟨⟨⟨2, false⟩, by simp, rfl⟩, by simp⟩

/-- C140 fails: a module that only works on values that are not quantized loses a hook of the user. -/
theorem C140_hooks_false : Unprepared 0 [(1, 0), (2, 0)] prepSample ∧ FloatOnly [⟨1, true⟩, ⟨2, false⟩] 2 ∧ (prepSample 2).hooks = [.user 8] ∧
    (prepareQat [(1, 0), (2, 0)] [0, 1, 2] [⟨1, true⟩, ⟨2, false⟩] prepSample 2).hooks = [] ∧ (preparePtq [(1, 0), (2, 0)] [0, 1, 2] [⟨1, true⟩, ⟨2, false⟩] prepSample 2).hooks = [] := by
  refine ⟨prepSample_ok, ⟨⟨⟨2, false⟩, by simp, rfl⟩, by simp⟩, rfl, by decide +kernel, by decide +kernel⟩

/-- C140 fails: a module used on quantized and on other values is not observed when calibrating (`prepareQat` observes it). -/
theorem C140_shared_false : Unprepared 0 [(1, 0), (2, 0)] prepSample ∧ (preparePtq [(1, 0), (2, 0)] [0, 1, 2] [⟨1, true⟩, ⟨1, false⟩] prepSample 1).observer = false ∧
    (prepareQat [(1, 0), (2, 0)] [0, 1, 2] [⟨1, true⟩, ⟨1, false⟩] prepSample 1).observer = true :=
  ⟨prepSample_ok, by decide +kernel, by decide +kernel⟩

/-- C140 fails before PyTorch 1.13: a module used on other values only, with a hook of the user, keeps the hook that calls the observer and loses both the observer and the user's hook, so that it cannot run. -/
theorem C140_old_false : Unprepared 0 [(1, 0), (2, 0)] prepSample ∧ FloatOnly [⟨1, true⟩, ⟨2, false⟩] 2 ∧ (prepareQatOld [(1, 0), (2, 0)] [0, 1, 2] [⟨1, true⟩, ⟨2, false⟩] prepSample 2).hooks = [.observe] ∧
    (prepareQatOld [(1, 0), (2, 0)] [0, 1, 2] [⟨1, true⟩, ⟨2, false⟩] prepSample 2).observer = false :=
  ⟨prepSample_ok, ⟨⟨⟨2, false⟩, by simp, rfl⟩, by simp⟩, by decide +kernel, by decide +kernel⟩

/-- C140, in part: with at most one hook each, the hooks before the first module and after the last module of a fused group are those of the fused module.
Missing: more hooks (`C140_fuse_false`). -/
theorem C140_fuse_partial (f l : List ℕ × List ℕ) (mid : List (List ℕ × List ℕ)) (hf : f.1.length ≤ 1) (hl : l.2.length ≤ 1) : fuseHooks (f :: mid ++ [l]) = some (f.1, l.2) := by
  unfold fuseHooks
  have h1 : (f :: mid ++ [l]).head? = some f := rfl
  have h2 : (f :: mid ++ [l]).getLast? = some l := List.getLast?_concat
  rw [h1, h2]
  dsimp only
  obtain ⟨a, b⟩ := f
  obtain ⟨c, d⟩ := l
  dsimp only at hf hl ⊢
  match a, hf with
  | [], _ => match d, hl with
    | [], _ => rfl
    | [_], _ => rfl
  | [_], _ => match d, hl with
    | [], _ => rfl
    | [_], _ => rfl

/-- C140 fails: two hooks on the last module of a group make fusing raise. -/
theorem C140_fuse_false : fuseHooks [([], []), ([], [1, 2])] = none := rfl

example : fuseHooks [([3], []), ([], []), ([], [4])] = some ([3], [4]) := rfl

end Verif.Props
