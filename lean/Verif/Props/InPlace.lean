import Verif.Model.InPlace
import Mathlib.Tactic.Linarith

/-!
C82: in-place operations in traced models.
-/

namespace Verif.Props
open Verif.Spec.InPlace Verif.Model.InPlace

variable {F V : Type}

theorem lens_comp_lawful {b k : Lens V} (hb : b.Lawful) (hk : k.Lawful) : (b.comp k).Lawful := by
  intro w v
  show k.get (b.get (b.put w (k.put (b.get w) v))) = v
  rw [hb, hk]

theorem lens_whole_lawful : (Lens.whole : Lens V).Lawful := fun _ _ => rfl

/-- A tensor in the original and in the generated code. -/
structure Tri (V : Type) where
  info : Info
  ref : Ref V
  name : Name

/-- The original and the generated code agree on all tensors that are not stale. -/
structure Tracks (T : List (Tri V)) (st gst : List V) (env : List (Entry V)) (b : ℕ → Lens V) (φ : ℕ → ℕ) : Prop where
  law : ∀ s, (b s).Lawful
  loc : ∀ t ∈ T, t.ref.storage = t.info.storage ∧ t.ref.storage < st.length ∧ t.name.node < env.length ∧ (t.info.part = false → t.name.index = none)
  ref : ∀ t ∈ T, t.info.stale = false → ∃ k : Lens V, k.Lawful ∧ lookup env t.name = some ⟨φ t.info.storage, k⟩ ∧ t.ref.lens = (b t.info.storage).comp k
  val : ∀ t ∈ T, t.info.stale = false → ∃ w, st[t.info.storage]? = some w ∧ gst[φ t.info.storage]? = some ((b t.info.storage).get w)
  inj : ∀ t ∈ T, ∀ u ∈ T, t.info.stale = false → u.info.stale = false → φ t.info.storage = φ u.info.storage → t.info.storage = u.info.storage

theorem lookup_append {env : List (Entry V)} {n : Name} (h : n.node < env.length) (e : List (Entry V)) : lookup (env ++ e) n = lookup env n := by
  unfold lookup
  rw [List.getElem?_append_left h]

theorem lookup_set {env : List (Entry V)} {n : Name} {i : ℕ} (h : n.node ≠ i) (e : Entry V) : lookup (env.set i e) n = lookup env n := by
  unfold lookup
  rw [List.getElem?_set_ne h.symm]

theorem readable_tri {T : List (Tri V)} {a : ℕ} (h : readable (T.map Tri.info) a = true) : ∃ t, T[a]? = some t ∧ t.info.stale = false := by
  unfold readable at h
  rw [List.getElem?_map] at h
  cases ht : T[a]? with
  | none =>
    rw [ht] at h
    simp at h
  | some t =>
    rw [ht] at h
    exact ⟨t, rfl, by simpa using h⟩

/-- Values of tensors that are not stale. -/
theorem values_agree {T : List (Tri V)} {st gst : List V} {env : List (Entry V)} {b : ℕ → Lens V} {φ : ℕ → ℕ} (hA : Tracks T st gst env b φ) :
    ∀ (args : List ℕ), (∀ a ∈ args, readable (T.map Tri.info) a = true) →
      ∃ vs ns, (Mem.values ⟨st, T.map Tri.ref⟩ args) = some vs ∧ names (T.map Tri.name) args = some ns ∧ State.values ⟨gst, env⟩ ns = some vs
  | [], _ => ⟨[], [], rfl, rfl, rfl⟩
  | a :: as, h => by
    obtain ⟨vs, ns, h1, h2, h3⟩ := values_agree hA as fun x hx => h x (by simp [hx])
    obtain ⟨t, ht, hs⟩ := readable_tri (h a (by simp))
    have hm := List.mem_of_getElem? ht
    obtain ⟨k, hk, hl, he⟩ := hA.ref t hm hs
    obtain ⟨w, hw, hg⟩ := hA.val t hm hs
    have v1 : value st t.ref = some (k.get ((b t.info.storage).get w)) := by
      unfold value
      rw [(hA.loc t hm).1, hw, he]
      rfl
    have v2 : value gst (⟨φ t.info.storage, k⟩ : Ref V) = some (k.get ((b t.info.storage).get w)) := by
      unfold value
      simp only
      rw [hg]
      rfl
    refine ⟨k.get ((b t.info.storage).get w) :: vs, t.name :: ns, ?_, ?_, ?_⟩
    · unfold Mem.values
      simp only [List.getElem?_map, ht, Option.map_some]
      rw [v1, h1]
    · unfold names
      simp only [List.getElem?_map, ht, Option.map_some]
      rw [h2]
    · unfold State.values
      simp only
      rw [hl]
      simp only
      rw [v2, h3]

/-- Adding a tensor. -/
theorem Tracks.push {T : List (Tri V)} {st gst : List V} {env : List (Entry V)} {b : ℕ → Lens V} {φ : ℕ → ℕ} (hA : Tracks T st gst env b φ) (e : Entry V) (us : List (Tri V))
    (hu : ∀ u ∈ us, u.ref.storage = u.info.storage ∧ u.name.node < env.length + 1 ∧ (u.info.part = false → u.name.index = none) ∧
      (∃ t ∈ T, t.info.storage = u.info.storage ∧ t.info.stale = false) ∧ ∃ k : Lens V, k.Lawful ∧ lookup (env ++ [e]) u.name = some ⟨φ u.info.storage, k⟩ ∧ u.ref.lens = (b u.info.storage).comp k) :
    Tracks (T ++ us) st gst (env ++ [e]) b φ := by
  refine ⟨hA.law, ?_, ?_, ?_, ?_⟩
  · intro t ht
    rcases List.mem_append.1 ht with ht | ht
    · obtain ⟨h1, h2, h3, h4⟩ := hA.loc t ht
      exact ⟨h1, h2, by rw [List.length_append]; omega, h4⟩
    · obtain ⟨h1, h2, h3, ⟨t', ht', he, hs⟩, _⟩ := hu t ht
      refine ⟨h1, ?_, by simpa using h2, h3⟩
      rw [h1, ← he, ← (hA.loc t' ht').1]
      exact (hA.loc t' ht').2.1
  · intro t ht hs
    rcases List.mem_append.1 ht with ht | ht
    · obtain ⟨k, hk, hl, he⟩ := hA.ref t ht hs
      exact ⟨k, hk, by rw [lookup_append (hA.loc t ht).2.2.1]; exact hl, he⟩
    · exact (hu t ht).2.2.2.2
  · intro t ht hs
    rcases List.mem_append.1 ht with ht | ht
    · exact hA.val t ht hs
    · obtain ⟨_, _, _, ⟨t', ht', he, hs'⟩, _⟩ := hu t ht
      rw [← he]
      exact hA.val t' ht' hs'
  · have key : ∀ t ∈ T ++ us, t.info.stale = false → ∃ t' ∈ T, t'.info.storage = t.info.storage ∧ t'.info.stale = false := by
      intro t ht hs
      rcases List.mem_append.1 ht with ht | ht
      · exact ⟨t, ht, rfl, hs⟩
      · exact (hu t ht).2.2.2.1
    intro t ht u hu hs hs' h
    obtain ⟨t', a1, a2, a3⟩ := key t ht hs
    obtain ⟨u', b1, b2, b3⟩ := key u hu hs'
    rw [← a2, ← b2] at h ⊢
    exact hA.inj t' a1 u' b1 a3 b3 h

/-- Outdating. -/
def outdateT (s : ℕ) (keep : Option ℕ) (T : List (Tri V)) : List (Tri V) :=
  T.mapIdx fun j t => if t.info.storage = s ∧ keep ≠ some j then { t with info := { t.info with stale := true } } else t

theorem outdateT_map (s : ℕ) (keep : Option ℕ) (T : List (Tri V)) :
    (outdateT s keep T).map Tri.info = outdate s keep (T.map Tri.info) ∧ (outdateT s keep T).map Tri.ref = T.map Tri.ref ∧ (outdateT s keep T).map Tri.name = T.map Tri.name := by
  unfold outdateT outdate
  refine ⟨?_, ?_, ?_⟩
  · apply List.ext_getElem?
    intro j
    simp only [List.getElem?_map, List.getElem?_mapIdx]
    cases T[j]? with
    | none => rfl
    | some t =>
      simp only [Option.map_some]
      split <;> rfl
  · apply List.ext_getElem?
    intro j
    simp only [List.getElem?_map, List.getElem?_mapIdx]
    cases T[j]? with
    | none => rfl
    | some t =>
      simp only [Option.map_some]
      split <;> rfl
  · apply List.ext_getElem?
    intro j
    simp only [List.getElem?_map, List.getElem?_mapIdx]
    cases T[j]? with
    | none => rfl
    | some t =>
      simp only [Option.map_some]
      split <;> rfl

theorem outdateT_mem {s : ℕ} {keep : Option ℕ} {T : List (Tri V)} {u : Tri V} (h : u ∈ outdateT s keep T) :
    ∃ j t, T[j]? = some t ∧ u.ref = t.ref ∧ u.name = t.name ∧ u.info.storage = t.info.storage ∧ u.info.part = t.info.part ∧
      (u.info.stale = false → t.info.stale = false ∧ (t.info.storage = s → keep = some j)) := by
  unfold outdateT at h
  rw [List.mem_mapIdx] at h
  obtain ⟨j, hj, rfl⟩ := h
  refine ⟨j, T[j], List.getElem?_eq_getElem hj, ?_⟩
  by_cases hc : T[j].info.storage = s ∧ keep ≠ some j
  · rw [if_pos hc]
    exact ⟨rfl, rfl, rfl, rfl, by simp⟩
  · rw [if_neg hc]
    refine ⟨rfl, rfl, rfl, rfl, fun hs => ⟨hs, fun he => ?_⟩⟩
    by_contra hk
    exact hc ⟨he, hk⟩

/-- One statement: the recorded line does the same. -/
theorem step_agree (sem : F → List V → V) {T : List (Tri V)} {st gst : List V} {env : List (Entry V)} {b : ℕ → Lens V} {φ : ℕ → ℕ} (hA : Tracks T st gst env b φ)
    (s : Stmt F V) (hlaw : Lawful [s]) {n' : ℕ} {is' : List Info} (htr : track st.length (T.map Tri.info) s = some (n', is')) {m' : Mem V} (hex : exec sem ⟨st, T.map Tri.ref⟩ s = some m') :
    ∃ (T' : List (Tri V)) (gst' : List V) (env' : List (Entry V)) (b' : ℕ → Lens V) (φ' : ℕ → ℕ) (ls : List (Line F V)),
      record env.length (T.map Tri.name) s = some (ls, T'.map Tri.name) ∧ steps sem ls ⟨gst, env⟩ = some ⟨gst', env'⟩ ∧ env'.length = env.length + ls.length ∧
      Tracks T' m'.store gst' env' b' φ' ∧ T'.map Tri.info = is' ∧ T'.map Tri.ref = m'.objs ∧ n' = m'.store.length := by
  have hgl : ∀ t ∈ T, t.info.stale = false → φ t.info.storage < gst.length := by
    intro t ht hs
    obtain ⟨w, _, hg⟩ := hA.val t ht hs
    exact (List.getElem?_eq_some_iff.1 hg).1
  cases s with
  | call f args =>
    unfold track at htr
    simp only at htr
    by_cases hr : args.all (readable (T.map Tri.info)) = true
    · rw [if_pos hr, Option.some.injEq, Prod.mk.injEq] at htr
      obtain ⟨rfl, rfl⟩ := htr
      obtain ⟨vs, ns, h1, h2, h3⟩ := values_agree hA args (List.all_eq_true.1 hr)
      unfold exec at hex
      simp only at hex
      rw [h1, Option.map_some, Option.some.injEq] at hex
      subst hex
      let b' : ℕ → Lens V := fun s => if s = st.length then Lens.whole else b s
      let φ' : ℕ → ℕ := fun s => if s = st.length then gst.length else φ s
      have hold : ∀ t ∈ T, t.info.storage ≠ st.length := by
        intro t ht he
        have := (hA.loc t ht).2.1
        rw [(hA.loc t ht).1, he] at this
        exact lt_irrefl _ this
      refine ⟨T ++ [⟨⟨st.length, false, false⟩, ⟨st.length, Lens.whole⟩, ⟨env.length, none⟩⟩], gst ++ [sem f vs], env ++ [.one ⟨gst.length, Lens.whole⟩], b', φ', [.call f ns], ?_, ?_, ?_, ?_, ?_, ?_, ?_⟩
      · unfold record
        simp only
        rw [h2]
        simp
      · simp [steps, step, h3]
      · simp
      · refine ⟨?_, ?_, ?_, ?_, ?_⟩
        · intro s
          simp only [b']
          split
          · exact lens_whole_lawful
          · exact hA.law s
        · intro t ht
          rcases List.mem_append.1 ht with ht | ht
          · obtain ⟨a1, a2, a3, a4⟩ := hA.loc t ht
            exact ⟨a1, by simp only [List.length_append, List.length_singleton]; omega, by rw [List.length_append]; omega, a4⟩
          · rw [List.mem_singleton] at ht
            subst ht
            simp
        · intro t ht hs
          rcases List.mem_append.1 ht with ht | ht
          · obtain ⟨k, hk, hl, he⟩ := hA.ref t ht hs
            have hne := hold t ht
            refine ⟨k, hk, ?_, ?_⟩
            · rw [lookup_append (hA.loc t ht).2.2.1, hl]
              simp only [φ', if_neg hne]
            · simp only [b', if_neg hne]
              exact he
          · rw [List.mem_singleton] at ht
            subst ht
            refine ⟨Lens.whole, lens_whole_lawful, ?_, ?_⟩
            · simp [lookup, φ']
            · simp only [b', if_pos]
              rfl
        · intro t ht hs
          rcases List.mem_append.1 ht with ht | ht
          · obtain ⟨w, hw, hg⟩ := hA.val t ht hs
            have hne := hold t ht
            refine ⟨w, ?_, ?_⟩
            · rw [List.getElem?_append_left (List.getElem?_eq_some_iff.1 hw).1, hw]
            · simp only [φ', b', if_neg hne]
              rw [List.getElem?_append_left (List.getElem?_eq_some_iff.1 hg).1, hg]
          · rw [List.mem_singleton] at ht
            subst ht
            refine ⟨sem f vs, by simp, ?_⟩
            simp [φ', b', Lens.whole]
        · intro t ht u hu hs hs' he
          rcases List.mem_append.1 ht with ht | ht <;> rcases List.mem_append.1 hu with hu | hu
          · simp only [φ', if_neg (hold t ht), if_neg (hold u hu)] at he
            exact hA.inj t ht u hu hs hs' he
          · rw [List.mem_singleton] at hu
            subst hu
            simp only [φ', if_neg (hold t ht), if_pos] at he
            have := hgl t ht hs
            omega
          · rw [List.mem_singleton] at ht
            subst ht
            simp only [φ', if_neg (hold u hu), if_pos] at he
            have := hgl u hu hs'
            omega
          · rw [List.mem_singleton] at ht hu
            rw [ht, hu]
      · simp
      · simp
      · simp
    · rw [if_neg hr] at htr
      simp at htr
  | view l a =>
    unfold track at htr
    simp only at htr
    rw [List.getElem?_map] at htr
    cases ht : T[a]? with
    | none =>
      rw [ht] at htr
      simp at htr
    | some t =>
      rw [ht, Option.map_some] at htr
      simp only at htr
      cases hs : t.info.stale with
      | true =>
        rw [hs] at htr
        simp at htr
      | false =>
        rw [hs] at htr
        simp only [Bool.false_eq_true, if_false, Option.some.injEq, Prod.mk.injEq] at htr
        obtain ⟨rfl, rfl⟩ := htr
        have hm := List.mem_of_getElem? ht
        obtain ⟨k, hk, hl, he⟩ := hA.ref t hm hs
        unfold exec at hex
        simp only [List.getElem?_map, ht, Option.map_some, Option.some.injEq] at hex
        subst hex
        have hll : l.Lawful := by
          have := hlaw (.view l a) (by simp)
          exact this
        refine ⟨T ++ [⟨⟨t.info.storage, false, false⟩, ⟨t.ref.storage, t.ref.lens.comp l⟩, ⟨env.length, none⟩⟩], gst, env ++ [.one ⟨φ t.info.storage, k.comp l⟩], b, φ, [.view l t.name], ?_, ?_, ?_, ?_, ?_, ?_, ?_⟩
        · unfold record
          simp [List.getElem?_map, ht]
        · simp [steps, step, hl]
        · simp
        · apply hA.push
          intro u hu
          rw [List.mem_singleton] at hu
          subst hu
          refine ⟨(hA.loc t hm).1, by simp, fun _ => rfl, ⟨t, hm, rfl, hs⟩, k.comp l, lens_comp_lawful hk hll, by simp [lookup], ?_⟩
          simp only
          rw [he]
          rfl
        · simp
        · simp
        · rfl
  | split lens a =>
    unfold track at htr
    simp only at htr
    rw [List.getElem?_map] at htr
    cases ht : T[a]? with
    | none =>
      rw [ht] at htr
      simp at htr
    | some t =>
      rw [ht, Option.map_some] at htr
      simp only at htr
      cases hs : t.info.stale with
      | true =>
        rw [hs] at htr
        simp at htr
      | false =>
        rw [hs] at htr
        simp only [Bool.false_eq_true, if_false, Option.some.injEq, Prod.mk.injEq] at htr
        obtain ⟨rfl, rfl⟩ := htr
        have hm := List.mem_of_getElem? ht
        obtain ⟨k, hk, hl, he⟩ := hA.ref t hm hs
        unfold exec at hex
        simp only [List.getElem?_map, ht, Option.map_some, Option.some.injEq] at hex
        subst hex
        have hll : ∀ l ∈ lens, l.Lawful := by
          have := hlaw (.split lens a) (by simp)
          exact this
        let us : List (Tri V) := lens.mapIdx fun j l => ⟨⟨t.info.storage, true, false⟩, ⟨t.ref.storage, t.ref.lens.comp l⟩, ⟨env.length, some j⟩⟩
        have hus1 : us.map Tri.info = lens.map fun _ => (⟨t.info.storage, true, false⟩ : Info) := by
          apply List.ext_getElem?
          intro j
          simp only [us, List.getElem?_map, List.getElem?_mapIdx]
          cases lens[j]? <;> rfl
        have hus2 : us.map Tri.ref = lens.map fun l => (⟨t.ref.storage, t.ref.lens.comp l⟩ : Ref V) := by
          apply List.ext_getElem?
          intro j
          simp only [us, List.getElem?_map, List.getElem?_mapIdx]
          cases lens[j]? <;> rfl
        have hus3 : us.map Tri.name = (List.range lens.length).map fun i => (⟨env.length, some i⟩ : Name) := by
          apply List.ext_getElem?
          intro j
          simp only [us, List.getElem?_map, List.getElem?_mapIdx]
          by_cases hj : j < lens.length
          · rw [List.getElem?_eq_getElem hj, List.getElem?_eq_getElem (by simpa using hj)]
            simp
          · rw [List.getElem?_eq_none (by omega), List.getElem?_eq_none (by simp; omega)]
            rfl
        refine ⟨T ++ us, gst, env ++ [.many (lens.map fun l => ⟨φ t.info.storage, k.comp l⟩)], b, φ, [.split lens t.name], ?_, ?_, ?_, ?_, ?_, ?_, ?_⟩
        · unfold record
          simp [List.getElem?_map, ht, hus3]
        · simp [steps, step, hl]
        · simp
        · apply hA.push
          intro u hu
          simp only [us] at hu
          rw [List.mem_mapIdx] at hu
          obtain ⟨j, hj, rfl⟩ := hu
          refine ⟨(hA.loc t hm).1, by simp, by simp, ⟨t, hm, rfl, hs⟩, k.comp lens[j], lens_comp_lawful hk (hll _ (List.getElem_mem hj)), by simp [lookup, hj], ?_⟩
          simp only
          rw [he]
          rfl
        · rw [List.map_append, hus1]
        · rw [List.map_append, hus2]
        · rfl
  | iop f a args =>
    unfold track at htr
    simp only at htr
    rw [List.getElem?_map] at htr
    cases ht : T[a]? with
    | none =>
      rw [ht] at htr
      simp at htr
    | some t =>
      rw [ht, Option.map_some] at htr
      simp only at htr
      by_cases hc : (t.info.stale || t.info.part || !args.all (readable (T.map Tri.info))) = true
      · rw [if_pos hc] at htr
        simp at htr
      · rw [if_neg hc, Option.some.injEq, Prod.mk.injEq] at htr
        obtain ⟨rfl, rfl⟩ := htr
        simp only [Bool.or_eq_true, not_or, Bool.not_eq_true, Bool.not_eq_false'] at hc
        obtain ⟨⟨hs, hp⟩, hr⟩ := hc
        have hm := List.mem_of_getElem? ht
        obtain ⟨k, hk, hl, he⟩ := hA.ref t hm hs
        obtain ⟨w, hw, hg⟩ := hA.val t hm hs
        have hra : ∀ x ∈ a :: args, readable (T.map Tri.info) x = true := by
          intro x hx
          rcases List.mem_cons.1 hx with rfl | hx
          · unfold readable
            simp [List.getElem?_map, ht, hs]
          · exact List.all_eq_true.1 (by simpa using hr) x hx
        obtain ⟨vs, ns', h1, h2, h3⟩ := values_agree hA (a :: args) hra
        -- names of the arguments
        unfold names at h2
        simp only [List.getElem?_map, ht, Option.map_some] at h2
        cases hns : names (T.map Tri.name) args with
        | none =>
          rw [hns] at h2
          simp at h2
        | some ns =>
          rw [hns] at h2
          simp only [Option.some.injEq] at h2
          subst h2
          have hidx := (hA.loc t hm).2.2.2 hp
          have hnode := (hA.loc t hm).2.2.1
          have hrs := (hA.loc t hm).1
          unfold exec at hex
          simp only at hex
          rw [h1] at hex
          simp only [List.getElem?_map, ht, Option.map_some] at hex
          unfold write at hex
          rw [hrs, hw] at hex
          simp only [Option.map_some, Option.some.injEq] at hex
          subst hex
          have hsl : t.info.storage < st.length := (List.getElem?_eq_some_iff.1 hw).1
          let b' : ℕ → Lens V := fun s => if s = t.info.storage then t.ref.lens else b s
          let φ' : ℕ → ℕ := fun s => if s = t.info.storage then gst.length else φ s
          obtain ⟨o1, o2, o3⟩ := outdateT_map t.info.storage (some a) T
          have htl : t.ref.lens.Lawful := by
            rw [he]
            exact lens_comp_lawful (hA.law _) hk
          -- the node of another storage is not the rebound one
          have hother : ∀ u ∈ T, u.info.stale = false → u.info.storage ≠ t.info.storage → u.name.node ≠ t.name.node := by
            intro u hu hus hne hn
            obtain ⟨k2, _, hl2, _⟩ := hA.ref u hu hus
            unfold lookup at hl hl2
            rw [hidx] at hl
            rw [hn] at hl2
            cases hen : env[t.name.node]? with
            | none =>
              rw [hen] at hl
              simp at hl
            | some e =>
              rw [hen] at hl hl2
              cases e with
              | many rs => simp at hl
              | one r =>
                simp only [Option.some.injEq] at hl
                cases hui : u.name.index with
                | some i =>
                  rw [hui] at hl2
                  simp at hl2
                | none =>
                  rw [hui] at hl2
                  simp only [Option.some.injEq] at hl2
                  rw [hl, Ref.mk.injEq] at hl2
                  exact hne (hA.inj t hm u hu hs hus hl2.1).symm
          refine ⟨outdateT t.info.storage (some a) T ++ [⟨⟨t.info.storage, false, false⟩, t.ref, ⟨env.length, none⟩⟩], gst ++ [sem f vs],
            env.set t.name.node (.one ⟨gst.length, Lens.whole⟩) ++ [.one ⟨gst.length, Lens.whole⟩], b', φ', [.rebind f t.name ns], ?_, ?_, ?_, ?_, ?_, ?_, ?_⟩
          · unfold record
            simp only [List.getElem?_map, ht, Option.map_some]
            rw [hns, List.map_append, o3]
            rfl
          · have hnm : (⟨t.name.node, none⟩ : Name) = t.name := by rw [← hidx]
            simp only [steps, step]
            rw [hidx, h3]
            rfl
          · simp
          · have hset : ∀ n : Name, n.node < env.length → (env.set t.name.node (Entry.one ⟨gst.length, Lens.whole⟩)).length = env.length := fun _ _ => by simp
            refine ⟨?_, ?_, ?_, ?_, ?_⟩
            · intro s
              simp only [b']
              split
              · exact htl
              · exact hA.law s
            · intro u hu
              rcases List.mem_append.1 hu with hu | hu
              · obtain ⟨j, u0, hj, e1, e2, e3, e4, _⟩ := outdateT_mem hu
                obtain ⟨a1, a2, a3, a4⟩ := hA.loc u0 (List.mem_of_getElem? hj)
                rw [e1, e2, e3, e4]
                exact ⟨a1, by simpa using a2, by simp; omega, a4⟩
              · rw [List.mem_singleton] at hu
                subst hu
                exact ⟨hrs, by simp [hrs, hsl], by simp, fun _ => rfl⟩
            · intro u hu hus
              rcases List.mem_append.1 hu with hu | hu
              · obtain ⟨j, u0, hj, e1, e2, e3, e4, e5⟩ := outdateT_mem hu
                obtain ⟨hus0, hkeep⟩ := e5 hus
                have hum := List.mem_of_getElem? hj
                by_cases hst : u0.info.storage = t.info.storage
                · have := hkeep hst
                  rw [Option.some.injEq] at this
                  subst this
                  rw [ht, Option.some.injEq] at hj
                  subst hj
                  refine ⟨Lens.whole, lens_whole_lawful, ?_, ?_⟩
                  · rw [e2, e3, lookup_append (by simpa using hnode)]
                    unfold lookup
                    rw [List.getElem?_set_self hnode, hidx]
                    simp only [φ', if_pos]
                  · rw [e1, e3]
                    simp only [b', if_pos]
                    rfl
                · obtain ⟨k2, hk2, hl2, he2⟩ := hA.ref u0 hum hus0
                  refine ⟨k2, hk2, ?_, ?_⟩
                  · rw [e2, e3, lookup_append (by simpa using (hA.loc u0 hum).2.2.1), lookup_set (hother u0 hum hus0 hst), hl2]
                    simp only [φ', if_neg hst]
                  · rw [e1, e3]
                    simp only [b', if_neg hst]
                    exact he2
              · rw [List.mem_singleton] at hu
                subst hu
                refine ⟨Lens.whole, lens_whole_lawful, ?_, ?_⟩
                · simp [lookup, φ']
                · simp only [b', if_pos]
                  rfl
            · have hself : ∃ w', (st.set t.info.storage (t.ref.lens.put w (sem f vs)))[t.info.storage]? = some w' ∧ (gst ++ [sem f vs])[φ' t.info.storage]? = some ((b' t.info.storage).get w') := by
                refine ⟨t.ref.lens.put w (sem f vs), List.getElem?_set_self hsl, ?_⟩
                simp only [φ', b', if_pos]
                rw [htl]
                simp
              intro u hu hus
              rcases List.mem_append.1 hu with hu | hu
              · obtain ⟨j, u0, hj, e1, e2, e3, e4, e5⟩ := outdateT_mem hu
                obtain ⟨hus0, hkeep⟩ := e5 hus
                have hum := List.mem_of_getElem? hj
                rw [e3]
                by_cases hst : u0.info.storage = t.info.storage
                · rw [hst]
                  exact hself
                · obtain ⟨w2, hw2, hg2⟩ := hA.val u0 hum hus0
                  refine ⟨w2, ?_, ?_⟩
                  · rw [List.getElem?_set_ne (Ne.symm hst), hw2]
                  · simp only [φ', b', if_neg hst]
                    rw [List.getElem?_append_left (List.getElem?_eq_some_iff.1 hg2).1, hg2]
              · rw [List.mem_singleton] at hu
                subst hu
                exact hself
            · have key : ∀ u ∈ outdateT t.info.storage (some a) T ++ [⟨⟨t.info.storage, false, false⟩, t.ref, ⟨env.length, none⟩⟩], u.info.stale = false →
                  ∃ u0 ∈ T, u0.info.storage = u.info.storage ∧ u0.info.stale = false := by
                intro u hu hus
                rcases List.mem_append.1 hu with hu | hu
                · obtain ⟨j, u0, hj, e1, e2, e3, e4, e5⟩ := outdateT_mem hu
                  exact ⟨u0, List.mem_of_getElem? hj, e3.symm, (e5 hus).1⟩
                · rw [List.mem_singleton] at hu
                  subst hu
                  exact ⟨t, hm, rfl, hs⟩
              intro u hu u' hu' hus hus' h
              obtain ⟨x, x1, x2, x3⟩ := key u hu hus
              obtain ⟨y, y1, y2, y3⟩ := key u' hu' hus'
              rw [← x2, ← y2] at h ⊢
              simp only [φ'] at h
              have hx := hgl x x1 x3
              have hy := hgl y y1 y3
              by_cases c1 : x.info.storage = t.info.storage <;> by_cases c2 : y.info.storage = t.info.storage
              · rw [c1, c2]
              · rw [if_pos c1, if_neg c2] at h
                omega
              · rw [if_neg c1, if_pos c2] at h
                omega
              · rw [if_neg c1, if_neg c2] at h
                exact hA.inj x x1 y y1 x3 y3 h
          · rw [List.map_append, o1]
            rfl
          · rw [List.map_append, o2]
            rfl
          · simp
  | meth f a args =>
    unfold track at htr
    simp only at htr
    rw [List.getElem?_map] at htr
    cases ht : T[a]? with
    | none =>
      rw [ht] at htr
      simp at htr
    | some t =>
      rw [ht, Option.map_some] at htr
      simp only at htr
      by_cases hc : (t.info.stale || !args.all (readable (T.map Tri.info))) = true
      · rw [if_pos hc] at htr
        simp at htr
      · rw [if_neg hc, Option.some.injEq, Prod.mk.injEq] at htr
        obtain ⟨rfl, rfl⟩ := htr
        simp only [Bool.or_eq_true, not_or, Bool.not_eq_true, Bool.not_eq_false'] at hc
        obtain ⟨hs, hr⟩ := hc
        have hm := List.mem_of_getElem? ht
        obtain ⟨k, hk, hl, he⟩ := hA.ref t hm hs
        obtain ⟨w, hw, hg⟩ := hA.val t hm hs
        have hra : ∀ x ∈ a :: args, readable (T.map Tri.info) x = true := by
          intro x hx
          rcases List.mem_cons.1 hx with rfl | hx
          · unfold readable
            simp [List.getElem?_map, ht, hs]
          · exact List.all_eq_true.1 (by simpa using hr) x hx
        obtain ⟨vs, ns', h1, h2, h3⟩ := values_agree hA (a :: args) hra
        unfold names at h2
        simp only [List.getElem?_map, ht, Option.map_some] at h2
        cases hns : names (T.map Tri.name) args with
        | none =>
          rw [hns] at h2
          simp at h2
        | some ns =>
          rw [hns] at h2
          simp only [Option.some.injEq] at h2
          subst h2
          have hrs := (hA.loc t hm).1
          unfold exec at hex
          simp only at hex
          rw [h1] at hex
          simp only [List.getElem?_map, ht, Option.map_some] at hex
          unfold write at hex
          rw [hrs, hw] at hex
          simp only [Option.map_some, Option.some.injEq] at hex
          subst hex
          have hsl : t.info.storage < st.length := (List.getElem?_eq_some_iff.1 hw).1
          have hgsl := hgl t hm hs
          -- both storages written
          have hB : Tracks T (st.set t.info.storage (t.ref.lens.put w (sem f vs))) (gst.set (φ t.info.storage) (k.put ((b t.info.storage).get w) (sem f vs))) env b φ := by
            refine ⟨hA.law, ?_, hA.ref, ?_, hA.inj⟩
            · intro u hu
              obtain ⟨a1, a2, a3, a4⟩ := hA.loc u hu
              exact ⟨a1, by simpa using a2, a3, a4⟩
            · intro u hu hus
              by_cases hst : u.info.storage = t.info.storage
              · rw [hst]
                refine ⟨t.ref.lens.put w (sem f vs), List.getElem?_set_self hsl, ?_⟩
                rw [List.getElem?_set_self hgsl, he]
                show some _ = some ((b t.info.storage).get ((b t.info.storage).put w (k.put ((b t.info.storage).get w) (sem f vs))))
                rw [hA.law]
              · obtain ⟨w2, hw2, hg2⟩ := hA.val u hu hus
                refine ⟨w2, ?_, ?_⟩
                · rw [List.getElem?_set_ne (Ne.symm hst), hw2]
                · rw [List.getElem?_set_ne, hg2]
                  intro h
                  exact hst (hA.inj t hm u hu hs hus h).symm
          refine ⟨T ++ [⟨⟨t.info.storage, false, false⟩, t.ref, ⟨env.length, none⟩⟩], gst.set (φ t.info.storage) (k.put ((b t.info.storage).get w) (sem f vs)),
            env ++ [.one ⟨φ t.info.storage, k⟩], b, φ, [.meth f t.name ns], ?_, ?_, ?_, ?_, ?_, ?_, ?_⟩
          · unfold record
            simp only [List.getElem?_map, ht, Option.map_some]
            rw [hns, List.map_append]
            rfl
          · simp only [steps, step]
            rw [h3, hl]
            simp only
            unfold write
            simp only
            rw [hg]
            rfl
          · simp
          · apply hB.push
            intro u hu
            rw [List.mem_singleton] at hu
            subst hu
            exact ⟨hrs, by simp, fun _ => rfl, ⟨t, hm, rfl, hs⟩, k, hk, by simp [lookup], he⟩
          · simp
          · simp
          · simp
  | setitem l a c =>
    unfold track at htr
    simp only at htr
    rw [List.getElem?_map] at htr
    cases ht : T[a]? with
    | none =>
      rw [ht] at htr
      simp at htr
    | some t =>
      rw [ht, Option.map_some] at htr
      simp only [Option.some.injEq, Prod.mk.injEq] at htr
      obtain ⟨rfl, rfl⟩ := htr
      have hm := List.mem_of_getElem? ht
      have hrs := (hA.loc t hm).1
      unfold exec at hex
      simp only [List.getElem?_map, ht, Option.map_some] at hex
      cases hv : (Mem.values ⟨st, T.map Tri.ref⟩ [c]) with
      | none =>
        rw [hv] at hex
        simp at hex
      | some vs =>
        rw [hv] at hex
        match vs, hex with
        | [v], hex =>
          simp only [Option.map_eq_some_iff] at hex
          obtain ⟨st', hst', rfl⟩ := hex
          unfold write at hst'
          rw [Option.map_eq_some_iff] at hst'
          obtain ⟨w, hw, rfl⟩ := hst'
          obtain ⟨o1, o2, o3⟩ := outdateT_map t.info.storage none T
          refine ⟨outdateT t.info.storage none T, gst, env, b, φ, [], ?_, rfl, rfl, ?_, o1, o2, by simp⟩
          · unfold record
            simp only
            rw [o3]
          · refine ⟨hA.law, ?_, ?_, ?_, ?_⟩
            · intro u hu
              obtain ⟨j, u0, hj, e1, e2, e3, e4, _⟩ := outdateT_mem hu
              obtain ⟨a1, a2, a3, a4⟩ := hA.loc u0 (List.mem_of_getElem? hj)
              rw [e1, e2, e3, e4]
              exact ⟨a1, by simpa using a2, a3, a4⟩
            · intro u hu hus
              obtain ⟨j, u0, hj, e1, e2, e3, e4, e5⟩ := outdateT_mem hu
              rw [e1, e2, e3]
              exact hA.ref u0 (List.mem_of_getElem? hj) (e5 hus).1
            · intro u hu hus
              obtain ⟨j, u0, hj, e1, e2, e3, e4, e5⟩ := outdateT_mem hu
              rw [e3]
              have hne : u0.info.storage ≠ t.info.storage := by
                intro h
                have := (e5 hus).2 h
                simp at this
              obtain ⟨w2, hw2, hg2⟩ := hA.val u0 (List.mem_of_getElem? hj) (e5 hus).1
              refine ⟨w2, ?_, hg2⟩
              simp only
              rw [List.getElem?_set_ne, hw2]
              rw [hrs]
              exact Ne.symm hne
            · intro u hu u' hu' hus hus' h
              obtain ⟨j, u0, hj, e1, e2, e3, e4, e5⟩ := outdateT_mem hu
              obtain ⟨j', u0', hj', e1', e2', e3', e4', e5'⟩ := outdateT_mem hu'
              rw [e3, e3'] at h ⊢
              exact hA.inj u0 (List.mem_of_getElem? hj) u0' (List.mem_of_getElem? hj') (e5 hus).1 (e5' hus').1 h

theorem run_agree (sem : F → List V → V) : ∀ (ss : List (Stmt F V)) (T : List (Tri V)) (st gst : List V) (env : List (Entry V)) (b : ℕ → Lens V) (φ : ℕ → ℕ), Tracks T st gst env b φ → Lawful ss →
    ∀ (n' : ℕ) (is' : List Info), tracks ss st.length (T.map Tri.info) = some (n', is') → ∀ m', run sem ss ⟨st, T.map Tri.ref⟩ = some m' →
    ∃ (T' : List (Tri V)) (gst' : List V) (env' : List (Entry V)) (b' : ℕ → Lens V) (φ' : ℕ → ℕ) (ls : List (Line F V)),
      trace env.length (T.map Tri.name) ss = some (ls, T'.map Tri.name) ∧ steps sem ls ⟨gst, env⟩ = some ⟨gst', env'⟩ ∧ Tracks T' m'.store gst' env' b' φ' ∧ T'.map Tri.info = is' ∧ T'.map Tri.ref = m'.objs
  | [], T, st, gst, env, b, φ, hA, _, n', is', ht, m', hr => by
    simp only [tracks, Option.some.injEq, Prod.mk.injEq] at ht
    simp only [run, Option.some.injEq] at hr
    subst hr
    exact ⟨T, gst, env, b, φ, [], rfl, rfl, hA, ht.2, rfl⟩
  | s :: ss, T, st, gst, env, b, φ, hA, hl, n', is', ht, m', hr => by
    unfold tracks at ht
    unfold run at hr
    rw [Option.bind_eq_some_iff] at ht hr
    obtain ⟨⟨n1, is1⟩, ht1, ht2⟩ := ht
    obtain ⟨m1, hr1, hr2⟩ := hr
    obtain ⟨T1, gst1, env1, b1, φ1, ls1, a1, a2, a3, a4, a5, a6, a7⟩ := step_agree sem hA s (fun x hx => hl x (by rw [List.mem_singleton] at hx; simp [hx])) ht1 hr1
    have hm1 : m1 = ⟨m1.store, T1.map Tri.ref⟩ := by rw [a6]
    obtain ⟨T2, gst2, env2, b2, φ2, ls2, c1, c2, c3, c4, c5⟩ := run_agree sem ss T1 m1.store gst1 env1 b1 φ1 a4 (fun x hx => hl x (by simp [hx])) n' is' (by rw [a5, ← a7]; exact ht2) m' (by rw [← hm1]; exact hr2)
    refine ⟨T2, gst2, env2, b2, φ2, ls1 ++ ls2, ?_, ?_, c3, c4, c5⟩
    · unfold trace
      rw [a1]
      simp only
      rw [← a3, c1]
    · have happ : ∀ (xs ys : List (Line F V)) (m : State V), steps sem (xs ++ ys) m = (steps sem xs m).bind (steps sem ys) := by
        intro xs
        induction xs with
        | nil => intro ys m; rfl
        | cons x xs ih =>
          intro ys m
          simp only [List.cons_append, steps]
          cases step sem m x with
          | none => rfl
          | some m2 => exact ih ys m2
      rw [happ, a2]
      exact c2

theorem start_agree (xs : List V) : Tracks ((List.range xs.length).map fun i => (⟨⟨i, false, false⟩, ⟨i, Lens.whole⟩, ⟨i, none⟩⟩ : Tri V)) xs xs (begin_ xs).env (fun _ => Lens.whole) (fun s => s) := by
  have hl : (begin_ xs).env.length = xs.length := by simp [begin_]
  refine ⟨fun _ => lens_whole_lawful, ?_, ?_, ?_, ?_⟩
  · intro t ht
    obtain ⟨i, hi, rfl⟩ := List.mem_map.1 ht
    rw [List.mem_range] at hi
    exact ⟨rfl, hi, by rw [hl]; exact hi, fun _ => rfl⟩
  · intro t ht _
    obtain ⟨i, hi, rfl⟩ := List.mem_map.1 ht
    rw [List.mem_range] at hi
    refine ⟨Lens.whole, lens_whole_lawful, ?_, rfl⟩
    simp [lookup, begin_, hi]
  · intro t ht _
    obtain ⟨i, hi, rfl⟩ := List.mem_map.1 ht
    rw [List.mem_range] at hi
    exact ⟨xs[i], List.getElem?_eq_getElem hi, List.getElem?_eq_getElem hi⟩
  · intro t _ u _ _ _ h
    exact h

/-- The generated code returns what the original returns, if no tensor is read after its storage was written by an operator like `+=` or by an assignment to a part, through another tensor, and no such
operator is applied to one of several results. -/
theorem C82_returned_partial (sem : F → List V → V) (ss : List (Stmt F V)) (outs : List ℕ) (xs : List V) (hl : Lawful ss) (hc : Clean xs.length ss outs) (vs st : List V)
    (ho : original sem ss outs xs = some (vs, st)) : ∃ st', generated sem ss outs xs = some (vs, st') := by
  obtain ⟨n, is, ht, hr⟩ := hc
  unfold original at ho
  cases hrun : run sem ss (start xs) with
  | none =>
    rw [hrun] at ho
    simp at ho
  | some m =>
    rw [hrun] at ho
    simp only [Option.map_eq_some_iff, Prod.mk.injEq] at ho
    obtain ⟨vs', hv, rfl, _⟩ := ho
    have e1 : ((List.range xs.length).map fun i => (⟨⟨i, false, false⟩, ⟨i, Lens.whole⟩, ⟨i, none⟩⟩ : Tri V)).map Tri.info = (List.range xs.length).map fun i => (⟨i, false, false⟩ : Info) := by simp
    have e2 : start xs = ⟨xs, ((List.range xs.length).map fun i => (⟨⟨i, false, false⟩, ⟨i, Lens.whole⟩, ⟨i, none⟩⟩ : Tri V)).map Tri.ref⟩ := by simp [start]
    have e3 : ((List.range xs.length).map fun i => (⟨⟨i, false, false⟩, ⟨i, Lens.whole⟩, ⟨i, none⟩⟩ : Tri V)).map Tri.name = inputNames xs.length := by simp [inputNames]
    have e4 : (begin_ xs).env.length = xs.length := by simp [begin_]
    obtain ⟨T', gst', env', b', φ', ls, h1, h2, h3, h4, h5⟩ := run_agree sem ss _ xs xs (begin_ xs).env _ _ (start_agree xs) hl n is (by rw [e1]; exact ht) m (by rw [← e2]; exact hrun)
    rw [e4, e3] at h1
    obtain ⟨vs2, ns, v1, v2, v3⟩ := values_agree h3 outs (by rw [h4]; exact List.all_eq_true.1 hr)
    have hvs : vs2 = vs' := by
      rw [h5] at v1
      have : (⟨m.store, m.objs⟩ : Mem V) = m := rfl
      rw [this, hv] at v1
      exact (Option.some.inj v1).symm
    subst hvs
    refine ⟨gst'.take xs.length, ?_⟩
    unfold generated
    rw [h1]
    simp only
    have hb : begin_ xs = ⟨xs, (begin_ xs).env⟩ := rfl
    rw [v2, hb, h2]
    simp only
    rw [v3]
    rfl

/-- Operations for the examples on pairs: add one to both, add, constant. -/
inductive PairOp
  | inc | add
  deriving DecidableEq

/-- What they compute. -/
def pairOpSem : PairOp → List (ℕ × ℕ) → ℕ × ℕ
  | .inc, a :: _ => (a.1 + 1, a.2 + 1)
  | .add, a :: b :: _ => (a.1 + b.1, a.2 + b.2)
  | _, _ => (0, 0)

/-- The first component, as a pair with itself. -/
def firstPart : Lens (ℕ × ℕ) := ⟨fun p => (p.1, p.1), fun p v => (v.1, p.2)⟩

/-- The swapped pair. -/
def swapped : Lens (ℕ × ℕ) := ⟨fun p => (p.2, p.1), fun _ v => (v.2, v.1)⟩

/-- `z = swap(y); y += 1; return z` with `y = x + x`. -/
theorem C82_view_false : ∃ (ss : List (Stmt PairOp (ℕ × ℕ))) (outs : List ℕ) (xs vs vs' st st' : List (ℕ × ℕ)), Lawful ss ∧ original pairOpSem ss outs xs = some (vs, st) ∧
    generated pairOpSem ss outs xs = some (vs', st') ∧ vs ≠ vs' := by
  refine ⟨[.call .add [0, 0], .view swapped 1, .iop .inc 1 []], [2], [(1, 2)], [(5, 3)], [(4, 2)], [(1, 2)], [(1, 2)], ?_, by decide +kernel, by decide +kernel, by decide⟩
  intro s hs
  simp only [List.mem_cons, List.not_mem_nil, or_false] at hs
  rcases hs with rfl | rfl | rfl
  · trivial
  · intro w v
    rfl
  · trivial

/-- Writing through a view is lost too: `z = swap(y); z += 1; return y`, as in `y[:, 0] += 1`. -/
theorem C82_part_false : ∃ (ss : List (Stmt PairOp (ℕ × ℕ))) (outs : List ℕ) (xs vs vs' st st' : List (ℕ × ℕ)), original pairOpSem ss outs xs = some (vs, st) ∧
    generated pairOpSem ss outs xs = some (vs', st') ∧ vs ≠ vs' :=
  ⟨[.call .add [0, 0], .view swapped 1, .iop .inc 2 []], [1], [(1, 2)], [(3, 5)], [(2, 4)], [(1, 2)], [(1, 2)], by decide +kernel, by decide +kernel, by decide⟩

/-- Assigning to a part is lost: `y[...] = x; return y`. -/
theorem C82_assignment_false : ∃ (ss : List (Stmt PairOp (ℕ × ℕ))) (outs : List ℕ) (xs vs vs' st st' : List (ℕ × ℕ)), original pairOpSem ss outs xs = some (vs, st) ∧
    generated pairOpSem ss outs xs = some (vs', st') ∧ vs ≠ vs' :=
  ⟨[.call .add [0, 0], .setitem firstPart 1 0], [1], [(1, 2)], [(1, 4)], [(2, 4)], [(1, 2)], [(1, 2)], by decide +kernel, by decide +kernel, by decide⟩

/-- The second of two operations in place is not seen through the first name: `z = y; z += 1; z += 1; return y`. -/
theorem C82_twice_false : ∃ (ss : List (Stmt PairOp (ℕ × ℕ))) (outs : List ℕ) (xs vs vs' st st' : List (ℕ × ℕ)), original pairOpSem ss outs xs = some (vs, st) ∧
    generated pairOpSem ss outs xs = some (vs', st') ∧ vs ≠ vs' :=
  ⟨[.call .add [0, 0], .iop .inc 1 [], .iop .inc 2 []], [1], [(1, 2)], [(4, 6)], [(3, 5)], [(1, 2)], [(1, 2)], by decide +kernel, by decide +kernel, by decide⟩

/-- One of several results cannot be changed in place at all: `a, b = y.chunk(2); a += 1; return a` raises an error. -/
theorem C82_chunk_false : ∃ (ss : List (Stmt PairOp (ℕ × ℕ))) (outs : List ℕ) (xs : List (ℕ × ℕ)), (original pairOpSem ss outs xs).isSome ∧ generated pairOpSem ss outs xs = none :=
  ⟨[.call .add [0, 0], .split [firstPart, swapped] 1, .iop .inc 2 []], [4], [(1, 2)], by decide +kernel, by decide +kernel⟩

/-- The tensor of the caller: the original changes it, the generated code does not. -/
theorem C82_caller_false : ∃ (ss : List (Stmt PairOp (ℕ × ℕ))) (outs : List ℕ) (xs vs st st' : List (ℕ × ℕ)), original pairOpSem ss outs xs = some (vs, st) ∧
    generated pairOpSem ss outs xs = some (vs, st') ∧ st ≠ st' :=
  ⟨[.iop .inc 0 []], [1], [(1, 2)], [(2, 3)], [(2, 3)], [(1, 2)], by decide +kernel, by decide +kernel, by decide⟩

/-- With elimination of dead code, `y.add_(1)` whose result is not used is dropped, although the generated code without it is right. -/
theorem C82_dead_false : ∃ (ss : List (Stmt PairOp (ℕ × ℕ))) (outs : List ℕ) (xs vs vs' st st' : List (ℕ × ℕ)), original pairOpSem ss outs xs = some (vs, st) ∧
    generated pairOpSem ss outs xs = some (vs, st') ∧ generatedLive pairOpSem ss outs xs = some vs' ∧ vs ≠ vs' :=
  ⟨[.call .add [0, 0], .meth .inc 1 []], [1], [(1, 2)], [(3, 5)], [(2, 4)], [(1, 2)], [(1, 2)], by decide +kernel, by decide +kernel, by decide +kernel, by decide⟩

/-- A program that meets the condition: `y = x + x; a, b = y.chunk(2); b.add_(1); c = y + a; c += 1; d = swap(c); d += x; return d, y, c's old name is not read`. -/
example : Clean (F := PairOp) (V := ℕ × ℕ) 1 [.call .add [0, 0], .split [swapped, swapped] 1, .meth .inc 3 [], .call .add [1, 2], .iop .inc 5 [], .view swapped 6, .iop .add 7 [0]] [8, 1, 7] :=
  ⟨_, _, rfl, by decide⟩

example : original pairOpSem [.call .add [0, 0], .split [swapped, swapped] 1, .meth .inc 3 [], .call .add [1, 2], .iop .inc 5 [], .view swapped 6, .iop .add 7 [0]] [8, 1, 7] [(1, 2)] =
    some ([(10, 11), (3, 5), (10, 11)], [(1, 2)]) := by decide +kernel

end Verif.Props
