import Verif.Spec.DimChoose
import Mathlib.Tactic.IntervalCases
import Mathlib.Data.List.Dedup

/-!
C122: when several dimensions of a tensor could be pruned, the pruner settles on one dimension per tensor that fits at every operator, if there is such a choice.
-/

namespace Verif.Props
open Verif.Model.DimChoose Verif.Spec.DimChoose

theorem update_or (f : Nat → Option (List Nat)) (cur : List (Nat × List Nat)) (g : Nat → Nat) (h : ∀ p ∈ cur, p.2 = [g p.1]) (x : Nat) :
    (x ∈ cur.map Prod.fst → update f cur x = some [g x]) ∧ (x ∉ cur.map Prod.fst → update f cur x = f x) := by
  induction cur generalizing f with
  | nil => simp [update]
  | cons p r ih =>
    obtain ⟨k, v⟩ := p
    have hv : v = [g k] := h (k, v) (by simp)
    have := ih (fun x => if x = k then some v else f x) (fun q hq => h q (by simp [hq]))
    refine ⟨fun hx => ?_, fun hx => ?_⟩
    · simp only [update]
      by_cases hr : x ∈ r.map Prod.fst
      · exact this.1 hr
      · rw [this.2 hr]
        have : x = k := by simpa [hr] using hx
        simp [this, hv]
    · simp only [List.map_cons, List.mem_cons, not_or] at hx
      simp only [update]
      rw [this.2 hx.2, if_neg hx.1]

theorem union_single (d : Nat) : union [[d]] = [d] := by simp [union]

/-- What the operator computes from a fitting choice. -/
theorem calc_fits {o : Op} {g : Nat → Nat} (hf : Fits o g) (hm : o.mappable = true) {t : Nat} (ht : t ∈ tensors o) :
    ∃ cur, calcDims o t [g t] = some cur ∧ (∀ p ∈ cur, p.2 = [g p.1]) ∧ (∀ u, u ∈ cur.map Prod.fst ↔ u ∈ tensors o) := by
  unfold calcDims
  rw [hm]
  simp only [Bool.not_true, Bool.false_eq_true, if_false, List.map_cons, List.map_nil]
  by_cases hp : t ∈ o.pre
  · rw [if_pos hp]
    refine ⟨_, rfl, ?_, ?_⟩
    · intro p hpm
      rcases List.mem_append.1 hpm with h | h
      · obtain ⟨u, hu, rfl⟩ := List.mem_map.1 h
        simp [hf.inputs t hp u hu]
      · obtain ⟨u, hu, rfl⟩ := List.mem_map.1 h
        simp only [hf.forward t hp u hu, union_single]
    · intro u
      simp [tensors]
  · have hn : t ∈ o.nxt := by
      rcases List.mem_append.1 ht with h | h
      · exact absurd h hp
      · exact h
    rw [if_neg hp, if_pos hn]
    refine ⟨_, rfl, ?_, ?_⟩
    · intro p hpm
      rcases List.mem_append.1 hpm with h | h
      · obtain ⟨u, hu, rfl⟩ := List.mem_map.1 h
        simp [hf.outputs t hn u hu]
      · obtain ⟨u, hu, rfl⟩ := List.mem_map.1 h
        simp only [hf.backward t hn u hu, union_single]
    · intro u
      simp [tensors, or_comm]

theorem conflictLoop_fits {o : Op} {g : Nat → Nat} (hp : Possible o g) (cur : List (Nat × List Nat)) (h1 : ∀ p ∈ cur, p.2 = [g p.1]) (h2 : ∀ p ∈ cur, p.1 ∈ tensors o) :
    conflictLoop o cur = some false := by
  induction cur with
  | nil => rfl
  | cons p r ih =>
    obtain ⟨u, c⟩ := p
    have hc : c = [g u] := h1 (u, c) (by simp)
    obtain ⟨cs, hcs, x, hx, hg⟩ := hp u (h2 (u, c) (by simp))
    simp only [conflictLoop, hcs]
    rw [if_pos]
    · exact ih (fun q hq => h1 q (by simp [hq])) (fun q hq => h2 q (by simp [hq]))
    · simp only [hc, List.all_cons, List.all_nil, Bool.and_true, decide_eq_true_eq, List.mem_flatten]
      exact ⟨x, hx, hg⟩

theorem good_refl (G : Graph) (g : Nat → Nat) (ops : List Nat) (st : State) : Good G g ops st st :=
  ⟨fun _ h => h, fun _ h h' => absurd h h', fun _ => .inl rfl, fun _ _ => rfl, fun _ h h' => absurd h h', fun _ h h' => absurd h h'⟩

theorem settled_mono {G : Graph} {g : Nat → Nat} {a b : List Nat} (h : ∀ x ∈ a, x ∈ b) {m t : Nat} : Settled G g a m t → Settled G g b m t :=
  Or.imp_left (h m)

theorem good_trans {G : Graph} {g : Nat → Nat} {ops : List Nat} {a b c : State} (h1 : Good G g ops a b) (h2 : Good G g ops b c) : Good G g ops a c := by
  refine ⟨fun x hx => h2.grow x (h1.grow x hx), fun x hx hn => ?_, fun u => ?_, fun u hu => ?_, fun x hx hn u hu => ?_, fun x hx hn p hp => ?_⟩
  · by_cases hb : x ∈ b.mods
    · exact h1.inside x hb hn
    · exact h2.inside x hx hb
  · rcases h2.value u with h | h
    · rw [h]; exact h1.value u
    · exact .inr h
  · rw [h2.frame u (fun x hx hb => hu x hx (fun ha => hb (h1.grow x ha))), h1.frame u (fun x hx ha => hu x (h2.grow x hx) ha)]
  · by_cases hb : x ∈ b.mods
    · rcases h2.value u with h | h
      · rw [h]; exact h1.carried x hb hn u hu
      · exact h
    · exact h2.carried x hx hb u hu
  · by_cases hb : x ∈ b.mods
    · exact settled_mono h2.grow (h1.closed x hb hn p hp)
    · exact h2.closed x hx hb p hp

theorem left_le {ops : List Nat} {a b : State} (h : ∀ x ∈ a.mods, x ∈ b.mods) : left ops b ≤ left ops a := by
  unfold left
  induction ops with
  | nil => simp
  | cons x r ih =>
    by_cases hb : x ∈ b.mods
    · by_cases ha : x ∈ a.mods <;> simp [ha, hb] <;> omega
    · have ha : x ∉ a.mods := fun ha => hb (h x ha)
      simp [ha, hb]; omega

theorem left_lt {ops : List Nat} {a b : State} (h : ∀ x ∈ a.mods, x ∈ b.mods) {m : Nat} (hm : m ∈ ops) (ha : m ∉ a.mods) (hb : m ∈ b.mods) : left ops b < left ops a := by
  unfold left
  induction ops with
  | nil => simp at hm
  | cons x r ih =>
    have hle := left_le (ops := r) h
    unfold left at hle
    by_cases hx : m = x
    · subst hx
      simp [ha, hb]; omega
    · have := ih (by simpa [hx] using hm)
      by_cases hxb : x ∈ b.mods
      · by_cases hxa : x ∈ a.mods <;> simp [hxa, hxb] <;> omega
      · have hxa : x ∉ a.mods := fun hxa => hxb (h x hxa)
        simp [hxa, hxb]; omega

theorem wired_all {G : Graph} {ops : List Nat} (hw : Wired G ops) : ∀ m ∈ ops, ∀ p ∈ G.preN m ++ G.nextN m, p.1 ∈ ops ∧ p.2 ∈ tensors (G.op m) ∧ p.2 ∈ tensors (G.op p.1) := by
  intro m hm p hp
  rcases List.mem_append.1 hp with h | h
  · obtain ⟨a, b, c⟩ := (hw m hm).1 p h
    exact ⟨a, List.mem_append_left _ b, List.mem_append_right _ c⟩
  · obtain ⟨a, b, c⟩ := (hw m hm).2 p h
    exact ⟨a, List.mem_append_right _ b, List.mem_append_left _ c⟩

theorem visit_good {G : Graph} {g : Nat → Nat} {ops : List Nat} (fuel : Nat)
    (ih : ∀ st m t, m ∈ ops → t ∈ tensors (G.op m) → st.choice t = some [g t] → left ops st < fuel →
      ∃ st', traverse G fuel st m t = some (true, st') ∧ Good G g ops st st' ∧ Settled G g st'.mods m t)
    (l : List (Nat × Nat)) (st : State) (hl : ∀ p ∈ l, p.1 ∈ ops ∧ p.2 ∈ tensors (G.op p.1) ∧ st.choice p.2 = some [g p.2]) (hf : left ops st < fuel) :
    ∃ st', visit (traverse G fuel) st l = some (true, st') ∧ Good G g ops st st' ∧ ∀ p ∈ l, Settled G g st'.mods p.1 p.2 := by
  induction l generalizing st with
  | nil => exact ⟨st, rfl, good_refl .., by simp⟩
  | cons p r ihl =>
    obtain ⟨m, t⟩ := p
    obtain ⟨h1, h2, h3⟩ := hl (m, t) (by simp)
    obtain ⟨st1, e1, g1, s1⟩ := ih st m t h1 h2 h3 hf
    obtain ⟨st2, e2, g2, s2⟩ := ihl st1 (fun q hq => ⟨(hl q (by simp [hq])).1, (hl q (by simp [hq])).2.1, by
      rcases g1.value q.2 with h | h
      · rw [h]; exact (hl q (by simp [hq])).2.2
      · exact h⟩) (lt_of_le_of_lt (left_le g1.grow) hf)
    refine ⟨st2, ?_, good_trans g1 g2, ?_⟩
    · simp only at h3
      simp only [visit, h3, e1, e2]
    · intro q hq
      rcases List.mem_cons.1 hq with rfl | hq
      · exact settled_mono g2.grow s1
      · exact s2 q hq

/-- **C122**.  If there is a dimension for every tensor such that all operators agree and every operator admits it, then carrying the choice made for one tensor to the rest of the graph
succeeds; every tensor of every operator it visits gets that dimension, no other choice changes, and nothing is left undone at the neighbours of the operators visited.  Choices left behind by
earlier attempts (`st`) do not matter. -/
theorem C122_found_partial (G : Graph) (g : Nat → Nat) (ops : List Nat) (hw : Wired G ops) (hfit : ∀ m ∈ ops, (G.op m).const = false → (G.op m).mappable = true → Fits (G.op m) g)
    (hpos : ∀ m ∈ ops, (G.op m).const = false → Possible (G.op m) g) (fuel : Nat) (st : State) (m t : Nat) (hm : m ∈ ops) (ht : t ∈ tensors (G.op m)) (hc : st.choice t = some [g t])
    (hfuel : left ops st < fuel) :
    ∃ st', traverse G fuel st m t = some (true, st') ∧ Good G g ops st st' ∧ Settled G g st'.mods m t := by
  induction fuel generalizing st m t with
  | zero => omega
  | succ fuel ih =>
    unfold traverse
    by_cases h1 : m ∈ st.mods
    · exact ⟨st, by rw [if_pos h1], good_refl .., .inl h1⟩
    rw [if_neg h1]
    cases h2 : (G.op m).const with
    | true => exact ⟨st, by simp, good_refl .., .inr (.inl h2)⟩
    | false =>
    obtain ⟨cs, hcs, x, hx, hg⟩ := hpos m hm h2 t ht
    simp only [Bool.false_eq_true, if_false, hc, hcs]
    by_cases h3 : cs.all (fun x => x = [g t]) = true
    · refine ⟨st, by rw [if_pos h3], good_refl .., .inr (.inr (.inr ?_))⟩
      intro cs' hcs' c hcm
      rw [hcs] at hcs'
      cases hcs'
      simpa using List.all_eq_true.1 h3 c hcm
    rw [if_neg h3]
    cases h4 : (G.op m).mappable with
    | false =>
      refine ⟨st, ?_, good_refl .., .inr (.inr (.inl h4))⟩
      simp [calcDims, h4]
    | true =>
    obtain ⟨cur, hcur, hval, hkeys⟩ := calc_fits (hfit m hm h2 h4) h4 ht
    have hne : cur ≠ [] := by
      intro h
      have := (hkeys t).2 ht
      simp [h] at this
    have hconf : conflict (G.op m) cur = some false := by
      unfold conflict
      rw [if_neg (fun h => hne h.1)]
      exact conflictLoop_fits (hpos m hm h2) cur hval (fun p hp => (hkeys p.1).1 (List.mem_map_of_mem hp))
    simp only [hcur, hconf, hne, false_and, if_false]
    set st1 : State := ⟨st.mods ++ [m], update st.choice cur⟩ with hst1
    have hgrow1 : ∀ x ∈ st.mods, x ∈ st1.mods := fun x hx => List.mem_append_left _ hx
    have hlt : left ops st1 < left ops st := left_lt hgrow1 hm h1 (by simp [hst1])
    have hch : ∀ u ∈ tensors (G.op m), st1.choice u = some [g u] := fun u hu => (update_or st.choice cur g hval u).1 ((hkeys u).2 hu)
    obtain ⟨st2, e2, g2, s2⟩ := visit_good (g := g) (ops := ops) fuel (fun st m t a b c d => ih st m t a b c d) (G.preN m ++ G.nextN m) st1
      (fun p hp => ⟨(wired_all hw m hm p hp).1, (wired_all hw m hm p hp).2.2, hch _ (wired_all hw m hm p hp).2.1⟩) (by omega)
    rw [e2]
    have hmem : m ∈ st2.mods := g2.grow m (by simp [hst1])
    refine ⟨st2, rfl, ⟨fun x hx => g2.grow x (hgrow1 x hx), fun x hx hn => ?_, fun u => ?_, fun u hu => ?_, fun x hx hn u hu => ?_, fun x hx hn p hp => ?_⟩, .inl hmem⟩
    · by_cases hxm : x = m
      · rw [hxm]; exact hm
      · exact g2.inside x hx (by simp [hst1, hn, hxm])
    · rcases g2.value u with h | h
      · rw [h]
        by_cases hu : u ∈ cur.map Prod.fst
        · exact .inr ((update_or st.choice cur g hval u).1 hu)
        · exact .inl ((update_or st.choice cur g hval u).2 hu)
      · exact .inr h
    · have hum : u ∉ cur.map Prod.fst := fun h => hu m hmem h1 ((hkeys u).1 h)
      rw [g2.frame u (fun x hx hn => hu x hx (fun ha => hn (hgrow1 x ha)))]
      exact (update_or st.choice cur g hval u).2 hum
    · by_cases hxm : x = m
      · subst hxm
        rcases g2.value u with h | h
        · rw [h]; exact hch u hu
        · exact h
      · exact g2.carried x hx (by simp [hst1, hn, hxm]) u hu
    · by_cases hxm : x = m
      · subst hxm
        exact s2 p hp
      · exact g2.closed x hx (by simp [hst1, hn, hxm]) p hp

theorem accepted_refl (G : Graph) (ops : List Nat) (st : State) : Accepted G ops st st :=
  ⟨fun _ h => h, fun _ h => h, fun _ h h' => absurd h h', fun _ h h' => absurd h h'⟩

theorem asked_mono {G : Graph} {a b : List Nat} (h : ∀ x ∈ a, x ∈ b) {m t : Nat} : Asked G a m t → Asked G b m t :=
  Or.imp_left (h m)

theorem accepted_trans {G : Graph} {ops : List Nat} {a b c : State} (h1 : Accepted G ops a b) (h2 : Accepted G ops b c) : Accepted G ops a c := by
  refine ⟨fun x hx => h2.grow x (h1.grow x hx), fun u hu => h2.kept u (h1.kept u hu), fun x hx hn => ?_, fun x hx hn p hp => ?_⟩
  · by_cases hb : x ∈ b.mods
    · exact h1.accepts x hb hn
    · exact h2.accepts x hx hb
  · by_cases hb : x ∈ b.mods
    · exact asked_mono h2.grow (h1.asked x hb hn p hp)
    · exact h2.asked x hx hb p hp

theorem update_isSome (f : Nat → Option (List Nat)) (cur : List (Nat × List Nat)) (x : Nat) (h : x ∈ cur.map Prod.fst ∨ (f x).isSome = true) : (update f cur x).isSome = true := by
  induction cur generalizing f with
  | nil => simpa [update] using h
  | cons p r ih =>
    obtain ⟨k, v⟩ := p
    rw [update]
    apply ih
    by_cases hr : x ∈ r.map Prod.fst
    · exact .inl hr
    · right
      by_cases hk : x = k
      · simp [hk]
      · rw [if_neg hk]
        rcases h with h | h
        · exact absurd h (by simpa [hk] using hr)
        · exact h

theorem conflictLoop_false {o : Op} {cur : List (Nat × List Nat)} (h : conflictLoop o cur = some false) : ∀ p ∈ cur, ∃ cs, o.changes p.1 = some cs ∧ ∀ d ∈ p.2, d ∈ cs.flatten := by
  induction cur with
  | nil => intro p hp; simp at hp
  | cons q r ih =>
    obtain ⟨u, c⟩ := q
    rw [conflictLoop] at h
    cases hc : o.changes u with
    | none => simp [hc] at h
    | some cs =>
      simp only [hc] at h
      by_cases ha : c.all (fun d => d ∈ cs.flatten) = true
      · rw [if_pos ha] at h
        intro p hp
        rcases List.mem_cons.1 hp with rfl | hp
        · exact ⟨cs, hc, fun d hd => by simpa using List.all_eq_true.1 ha d hd⟩
        · exact ih h p hp
      · rw [if_neg ha] at h
        simp at h

theorem visit_accepted {G : Graph} {ops : List Nat} (fuel : Nat)
    (ih : ∀ st m t st', m ∈ ops → t ∈ tensors (G.op m) → traverse G fuel st m t = some (true, st') → Accepted G ops st st' ∧ Asked G st'.mods m t)
    (l : List (Nat × Nat)) (st st' : State) (hl : ∀ p ∈ l, p.1 ∈ ops ∧ p.2 ∈ tensors (G.op p.1) ∧ (st.choice p.2).isSome = true)
    (h : visit (traverse G fuel) st l = some (true, st')) : Accepted G ops st st' ∧ ∀ p ∈ l, Asked G st'.mods p.1 p.2 := by
  induction l generalizing st with
  | nil =>
    rw [visit] at h
    cases h
    exact ⟨accepted_refl .., by simp⟩
  | cons p r ihl =>
    obtain ⟨m, t⟩ := p
    obtain ⟨h1, h2, h3⟩ := hl (m, t) (by simp)
    obtain ⟨c, hc⟩ := Option.isSome_iff_exists.1 h3
    rw [visit] at h
    simp only at hc
    simp only [hc] at h
    cases hr : traverse G fuel st m t with
    | none => simp [hr] at h
    | some r1 =>
      obtain ⟨b, st1⟩ := r1
      cases b with
      | false => simp [hr] at h
      | true =>
        simp only [hr] at h
        obtain ⟨g1, s1⟩ := ih st m t st1 h1 h2 hr
        obtain ⟨g2, s2⟩ := ihl st1 (fun q hq => ⟨(hl q (by simp [hq])).1, (hl q (by simp [hq])).2.1, g1.kept _ (hl q (by simp [hq])).2.2⟩) h
        refine ⟨accepted_trans g1 g2, fun q hq => ?_⟩
        rcases List.mem_cons.1 hq with rfl | hq
        · exact asked_mono g2.grow s1
        · exact s2 q hq

/-- **C122**, the other direction.  When carrying a choice through the graph succeeds, every operator it visited accepts the dimensions it was asked about, and every neighbour of a visited
operator has been asked too (or has nothing to say).  (That they all hold at once is more, see `C122_overwritten_false`.) -/
theorem C122_accepted_partial (G : Graph) (ops : List Nat) (hw : Wired G ops) (fuel : Nat) (st st' : State) (m t : Nat) (hm : m ∈ ops) (ht : t ∈ tensors (G.op m))
    (h : traverse G fuel st m t = some (true, st')) : Accepted G ops st st' ∧ Asked G st'.mods m t := by
  induction fuel generalizing st st' m t with
  | zero => simp [traverse] at h
  | succ fuel ih =>
    unfold traverse at h
    by_cases h1 : m ∈ st.mods
    · rw [if_pos h1] at h
      cases h
      exact ⟨accepted_refl .., .inl h1⟩
    rw [if_neg h1] at h
    by_cases h2 : (G.op m).const = true
    · rw [if_pos h2] at h
      cases h
      exact ⟨accepted_refl .., .inr (.inl h2)⟩
    rw [if_neg h2] at h
    cases hc : st.choice t with
    | none => simp [hc] at h
    | some c =>
    cases hcs : (G.op m).changes t with
    | none => simp [hc, hcs] at h
    | some cs =>
    simp only [hc, hcs] at h
    by_cases h3 : cs.all (fun x => x = c) = true
    · rw [if_pos h3] at h
      cases h
      exact ⟨accepted_refl .., .inr (.inr (.inr ⟨cs, c, hcs, fun x hx => by simpa using List.all_eq_true.1 h3 x hx⟩))⟩
    rw [if_neg h3] at h
    cases hcur : calcDims (G.op m) t c with
    | none => simp [hcur] at h
    | some cur =>
    simp only [hcur] at h
    by_cases h4 : cur = [] ∧ c ≠ []
    · rw [if_pos h4] at h
      cases h
      refine ⟨accepted_refl .., .inr (.inr (.inl ?_))⟩
      by_contra hmap
      have hmap' : (G.op m).mappable = true := by simpa using hmap
      obtain ⟨e, hcne⟩ := h4
      subst e
      rw [calcDims, hmap'] at hcur
      simp only [Bool.not_true, Bool.false_eq_true, if_false, hcne] at hcur
      by_cases hp : t ∈ (G.op m).pre
      · rw [if_pos hp] at hcur
        have he : (G.op m).pre = [] := by
          have := Option.some.inj hcur
          simp only [List.append_eq_nil_iff, List.map_eq_nil_iff] at this
          exact this.1
        simp [he] at hp
      · rw [if_neg hp] at hcur
        have hn : t ∈ (G.op m).nxt := by
          rcases List.mem_append.1 ht with h | h
          · exact absurd h hp
          · exact h
        rw [if_pos hn] at hcur
        have he : (G.op m).nxt = [] := by
          have := Option.some.inj hcur
          simp only [List.append_eq_nil_iff, List.map_eq_nil_iff] at this
          exact this.1
        simp [he] at hn
    rw [if_neg h4] at h
    cases hconf : conflict (G.op m) cur with
    | none => simp [hconf] at h
    | some b =>
    cases b with
    | true => simp [hconf] at h
    | false =>
    simp only [hconf] at h
    -- the operator accepts
    have hne : cur ≠ [] := by
      intro e
      unfold conflict at hconf
      rw [if_pos ⟨e, t, ht, by simp [hcs]⟩] at hconf
      simp at hconf
    have hloop : conflictLoop (G.op m) cur = some false := by
      unfold conflict at hconf
      rwa [if_neg (fun h => hne h.1)] at hconf
    have hkeys : ∀ u ∈ tensors (G.op m), u ∈ cur.map Prod.fst := by
      intro u hu
      rw [calcDims] at hcur
      by_cases hmap : (G.op m).mappable = true
      · simp only [hmap, Bool.not_true, Bool.false_eq_true, if_false] at hcur
        by_cases hp : t ∈ (G.op m).pre
        · rw [if_pos hp] at hcur
          by_cases hc0 : c = []
          · rw [if_pos hc0] at hcur
            exact absurd (Option.some.inj hcur).symm hne
          · rw [if_neg hc0] at hcur
            rw [← Option.some.inj hcur]
            simpa [tensors] using hu
        · rw [if_neg hp] at hcur
          by_cases hn : t ∈ (G.op m).nxt
          · rw [if_pos hn] at hcur
            by_cases hc0 : c = []
            · rw [if_pos hc0] at hcur
              exact absurd (Option.some.inj hcur).symm hne
            · rw [if_neg hc0] at hcur
              rw [← Option.some.inj hcur]
              simpa [tensors, or_comm] using hu
          · rw [if_neg hn] at hcur
            simp at hcur
      · have hf : (G.op m).mappable = false := by simpa using hmap
        simp only [hf, Bool.not_false, if_true] at hcur
        exact absurd (Option.some.inj hcur).symm hne
    have hadm : Admits (G.op m) t c := ⟨cur, hcur, hkeys, conflictLoop_false hloop⟩
    set st1 : State := ⟨st.mods ++ [m], update st.choice cur⟩ with hst1
    cases hv : visit (traverse G fuel) st1 (G.preN m ++ G.nextN m) with
    | none => simp [hv] at h
    | some r =>
    obtain ⟨b, st2⟩ := r
    cases b with
    | false => simp [hv] at h
    | true =>
    simp only [hv] at h
    cases h
    obtain ⟨g2, s2⟩ := visit_accepted (ops := ops) fuel (fun st m t st' a b c => ih st st' m t a b c) (G.preN m ++ G.nextN m) st1 st'
      (fun p hp => ⟨(wired_all hw m hm p hp).1, (wired_all hw m hm p hp).2.2, update_isSome _ _ _ (.inl (hkeys _ (wired_all hw m hm p hp).2.1))⟩) hv
    have hmem : m ∈ st'.mods := g2.grow m (by simp [hst1])
    refine ⟨⟨fun x hx => g2.grow x (List.mem_append_left _ hx), fun u hu => g2.kept u (update_isSome _ _ _ (.inr hu)), fun x hx hn => ?_, fun x hx hn p hp => ?_⟩, .inl hmem⟩
    · by_cases hxm : x = m
      · subst hxm
        exact ⟨hm, t, c, ht, hadm⟩
      · exact g2.accepts x hx (by simp [hst1, hn, hxm])
    · by_cases hxm : x = m
      · subst hxm
        exact s2 p hp
      · exact g2.asked x hx (by simp [hst1, hn, hxm]) p hp

theorem start_good {G : Graph} {g : Nat → Nat} {ops : List Nat} (hw : Wired G ops) (hfit : ∀ m ∈ ops, (G.op m).const = false → (G.op m).mappable = true → Fits (G.op m) g)
    (hpos : ∀ m ∈ ops, (G.op m).const = false → Possible (G.op m) g) (fuel t : Nat) (l : List Nat) (st : State) (hl : ∀ m ∈ l, m ∈ ops ∧ t ∈ tensors (G.op m)) (hc : st.choice t = some [g t])
    (hf : left ops st < fuel) :
    ∃ st', start G fuel st t l = some (true, st') ∧ Good G g ops st st' ∧ ∀ m ∈ l, Settled G g st'.mods m t := by
  induction l generalizing st with
  | nil => exact ⟨st, rfl, good_refl .., by simp⟩
  | cons m r ih =>
    obtain ⟨st1, e1, g1, s1⟩ := C122_found_partial G g ops hw hfit hpos fuel st m t (hl m (by simp)).1 (hl m (by simp)).2 hc hf
    obtain ⟨st2, e2, g2, s2⟩ := ih st1 (fun q hq => hl q (by simp [hq])) (by
      rcases g1.value t with h | h
      · rw [h]; exact hc
      · exact h) (lt_of_le_of_lt (left_le g1.grow) hf)
    refine ⟨st2, by simp only [start, e1, e2], good_trans g1 g2, ?_⟩
    intro q hq
    rcases List.mem_cons.1 hq with rfl | hq
    · exact settled_mono g2.grow s1
    · exact s2 q hq

/-- **C122** for a reshape whose input could be pruned along several dimensions: if the rearmost dimension of more than two entries fits the whole graph, it is chosen, the choice is carried to
every operator that needs it, and every tensor of these operators gets the fitting dimension. -/
theorem C122_reshape_partial (G : Graph) (g : Nat → Nat) (ops : List Nat) (hw : Wired G ops) (hfit : ∀ m ∈ ops, (G.op m).const = false → (G.op m).mappable = true → Fits (G.op m) g)
    (hpos : ∀ m ∈ ops, (G.op m).const = false → Possible (G.op m) g) (fuel : Nat) (hfuel : ops.length ≤ fuel) (m ti tq : Nat) (hm : m ∈ ops) (hpre : (G.op m).pre = [ti]) (hnxt : (G.op m).nxt = [tq])
    (hconst : (G.op m).const = false) (hmap : (G.op m).mappable = true) (size : Nat → Nat) (choice : Nat → Option (List Nat)) (dims : List Nat)
    (hdims : (choice ti).or (((G.op m).changes ti).map mergeT) = some dims) (hmany : 1 < dims.length) (hmem : g ti ∈ dims) (hsize : 2 < size (g ti)) (hlast : ∀ e ∈ dims, g ti < e → size e ≤ 2) :
    ∃ choice' done, reshapeChoose G fuel m ti tq size choice = some (true, choice') ∧ choice' ti = some [g ti] ∧ choice' tq = some [g tq] ∧ m ∈ done ∧
      (∀ x ∈ done, ∀ u ∈ tensors (G.op x), choice' u = some [g u]) ∧ (∀ x ∈ done, ∀ p ∈ G.preN x ++ G.nextN x, Settled G g done p.1 p.2) ∧
      ∀ u, (∀ x ∈ done, u ∉ tensors (G.op x)) → choice' u = choice u := by
  have hF := hfit m hm hconst hmap
  have hfw : (G.op m).fwd ti (g ti) tq = [g tq] := hF.forward ti (by simp [hpre]) tq (by simp [hnxt])
  -- one attempt with the right dimension
  have attempt : ∀ ch : Nat → Option (List Nat), ∃ st', startBoth G fuel ⟨[m], update ch [(ti, [g ti]), (tq, (G.op m).fwd ti (g ti) tq)]⟩ ti tq (onEdge (G.preN m) ti) (onEdge (G.nextN m) tq) = some (true, st') ∧
      st'.choice ti = some [g ti] ∧ st'.choice tq = some [g tq] ∧ m ∈ st'.mods ∧
      (∀ x ∈ st'.mods, ∀ u ∈ tensors (G.op x), st'.choice u = some [g u]) ∧ (∀ x ∈ st'.mods, ∀ p ∈ G.preN x ++ G.nextN x, Settled G g st'.mods p.1 p.2) ∧
      ∀ u, (∀ x ∈ st'.mods, u ∉ tensors (G.op x)) → st'.choice u = ch u := by
    intro ch
    set st : State := ⟨[m], update ch [(ti, [g ti]), (tq, (G.op m).fwd ti (g ti) tq)]⟩ with hst
    have hu := update_or ch [(ti, [g ti]), (tq, (G.op m).fwd ti (g ti) tq)] g (by simp [hfw])
    have hti : st.choice ti = some [g ti] := (hu ti).1 (by simp)
    have htq : st.choice tq = some [g tq] := (hu tq).1 (by simp)
    have hlt : left ops st < fuel := by
      have : left ops st < left ops ⟨[], fun _ => none⟩ := left_lt (by simp) hm (by simp) (by simp [hst])
      have h2 : left ops ⟨[], fun _ => none⟩ = ops.length := by simp [left]
      omega
    obtain ⟨s1, e1, g1, c1⟩ := start_good hw hfit hpos fuel ti (onEdge (G.preN m) ti) st (by
      intro x hx
      simp only [onEdge, List.mem_map, List.mem_filter, decide_eq_true_eq] at hx
      obtain ⟨p, ⟨hp, hp2⟩, rfl⟩ := hx
      obtain ⟨a, -, c⟩ := (hw m hm).1 p hp
      exact ⟨a, hp2 ▸ List.mem_append_right _ c⟩) hti hlt
    obtain ⟨s2, e2, g2, c2⟩ := start_good hw hfit hpos fuel tq (onEdge (G.nextN m) tq) s1 (by
      intro x hx
      simp only [onEdge, List.mem_map, List.mem_filter, decide_eq_true_eq] at hx
      obtain ⟨p, ⟨hp, hp2⟩, rfl⟩ := hx
      obtain ⟨a, -, c⟩ := (hw m hm).2 p hp
      exact ⟨a, hp2 ▸ List.mem_append_left _ c⟩) (by
      rcases g1.value tq with h | h
      · rw [h]; exact htq
      · exact h) (lt_of_le_of_lt (left_le g1.grow) hlt)
    have G2 := good_trans g1 g2
    have hm2 : m ∈ s2.mods := G2.grow m (by simp [hst])
    have keep : ∀ u, st.choice u = some [g u] → s2.choice u = some [g u] := by
      intro u h
      rcases G2.value u with h' | h'
      · rw [h', h]
      · exact h'
    refine ⟨s2, by simp only [startBoth, e1, e2], keep ti hti, keep tq htq, hm2, fun x hx u huu => ?_, fun x hx p hp => ?_, fun u hu' => ?_⟩
    · by_cases hxm : x = m
      · subst hxm
        simp only [tensors, hpre, hnxt, List.cons_append, List.nil_append, List.mem_cons, List.not_mem_nil, or_false] at huu
        rcases huu with rfl | rfl
        · exact keep _ hti
        · exact keep _ htq
      · exact G2.carried x hx (by simp [hst, hxm]) u huu
    · by_cases hxm : x = m
      · subst hxm
        rcases List.mem_append.1 hp with h | h
        · have h2 : p.2 = ti := by simpa [hpre] using ((hw x hm).1 p h).2.1
          rw [h2]
          exact settled_mono g2.grow (c1 p.1 (by simp only [onEdge, List.mem_map, List.mem_filter, decide_eq_true_eq]; exact ⟨p, ⟨h, h2⟩, rfl⟩))
        · have h2 : p.2 = tq := by simpa [hnxt] using ((hw x hm).2 p h).2.1
          rw [h2]
          exact c2 p.1 (by simp only [onEdge, List.mem_map, List.mem_filter, decide_eq_true_eq]; exact ⟨p, ⟨h, h2⟩, rfl⟩)
      · exact G2.closed x hx (by simp [hst, hxm]) p hp
    · rw [G2.frame u (fun x hx _ => hu' x hx)]
      have : u ∉ tensors (G.op m) := hu' m hm2
      simp only [tensors, hpre, hnxt, List.cons_append, List.nil_append, List.mem_cons, List.not_mem_nil, or_false, not_or] at this
      exact (hu u).2 (by simp [this.1, this.2])
  -- the loop gets to the right dimension
  have loop : ∀ l : List Nat, l.Pairwise (· ≥ ·) → g ti ∈ l → (∀ e ∈ l, g ti < e → size e ≤ 2) → ∃ st', reshapeLoop G fuel m ti tq size choice l = some (true, st'.choice) ∧
      startBoth G fuel ⟨[m], update choice [(ti, [g ti]), (tq, (G.op m).fwd ti (g ti) tq)]⟩ ti tq (onEdge (G.preN m) ti) (onEdge (G.nextN m) tq) = some (true, st') := by
    intro l
    induction l with
    | nil => intro _ h; simp at h
    | cons e r ih =>
      intro hs hmem hsm
      obtain ⟨hs1, hs2⟩ := List.pairwise_cons.1 hs
      by_cases he : e = g ti
      · subst he
        obtain ⟨st', e', -⟩ := attempt choice
        exact ⟨st', by rw [reshapeLoop, if_neg (by omega), e'], e'⟩
      · have hmr : g ti ∈ r := by
          rcases List.mem_cons.1 hmem with h | h
          · exact absurd h.symm he
          · exact h
        have hge := hs1 _ hmr
        obtain ⟨st', h1, h2⟩ := ih hs2 hmr (fun x hx => hsm x (by simp [hx]))
        exact ⟨st', by rw [reshapeLoop, if_pos (hsm e (by simp) (by omega)), h1], h2⟩
  obtain ⟨st', h1, h2⟩ := loop (dims.insertionSort (· ≤ ·)).reverse (by
      rw [List.pairwise_reverse]
      exact List.pairwise_insertionSort (· ≤ ·) dims) (by simp [hmem]) (by
      intro e he
      exact hlast e (by simpa using he))
  obtain ⟨st'', k, r⟩ := attempt choice
  rw [h2] at k
  cases k
  refine ⟨st'.choice, st'.mods, ?_, r⟩
  simp only [reshapeChoose, hdims]
  rw [if_pos hmany, h1]

/-- An operator with the same possible changes on all its tensors. -/
def mkOp (pre nxt : List Nat) (ch : List (List Nat)) (f : Nat → List Nat) : Op :=
  ⟨pre, nxt, fun u => if u ∈ pre ++ nxt then some ch else none, fun _ d _ => f d, fun _ d _ => f d, true, false⟩

/-- `y = x.reshape(..)` (operator 0, tensors 9 and 0), `a = f(y)` (operator 1), `b = relu(y)` (operator 2), `a + b` (operator 3). -/
def diamond (f : Nat → List Nat) : Graph where
  op := fun m => match m with
    | 0 => mkOp [9] [0] [[1, 2]] (fun d => [d])
    | 1 => mkOp [0] [1] [[1, 2]] f
    | 2 => mkOp [0] [2] [[1, 2]] (fun d => [d])
    | _ => mkOp [1, 2] [3] [[1, 2]] (fun d => [d])
  preN := fun m => match m with
    | 1 => [(0, 0)]
    | 2 => [(0, 0)]
    | 3 => [(1, 1), (2, 2)]
    | _ => []
  nextN := fun m => match m with
    | 0 => [(1, 0), (2, 0)]
    | 1 => [(3, 1)]
    | 2 => [(3, 2)]
    | _ => []

/-- The hypotheses hold for this graph with `f` a `relu` too, dimension 2 and all operators. -/
example : Wired (diamond (fun d => [d])) [0, 1, 2, 3] ∧ (∀ m ∈ [0, 1, 2, 3], Fits ((diamond (fun d => [d])).op m) (fun _ => 2) ∧ Possible ((diamond (fun d => [d])).op m) (fun _ => 2)) ∧
    ((diamond (fun d => [d])).op 0).changes 9 = some [[1, 2]] ∧ mergeT [[1, 2]] = [1, 2] ∧
    ((reshapeChoose (diamond (fun d => [d])) 4 0 9 0 (fun _ => 3) (fun _ => none)).map (fun r => (r.1, [9, 0, 1, 2, 3].map r.2))) = some (true, List.replicate 5 (some [2])) := by
  refine ⟨?_, ?_, by decide +kernel, by decide +kernel, by decide +kernel⟩
  · intro m hm
    simp only [List.mem_cons, List.not_mem_nil, or_false] at hm
    rcases hm with rfl | rfl | rfl | rfl <;> decide +kernel
  · intro m hm
    simp only [List.mem_cons, List.not_mem_nil, or_false] at hm
    have key : ∀ pre nxt, Fits (mkOp pre nxt [[1, 2]] (fun d => [d])) (fun _ => 2) ∧ Possible (mkOp pre nxt [[1, 2]] (fun d => [d])) (fun _ => 2) := by
      intro pre nxt
      refine ⟨⟨by simp, by simp, by simp [mkOp], by simp [mkOp]⟩, ?_⟩
      intro u hu
      refine ⟨[[1, 2]], ?_, [1, 2], by simp, by simp⟩
      have hu' : u ∈ pre ++ nxt := hu
      simp only [mkOp, if_pos hu']
    rcases hm with rfl | rfl | rfl | rfl <;> exact key _ _

/-- A search that succeeds, for `C122_accepted_partial`: from the reshape to all four operators. -/
example : ∃ st', traverse (diamond (fun d => [d])) 5 ⟨[], fun u => if u = 9 then some [2] else none⟩ 0 9 = some (true, st') ∧ st'.mods = [0, 1, 3, 2] := by
  have e : ((traverse (diamond (fun d => [d])) 5 ⟨[], fun u => if u = 9 then some [2] else none⟩ 0 9).map (fun r => (r.1, r.2.mods))) = some (true, [0, 1, 3, 2]) := by decide +kernel
  cases hr : traverse (diamond (fun d => [d])) 5 ⟨[], fun u => if u = 9 then some [2] else none⟩ 0 9 with
  | none => rw [hr] at e; simp at e
  | some r =>
    obtain ⟨b, st'⟩ := r
    rw [hr] at e
    simp only [Option.map_some, Option.some.injEq, Prod.mk.injEq] at e
    exact ⟨st', by rw [e.1], e.2⟩

/-- If no choice fits, the search may still report success: with `a = y.transpose(1, 2)` the two branches that meet in the sum demand different dimensions of `y`, but an operator that has
been visited is not looked at again, so the reshape is left with dimension 2 of its input and dimension 1 of its output. -/
theorem C122_overwritten_false : ¬ ∀ (G : Graph) (fuel m ti tq : Nat) (size : Nat → Nat) (choice' : Nat → Option (List Nat)),
    reshapeChoose G fuel m ti tq size (fun _ => none) = some (true, choice') → ∀ d, choice' ti = some [d] → choice' tq = some ((G.op m).fwd ti d tq) := by
  intro h
  have e : ((reshapeChoose (diamond (fun d => [3 - d])) 4 0 9 0 (fun _ => 3) (fun _ => none)).map (fun r => (r.1, r.2 9, r.2 0))) = some (true, some [2], some [1]) := by decide +kernel
  cases hr : reshapeChoose (diamond (fun d => [3 - d])) 4 0 9 0 (fun _ => 3) (fun _ => none) with
  | none => rw [hr] at e; simp at e
  | some r =>
    obtain ⟨b, c⟩ := r
    rw [hr] at e
    simp only [Option.map_some, Option.some.injEq, Prod.mk.injEq] at e
    obtain ⟨rfl, e1, e2⟩ := e
    have := h _ 4 0 9 0 (fun _ => 3) c hr 2 e1
    rw [e2] at this
    revert this
    decide +kernel

/-- `y = x.reshape(..)`, then an operator with a second operand that no pruned layer reaches. -/
def untracked : Graph where
  op := fun m => match m with
    | 0 => mkOp [9] [0] [[1, 2]] (fun d => [d])
    | _ => { mkOp [0, 5] [1] [[1, 2]] (fun d => [d]) with changes := fun u => if u = 0 ∨ u = 1 then some [[1, 2]] else none }
  preN := fun m => if m = 1 then [(0, 0)] else []
  nextN := fun m => if m = 0 then [(1, 0)] else []

/-- An operand that nothing pruned reaches makes the search fail with a `KeyError`, whatever the dimension. -/
theorem C122_untracked_false : Wired untracked [0, 1] ∧ ∀ size : Nat → Nat, (2 < size 1 ∨ 2 < size 2) → reshapeChoose untracked 2 0 9 0 size (fun _ => none) = none := by
  constructor
  · intro m hm
    simp only [List.mem_cons, List.not_mem_nil, or_false] at hm
    rcases hm with rfl | rfl <;> decide +kernel
  · intro size hs
    have e : (((fun _ => none : Nat → Option (List Nat)) 9).or (((untracked.op 0).changes 9).map mergeT)) = some [1, 2] := by decide +kernel
    have l : ([1, 2] : List Nat).insertionSort (· ≤ ·) = [1, 2] := by decide +kernel
    have c2 : startBoth untracked 2 ⟨[0], update (fun _ => none) [(9, [2]), (0, (untracked.op 0).fwd 9 2 0)]⟩ 9 0 (onEdge (untracked.preN 0) 9) (onEdge (untracked.nextN 0) 0) = none := by
      have : (startBoth untracked 2 ⟨[0], update (fun _ => none) [(9, [2]), (0, (untracked.op 0).fwd 9 2 0)]⟩ 9 0 (onEdge (untracked.preN 0) 9) (onEdge (untracked.nextN 0) 0)).isNone = true := by decide +kernel
      simpa using this
    have c1 : startBoth untracked 2 ⟨[0], update (fun _ => none) [(9, [1]), (0, (untracked.op 0).fwd 9 1 0)]⟩ 9 0 (onEdge (untracked.preN 0) 9) (onEdge (untracked.nextN 0) 0) = none := by
      have : (startBoth untracked 2 ⟨[0], update (fun _ => none) [(9, [1]), (0, (untracked.op 0).fwd 9 1 0)]⟩ 9 0 (onEdge (untracked.preN 0) 9) (onEdge (untracked.nextN 0) 0)).isNone = true := by decide +kernel
      simpa using this
    rw [reshapeChoose, e]
    simp only [l, List.length_cons, List.length_nil, List.reverse_cons, List.reverse_nil, List.nil_append, List.cons_append, reshapeLoop, c1, c2]
    by_cases h2 : size 2 ≤ 2
    · have h1 : ¬ size 1 ≤ 2 := by omega
      simp [h1, h2]
    · simp [h2]

/-- Dimensions of one or two entries are never tried: a fitting choice is missed, and building the pruner raises an exception. -/
theorem C122_small_false : ((reshapeChoose (diamond (fun d => [d])) 4 0 9 0 (fun _ => 2) (fun _ => none)).map (fun r => r.1)) = some false := by decide +kernel

/-- A matrix product of `x` (tensor 0, from operator 1) and `y` (tensor 1, from operator 2), read by operator 3.  The first operand's rows or the second operand's columns become a dimension of
the result (`MatMulModifier.calc_dim_mapping`, 1567-1590, for matrices). -/
def product (c0 c1 c2 : List (List Nat)) (follow : Op) : Graph where
  op := fun m => match m with
    | 0 => ⟨[0, 1], [2], fun u => match u with | 0 => some c0 | 1 => some c1 | 2 => some c2 | _ => none,
        fun t d _ => if t = 0 ∧ d = 0 then [0] else if t = 1 ∧ d = 1 then [1] else [], fun _ d u => if u = 0 ∧ d = 0 then [0] else if u = 1 ∧ d = 1 then [1] else [], true, false⟩
    | 1 => mkOp [6] [0] c0 (fun d => [d])
    | 2 => mkOp [7] [1] c1 (fun d => [d])
    | _ => follow
  preN := fun m => if m = 0 then [(1, 0), (2, 1)] else if m = 3 then [(0, 2)] else []
  nextN := fun m => if m = 0 then [(3, 2)] else if m = 1 then [(0, 0)] else if m = 2 then [(0, 1)] else []

/-- Only the second operand has several dimensions to choose from: the search starts at the first operand, which has no choice, and fails with a `KeyError`. -/
theorem C122_matmul_second_false : ((matmulChoose (product [[0]] [[0, 1]] [[1]] (mkOp [2] [3] [[1]] (fun d => [d]))) 4 0 0 1 2 (fun _ => none)).isNone) = true := by decide +kernel

/-- Both operands have several: the choice made for the second one never reaches the operator it comes from. -/
theorem C122_matmul_producer_false :
    ((matmulChoose (product [[0, 1]] [[0, 1]] [[0, 1]] (mkOp [2] [3] [[0, 1]] (fun d => [d]))) 4 0 0 1 2 (fun _ => none)).map (fun r => (r.1, [0, 6, 1, 7].map r.2))) =
      some (true, [some [0], some [0], some [1], none]) := by decide +kernel

/-- If the first dimension tried does not work and the result has only one dimension to choose from, trying the next one fails with a `KeyError`: here operator 1 cannot take dimension 0. -/
theorem C122_matmul_retry_false :
    ((matmulChoose { product [[0, 1]] [[1]] [[1]] (mkOp [2] [3] [[1]] (fun d => [d])) with
        op := fun m => if m = 1 then mkOp [6] [0] [[1]] (fun d => [d]) else (product [[0, 1]] [[1]] [[1]] (mkOp [2] [3] [[1]] (fun d => [d]))).op m } 4 0 0 1 2 (fun _ => none)).isNone) = true := by
  decide +kernel

/-- A matrix product reached by the search passes the dimension of one operand on to the other one: choosing the rows of the first operand marks the inner dimension of the second. -/
theorem C122_matmul_shared_false : calcDims ((product [[0, 1]] [[0, 1]] [[0, 1]] (mkOp [2] [3] [[0, 1]] (fun d => [d]))).op 0) 0 [0] = some [(0, [0]), (1, [0]), (2, [0])] := by decide +kernel

/-- Without a reshape, a linear layer, a recurrent layer or a matrix product nothing is chosen: a tensor with two possible dimensions keeps both. -/
theorem C122_both_false : ∃ (o : Op) (t : Nat), recorded (fun _ => none) o t = some [1, 2] := ⟨mkOp [0] [1] [[2], [1]] (fun d => [d]), 0, by decide +kernel⟩

end Verif.Props
