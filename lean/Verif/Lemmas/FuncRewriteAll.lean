import Verif.Lemmas.FuncFuse

/-! Lemmas for C87: all passes together. -/

namespace Verif.Lemmas.FuncRewrite
open Verif.Spec Verif.Spec.FuncCall Verif.Model.FuncRewrite

theorem wf_fresh : ∀ (p : List Instr) (K : Name → Prop), WellFormed K p → ∀ i ∈ p, ¬ K i.out
  | j :: p, K, h, i, hi => by
    rcases List.mem_cons.mp hi with rfl | hi
    · exact h.2.1
    · exact fun hk => wf_fresh p _ h.2.2 i hi (Or.inl hk)

theorem wf_unique : ∀ (p : List Instr) (K : Name → Prop), WellFormed K p → Unique p
  | [], _, _ => by intro q hq; simp at hq
  | j :: p, K, h => by
    intro q hq r hr he
    rcases List.mem_cons.mp hq with hq | hq <;> rcases List.mem_cons.mp hr with hr | hr
    · rw [hq, hr]
    · exact absurd (Or.inr (by rw [← he, hq])) (wf_fresh p _ h.2.2 r hr)
    · exact absurd (Or.inr (by rw [he, hr])) (wf_fresh p _ h.2.2 q hq)
    · exact wf_unique p _ h.2.2 q hq r hr he

theorem run_exec {w : World} : ∀ (p : List Instr) (E E1 : Env), run w p E = some E1 → ∀ r ∈ p, ∃ E0 E0', r.exec w E0 = some E0'
  | i :: p, E, E1, h, r, hr => by
    simp only [run, Option.bind_eq_some_iff] at h
    obtain ⟨E2, h2, h⟩ := h
    rcases List.mem_cons.mp hr with rfl | hr
    · exact ⟨E, E2, h2⟩
    · exact run_exec p E2 E1 h r hr

theorem run_arity {w : World} {p : List Instr} {E E1 : Env} (h : run w p E = some E1) : Arity p := by
  intro r hr hop
  obtain ⟨E0, E0', he⟩ := run_exec p E E1 h r hr
  obtain ⟨ts, t, h1, h2, -⟩ := exec_some.mp he
  have hl := mapM_length h1
  have hone : ts.length = 1 := by
    have key : ∃ u, ts = [u] := by
      rcases hop with hop | hop
      · unfold isRelu at hop
        split at hop
        · rename_i a ha
          rw [ha] at h2
          exact oneTensor (by simp) h2
        · rename_i ha
          rw [ha] at h2
          match ts with
          | [u] => exact ⟨u, rfl⟩
          | [] => simp [Op.sem, Mod.sem] at h2
          | _ :: _ :: _ => simp [Op.sem, Mod.sem] at h2
        · exact hop.elim
      · rw [hop] at h2
        match ts with
        | [u] => exact ⟨u, rfl⟩
        | [] => simp [Op.sem, Mod.sem] at h2
        | _ :: _ :: _ => simp [Op.sem, Mod.sem] at h2
    obtain ⟨u, rfl⟩ := key
    rfl
  rw [hone] at hl
  exact List.length_eq_one_iff.mp hl.symm

theorem closed_step {w : World} {p : List Instr} (hu : Unique p) {i : Instr} (hi : i ∈ p) {E E1 : Env} (hc : Closed p E) (he : i.exec w E = some E1) : Closed p E1 := by
  obtain ⟨ts, t, h1, h2, rfl⟩ := exec_some.mp he
  intro r hr v hv n hn
  by_cases hni : n = i.out
  · subst hni
    exact ⟨t, set_same _ _ _⟩
  · rw [set_other _ _ hni]
    by_cases hri : r.out = i.out
    · have := hu r hr i hi hri
      subst this
      obtain ⟨u, -, hEu⟩ := mapM_mem h1 n hn
      exact ⟨u, hEu⟩
    · rw [set_other _ _ hri] at hv
      exact hc r hr v hv n hn

theorem fuse_run (w : World) {p : List Instr} {outs : List Name} (hu : Unique p) (ha : Arity p) (hcv : ∀ i ∈ p, Converted i) : ∀ (l : List Instr) (K : Name → Prop) (E E1 E' : Env),
    (∀ i ∈ l, i ∈ p) → WellFormed K l → (∀ n v, E n = some v → K n) → Closed p E → run w l E = some E1 → Sim p outs E E' →
    ∃ E1', run w (l.filterMap (fuseInstr p outs)) E' = some E1' ∧ Sim p outs E1 E1'
  | [], K, E, E1, E', _, _, _, _, hr, hs => by
    simp only [run, Option.some.injEq] at hr
    exact ⟨E', rfl, hr ▸ hs⟩
  | i :: l, K, E, E1, E', hl, hw, hK, hc, hr, hs => by
    simp only [run, Option.bind_eq_some_iff] at hr
    obtain ⟨E2, h2, hr⟩ := hr
    have hi := hl i (by simp)
    have hnew : E i.out = none := by
      by_contra hne
      obtain ⟨v, hv⟩ := Option.ne_none_iff_exists'.mp hne
      exact hw.2.1 (hK _ v hv)
    obtain ⟨E2', h2', hs2⟩ := fuse_step w hu ha hcv hi hc hnew h2 hs
    have hK2 : ∀ n v, E2 n = some v → K n ∨ n = i.out := by
      obtain ⟨ts, t, -, -, rfl⟩ := exec_some.mp h2
      intro n v hv
      by_cases hni : n = i.out
      · exact Or.inr hni
      · rw [set_other _ _ hni] at hv
        exact Or.inl (hK n v hv)
    obtain ⟨E1', h1', hs1⟩ := fuse_run w hu ha hcv l _ E2 E1 E2' (fun x hx => hl x (by simp [hx])) hw.2.2 hK2 (closed_step hu hi hc h2) hr hs2
    refine ⟨E1', ?_, hs1⟩
    have : (i :: l).filterMap (fuseInstr p outs) = (fuseInstr p outs i).toList ++ l.filterMap (fuseInstr p outs) := by
      rw [List.filterMap_cons]
      cases fuseInstr p outs i <;> rfl
    rw [this, run_append, h2']
    exact h1'

theorem fuse_ok (w : World) {p : List Instr} {outs : List Name} {E E1 : Env} (hw : WellFormed (fun n => ∃ v, E n = some v) p) (hcv : ∀ i ∈ p, Converted i) (hr : run w p E = some E1) :
    ∃ E1', run w (fusePass p outs) E = some E1' ∧ ∀ o ∈ outs, ∀ v, E1 o = some v → E1' o = some v := by
  have hu := wf_unique p _ hw
  have hnone : ∀ r ∈ p, E r.out = none := by
    intro r hr
    by_contra hne
    exact wf_fresh p _ hw r hr (Option.ne_none_iff_exists'.mp hne)
  have hs : Sim p outs E E := by
    refine ⟨fun n v hv _ => hv, ?_⟩
    intro i hi ns m hq n hn v hv
    obtain ⟨-, -, -, c⟩ := addRelu_chain hq
    exfalso
    rcases Relation.ReflTransGen.cases_tail (c.reach _ hn) with h | ⟨_, -, -, r, hr, -, -, he⟩
    · rw [h, hnone i hi] at hv
      simp at hv
    · rw [← he, hnone r hr] at hv
      simp at hv
  obtain ⟨E1', h1, h2⟩ := fuse_run w (outs := outs) hu (run_arity hr) hcv p _ E E1 E (fun _ h => h) hw (fun n v hv => ⟨v, hv⟩)
    (fun r hr v hv => by rw [hnone r hr] at hv; simp at hv) hr hs
  exact ⟨E1', h1, fun o ho v hv => h2.same o v hv (fun hg => gone_not_out hg ho)⟩

/-! ### The supported calls stay supported -/

theorem supp_keep {w : World} {i : Instr} {l : List Instr} (hS : Supported w i) (h : some [i] = some l) : ∀ x ∈ l, Supported w x := by
  simp at h
  subst h
  simpa using hS

/-- Operations without conditions. -/
def Free (o : Op) : Prop := match o with
  | .fn .sub _ | .fn .mul _ | .fn .rmul _ | .fn .add _ | .fn .radd _ | .fn .rsub _ | .fn .cat _ | .fn .leakyRelu _ | .fn .dropout _ => False
  | _ => True

theorem supp_free {w : World} {i : Instr} (h : Free i.op) : Supported w i := by
  intro _
  unfold Free at h
  split at h <;> first | exact h.elim | skip
  split <;> first | trivial | (rename_i hne _ heq; simp_all)

theorem supp_op {w : World} {i : Instr} {o : Op} {l : List Instr} (ho : Free o) (h : withOp i o = some l) : ∀ x ∈ l, Supported w x := by
  simp only [withOp, Option.some.injEq] at h
  subst h
  intro x hx
  simp only [List.mem_singleton] at hx
  subst hx
  exact supp_free ho

theorem neg_supp {w : World} (i : Instr) (l : List Instr) (hS : Supported w i) (h : negPass i = some l) : ∀ x ∈ l, Supported w x := by
  unfold negPass at h
  split at h
  · split at h
    · simp only [withOp, Option.some.injEq] at h
      subst h
      intro x hx
      simp only [List.mem_singleton] at hx
      subst hx
      intro _
      rfl
    · exact supp_keep hS h
  · exact supp_keep hS h

theorem div_supp {w : World} (i : Instr) (l : List Instr) (hS : Supported w i) (h : divPass i = some l) : ∀ x ∈ l, Supported w x := by
  unfold divPass at h
  split at h
  · split at h
    · simp only [Option.bind_eq_bind, Option.bind_eq_some_iff] at h
      obtain ⟨c, -, h⟩ := h
      split at h
      · simp at h
      · simp only [withOp, Option.some.injEq] at h
        subst h
        intro x hx
        simp only [List.mem_singleton] at hx
        subst hx
        intro _
        rfl
    · exact supp_keep hS h
  · exact supp_keep hS h

theorem sub_supp {w : World} (i : Instr) (l : List Instr) (hS : Supported w i) (h : subPass i = some l) : ∀ x ∈ l, Supported w x := by
  have two : ∀ x y, (i.float = true) → some (subTensors i x y) = some l → ∀ x ∈ l, Supported w x := by
    intro x y hf h
    simp only [Option.some.injEq] at h
    subst h
    intro z hz
    simp only [subTensors, List.mem_cons, List.not_mem_nil, or_false] at hz
    rcases hz with rfl | rfl
    · intro _; rfl
    · intro _
      exact ⟨rfl, fun _ => hf⟩
  unfold subPass at h
  split at h
  · split at h
    · rename_i hon
      split at h
      · simp only [Option.bind_eq_bind, Option.bind_eq_some_iff] at h
        obtain ⟨c, -, h⟩ := h
        simp only [withOp, Option.some.injEq] at h
        subst h
        intro x hx
        simp only [List.mem_singleton] at hx
        subst hx
        intro _
        exact ⟨rfl, fun _ => hon.2⟩
      · exact two _ _ hon.2 h
      · exact supp_keep hS h
    · exact supp_keep hS h
  · split at h
    · rename_i hon
      split at h
      · simp only [Option.bind_eq_bind, Option.bind_eq_some_iff, Option.some.injEq] at h
        obtain ⟨c, hp, h⟩ := h
        obtain ⟨lit, rfl, -⟩ := parse_num hp
        subst h
        intro x hx
        simp only [List.mem_cons, List.not_mem_nil, or_false] at hx
        rcases hx with rfl | rfl
        · intro _; rfl
        · intro _
          exact ⟨rfl, fun _ => hon.2⟩
      · exact two _ _ hon.2 h
      · exact supp_keep hS h
    · exact supp_keep hS h
  · exact supp_keep hS h

theorem stack_supp {w : World} (i : Instr) (l : List Instr) (hS : Supported w i) (h : stackPass i = some l) : ∀ x ∈ l, Supported w x := by
  unfold stackPass at h
  split at h
  · split at h
    · simp only [Option.bind_eq_bind, Option.bind_eq_some_iff, Option.some.injEq] at h
      obtain ⟨⟨d, a'⟩, hd, h⟩ := h
      subst h
      intro x hx
      rcases List.mem_append.mp hx with hx | hx
      · obtain ⟨j, hj, rfl⟩ := List.mem_mapIdx.mp hx
        exact supp_free trivial
      · simp only [List.mem_singleton] at hx
        subst hx
        intro _
        exact (stackDim_sem hd).2.2
    · exact supp_keep hS h
  · exact supp_keep hS h

theorem convert_supp {w : World} (i : Instr) (l : List Instr) (hS : Supported w i) (h : convertPass i = some l) : ∀ x ∈ l, Supported w x ∧ Converted x := by
  have op : ∀ o, Free o → (isAdd o = true → ∃ a, o = .ff .add a) → withOp i o = some l → ∀ x ∈ l, Supported w x ∧ Converted x := by
    intro o ho ha h x hx
    refine ⟨supp_op ho h x hx, ?_⟩
    simp only [withOp, Option.some.injEq] at h
    subst h
    simp only [List.mem_singleton] at hx
    subst hx
    exact fun _ h _ => ha h
  have keep' : Converted i → some [i] = some l → ∀ x ∈ l, Supported w x ∧ Converted x := by
    intro hc h
    simp at h
    subst h
    intro x hx
    simp only [List.mem_singleton] at hx
    subst hx
    exact ⟨hS, hc⟩
  have adds : isAdd i.op = true → (∃ a, i.op = .ff .add a) ∨ (∃ a, i.op = .fn .add a) ∨ ∃ a, i.op = .fn .radd a := by
    intro ha
    unfold isAdd at ha
    split at ha
    · rename_i a h; exact Or.inl ⟨a, h⟩
    · rename_i a h; exact Or.inr (Or.inl ⟨a, h⟩)
    · rename_i a h; exact Or.inr (Or.inr ⟨a, h⟩)
    · simp at ha
  unfold convertPass at h
  split at h
  · rename_i hon
    split at h
    case h_6 =>
      rename_i h1 h2 h3 h4 h5
      refine keep' (fun _ ha _ => ?_) h
      rcases adds ha with h | ⟨a, h⟩ | ⟨a, h⟩
      · exact h
      · exact absurd h (h1 a)
      · exact absurd h (h2 a)
    case h_5 =>
      refine op _ ?_ ?_ h
      · trivial
      · simp [isAdd]
    all_goals
      unfold binary at h
      split at h
      · refine op _ ?_ ?_ h
        · trivial
        · simp [isAdd]
      · refine op _ ?_ ?_ h
        · trivial
        · simp [isAdd]
      · simp at h
  · rename_i hon
    refine keep' (fun hio ha hl => ?_) h
    have hS := hS hio
    rcases adds ha with h | ⟨a, h⟩ | ⟨a, h⟩
    · exact h
    · rw [h] at hS
      exact absurd ⟨hio, hS.2 hl⟩ hon
    · rw [h] at hS
      exact absurd ⟨hio, hS.2 hl⟩ hon

/-- The clamp passes keep `Supported` and `Converted`. -/
theorem clamp_keep {w : World} {i : Instr} {l : List Instr} (hS : Supported w i ∧ Converted i) (h : (∃ o, Free o ∧ isAdd o = false ∧ withOp i o = some l) ∨ some [i] = some l) :
    ∀ x ∈ l, Supported w x ∧ Converted x := by
  rcases h with ⟨o, ho, ha, h⟩ | h
  · intro x hx
    refine ⟨supp_op ho h x hx, ?_⟩
    simp only [withOp, Option.some.injEq] at h
    subst h
    simp only [List.mem_singleton] at hx
    subst hx
    intro _ h2 _
    simp only at h2
    rw [ha] at h2
    simp at h2
  · simp at h
    subst h
    simpa using hS

theorem clampMin_supp {w : World} (i : Instr) (l : List Instr) (hS : Supported w i ∧ Converted i) (h : clampMinPass i = some l) : ∀ x ∈ l, Supported w x ∧ Converted x := by
  apply clamp_keep hS
  unfold clampMinPass at h
  repeat' split at h
  all_goals first | exact Or.inr h | (refine Or.inl ⟨_, ?_, ?_, h⟩ <;> trivial) | simp at h

theorem clamp_supp {w : World} (i : Instr) (l : List Instr) (hS : Supported w i ∧ Converted i) (h : clampPass i = some l) : ∀ x ∈ l, Supported w x ∧ Converted x := by
  apply clamp_keep hS
  unfold clampPass at h
  repeat' split at h
  all_goals first | exact Or.inr h | (refine Or.inl ⟨_, ?_, ?_, h⟩ <;> trivial) | simp at h

theorem fuse_supp {w : World} {p : List Instr} {outs : List Name} (hS : ∀ i ∈ p, Supported w i) : ∀ x ∈ fusePass p outs, Supported w x := by
  intro x hx
  unfold fusePass at hx
  obtain ⟨i, hi, h⟩ := List.mem_filterMap.mp hx
  split at h
  · simp only [Option.some.injEq] at h
    subst h
    apply supp_free
    simp only
    unfold fusedOp
    split <;> trivial
  · split at h
    · simp at h
    · simp only [Option.some.injEq] at h
      subst h
      exact hS i hi

theorem module_supp {w : World} (i : Instr) (l : List Instr) (hS : Supported w i) (h : modulePass i = some l) : ∀ x ∈ l, Supported w x := by
  unfold modulePass at h
  split at h
  · split at h
    case h_7 | h_8 | h_9 =>
      split at h
      · exact supp_op (by trivial) h
      · split at h
        · obtain ⟨q, -, h⟩ := Option.bind_eq_some_iff.mp h
          exact supp_op (by trivial) h
        · simp at h
    case h_10 => exact supp_keep hS h
    all_goals exact supp_op (by trivial) h
  · exact supp_keep hS h

/-! ### All passes -/

theorem avoids_form {A : Name → Prop} {f : Instr → Option (List Instr)} (hf : ∀ i l, f i = some l → ∃ o, l = [{ i with op := o }]) (i : Instr) (l : List Instr) (hA : Avoids A i)
    (h : f i = some l) : ∀ x ∈ l, Avoids A x := by
  obtain ⟨o, rfl⟩ := hf i l h
  intro x hx
  simp only [List.mem_singleton] at hx
  subst hx
  exact hA

theorem sub_avoids (i : Instr) (l : List Instr) (hA : Avoids auxSub i ∧ Avoids auxStack i) (h : subPass i = some l) : ∀ x ∈ l, Avoids auxStack x := by
  obtain ⟨as, m, rfl, hm, has, -, hin⟩ := sub_good i l hA.1 h
  have hsub : ∀ n, auxSub n → ¬ auxStack n := by
    rintro n ⟨a, rfl⟩ ⟨b, j, h⟩
    simp at h
  intro x hx
  rcases List.mem_append.mp hx with hx | hx
  · exact ⟨hsub _ (has x hx).2.1, fun n hn => hA.2.2 n ((has x hx).1 n hn)⟩
  · simp only [List.mem_singleton] at hx
    subst hx
    refine ⟨hm ▸ hA.2.1, fun n hn => ?_⟩
    rcases hin n hn with hn | hn
    · exact hA.2.2 n hn
    · obtain ⟨a, ha, rfl⟩ := List.mem_map.mp hn
      exact hsub _ (has a ha).2.1

theorem rewrite_ok (w : World) {p p' : List Instr} {outs : List Name} {E E1 : Env} (hp : rewrite outs p = some p') (hE : ∀ n v, E n = some v → ¬ auxSub n ∧ ¬ auxStack n)
    (hA : ∀ i ∈ p, Avoids auxSub i ∧ Avoids auxStack i) (houts : ∀ o ∈ outs, ¬ auxSub o ∧ ¬ auxStack o) (hw : WellFormed (fun n => ∃ v, E n = some v) p) (hS : ∀ i ∈ p, Supported w i)
    (hr : run w p E = some E1) : ∃ E1', run w p' E = some E1' ∧ ∀ o ∈ outs, ∀ v, E1 o = some v → E1' o = some v := by
  unfold rewrite at hp
  simp only [Option.bind_eq_bind, Option.bind_eq_some_iff] at hp
  obtain ⟨p1, h1, p2, h2, p3, h3, p4, h4, p5, h5, p6, h6, p7, h7, p8, h8, h9⟩ := hp
  have none1 : ∀ q : List Instr, ∀ i ∈ q, Avoids noName i := fun _ i _ => avoids_noName i
  have wf1 : ∀ {f : Instr → Option (List Instr)}, (∀ i l, f i = some l → ∃ o, l = [{ i with op := o }]) → ∀ {q q' : List Instr} {K : Name → Prop}, pass f q = some q' → WellFormed K q → WellFormed K q' :=
    fun {_} hf {q q' K} h hw => wf_pass (good_of_op hf noName) q q' K K (none1 q) h hw (fun _ h => h) (fun _ _ h => h) (fun _ h => Or.inl h)
  -- neg
  obtain ⟨F1, r1, x1⟩ := pass_ok (neg_ok w (Supported w)) p p1 (none1 p) hS h1 E E1 E hr (Ext.refl _ _)
  have s1 := pass_forall neg_supp p p1 hS h1
  have a1 := pass_forall (avoids_form (A := auxSub) neg_form) p p1 (fun i hi => (hA i hi).1) h1
  have b1 := pass_forall (avoids_form (A := auxStack) neg_form) p p1 (fun i hi => (hA i hi).2) h1
  have w1 := wf1 neg_form h1 hw
  -- div
  obtain ⟨F2, r2, x2⟩ := pass_ok (div_ok w (Supported w)) p1 p2 (none1 p1) s1 h2 E F1 E r1 (Ext.refl _ _)
  have s2 := pass_forall div_supp p1 p2 s1 h2
  have a2 := pass_forall (avoids_form (A := auxSub) div_form) p1 p2 a1 h2
  have b2 := pass_forall (avoids_form (A := auxStack) div_form) p1 p2 b1 h2
  have w2 := wf1 div_form h2 w1
  -- sub
  obtain ⟨F3, r3, x3⟩ := pass_ok (sub_ok w) p2 p3 a2 s2 h3 E F2 E r2 (Ext.refl _ _)
  have s3 := pass_forall sub_supp p2 p3 s2 h3
  have b3 := pass_forall sub_avoids p2 p3 (fun i hi => ⟨a2 i hi, b2 i hi⟩) h3
  have w3 := wf_pass sub_good p2 p3 _ _ a2 h3 w2 (fun _ h => h) (fun n h => (hE n h.choose h.choose_spec).1) (fun _ h => Or.inl h)
  -- stack
  obtain ⟨F4, r4, x4⟩ := pass_ok (stack_ok w (Supported w)) p3 p4 b3 s3 h4 E F3 E r3 (Ext.refl _ _)
  have s4 := pass_forall stack_supp p3 p4 s3 h4
  have w4 := wf_pass stack_good p3 p4 _ _ b3 h4 w3 (fun _ h => h) (fun n h => (hE n h.choose h.choose_spec).2) (fun _ h => Or.inl h)
  -- convert
  obtain ⟨F5, r5, x5⟩ := pass_ok (convert_ok w) p4 p5 (none1 p4) s4 h5 E F4 E r4 (Ext.refl _ _)
  have s5 := pass_forall convert_supp p4 p5 s4 h5
  have w5 := wf1 convert_form h5 w4
  -- clamp_min
  obtain ⟨F6, r6, x6⟩ := pass_ok (clampMin_ok w (Supported w)) p5 p6 (none1 p5) (fun i hi => (s5 i hi).1) h6 E F5 E r5 (Ext.refl _ _)
  have s6 := pass_forall clampMin_supp p5 p6 s5 h6
  have w6 := wf1 clampMin_form h6 w5
  -- clamp
  obtain ⟨F7, r7, x7⟩ := pass_ok (clamp_ok w (Supported w)) p6 p7 (none1 p6) (fun i hi => (s6 i hi).1) h7 E F6 E r6 (Ext.refl _ _)
  have s7 := pass_forall clamp_supp p6 p7 s6 h7
  have w7 := wf1 clamp_form h7 w6
  -- fusion
  obtain ⟨F8, r8, x8⟩ := fuse_ok w (outs := outs) w7 (fun i hi => (s7 i hi).2) r7
  have s8 := fuse_supp (outs := outs) (fun i hi => (s7 i hi).1)
  -- modules
  obtain ⟨F9, r9, x9⟩ := pass_ok (module_ok w) (fusePass p7 outs) p8 (none1 _) s8 h8 E F8 E r8 (Ext.refl _ _)
  have s9 := pass_forall module_supp _ p8 s8 h8
  -- dropout
  obtain ⟨F10, r10, x10⟩ := pass_ok (dropout_ok w) p8 p' (none1 p8) s9 h9 E F9 E r9 (Ext.refl _ _)
  refine ⟨F10, r10, fun o ho v hv => ?_⟩
  have no : ¬ noName o := fun h => h
  obtain ⟨o1, o2⟩ := houts o ho
  exact x10 o no v (x9 o no v (x8 o ho v (x7 o no v (x6 o no v (x5 o no v (x4 o o2 v (x3 o o1 v (x2 o no v (x1 o no v hv)))))))))

end Verif.Lemmas.FuncRewrite
