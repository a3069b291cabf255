import Verif.Lemmas.FuncRewriteAll

/-!
Lemmas for C87: a program of supported and readable calls is accepted.
-/

namespace Verif.Lemmas.FuncRewrite
open Verif.Spec Verif.Spec.FuncCall Verif.Model.FuncRewrite

/-- A call that returns. -/
def Returns (w : World) (i : Instr) : Prop := ∃ ts t, ts.length = i.ins.length ∧ i.op.sem w ts = some t

theorem run_returns (w : World) : ∀ (p : List Instr) (E E1 : Env), run w p E = some E1 → ∀ i ∈ p, Returns w i
  | [], _, _, _, i, hi => by simp at hi
  | j :: p, E, E1, h, i, hi => by
    simp only [run, Option.bind_eq_some_iff] at h
    obtain ⟨E', he, h⟩ := h
    rcases List.mem_cons.mp hi with rfl | hi
    · obtain ⟨ts, t, h1, h2, -⟩ := exec_some.mp he
      exact ⟨ts, t, mapM_length h1, h2⟩
    · exact run_returns w p E' E1 h i hi

theorem pass_some {f : Instr → Option (List Instr)} : ∀ (p : List Instr), (∀ i ∈ p, ∃ l, f i = some l) → ∃ q, pass f p = some q
  | [], _ => ⟨[], rfl⟩
  | i :: p, h => by
    obtain ⟨l, hl⟩ := h i (by simp)
    obtain ⟨q, hq⟩ := pass_some p (fun j hj => h j (by simp [hj]))
    unfold pass at hq ⊢
    obtain ⟨r, hr, -⟩ := Option.map_eq_some_iff.mp hq
    exact ⟨(l :: r).flatten, by rw [List.mapM_cons, hl]; simp [hr]⟩

theorem neg_acc (i : Instr) : ∃ l, negPass i = some l := by
  unfold negPass
  repeat' split
  all_goals exact ⟨_, rfl⟩

theorem div_acc {w : World} {i : Instr} (hr : Readable i) (h : Returns w i) : ∃ l, divPass i = some l := by
  unfold divPass
  split
  · rename_i a ha
    split
    · rename_i hc
      obtain ⟨hon, -, hlen⟩ := hc
      obtain ⟨ts, t, hl, hs⟩ := h
      have hr := hr hon
      rw [ha] at hr hs
      rw [hlen] at hl
      match ts, hl with
      | [x], _ =>
        have key : ∃ l c, a = ⟨[l], []⟩ ∧ l.num = some c ∧ parseNumber false a = some c := by
          rcases hr hlen with ⟨z, rfl⟩ | ⟨q, rfl⟩
          · exact ⟨_, z, rfl, rfl, rfl⟩
          · exact ⟨_, q, rfl, rfl, rfl⟩
        obtain ⟨l, c, rfl, hn, hp⟩ := key
        simp only [Op.sem, Fn.sem, bind_one, hn] at hs
        split at hs
        · simp at hs
        · rename_i hne
          rw [hp]
          simp only [Option.bind_eq_bind, Option.bind_some]
          rw [if_neg (by simpa using hne)]
          exact ⟨_, rfl⟩
    · exact ⟨_, rfl⟩
  · exact ⟨_, rfl⟩

theorem sub_acc {i : Instr} (hr : Readable i) : ∃ l, subPass i = some l := by
  unfold subPass
  split
  · rename_i a ha
    split
    · rename_i hc
      have hr := hr hc.1
      rw [ha] at hr
      split
      · rename_i hi
        rcases hr (by simp [hi]) with ⟨z, rfl⟩ | ⟨q, dot, rfl⟩
        · exact ⟨_, rfl⟩
        · simp only [parseNumber, or_true, if_true]
          exact ⟨_, rfl⟩
      · exact ⟨_, rfl⟩
      · exact ⟨_, rfl⟩
    · exact ⟨_, rfl⟩
  · rename_i a ha
    split
    · rename_i hc
      have hr := hr hc.1
      rw [ha] at hr
      split
      · rename_i hi
        rcases hr (by simp [hi]) with ⟨z, rfl⟩ | ⟨q, rfl⟩
        · exact ⟨_, rfl⟩
        · exact ⟨_, rfl⟩
      · exact ⟨_, rfl⟩
      · exact ⟨_, rfl⟩
    · exact ⟨_, rfl⟩
  · exact ⟨_, rfl⟩

theorem stack_acc {w : World} {i : Instr} (hr : Readable i) (h : Returns w i) : ∃ l, stackPass i = some l := by
  unfold stackPass
  split
  · rename_i a ha
    split
    · rename_i hc
      have hr := hr hc.1
      obtain ⟨ts, t, hl, hs⟩ := h
      rw [ha] at hr hs
      have hd : ∃ d, dimArg a = some d := by
        simp only [Op.sem, Fn.sem, Option.bind_eq_some_iff] at hs
        obtain ⟨d, hd, -⟩ := hs
        exact ⟨d, hd⟩
      have key : ∃ r, stackDim a = some r := by
        obtain ⟨d, hd⟩ := hd
        obtain ⟨pos, kw⟩ := a
        simp only at hr
        unfold dimArg at hd
        obtain ⟨r, hb, hv⟩ := Option.bind_eq_some_iff.mp hd
        clear hd hs
        split at hv
        case h_2 => simp at hv
        rename_i v
        match pos, kw, hr with
        | [], [], _ => exact ⟨_, rfl⟩
        | [u], [], _ =>
          simp only [List.map_nil, bind_one, Option.some.injEq, List.cons.injEq, and_true] at hb
          subst hb
          cases u <;> simp [Lit.toInt] at hv
          exact ⟨_, rfl⟩
        | [], [(k, u)], _ =>
          have hk : k = "axis" ∨ k = "dim" := by
            by_contra hne
            simp only [not_or] at hne
            simp [bindArgs, hne.1, hne.2] at hb
          have hu : v = u := by
            rcases hk with rfl | rfl <;> simp [bindArgs, bindParams, List.lookup] at hb <;> exact hb.symm
          subst hu
          cases v <;> simp [Lit.toInt] at hv
          exact ⟨_, by simp only [stackDim, if_pos hk]; rfl⟩
        | a :: b :: _, _, h => simp at h; omega
        | [_], _ :: _, h => simp at h
        | [], _ :: _ :: _, h => simp at h
      obtain ⟨⟨d, a'⟩, hr⟩ := key
      rw [hr]
      exact ⟨_, rfl⟩
    · exact ⟨_, rfl⟩
  · exact ⟨_, rfl⟩

theorem binary_acc {i : Instr} {two one : FF} {a : Args} (h : i.ins.length = 1 ∨ i.ins.length = 2) : ∃ l, binary i two one a = some l := by
  unfold binary
  match i.ins, h with
  | [_], _ => exact ⟨_, rfl⟩
  | [_, _], _ => exact ⟨_, rfl⟩

theorem convert_acc {w : World} {i : Instr} (h : Returns w i) : ∃ l, convertPass i = some l := by
  have len : ∀ {f : Fn} {a : Args}, (f = .add ∨ f = .radd ∨ f = .mul ∨ f = .rmul) → i.op = .fn f a → i.ins.length = 1 ∨ i.ins.length = 2 := by
    intro f a hf ho
    obtain ⟨ts, t, hl, hs⟩ := h
    rw [ho] at hs
    rw [← hl]
    match ts with
    | [] => rcases hf with rfl | rfl | rfl | rfl <;> simp [Op.sem, Fn.sem] at hs
    | [_] => simp
    | [_, _] => simp
    | _ :: _ :: _ :: _ => rcases hf with rfl | rfl | rfl | rfl <;> simp [Op.sem, Fn.sem] at hs
  unfold convertPass
  split
  · split
    · rename_i ha; exact binary_acc (by refine len ?_ ha; simp)
    · rename_i ha; exact binary_acc (by refine len ?_ ha; simp)
    · rename_i ha; exact binary_acc (by refine len ?_ ha; simp)
    · rename_i ha; exact binary_acc (by refine len ?_ ha; simp)
    · exact ⟨_, rfl⟩
    · exact ⟨_, rfl⟩
  · exact ⟨_, rfl⟩

theorem oneTensor' {w : World} {f : Fn} {a : Args} {ts : List (Tensor ℝ)} {t : Tensor ℝ} (hf : f = .clamp ∨ f = .clampMin ∨ f = .clampMax) (hs : (Op.fn f a).sem w ts = some t) :
    ∃ x, ts = [x] := by
  match ts with
  | [x] => exact ⟨x, rfl⟩
  | [] => rcases hf with rfl | rfl | rfl <;> simp [Op.sem, Fn.sem] at hs
  | _ :: _ :: _ => rcases hf with rfl | rfl | rfl <;> simp [Op.sem, Fn.sem] at hs

theorem clampMin_acc {w : World} {i : Instr} (h : Returns w i) : ∃ l, clampMinPass i = some l := by
  obtain ⟨ts, t, hl, hs⟩ := h
  unfold clampMinPass
  split
  · rename_i a ha
    split
    · rw [ha] at hs
      obtain ⟨x, rfl⟩ := oneTensor' (by simp) hs
      simp only [Op.sem, Fn.sem] at hs
      split at hs
      · rename_i v hb
        rw [bind_extra hb]
        simp only
        split <;> exact ⟨_, rfl⟩
      · simp at hs
    · exact ⟨_, rfl⟩
  · rename_i a ha
    split
    · rw [ha] at hs
      obtain ⟨x, rfl⟩ := oneTensor' (by simp) hs
      simp only [Op.sem, Fn.sem] at hs
      split at hs
      · rename_i v hb
        rw [bind_extra hb]
        exact ⟨_, rfl⟩
      · simp at hs
    · exact ⟨_, rfl⟩
  · exact ⟨_, rfl⟩

theorem clamp_acc {w : World} {i : Instr} (h : Returns w i) : ∃ l, clampPass i = some l := by
  obtain ⟨ts, t, hl, hs⟩ := h
  unfold clampPass
  split
  · rename_i a ha
    split
    · rw [ha] at hs
      obtain ⟨x, rfl⟩ := oneTensor' (by simp) hs
      simp only [Op.sem, Fn.sem] at hs
      split at hs
      · rename_i lo hi hb
        rw [bind_extra hb]
        simp only
        repeat' split
        all_goals exact ⟨_, rfl⟩
      · simp at hs
    · exact ⟨_, rfl⟩
  · exact ⟨_, rfl⟩

theorem module_acc {w : World} {i : Instr} (hS : Supported w i) (h : Returns w i) : ∃ l, modulePass i = some l := by
  obtain ⟨ts, t, hl, hs⟩ := h
  unfold modulePass
  split
  · rename_i hon
    have hS := hS hon
    split
    case h_7 =>
      rename_i a ha
      split
      · exact ⟨_, rfl⟩
      · rw [ha] at hs
        obtain ⟨x, rfl⟩ := oneTensor (by simp) hs
        simp only [Op.sem, Fn.sem] at hs
        split at hs
        · rename_i s ip hsp
          obtain ⟨v', r', hr, hv'⟩ := bind_head hsp
          obtain ⟨q, hq, -⟩ := Option.map_eq_some_iff.mp hs
          simp only [List.cons.injEq] at hr
          rw [hv']
          simp only [← hr.1, hq, Option.bind_some]
          exact ⟨_, rfl⟩
        · simp at hs
    case h_8 =>
      rename_i a ha
      split
      · exact ⟨_, rfl⟩
      · rename_i hne
        rw [ha] at hs hS
        obtain ⟨x, rfl⟩ := oneTensor (by simp) hs
        simp only [Op.sem, Fn.sem] at hs
        split at hs
        · rename_i s ip hsp
          obtain ⟨pos, kw⟩ := a
          have hpos : pos ≠ [] := hS.resolve_right hne
          obtain ⟨v', r', hr, hv'⟩ := bind_head hsp
          obtain ⟨q, hq, -⟩ := Option.map_eq_some_iff.mp hs
          simp only [List.cons.injEq] at hr
          match pos, hpos with
          | u :: pos, _ =>
            have h1 : v' = u := by
              simp only [bindArgs, bindParams, true_or, if_true] at hv'
              split at hv'
              · simp at hv'
              · simpa using hv'.symm
            have hkw : ∀ k ∈ kw, k.1 ≠ "alpha" := by
              intro k hk he
              unfold bindArgs at hsp
              split at hsp
              · rename_i hc
                have := (hc.resolve_left (by simp)).2 k hk
                rw [he] at this
                simp at this
              · simp at hsp
            have : bindArgs [("alpha", some (Lit.float 1 true))] true ⟨u :: pos, kw⟩ = some [u] := by
              simp only [bindArgs, bindParams, true_or, if_true]
              rw [if_neg]
              · rfl
              · simp only [List.any_eq_true, decide_eq_true_eq, not_exists, not_and]
                exact hkw
            rw [this]
            simp only [← h1, ← hr.1, hq, Option.bind_some]
            exact ⟨_, rfl⟩
        · simp at hs
    case h_9 =>
      rename_i a ha
      split
      · exact ⟨_, rfl⟩
      · rw [ha] at hs
        obtain ⟨x, rfl⟩ := oneTensor (by simp) hs
        simp only [Op.sem, Fn.sem] at hs
        split at hs
        · rename_i d hd
          rw [bind_extra hd]
          obtain ⟨z, hz, -⟩ := Option.bind_eq_some_iff.mp hs
          simp only [hz, Option.bind_some]
          exact ⟨_, rfl⟩
        · simp at hs
    all_goals exact ⟨_, rfl⟩
  · exact ⟨_, rfl⟩

theorem dropout_acc {w : World} {i : Instr} (h : Returns w i) : ∃ l, dropoutPass i = some l := by
  obtain ⟨ts, t, hl, hs⟩ := h
  unfold dropoutPass
  split
  · rename_i a ha
    split
    · rw [ha] at hs
      obtain ⟨x, rfl⟩ := oneTensor (by simp) hs
      simp only [Op.sem, Fn.sem] at hs
      split at hs
      · rename_i p tr ip hb
        have hb' : bindArgs [("p", some (Lit.float (1 / 2) true)), ("training", some (.bool true)), ("inplace", some (.bool false))] false a = some [p, tr, ip] := hb
        rw [hb']
        obtain ⟨q, hq, -⟩ := Option.bind_eq_some_iff.mp hs
        simp only [hq, Option.bind_some]
        exact ⟨_, rfl⟩
      · simp at hs
    · exact ⟨_, rfl⟩
  · exact ⟨_, rfl⟩

/-! ### Readable calls stay readable -/

theorem read_keep {i : Instr} {l : List Instr} (hS : Readable i) (h : some [i] = some l) : ∀ x ∈ l, Readable x := by
  simp at h
  subst h
  simpa using hS

theorem neg_read (i : Instr) (l : List Instr) (hS : Readable i) (h : negPass i = some l) : ∀ x ∈ l, Readable x := by
  unfold negPass at h
  split at h
  · split at h
    · simp only [withOp, Option.some.injEq] at h
      subst h
      intro x hx
      simp only [List.mem_singleton] at hx
      subst hx
      intro _
      trivial
    · exact read_keep hS h
  · exact read_keep hS h

theorem div_read (i : Instr) (l : List Instr) (hS : Readable i) (h : divPass i = some l) : ∀ x ∈ l, Readable x := by
  unfold divPass at h
  split at h
  · split at h
    · simp only [Option.bind_eq_bind, Option.bind_eq_some_iff] at h
      obtain ⟨c, -, h⟩ := h
      split at h
      · simp at h
      · simp only [withOp, Option.some.injEq] at h
        subst h
        intro x hx
        simp only [List.mem_singleton] at hx
        subst hx
        intro _
        trivial
    · exact read_keep hS h
  · exact read_keep hS h

theorem sub_read (i : Instr) (l : List Instr) (hS : Readable i) (h : subPass i = some l) : ∀ x ∈ l, Readable x := by
  have two : ∀ x y, some (subTensors i x y) = some l → ∀ x ∈ l, Readable x := by
    intro x y h
    simp only [Option.some.injEq] at h
    subst h
    intro z hz
    simp only [subTensors, List.mem_cons, List.not_mem_nil, or_false] at hz
    rcases hz with rfl | rfl <;> exact fun _ => trivial
  unfold subPass at h
  split at h
  · split at h
    · split at h
      · simp only [Option.bind_eq_bind, Option.bind_eq_some_iff] at h
        obtain ⟨c, -, h⟩ := h
        simp only [withOp, Option.some.injEq] at h
        subst h
        intro x hx
        simp only [List.mem_singleton] at hx
        subst hx
        exact fun _ => trivial
      · exact two _ _ h
      · exact read_keep hS h
    · exact read_keep hS h
  · split at h
    · split at h
      · simp only [Option.bind_eq_bind, Option.bind_eq_some_iff, Option.some.injEq] at h
        obtain ⟨c, hp, h⟩ := h
        subst h
        intro x hx
        simp only [List.mem_cons, List.not_mem_nil, or_false] at hx
        rcases hx with rfl | rfl <;> exact fun _ => trivial
      · exact two _ _ h
      · exact read_keep hS h
    · exact read_keep hS h
  · exact read_keep hS h

theorem rewrite_accepts (w : World) {p : List Instr} {outs : List Name} {E E1 : Env} (hE : ∀ n v, E n = some v → ¬ auxSub n ∧ ¬ auxStack n)
    (hA : ∀ i ∈ p, Avoids auxSub i ∧ Avoids auxStack i) (hw : WellFormed (fun n => ∃ v, E n = some v) p) (hS : ∀ i ∈ p, Supported w i) (hR : ∀ i ∈ p, Readable i)
    (hr : run w p E = some E1) : ∃ p', rewrite outs p = some p' := by
  have none1 : ∀ q : List Instr, ∀ i ∈ q, Avoids noName i := fun _ i _ => avoids_noName i
  have wf1 : ∀ {f : Instr → Option (List Instr)}, (∀ i l, f i = some l → ∃ o, l = [{ i with op := o }]) → ∀ {q q' : List Instr} {K : Name → Prop}, pass f q = some q' → WellFormed K q → WellFormed K q' :=
    fun {_} hf {q q' K} h hw => wf_pass (good_of_op hf noName) q q' K K (none1 q) h hw (fun _ h => h) (fun _ _ h => h) (fun _ h => Or.inl h)
  -- neg
  obtain ⟨p1, h1⟩ := pass_some (f := negPass) p (fun i _ => neg_acc i)
  obtain ⟨F1, r1, x1⟩ := pass_ok (neg_ok w (Supported w)) p p1 (none1 p) hS h1 E E1 E hr (Ext.refl _ _)
  have s1 := pass_forall neg_supp p p1 hS h1
  have d1 := pass_forall neg_read p p1 hR h1
  have a1 := pass_forall (avoids_form (A := auxSub) neg_form) p p1 (fun i hi => (hA i hi).1) h1
  have b1 := pass_forall (avoids_form (A := auxStack) neg_form) p p1 (fun i hi => (hA i hi).2) h1
  have w1 := wf1 neg_form h1 hw
  -- div
  obtain ⟨p2, h2⟩ := pass_some (f := divPass) p1 (fun i hi => div_acc (d1 i hi) (run_returns w _ _ _ r1 i hi))
  obtain ⟨F2, r2, x2⟩ := pass_ok (div_ok w (Supported w)) p1 p2 (none1 p1) s1 h2 E F1 E r1 (Ext.refl _ _)
  have s2 := pass_forall div_supp p1 p2 s1 h2
  have d2 := pass_forall div_read p1 p2 d1 h2
  have a2 := pass_forall (avoids_form (A := auxSub) div_form) p1 p2 a1 h2
  have b2 := pass_forall (avoids_form (A := auxStack) div_form) p1 p2 b1 h2
  have w2 := wf1 div_form h2 w1
  -- sub
  obtain ⟨p3, h3⟩ := pass_some (f := subPass) p2 (fun i hi => sub_acc (d2 i hi))
  obtain ⟨F3, r3, x3⟩ := pass_ok (sub_ok w) p2 p3 a2 s2 h3 E F2 E r2 (Ext.refl _ _)
  have s3 := pass_forall sub_supp p2 p3 s2 h3
  have d3 := pass_forall sub_read p2 p3 d2 h3
  have b3 := pass_forall sub_avoids p2 p3 (fun i hi => ⟨a2 i hi, b2 i hi⟩) h3
  have w3 := wf_pass sub_good p2 p3 _ _ a2 h3 w2 (fun _ h => h) (fun n h => (hE n h.choose h.choose_spec).1) (fun _ h => Or.inl h)
  -- stack
  obtain ⟨p4, h4⟩ := pass_some (f := stackPass) p3 (fun i hi => stack_acc (d3 i hi) (run_returns w _ _ _ r3 i hi))
  obtain ⟨F4, r4, x4⟩ := pass_ok (stack_ok w (Supported w)) p3 p4 b3 s3 h4 E F3 E r3 (Ext.refl _ _)
  have s4 := pass_forall stack_supp p3 p4 s3 h4
  have w4 := wf_pass stack_good p3 p4 _ _ b3 h4 w3 (fun _ h => h) (fun n h => (hE n h.choose h.choose_spec).2) (fun _ h => Or.inl h)
  -- convert
  obtain ⟨p5, h5⟩ := pass_some (f := convertPass) p4 (fun i hi => convert_acc (run_returns w _ _ _ r4 i hi))
  obtain ⟨F5, r5, x5⟩ := pass_ok (convert_ok w) p4 p5 (none1 p4) s4 h5 E F4 E r4 (Ext.refl _ _)
  have s5 := pass_forall convert_supp p4 p5 s4 h5
  have w5 := wf1 convert_form h5 w4
  -- clamp_min
  obtain ⟨p6, h6⟩ := pass_some (f := clampMinPass) p5 (fun i hi => clampMin_acc (run_returns w _ _ _ r5 i hi))
  obtain ⟨F6, r6, x6⟩ := pass_ok (clampMin_ok w (Supported w)) p5 p6 (none1 p5) (fun i hi => (s5 i hi).1) h6 E F5 E r5 (Ext.refl _ _)
  have s6 := pass_forall clampMin_supp p5 p6 s5 h6
  have w6 := wf1 clampMin_form h6 w5
  -- clamp
  obtain ⟨p7, h7⟩ := pass_some (f := clampPass) p6 (fun i hi => clamp_acc (run_returns w _ _ _ r6 i hi))
  obtain ⟨F7, r7, x7⟩ := pass_ok (clamp_ok w (Supported w)) p6 p7 (none1 p6) (fun i hi => (s6 i hi).1) h7 E F6 E r6 (Ext.refl _ _)
  have s7 := pass_forall clamp_supp p6 p7 s6 h7
  have w7 := wf1 clamp_form h7 w6
  -- fusion
  obtain ⟨F8, r8, x8⟩ := fuse_ok w (outs := outs) w7 (fun i hi => (s7 i hi).2) r7
  have s8 := fuse_supp (outs := outs) (fun i hi => (s7 i hi).1)
  -- modules
  obtain ⟨p8, h8⟩ := pass_some (f := modulePass) (fusePass p7 outs) (fun i hi => module_acc (s8 i hi) (run_returns w _ _ _ r8 i hi))
  obtain ⟨F9, r9, x9⟩ := pass_ok (module_ok w) (fusePass p7 outs) p8 (none1 _) s8 h8 E F8 E r8 (Ext.refl _ _)
  -- dropout
  obtain ⟨p9, h9⟩ := pass_some (f := dropoutPass) p8 (fun i hi => dropout_acc (run_returns w _ _ _ r9 i hi))
  exact ⟨p9, by simp only [rewrite, h1, h2, h3, h4, h5, h6, h7, h8, Option.bind_eq_bind, Option.bind_some]; exact h9⟩

end Verif.Lemmas.FuncRewrite
