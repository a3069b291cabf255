import Mathlib.Tactic.Ring
import Mathlib.Tactic.Push
import Mathlib.Tactic.FieldSimp
import Mathlib.Tactic.NormNum
import Mathlib.Data.Rat.Cast.CharZero
import Verif.Model.FuncRewrite

/-! Lemmas for C87. -/

namespace Verif.Lemmas.FuncRewrite
open Verif.Spec Verif.Spec.FuncCall Verif.Model.FuncRewrite

/-- `E'` has every value of `E` under a name outside `A`. -/
def Ext (A : Name → Prop) (E E' : Env) : Prop := ∀ n, ¬ A n → ∀ v, E n = some v → E' n = some v

theorem Ext.refl (A : Name → Prop) (E : Env) : Ext A E E := fun _ _ _ h => h

theorem Ext.set {A : Name → Prop} {E E' : Env} (h : Ext A E E') (n : Name) (t : Tensor ℝ) : Ext A (E.set n t) (E'.set n t) := by
  intro m hm v hv
  unfold Env.set at *
  by_cases hmn : m = n
  · simpa [hmn] using hv
  · simp only [hmn, if_false] at hv ⊢
    exact h m hm v hv

theorem mapM_cons_some {α β : Type} {f : α → Option β} {a : α} {l : List α} {r : List β} :
    (a :: l).mapM f = some r ↔ ∃ v vs, f a = some v ∧ l.mapM f = some vs ∧ r = v :: vs := by
  simp only [List.mapM_cons, Option.bind_eq_bind, Option.bind_eq_some_iff, Option.pure_def, Option.some.injEq]
  constructor
  · rintro ⟨v, h1, vs, h2, h3⟩
    exact ⟨v, vs, h1, h2, h3.symm⟩
  · rintro ⟨v, vs, h1, h2, h3⟩
    exact ⟨v, h1, vs, h2, h3.symm⟩

theorem exec_some {w : World} {i : Instr} {E E1 : Env} :
    i.exec w E = some E1 ↔ ∃ ts t, i.ins.mapM E = some ts ∧ i.op.sem w ts = some t ∧ E1 = E.set i.out t := by
  unfold Instr.exec
  simp only [Option.bind_eq_bind, Option.bind_eq_some_iff, Option.some.injEq]
  constructor
  · rintro ⟨ts, h1, t, h2, h3⟩
    exact ⟨ts, t, h1, h2, h3.symm⟩
  · rintro ⟨ts, t, h1, h2, h3⟩
    exact ⟨ts, h1, t, h2, h3.symm⟩

theorem mapM_ext {A : Name → Prop} {E E' : Env} (h : Ext A E E') : ∀ (ins : List Name) (ts : List (Tensor ℝ)), (∀ n ∈ ins, ¬ A n) →
    ins.mapM E = some ts → ins.mapM E' = some ts
  | [], ts, _, hm => by simpa using hm
  | n :: ins, ts, hA, hm => by
    obtain ⟨v, vs, h1, h2, rfl⟩ := mapM_cons_some.mp hm
    exact mapM_cons_some.mpr ⟨v, vs, h n (hA n (by simp)) v h1, mapM_ext h ins vs (fun m hm => hA m (by simp [hm])) h2, rfl⟩

theorem mapM_length {α β : Type} {f : α → Option β} : ∀ {l : List α} {r : List β}, l.mapM f = some r → r.length = l.length
  | [], r, h => by simp at h; simp [← h]
  | a :: l, r, h => by
    obtain ⟨v, vs, h1, h2, rfl⟩ := mapM_cons_some.mp h
    simp [mapM_length h2]

theorem run_append (w : World) : ∀ (p q : List Instr) (E : Env), run w (p ++ q) E = (run w p E).bind (run w q)
  | [], q, E => rfl
  | i :: p, q, E => by
    simp only [List.cons_append, run, Option.bind_assoc]
    congr 1
    funext E1
    exact run_append w p q E1

/-- An instruction keeps away from `A`. -/
def Avoids (A : Name → Prop) (i : Instr) : Prop := ¬ A i.out ∧ ∀ n ∈ i.ins, ¬ A n

/-- What the instructions put in place of one instruction compute: at least what it computed, outside `A`. -/
def StepOk (w : World) (A : Name → Prop) (S : Instr → Prop) (f : Instr → Option (List Instr)) : Prop :=
  ∀ i l, Avoids A i → S i → f i = some l → ∀ E E1 E', i.exec w E = some E1 → Ext A E E' → ∃ E1', run w l E' = some E1' ∧ Ext A E1 E1'

theorem pass_cons {f : Instr → Option (List Instr)} {i : Instr} {p q : List Instr} (h : pass f (i :: p) = some q) :
    ∃ l q', f i = some l ∧ pass f p = some q' ∧ q = l ++ q' := by
  simp only [pass, Option.map_eq_some_iff] at h
  obtain ⟨r, hr, rfl⟩ := h
  obtain ⟨v, vs, h1, h2, rfl⟩ := mapM_cons_some.mp hr
  exact ⟨v, vs.flatten, h1, by simp [pass, h2], by simp⟩

theorem pass_nil {f : Instr → Option (List Instr)} {q : List Instr} (h : pass f [] = some q) : q = [] := by
  simpa [pass] using h

theorem pass_ok {w : World} {A : Name → Prop} {S : Instr → Prop} {f : Instr → Option (List Instr)} (hf : StepOk w A S f) : ∀ (p q : List Instr),
    (∀ i ∈ p, Avoids A i) → (∀ i ∈ p, S i) → pass f p = some q → ∀ E E1 E', run w p E = some E1 → Ext A E E' → ∃ E1', run w q E' = some E1' ∧ Ext A E1 E1'
  | [], q, _, _, h, E, E1, E', hr, he => by
    rw [pass_nil h]
    simp only [run, Option.some.injEq] at hr
    exact ⟨E', rfl, hr ▸ he⟩
  | i :: p, q, hA, hS, h, E, E1, E', hr, he => by
    obtain ⟨l, q', hl, hq', rfl⟩ := pass_cons h
    simp only [run, Option.bind_eq_some_iff] at hr
    obtain ⟨E2, h2, hr⟩ := hr
    obtain ⟨E2', h2', he2⟩ := hf i l (hA i (by simp)) (hS i (by simp)) hl E E2 E' h2 he
    obtain ⟨E1', h1', he1⟩ := pass_ok hf p q' (fun x hx => hA x (by simp [hx])) (fun x hx => hS x (by simp [hx])) hq' E2 E1 E2' hr he2
    exact ⟨E1', by rw [run_append, h2']; exact h1', he1⟩

theorem pass_forall {P Q : Instr → Prop} {f : Instr → Option (List Instr)} (hf : ∀ i l, P i → f i = some l → ∀ x ∈ l, Q x) : ∀ (p q : List Instr),
    (∀ i ∈ p, P i) → pass f p = some q → ∀ x ∈ q, Q x
  | [], q, _, h => by rw [pass_nil h]; simp
  | i :: p, q, hP, h => by
    obtain ⟨l, q', hl, hq', rfl⟩ := pass_cons h
    intro x hx
    rcases List.mem_append.mp hx with hx | hx
    · exact hf i l (hP i (by simp)) hl x hx
    · exact pass_forall hf p q' (fun x hx => hP x (by simp [hx])) hq' x hx

/-- No names are set aside. -/
def noName : Name → Prop := fun _ => False

theorem avoids_noName (i : Instr) : Avoids noName i := ⟨fun h => h, fun _ _ h => h⟩

/-- A pass that only changes the operation. -/
theorem stepOk_of_op {w : World} {S : Instr → Prop} {f : Instr → Option (List Instr)}
    (hf : ∀ i l, S i → f i = some l → ∃ o, l = [{ i with op := o }] ∧ ∀ ts t, ts.length = i.ins.length → i.op.sem w ts = some t → o.sem w ts = some t) :
    StepOk w noName S f := by
  intro i l _ hS hl E E1 E' he hx
  obtain ⟨o, rfl, ho⟩ := hf i l hS hl
  obtain ⟨ts, t, h1, h2, rfl⟩ := exec_some.mp he
  have h1' := mapM_ext hx i.ins ts (fun _ _ h => h) h1
  refine ⟨E'.set i.out t, ?_, hx.set _ _⟩
  have : Instr.exec w { i with op := o } E' = some (E'.set i.out t) := exec_some.mpr ⟨ts, t, h1', ho ts t (mapM_length h1) h2, rfl⟩
  simp [run, this]

/-! ### Binding of arguments -/

theorem bind_extra {ps : List (String × Option Lit)} {a : Args} {r : List Lit} (h : bindArgs ps false a = some r) : bindArgs ps true a = some r := by
  unfold bindArgs at h ⊢
  split at h
  · simpa using h
  · simp at h

theorem bind_none {a : Args} {r : List Lit} (h : bindArgs [] false a = some r) : a = .empty ∧ r = [] := by
  unfold bindArgs at h
  split at h
  · rename_i hc
    obtain ⟨hp, hk⟩ := hc.resolve_left (by simp)
    simp [bindParams] at h
    obtain ⟨pos, kw⟩ := a
    simp at hp
    have : kw = [] := by
      cases kw with
      | nil => rfl
      | cons k _ => exact absurd (hk k (by simp)) (by simp)
    exact ⟨by simp [Args.empty, hp, this], h⟩
  · simp at h

theorem bind_one (n : String) (d : Option Lit) (v : Lit) : bindArgs [(n, d)] false ⟨[v], []⟩ = some [v] := by
  simp [bindArgs, bindParams]

theorem bind_pos {n : String} {a : Args} {r : List Lit} (hk : a.kw = []) (h : bindArgs [(n, none)] false a = some r) : ∃ v, a = ⟨[v], []⟩ ∧ r = [v] := by
  obtain ⟨pos, kw⟩ := a
  simp only at hk
  subst hk
  unfold bindArgs at h
  split at h
  · rename_i hc
    obtain ⟨hp, -⟩ := hc.resolve_left (by simp)
    match pos, hp with
    | [], _ => simp [bindParams] at h
    | [v], _ => simp [bindParams] at h; exact ⟨v, rfl, h.symm⟩
  · simp at h

/-- The first parameters are bound alike whatever follows. -/
theorem bindParams_head {n : String} {d : Option Lit} {ps : List (String × Option Lit)} {pos : List Lit} {kw : List (String × Lit)} {r : List Lit}
    (h : bindParams ((n, d) :: ps) pos kw = some r) : ∃ v r', r = v :: r' ∧ bindParams [(n, d)] pos kw = some [v] := by
  match pos with
  | v :: pos =>
    simp only [bindParams] at h ⊢
    split at h
    · simp at h
    · rename_i hc
      simp only [Option.map_eq_some_iff] at h
      obtain ⟨r', -, rfl⟩ := h
      exact ⟨v, r', rfl, by simp [hc]⟩
  | [] =>
    simp only [bindParams] at h ⊢
    cases hl : kw.lookup n with
    | some v =>
      rw [hl] at h
      simp only [Option.map_eq_some_iff] at h
      obtain ⟨r', -, rfl⟩ := h
      exact ⟨v, r', rfl, by simp⟩
    | none =>
      rw [hl] at h
      cases d with
      | none => simp at h
      | some v =>
        simp only [Option.map_eq_some_iff] at h
        obtain ⟨r', -, rfl⟩ := h
        exact ⟨v, r', rfl, by simp⟩

theorem bind_head {n : String} {d : Option Lit} {ps : List (String × Option Lit)} {a : Args} {r : List Lit}
    (h : bindArgs ((n, d) :: ps) false a = some r) : ∃ v r', r = v :: r' ∧ bindArgs [(n, d)] true a = some [v] := by
  unfold bindArgs at h
  split at h
  · obtain ⟨v, r', h1, h2⟩ := bindParams_head h
    exact ⟨v, r', h1, by simp [bindArgs, h2]⟩
  · simp at h

/-! ### The passes that only change operations -/

theorem parse_num {e : Bool} {a : Args} {c : ℚ} (h : parseNumber e a = some c) : ∃ l, a = ⟨[l], []⟩ ∧ l.num = some c := by
  unfold parseNumber at h
  split at h
  · rename_i z
    exact ⟨.int z, rfl, by simpa [Lit.num] using h⟩
  · rename_i q dot
    split at h
    · exact ⟨.float q dot, rfl, by simpa [Lit.num] using h⟩
    · simp at h
  · simp at h

theorem keep {w : World} {i : Instr} {l : List Instr} (h : some [i] = some l) :
    ∃ o, l = [{ i with op := o }] ∧ ∀ ts t, ts.length = i.ins.length → i.op.sem w ts = some t → o.sem w ts = some t := by
  simp at h
  exact ⟨i.op, by rw [← h], fun _ _ _ h => h⟩

theorem neg_ok (w : World) (S : Instr → Prop) : StepOk w noName S negPass := by
  apply stepOk_of_op
  intro i l _ h
  unfold negPass at h
  split at h
  · rename_i a ha
    split at h
    · simp only [withOp, Option.some.injEq] at h
      refine ⟨_, h.symm, fun ts t hl hs => ?_⟩
      rw [ha] at hs
      match ts with
      | [x] =>
        simp only [Op.sem, Fn.sem, Option.map_eq_some_iff] at hs
        obtain ⟨_, -, rfl⟩ := hs
        simp only [Op.sem, Fn.sem, bind_one, withScalar, Lit.num, Option.map_some]
        congr 2
        funext v
        push_cast
        ring
      | [] => simp [Op.sem, Fn.sem] at hs
      | _ :: _ :: _ => simp [Op.sem, Fn.sem] at hs
    · exact keep h
  · exact keep h

theorem div_ok (w : World) (S : Instr → Prop) : StepOk w noName S divPass := by
  apply stepOk_of_op
  intro i l _ h
  unfold divPass at h
  split at h
  · rename_i a ha
    split at h
    · rename_i hc
      simp only [Option.bind_eq_bind, Option.bind_eq_some_iff] at h
      obtain ⟨c, hp, h⟩ := h
      obtain ⟨lit, rfl, hn⟩ := parse_num hp
      split at h
      · simp at h
      · rename_i hz
        simp only [withOp, Option.some.injEq] at h
        refine ⟨_, h.symm, fun ts t hl hs => ?_⟩
        rw [ha] at hs
        rw [hc.2.2] at hl
        match ts, hl with
        | [x], _ =>
          simp only [Op.sem, Fn.sem, bind_one, withScalar, hn, Option.some.injEq, hz, if_false, Option.map_some] at hs ⊢
          rw [← hs]
          simp only [Lit.num, Option.map_some]
          congr 2
          funext v
          push_cast
          ring
    · exact keep h
  · exact keep h

theorem alpha_one : bindArgs [("alpha", some (Lit.int 1))] false ⟨[], []⟩ = some [.int 1] := rfl

theorem convert_ok (w : World) : StepOk w noName (Supported w) convertPass := by
  apply stepOk_of_op
  intro i l hS h
  unfold convertPass at h
  split at h
  · rename_i hon
    have hS := hS hon.1
    split at h
    · rename_i a ha
      rw [ha] at hS
      obtain ⟨hk, -⟩ := hS
      unfold binary at h
      split at h
      · rename_i x y hi
        simp only [withOp, Option.some.injEq] at h
        refine ⟨_, h.symm, fun ts t hl hs => ?_⟩
        rw [ha] at hs
        rw [hi] at hl
        match ts, hl with
        | [u, v], _ =>
          obtain ⟨pos, kw⟩ := a
          simp only at hk
          subst hk
          simp only [Op.sem, Fn.sem, alpha_one] at hs
          split at hs
          · rename_i hp
            subst hp
            simp only [Lit.num, Option.bind_some] at hs
            simp only [Op.sem, FF.sem, Args.empty, if_true]
            rw [← hs]
            congr 1
            funext p q
            push_cast
            ring
          · simp at hs
      · rename_i x hi
        simp only [withOp, Option.some.injEq] at h
        refine ⟨_, h.symm, fun ts t hl hs => ?_⟩
        rw [ha] at hs
        rw [hi] at hl
        match ts, hl with
        | [u], _ =>
          obtain ⟨pos, kw⟩ := a
          simp only at hk
          subst hk
          simp only [Op.sem, Fn.sem, List.filter_nil, alpha_one] at hs
          split at hs
          · rename_i c al hb hal
            obtain ⟨v, hv, hc⟩ := bind_pos rfl hb
            simp only [Args.mk.injEq, and_true] at hv
            simp only [List.cons.injEq, and_true] at hc
            subst hv hc
            simp only [Option.some.injEq, List.cons.injEq, and_true] at hal
            subst hal
            simp only [Lit.num, Option.bind_some] at hs
            simp only [Op.sem, FF.sem, bind_one]
            rw [← hs]
            congr 1
            funext p q
            push_cast
            ring
          · simp at hs
      · simp at h
    · rename_i a ha
      rw [ha] at hS
      obtain ⟨hk, -⟩ := hS
      unfold binary at h
      split at h
      · rename_i x y hi
        simp only [withOp, Option.some.injEq] at h
        refine ⟨_, h.symm, fun ts t hl hs => ?_⟩
        rw [ha] at hs
        rw [hi] at hl
        match ts, hl with
        | [u, v], _ =>
          simp only [Op.sem, Fn.sem] at hs
          split at hs
          · rename_i hp
            subst hp
            simp only [Op.sem, FF.sem, if_true]
            rw [← hs]
            congr 1
            funext p q
            ring
          · simp at hs
      · rename_i x hi
        simp only [withOp, Option.some.injEq] at h
        refine ⟨_, h.symm, fun ts t hl hs => ?_⟩
        rw [ha] at hs
        rw [hi] at hl
        match ts, hl with
        | [u], _ =>
          simp only [Op.sem, Fn.sem] at hs
          split at hs
          · rename_i c hb
            obtain ⟨v, hv, hc⟩ := bind_pos hk hb
            simp only [List.cons.injEq, and_true] at hc
            subst hv hc
            simp only [Op.sem, FF.sem, bind_one]
            rw [← hs]
            congr 1
            funext p q
            ring
          · simp at hs
      · simp at h
    · rename_i a ha
      rw [ha] at hS
      have hk := hS
      unfold binary at h
      split at h
      · rename_i x y hi
        simp only [withOp, Option.some.injEq] at h
        refine ⟨_, h.symm, fun ts t hl hs => ?_⟩
        rw [ha] at hs
        rw [hi] at hl
        match ts, hl with
        | [u, v], _ => exact hs
      · rename_i x hi
        simp only [withOp, Option.some.injEq] at h
        refine ⟨_, h.symm, fun ts t hl hs => ?_⟩
        rw [ha] at hs
        rw [hi] at hl
        match ts, hl with
        | [u], _ =>
          simp only [Op.sem, Fn.sem] at hs
          split at hs
          · rename_i c hb
            obtain ⟨v, hv, hc⟩ := bind_pos hk hb
            simp only [List.cons.injEq, and_true] at hc
            subst hv hc
            simp only [Op.sem, FF.sem, bind_one]
            exact hs
          · simp at hs
      · simp at h
    · rename_i a ha
      rw [ha] at hS
      have hk := hS
      unfold binary at h
      split at h
      · rename_i x y hi
        simp only [withOp, Option.some.injEq] at h
        refine ⟨_, h.symm, fun ts t hl hs => ?_⟩
        rw [ha] at hs
        rw [hi] at hl
        match ts, hl with
        | [u, v], _ =>
          simp only [Op.sem, Fn.sem] at hs
          split at hs
          · rename_i hp
            subst hp
            simp only [Op.sem, FF.sem, if_true]
            rw [← hs]
            congr 1
            funext p q
            ring
          · simp at hs
      · rename_i x hi
        simp only [withOp, Option.some.injEq] at h
        refine ⟨_, h.symm, fun ts t hl hs => ?_⟩
        rw [ha] at hs
        rw [hi] at hl
        match ts, hl with
        | [u], _ =>
          simp only [Op.sem, Fn.sem] at hs
          split at hs
          · rename_i c hb
            obtain ⟨v, hv, hc⟩ := bind_pos hk hb
            simp only [List.cons.injEq, and_true] at hc
            subst hv hc
            simp only [Op.sem, FF.sem, bind_one]
            rw [← hs]
            congr 1
            funext p q
            ring
          · simp at hs
      · simp at h
    · rename_i a ha
      rw [ha] at hS
      simp only [withOp, Option.some.injEq] at h
      refine ⟨_, h.symm, fun ts t hl hs => ?_⟩
      rw [ha] at hs
      have hm : a.kw.map (fun k => (if k.1 = "axis" then "dim" else k.1, k.2)) = a.kw := by
        conv_rhs => rw [← List.map_id a.kw]
        refine List.map_congr_left (fun k hk => ?_)
        simp [hS k hk]
      simp only [Op.sem, Fn.sem, dimArg, hm] at hs
      simp only [Op.sem, FF.sem]
      obtain ⟨d, hd, hs⟩ := Option.bind_eq_some_iff.mp hs
      obtain ⟨r, hr, hd⟩ := Option.bind_eq_some_iff.mp hd
      have hr' : bindArgs [("dim", some (Lit.int 0))] false a = some r := hr
      rw [hr']
      split at hd
      · simp [hd, hs]
      · simp at hd
    · exact keep h
  · exact keep h

theorem clampMin_ok (w : World) (S : Instr → Prop) : StepOk w noName S clampMinPass := by
  apply stepOk_of_op
  intro i l _ h
  unfold clampMinPass at h
  split at h
  · rename_i a ha
    split at h
    · split at h
      · rename_i v hb
        split at h
        · rename_i hz
          simp only [withOp, Option.some.injEq] at h
          refine ⟨_, h.symm, fun ts t hl hs => ?_⟩
          rw [ha] at hs
          match ts with
          | [x] =>
            simp only [Op.sem, Fn.sem] at hs
            split at hs
            · rename_i lo hlo
              rw [bind_extra hlo] at hb
              simp only [Option.some.injEq, List.cons.injEq, and_true] at hb
              subst hb
              simp only [Op.sem, Fn.sem]
              have : bindArgs [("min", some Lit.none), ("max", some Lit.none)] false ⟨[lo], []⟩ = some [lo, .none] := by simp [bindArgs, bindParams]
              rw [this]
              exact hs
            · simp at hs
          | [] => simp [Op.sem, Fn.sem] at hs
          | _ :: _ :: _ => simp [Op.sem, Fn.sem] at hs
        · exact keep h
      · simp at h
    · exact keep h
  · rename_i a ha
    split at h
    · split at h
      · exact keep h
      · simp at h
    · exact keep h
  · exact keep h

theorem clampBy_zero {lo : Lit} (h : isNum lo 0 = true) (x : Tensor ℝ) : clampBy lo .none x = some (mapTensor reluR x) := by
  have hn : lo.num = some 0 := by simpa [isNum] using h
  have hne : lo ≠ .none := by rintro rfl; simp [Lit.num] at hn
  simp only [clampBy, hne, false_and, if_false, hn]
  congr 2
  funext v
  simp [Activation.clamp, Lit.num, reluR]

theorem clampBy_six {lo hi : Lit} (h : isNum lo 0 = true) (h6 : isNum hi 6 = true) (x : Tensor ℝ) :
    clampBy lo hi x = some (mapTensor (fun v => min (reluR v) 6) x) := by
  have hn : lo.num = some 0 := by simpa [isNum] using h
  have hn6 : hi.num = some 6 := by simpa [isNum] using h6
  have hne : lo ≠ .none := by rintro rfl; simp [Lit.num] at hn
  simp only [clampBy, hne, false_and, if_false, hn, hn6]
  congr 2
  funext v
  simp [Activation.clamp, reluR]

theorem clamp_ok (w : World) (S : Instr → Prop) : StepOk w noName S clampPass := by
  apply stepOk_of_op
  intro i l _ h
  unfold clampPass at h
  split at h
  · rename_i a ha
    split at h
    · split at h
      · rename_i lo hi hb
        have key : ∀ ts t, i.op.sem w ts = some t → ∃ x, ts = [x] ∧ clampBy lo hi x = some t := by
          intro ts t hs
          rw [ha] at hs
          match ts with
          | [x] =>
            simp only [Op.sem, Fn.sem] at hs
            split at hs
            · rename_i lo' hi' hlo
              rw [bind_extra hlo] at hb
              simp only [Option.some.injEq, List.cons.injEq, and_true] at hb
              obtain ⟨rfl, rfl⟩ := hb
              exact ⟨x, rfl, hs⟩
            · simp at hs
          | [] => simp [Op.sem, Fn.sem] at hs
          | _ :: _ :: _ => simp [Op.sem, Fn.sem] at hs
        have hrelu : bindArgs [("inplace", some (Lit.bool false))] false .empty = some [.bool false] := rfl
        split at h
        · rename_i hc
          simp only [withOp, Option.some.injEq] at h
          refine ⟨_, h.symm, fun ts t hl hs => ?_⟩
          obtain ⟨x, rfl, hk⟩ := key ts t hs
          rw [hc.2, clampBy_zero hc.1] at hk
          simpa only [Op.sem, Fn.sem, hrelu, Option.map_some] using hk
        · split at h
          · rename_i hc
            simp only [withOp, Option.some.injEq] at h
            refine ⟨_, h.symm, fun ts t hl hs => ?_⟩
            obtain ⟨x, rfl, hk⟩ := key ts t hs
            rw [clampBy_six hc.1 hc.2] at hk
            simpa only [Op.sem, Fn.sem, hrelu, Option.map_some] using hk
          · split at h
            · rename_i hc
              simp only [withOp, Option.some.injEq] at h
              refine ⟨_, h.symm, fun ts t hl hs => ?_⟩
              obtain ⟨x, rfl, hk⟩ := key ts t hs
              rw [hc] at hk
              simpa only [Op.sem, Fn.sem, bind_one] using hk
            · split at h
              · rename_i hc
                simp only [withOp, Option.some.injEq] at h
                refine ⟨_, h.symm, fun ts t hl hs => ?_⟩
                obtain ⟨x, rfl, hk⟩ := key ts t hs
                rw [hc] at hk
                simpa only [Op.sem, Fn.sem, bind_one] using hk
              · simp only [withOp, Option.some.injEq] at h
                refine ⟨_, h.symm, fun ts t hl hs => ?_⟩
                obtain ⟨x, rfl, hk⟩ := key ts t hs
                have : bindArgs [("min", some Lit.none), ("max", some Lit.none)] false ⟨[lo, hi], []⟩ = some [lo, hi] := by simp [bindArgs, bindParams]
                simpa only [Op.sem, Fn.sem, this] using hk
      · simp at h
    · exact keep h
  · exact keep h

theorem oneTensor {w : World} {f : Fn} {a : Args} {ts : List (Tensor ℝ)} {t : Tensor ℝ}
    (hf : f ∈ [Fn.relu, .relu6, .silu, .hardswish, .sigmoid, .tanh, .elu, .leakyRelu, .glu, .dropout]) (h : (Op.fn f a).sem w ts = some t) : ∃ x, ts = [x] := by
  match ts with
  | [x] => exact ⟨x, rfl⟩
  | [] => simp only [List.mem_cons, List.not_mem_nil, or_false] at hf; rcases hf with rfl | rfl | rfl | rfl | rfl | rfl | rfl | rfl | rfl | rfl <;> simp [Op.sem, Fn.sem] at h
  | _ :: _ :: _ => simp only [List.mem_cons, List.not_mem_nil, or_false] at hf; rcases hf with rfl | rfl | rfl | rfl | rfl | rfl | rfl | rfl | rfl | rfl <;> simp [Op.sem, Fn.sem] at h

theorem module_ok (w : World) : StepOk w noName (Supported w) modulePass := by
  apply stepOk_of_op
  intro i l hS h
  unfold modulePass at h
  split at h
  · rename_i hon
    have hS := hS hon
    split at h
    case h_1 | h_2 | h_3 | h_4 | h_5 | h_6 =>
      rename_i a ha
      simp only [withOp, Option.some.injEq] at h
      refine ⟨_, h.symm, fun ts t hl hs => ?_⟩
      rw [ha] at hs
      obtain ⟨x, rfl⟩ := oneTensor (by simp) hs
      simp only [Op.sem, Fn.sem, Option.map_eq_some_iff] at hs
      obtain ⟨_, -, rfl⟩ := hs
      rfl
    case h_7 =>
      rename_i a ha
      split at h
      · rename_i he
        subst he
        simp only [withOp, Option.some.injEq] at h
        refine ⟨_, h.symm, fun ts t hl hs => ?_⟩
        rw [ha] at hs
        obtain ⟨x, rfl⟩ := oneTensor (by simp) hs
        have : bindArgs [("alpha", some (Lit.float 1 true)), ("inplace", some (Lit.bool false))] false .empty = some [.float 1 true, .bool false] := rfl
        simpa only [Op.sem, Fn.sem, Mod.sem, this, Lit.num, Option.map_some] using hs
      · split at h
        · rename_i v hb
          obtain ⟨q, hq, h⟩ := Option.bind_eq_some_iff.mp h
          simp only [withOp, Option.some.injEq] at h
          refine ⟨_, h.symm, fun ts t hl hs => ?_⟩
          rw [ha] at hs
          obtain ⟨x, rfl⟩ := oneTensor (by simp) hs
          simp only [Op.sem, Fn.sem] at hs
          split at hs
          · rename_i s ip hsp
            obtain ⟨v', r', hr, hv'⟩ := bind_head hsp
            rw [hv'] at hb
            simp only [Option.some.injEq, List.cons.injEq, and_true] at hb
            simp only [List.cons.injEq] at hr
            rw [← hb, ← hr.1] at hq
            simpa only [hq, Option.map_some, Op.sem, Mod.sem] using hs
          · simp at hs
        · simp at h
    case h_8 =>
      rename_i a ha
      rw [ha] at hS
      split at h
      · rename_i he
        subst he
        simp only [withOp, Option.some.injEq] at h
        refine ⟨_, h.symm, fun ts t hl hs => ?_⟩
        rw [ha] at hs
        obtain ⟨x, rfl⟩ := oneTensor (by simp) hs
        have : bindArgs [("negative_slope", some (Lit.float (1 / 100) true)), ("inplace", some (Lit.bool false))] false .empty = some [.float (1 / 100) true, .bool false] := rfl
        simpa only [Op.sem, Fn.sem, Mod.sem, this, Lit.num, Option.map_some] using hs
      · rename_i hne
        split at h
        · rename_i v hb
          obtain ⟨q, hq, h⟩ := Option.bind_eq_some_iff.mp h
          simp only [withOp, Option.some.injEq] at h
          refine ⟨_, h.symm, fun ts t hl hs => ?_⟩
          rw [ha] at hs
          obtain ⟨x, rfl⟩ := oneTensor (by simp) hs
          simp only [Op.sem, Fn.sem] at hs
          split at hs
          · rename_i s ip hsp
            obtain ⟨pos, kw⟩ := a
            have hpos : pos ≠ [] := hS.resolve_right hne
            obtain ⟨v', r', hr, hv'⟩ := bind_head hsp
            match pos, hpos with
            | u :: pos, _ =>
              have h1 : v' = u := by
                simp only [bindArgs, bindParams, true_or, if_true] at hv'
                split at hv'
                · simp at hv'
                · simpa using hv'.symm
              have h2 : v = u := by
                simp only [bindArgs, bindParams, true_or, if_true] at hb
                split at hb
                · simp at hb
                · simpa using hb.symm
              simp only [List.cons.injEq] at hr
              rw [h2, ← h1, ← hr.1] at hq
              simpa only [hq, Option.map_some, Op.sem, Mod.sem] using hs
          · simp at hs
        · simp at h
    case h_9 =>
      rename_i a ha
      split at h
      · rename_i he
        subst he
        simp only [withOp, Option.some.injEq] at h
        refine ⟨_, h.symm, fun ts t hl hs => ?_⟩
        rw [ha] at hs
        obtain ⟨x, rfl⟩ := oneTensor (by simp) hs
        have : bindArgs [("dim", some (Lit.int (-1)))] false .empty = some [.int (-1)] := rfl
        simpa only [Op.sem, Fn.sem, Mod.sem, this, Lit.toInt, Option.bind_some] using hs
      · split at h
        · rename_i v hb
          obtain ⟨q, hq, h⟩ := Option.bind_eq_some_iff.mp h
          simp only [withOp, Option.some.injEq] at h
          refine ⟨_, h.symm, fun ts t hl hs => ?_⟩
          rw [ha] at hs
          obtain ⟨x, rfl⟩ := oneTensor (by simp) hs
          simp only [Op.sem, Fn.sem] at hs
          split at hs
          · rename_i d hd
            rw [bind_extra hd] at hb
            simp only [Option.some.injEq, List.cons.injEq, and_true] at hb
            subst hb
            simpa only [hq, Option.bind_some, Op.sem, Mod.sem] using hs
          · simp at hs
        · simp at h
    · exact keep h
  · exact keep h

theorem dropout_ok (w : World) : StepOk w noName (Supported w) dropoutPass := by
  apply stepOk_of_op
  intro i l hS h
  unfold dropoutPass at h
  split at h
  · rename_i a ha
    split at h
    · rename_i hon
      have hS := hS hon
      rw [ha] at hS
      split at h
      · rename_i p tr ip hb
        obtain ⟨q, hq, h⟩ := Option.bind_eq_some_iff.mp h
        simp only [withOp, Option.some.injEq] at h
        refine ⟨_, h.symm, fun ts t hl hs => ?_⟩
        rw [ha] at hs
        obtain ⟨x, rfl⟩ := oneTensor (by simp) hs
        have hb' : bindArgs dropoutParams false a = some [p, tr, ip] := hb
        have htr := hS p tr ip hb'
        subst htr
        simpa only [Op.sem, Fn.sem, Mod.sem, hb', hq, Option.bind_some, Lit.toBool, Option.map_some] using hs
      · simp at h
    · exact keep h
  · exact keep h

end Verif.Lemmas.FuncRewrite
