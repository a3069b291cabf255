import Mathlib.Data.List.Induction
import Verif.Lemmas.FuncRewrite

/-! Lemmas for C87: the passes that add calls. -/

namespace Verif.Lemmas.FuncRewrite
open Verif.Spec Verif.Spec.FuncCall Verif.Model.FuncRewrite

/-- Names of the products added for differences. -/
def auxSub (n : Name) : Prop := ∃ m, n = .aux m 0

/-- Names of the tensors added for `stack`. -/
def auxStack (n : Name) : Prop := ∃ m j, n = .aux m (j + 1)

theorem Ext.set_right {A : Name → Prop} {E E' : Env} (h : Ext A E E') {n : Name} (hn : A n) (t : Tensor ℝ) : Ext A E (E'.set n t) := by
  intro m hm v hv
  have : m ≠ n := by rintro rfl; exact hm hn
  simp only [Env.set, this, if_false]
  exact h m hm v hv

theorem set_same (E : Env) (n : Name) (t : Tensor ℝ) : E.set n t n = some t := by simp [Env.set]

theorem set_other (E : Env) {m n : Name} (t : Tensor ℝ) (h : m ≠ n) : E.set n t m = E m := by simp [Env.set, h]

theorem mapM_one {E : Env} {x : Name} {ts : List (Tensor ℝ)} : [x].mapM E = some ts ↔ ∃ u, E x = some u ∧ ts = [u] := by
  rw [mapM_cons_some]
  constructor
  · rintro ⟨v, vs, h1, h2, rfl⟩
    simp at h2
    exact ⟨v, h1, by rw [h2]⟩
  · rintro ⟨u, h, rfl⟩
    exact ⟨u, [], h, by simp, rfl⟩

theorem mapM_two {E : Env} {x y : Name} {ts : List (Tensor ℝ)} : [x, y].mapM E = some ts ↔ ∃ u v, E x = some u ∧ E y = some v ∧ ts = [u, v] := by
  rw [mapM_cons_some]
  constructor
  · rintro ⟨v, vs, h1, h2, rfl⟩
    obtain ⟨u, hu, rfl⟩ := mapM_one.mp h2
    exact ⟨v, u, h1, hu, rfl⟩
  · rintro ⟨u, v, h1, h2, rfl⟩
    exact ⟨u, [v], h1, mapM_one.mpr ⟨v, h2, rfl⟩, rfl⟩

theorem stepOk_weaken {w : World} {A : Name → Prop} {i : Instr} (hA : Avoids A i) {E E1 E' : Env} (he : i.exec w E = some E1) (hx : Ext A E E') :
    ∃ E1', run w [i] E' = some E1' ∧ Ext A E1 E1' := by
  obtain ⟨ts, t, h1, h2, rfl⟩ := exec_some.mp he
  have h1' := mapM_ext hx i.ins ts hA.2 h1
  refine ⟨E'.set i.out t, ?_, hx.set _ _⟩
  have : i.exec w E' = some (E'.set i.out t) := exec_some.mpr ⟨ts, t, h1', h2, rfl⟩
  simp [run, this]

/-- Two calls: the first writes a new name. -/
theorem two_calls {w : World} {A : Name → Prop} {i a m : Instr} {E E' : Env} {u v t : Tensor ℝ} {x : Name} (hx : Ext A E E') (ha : A a.out) (hax : a.ins = [x]) (hE : E' x = some u)
    (ho : a.op.sem w [u] = some v) (hm : m.out = i.out) {ts : List (Tensor ℝ)} (hts : m.ins.mapM (E'.set a.out v) = some ts) (hmo : m.op.sem w ts = some t) :
    ∃ E1', run w [a, m] E' = some E1' ∧ Ext A (E.set i.out t) E1' := by
  refine ⟨(E'.set a.out v).set i.out t, ?_, (hx.set_right ha v).set _ _⟩
  have h1 : a.exec w E' = some (E'.set a.out v) := exec_some.mpr ⟨[u], v, by rw [hax]; exact mapM_one.mpr ⟨u, hE, rfl⟩, ho, rfl⟩
  have h2 : m.exec w (E'.set a.out v) = some ((E'.set a.out v).set i.out t) := exec_some.mpr ⟨ts, t, hts, hmo, by rw [hm]⟩
  simp [run, h1, h2]

theorem mulNeg (w : World) (u : Tensor ℝ) : (Op.fn .mul ⟨[.int (-1)], []⟩).sem w [u] = some (mapTensor (fun v => v * ((-1 : ℚ) : ℝ)) u) := by
  simp [Op.sem, Fn.sem, bind_one, withScalar, Lit.num]

theorem bcGet_map (f : ℝ → ℝ) (u : Tensor ℝ) (idx : List Nat) : bcGet (mapTensor f u) idx = f (bcGet u idx) := rfl

theorem elementwise_neg (u v : Tensor ℝ) : elementwise (fun a b : ℝ => a + ((1 : ℚ) : ℝ) * b) u (mapTensor (fun v => v * ((-1 : ℚ) : ℝ)) v) =
    elementwise (fun a b : ℝ => a - ((1 : ℚ) : ℝ) * b) u v := by
  unfold elementwise
  have : (mapTensor (fun v => v * ((-1 : ℚ) : ℝ)) v).shape = v.shape := rfl
  rw [this]
  congr 1
  funext s
  congr 1
  funext idx
  rw [bcGet_map]
  push_cast
  ring

theorem num_one : (Lit.int 1).num = some ((1 : ℤ) : ℚ) := rfl

theorem subTensors_ok (w : World) {i : Instr} {a : Args} (hop : i.op = .fn .sub a) (hk : a.kw = []) {x y : Name} (hi : i.ins = [x, y]) (hA : Avoids auxSub i) {E E1 E' : Env}
    (he : i.exec w E = some E1) (hx : Ext auxSub E E') : ∃ E1', run w (subTensors i x y) E' = some E1' ∧ Ext auxSub E1 E1' := by
  obtain ⟨ts, t, h1, h2, rfl⟩ := exec_some.mp he
  rw [hi] at h1
  obtain ⟨u, v, hu, hv, rfl⟩ := mapM_two.mp h1
  have hu' := hx x (hA.2 x (by simp [hi])) u hu
  have hv' := hx y (hA.2 y (by simp [hi])) v hv
  have hxn : x ≠ Name.aux i.out 0 := by intro hxe; exact hA.2 x (by simp [hi]) ⟨_, hxe⟩
  rw [hop] at h2
  obtain ⟨pos, kw⟩ := a
  simp only at hk
  subst hk
  simp only [Op.sem, Fn.sem, alpha_one] at h2
  split at h2
  · rename_i hp
    subst hp
    simp only [Lit.num, Option.bind_some] at h2
    refine two_calls (a := ⟨.aux i.out 0, .fn .mul ⟨[.int (-1)], []⟩, [y], i.on, i.float⟩) (m := { i with op := .fn .add .empty, ins := [x, .aux i.out 0] }) hx ⟨_, rfl⟩ rfl hv' (mulNeg w v) rfl
      (ts := [u, mapTensor (fun v => v * ((-1 : ℚ) : ℝ)) v]) ?_ ?_
    · refine mapM_two.mpr ⟨u, _, ?_, set_same _ _ _, rfl⟩
      rw [set_other _ _ hxn]
      exact hu'
    · simp only [Op.sem, Fn.sem, Args.empty, alpha_one, Lit.num, Option.bind_some, if_true]
      have := elementwise_neg u v
      push_cast at this h2 ⊢
      rw [this]
      exact h2
  · simp at h2

theorem sub_ok (w : World) : StepOk w auxSub (Supported w) subPass := by
  intro i l hA hS h E E1 E' he hx
  have keep' : some [i] = some l → ∃ E1', run w l E' = some E1' ∧ Ext auxSub E1 E1' := by
    intro hl
    simp at hl
    rw [← hl]
    exact stepOk_weaken hA he hx
  unfold subPass at h
  split at h
  · rename_i a ha
    split at h
    · rename_i hon
      have hS := hS hon.1
      rw [ha] at hS
      split at h
      · rename_i x hi
        simp only [Option.bind_eq_bind, Option.bind_eq_some_iff] at h
        obtain ⟨c, hp, h⟩ := h
        obtain ⟨lit, rfl, hn⟩ := parse_num hp
        simp only [withOp, Option.some.injEq] at h
        subst h
        obtain ⟨ts, t, h1, h2, rfl⟩ := exec_some.mp he
        have h1' := mapM_ext hx i.ins ts hA.2 h1
        rw [hi] at h1
        obtain ⟨u, hu, rfl⟩ := mapM_one.mp h1
        refine ⟨E'.set i.out t, ?_, hx.set _ _⟩
        rw [ha] at h2
        simp only [Op.sem, Fn.sem, List.filter_nil, alpha_one, bind_one, num_one, Option.bind_some, withScalar, hn, Option.map_some, Option.some.injEq] at h2
        have : Instr.exec w { i with op := .fn .add ⟨[.float (-c) true], []⟩ } E' = some (E'.set i.out t) := by
          refine exec_some.mpr ⟨[u], t, h1', ?_, rfl⟩
          simp only [Op.sem, Fn.sem, List.filter_nil, alpha_one, bind_one, Lit.num, Option.bind_some, withScalar, Option.map_some, Option.some.injEq]
          rw [← h2]
          congr 1
          funext v
          push_cast
          ring
        simp [run, this]
      · rename_i x y hi
        simp only [Option.some.injEq] at h
        subst h
        exact subTensors_ok w ha hS hi hA he hx
      · exact keep' h
    · exact keep' h
  · rename_i a ha
    split at h
    · rename_i hon
      have hS := hS hon.1
      rw [ha] at hS
      split at h
      · rename_i x hi
        simp only [Option.bind_eq_bind, Option.bind_eq_some_iff] at h
        obtain ⟨c, hp, h⟩ := h
        obtain ⟨lit, rfl, hn⟩ := parse_num hp
        simp only [Option.some.injEq] at h
        subst h
        obtain ⟨ts, t, h1, h2, rfl⟩ := exec_some.mp he
        rw [hi] at h1
        obtain ⟨u, hu, rfl⟩ := mapM_one.mp h1
        have hu' := hx x (hA.2 x (by simp [hi])) u hu
        rw [ha] at h2
        simp only [Op.sem, Fn.sem, bind_one, withScalar, hn, Option.map_some, Option.some.injEq] at h2
        refine two_calls (a := ⟨.aux i.out 0, .fn .mul ⟨[.int (-1)], []⟩, [x], i.on, i.float⟩) (m := { i with op := .fn .radd ⟨[lit], []⟩, ins := [.aux i.out 0] }) hx ⟨_, rfl⟩ rfl hu' (mulNeg w u) rfl
          (mapM_one.mpr ⟨_, set_same _ _ _, rfl⟩) ?_
        simp only [Op.sem, Fn.sem, bind_one, withScalar, hn, Option.map_some, Option.some.injEq]
        rw [← h2]
        simp only [mapTensor]
        congr 1
        funext idx
        push_cast
        ring
      · rename_i x y hi
        simp only [hi] at hS
        simp at hS
      · exact keep' h
    · exact keep' h
  · exact keep' h

/-! ### `stack` -/

theorem dimOf_le {r : Nat} {d : ℤ} {a : Nat} (h : dimOf r d = some a) : a < r := by
  unfold dimOf at h
  split at h
  · simp only [Option.some.injEq] at h
    omega
  · split at h
    · simp only [Option.some.injEq] at h
      omega
    · simp at h

/-- The tensor `torch.unsqueeze` returns. -/
def unsq (a : Nat) (u : Tensor ℝ) : Tensor ℝ := ⟨u.shape.insertIdx a 1, fun idx => u.get (idx.eraseIdx a)⟩

theorem eraseIdx_set_same {α : Type} : ∀ (l : List α) (a : Nat) (v : α), (l.set a v).eraseIdx a = l.eraseIdx a
  | [], _, _ => rfl
  | _ :: _, 0, _ => rfl
  | x :: l, a + 1, v => by simp [eraseIdx_set_same l a v]

theorem set_insertIdx {α : Type} : ∀ (l : List α) (a : Nat) (u v : α), (l.insertIdx a u).set a v = l.insertIdx a v
  | [], 0, _, _ => rfl
  | [], _ + 1, _, _ => rfl
  | _ :: _, 0, _, _ => rfl
  | x :: l, a + 1, u, v => by simp [set_insertIdx l a u v]

theorem getD_insertIdx {α : Type} (z : α) : ∀ (l : List α) (a : Nat) (u : α), a ≤ l.length → (l.insertIdx a u).getD a z = u
  | [], 0, _, _ => rfl
  | [], _ + 1, _, h => by simp at h
  | _ :: _, 0, _, _ => rfl
  | x :: l, a + 1, u, h => by
    have := getD_insertIdx z l a u (by simpa using h)
    simpa using this

theorem concatGet_unsq (a : Nat) (s : List Nat) (ha : a ≤ s.length) : ∀ (ts : List (Tensor ℝ)), (∀ u ∈ ts, u.shape = s) → ∀ (k : Nat) (idx : List Nat),
    concatGet a (ts.map (unsq a)) k idx = ((ts.map (fun u => u.get (idx.eraseIdx a)))[k]?).getD 0
  | [], _, k, idx => rfl
  | u :: ts, h, k, idx => by
    have hs : (unsq a u).size a = 1 := by
      unfold Tensor.size unsq
      rw [h u (by simp)]
      exact getD_insertIdx 0 s a 1 ha
    simp only [List.map_cons, concatGet, hs]
    cases k with
    | zero =>
      simp only [Nat.lt_one_iff, if_true]
      simp [unsq, eraseIdx_set_same]
    | succ k =>
      have : ¬ k + 1 < 1 := by omega
      simp only [this, if_false, Nat.add_sub_cancel, List.getElem?_cons_succ]
      exact concatGet_unsq a s ha ts (fun v hv => h v (by simp [hv])) k idx

theorem stack_cat {d : ℤ} {ts : List (Tensor ℝ)} {t : Tensor ℝ} (h : stackT d ts = some t) :
    ∃ a, (∀ u ∈ ts, unsqueezeT d u = some (unsq a u)) ∧ catT d (ts.map (unsq a)) = some t := by
  unfold stackT at h
  match ts with
  | [] => simp at h
  | u :: ts =>
    simp only at h
    obtain ⟨a, ha, h⟩ := Option.bind_eq_some_iff.mp h
    split at h
    · rename_i hs
      have hlt : a ≤ u.shape.length := Nat.lt_succ_iff.mp (dimOf_le ha)
      refine ⟨a, fun v hv => ?_, ?_⟩
      · unfold unsqueezeT
        rw [hs v hv, ha]
        rw [Option.map_some]
        unfold unsq
        rw [hs v hv]
      · simp only [List.map_cons, catT]
        have hl : (unsq a u).shape.length = u.shape.length + 1 := by
          unfold unsq
          rw [List.length_insertIdx_of_le_length hlt]
        rw [hl, ha, Option.bind_some]
        rw [if_pos]
        · simp only [Option.some.injEq] at h
          rw [← h]
          have hsz : ((u :: ts).map (fun v => (unsq a v).size a)).sum = (u :: ts).length := by
            have : (u :: ts).map (fun v => (unsq a v).size a) = (u :: ts).map (fun _ => 1) := by
              refine List.map_congr_left (fun v hv => ?_)
              unfold Tensor.size unsq
              rw [hs v hv]
              exact getD_insertIdx 0 _ a 1 hlt
            rw [this]
            simp
            omega
          unfold concat
          congr 2
          · simp only
            have : (List.map (fun v : Tensor ℝ => v.size a) (unsq a u :: List.map (unsq a) ts)) = (u :: ts).map (fun v => (unsq a v).size a) := by simp
            rw [this, hsz]
            exact set_insertIdx _ _ _ _
          · funext idx
            exact concatGet_unsq a u.shape hlt (u :: ts) hs _ idx
        · intro v hv
          have : ∃ v' ∈ u :: ts, v = unsq a v' := by
            rcases List.mem_cons.mp hv with rfl | hv
            · exact ⟨u, by simp, rfl⟩
            · obtain ⟨v', hv', rfl⟩ := List.mem_map.mp hv
              exact ⟨v', by simp [hv'], rfl⟩
          obtain ⟨v', hv', rfl⟩ := this
          unfold unsq
          rw [hs v' hv']
    · simp at h

/-- The calls of `unsqueeze` in front of the concatenation. -/
def unsqCalls (i : Instr) (d : ℤ) (u : List Name) : List Instr :=
  u.mapIdx (fun j x => ⟨.aux i.out (j + 1), .fn .unsqueeze ⟨[.int d], []⟩, [x], i.on, i.float⟩)

theorem run_unsq (w : World) (i : Instr) (d : ℤ) (a : Nat) (E' : Env) : ∀ (u : List Name),
    (∀ x ∈ u, ¬ auxStack x ∧ ∃ t, E' x = some t ∧ unsqueezeT d t = some (unsq a t)) →
    ∃ E2, run w (unsqCalls i d u) E' = some E2 ∧ (∀ n, ¬ auxStack n → E2 n = E' n) ∧
      ∀ j x t, u[j]? = some x → E' x = some t → E2 (.aux i.out (j + 1)) = some (unsq a t) := by
  intro u
  induction u using List.reverseRecOn with
  | nil => intro _; exact ⟨E', rfl, fun _ _ => rfl, by simp⟩
  | append_singleton u x ih =>
    intro h
    obtain ⟨E2, h1, h2, h3⟩ := ih (fun y hy => h y (by simp [hy]))
    obtain ⟨hxa, t, ht, hu⟩ := h x (by simp)
    refine ⟨E2.set (.aux i.out (u.length + 1)) (unsq a t), ?_, ?_, ?_⟩
    · have : unsqCalls i d (u ++ [x]) = unsqCalls i d u ++ [⟨.aux i.out (u.length + 1), .fn .unsqueeze ⟨[.int d], []⟩, [x], i.on, i.float⟩] := by
        simp [unsqCalls, List.mapIdx_append]
      rw [this, run_append, h1]
      have he : Instr.exec w ⟨.aux i.out (u.length + 1), .fn .unsqueeze ⟨[.int d], []⟩, [x], i.on, i.float⟩ E2 = some (E2.set (.aux i.out (u.length + 1)) (unsq a t)) := by
        refine exec_some.mpr ⟨[t], unsq a t, mapM_one.mpr ⟨t, by rw [h2 x hxa]; exact ht, rfl⟩, ?_, rfl⟩
        simp only [Op.sem, Fn.sem, bind_one, Lit.toInt, Option.bind_some]
        exact hu
      simp [run, he]
    · intro n hn
      have : n ≠ .aux i.out (u.length + 1) := fun he => hn ⟨_, _, he⟩
      rw [set_other _ _ this]
      exact h2 n hn
    · intro j y t' hj hy
      by_cases hlt : j < u.length
      · rw [List.getElem?_append_left hlt] at hj
        have : Name.aux i.out (j + 1) ≠ .aux i.out (u.length + 1) := by
          intro he
          simp only [Name.aux.injEq, true_and] at he
          omega
        rw [set_other _ _ this]
        exact h3 j y t' hj hy
      · rw [List.getElem?_append_right (by omega)] at hj
        have hj0 : j - u.length = 0 := by
          by_contra hne
          rw [List.getElem?_eq_none (by simp; omega)] at hj
          simp at hj
        rw [hj0] at hj
        simp only [List.getElem?_cons_zero, Option.some.injEq] at hj
        subst hj
        have hju : j = u.length := by omega
        subst hju
        rw [ht] at hy
        simp only [Option.some.injEq] at hy
        subst hy
        exact set_same _ _ _

theorem mapM_mem {E : Env} : ∀ {ins : List Name} {ts : List (Tensor ℝ)}, ins.mapM E = some ts → ∀ x ∈ ins, ∃ t ∈ ts, E x = some t
  | [], _, _, x, hx => by simp at hx
  | y :: ins, ts, h, x, hx => by
    obtain ⟨v, vs, h1, h2, rfl⟩ := mapM_cons_some.mp h
    rcases List.mem_cons.mp hx with rfl | hx
    · exact ⟨v, by simp, h1⟩
    · obtain ⟨t, ht, he⟩ := mapM_mem h2 x hx
      exact ⟨t, by simp [ht], he⟩

theorem mapM_rename {E E2 : Env} {f : Name → Name} {g : Tensor ℝ → Tensor ℝ} : ∀ {ins : List Name} {ts : List (Tensor ℝ)}, ins.mapM E = some ts →
    (∀ x ∈ ins, ∀ t, E x = some t → E2 (f x) = some (g t)) → (ins.map f).mapM E2 = some (ts.map g)
  | [], ts, h, _ => by
    simp at h
    simp [h]
  | y :: ins, ts, h, hf => by
    obtain ⟨v, vs, h1, h2, rfl⟩ := mapM_cons_some.mp h
    rw [List.map_cons, List.map_cons]
    exact mapM_cons_some.mpr ⟨g v, vs.map g, hf y (by simp) v h1, mapM_rename h2 (fun x hx => hf x (by simp [hx])), rfl⟩

theorem stackDim_sem {a a' : Args} {d : ℤ} (h : stackDim a = some (d, a')) : dimArg a = some d ∧ dimArg a' = some d ∧ ∀ k ∈ a'.kw, k.1 ≠ "axis" := by
  unfold stackDim at h
  split at h
  · simp only [Option.some.injEq, Prod.mk.injEq] at h
    obtain ⟨rfl, rfl⟩ := h
    exact ⟨rfl, rfl, by simp⟩
  · simp only [Option.some.injEq, Prod.mk.injEq] at h
    obtain ⟨rfl, rfl⟩ := h
    exact ⟨by simp [dimArg, bind_one, Lit.toInt], by simp [dimArg, bind_one, Lit.toInt], by simp⟩
  · split at h
    · rename_i hk
      simp only [Option.some.injEq, Prod.mk.injEq] at h
      obtain ⟨rfl, rfl⟩ := h
      refine ⟨?_, by simp [dimArg, bindArgs, bindParams, List.lookup, Lit.toInt], by simp⟩
      rcases hk with rfl | rfl <;> simp [dimArg, bindArgs, bindParams, List.lookup, Lit.toInt]
    · simp at h
  · simp at h

theorem stack_ok (w : World) (S : Instr → Prop) : StepOk w auxStack S stackPass := by
  intro i l hA _ h E E1 E' he hx
  have keep' : some [i] = some l → ∃ E1', run w l E' = some E1' ∧ Ext auxStack E1 E1' := by
    intro hl
    simp at hl
    rw [← hl]
    exact stepOk_weaken hA he hx
  unfold stackPass at h
  split at h
  · rename_i a ha
    split at h
    · simp only [Option.bind_eq_bind, Option.bind_eq_some_iff] at h
      obtain ⟨⟨d, a'⟩, hd, h⟩ := h
      simp only [Option.some.injEq] at h
      subst h
      obtain ⟨hda, hda', -⟩ := stackDim_sem hd
      obtain ⟨ts, t, h1, h2, rfl⟩ := exec_some.mp he
      have h1' := mapM_ext hx i.ins ts hA.2 h1
      rw [ha] at h2
      simp only [Op.sem, Fn.sem, hda, Option.bind_some] at h2
      obtain ⟨ax, hu, hc⟩ := stack_cat h2
      obtain ⟨E2, hr, hsame, hnew⟩ := run_unsq w i d ax E' i.ins.dedup (by
        intro x hxm
        have hxm := List.mem_dedup.mp hxm
        obtain ⟨u, hum, hux⟩ := mapM_mem h1' x hxm
        exact ⟨hA.2 x hxm, u, hux, hu u hum⟩)
      refine ⟨E2.set i.out t, ?_, ?_⟩
      · have hcalls : i.ins.dedup.mapIdx (fun j x => (⟨.aux i.out (j + 1), .fn .unsqueeze ⟨[.int d], []⟩, [x], i.on, i.float⟩ : Instr)) = unsqCalls i d i.ins.dedup := rfl
        rw [hcalls, run_append, hr]
        have : Instr.exec w { i with op := .fn .cat a', ins := i.ins.map (fun x => .aux i.out (i.ins.dedup.idxOf x + 1)) } E2 = some (E2.set i.out t) := by
          refine exec_some.mpr ⟨ts.map (unsq ax), t, ?_, ?_, rfl⟩
          · refine mapM_rename h1' (fun x hxm u hux => ?_)
            have hlt := List.idxOf_lt_length_of_mem (List.mem_dedup.mpr hxm)
            exact hnew _ x u (by rw [List.getElem?_eq_getElem hlt, List.getElem_idxOf]) hux
          · simp only [Op.sem, Fn.sem, hda', Option.bind_some]
            exact hc
        simp [run, this]
      · refine Ext.set ?_ _ _
        intro n hn v hv
        rw [hsame n hn]
        exact hx n hn v hv
    · exact keep' h
  · exact keep' h

end Verif.Lemmas.FuncRewrite
