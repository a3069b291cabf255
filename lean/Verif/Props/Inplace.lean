import Verif.Model.Inplace
import Mathlib.Data.List.Basic
import Mathlib.Data.List.Nodup
import Mathlib.Tactic.Linarith
import Mathlib.Tactic.SplitIfs

/-!
C75: in-place updates in the traced program are kept by the converted model, as long as no tensor is read after an in-place update
through another tensor of the same storage.
-/

namespace Verif.Props

open Verif.Spec.Inplace Verif.Model.Inplace

variable {α : Type} [Inhabited α]

namespace InplaceAux

/-- Addresses are valid, and tensors of different storages share no address. -/
structure HOK (h : Heap α) (root : List Nat) : Prop where
  len : root.length = h.locs.length
  lt : ∀ n < root.length, root.getD n 0 < root.length
  valid : ∀ n, ∀ a ∈ h.loc n, a < h.mem.length
  disj : ∀ n < root.length, ∀ m < root.length, root.getD n 0 ≠ root.getD m 0 →
    ∀ a ∈ h.loc n, a ∉ h.loc m

def newRoot (op : Op α) (root : List Nat) : Nat :=
  match op with
  | .pure _ _ => root.length
  | .view _ x => root.getD x 0
  | .inplace _ x _ => root.getD x 0

def survives (op : Op α) (root : List Nat) (n : Nat) : Prop :=
  match op with
  | .inplace _ x _ => root.getD n 0 ≠ root.getD x 0
  | _ => True

theorem getD_append_lt {β : Type} (l : List β) (b d : β) (n : Nat) (h : n < l.length) :
    (l ++ [b]).getD n d = l.getD n d := by
  simp [List.getElem?_append_left h]

theorem getD_append_eq {β : Type} (l : List β) (b d : β) : (l ++ [b]).getD l.length d = b := by
  simp

theorem getD_append_gt {β : Type} (l : List β) (b d : β) (n : Nat) (h : l.length < n) :
    (l ++ [b]).getD n d = d := by
  have : (l ++ [b])[n]? = none := by
    rw [List.getElem?_eq_none_iff]; simp; omega
  simp [this]

omit [Inhabited α] in
/-- Adding a tensor whose addresses are either fresh or those of an existing storage. -/
theorem HOK_push {h : Heap α} {root : List Nat} (ok : HOK h root) (mem' : List α) (ls : List Nat) (r : Nat)
    (hm : h.mem.length ≤ mem'.length) (hv : ∀ a ∈ ls, a < mem'.length) (hr : r ≤ root.length)
    (hd : ∀ n < root.length, root.getD n 0 ≠ r → ∀ a ∈ ls, a ∉ h.loc n) :
    HOK ⟨mem', h.locs ++ [ls]⟩ (root ++ [r]) := by
  have loc_lt : ∀ n < root.length, (Heap.mk mem' (h.locs ++ [ls])).loc n = h.loc n := by
    intro n hn; exact getD_append_lt _ _ _ _ (by rw [← ok.len]; exact hn)
  have loc_eq : (Heap.mk mem' (h.locs ++ [ls])).loc root.length = ls := by
    rw [ok.len]; exact getD_append_eq _ _ _
  have loc_gt : ∀ n, root.length < n → (Heap.mk mem' (h.locs ++ [ls])).loc n = [] := by
    intro n hn; exact getD_append_gt _ _ _ _ (by rw [← ok.len]; exact hn)
  have r_lt : ∀ n < root.length, (root ++ [r]).getD n 0 = root.getD n 0 := fun n hn => getD_append_lt _ _ _ _ hn
  have r_eq : (root ++ [r]).getD root.length 0 = r := getD_append_eq _ _ _
  refine ⟨by simp [ok.len], ?_, ?_, ?_⟩
  · intro n hn
    simp only [List.length_append, List.length_singleton] at hn ⊢
    rcases Nat.lt_succ_iff_lt_or_eq.mp hn with h1 | rfl
    · rw [r_lt n h1]; have := ok.lt n h1; omega
    · rw [r_eq]; omega
  · intro n a ha
    rcases Nat.lt_trichotomy n root.length with h1 | rfl | h1
    · rw [loc_lt n h1] at ha; exact lt_of_lt_of_le (ok.valid n a ha) hm
    · rw [loc_eq] at ha; exact hv a ha
    · rw [loc_gt n h1] at ha; simp at ha
  · intro n hn m hm' hne a ha hb
    simp only [List.length_append, List.length_singleton] at hn hm'
    rcases Nat.lt_succ_iff_lt_or_eq.mp hn with h1 | rfl <;> rcases Nat.lt_succ_iff_lt_or_eq.mp hm' with h2 | rfl
    · rw [loc_lt n h1] at ha; rw [loc_lt m h2] at hb; rw [r_lt n h1, r_lt m h2] at hne
      exact ok.disj n h1 m h2 hne a ha hb
    · rw [loc_lt n h1] at ha; rw [loc_eq] at hb; rw [r_lt n h1, r_eq] at hne
      exact hd n h1 hne a hb ha
    · rw [loc_eq] at ha; rw [loc_lt m h2] at hb; rw [r_lt m h2, r_eq] at hne
      exact hd m h2 (Ne.symm hne) a ha hb
    · exact hne rfl

omit [Inhabited α] in
theorem writeAll_length (mem : List α) (as : List Nat) (v : List α) : (writeAll mem as v).length = mem.length := by
  fun_induction writeAll mem as v with
  | case1 mem a as x xs ih => simpa using ih
  | case2 => rfl

theorem writeAll_getD_not_mem (mem : List α) (as : List Nat) (v : List α) (b : Nat) (hb : b ∉ as) :
    (writeAll mem as v).getD b default = mem.getD b default := by
  fun_induction writeAll mem as v with
  | case1 mem a as x xs ih =>
    simp only [List.mem_cons, not_or] at hb
    rw [ih hb.2]
    have : a ≠ b := fun h => hb.1 h.symm
    simp [this]
  | case2 => rfl

theorem writeAll_read (mem : List α) (as : List Nat) (v : List α) (hl : v.length = as.length) (hn : as.Nodup)
    (hv : ∀ a ∈ as, a < mem.length) : as.map (fun a => (writeAll mem as v).getD a default) = v := by
  fun_induction writeAll mem as v with
  | case1 mem a as x xs ih =>
    simp only [List.map_cons]
    have hn' := List.nodup_cons.mp hn
    rw [ih (by simpa using hl) hn'.2 (by intro b hb; simpa using hv b (by simp [hb]))]
    rw [writeAll_getD_not_mem _ _ _ _ hn'.1]
    have : a < mem.length := hv a (by simp)
    simp [this]
  | case2 v mem as hne =>
    cases as with
    | nil => cases v with
      | nil => rfl
      | cons => simp at hl
    | cons a as => cases v with
      | nil => simp at hl
      | cons x xs => exact absurd rfl (hne a as x xs rfl)

/-- What one operation does to the heap. -/
theorem step_spec {h h' : Heap α} {root : List Nat} (ok : HOK h root) (op : Op α) (hs : h.step op = some h') :
    HOK h' (root ++ [newRoot op root]) ∧
    (∀ n < root.length, survives op root n → h'.read n = h.read n) ∧
    h'.read root.length = opFn op (op.reads.map h.read) := by
  unfold Heap.step at hs
  split_ifs at hs with hlt
  cases op with
  | pure f args =>
    simp only [Option.some.injEq] at hs
    subst hs
    refine ⟨?_, ?_, ?_⟩
    · refine HOK_push ok _ _ _ (by simp) ?_ (by simp [newRoot]) ?_
      · intro a ha; simp at ha ⊢; omega
      · intro n hn _ a ha hb
        have := ok.valid n a hb
        simp at ha; omega
    · intro n hn _
      have : (h.alloc (f (args.map h.read))).loc n = h.loc n :=
        getD_append_lt _ _ _ _ (by rw [← ok.len]; exact hn)
      rw [Heap.read, this, Heap.read]
      apply List.map_congr_left
      intro a ha
      have := ok.valid n a ha
      simp [Heap.alloc, List.getElem?_append_left this]
    · have : (h.alloc (f (args.map h.read))).loc root.length
          = List.range' h.mem.length (f (args.map h.read)).length := by
        rw [ok.len]; exact getD_append_eq _ _ _
      rw [Heap.read, this]
      simp only [opFn, Op.reads, Heap.alloc]
      apply List.ext_getElem (by simp)
      intro i h1 h2
      simp only [List.length_map, List.length_range'] at h1
      simp [h1]
  | view idx x =>
    simp only at hs
    split_ifs at hs with hix
    simp only [Option.some.injEq] at hs
    subst hs
    simp only [Op.reads, List.all_cons, List.all_nil, Bool.and_true, decide_eq_true_eq] at hlt
    have hx : x < root.length := by rw [ok.len]; exact hlt
    have hmem : ∀ a ∈ idx.map (fun i => (h.loc x).getD i 0), a ∈ h.loc x := by
      intro a ha
      simp only [List.mem_map] at ha
      obtain ⟨i, hi, rfl⟩ := ha
      have : i < (h.loc x).length := by simpa using List.all_eq_true.mp hix i hi
      simp [this]
    refine ⟨?_, ?_, ?_⟩
    · refine HOK_push ok _ _ _ le_rfl ?_ (le_of_lt (ok.lt x hx)) ?_
      · intro a ha; exact ok.valid x a (hmem a ha)
      · intro n hn hne a ha hb
        exact ok.disj n hn x hx hne a hb (hmem a ha)
    · intro n hn _
      have : (Heap.mk h.mem (h.locs ++ [idx.map (fun i => (h.loc x).getD i 0)])).loc n = h.loc n :=
        getD_append_lt _ _ _ _ (by rw [← ok.len]; exact hn)
      rw [Heap.read, this, Heap.read]
    · have : (Heap.mk h.mem (h.locs ++ [idx.map (fun i => (h.loc x).getD i 0)])).loc root.length
          = idx.map (fun i => (h.loc x).getD i 0) := by
        rw [ok.len]; exact getD_append_eq _ _ _
      rw [Heap.read, this]
      simp only [opFn, Op.reads, List.map_map]
      apply List.map_congr_left
      intro i hi
      have : i < (h.loc x).length := by simpa using List.all_eq_true.mp hix i hi
      simp [this, Heap.read]
  | inplace f x args =>
    simp only at hs
    split_ifs at hs with hix
    simp only [Option.some.injEq] at hs
    subst hs
    simp only [Op.reads, List.all_cons, Bool.and_eq_true, decide_eq_true_eq] at hlt
    have hx : x < root.length := by rw [ok.len]; exact hlt.1
    refine ⟨?_, ?_, ?_⟩
    · refine HOK_push ok _ _ _ (by rw [writeAll_length]) ?_ (le_of_lt (ok.lt x hx)) ?_
      · intro a ha; rw [writeAll_length]; exact ok.valid x a ha
      · intro n hn hne a ha hb
        exact ok.disj n hn x hx hne a hb ha
    · intro n hn hsv
      simp only [survives] at hsv
      have : (Heap.mk (writeAll h.mem (h.loc x) (f (h.read x) (args.map h.read))) (h.locs ++ [h.loc x])).loc n
          = h.loc n := getD_append_lt _ _ _ _ (by rw [← ok.len]; exact hn)
      rw [Heap.read, this, Heap.read]
      apply List.map_congr_left
      intro a ha
      exact writeAll_getD_not_mem _ _ _ _ (ok.disj n hn x hx hsv a ha)
    · have : (Heap.mk (writeAll h.mem (h.loc x) (f (h.read x) (args.map h.read))) (h.locs ++ [h.loc x])).loc root.length
          = h.loc x := by
        rw [ok.len]; exact getD_append_eq _ _ _
      rw [Heap.read, this]
      rw [writeAll_read _ _ _ hix.1 hix.2 (ok.valid x)]
      simp [opFn, Op.reads]

theorem init_spec_aux (vs : List (List α)) : ∀ (h : Heap α) (k : Nat) (us : List (List α)), us.length = k →
    HOK h (List.range k) → (∀ n, h.read n = us.getD n []) →
    HOK (vs.foldl Heap.alloc h) (List.range (k + vs.length)) ∧
    ∀ n, (vs.foldl Heap.alloc h).read n = (us ++ vs).getD n [] := by
  induction vs with
  | nil => intro h k us _ ok hr; simpa using ⟨ok, hr⟩
  | cons v vs ih =>
    intro h k us hk ok hr
    have hs : h.step (.pure (fun _ => v) []) = some (h.alloc v) := by simp [Heap.step, Op.reads]
    obtain ⟨ok', hold, hnew⟩ := step_spec ok _ hs
    have hroot : List.range k ++ [newRoot (.pure (fun _ => v) [] : Op α) (List.range k)] = List.range (k + 1) := by
      simp [newRoot, List.range_succ]
    rw [hroot] at ok'
    have := ih (h.alloc v) (k + 1) (us ++ [v]) (by simp [hk]) ok' (by
      intro n
      rcases Nat.lt_trichotomy n k with h1 | rfl | h1
      · rw [hold n (by simpa using h1) trivial, hr n, getD_append_lt _ _ _ _ (by omega)]
      · have e := hnew
        simp only [List.length_range, opFn] at e
        rw [e]
        conv_rhs => rw [← hk]
        rw [getD_append_eq]
      · rw [getD_append_gt _ _ _ _ (by omega)]
        have : (h.alloc v).loc n = [] := by
          refine getD_append_gt _ _ _ _ ?_
          rw [← ok.len]; simpa using h1
        simp [Heap.read, this])
    simp only [List.foldl_cons, List.length_cons]
    rw [show k + (vs.length + 1) = k + 1 + vs.length by omega]
    simpa using this

theorem init_spec (vs : List (List α)) : HOK (Heap.init vs) (List.range vs.length) ∧
    ∀ n, (Heap.init vs).read n = vs.getD n [] := by
  have ok0 : HOK (⟨[], []⟩ : Heap α) (List.range 0) :=
    ⟨rfl, by simp, by intro n a ha; simp [Heap.loc] at ha, by simp⟩
  have := init_spec_aux vs ⟨[], []⟩ 0 [] rfl ok0 (by intro n; simp [Heap.read, Heap.loc])
  simpa [Heap.init] using this

omit [Inhabited α] in
theorem evalOps_append (a b : List (GOp α)) (env : Nat → List α) :
    evalOps (a ++ b) env = evalOps b (evalOps a env) := by
  induction a generalizing env with
  | nil => rfl
  | cons op a ih => simp only [List.cons_append, evalOps]; exact ih _

/-- The relation between the run on the actual input, the conversion state and the set of readable tensors. -/
structure Rel (h : Heap α) (c : Conv α) (root dead : List Nat) (env0 : Nat → List α) : Prop where
  okA : HOK h root
  okD : HOK c.dummy root
  lenT : c.tracked.length = root.length
  val : ∀ n < root.length, n ∉ dead →
    (if c.tracked.getD n false then evalOps c.ops env0 n else c.dummy.read n) = h.read n

theorem run_spec (ops : List (Op α)) : ∀ (h h' : Heap α) (c c' : Conv α) (root dead outs : List Nat)
    (env0 : Nat → List α), Rel h c root dead env0 → safeFrom ops root dead outs = true →
    h.run ops = some h' → c.run ops = some c' → ∀ o ∈ outs,
    (if c'.tracked.getD o false then evalOps c'.ops env0 o else c'.dummy.read o) = h'.read o := by
  induction ops with
  | nil =>
    intro h h' c c' root dead outs env0 rel hsafe hr hc o ho
    simp only [Heap.run, Option.some.injEq] at hr
    simp only [Conv.run, Option.some.injEq] at hc
    subst hr; subst hc
    have hd : o ∉ dead := by simpa using List.all_eq_true.mp hsafe o ho
    by_cases hlt : o < root.length
    · exact rel.val o hlt hd
    · have h1 : c.tracked.getD o false = false := by
        have : c.tracked[o]? = none := by rw [List.getElem?_eq_none_iff, rel.lenT]; omega
        simp [this]
      have h2 : h.loc o = [] := by
        have : h.locs[o]? = none := by rw [List.getElem?_eq_none_iff, ← rel.okA.len]; omega
        simp [Heap.loc, this]
      have h3 : c.dummy.loc o = [] := by
        have : c.dummy.locs[o]? = none := by rw [List.getElem?_eq_none_iff, ← rel.okD.len]; omega
        simp [Heap.loc, this]
      rw [h1]
      simp [Heap.read, h2, h3]
  | cons op ops ih =>
    intro h h' c c' root dead outs env0 rel hsafe hr hc o ho
    simp only [Heap.run, Option.bind_eq_some_iff] at hr
    obtain ⟨h1, hs1, hr1⟩ := hr
    simp only [Conv.run, Option.bind_eq_some_iff] at hc
    obtain ⟨c1, hs2, hc1⟩ := hc
    simp only [Conv.step, Option.map_eq_some_iff] at hs2
    obtain ⟨d1, hd1, rfl⟩ := hs2
    obtain ⟨okA, oldA, newA⟩ := step_spec rel.okA op hs1
    obtain ⟨okD, oldD, newD⟩ := step_spec rel.okD op hd1
    have hreads : ∀ n ∈ op.reads, n ∉ dead := by
      simp only [safeFrom, Bool.and_eq_true] at hsafe
      intro n hn
      simpa using List.all_eq_true.mp hsafe.1 n hn
    have hreadsLt : ∀ n ∈ op.reads, n < root.length := by
      unfold Heap.step at hs1
      split_ifs at hs1 with hlt
      intro n hn
      have := List.all_eq_true.mp hlt n hn
      rw [rel.okA.len]; simpa using this
    -- the operands of the emitted operator have the values of the actual run
    have hargs : ∀ n ∈ op.reads,
        (match c.operand n with | .tensor n => evalOps c.ops env0 n | .const v => v) = h.read n := by
      intro n hn
      have := rel.val n (hreadsLt n hn) (hreads n hn)
      rw [← this]
      unfold Conv.operand
      split_ifs <;> rfl
    set t := op.reads.any (fun n => c.tracked.getD n false) with ht
    have hnewval : (if t then evalOps (if t then c.ops ++ [⟨opFn op, op.reads.map c.operand, c.tracked.length⟩] else c.ops) env0
          root.length else d1.read root.length) = h1.read root.length := by
      by_cases htt : t = true
      · simp only [htt, if_true]
        rw [evalOps_append, newA]
        simp only [evalOps, rel.lenT, Function.update_self, List.map_map]
        congr 1
        apply List.map_congr_left
        intro n hn
        exact hargs n hn
      · simp only [htt, if_false, Bool.false_eq_true]
        rw [newA, newD]
        congr 1
        apply List.map_congr_left
        intro n hn
        have hnt : c.tracked.getD n false = false := by
          by_contra hcon
          apply htt
          rw [ht, List.any_eq_true]
          exact ⟨n, hn, by simpa using hcon⟩
        have := rel.val n (hreadsLt n hn) (hreads n hn)
        rw [hnt] at this
        simpa using this
    have holdval : ∀ n < root.length, survives op root n → n ∉ dead →
        (if (c.tracked ++ [t]).getD n false then
          evalOps (if t then c.ops ++ [⟨opFn op, op.reads.map c.operand, c.tracked.length⟩] else c.ops) env0 n
          else d1.read n) = h1.read n := by
      intro n hn hsv hnd
      rw [getD_append_lt _ _ _ _ (by rw [rel.lenT]; exact hn), oldA n hn hsv, oldD n hn hsv,
        ← rel.val n hn hnd]
      have : evalOps (if t then c.ops ++ [⟨opFn op, op.reads.map c.operand, c.tracked.length⟩] else c.ops) env0 n
          = evalOps c.ops env0 n := by
        split_ifs
        · rw [evalOps_append]
          simp only [evalOps]
          rw [Function.update_of_ne]
          rw [rel.lenT]; omega
        · rfl
      rw [this]
    have hnewval' : (if (c.tracked ++ [t]).getD root.length false then
          evalOps (if t then c.ops ++ [⟨opFn op, op.reads.map c.operand, c.tracked.length⟩] else c.ops) env0 root.length
          else d1.read root.length) = h1.read root.length := by
      have e : (c.tracked ++ [t]).getD root.length false = t := by rw [← rel.lenT]; exact getD_append_eq _ _ _
      rw [e]; exact hnewval
    have mk : ∀ dead', (∀ n < root.length, n ∉ dead' → survives op root n ∧ n ∉ dead) →
        Rel h1 ⟨d1, c.tracked ++ [t],
          if t then c.ops ++ [⟨opFn op, op.reads.map c.operand, c.tracked.length⟩] else c.ops⟩
          (root ++ [newRoot op root]) dead' env0 := by
      intro dead' hdead'
      refine ⟨okA, okD, by simp [rel.lenT], ?_⟩
      intro n hn hnd
      simp only [List.length_append, List.length_singleton] at hn
      rcases Nat.lt_succ_iff_lt_or_eq.mp hn with h2 | rfl
      · exact holdval n h2 (hdead' n h2 hnd).1 (hdead' n h2 hnd).2
      · exact hnewval'
    cases op with
    | pure f args =>
      simp only [safeFrom, Bool.and_eq_true] at hsafe
      exact ih h1 h' _ c' _ dead outs env0 (mk dead (fun n _ hnd => ⟨trivial, hnd⟩)) hsafe.2 hr1 hc1 o ho
    | view idx x =>
      simp only [safeFrom, Bool.and_eq_true] at hsafe
      exact ih h1 h' _ c' _ dead outs env0 (mk dead (fun n _ hnd => ⟨trivial, hnd⟩)) hsafe.2 hr1 hc1 o ho
    | inplace f x args =>
      simp only [safeFrom, Bool.and_eq_true] at hsafe
      refine ih h1 h' _ c' _ _ outs env0 (mk _ ?_) hsafe.2 hr1 hc1 o ho
      intro n hn hnd
      simp only [List.mem_append, List.mem_filter, List.mem_range, decide_eq_true_eq, not_or, not_and] at hnd
      exact ⟨fun e => hnd.2 hn e, hnd.1⟩

end InplaceAux

open InplaceAux in
/-- **C75.** For every traced program in which no tensor is read after an in-place update through another tensor of the same
storage, and for all actual inputs of any values: the converted model gives every output the value PyTorch gives it, although the
conversion saw only the dummy inputs. Partial: programs that read a tensor after an update through a view (`C75_view_false`) or
that update a constant with values depending on the input (`C75_baked_false`) are converted wrongly. -/
theorem C75_inplace_partial (ops : List (Op α)) (dummyInputs inputs constants : List (List α)) (outs : List Nat)
    (hn : inputs.length = dummyInputs.length)
    (hsafe : safe ops (inputs.length + constants.length) outs = true)
    (c : Conv α) (hc : (Conv.init dummyInputs constants).run ops = some c)
    (h : Heap α) (hr : (Heap.init (inputs ++ constants)).run ops = some h) :
    ∀ o ∈ outs, c.output inputs o = h.read o := by
  intro o ho
  obtain ⟨okA, rA⟩ := init_spec (inputs ++ constants)
  obtain ⟨okD, rD⟩ := init_spec (dummyInputs ++ constants)
  have hlen : (inputs ++ constants).length = inputs.length + constants.length := by simp
  rw [hlen] at okA
  rw [show (dummyInputs ++ constants).length = inputs.length + constants.length by simp [hn]] at okD
  refine run_spec ops _ h (Conv.init dummyInputs constants) c (List.range (inputs.length + constants.length)) [] outs
    (fun n => inputs.getD n []) ⟨okA, okD, by simp [Conv.init, hn], ?_⟩ hsafe hr hc o ho
  intro n hnlt _
  rw [rA]
  simp only [List.length_range] at hnlt
  by_cases h1 : n < inputs.length
  · have : (Conv.init dummyInputs constants).tracked.getD n false = true := by
      simp only [Conv.init, List.getD_eq_getElem?_getD]
      rw [List.getElem?_append_left (by simpa [← hn] using h1)]
      simp [← hn, h1]
    rw [this]
    simp [Conv.init, evalOps, List.getElem?_append_left h1]
  · have : (Conv.init dummyInputs constants).tracked.getD n false = false := by
      simp only [Conv.init, List.getD_eq_getElem?_getD]
      rw [List.getElem?_append_right (by simpa [← hn] using h1)]
      simp only [List.length_replicate, List.getElem?_replicate]
      split_ifs <;> rfl
    rw [this]
    simp only [Bool.false_eq_true, if_false]
    show (Heap.init (dummyInputs ++ constants)).read n = _
    rw [rD]
    simp only [List.getD_eq_getElem?_getD]
    rw [List.getElem?_append_right (by omega), List.getElem?_append_right (by omega), hn]

/-- `y = x + c; y += x; z = y[1:]; z *= 2` with output `z`, two inputs of different values. -/
example :
    let ops : List (Op Int) := [.pure (fun vs => List.zipWith (· + ·) (vs.getD 0 []) (vs.getD 1 [])) [0, 1],
      .inplace (fun v vs => List.zipWith (· + ·) v (vs.getD 0 [])) 2 [0], .view [1, 2] 3,
      .inplace (fun v _ => v.map (2 * ·)) 4 []]
    safe ops (1 + 1) [5] = true ∧
    ((Conv.init [[0, 0, 0]] [[1, 2, 3]]).run ops).map (·.output [[5, 6, 7]] 5) = some [28, 34] ∧
    ((Heap.init [[5, 6, 7], [1, 2, 3]]).run ops).map (·.read 5) = some [28, 34] := by
  decide

/-- `y = x[:1]; y += 1; return x`: PyTorch returns the updated `x`, the converted model the original. -/
theorem C75_view_false : ∃ (ops : List (Op Int)) (x : List Int) (c : Conv Int) (h : Heap Int),
    (Conv.init [x] []).run ops = some c ∧ (Heap.init [x]).run ops = some h ∧ c.output [x] 0 ≠ h.read 0 := by
  refine ⟨[.view [0] 0, .inplace (fun v _ => v.map (· + 1)) 1 []], [3, 4], _, _, rfl, rfl, ?_⟩
  decide

/-- `buf[:1].copy_(x); y = buf * 1`: the converted model returns what the dummy input left in the constant. -/
theorem C75_baked_false : ∃ (ops : List (Op Int)) (dummy x : List Int) (c : Conv Int) (h : Heap Int),
    dummy.length = x.length ∧ (Conv.init [dummy] [[0, 0]]).run ops = some c ∧
    (Heap.init ([x] ++ [[0, 0]])).run ops = some h ∧ c.output [x] 4 ≠ h.read 4 ∧
    c.output [x] 4 = [9, 0] ∧ h.read 4 = [5, 0] := by
  refine ⟨[.view [0] 1, .inplace (fun _ vs => vs.getD 0 []) 2 [0], .pure (fun vs => vs.getD 0 []) [1]], [9], [5], _, _, rfl,
    rfl, rfl, ?_⟩
  decide

end Verif.Props
