import Verif.Model.Frozen

/-!
C118: only what does not depend on the inputs becomes a constant.
-/

namespace Verif.Props.Frozen
open Verif.Spec.Frozen Verif.Model.Frozen

variable {α S : Type}

theorem assign_notin {β : Type} : ∀ (ns : List ℕ) (vs : List β) (env : ℕ → β) (m : ℕ), m ∉ ns → assign env ns vs m = env m
  | [], _, _, _, _ => by simp [assign]
  | _ :: _, [], _, _, _ => by simp [assign]
  | n :: ns, v :: vs, env, m, h => by
    rw [List.mem_cons, not_or] at h
    rw [assign, assign_notin ns vs _ m h.2, Function.update_of_ne h.1]

theorem assign_map {β : Type} : ∀ (ns : List ℕ) (vs : List β) (env : ℕ → β), ns.Nodup → vs.length = ns.length → ns.map (assign env ns vs) = vs
  | [], vs, _, _, h => by
    rw [List.length_eq_zero_iff.1 h]; rfl
  | n :: ns, [], _, _, h => by simp at h
  | n :: ns, v :: vs, env, hnd, h => by
    obtain ⟨h1, h2⟩ := List.nodup_cons.1 hnd
    rw [List.map_cons, assign, assign_notin ns vs _ n h1, Function.update_self, assign_map ns vs _ h2 (by simpa using h)]

theorem assign_mem {β : Type} {P : β → Prop} : ∀ (ns : List ℕ) (vs : List β) (env : ℕ → β) (m : ℕ), vs.length = ns.length → (∀ v ∈ vs, P v) → m ∈ ns → P (assign env ns vs m)
  | [], _, _, _, _, _, h => by simp at h
  | n :: ns, [], _, _, h, _, _ => by simp at h
  | n :: ns, v :: vs, env, m, hl, hv, hm => by
    rw [assign]
    by_cases h : m ∈ ns
    · exact assign_mem ns vs _ m (by simpa using hl) (fun w hw => hv w (List.mem_cons_of_mem _ hw)) h
    · obtain rfl := (List.mem_cons.1 hm).resolve_right h
      rw [assign_notin ns vs _ m h, Function.update_self]
      exact hv v (by simp)

theorem assign_const {β : Type} {b : β} {ns : List ℕ} {env : ℕ → β} {m : ℕ} (h : m ∈ ns) : assign env ns (ns.map fun _ => b) m = b :=
  assign_mem (P := fun v => v = b) ns _ env m (by simp) (by simp) h

variable [Inhabited α]

/-- What is known while walking the program. -/
structure Inv (shape : α → S) (known : List ℕ) (dep : ℕ → Bool) (made : ℕ → Option (List ℕ)) (c : Conv α) (env : ℕ → Val α) (g : ℕ → α) : Prop where
  val : ∀ n ∈ known, (c.operand n).eval g = env n
  shp : ∀ n ∈ known, (env n).shape shape = (c.dummy n).shape shape
  dep : ∀ n ∈ known, dep n = c.tracks n
  fresh : ∀ n, n ∉ known → c.tracked n = false ∧ c.iter n = none
  lists : ∀ n ∈ known, ∀ names, c.iter n = some names → (∀ m ∈ names, m ∈ known ∧ c.iter m = none) ∧ (made n = some names ∨ ∀ m ∈ names, c.tracked m = true) ∧ ∃ l, c.dummy n = .many l ∧ names.map c.dummy = l.map .one

variable {shape : α → S} {known : List ℕ} {dep : ℕ → Bool} {made : ℕ → Option (List ℕ)} {c : Conv α} {env : ℕ → Val α} {g : ℕ → α}

/-- Operands do not change when other names are defined. -/
theorem extend (h : Inv shape known dep made c env g) {defs : List ℕ} {c' : Conv α} {dep' : ℕ → Bool} {made' : ℕ → Option (List ℕ)} {env' : ℕ → Val α} {g' : ℕ → α}
    (h1 : ∀ n ∈ known, c'.dummy n = c.dummy n ∧ c'.tracked n = c.tracked n ∧ c'.iter n = c.iter n ∧ env' n = env n ∧ g' n = g n ∧ dep' n = dep n ∧ made' n = made n)
    (h2 : ∀ n ∈ defs, (c'.operand n).eval g' = env' n ∧ (env' n).shape shape = (c'.dummy n).shape shape ∧ dep' n = c'.tracks n ∧
      ∀ names, c'.iter n = some names → (∀ m ∈ names, m ∈ defs ++ known ∧ c'.iter m = none) ∧ (made' n = some names ∨ ∀ m ∈ names, c'.tracked m = true) ∧ ∃ l, c'.dummy n = .many l ∧ names.map c'.dummy = l.map .one)
    (h3 : ∀ n, n ∉ defs ++ known → c'.tracked n = false ∧ c'.iter n = none) : Inv shape (defs ++ known) dep' made' c' env' g' := by
  have hsrc : ∀ m ∈ known, (c'.source m).eval g' = (c.source m).eval g := by
    intro m hm
    obtain ⟨a1, a2, _, _, a5, _, _⟩ := h1 m hm
    unfold Conv.source
    rw [a1, a2]
    split
    · exact a5
    · cases c.dummy m <;> rfl
  have hop : ∀ n ∈ known, (c'.operand n).eval g' = (c.operand n).eval g := by
    intro n hn
    obtain ⟨a1, a2, a3, _, a5, _, _⟩ := h1 n hn
    unfold Conv.operand
    rw [a1, a2, a3]
    cases hi : c.iter n with
    | some names =>
      simp only [Arg.eval, List.map_map]
      refine congrArg Val.many (List.map_congr_left fun m hm => ?_)
      exact hsrc m ((h.lists n hn names hi).1 m hm).1
    | none =>
      simp only
      split
      · simp only [Arg.eval, Src.eval, a5]
      · cases c.dummy n <;> simp [Arg.eval, Src.eval, Function.comp_def]
  have htr : ∀ n ∈ known, c'.tracks n = c.tracks n := by
    intro n hn
    obtain ⟨_, a2, a3, _, _, _, _⟩ := h1 n hn
    unfold Conv.tracks
    rw [a2, a3]
    cases hi : c.iter n with
    | some names =>
      simp only
      rw [Bool.eq_iff_iff, List.any_eq_true, List.any_eq_true]
      constructor
      · rintro ⟨m, hm, ht⟩
        exact ⟨m, hm, by rw [← (h1 m ((h.lists n hn names hi).1 m hm).1).2.1]; exact ht⟩
      · rintro ⟨m, hm, ht⟩
        exact ⟨m, hm, by rw [(h1 m ((h.lists n hn names hi).1 m hm).1).2.1]; exact ht⟩
    | none => rfl
  refine ⟨fun n hn => ?_, fun n hn => ?_, fun n hn => ?_, h3, fun n hn names hi => ?_⟩
  · by_cases hd : n ∈ defs
    · exact (h2 n hd).1
    · have hk := (List.mem_append.1 hn).resolve_left hd
      rw [hop n hk, (h1 n hk).2.2.2.1, h.val n hk]
  · by_cases hd : n ∈ defs
    · exact (h2 n hd).2.1
    · have hk := (List.mem_append.1 hn).resolve_left hd
      rw [(h1 n hk).1, (h1 n hk).2.2.2.1, h.shp n hk]
  · by_cases hd : n ∈ defs
    · exact (h2 n hd).2.2.1
    · have hk := (List.mem_append.1 hn).resolve_left hd
      rw [htr n hk, (h1 n hk).2.2.2.2.2.1, h.dep n hk]
  · by_cases hd : n ∈ defs
    · exact (h2 n hd).2.2.2 names hi
    · have hk := (List.mem_append.1 hn).resolve_left hd
      rw [(h1 n hk).2.2.1] at hi
      obtain ⟨b1, b2, l, b3, b4⟩ := h.lists n hk names hi
      refine ⟨fun m hm => ⟨List.mem_append_right _ (b1 m hm).1, by rw [(h1 m (b1 m hm).1).2.2.1]; exact (b1 m hm).2⟩, ?_, l, by rw [(h1 n hk).1]; exact b3, ?_⟩
      · rw [(h1 n hk).2.2.2.2.2.2]
        exact b2.imp id fun hb m hm => by rw [(h1 m (b1 m hm).1).2.1]; exact hb m hm
      · rw [← b4]
        exact List.map_congr_left fun m hm => (h1 m (b1 m hm).1).1

/-- What is not tracked has the value of the dummy run. -/
theorem frozen (h : Inv shape known dep made c env g) {n : ℕ} (hn : n ∈ known) (ht : c.tracks n = false) : env n = c.dummy n := by
  rw [← h.val n hn]
  unfold Conv.tracks at ht
  unfold Conv.operand
  cases hi : c.iter n with
  | some names =>
    obtain ⟨_, _, l, b3, b4⟩ := h.lists n hn names hi
    rw [hi] at ht
    simp only at ht ⊢
    rw [b3]
    have : names.map (fun m => (c.source m).eval g) = l := by
      have : ∀ (names : List ℕ) (l : List α), names.any c.tracked = false → names.map c.dummy = l.map .one → names.map (fun m => (c.source m).eval g) = l := by
        intro names
        induction names with
        | nil => intro l _ hl; cases l with
          | nil => rfl
          | cons a l => simp at hl
        | cons m names ih =>
          intro l ht hl
          cases l with
          | nil => simp at hl
          | cons a l =>
            rw [List.any_cons, Bool.or_eq_false_iff] at ht
            rw [List.map_cons, List.map_cons, List.cons.injEq] at hl
            rw [List.map_cons, ih l ht.2 hl.2, Conv.source, ht.1, hl.1]
            rfl
      exact this names l ht b4
    simp only [Arg.eval, List.map_map]
    exact congrArg Val.many this
  | none =>
    rw [hi] at ht
    simp only at ht ⊢
    rw [ht]
    cases c.dummy n <;> simp [Arg.eval, Src.eval, Function.comp_def]

/-- Single tensors are not lists. -/
theorem iter_one (h : Inv shape known dep made c env g) {n : ℕ} (hn : n ∈ known) {a : α} (ha : c.dummy n = .one a) : c.iter n = none := by
  cases hi : c.iter n with
  | none => rfl
  | some names =>
    obtain ⟨_, _, l, b3, _⟩ := h.lists n hn names hi
    rw [ha] at b3
    cases b3

theorem any_dep (h : Inv shape known dep made c env g) {args : List ℕ} (ha : ∀ m ∈ args, m ∈ known) : args.any dep = args.any c.tracks := by
  induction args with
  | nil => rfl
  | cons a args ih => rw [List.any_cons, List.any_cons, h.dep a (ha a (by simp)), ih fun m hm => ha m (List.mem_cons_of_mem _ hm)]

theorem map_val (h : Inv shape known dep made c env g) {args : List ℕ} (ha : ∀ m ∈ args, m ∈ known) : (args.map c.operand).map (Arg.eval g) = args.map env := by
  rw [List.map_map]
  exact List.map_congr_left fun m hm => h.val m (ha m hm)

theorem map_shape (h : Inv shape known dep made c env g) {args : List ℕ} (ha : ∀ m ∈ args, m ∈ known) : (args.map env).map (Val.shape shape) = (args.map c.dummy).map (Val.shape shape) := by
  rw [List.map_map, List.map_map]
  exact List.map_congr_left fun m hm => h.shp m (ha m hm)

theorem map_frozen (h : Inv shape known dep made c env g) {args : List ℕ} (ha : ∀ m ∈ args, m ∈ known) (ht : args.any c.tracks = false) : args.map env = args.map c.dummy :=
  List.map_congr_left fun m hm => frozen h (ha m hm) (by simpa using (List.any_eq_false.1 ht) m hm)

/-- A new name that is not tracked stands for its value of the dummy run. -/
theorem operand_const {c : Conv α} {n : ℕ} (h1 : c.tracked n = false) (h2 : c.iter n = none) (g : ℕ → α) : (c.operand n).eval g = c.dummy n := by
  unfold Conv.operand
  rw [h1, h2]
  cases c.dummy n <;> simp [Arg.eval, Src.eval, Function.comp_def]

theorem operand_tensor {c : Conv α} {n : ℕ} (h1 : c.tracked n = true) (h2 : c.iter n = none) (g : ℕ → α) : (c.operand n).eval g = .one (g n) := by
  unfold Conv.operand
  rw [h1, h2]
  rfl

theorem tracks_none {c : Conv α} {n : ℕ} (h : c.iter n = none) : c.tracks n = c.tracked n := by
  unfold Conv.tracks
  rw [h]

theorem shape_one {v w : Val α} (h : v.shape shape = w.shape shape) {a : α} (hw : w = .one a) : ∃ b, v = .one b ∧ shape b = shape a := by
  subst hw
  cases v with
  | one b => exact ⟨b, rfl, by simpa [Val.shape] using h⟩
  | many l => simp [Val.shape] at h

theorem shape_many {v w : Val α} (h : v.shape shape = w.shape shape) {l : List α} (hw : w = .many l) : ∃ k, v = .many k ∧ k.map shape = l.map shape := by
  subst hw
  cases v with
  | one b => simp [Val.shape] at h
  | many k => exact ⟨k, rfl, by simpa [Val.shape] using h⟩

theorem mapM_single : ∀ (vs : List (Val α)) (l : List α), vs.mapM Val.single? = some l ↔ vs = l.map .one
  | [], l => by
    cases l with
    | nil => simp
    | cons a l => simp
  | v :: vs, l => by
    rw [List.mapM_cons]
    cases v with
    | many k => cases l <;> simp [Val.single?]
    | one a =>
      cases l with
      | nil => cases h : vs.mapM Val.single? <;> simp [Val.single?, h]
      | cons b l =>
        simp only [Val.single?, List.map_cons, List.cons.injEq, Val.one.injEq, ← mapM_single vs l]
        cases h : vs.mapM Val.single? with
        | none => simp [h]
        | some k => simp [h]

/-- Taking a list apart. -/
theorem exec_unpack {c : Conv α} : ∀ (names outs : List ℕ) (g : ℕ → α), (∀ m ∈ names, c.tracked m = true) → (∀ m ∈ names, m ∉ outs) →
    exec g (List.zipWith (fun m o => (⟨fun vs => (vs.map Val.items).flatten, [.one (c.unpacked m)], [o]⟩ : GOp α)) names outs) = assign g outs (names.map g)
  | [], outs, g, _, _ => by cases outs <;> simp [exec, assign]
  | m :: names, [], g, _, _ => by simp [exec, assign]
  | m :: names, o :: outs, g, ht, hno => by
    have hm := hno m (by simp)
    rw [List.zipWith_cons_cons, exec]
    have : assign g [o] ((fun vs : List (Val α) => (vs.map Val.items).flatten) ([Arg.one (c.unpacked m)].map (Arg.eval g))) = Function.update g o (g m) := by
      unfold Conv.unpacked
      rw [ht m (by simp)]
      simp [Arg.eval, Src.eval, Val.items, assign]
    rw [this, exec_unpack names outs _ (fun k hk => ht k (List.mem_cons_of_mem _ hk)) fun k hk h => hno k (List.mem_cons_of_mem _ hk) (List.mem_cons_of_mem _ h), List.map_cons, assign]
    refine congrArg _ (List.map_congr_left fun k hk => ?_)
    rw [Function.update_of_ne]
    rintro rfl
    exact hno k (List.mem_cons_of_mem _ hk) (by simp)

theorem exec_append : ∀ (a b : List (GOp α)) (g : ℕ → α), exec g (a ++ b) = exec (exec g a) b
  | [], _, _ => rfl
  | o :: a, b, g => by rw [List.cons_append, exec, exec, exec_append a b]

/-- A node that defines one tensor or constant and nothing else. -/
theorem extend_one (h : Inv shape known dep made c env g) {out : ℕ} (hout : out ∉ known) (d v : Val α) (t : Bool) (g' : ℕ → α) (hg : ∀ n ∈ known, g' n = g n) (ops : List (GOp α)) (bad : Bool)
    (hv : if t then v = .one (g' out) else v = d) (hs : v.shape shape = d.shape shape) :
    Inv shape ([out] ++ known) (Function.update dep out t) made ⟨Function.update c.dummy out d, Function.update c.tracked out t, c.iter, ops, bad⟩ (Function.update env out v) g' := by
  have hne : ∀ n ∈ known, n ≠ out := fun n hn e => hout (e ▸ hn)
  obtain ⟨f1, f2⟩ := h.fresh out hout
  refine extend h (fun n hn => ?_) (fun n hn => ?_) (fun n hn => ?_)
  · simp only [Function.update_of_ne (hne n hn), hg n hn, and_self]
  · obtain rfl := List.mem_singleton.1 hn
    refine ⟨?_, ?_, ?_, fun names hi => ?_⟩
    · cases t with
      | true =>
        rw [operand_tensor (by simp) (by exact f2), Function.update_self]
        exact hv.symm
      | false =>
        rw [operand_const (by simp) (by exact f2)]
        simp only [Function.update_self]
        exact hv.symm
    · simp only [Function.update_self]
      exact hs
    · rw [tracks_none (by exact f2)]
      simp only [Function.update_self]
    · simp only [f2] at hi
      cases hi
  · simp only [List.singleton_append, List.mem_cons, not_or] at hn
    simp only [Function.update_of_ne hn.1]
    exact h.fresh n hn.2

theorem update_false {t : ℕ → Bool} {n : ℕ} (h : t n = false) : Function.update t n false = t := by
  rw [← h, Function.update_eq_self]

/-- One round. -/
theorem step_spec {x : ℕ → α} {n : Node α} {p : List (Node α)} {c' : Conv α} (h : Inv shape known dep made c env (exec x c.ops)) (hr : ∀ m ∈ n.reads, m ∈ known) (hnd : n.defs.Nodup) (hnew : ∀ m ∈ n.defs, m ∉ known)
    (hcl : Clean shape dep made (n :: p)) (hc : c.step n = some c') :
    ∃ env' dep' made', step env n = some env' ∧ Clean shape dep' made' p ∧ Inv shape (n.defs ++ known) dep' made' c' env' (exec x c'.ops) := by
  unfold Conv.step at hc
  cases n with
  | op fn args out =>
    have hr : ∀ m ∈ args, m ∈ known := hr
    obtain ⟨hcl1, hcl2⟩ := hcl
    have hout : out ∉ known := hnew out (by simp [Node.defs])
    refine ⟨_, _, _, rfl, hcl2, ?_⟩
    rw [any_dep h hr]
    simp only [step, Option.map_some, Option.some.injEq] at hc
    have hsh : (Val.one (fn (args.map env))).shape shape = (Val.one (fn (args.map c.dummy))).shape shape := by
      simp only [Val.shape]
      exact congrArg Val.one (hcl1 _ _ (map_shape h hr))
    cases ht : args.any c.tracks with
    | true =>
      rw [ht] at hc
      simp only [if_true] at hc
      subst hc
      have hg : exec x (c.ops ++ [⟨fun vs => [fn vs], args.map c.operand, [out]⟩]) = Function.update (exec x c.ops) out (fn (args.map env)) := by
        rw [exec_append]
        simp only [exec, map_val h hr, assign]
      refine extend_one h hout _ _ true _ (fun n hn => ?_) _ _ ?_ hsh
      · simp only
        rw [hg, Function.update_of_ne (show n ≠ out from fun e => hout (e ▸ hn))]
      · simp only [if_true]
        rw [hg, Function.update_self]
    | false =>
      rw [ht] at hc
      simp only [Bool.false_eq_true, if_false] at hc
      subst hc
      have := extend_one h hout (.one (fn (args.map c.dummy))) (.one (fn (args.map env))) false _ (fun n _ => rfl) c.ops c.bad (by simp [map_frozen h hr ht]) hsh
      rw [update_false (h.fresh out hout).1] at this
      exact this
  | listOp fn args out parts =>
    have hr : ∀ m ∈ args, m ∈ known := hr
    obtain ⟨hne, hcl1, hcl2⟩ := hcl
    have hout : out ∉ known := hnew out (by simp [Node.defs])
    have hpk : ∀ m ∈ parts, m ∉ known := fun m hm => hnew m (by simp [Node.defs, hm])
    obtain ⟨hop, hpn⟩ := List.nodup_cons.1 (show (out :: parts).Nodup from hnd)
    have hsh : (fn (args.map env)).map shape = (fn (args.map c.dummy)).map shape := hcl1 _ _ (map_shape h hr)
    have hlen : (fn (args.map env)).length = (fn (args.map c.dummy)).length := by simpa using congrArg List.length hsh
    by_cases hl : (fn (args.map c.dummy)).length = parts.length
    · simp only [step, if_pos hl, Option.map_some, Option.some.injEq] at hc
      have hl' : (fn (args.map env)).length = parts.length := hlen.trans hl
      refine ⟨_, _, _, by rw [step, if_pos hl'], hcl2, ?_⟩
      rw [any_dep h hr]
      have hparts : ∀ (e : ℕ → Val α) (l : List α), l.length = parts.length → parts.map (assign e parts (l.map .one)) = l.map .one := fun e l hl => assign_map _ _ _ hpn (by simpa using hl)
      have hshp : ∀ m ∈ parts, (assign (Function.update env out (.many (fn (args.map env)))) parts ((fn (args.map env)).map .one) m).shape shape = (assign (Function.update c.dummy out (.many (fn (args.map c.dummy)))) parts ((fn (args.map c.dummy)).map .one) m).shape shape := by
        have e : parts.map (fun m => (assign (Function.update env out (.many (fn (args.map env)))) parts ((fn (args.map env)).map .one) m).shape shape) = parts.map fun m => (assign (Function.update c.dummy out (.many (fn (args.map c.dummy)))) parts ((fn (args.map c.dummy)).map .one) m).shape shape := by
          have e1 := congrArg (List.map (Val.shape shape)) (hparts (Function.update env out (.many (fn (args.map env)))) _ hl')
          have e2 := congrArg (List.map (Val.shape shape)) (hparts (Function.update c.dummy out (.many (fn (args.map c.dummy)))) _ hl)
          rw [List.map_map] at e1 e2
          refine e1.trans (Eq.trans ?_ e2.symm)
          rw [List.map_map, List.map_map]
          have := congrArg (List.map Val.one) hsh
          rw [List.map_map, List.map_map] at this
          exact this
        intro m hm
        exact List.map_inj_left.1 e m hm
      cases ht : args.any c.tracks with
      | true =>
        rw [ht] at hc
        simp only [if_true] at hc
        subst hc
        have hg : exec x (c.ops ++ [⟨fn, args.map c.operand, parts⟩]) = assign (exec x c.ops) parts (fn (args.map env)) := by
          rw [exec_append]
          simp only [exec, map_val h hr]
        have hpg : parts.map (assign (exec x c.ops) parts (fn (args.map env))) = fn (args.map env) := assign_map _ _ _ hpn hl'
        have hpi : ∀ m ∈ parts, Function.update c.iter out (some parts) m = none := fun m hm => by
          rw [Function.update_of_ne (show m ≠ out from fun e => hop (e ▸ hm))]
          exact (h.fresh m (hpk m hm)).2
        simp only
        rw [hg]
        refine extend h (fun n hn => ?_) (fun n hn => ?_) (fun n hn => ?_)
        · have n1 : n ≠ out := fun e => hout (e ▸ hn)
          have n2 : n ∉ parts := fun e => hpk n e hn
          simp only [assign_notin _ _ _ n n2, Function.update_of_ne n1, and_self]
        · rcases List.mem_cons.1 (show n ∈ out :: parts from hn) with rfl | hn
          · simp only [assign_notin _ _ _ n hop, Function.update_self]
            refine ⟨?_, ?_, ?_, fun names hi => ?_⟩
            · unfold Conv.operand
              simp only [Function.update_self, Arg.eval, List.map_map]
              refine congrArg Val.many (Eq.trans (List.map_congr_left fun m hm => ?_) hpg)
              unfold Conv.source
              simp only [Function.comp, assign_const hm, if_true, Src.eval]
            · simp only [Val.shape, hsh]
            · unfold Conv.tracks
              simp only [Function.update_self]
              symm
              rw [List.any_eq_true]
              obtain ⟨m, hm⟩ := List.exists_mem_of_ne_nil parts hne
              exact ⟨m, hm, assign_const hm⟩
            · obtain rfl := Option.some.inj hi
              exact ⟨fun m hm => ⟨List.mem_append_left _ (List.mem_cons_of_mem _ hm), hpi m hm⟩, Or.inr fun m hm => assign_const hm, _, rfl, hparts _ _ hl⟩
          · refine ⟨?_, hshp n hn, ?_, fun names hi => ?_⟩
            · rw [operand_tensor (by exact assign_const hn) (by exact hpi n hn)]
              have e1 := hparts (Function.update env out (.many (fn (args.map env)))) _ hl'
              have e2 := congrArg (List.map Val.one) hpg
              rw [List.map_map] at e2
              exact (List.map_inj_left.1 (e2.trans e1.symm) n hn)
            · rw [tracks_none (by exact hpi n hn)]
              simp only
              rw [Function.update_of_ne (show n ≠ out from fun e => hop (e ▸ hn)), assign_const hn, assign_const hn]
            · simp only [hpi n hn] at hi
              cases hi
        · simp only [Node.defs, List.mem_append, List.mem_cons, not_or] at hn
          simp only [assign_notin _ _ _ n hn.1.2, Function.update_of_ne hn.1.1]
          exact h.fresh n hn.2
      | false =>
        rw [ht] at hc
        simp only [Bool.false_eq_true, if_false] at hc
        subst hc
        rw [map_frozen h hr ht]
        have hpi : ∀ m ∈ out :: parts, c.tracked m = false ∧ c.iter m = none := fun m hm => h.fresh m (hnew m hm)
        refine extend h (fun n hn => ?_) (fun n hn => ?_) (fun n hn => ?_)
        · have n1 : n ≠ out := fun e => hout (e ▸ hn)
          have n2 : n ∉ parts := fun e => hpk n e hn
          simp only [assign_notin _ _ _ n n2, Function.update_of_ne n1, and_self]
        · obtain ⟨f1, f2⟩ := hpi n hn
          have e : assign (Function.update env out (.many (fn (args.map c.dummy)))) parts ((fn (args.map c.dummy)).map .one) n = assign (Function.update c.dummy out (.many (fn (args.map c.dummy)))) parts ((fn (args.map c.dummy)).map .one) n := by
            rcases List.mem_cons.1 (show n ∈ out :: parts from hn) with rfl | hn
            · rw [assign_notin _ _ _ n hop, assign_notin _ _ _ n hop, Function.update_self, Function.update_self]
            · exact List.map_inj_left.1 ((hparts _ _ hl).trans (hparts _ _ hl).symm) n hn
          refine ⟨?_, ?_, ?_, fun names hi => ?_⟩
          · rw [operand_const (by exact f1) (by exact f2)]
            exact e.symm
          · rw [e]
          · rw [tracks_none (by exact f2)]
            simp only [f1]
            by_cases hno : n = out
            · rw [hno, Function.update_self]
            · rw [Function.update_of_ne hno]
              exact assign_const ((List.mem_cons.1 (show n ∈ out :: parts from hn)).resolve_left hno)
          · simp only [f2] at hi
            cases hi
        · simp only [Node.defs, List.mem_append, List.mem_cons, not_or] at hn
          exact h.fresh n hn.2
    · simp [step, hl] at hc
  | other kind fn args out =>
    have hr : ∀ m ∈ args, m ∈ known := hr
    obtain ⟨hcl1, hcl2⟩ := hcl
    have hout : out ∉ known := hnew out (by simp [Node.defs])
    refine ⟨_, _, _, rfl, hcl2, ?_⟩
    simp only [step, Option.map_some, Option.some.injEq] at hc
    subst hc
    have hv : fn (args.map env) = fn (args.map c.dummy) := by
      rcases hcl1 with hcl1 | hcl1
      · rw [any_dep h hr] at hcl1
        rw [map_frozen h hr hcl1]
      · exact hcl1 _ _ (map_shape h hr)
    have := extend_one h hout (fn (args.map c.dummy)) (fn (args.map env)) false _ (fun n _ => rfl) c.ops (c.bad || decide (kind = .unknown)) (by simpa using hv) (by rw [hv])
    rw [update_false (h.fresh out hout).1] at this
    exact this
  | construct args out =>
    have hr : ∀ m ∈ args, m ∈ known := hr
    have hout : out ∉ known := hnew out (by simp [Node.defs])
    have hao : ∀ m ∈ args, m ≠ out := fun m hm e => hout (e ▸ hr m hm)
    have hcl : Clean shape (Function.update dep out (args.any dep)) (Function.update made out (some args)) p := hcl
    rw [any_dep h hr] at hcl
    cases hm : (args.map c.dummy).mapM Val.single? with
    | none => simp [step, hm] at hc
    | some l =>
      simp only [step, hm, Option.map_some, Option.some.injEq] at hc
      subst hc
      have hl := (mapM_single _ _).1 hm
      have hone : ∀ m ∈ args, ∃ a, c.dummy m = .one a := by
        intro m hm
        have : c.dummy m ∈ l.map Val.one := by rw [← hl]; exact List.mem_map_of_mem hm
        obtain ⟨a, _, ha⟩ := List.mem_map.1 this
        exact ⟨a, ha.symm⟩
      have hit : ∀ m ∈ args, c.iter m = none := fun m hm => by
        obtain ⟨a, ha⟩ := hone m hm
        exact iter_one h (hr m hm) ha
      have hval : args.map env = (args.map fun m => (c.source m).eval (exec x c.ops)).map .one := by
        rw [List.map_map]
        refine List.map_congr_left fun m hm => ?_
        obtain ⟨a, ha⟩ := hone m hm
        rw [← h.val m (hr m hm)]
        unfold Conv.operand
        rw [hit m hm, ha]
        simp only [Function.comp, Conv.source, ha]
        split <;> rfl
      refine ⟨_, _, _, by rw [step, (mapM_single _ _).2 hval]; rfl, hcl, ?_⟩
      refine extend h (fun n hn => ?_) (fun n hn => ?_) (fun n hn => ?_)
      · have n1 : n ≠ out := fun e => hout (e ▸ hn)
        simp only [Function.update_of_ne n1, and_self]
      · obtain rfl := List.mem_singleton.1 (show n ∈ [out] from hn)
        simp only [Function.update_self]
        refine ⟨?_, ?_, ?_, fun names hi => ?_⟩
        · unfold Conv.operand
          simp only [Function.update_self, Arg.eval, List.map_map]
          refine congrArg Val.many (List.map_congr_left fun m hm => ?_)
          unfold Conv.source
          simp only [Function.comp, Function.update_of_ne (hao m hm)]
        · have := map_shape h (args := args) hr
          rw [hval, hl] at this
          simp only [Val.shape]
          refine congrArg Val.many ?_
          have h2 : ∀ (a b : List α), (a.map Val.one).map (Val.shape shape) = (b.map Val.one).map (Val.shape shape) → a.map shape = b.map shape := by
            intro a
            induction a with
            | nil => intro b hb; cases b with
              | nil => rfl
              | cons _ _ => simp at hb
            | cons a as ih =>
              intro b hb
              cases b with
              | nil => simp at hb
              | cons b bs =>
                simp only [List.map_cons, List.cons.injEq] at hb
                rw [List.map_cons, List.map_cons, ih bs hb.2]
                simpa [Val.shape] using hb.1
          exact h2 _ _ this
        · unfold Conv.tracks
          simp only [Function.update_self]
          rw [Bool.eq_iff_iff, List.any_eq_true, List.any_eq_true]
          constructor
          · rintro ⟨m, hm, ht⟩
            rw [hit m hm] at ht
            exact ⟨m, hm, ht⟩
          · rintro ⟨m, hm, ht⟩
            exact ⟨m, hm, by rw [hit m hm]; exact ht⟩
        · obtain rfl := Option.some.inj hi
          refine ⟨fun m hm => ⟨List.mem_append_right _ (hr m hm), by rw [Function.update_of_ne (hao m hm)]; exact hit m hm⟩, Or.inl rfl, l, rfl, ?_⟩
          rw [← hl]
          exact List.map_congr_left fun m hm => by rw [Function.update_of_ne (hao m hm)]
      · simp only [Node.defs, List.singleton_append, List.mem_cons, not_or] at hn
        simp only [Function.update_of_ne hn.1]
        exact h.fresh n hn.2
  | unpack y outs =>
    obtain ⟨hcl1, hcl2⟩ := hcl
    have hy : y ∈ known := hr y (by simp [Node.reads])
    have hon : outs.Nodup := hnd
    have hnew : ∀ m ∈ outs, m ∉ known := hnew
    cases hd : c.dummy y with
    | one a => simp [step, hd] at hc
    | many l =>
      by_cases hl : l.length = outs.length
      · simp only [step, hd, if_pos hl, Option.map_some, Option.some.injEq] at hc
        obtain ⟨k, hk, hks⟩ := shape_many (h.shp y hy) hd
        have hkl : k.length = outs.length := by
          have := congrArg List.length hks
          simp only [List.length_map] at this
          omega
        have houts : ∀ (e : ℕ → Val α) (l : List α), l.length = outs.length → outs.map (assign e outs (l.map .one)) = l.map .one := fun e l hl => assign_map _ _ _ hon (by simpa using hl)
        have hshp : ∀ m ∈ outs, (assign env outs (k.map .one) m).shape shape = (assign c.dummy outs (l.map .one) m).shape shape := by
          have e1 := congrArg (List.map (Val.shape shape)) (houts env k hkl)
          have e2 := congrArg (List.map (Val.shape shape)) (houts c.dummy l hl)
          rw [List.map_map] at e1 e2
          have e3 := congrArg (List.map Val.one) hks
          rw [List.map_map, List.map_map] at e3
          have e4 : (k.map Val.one).map (Val.shape shape) = (l.map Val.one).map (Val.shape shape) := by
            rw [List.map_map, List.map_map]
            exact e3
          exact fun m hm => List.map_inj_left.1 (e1.trans (e4.trans e2.symm)) m hm
        refine ⟨assign env outs (k.map .one), _, _, by rw [step, hk]; simp only; rw [if_pos hkl], hcl2, ?_⟩
        rw [h.dep y hy]
        cases hi : c.iter y with
        | none =>
          rw [hi] at hc
          simp only at hc
          subst hc
          have hut : c.tracked y = false := by
            by_contra hcon
            have := h.val y hy
            rw [operand_tensor (by simpa using hcon) hi, hk] at this
            cases this
          have hty : c.tracks y = false := by rw [tracks_none hi]; exact hut
          have hkl' : k = l := by
            have := frozen h hy hty
            rw [hk, hd] at this
            exact Val.many.inj this
          subst hkl'
          rw [hty]
          refine extend h (fun n hn => ?_) (fun n hn => ?_) (fun n hn => ?_)
          · have n2 : n ∉ outs := fun e => hnew n e hn
            simp only [assign_notin _ _ _ n n2, and_self]
          · have hn : n ∈ outs := hn
            obtain ⟨f1, f2⟩ := h.fresh n (hnew n hn)
            refine ⟨?_, hshp n hn, ?_, fun names hi => ?_⟩
            · rw [operand_const (by exact f1) (by exact f2)]
              exact List.map_inj_left.1 ((houts c.dummy k hl).trans (houts env k hl).symm) n hn
            · rw [tracks_none (by exact f2), assign_const hn]
              exact f1.symm
            · simp only [f2] at hi
              cases hi
          · simp only [Node.defs, List.mem_append, not_or] at hn
            exact h.fresh n hn.2
        | some names =>
          rw [hi] at hc
          simp only at hc
          subst hc
          obtain ⟨b1, b2, l', b3, b4⟩ := h.lists y hy names hi
          have hall : ∀ m ∈ names, c.tracked m = true := by
            rcases b2 with b2 | b2
            · intro m hm
              have := List.all_eq_true.1 (hcl1 names b2) m hm
              rw [h.dep m (b1 m hm).1, tracks_none (b1 m hm).2] at this
              exact this
            · exact b2
          have hnl : names.length = outs.length := by
            have e1 := congrArg List.length b4
            rw [hd] at b3
            obtain rfl := Val.many.inj b3
            simp only [List.length_map] at e1
            omega
          have hg : exec x (c.ops ++ List.zipWith (fun m o => (⟨fun vs => (vs.map Val.items).flatten, [.one (c.unpacked m)], [o]⟩ : GOp α)) names outs) = assign (exec x c.ops) outs (names.map (exec x c.ops)) := by
            rw [exec_append, exec_unpack names outs _ hall fun m hm ho => hnew m ho (b1 m hm).1]
          have hkg : k = names.map (exec x c.ops) := by
            have := h.val y hy
            unfold Conv.operand at this
            rw [hi, hk] at this
            simp only [Arg.eval, List.map_map, Val.many.injEq] at this
            rw [← this]
            refine List.map_congr_left fun m hm => ?_
            simp only [Function.comp, Conv.source, hall m hm, if_true, Src.eval]
          simp only
          rw [hg]
          refine extend h (fun n hn => ?_) (fun n hn => ?_) (fun n hn => ?_)
          · have n2 : n ∉ outs := fun e => hnew n e hn
            simp only [assign_notin _ _ _ n n2, and_self]
          · have hn : n ∈ outs := hn
            obtain ⟨f1, f2⟩ := h.fresh n (hnew n hn)
            refine ⟨?_, hshp n hn, ?_, fun names hi => ?_⟩
            · rw [operand_tensor (by exact assign_const hn) (by exact f2)]
              have e1 := congrArg (List.map Val.one) (assign_map outs (names.map (exec x c.ops)) (exec x c.ops) hon (by simpa using hnl))
              rw [List.map_map] at e1
              have e2 := houts env k hkl
              rw [hkg] at e2
              rw [hkg]
              exact List.map_inj_left.1 (e1.trans e2.symm) n hn
            · refine Eq.trans ?_ (tracks_none (by exact f2)).symm
              simp only
              rw [assign_const hn, assign_const hn]
              unfold Conv.tracks
              rw [hi]
              simp only
              have : names ≠ [] := by
                rintro rfl
                rw [List.length_nil] at hnl
                rw [List.length_eq_zero_iff.1 hnl.symm] at hn
                cases hn
              obtain ⟨m, hm⟩ := List.exists_mem_of_ne_nil names this
              exact List.any_eq_true.2 ⟨m, hm, hall m hm⟩
            · simp only [f2] at hi
              cases hi
          · simp only [Node.defs, List.mem_append, not_or] at hn
            simp only [assign_notin _ _ _ n hn.1]
            exact h.fresh n hn.2
      · simp [step, hd, hl] at hc
  | getItem y i out =>
    obtain ⟨hcl1, hcl2⟩ := hcl
    have hy : y ∈ known := hr y (by simp [Node.reads])
    have hout : out ∉ known := hnew out (by simp [Node.defs])
    rw [h.dep y hy] at hcl1
    have hv := frozen h hy hcl1
    cases hd : c.dummy y with
    | one a => simp [step, hd] at hc
    | many l =>
      rw [hd] at hv
      cases ha : l[i]? with
      | none => simp [step, hd, ha] at hc
      | some a =>
        simp only [step, hd, ha, Option.map_some, Option.some.injEq] at hc
        subst hc
        refine ⟨Function.update env out (.one a), _, _, by simp only [step, hv, ha, Option.map_some], hcl2, ?_⟩
        have := extend_one h hout (.one a) (.one a) false _ (fun n _ => rfl) c.ops c.bad (by simp) rfl
        rw [update_false (h.fresh out hout).1] at this
        exact this
  | copy y out =>
    have hcl : Clean shape (Function.update dep out (dep y)) made p := hcl
    have hy : y ∈ known := hr y (by simp [Node.reads])
    have hout : out ∉ known := hnew out (by simp [Node.defs])
    cases hd : c.dummy y with
    | many l => simp [step, hd] at hc
    | one a =>
      have hi := iter_one h hy hd
      rw [h.dep y hy, tracks_none hi] at hcl
      obtain ⟨b, hb, hba⟩ := shape_one (h.shp y hy) hd
      simp only [step, hd, Option.map_some, Option.some.injEq] at hc
      refine ⟨Function.update env out (.one b), _, _, by simp only [step, hb], hcl, ?_⟩
      cases ht : c.tracked y with
      | true =>
        rw [ht] at hc
        simp only [if_true] at hc
        subst hc
        have hbv : b = exec x c.ops y := by
          have := h.val y hy
          rw [operand_tensor ht hi, hb] at this
          exact (Val.one.inj this).symm
        have hg : exec x (c.ops ++ [⟨fun vs => (vs.map Val.items).flatten, [.one (.name y)], [out]⟩]) = Function.update (exec x c.ops) out b := by
          rw [exec_append, hbv]
          simp [exec, assign, Arg.eval, Src.eval, Val.items]
        refine extend_one h hout _ _ true _ (fun n hn => ?_) _ _ ?_ (by simp [Val.shape, hba])
        · simp only
          rw [hg, Function.update_of_ne (show n ≠ out from fun e => hout (e ▸ hn))]
        · simp only [if_true]
          rw [hg, Function.update_self]
      | false =>
        rw [ht] at hc
        simp only [Bool.false_eq_true, if_false] at hc
        subst hc
        have hba' := frozen h hy (by rw [tracks_none hi]; exact ht)
        rw [hb, hd] at hba'
        have := extend_one h hout (.one a) (.one b) false _ (fun n _ => rfl) c.ops c.bad (by simpa using hba') (by simp [Val.shape, hba])
        rw [update_false (h.fresh out hout).1] at this
        exact this

theorem walk_spec {x : ℕ → α} : ∀ (p : List (Node α)) (known : List ℕ) (dep : ℕ → Bool) (made : ℕ → Option (List ℕ)) (c : Conv α) (env : ℕ → Val α) (c' : Conv α), Inv shape known dep made c env (exec x c.ops) → Scoped known p → Clean shape dep made p →
    c.walk p = some c' → ∃ env' known' dep' made', run env p = some env' ∧ Inv shape known' dep' made' c' env' (exec x c'.ops) ∧ (∀ o ∈ known, o ∈ known') ∧ ∀ n ∈ p, ∀ o ∈ n.defs, o ∈ known'
  | [], known, dep, made, c, env, c', h, _, _, hc => by
    obtain rfl := Option.some.inj hc
    exact ⟨env, known, dep, made, rfl, h, fun _ ho => ho, by simp⟩
  | n :: p, known, dep, made, c, env, c', h, hs, hcl, hc => by
    obtain ⟨s1, s2, s3, s4⟩ := hs
    obtain ⟨c1, h1, h2⟩ := Option.bind_eq_some_iff.1 hc
    obtain ⟨env1, dep1, made1, e1, cl1, i1⟩ := step_spec h s1 s2 s3 hcl h1
    obtain ⟨env', known', dep', made', r, i, k1, k2⟩ := walk_spec p _ dep1 made1 c1 env1 c' i1 s4 cl1 h2
    refine ⟨env', known', dep', made', by rw [run, e1]; exact r, i, fun o ho => k1 o (List.mem_append_right _ ho), fun m hm o ho => ?_⟩
    rcases List.mem_cons.1 hm with rfl | hm
    · exact k1 o (List.mem_append_left _ ho)
    · exact k2 m hm o ho

theorem bad_walk : ∀ (p : List (Node α)) (c c' : Conv α), c.walk p = some c' → (c.bad = true ∨ ∃ fn args out, Node.other .unknown fn args out ∈ p) → c'.bad = true
  | [], c, c', h, hb => by
    obtain rfl := Option.some.inj h
    rcases hb with hb | ⟨_, _, _, hb⟩
    · exact hb
    · cases hb
  | n :: p, c, c', h, hb => by
    obtain ⟨c1, h1, h2⟩ := Option.bind_eq_some_iff.1 h
    refine bad_walk p c1 c' h2 ?_
    unfold Conv.step at h1
    obtain ⟨d, _, hd⟩ := Option.map_eq_some_iff.1 h1
    rcases hb with hb | ⟨fn, args, out, hb⟩
    · left
      subst hd
      cases n <;> simp only <;> repeat' split
      all_goals simp [hb]
    · rcases List.mem_cons.1 hb with rfl | hb
      · left
        subst hd
        simp
      · exact Or.inr ⟨fn, args, out, hb⟩

end Verif.Props.Frozen

namespace Verif.Props
open Verif.Spec.Frozen Verif.Model.Frozen Verif.Props.Frozen

variable {α S : Type} [Inhabited α]

/-- C118, in part: the converted model computes what the model computes, for all inputs of the shapes it was converted with, if where the converter does not follow values only shapes are read.
Missing: operators listed as not tracked that return values (`C118_detach_false`), elements of lists picked by index (`C118_getitem_false`), lists put together and taken apart (`C118_unpack_false`), unknown operators in custom functions (`C118_hidden_false`). -/
theorem C118_partial (shape : α → S) (inputs : List ℕ) (d x : ℕ → α) (hshape : ∀ n ∈ inputs, shape (x n) = shape (d n)) (p : List (Node α)) (hsc : Scoped inputs p) (hcl : Clean shape (fun n => inputs.contains n) (fun _ => none) p)
    (c : Conv α) (hc : convert inputs (fun n => .one (d n)) p = some c) :
    ∃ env, run (fun n => .one (x n)) p = some env ∧ (∀ o ∈ inputs, c.result x o = (env o).items) ∧ ∀ n ∈ p, ∀ o ∈ n.defs, c.result x o = (env o).items := by
  unfold convert at hc
  split at hc
  · rename_i c1 hw
    split at hc
    · cases hc
    · obtain rfl := Option.some.inj hc
      have hin : Inv shape inputs (fun n => inputs.contains n) (fun _ => none) ⟨fun n => .one (d n), fun n => inputs.contains n, fun _ => none, [], false⟩ (fun n => .one (x n)) (exec x []) := by
        refine ⟨fun n hn => ?_, fun n hn => by simp [Val.shape, hshape n hn], fun n _ => rfl, fun n hn => ⟨by simpa using hn, rfl⟩, fun n _ names hi => by cases hi⟩
        exact operand_tensor (by simpa using hn) rfl _
      obtain ⟨env, known, dep, made, hr, hi, k1, k2⟩ := walk_spec p _ _ _ _ _ _ hin hsc hcl hw
      refine ⟨env, hr, fun o ho => ?_, fun n hn o ho => ?_⟩
      · rw [Conv.result, hi.val o (k1 o ho)]
      · rw [Conv.result, hi.val o (k2 n hn o ho)]
  · cases hc

/-- An unknown operator is an error. -/
theorem C118_unknown (inputs : List ℕ) (d : ℕ → α) (p : List (Node α)) (fn : List (Val α) → Val α) (args : List ℕ) (out : ℕ) (h : Node.other .unknown fn args out ∈ p) : convert inputs (fun n => .one (d n)) p = none := by
  unfold convert
  split
  · rename_i c hw
    rw [bad_walk p _ _ hw (Or.inr ⟨fn, args, out, h⟩)]
    rfl
  · rfl

/-- `x.detach() + 0`: the value of the dummy input. -/
theorem C118_detach_false : ∃ (p : List (Node Int)) (c : Conv Int) (env : ℕ → Val Int), convert [0] (fun _ => .one 9) p = some c ∧ run (fun _ => .one 5) p = some env ∧ Scoped [0] p ∧ (env 2).items = [5] ∧ c.result (fun _ => 5) 2 = [9] :=
  ⟨[.other .listed (fun vs => vs.headD (.one 0)) [0] 1, .op (fun vs => (vs.flatMap Val.items).sum) [1] 2], _, _, rfl, rfl, by simp [Scoped, Node.reads, Node.defs], rfl, rfl⟩

/-- `x.split(1)[0] + 0` in a scripted model: the value of the dummy input. -/
theorem C118_getitem_false : ∃ (p : List (Node Int)) (c : Conv Int) (env : ℕ → Val Int), convert [0] (fun _ => .one 9) p = some c ∧ run (fun _ => .one 5) p = some env ∧ Scoped [0] p ∧ (env 4).items = [5] ∧ c.result (fun _ => 5) 4 = [9] :=
  ⟨[.listOp (fun vs => vs.flatMap Val.items) [0] 1 [2], .getItem 1 0 3, .op (fun vs => (vs.flatMap Val.items).sum) [3] 4], _, _, rfl, rfl, by simp [Scoped, Node.reads, Node.defs], rfl, rfl⟩

/-- A list put together from an input and a constant and taken apart: the constant is lost, even for the dummy input. -/
theorem C118_unpack_false : ∃ (p : List (Node Int)) (c : Conv Int) (env : ℕ → Val Int), convert [0] (fun _ => .one 9) p = some c ∧ run (fun _ => .one 9) p = some env ∧ Scoped [0] p ∧ (env 4).items = [7] ∧ c.result (fun _ => 9) 4 = [0] :=
  ⟨[.other .listed (fun _ => .one 7) [] 1, .construct [0, 1] 2, .unpack 2 [3, 4]], _, _, rfl, rfl, by simp [Scoped, Node.reads, Node.defs], rfl, rfl⟩

/-- An unknown operator in a custom function: no error, and the value of the dummy input. -/
theorem C118_hidden_false : ∃ (p : List (Node Int)) (c : Conv Int) (env : ℕ → Val Int), convert [0] (fun _ => .one 9) p = some c ∧ run (fun _ => .one 5) p = some env ∧ Scoped [0] p ∧ (env 3).items = [6] ∧ c.result (fun _ => 5) 3 = [10] :=
  ⟨[.copy 0 1, .other .hidden (fun vs => .one ((vs.flatMap Val.items).sum + 1)) [1] 2, .copy 2 3], _, _, rfl, rfl, by simp [Scoped, Node.reads, Node.defs], rfl, rfl⟩

/-- A case that meets the hypotheses: a list of tensors is cut in two, one half is multiplied by a constant, both are put together with another constant. The shape is the number of elements. -/
example : ∃ (p : List (Node (List Int))) (c : Conv (List Int)), Scoped [0] p ∧ Clean List.length (fun n => [0].contains n) (fun _ => none) p ∧ convert [0] (fun _ => .one [1, 2, 3]) p = some c ∧ c.ops.length = 5 ∧ c.result (fun _ => [4, 5, 6]) 8 = [[4, 50, 60, 3]] := by
  refine ⟨[.other .listed (fun vs => .one [((vs.flatMap Val.items).flatten.length : Int)]) [0] 1, .listOp (fun vs => [(vs.flatMap Val.items).flatten.take 1, (vs.flatMap Val.items).flatten.drop 1]) [0] 2 [3, 4], .unpack 2 [5, 6],
    .op (fun vs => (vs.flatMap Val.items).flatten.map (· * 10)) [6] 7, .construct [5, 7, 1] 9, .op (fun vs => (vs.flatMap Val.items).flatten) [9] 8], _, by simp [Scoped, Node.reads, Node.defs], ?_, rfl, rfl, rfl⟩
  have key : ∀ vs vs' : List (Val (List Int)), vs.map (Val.shape List.length) = vs'.map (Val.shape List.length) → (vs.flatMap Val.items).flatten.length = (vs'.flatMap Val.items).flatten.length := by
    intro vs
    induction vs with
    | nil => intro vs' h; cases vs' with
      | nil => rfl
      | cons _ _ => simp at h
    | cons v vs ih =>
      intro vs' h
      cases vs' with
      | nil => simp at h
      | cons w vs' =>
        rw [List.map_cons, List.map_cons, List.cons.injEq] at h
        have h1 : v.items.flatten.length = w.items.flatten.length := by
          have := h.1
          cases v <;> cases w <;> simp [Val.shape, Val.items] at this ⊢
          · exact this
          · rw [this]
        have h2 := ih vs' h.2
        rw [List.flatMap_cons, List.flatMap_cons, List.flatten_append, List.flatten_append, List.length_append, List.length_append, h1, h2]
  refine ⟨Or.inr fun vs vs' h => (by simp only [key vs vs' h]), by simp, fun vs vs' h => ?_, by simp, fun vs vs' h => ?_, fun vs vs' h => ?_, trivial⟩
  · simp only [List.map_cons, List.map_nil, List.length_take, List.length_drop, key vs vs' h]
  · simp only [List.length_map, key vs vs' h]
  · simp only [key vs vs' h]

end Verif.Props
