import Verif.Model.CatSplit
import Mathlib.Tactic.Ring
import Mathlib.Data.List.Nodup

/-! C22: splitting a wide concatenation into a tree of concatenations. -/

namespace Verif.Props
open Verif.Spec Verif.Model

variable {α : Type} [Inhabited α]

/-- `us` and `ts` have the same concatenation along `a`. -/
private structure CatEq (a : Nat) (us ts : List (Tensor α)) : Prop where
  get : ∀ x idx, a < idx.length → concatGet a us x idx = concatGet a ts x idx
  size : (us.map (fun u => u.size a)).sum = (ts.map (fun u => u.size a)).sum
  shape : ∀ c, (us.head?.map (fun t => t.shape.set a c)) = (ts.head?.map (fun t => t.shape.set a c))

private theorem CatEq.rfl' {a : Nat} {us : List (Tensor α)} : CatEq a us us := ⟨fun _ _ _ => rfl, rfl, fun _ => rfl⟩

private theorem CatEq.trans {a : Nat} {us ts vs : List (Tensor α)} (h : CatEq a us ts) (h' : CatEq a ts vs) : CatEq a us vs :=
  ⟨fun x idx hi => (h.get x idx hi).trans (h'.get x idx hi), h.size.trans h'.size, fun c => (h.shape c).trans (h'.shape c)⟩

private theorem concatGet_append (a : Nat) (c r : List (Tensor α)) (x : Nat) (idx : List Nat) :
    concatGet a (c ++ r) x idx = if x < (c.map (fun u => u.size a)).sum then concatGet a c x idx
      else concatGet a r (x - (c.map (fun u => u.size a)).sum) idx := by
  induction c generalizing x with
  | nil => simp
  | cons t c ih =>
    simp only [List.cons_append, concatGet, List.map_cons, List.sum_cons]
    by_cases h : x < t.size a
    · rw [if_pos h, if_pos h, if_pos (by omega)]
    · rw [if_neg h, if_neg h, ih]
      by_cases h2 : x - t.size a < (c.map (fun u => u.size a)).sum
      · rw [if_pos h2, if_pos (by omega)]
      · rw [if_neg h2, if_neg (by omega)]
        congr 1; omega

private theorem concatGet_set (a : Nat) (c : List (Tensor α)) (x y : Nat) (idx : List Nat) :
    concatGet a c x (idx.set a y) = concatGet a c x idx := by
  induction c generalizing x with
  | nil => rfl
  | cons t c ih => simp only [concatGet, List.set_set, ih]

private theorem size_concat {a : Nat} {c : List (Tensor α)} (hc : c ≠ []) (hr : ∀ t ∈ c, a < t.shape.length) :
    (concat a c).size a = (c.map (fun u => u.size a)).sum := by
  cases c with
  | nil => exact absurd rfl hc
  | cons t c =>
    have := hr t (by simp)
    simp [concat, Tensor.size, this]

private theorem rank_concat {a : Nat} {c : List (Tensor α)} (hc : c ≠ []) (hr : ∀ t ∈ c, a < t.shape.length) :
    a < (concat a c).shape.length := by
  cases c with
  | nil => exact absurd rfl hc
  | cons t c => simpa [concat] using hr t (by simp)

/-- Replacing a block of tensors by its concatenation. -/
private theorem catEq_block {a : Nat} {c r us : List (Tensor α)} (hc : c ≠ []) (hr : ∀ t ∈ c, a < t.shape.length)
    (h : CatEq a us r) : CatEq a (concat a c :: us) (c ++ r) where
  get := by
    intro x idx hi
    rw [concatGet_append]
    simp only [concatGet, size_concat hc hr]
    split
    · show concatGet a c ((idx.set a x).getD a 0) (idx.set a x) = _
      rw [concatGet_set]
      congr 1
      simp [List.getD, hi]
    · rw [h.get _ _ hi]
  size := by simp [size_concat hc hr, h.size]
  shape := by
    intro k
    cases c with
    | nil => exact absurd rfl hc
    | cons t c => simp [concat]

private theorem mapM_append' {β γ : Type} (f : β → Option γ) (l r : List β) {us vs : List γ}
    (h1 : l.mapM f = some us) (h2 : r.mapM f = some vs) : (l ++ r).mapM f = some (us ++ vs) := by
  simp [List.mapM_append, h1, h2]

private theorem mapM_congr {β γ : Type} {f g : β → Option γ} {l : List β} (h : ∀ x ∈ l, f x = g x) :
    l.mapM f = l.mapM g := by
  induction l with
  | nil => rfl
  | cons b l ih =>
    simp only [List.mapM_cons]
    rw [h b (by simp), ih (fun x hx => h x (by simp [hx]))]

private theorem mapM_split {β γ : Type} {f : β → Option γ} {l : List β} {ts : List γ} (k : Nat) (h : l.mapM f = some ts) :
    (l.take k).mapM f = some (ts.take k) ∧ (l.drop k).mapM f = some (ts.drop k) := by
  induction l generalizing ts k with
  | nil => simp at h; subst h; simp
  | cons b l ih =>
    simp only [List.mapM_cons] at h
    cases hb : f b with
    | none => simp [hb] at h
    | some y =>
      cases hl : l.mapM f with
      | none => simp [hb, hl] at h
      | some ys =>
        simp [hb, hl] at h
        subst h
        cases k with
        | zero => simp [hb, hl]
        | succ k => simp [hb, (ih k hl).1, (ih k hl).2]

private theorem mapM_length {β γ : Type} {f : β → Option γ} {l : List β} {ts : List γ} (h : l.mapM f = some ts) :
    ts.length = l.length := by
  induction l generalizing ts with
  | nil => simp at h; subst h; rfl
  | cons b l ih =>
    simp only [List.mapM_cons] at h
    cases hb : f b with
    | none => simp [hb] at h
    | some y =>
      cases hl : l.mapM f with
      | none => simp [hb, hl] at h
      | some ys =>
        simp [hb, hl] at h
        subst h
        simp [ih hl]

/-- Tensors a layer may read: created before, and not the final output. -/
private def OldRef (fresh : Nat) : TRef → Prop
  | .inp _ => True
  | .tmp k => k < fresh
  | .out => False

private theorem OldRef.mono {f f' : Nat} (h : f ≤ f') {r : TRef} (hr : OldRef f r) : OldRef f' r := by
  cases r with
  | inp => trivial
  | tmp k => exact Nat.lt_of_lt_of_le hr h
  | out => exact hr

private theorem catLayer_nil (axis : Nat) (last : Bool) (fresh : Nat) : catLayer axis last fresh [] = ([], [], fresh) := by
  rw [catLayer]; simp

private theorem catLayer_inner {axis fresh : Nat} {l : List TRef} (h : l ≠ []) :
    catLayer axis false fresh l =
      (⟨l.take 10, .tmp fresh, axis⟩ :: (catLayer axis false (fresh + 1) (l.drop 10)).1,
       .tmp fresh :: (catLayer axis false (fresh + 1) (l.drop 10)).2.1, (catLayer axis false (fresh + 1) (l.drop 10)).2.2) := by
  rw [catLayer]; simp [h]

/-- Shape of the result of an inner layer. -/
private theorem layer_shape (axis : Nat) : ∀ (n : Nat) (l : List TRef) (fresh : Nat), l.length ≤ n →
    (catLayer axis false fresh l).2.1 = (List.range' fresh ((l.length + 9) / 10)).map TRef.tmp ∧
    (catLayer axis false fresh l).2.2 = fresh + (l.length + 9) / 10 ∧
    (catLayer axis false fresh l).1.map CatOp.output = (catLayer axis false fresh l).2.1 ∧
    (∀ op ∈ (catLayer axis false fresh l).1, op.inputs ≠ [] ∧ op.inputs.length ≤ 10 ∧ op.axis = axis) := by
  intro n
  induction n with
  | zero =>
    intro l fresh h
    have : l = [] := List.length_eq_zero_iff.1 (by omega)
    subst this
    simp [catLayer_nil]
  | succ n ih =>
    intro l fresh h
    by_cases hl : l = []
    · subst hl; simp [catLayer_nil]
    · have hpos := List.length_pos_iff.2 hl
      obtain ⟨h1, h2, h3, h4⟩ := ih (l.drop 10) (fresh + 1) (by simp; omega)
      have hk : (l.length + 9) / 10 = ((l.drop 10).length + 9) / 10 + 1 := by simp only [List.length_drop]; omega
      rw [catLayer_inner hl]
      refine ⟨?_, ?_, ?_, ?_⟩
      · simp only [h1]
        rw [hk, List.range'_succ]
        simp
      · simp only [h2]; omega
      · simp [h3]
      · intro op hop
        simp only [List.mem_cons] at hop
        rcases hop with rfl | hop
        · refine ⟨?_, ?_, rfl⟩
          · simp [hl]
          · simp only [List.length_take]; omega
        · exact h4 op hop

/-- Running an inner layer. -/
private theorem layer_run (axis : Nat) : ∀ (n : Nat) (l : List TRef) (fresh : Nat) (env : TRef → Option (Tensor α))
    (ts : List (Tensor α)), l.length ≤ n → (∀ r ∈ l, OldRef fresh r) → l.mapM env = some ts →
    (∀ t ∈ ts, axis < t.shape.length) →
    ∃ env' us, execCat env (catLayer axis false fresh l).1 = some env' ∧
      (catLayer axis false fresh l).2.1.mapM env' = some us ∧ CatEq axis us ts ∧ (∀ t ∈ us, axis < t.shape.length) ∧
      (∀ r, OldRef fresh r → env' r = env r) := by
  intro n
  induction n with
  | zero =>
    intro l fresh env ts h _ hm _
    have : l = [] := List.length_eq_zero_iff.1 (by omega)
    subst this
    simp at hm
    subst hm
    exact ⟨env, [], by simp [catLayer_nil, execCat], by simp [catLayer_nil], CatEq.rfl', by simp, fun _ _ => rfl⟩
  | succ n ih =>
    intro l fresh env ts h hold hm hrank
    by_cases hl : l = []
    · subst hl
      simp at hm
      subst hm
      exact ⟨env, [], by simp [catLayer_nil, execCat], by simp [catLayer_nil], CatEq.rfl', by simp, fun _ _ => rfl⟩
    · have hpos := List.length_pos_iff.2 hl
      have hlen := mapM_length hm
      obtain ⟨hm1, hm2⟩ := mapM_split 10 hm
      let env1 : TRef → Option (Tensor α) := fun r => if r = .tmp fresh then some (concat axis (ts.take 10)) else env r
      have hold1 : ∀ r, OldRef fresh r → env1 r = env r := by
        intro r hr
        have : r ≠ .tmp fresh := by
          rintro rfl
          exact Nat.lt_irrefl _ hr
        simp [env1, this]
      have hm2' : (l.drop 10).mapM env1 = some (ts.drop 10) := by
        rw [mapM_congr (g := env) (fun r hr => hold1 r (hold r (List.mem_of_mem_drop hr)))]
        exact hm2
      obtain ⟨env', us, e1, e2, e3, e4, e5⟩ := ih (l.drop 10) (fresh + 1) env1 (ts.drop 10) (by simp; omega)
        (fun r hr => (hold r (List.mem_of_mem_drop hr)).mono (by omega)) hm2'
        (fun t ht => hrank t (List.mem_of_mem_drop ht))
      have htake : ts.take 10 ≠ [] := by
        intro hh
        have := congrArg List.length hh
        simp at this
        have hz : ts.length ≠ 0 := by omega
        exact hz (by simp [this])
      have hrank10 : ∀ t ∈ ts.take 10, axis < t.shape.length := fun t ht => hrank t (List.mem_of_mem_take ht)
      refine ⟨env', concat axis (ts.take 10) :: us, ?_, ?_, ?_, ?_, ?_⟩
      · rw [catLayer_inner hl]
        simp only [execCat, hm1]
        exact e1
      · rw [catLayer_inner hl]
        have : env' (.tmp fresh) = some (concat axis (ts.take 10)) := by
          rw [e5 (.tmp fresh) (Nat.lt_succ_self _)]
          simp [env1]
        simp [this, e2]
      · have := catEq_block htake hrank10 e3
        rwa [List.take_append_drop] at this
      · intro t ht
        rcases List.mem_cons.1 ht with rfl | ht
        · exact rank_concat htake hrank10
        · exact e4 t ht
      · intro r hr
        rw [e5 r (hr.mono (by omega)), hold1 r hr]

private theorem catLayer_last {axis fresh : Nat} {l : List TRef} (h : l ≠ []) (h10 : l.length ≤ 10) :
    catLayer axis true fresh l = ([⟨l, .out, axis⟩], [], fresh) := by
  have hd : l.drop 10 = [] := List.drop_eq_nil_of_le h10
  have ht : l.take 10 = l := List.take_of_length_le h10
  rw [catLayer]
  simp [h, ht, hd, catLayer_nil]

private theorem execCat_append (env : TRef → Option (Tensor α)) (p q : List CatOp) :
    execCat env (p ++ q) = (execCat env p).bind (fun e => execCat e q) := by
  induction p generalizing env with
  | nil => rfl
  | cons op p ih =>
    simp only [List.cons_append, execCat]
    cases op.inputs.mapM env with
    | none => rfl
    | some ts => exact ih _

/-- What the outer loop delivers. -/
private theorem loop_run (axis : Nat) : ∀ (n : Nat) (l : List TRef) (fresh : Nat), l.length ≤ n → l ≠ [] →
    (∀ r ∈ l, OldRef fresh r) →
    ∃ ops, (∀ fuel, n < fuel → catLoop axis fuel false fresh l = some ops) ∧
      (∀ op ∈ ops, op.inputs ≠ [] ∧ op.inputs.length ≤ 10 ∧ op.axis = axis) ∧
      (ops.map CatOp.output).Nodup ∧ (∀ op ∈ ops, ¬ OldRef fresh op.output) ∧
      ∀ (env : TRef → Option (Tensor α)) (ts : List (Tensor α)), l.mapM env = some ts → (∀ t ∈ ts, axis < t.shape.length) →
        ∃ env' us, execCat env ops = some env' ∧ env' .out = some (concat axis us) ∧ CatEq axis us ts := by
  intro n
  induction n with
  | zero =>
    intro l fresh h hne
    exact absurd (List.length_eq_zero_iff.1 (by omega)) hne
  | succ n ih =>
    intro l fresh h hne hold
    have hpos := List.length_pos_iff.2 hne
    obtain ⟨s1, s2, s3, s4⟩ := layer_shape axis l.length l fresh (le_refl _)
    have hrun := fun env ts => layer_run (α := α) axis l.length l fresh env ts (le_refl _) hold
    have hstep : ∀ f, catLoop axis (f + 1) false fresh l =
        (let (ops, outs, fresh') := catLayer axis false fresh l
         if outs.length = 0 then some ops
         else if outs.length ≤ 10 then (catLoop axis f true fresh' outs).map (ops ++ ·)
         else (catLoop axis f false fresh' outs).map (ops ++ ·)) := fun f => rfl
    revert s1 s2 s3 s4 hrun hstep
    generalize catLayer axis false fresh l = res
    obtain ⟨ops, outs, fresh'⟩ := res
    intro s1 s2 s3 s4 hrun hstep
    simp only at s1 s2 s3 s4 hrun
    have hol : outs.length = (l.length + 9) / 10 := by rw [s1]; simp
    have hone : outs ≠ [] := by
      intro hh; rw [hh] at hol; simp at hol; omega
    have houts : ∀ r ∈ outs, OldRef fresh' r ∧ ¬ OldRef fresh r := by
      intro r hr
      rw [s1] at hr
      simp only [List.mem_map, List.mem_range'_1] at hr
      obtain ⟨k, hk, rfl⟩ := hr
      constructor
      · show k < fresh'
        omega
      · show ¬ k < fresh
        omega
    have hnd : outs.Nodup := by
      rw [s1]
      refine List.Nodup.map ?_ List.nodup_range'
      intro x y hxy
      exact TRef.tmp.inj hxy
    have hopsnew : ∀ op ∈ ops, op.output ∈ outs := fun op hop => by
      rw [← s3]; exact List.mem_map_of_mem hop
    simp only [show outs.length ≠ 0 by omega, if_false] at hstep
    by_cases h10 : outs.length ≤ 10
    · refine ⟨ops ++ [⟨outs, .out, axis⟩], ?_, ?_, ?_, ?_, ?_⟩
      · intro fuel hf
        obtain ⟨f', rfl⟩ : ∃ f', fuel = f' + 1 + 1 := ⟨fuel - 2, by omega⟩
        rw [hstep]
        simp only [h10, if_true]
        unfold catLoop
        simp [catLayer_last hone h10]
      · intro op hop
        rcases List.mem_append.1 hop with hop | hop
        · exact s4 op hop
        · simp only [List.mem_singleton] at hop
          subst hop
          exact ⟨hone, h10, rfl⟩
      · simp only [List.map_append, s3, List.map_cons, List.map_nil]
        refine List.nodup_append.2 ⟨hnd, by simp, ?_⟩
        intro r hr b hb
        simp only [List.mem_singleton] at hb
        subst hb
        rintro rfl
        exact (houts _ hr).1
      · intro op hop
        rcases List.mem_append.1 hop with hop | hop
        · exact (houts _ (hopsnew op hop)).2
        · simp only [List.mem_singleton] at hop
          subst hop
          exact fun hh => hh
      · intro env ts hm hrank
        obtain ⟨env1, us, e1, e2, e3, _, _⟩ := hrun env ts hm hrank
        refine ⟨fun r => if r = .out then some (concat axis us) else env1 r, us, ?_, ?_, e3⟩
        · rw [execCat_append, e1]
          simp only [Option.bind_some, execCat, e2]
        · simp
    · obtain ⟨ops2, q1, q2, q3, q4, q5⟩ := ih outs fresh' (by omega) hone (fun r hr => (houts r hr).1)
      refine ⟨ops ++ ops2, ?_, ?_, ?_, ?_, ?_⟩
      · intro fuel hf
        obtain ⟨f', rfl⟩ : ∃ f', fuel = f' + 1 := ⟨fuel - 1, by omega⟩
        rw [hstep]
        simp [h10, q1 f' (by omega)]
      · intro op hop
        rcases List.mem_append.1 hop with hop | hop
        · exact s4 op hop
        · exact q2 op hop
      · rw [List.map_append, s3]
        refine List.nodup_append.2 ⟨hnd, q3, ?_⟩
        intro r hr b hb
        obtain ⟨op, hop, rfl⟩ := List.mem_map.1 hb
        rintro rfl
        exact q4 op hop (houts _ hr).1
      · intro op hop
        rcases List.mem_append.1 hop with hop | hop
        · exact (houts _ (hopsnew op hop)).2
        · intro hh
          exact q4 op hop (hh.mono (by omega))
      · intro env ts hm hrank
        obtain ⟨env1, us, e1, e2, e3, e4, _⟩ := hrun env ts hm hrank
        obtain ⟨env2, vs, d1, d2, d3⟩ := q5 env1 us e2 e4
        refine ⟨env2, vs, ?_, d2, d3.trans e3⟩
        rw [execCat_append, e1]
        exact d1

private theorem mapM_of_get (env : TRef → Option (Tensor α)) : ∀ (l : List TRef) (xs : List (Tensor α)), l.length = xs.length →
    (∀ i (h1 : i < l.length) (h2 : i < xs.length), env l[i] = some xs[i]) → l.mapM env = some xs
  | [], [], _, _ => rfl
  | [], _ :: _, h, _ => by simp at h
  | _ :: _, [], h, _ => by simp at h
  | r :: l, x :: xs, h, hg => by
    have h0 := hg 0 (by simp) (by simp)
    have hr := mapM_of_get env l xs (by simpa using h) (fun i h1 h2 => by
      have := hg (i + 1) (by simpa using h1) (by simpa using h2)
      simpa using this)
    simp only [List.getElem_cons_zero] at h0
    simp [h0, hr]

private theorem mapM_catEnv (xs : List (Tensor α)) : ((List.range xs.length).map TRef.inp).mapM (catEnv xs) = some xs := by
  refine mapM_of_get _ _ _ (by simp) ?_
  intro i h1 h2
  simp [catEnv]

/-- C22.  For every concatenation with more than ten inputs, of any valid shapes and contents: the rewriting terminates (fuel
above the number of inputs is enough); every emitted operator concatenates between one and ten tensors along the same axis; no
tensor is written twice; no operator reads a tensor before it is written; and the tensor left in the original output is the
concatenation of all inputs in their order. -/
theorem C22_cat_split (axis : Nat) (xs : List (Tensor α)) (hlarge : isLargeCat xs.length = true)
    (hc : Concatenable axis xs) :
    ∃ ops, (∀ fuel, xs.length < fuel → catSplit axis xs.length fuel = some ops) ∧
      (∀ op ∈ ops, op.inputs ≠ [] ∧ op.inputs.length ≤ 10 ∧ op.axis = axis) ∧ (ops.map CatOp.output).Nodup ∧
      ∃ env' t, execCat (catEnv xs) ops = some env' ∧ env' .out = some t ∧ Same t (concat axis xs) := by
  have hn : 10 < xs.length := by simpa [isLargeCat] using hlarge
  obtain ⟨s, hs, hsh⟩ := hc
  have hrank : ∀ t ∈ xs, axis < t.shape.length := by
    intro t ht
    rw [hsh t ht]
    simpa using hs
  obtain ⟨ops, q1, q2, q3, _, q5⟩ := loop_run (α := α) axis xs.length ((List.range xs.length).map .inp) 0 (by simp)
    (by intro hh; have := congrArg List.length hh; simp at this; simp [this] at hn)
    (by intro r hr; obtain ⟨k, _, rfl⟩ := List.mem_map.1 hr; trivial)
  obtain ⟨env', us, e1, e2, e3⟩ := q5 (catEnv xs) xs (mapM_catEnv xs) hrank
  refine ⟨ops, q1, q2, q3, env', _, e1, e2, ?_, ?_⟩
  · have h1 := e3.shape (us.map (fun u => u.size axis)).sum
    have h2 := e3.size
    cases us with
    | nil => cases xs with
      | nil => rfl
      | cons t ts => simp at h1
    | cons u us => cases xs with
      | nil => simp at h1
      | cons t ts =>
        simp only [List.head?_cons, Option.map_some, Option.some.injEq] at h1
        simp only [concat]
        rw [h1, h2]
  · intro idx hidx
    have hl := hidx.length_eq
    have : axis < idx.length := by
      rw [hl]
      cases us with
      | nil =>
        have h1 := e3.shape 0
        cases xs with
        | nil => simp at hn
        | cons t ts => simp at h1
      | cons u us =>
        have h1 := e3.shape 0
        cases xs with
        | nil => simp at hn
        | cons t ts =>
          simp only [List.head?_cons, Option.map_some, Option.some.injEq] at h1
          have h3 := congrArg List.length h1
          simp only [List.length_set] at h3
          simp only [concat, List.length_set, h3]
          exact hrank t (by simp)
    exact e3.get _ _ this

/-- The hypotheses are met by twelve vectors of lengths 0 to 11; the first layer has two operators, the second one. -/
example : isLargeCat ((List.range 12).map (fun k => (⟨[k], fun _ => k⟩ : Tensor Nat))).length = true ∧
    Concatenable 0 ((List.range 12).map (fun k => (⟨[k], fun _ => k⟩ : Tensor Nat))) := by
  refine ⟨by decide, [0], by decide, ?_⟩
  intro t ht
  obtain ⟨k, _, rfl⟩ := List.mem_map.1 ht
  simp [Tensor.size]

end Verif.Props
