import Verif.Model.Noop
import Verif.Lemmas.Tensor
import Mathlib.Tactic.Ring
import Mathlib.Data.List.Nodup

/-!
C93: operators that are dropped as doing nothing return their input, and operators evaluated while converting leave every result as it was.
-/

namespace Verif.Props
open Verif.Spec Verif.Spec.Noop Verif.Model.Noop Verif.Lemmas

/-- A strictly increasing list of `n` numbers below `n` is `0, 1, …, n - 1`. -/
theorem increasing_range {n : ℕ} {l : List ℕ} (hl : l.length = n) (hb : ∀ i < n, l.getD i 0 < n) (hi : ∀ i, i + 1 < n → l.getD i 0 < l.getD (i + 1) 0) : l = List.range n := by
  have lo : ∀ i, i < n → i ≤ l.getD i 0 := by
    intro i
    induction i with
    | zero => intro _; omega
    | succ i ih => intro h; have := ih (by omega); have := hi i h; omega
  have up : ∀ k i, i + k + 1 = n → l.getD i 0 ≤ i := by
    intro k
    induction k with
    | zero => intro i h; have := hb i (by omega); omega
    | succ k ih => intro i h; have := ih (i + 1) (by omega); have := hi i (by omega); omega
  refine ext_getD (by simp [hl]) fun i h => ?_
  have h1 := lo i (by omega)
  have h2 := up (n - 1 - i) i (by omega)
  rw [getD_eq_getElem (List.range n) i 0 (by simpa [hl] using h)]
  simp only [List.getElem_range]
  omega

theorem same_of_get {α : Type} {a t : Tensor α} (hs : a.shape = t.shape) (h : ∀ idx, InBounds t.shape idx → a.get idx = t.get idx) : Same a t :=
  ⟨hs, fun idx hi => h idx (hs ▸ hi)⟩

theorem idx_range {s idx : List ℕ} (h : InBounds s idx) (f : ℕ → ℕ) (hf : ∀ a < s.length, f a = idx.getD a 0) : (List.range s.length).map f = idx := by
  have hl := inBounds_length h
  refine ext_getD (by simp [hl]) fun i hi => ?_
  have hi' : i < s.length := by simpa using hi
  rw [getD_range_map f s.length i 0 hi', hf i hi']

theorem mapM_forall₂ {A B : Type} {f : A → Option B} : ∀ {l : List A} {r : List B}, l.mapM f = some r → List.Forall₂ (fun a b => f a = some b) l r
  | [], r, h => by
    simp only [List.mapM_nil, Option.pure_def, Option.some.injEq] at h
    subst h
    exact .nil
  | a :: l, r, h => by
    simp only [List.mapM_cons, Option.bind_eq_bind, Option.bind_eq_some_iff, Option.pure_def, Option.some.injEq] at h
    obtain ⟨b, hb, r', hr, rfl⟩ := h
    exact .cons hb (mapM_forall₂ hr)

theorem mapM_of_forall₂ {A B : Type} {f : A → Option B} {l : List A} {r : List B} (h : List.Forall₂ (fun a b => f a = some b) l r) : l.mapM f = some r := by
  induction h with
  | nil => rfl
  | cons h _ ih => simp [List.mapM_cons, h, ih]

theorem mapM_range {B : Type} {f : ℕ → Option B} {n : ℕ} {r : List B} (d : B) (h : (List.range n).mapM f = some r) : r.length = n ∧ ∀ a < n, f a = some (r.getD a d) := by
  have h2 := mapM_forall₂ h
  have hl := h2.length_eq
  simp only [List.length_range] at hl
  refine ⟨hl.symm, fun a ha => ?_⟩
  have := h2.get (i := a) (by simpa using ha) (by omega)
  simp only [List.get_eq_getElem, List.getElem_range] at this
  rw [this]
  simp [List.getD, List.getElem?_eq_getElem (show a < r.length by omega)]

/-- The positions a slice takes are increasing and in range. -/
theorem positions_range {n s e step : ℕ} (hs : 0 < step) (he : e ≤ n) (hl : (positions s e step).length = n) : positions s e step = List.range n := by
  have hlen : (e - s + step - 1) / step = n := by simpa [positions] using hl
  have hget : ∀ i < n, (positions s e step).getD i 0 = s + i * step := by
    intro i hi
    unfold positions
    rw [hlen]
    exact getD_range_map _ n i 0 hi
  refine increasing_range hl (fun i hi => ?_) (fun i hi => ?_)
  · rw [hget i hi]
    have h1 : i + 1 ≤ (e - s + step - 1) / step := by omega
    have h2 := (Nat.le_div_iff_mul_le hs).1 h1
    have h3 : (i + 1) * step = i * step + step := by ring
    by_cases hse : s ≤ e
    · omega
    · omega
  · rw [hget i (by omega), hget (i + 1) hi]
    have h3 : (i + 1) * step = i * step + step := by ring
    omega

theorem takePositions_range {α : Type} (pos : List (List ℕ)) (t : Tensor α) (hp : pos.length = t.shape.length) (h : ∀ a < t.shape.length, pos.getD a [] = List.range (t.shape.getD a 0)) :
    Same (takePositions pos t) t := by
  have hsh : pos.map List.length = t.shape := by
    refine ext_getD (by simp [hp]) fun i hi => ?_
    have hi' : i < t.shape.length := by simpa [hp] using hi
    have h1 := h i hi'
    rw [getD_map_lt List.length pos i 0 [] (by omega), h1, List.length_range]
  refine same_of_get hsh fun idx hi => ?_
  show t.get _ = _
  rw [idx_range hi _ fun a ha => ?_]
  have hb := ((inBounds_iff _ _).1 hi).2 a ha
  rw [h a ha, getD_eq_getElem (List.range (t.shape.getD a 0)) _ 0 (by simpa using hb), List.getElem_range]

theorem noop_slice {α : Type} (op : IntSliceOp) (t r : Tensor α) (h : op.run t = some r) (hs : t.shape = r.shape) : Same r t := by
  have key : ∀ f : ℕ → Option (List ℕ), (∀ a p, f a = some p → p.length = t.shape.getD a 0 → p = List.range (t.shape.getD a 0)) →
      ((List.range t.shape.length).mapM f).map (takePositions · t) = some r → Same r t := by
    intro f hf hm
    obtain ⟨pos, hpos, rfl⟩ := Option.map_eq_some_iff.1 hm
    obtain ⟨hl, hg⟩ := mapM_range [] hpos
    refine takePositions_range pos t hl fun a ha => hf a _ (hg a ha) ?_
    have : t.shape = pos.map List.length := hs
    rw [this, getD_map_lt List.length pos a 0 [] (by omega)]
  cases op with
  | slice start size =>
    refine key _ ?_ h
    intro a p hp hlen
    unfold tflSlice at hp
    simp only at hp
    split_ifs at hp with h1 h2 h3 h4
    · cases hp
      exact positions_range (by omega) (by omega) hlen
    · cases hp
      exact positions_range (by omega) (by omega) hlen
  | strided start stop stride =>
    refine key _ ?_ h
    intro a p hp hlen
    unfold tflStrided at hp
    split_ifs at hp with h1
    cases hp
    exact positions_range (by omega) (by unfold clampBound; omega) hlen

theorem noop_perm {n : ℕ} {p : List ℕ} (hp : IsPerm n p) (hd : diffOnes p) : p = List.range n :=
  increasing_range hp.length (fun i hi => hp.get_lt hi) (fun i hi => by have := hd i (by rw [hp.length]; exact hi); omega)

theorem pad_zero {lo hi s : List ℕ} (h : s = (List.range s.length).map fun a => lo.getD a 0 + s.getD a 0 + hi.getD a 0) :
    ∀ a < s.length, lo.getD a 0 = 0 ∧ hi.getD a 0 = 0 := by
  intro a ha
  have : s.getD a 0 = lo.getD a 0 + s.getD a 0 + hi.getD a 0 := by
    conv_lhs => rw [h]
    rw [getD_range_map _ _ _ _ ha]
  omega

/-- The operator does nothing if its parameters are as recorded: removing it is invisible.
Missing from the full statement: parameters computed at run time, see `C93_runtime_index_false`. -/
theorem C93_noop_partial {α D : Type} (fill : α) (conv : D → D → α → α) (hconv : ∀ d x, conv d d x = x) (op : MoveOp D) (t r : Tensor α)
    (hr : op.run fill conv t = some r) (hn : isNoop t.shape r.shape op) : Same r t := by
  cases op with
  | reshape s =>
    simp only [MoveOp.run] at hr
    split_ifs at hr with h
    cases hr
    have hs : t.shape = s := hn
    subst hs
    exact reshape_self t
  | transpose p =>
    simp only [MoveOp.run] at hr
    split_ifs at hr with h
    cases hr
    rw [noop_perm h hn]
    exact transpose_id t
  | pad lo hi =>
    simp only [MoveOp.run, Option.some.injEq] at hr
    subst hr
    have hz := pad_zero (lo := lo) (hi := hi) hn
    refine same_of_get hn.symm fun idx hi => ?_
    have hb := (inBounds_iff _ _).1 hi
    show (if _ then _ else _) = _
    rw [if_pos fun a ha => by rw [(hz a ha).1]; have := hb.2 a ha; omega]
    rw [idx_range hi _ fun a ha => by rw [(hz a ha).1]; omega]
  | mirrorPad lo hi =>
    simp only [MoveOp.run, Option.some.injEq] at hr
    subst hr
    have hz := pad_zero (lo := lo) (hi := hi) hn
    refine same_of_get hn.symm fun idx hi => ?_
    have hb := (inBounds_iff _ _).1 hi
    show t.get _ = _
    rw [idx_range hi _ fun a ha => by
      rw [(hz a ha).1]
      have := hb.2 a ha
      rw [if_neg (by omega), if_pos (by omega)]
      omega]
  | tile m =>
    simp only [MoveOp.run] at hr
    split_ifs at hr with h
    cases hr
    refine same_of_get hn.symm fun idx hi => ?_
    have hb := (inBounds_iff _ _).1 hi
    show t.get _ = _
    congr 1
    rw [h, Nat.sub_self, List.drop_zero]
    refine ext_getD (by simp [hb.1]) fun i hi' => ?_
    have hi2 : i < t.shape.length := by simp [hb.1] at hi'; exact hi'
    rw [getD_eq_getElem _ i 0 hi', List.getElem_zipWith, ← getD_eq_getElem idx i 0 (by omega), ← getD_eq_getElem t.shape i 0 hi2]
    exact Nat.mod_eq_of_lt (hb.2 i hi2)
  | slice op => exact noop_slice op t r hr hn
  | concat =>
    simp only [MoveOp.run, Option.some.injEq] at hr
    subst hr
    exact Same.refl t
  | gather a ix =>
    simp only [MoveOp.run] at hr
    split_ifs at hr with h
    cases hr
    obtain ⟨hs, hd⟩ := hn
    obtain ⟨ha, hb⟩ := h
    have hs' : t.shape = t.shape.take a ++ ix.shape ++ t.shape.drop (a + 1) := hs
    have hl := congrArg List.length hs'
    simp only [List.length_append, List.length_take, List.length_drop] at hl
    obtain ⟨n, hix⟩ := List.length_eq_one_iff.1 (show ix.shape.length = 1 by omega)
    have hn : n = t.shape.getD a 0 := by
      conv_rhs => rw [hs', hix]
      rw [List.append_assoc, List.getD_eq_getElem?_getD, List.getElem?_append_right (by simp)]
      simp [Nat.min_eq_left ha.le]
    have hrange : ∀ k < n, ix.get [k] = k := by
      have e := increasing_range (n := n) (l := (List.range n).map fun k => ix.get [k]) (by simp)
        (fun i hi => by
          rw [getD_range_map _ _ _ _ hi]
          have := hb [i] (by rw [hix]; exact .cons hi .nil)
          omega)
        (fun i hi => by
          rw [getD_range_map _ _ _ _ (by omega), getD_range_map _ _ _ _ hi]
          have := hd [] i (by rw [hix]; exact .cons hi .nil)
          simp only [List.nil_append] at this
          omega)
      intro k hk
      have h2 := congrArg (fun l => l.getD k 0) e
      simp only [getD_range_map _ _ _ _ hk] at h2
      rw [h2, getD_eq_getElem (List.range n) k 0 (by simpa using hk), List.getElem_range]
    refine same_of_get hs.symm fun idx hi => ?_
    have hbi := (inBounds_iff _ _).1 hi
    have hai : a < idx.length := by rw [hbi.1]; exact ha
    show t.get _ = _
    rw [hix]
    simp only [List.length_singleton]
    have h1 : (idx.drop a).take 1 = [idx.getD a 0] := by
      rw [List.drop_eq_getElem_cons hai, getD_eq_getElem idx a 0 hai]
      rfl
    rw [h1, hrange _ (by rw [hn]; exact hbi.2 a ha), ← h1, ← List.drop_drop, List.append_assoc, List.take_append_drop, List.take_append_drop]
  | cast s d =>
    simp only [MoveOp.run, Option.some.injEq] at hr
    subst hr
    have : s = d := hn
    subst this
    exact ⟨rfl, fun idx _ => hconv _ _⟩

/-- Hypotheses met: a slice of the whole of a 2x3 tensor, a gather of all rows. -/
example : (∃ r, (MoveOp.slice (D := ℕ) (.slice [0, 0] [2, -1])).run 0 (fun _ _ x => x) (⟨[2, 3], fun idx => idx.sum⟩ : Tensor ℕ) = some r ∧
      isNoop (D := ℕ) [2, 3] r.shape (.slice (.slice [0, 0] [2, -1]))) ∧
    (MoveOp.gather (D := ℕ) 0 ⟨[2], fun idx => idx.getD 0 0⟩).run 0 (fun _ _ x => x) (⟨[2, 3], fun idx => idx.sum⟩ : Tensor ℕ) ≠ none ∧
    isNoop (D := ℕ) [2, 3] [2, 3] (.gather 0 ⟨[2], fun idx => idx.getD 0 0⟩) := by
  refine ⟨⟨_, rfl, rfl⟩, ?_, rfl, ?_⟩
  · simp only [MoveOp.run]
    rw [if_pos]
    · simp
    · refine ⟨by simp, fun idx h => ?_⟩
      have := ((inBounds_iff _ _).1 h).2 0 (by simp)
      simpa using this
  · intro pre i h
    have hl := inBounds_length h
    simp only [List.length_append, List.length_cons, List.length_nil] at hl
    have : pre = [] := List.length_eq_zero_iff.1 (by omega)
    subst this
    rfl

/-- With an index tensor computed at run time the operator is removed although it permutes its input: the recorded index was `[0, 1]`, the one at run time is
`[1, 0]`. -/
theorem C93_runtime_index_false : ∃ (recorded actual : Tensor ℕ) (t r : Tensor ℕ), recorded.shape = actual.shape ∧
    isNoop (D := ℕ) t.shape r.shape (.gather 0 recorded) ∧ (MoveOp.gather (D := ℕ) 0 actual).run 0 (fun _ _ x => x) t = some r ∧ ¬ Same r t := by
  refine ⟨⟨[2], fun idx => idx.getD 0 0⟩, ⟨[2], fun idx => 1 - idx.getD 0 0⟩, ⟨[2], fun idx => idx.getD 0 0⟩, gatherT 0 ⟨[2], fun idx => 1 - idx.getD 0 0⟩ ⟨[2], fun idx => idx.getD 0 0⟩,
    rfl, ⟨rfl, ?_⟩, ?_, ?_⟩
  · intro pre i h
    have hl := inBounds_length h
    simp only [List.length_append, List.length_cons, List.length_nil] at hl
    have : pre = [] := List.length_eq_zero_iff.1 (by omega)
    subst this
    rfl
  · simp only [MoveOp.run]
    rw [if_pos]
    refine ⟨by simp, fun idx h => ?_⟩
    simp only [List.getD_cons_zero]
    omega
  · intro h
    have := h.2 [0] (.cons (by decide) .nil)
    revert this
    decide

/-! ### Folding constants -/

section
variable {V : Type}

theorem listed_append (a b : List (String × V)) (m : String) : listed (a ++ b) m = (listed a m).or (listed b m) := by
  induction a with
  | nil => rfl
  | cons p a ih =>
    obtain ⟨n, v⟩ := p
    simp only [List.cons_append, listed]
    split_ifs
    · rfl
    · exact ih

theorem listed_mem {l : List (String × V)} {m : String} (h : m ∉ l.map Prod.fst) : listed l m = none := by
  induction l with
  | nil => rfl
  | cons p a ih =>
    obtain ⟨n, v⟩ := p
    simp only [List.map_cons, List.mem_cons, not_or] at h
    simp only [listed, if_neg h.1]
    exact ih h.2

/-- What the two runs have in common: the new constant `nm` has the value the folded operator computes into `d`; everything else is the same. -/
structure FoldRel (d nm : String) (v : V) (e e' : CEnv V) : Prop where
  rest : ∀ n, n ≠ d → n ≠ nm → e' n = e n
  new : e' nm = some v
  old : e d = none ∨ e d = some v

theorem foldRel_srcs {d nm : String} {v : V} {e e' : CEnv V} (hr : FoldRel d nm v e e') : ∀ {ns : List String} {vs : List V}, nm ∉ ns →
    ns.mapM e = some vs → (ns.map fun n => if n = d then nm else n).mapM e' = some vs
  | [], vs, _, h => h
  | n :: ns, vs, hn, h => by
    simp only [List.mem_cons, not_or] at hn
    simp only [List.mapM_cons, Option.bind_eq_bind, Option.bind_eq_some_iff, Option.pure_def, Option.some.injEq] at h
    obtain ⟨x, hx, ws, hw, rfl⟩ := h
    have ih := foldRel_srcs hr hn.2 hw
    have h0 : e' (if n = d then nm else n) = some x := by
      split_ifs with e1
      · subst e1
        rcases hr.old with h | h
        · rw [h] at hx; cases hx
        · rw [h] at hx; cases hx; exact hr.new
      · rw [hr.rest n e1 (fun e2 => hn.1 e2.symm)]; exact hx
    simp only [List.map_cons, List.mapM_cons, h0, ih]
    rfl

/-- Running on: the folded operator `o` is left out, the others read the new constant. -/
theorem foldRel_run {d nm : String} {v : V} {o : COp V} (hd : o.dst = d) : ∀ {ops : List (COp V)} {e e' r : CEnv V},
    FoldRel d nm v e e' → (∀ p ∈ ops, p.dst = d → p = o) → (∀ p ∈ ops, p.dst ≠ nm ∧ nm ∉ p.srcs) →
    (∀ n ∈ o.srcs, ∀ p ∈ ops, p.dst ≠ n) → (o ∈ ops → (o.srcs.mapM e).map o.fn = some v) →
    runC ops e = some r → ∃ r', runC ((ops.filter fun p => p.dst ≠ d).map (rewire d nm)) e' = some r' ∧ FoldRel d nm v r r'
  | [], e, e', r, hr, _, _, _, _, h => by
    simp only [runC, Option.some.injEq] at h
    subst h
    exact ⟨e', rfl, hr⟩
  | p :: ops, e, e', r, hr, hu, hf, hs, hv, h => by
    unfold runC at h
    cases hm : p.srcs.mapM e with
    | none => rw [hm] at h; cases h
    | some vs =>
      rw [hm] at h
      simp only at h
      have hv' : ∀ q : COp V, q.dst = p.dst → o ∈ ops → (o.srcs.mapM fun m => if m = p.dst then some (p.fn vs) else e m).map o.fn = some v := by
        intro q _ ho
        have : (o.srcs.mapM fun m => if m = p.dst then some (p.fn vs) else e m) = o.srcs.mapM e := by
          have : ∀ l : List String, (∀ n ∈ l, n ≠ p.dst) → (l.mapM fun m => if m = p.dst then some (p.fn vs) else e m) = l.mapM e := by
            intro l
            induction l with
            | nil => intro _; rfl
            | cons a l ih =>
              intro h
              simp only [List.mapM_cons, if_neg (h a List.mem_cons_self), ih fun n hn => h n (List.mem_cons_of_mem _ hn)]
          exact this _ fun n hn e1 => hs n hn p List.mem_cons_self e1.symm
        rw [this]
        exact hv (List.mem_cons_of_mem _ ho)
      by_cases hp : p.dst = d
      · have hpo := hu p List.mem_cons_self hp
        subst hpo
        have hval := hv List.mem_cons_self
        rw [hm] at hval
        simp only [Option.map_some, Option.some.injEq] at hval
        have hr2 : FoldRel d nm v (fun m => if m = p.dst then some (p.fn vs) else e m) e' :=
          ⟨fun n h1 h2 => by rw [if_neg (by rw [hp]; exact h1)]; exact hr.rest n h1 h2, hr.new, Or.inr (by rw [if_pos hp.symm, hval])⟩
        have := foldRel_run hd hr2 (fun q hq => hu q (List.mem_cons_of_mem _ hq)) (fun q hq => hf q (List.mem_cons_of_mem _ hq))
          (fun n hn q hq => hs n hn q (List.mem_cons_of_mem _ hq)) (hv' p rfl) h
        rw [List.filter_cons_of_neg (by simpa using hp)]
        exact this
      · rw [List.filter_cons_of_pos (by simpa using hp), List.map_cons]
        have hfp := hf p List.mem_cons_self
        have hm' := foldRel_srcs hr hfp.2 hm
        have hr2 : FoldRel d nm v (fun m => if m = p.dst then some (p.fn vs) else e m) (fun m => if m = p.dst then some (p.fn vs) else e' m) := by
          refine ⟨fun n h1 h2 => ?_, ?_, ?_⟩
          · split_ifs
            · rfl
            · exact hr.rest n h1 h2
          · rw [if_neg (fun e1 => hfp.1 e1.symm)]
            exact hr.new
          · rw [if_neg (fun e1 => hp e1.symm)]
            exact hr.old
        obtain ⟨r', h1, h2⟩ := foldRel_run hd hr2 (fun q hq => hu q (List.mem_cons_of_mem _ hq)) (fun q hq => hf q (List.mem_cons_of_mem _ hq))
          (fun n hn q hq => hs n hn q (List.mem_cons_of_mem _ hq)) (hv' p rfl) h
        refine ⟨r', ?_, h2⟩
        unfold runC
        show (match (p.srcs.map fun n => if n = d then nm else n).mapM e' with | some vs => _ | none => _) = _
        rw [hm']
        exact h1

/-- `o` reads constants only, with the recorded values. -/
def ReadsConsts (traced : String → V) (g : CNet V) (o : COp V) : Prop :=
  ∀ n ∈ o.srcs, n ∈ g.consts.map Prod.fst ∧ listed g.consts n = some (traced n)

theorem single_parts {g : CNet V} (hs : g.Single) : (g.ops.map COp.dst).Nodup ∧ (∀ n ∈ g.inputs, n ∉ g.consts.map Prod.fst) ∧
    (∀ o ∈ g.ops, o.dst ∉ g.inputs ∧ o.dst ∉ g.consts.map Prod.fst) := by
  unfold CNet.Single at hs
  rw [List.nodup_append] at hs
  obtain ⟨h1, h2, h3⟩ := hs
  rw [List.nodup_append] at h1
  refine ⟨h2, fun n hn hc => h1.2.2 n hn n hc rfl, fun o ho => ⟨fun h => ?_, fun h => ?_⟩⟩
  · exact h3 _ (List.mem_append_left _ h) _ (List.mem_map_of_mem ho) rfl
  · exact h3 _ (List.mem_append_right _ h) _ (List.mem_map_of_mem ho) rfl

theorem zip_fst_mem {A B : Type} {l : List A} {r : List B} {x : A} (h : x ∈ (l.zip r).map Prod.fst) : x ∈ l := by
  obtain ⟨p, hp, rfl⟩ := List.mem_map.1 h
  exact (List.of_mem_zip hp).1

theorem foldOne_run {traced : String → V} {g g' : CNet V} {o : COp V} {nm : String} (hs : g.Single) (ho : o ∈ g.ops) (hc : ReadsConsts traced g o)
    (hn : g.Unused nm) (h : foldOne traced g o nm = some g') {xs ys : List V} (hrun : g.run xs = some ys) : g'.run xs = some ys := by
  unfold foldOne at h
  split_ifs at h with hout
  cases h
  obtain ⟨p1, p2, p3⟩ := single_parts hs
  obtain ⟨hn1, hn2, hn3⟩ := hn
  simp only [List.mem_append, not_or] at hn1
  unfold CNet.run at hrun ⊢
  simp only [Option.bind_eq_some_iff] at hrun ⊢
  obtain ⟨r, hr, hy⟩ := hrun
  have hlist : ∀ n ∈ g.consts.map Prod.fst, listed (g.inputs.zip xs ++ g.consts) n = listed g.consts n := by
    intro n hn
    rw [listed_append, listed_mem fun h => p2 n (zip_fst_mem h) hn]
    rfl
  have hvals : o.srcs.mapM (listed (g.inputs.zip xs ++ g.consts)) = some (o.srcs.map traced) := by
    have : ∀ l : List String, (∀ n ∈ l, n ∈ o.srcs) → l.mapM (listed (g.inputs.zip xs ++ g.consts)) = some (l.map traced) := by
      intro l
      induction l with
      | nil => intro _; rfl
      | cons a l ih =>
        intro h
        have ha := hc a (h a List.mem_cons_self)
        simp [List.mapM_cons, hlist a ha.1, ha.2, ih fun n hn => h n (List.mem_cons_of_mem _ hn)]
    exact this _ fun n hn => hn
  have hrel : FoldRel o.dst nm (o.fn (o.srcs.map traced)) (listed (g.inputs.zip xs ++ g.consts)) (listed (g.inputs.zip xs ++ (g.consts ++ [(nm, o.fn (o.srcs.map traced))]))) := by
    refine ⟨fun n h1 h2 => ?_, ?_, Or.inl ?_⟩
    · rw [← List.append_assoc, listed_append]
      simp [listed, h2]
    · rw [← List.append_assoc, listed_append, listed_mem (l := g.inputs.zip xs ++ g.consts)]
      · simp [listed]
      · rw [List.map_append, List.mem_append]
        rintro (h | h)
        · exact hn1.1.1 (zip_fst_mem h)
        · exact hn1.1.2 h
    · refine listed_mem ?_
      rw [List.map_append, List.mem_append]
      rintro (h | h)
      · exact (p3 o ho).1 (zip_fst_mem h)
      · exact (p3 o ho).2 h
  obtain ⟨r', h1, h2⟩ := foldRel_run (o := o) rfl hrel (fun p hp e => List.inj_on_of_nodup_map p1 hp ho e)
    (fun p hp => ⟨fun e => hn1.2 (e ▸ List.mem_map_of_mem hp), hn2 p hp⟩)
    (fun n hn p hp e => (p3 p hp).2 (e ▸ (hc n hn).1)) (fun _ => by rw [hvals]; rfl) hr
  refine ⟨r', h1, ?_⟩
  refine mapM_of_forall₂ ?_
  have this := mapM_forall₂ hy
  have hmem : ∀ n ∈ g.outputs, r' n = r n := fun n hn => h2.rest n (fun e => hout (e ▸ hn)) (fun e => hn3 (e ▸ hn))
  clear hy hn3 hout
  revert this hmem
  generalize g.outputs = outs
  intro this hmem
  induction this with
  | nil => exact .nil
  | cons h _ ih => exact .cons (by rw [hmem _ List.mem_cons_self]; exact h) (ih fun n hn => hmem n (List.mem_cons_of_mem _ hn))

theorem rewire_id {a b : String} {o : COp V} (h : a ∉ o.srcs) : rewire a b o = o := by
  unfold rewire
  have : (o.srcs.map fun n => if n = a then b else n) = o.srcs := by
    conv_rhs => rw [← List.map_id o.srcs]
    refine List.map_congr_left fun n hn => ?_
    have : n ≠ a := fun e => h (e ▸ hn)
    rw [if_neg this]
    rfl
  rw [this]

/-- What the loop keeps: tensors are written once, the remaining names are unused, and the operators still to be folded are there and read constants. -/
theorem foldOne_keeps {traced : String → V} {g g' : CNet V} {o : COp V} {nm : String} (hs : g.Single) (hn : g.Unused nm) (h : foldOne traced g o nm = some g') :
    g'.Single ∧ (∀ m, m ≠ nm → g.Unused m → g'.Unused m) ∧ g'.outputs = g.outputs ∧
    (∀ p ∈ g.ops, p.dst ≠ o.dst → o.dst ∉ p.srcs → p ∈ g'.ops) ∧
    (∀ p, ReadsConsts traced g p → ReadsConsts traced g' p) := by
  unfold foldOne at h
  split_ifs at h with hout
  cases h
  obtain ⟨hn1, hn2, hn3⟩ := hn
  have hsub : ((g.ops.filter fun p => p.dst ≠ o.dst).map (rewire o.dst nm)).map COp.dst = (g.ops.filter fun p => p.dst ≠ o.dst).map COp.dst := by
    rw [List.map_map]; rfl
  have hsl : ((g.ops.filter fun p => p.dst ≠ o.dst).map COp.dst).Sublist (g.ops.map COp.dst) := List.Sublist.map _ List.filter_sublist
  refine ⟨?_, ?_, rfl, ?_, ?_⟩
  · unfold CNet.Single
    simp only
    rw [hsub, List.map_append, List.map_cons, List.map_nil]
    have h1 : (g.inputs ++ (g.consts.map Prod.fst ++ [nm]) ++ g.ops.map COp.dst).Nodup := by
      have hperm : (g.inputs ++ (g.consts.map Prod.fst ++ [nm]) ++ g.ops.map COp.dst).Perm (nm :: (g.inputs ++ g.consts.map Prod.fst ++ g.ops.map COp.dst)) := by
        rw [show g.inputs ++ (g.consts.map Prod.fst ++ [nm]) ++ g.ops.map COp.dst = (g.inputs ++ g.consts.map Prod.fst) ++ nm :: g.ops.map COp.dst by simp]
        exact List.perm_middle
      rw [hperm.nodup_iff, List.nodup_cons]
      exact ⟨hn1, hs⟩
    exact List.Nodup.sublist (List.Sublist.append (List.Sublist.refl _) hsl) h1
  · rintro m hm ⟨m1, m2, m3⟩
    simp only [List.mem_append, not_or] at m1
    refine ⟨?_, ?_, m3⟩
    · simp only
      rw [hsub, List.map_append, List.map_cons, List.map_nil]
      simp only [List.mem_append, List.mem_singleton, not_or]
      exact ⟨⟨m1.1.1, m1.1.2, hm⟩, fun h => m1.2 (hsl.subset h)⟩
    · intro p hp
      obtain ⟨q, hq, rfl⟩ := List.mem_map.1 hp
      have hq' := (List.mem_filter.1 hq).1
      simp only [rewire, List.mem_map, not_exists, not_and]
      intro x hx
      split_ifs with e
      · exact fun e => hm e.symm
      · exact fun e => m2 q hq' (e ▸ hx)
  · intro p hp h1 h2
    simp only [List.mem_map]
    exact ⟨p, List.mem_filter.2 ⟨hp, by simpa using h1⟩, rewire_id h2⟩
  · intro p hp n hn
    obtain ⟨h1, h2⟩ := hp n hn
    refine ⟨by simp only [List.map_append, List.mem_append]; exact Or.inl h1, ?_⟩
    simp only
    rw [listed_append, h2]
    rfl

theorem foldAll_run {traced : String → V} {fresh : ℕ → String} (hfi : Function.Injective fresh) : ∀ {os : List (COp V)} {k : ℕ} {g g' : CNet V}, g.Single →
    (∀ j, k ≤ j → g.Unused (fresh j)) → (os.map COp.dst).Nodup → (∀ o ∈ os, o ∈ g.ops ∧ ReadsConsts traced g o) → foldAll traced fresh k os g = some g' →
    ∀ {xs ys : List V}, g.run xs = some ys → g'.run xs = some ys
  | [], k, g, g', _, _, _, _, h, xs, ys, hr => by
    simp only [foldAll, Option.some.injEq] at h
    subst h
    exact hr
  | o :: os, k, g, g', hs, hf, hd, ho, h, xs, ys, hr => by
    simp only [foldAll, Option.bind_eq_some_iff] at h
    obtain ⟨g1, h1, h2⟩ := h
    simp only [List.map_cons, List.nodup_cons] at hd
    have hu := hf k (Nat.le_refl k)
    obtain ⟨k1, k2, k3, k4, k5⟩ := foldOne_keeps hs hu h1
    refine foldAll_run hfi k1 (fun j hj => k2 _ (fun e => by have := hfi e; omega) (hf j (by omega))) hd.2 (fun p hp => ?_) h2
      (foldOne_run hs (ho o List.mem_cons_self).1 (ho o List.mem_cons_self).2 hu h1 hr)
    have hp' := ho p (List.mem_cons_of_mem _ hp)
    refine ⟨k4 p hp'.1 (fun e => hd.1 (e ▸ List.mem_map_of_mem hp)) (fun h => ?_), k5 p hp'.2⟩
    exact (single_parts hs).2.2 o (ho o List.mem_cons_self).1 |>.2 (hp'.2 _ h).1

/-- Folding RESHAPE and TRANSPOSE operators on constants: if the pass goes through, the model delivers the same outputs for all inputs.
Missing from the full statement: operators whose shape or permutation is not a constant, and results that are outputs of the model, see
`C93_constant_output_false`. -/
theorem C93_fold_partial (traced : String → V) (fresh : ℕ → String) (g g' : CNet V) (hs : g.Single) (hfi : Function.Injective fresh) (hf : ∀ j, g.Unused (fresh j))
    (hp : ∀ o ∈ g.ops, o.moves = true → ∀ n ∈ o.srcs.tail, n ∈ g.consts.map Prod.fst)
    (hc : ∀ n ∈ g.consts.map Prod.fst, listed g.consts n = some (traced n)) (h : foldBuffers traced fresh g = some g') (xs ys : List V)
    (hr : g.run xs = some ys) : g'.run xs = some ys := by
  refine foldAll_run hfi hs (fun j _ => hf j) ?_ (fun o ho => ?_) h hr
  · exact List.Nodup.sublist (List.Sublist.map _ List.filter_sublist) (single_parts hs).1
  · obtain ⟨h1, h2⟩ := List.mem_filter.1 ho
    refine ⟨h1, fun n hn => ?_⟩
    have hm : n ∈ g.consts.map Prod.fst := by
      unfold foldable at h2
      simp only [Bool.and_eq_true] at h2
      cases hs : o.srcs with
      | nil => rw [hs] at hn; cases hn
      | cons a l =>
        rw [hs] at hn h2
        simp only [List.head?_cons, List.contains_eq_mem, decide_eq_true_eq] at h2
        rcases List.mem_cons.1 hn with rfl | hn
        · exact h2.1.2
        · exact hp o h1 h2.1.1 n (by rw [hs]; exact hn)
    exact ⟨hm, hc n hm⟩

theorem foldAll_defined {traced : String → V} {fresh : ℕ → String} : ∀ {os : List (COp V)} {k : ℕ} {g : CNet V}, (∀ o ∈ os, o.dst ∉ g.outputs) →
    ∃ g', foldAll traced fresh k os g = some g'
  | [], _, g, _ => ⟨g, rfl⟩
  | o :: os, k, g, h => by
    have h1 : foldOne traced g o (fresh k) = some { g with
        consts := g.consts ++ [(fresh k, o.fn (o.srcs.map traced))]
        ops := (g.ops.filter fun p => p.dst ≠ o.dst).map (rewire o.dst (fresh k)) } := by
      unfold foldOne
      rw [if_neg (h o List.mem_cons_self)]
    obtain ⟨g', hg⟩ := foldAll_defined (traced := traced) (fresh := fresh) (os := os) (k := k + 1) (g := { g with
        consts := g.consts ++ [(fresh k, o.fn (o.srcs.map traced))]
        ops := (g.ops.filter fun p => p.dst ≠ o.dst).map (rewire o.dst (fresh k)) }) (fun p hp => h p (List.mem_cons_of_mem _ hp))
    exact ⟨g', by simp only [foldAll, h1, Option.bind_some]; exact hg⟩

/-- The pass goes through when no folded result is an output of the model. -/
theorem C93_fold_defined (traced : String → V) (fresh : ℕ → String) (g : CNet V) (h : ∀ o ∈ g.ops, foldable g o = true → o.dst ∉ g.outputs) :
    ∃ g', foldBuffers traced fresh g = some g' :=
  foldAll_defined fun o ho => h o (List.mem_filter.1 ho).1 (List.mem_filter.1 ho).2

/-- Reads the weight `w` transposed and adds it to the input. -/
def foldNet : CNet ℕ where
  inputs := ["x"]
  consts := [("w", 3), ("p", 1)]
  ops := [⟨true, ["w", "p"], "wt", fun l => l.sum⟩, ⟨false, ["x", "wt"], "y", fun l => l.sum⟩]
  outputs := ["y"]

def foldTraced : String → ℕ := fun n => if n = "w" then 3 else 1
def foldNames : ℕ → String := fun k => String.ofList ('_' :: List.replicate k '_')

theorem foldNames_inj : Function.Injective foldNames := by
  intro a b h
  have := congrArg (fun s : String => s.toList.length) h
  simpa [foldNames] using this

example : foldNet.Single ∧ (∀ j, foldNet.Unused (foldNames j)) ∧ (∀ o ∈ foldNet.ops, o.moves = true → ∀ n ∈ o.srcs.tail, n ∈ foldNet.consts.map Prod.fst) ∧
    (∀ n ∈ foldNet.consts.map Prod.fst, listed foldNet.consts n = some (foldTraced n)) ∧
    (∃ g', foldBuffers foldTraced foldNames foldNet = some g' ∧ g'.ops.length = 1 ∧ g'.run [5] = some [9]) ∧ foldNet.run [5] = some [9] := by
  have hh : ∀ j s, s ∈ ["x", "w", "p", "wt", "y"] → foldNames j ≠ s := by
    intro j s hs e
    have := congrArg (fun s : String => s.toList.head?) e
    simp only [foldNames, String.toList_ofList, List.head?_cons] at this
    simp only [List.mem_cons, List.not_mem_nil, or_false] at hs
    rcases hs with rfl | rfl | rfl | rfl | rfl <;> revert this <;> decide
  refine ⟨by unfold CNet.Single; decide, fun j => ⟨?_, ?_, ?_⟩, by decide, by decide, ⟨_, rfl, by decide, by decide⟩, by decide⟩
  · intro h
    refine hh j _ ?_ rfl
    simpa [foldNet] using h
  · intro o ho h
    refine hh j _ ?_ rfl
    simp only [foldNet, List.mem_cons, List.not_mem_nil, or_false] at ho
    rcases ho with rfl | rfl <;> simp only [List.mem_cons, List.not_mem_nil, or_false] at h ⊢ <;> tauto
  · intro h
    refine hh j _ ?_ rfl
    simp only [foldNet, List.mem_cons, List.not_mem_nil, or_false] at h ⊢
    tauto

theorem foldAll_none {traced : String → V} {fresh : ℕ → String} {o : COp V} : ∀ {os : List (COp V)} {k : ℕ} {g : CNet V}, o ∈ os → o.dst ∈ g.outputs →
    foldAll traced fresh k os g = none
  | [], _, _, h, _ => by cases h
  | p :: os, k, g, h, hd => by
    unfold foldAll foldOne
    by_cases hp : p.dst ∈ g.outputs
    · rw [if_pos hp]; rfl
    · rw [if_neg hp, Option.bind_some]
      rcases List.mem_cons.1 h with e | h
      · exact absurd (e ▸ hd) hp
      · exact foldAll_none h hd

/-- The pass stops with an error whenever the result of such an operator is an output of the model, whether or not something else reads it. -/
theorem C93_constant_output (traced : String → V) (fresh : ℕ → String) (g : CNet V) (o : COp V) (ho : o ∈ g.ops) (hm : o.moves = true) (n : String) (r : List String)
    (hn : o.srcs = n :: r) (hc : n ∈ g.consts.map Prod.fst) (hd : o.dst ∈ g.outputs) : foldBuffers traced fresh g = none := by
  refine foldAll_none (o := o) (List.mem_filter.2 ⟨ho, ?_⟩) hd
  unfold foldable isRead
  rw [hm, hn]
  simp only [List.head?_cons, List.contains_eq_mem, hc, hd, decide_true, Bool.or_true, Bool.and_true]

/-- A model that delivers a transposed constant cannot be converted: the pass stops with an error. -/
theorem C93_constant_output_false : ∃ (g : CNet ℕ) (traced : String → ℕ), g.Single ∧ g.run [5] = some [4] ∧ ∀ fresh, foldBuffers traced fresh g = none := by
  refine ⟨{ foldNet with outputs := ["wt"] }, foldTraced, by unfold CNet.Single; decide, by decide, fun fresh => ?_⟩
  have : (({ foldNet with outputs := ["wt"] } : CNet ℕ).ops.filter (foldable { foldNet with outputs := ["wt"] })) = [⟨true, ["w", "p"], "wt", fun l => l.sum⟩] := rfl
  unfold foldBuffers
  rw [this]
  rfl

end

end Verif.Props
