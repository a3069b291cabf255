import Verif.Model.QuantRuns
import Mathlib.Tactic.Common
import Mathlib.Data.List.Basic

/-!
C142: the configuration of layers and the files of `quantize()` over several, possibly interrupted, runs.
-/

namespace Verif.Props
open Verif.Spec.QuantRuns Verif.Model.QuantRuns Verif.Spec.FuseNet Verif.Model.Fusable

namespace QR

theorem lookup_del (c : Conf) (n m : String) : (del c n).lookup m = if m = n then none else c.lookup m := by
  induction c with
  | nil => by_cases h : m = n <;> simp [del, h]
  | cons e c ih =>
    obtain ⟨k, b⟩ := e
    unfold del at ih ⊢
    rw [List.filter_cons]
    by_cases hk : k = n
    · subst hk
      rw [if_neg (by simp), ih]
      by_cases h : m = k
      · rw [if_pos h, if_pos h]
      · rw [if_neg h, if_neg h, List.lookup_cons, show (m == k) = false by simpa using h]
    · rw [if_pos (by simpa using hk), List.lookup_cons, List.lookup_cons, ih]
      by_cases h : m = n
      · subst h
        rw [if_pos rfl, if_pos rfl, show (m == k) = false by simpa using fun h => hk h.symm]
      · rw [if_neg h, if_neg h]

theorem lookup_setdefault (c : Conf) (n m : String) (b : Bool) : (setdefault c n b).lookup m = if m = n then some ((c.lookup n).getD b) else c.lookup m := by
  unfold setdefault
  by_cases h : (c.lookup n).isSome
  · rw [if_pos h]
    by_cases hm : m = n
    · subst hm
      rw [if_pos rfl]
      obtain ⟨v, hv⟩ := Option.isSome_iff_exists.mp h
      rw [hv]; rfl
    · rw [if_neg hm]
  · rw [if_neg h, List.lookup_cons]
    have hn : c.lookup n = none := Option.not_isSome_iff_eq_none.mp h
    by_cases hm : m = n
    · subst hm
      simp [hn]
    · rw [if_neg hm, show (m == n) = false by simpa using hm]

theorem lookup_assign (c : Conf) (n m : String) (b : Bool) : (assign c n b).lookup m = if m = n then some b else c.lookup m := by
  unfold assign
  rw [List.lookup_cons, lookup_del]
  by_cases h : m = n
  · subst h; simp
  · rw [if_neg h, if_neg h, show (m == n) = false by simpa using h]

theorem mem_lookup {c : Conf} {k : String} {b : Bool} (h : (k, b) ∈ c) : (c.lookup k).isSome := by
  induction c with
  | nil => cases h
  | cons e c ih =>
    obtain ⟨k', b'⟩ := e
    rw [List.lookup_cons]
    by_cases hk : k = k'
    · subst hk; simp
    · rw [show (k == k') = false by simpa using hk]
      rcases List.mem_cons.mp h with h | h
      · exact absurd (congrArg Prod.fst h) hk
      · exact ih h

theorem getD_setdefault (c : Conf) (n m : String) : getD (setdefault c n true) m = getD c m := by
  unfold getD
  rw [lookup_setdefault]
  by_cases h : m = n
  · subst h; rw [if_pos rfl]; cases List.lookup m c <;> rfl
  · rw [if_neg h]

/-- A fold of steps that keep the values keeps the values. -/
theorem getD_foldl {α : Type} (f : Conf → α → Conf) (n : String) : ∀ (l : List α) (c : Conf), (∀ c', ∀ x ∈ l, getD (f c' x) n = getD c' n) → getD (l.foldl f c) n = getD c n
  | [], _, _ => rfl
  | x :: l, c, h => by
    rw [List.foldl_cons, getD_foldl f n l _ fun c' y hy => h c' y (List.mem_cons_of_mem _ hy)]
    exact h c x List.mem_cons_self

theorem getD_listed (nodes : List CNode) (c : Conf) (n : String) : getD (listed nodes c) n = getD c n := by
  unfold listed
  refine getD_foldl _ n nodes c fun c' x _ => ?_
  by_cases h : x.stub = true
  · simp [h]
  · simp only [h, Bool.false_eq_true, if_false]; exact getD_setdefault _ _ _

/-- The names of the groups are those of nodes with a true entry. -/
theorem walk_names (g : Net) (used : List String) (P : String → Prop) (hP : ∀ n ∈ g, n.quantized = true → P n.name) : ∀ (fuel i : ℕ) (t : Trie) (names final : List String), (∀ a ∈ names, P a) → (∀ a ∈ final, P a) →
    ∀ a ∈ walk g used fuel i t names final, P a
  | 0, _, _, _, _, _, hf => by unfold walk; exact hf
  | fuel + 1, i, t, names, final, hn, hf => by
    unfold walk
    cases hg : g[i]? with
    | none => exact hf
    | some n =>
      dsimp only
      have hmem : n ∈ g := List.mem_of_getElem? hg
      by_cases hq : n.quantized = true
      · rw [if_neg (by simp [hq])]
        have hp := hP n hmem hq
        have hn' : ∀ a ∈ names ++ [n.name], P a := by
          intro a ha
          rcases List.mem_append.mp ha with h | h
          · exact hn a h
          · rw [List.mem_singleton.mp h]; exact hp
        cases hr : t.find n.kind with
        | some r =>
          obtain ⟨state, rules'⟩ := r
          dsimp only
          by_cases h1 : n.name ∈ used
          · rw [if_pos h1]; exact hf
          · rw [if_neg h1]
            by_cases h2 : n.prev = []
            · rw [if_pos h2]; exact hf
            · rw [if_neg h2]
              have hfin : ∀ a ∈ (if state = true then names ++ [n.name] else final), P a := by
                by_cases hs : state = true
                · rw [if_pos hs]; exact hn'
                · rw [if_neg hs]; exact hf
              split
              · exact walk_names g used P hP fuel _ _ _ _ hn' hfin
              · exact hfin
        | none =>
          dsimp only
          by_cases h1 : n.kind = "Identity"
          · rw [if_pos h1]
            by_cases h2 : n.name ∈ used
            · rw [if_pos h2]; exact hf
            · rw [if_neg h2]
              split
              · exact walk_names g used P hP fuel _ _ _ _ hn hf
              · exact hf
          · rw [if_neg h1]
            split
            · simp
            · exact hf
      · rw [if_pos (by simp [hq])]; exact hf

theorem scan_names (g : Net) (t : Trie) (P : String → Prop) (hP : ∀ n ∈ g, n.quantized = true → P n.name) : ∀ (is : List ℕ) (d : List (List String) × List String), (∀ l ∈ d.1, ∀ a ∈ l, P a) →
    ∀ l ∈ (scan g t is d).1, ∀ a ∈ l, P a
  | [], (_, _), h => by unfold scan; exact h
  | i :: is, (found, used), h => by
    unfold scan
    dsimp only
    by_cases hn : isFusable g used t i = []
    · rw [if_pos hn]; exact scan_names g t P hP is _ h
    · rw [if_neg hn]
      refine scan_names g t P hP is _ fun l hl => ?_
      rcases List.mem_append.mp hl with h1 | h1
      · exact h l h1
      · rw [List.mem_singleton.mp h1]
        intro a ha
        unfold isFusable at ha
        exact walk_names g used P hP _ _ _ _ _ (by simp) (by simp) a (List.mem_reverse.mp ha)

theorem groups_names (fused : Bool) (rules : List (List String)) (nodes : List CNode) (c : Conf) : ∀ l ∈ groupsOf fused rules nodes c, ∀ a ∈ l, c.lookup a = some true ∧ a ∈ nodes.map (·.node.name) := by
  unfold groupsOf
  by_cases h : fused = true
  · rw [if_pos h]
    intro l hl
    refine scan_names (seen c nodes) _ (fun a => c.lookup a = some true ∧ a ∈ nodes.map (·.node.name)) ?_ _ ([], []) (by simp) l (List.mem_reverse.mp hl)
    intro n hn hq
    unfold seen at hn
    obtain ⟨x, hx, rfl⟩ := List.mem_map.mp hn
    refine ⟨?_, List.mem_map.mpr ⟨x, hx, rfl⟩⟩
    dsimp only at hq ⊢
    cases hl : c.lookup x.node.name with
    | none => rw [hl] at hq; cases hq
    | some b => rw [hl] at hq; exact congrArg some hq
  · rw [if_neg h]; simp

theorem getD_spread (groups : List (List String)) (n : String) : ∀ (c : Conf), (∀ l ∈ groups, ∀ a ∈ l, getD c a = true) → getD (spread groups c) n = getD c n := by
  -- all members stay true, so nothing changes
  have inner : ∀ (t : List String) (h : String) (c : Conf), getD c h = true → (∀ a ∈ t, getD c a = true) → ∀ m, getD (t.foldl (fun c n => assign c n (getD c h)) c) m = getD c m := by
    intro t
    induction t with
    | nil => intro h c _ _ m; rfl
    | cons x t ih =>
      intro h c hh ht m
      rw [List.foldl_cons]
      have hs : ∀ m, getD (assign c x (getD c h)) m = getD c m := by
        intro m
        rw [hh]
        unfold getD
        rw [lookup_assign]
        by_cases hm : m = x
        · subst hm
          rw [if_pos rfl]
          exact (ht m List.mem_cons_self).symm
        · rw [if_neg hm]
      rw [ih h _ ((hs h).trans hh) (fun a ha => (hs a).trans (ht a (List.mem_cons_of_mem _ ha))) m, hs]
  induction groups with
  | nil => intro c _; rfl
  | cons g gs ih =>
    intro c hc
    unfold spread at ih ⊢
    rw [List.foldl_cons]
    cases g with
    | nil => exact ih c fun l hl => hc l (List.mem_cons_of_mem _ hl)
    | cons h t =>
      dsimp only
      have hk := inner t h c (hc _ List.mem_cons_self h List.mem_cons_self) (fun a ha => hc _ List.mem_cons_self a (List.mem_cons_of_mem _ ha))
      rw [ih _ fun l hl a ha => (hk a).trans (hc l (List.mem_cons_of_mem _ hl) a ha), hk]

theorem getD_dropped (nodes off : List CNode) (c : Conf) (n : String) (hn : ∀ x ∈ nodes, x.shapeLike = true → x.node.name ≠ n) : getD (dropped nodes off c) n = getD c n := by
  unfold dropped
  rw [getD_foldl, getD_foldl]
  · intro c' x hx
    have hx := List.mem_filter.mp hx
    unfold getD
    rw [lookup_del, if_neg fun h => hn x hx.1 hx.2 h.symm]
  · intro c' x _
    by_cases h : x.skip = false ∧ c'.lookup x.node.name = some true
    · rw [if_pos h]
      unfold getD
      rw [lookup_del]
      by_cases hm : n = x.node.name
      · rw [if_pos hm, hm, h.2]; rfl
      · rw [if_neg hm]
    · rw [if_neg h]

theorem getD_delAll (l : List String) (c : Conf) (n : String) (h : ∀ a ∈ l, getD c a = true) : getD (l.foldl del c) n = getD c n := by
  induction l generalizing c with
  | nil => rfl
  | cons x l ih =>
    rw [List.foldl_cons]
    have hs : ∀ m, getD (del c x) m = getD c m := by
      intro m
      unfold getD
      rw [lookup_del]
      by_cases hm : m = x
      · subst hm; rw [if_pos rfl]; exact (h m List.mem_cons_self).symm
      · rw [if_neg hm]
    rw [ih _ fun a ha => (hs a).trans (h a (List.mem_cons_of_mem _ ha)), hs]

theorem getD_withDefault (deflt : Bool) (orig : List String) (c : Conf) (n : String) : getD (withDefault deflt orig c) n = wanted c deflt orig n := by
  unfold withDefault wanted
  by_cases h : deflt = false
  · rw [if_pos h]
    subst h
    have : ∀ (orig : List String) (c : Conf), (orig.foldl (fun c n => setdefault c n false) c).lookup n = match c.lookup n with
        | some b => some b
        | none => if n ∈ orig then some false else none := by
      intro orig
      induction orig with
      | nil => intro c; rw [List.foldl_nil]; cases c.lookup n <;> rfl
      | cons x l ih =>
        intro c
        rw [List.foldl_cons, ih, lookup_setdefault]
        by_cases hx : n = x
        · subst hx
          rw [if_pos rfl]
          cases c.lookup n with
          | some b => rfl
          | none => simp
        · rw [if_neg hx]
          cases c.lookup n with
          | some b => rfl
          | none => simp [hx]
    unfold getD
    rw [this]
    cases c.lookup n with
    | some b => rfl
    | none =>
      by_cases hm : n ∈ orig
      · simp [hm]
      · simp [hm]
  · rw [if_neg h, if_neg fun h' => h h'.1]; rfl

/-- Keys. -/
def keysIn (c : Conf) (l : List String) : Prop := ∀ e ∈ c, e.1 ∈ l

theorem keysIn_setdefault {c : Conf} {l : List String} {n : String} {b : Bool} (h : keysIn c l) (hn : n ∈ l) : keysIn (setdefault c n b) l := by
  unfold setdefault
  by_cases hs : (c.lookup n).isSome
  · rw [if_pos hs]; exact h
  · rw [if_neg hs]
    intro e he
    rcases List.mem_cons.mp he with rfl | he
    · exact hn
    · exact h e he

theorem keysIn_del {c : Conf} {l : List String} {n : String} (h : keysIn c l) : keysIn (del c n) l := fun e he => h e (List.mem_filter.mp he).1

theorem keysIn_assign {c : Conf} {l : List String} {n : String} {b : Bool} (h : keysIn c l) (hn : n ∈ l) : keysIn (assign c n b) l := by
  intro e he
  rcases List.mem_cons.mp he with rfl | he
  · exact hn
  · exact keysIn_del h e he

theorem keysIn_foldl {α : Type} (f : Conf → α → Conf) (l : List String) : ∀ (xs : List α) (c : Conf), (∀ c', ∀ x ∈ xs, keysIn c' l → keysIn (f c' x) l) → keysIn c l → keysIn (xs.foldl f c) l
  | [], _, _, h => h
  | x :: xs, c, hf, h => keysIn_foldl f l xs _ (fun c' y hy => hf c' y (List.mem_cons_of_mem _ hy)) (hf c x List.mem_cons_self h)

variable {passes : (String → Bool) → List CNode} {targets : List CNode → List CNode → List String} {fused : Bool} {rules : List (List String)} {orig : List String}

theorem rewrite_spec {deflt : Bool} {c c' : Conf} {nodes off : List CNode} (h : rewrite passes targets fused rules orig deflt c = .ok (c', nodes, off)) :
    nodes = passes (getD (withDefault deflt orig c)) ∧ off = nodes.filter (notQuantizable (withDefault deflt orig c)) ∧
    (∀ n, (∀ x ∈ nodes, x.shapeLike = true → x.node.name ≠ n) → getD c' n = getD (withDefault deflt orig c) n) ∧ keysIn c' (nodes.map (·.node.name)) := by
  unfold rewrite at h
  dsimp only at h
  split at h
  · rename_i hk
    cases h
    generalize hc1 : withDefault deflt orig c = c1 at *
    generalize hnodes : passes (getD c1) = nodes at *
    have hg := groups_names fused rules nodes (listed nodes c1)
    generalize groupsOf fused rules nodes (listed nodes c1) = groups at *
    have hall : ∀ l ∈ groups, ∀ a ∈ l, getD (listed nodes c1) a = true := fun l hl a ha => by unfold getD; rw [(hg l hl a ha).1]; rfl
    have h3 : ∀ n, getD (spread groups (listed nodes c1)) n = getD c1 n := fun n => (getD_spread groups n _ hall).trans (getD_listed _ _ _)
    have hoff : nodes.filter (notQuantizable (spread groups (listed nodes c1))) = nodes.filter (notQuantizable c1) := by
      refine List.filter_congr fun x _ => ?_
      unfold notQuantizable
      rw [h3]
    refine ⟨rfl, hoff, fun n hn => ?_, fun e he => of_decide_eq_true (List.all_eq_true.mp hk e he)⟩
    have hset : ∀ (ts : List String) (c : Conf) (n : String), getD (ts.foldl (fun c n => setdefault c n true) c) n = getD c n := fun ts c n => getD_foldl _ n ts c fun c' x _ => getD_setdefault _ _ _
    have hsame : ∀ n, (∀ x ∈ nodes, x.shapeLike = true → x.node.name ≠ n) →
        getD ((targets nodes (nodes.filter (notQuantizable (spread groups (listed nodes c1))))).foldl (fun c n => setdefault c n true) (dropped nodes (nodes.filter (notQuantizable (spread groups (listed nodes c1)))) (spread groups (listed nodes c1)))) n = getD c1 n :=
      fun n hn => by rw [hset, getD_dropped _ _ _ _ hn, h3]
    rw [getD_delAll, hsame n hn]
    intro a ha
    obtain ⟨l, hl, hal⟩ := List.mem_flatMap.mp ha
    have ht : getD c1 a = true := by rw [← h3 a, getD_spread groups a _ hall]; exact hall l hl a (List.mem_of_mem_tail hal)
    rw [hset]
    unfold dropped
    -- deleting can only make a value true
    have hdel : ∀ (c : Conf) (m : String), getD c a = true → getD (del c m) a = true := by
      intro c m hm
      unfold getD at hm ⊢
      rw [lookup_del]
      by_cases h : a = m
      · rw [if_pos h]; rfl
      · rw [if_neg h]; exact hm
    have hf : ∀ {α : Type} (f : Conf → α → Conf) (xs : List α) (c : Conf), (∀ c' x, getD c' a = true → getD (f c' x) a = true) → getD c a = true → getD (xs.foldl f c) a = true := by
      intro α f xs
      induction xs with
      | nil => intro c _ h; exact h
      | cons x xs ih => intro c hf h; exact ih _ hf (hf c x h)
    refine hf _ _ _ (fun c' x h => ?_) (hf _ _ _ (fun c' x h => hdel c' _ h) ((h3 a).trans ht))
    by_cases hh : x.skip = false ∧ c'.lookup x.node.name = some true
    · rw [if_pos hh]; exact hdel _ _ h
    · rw [if_neg hh]; exact h
  · cases h

theorem rewrite_ok {deflt : Bool} {c : Conf} (hk : keysIn (withDefault deflt orig c) ((passes (getD (withDefault deflt orig c))).map (·.node.name)))
    (ht : ∀ nodes off, ∀ a ∈ targets nodes off, a ∈ nodes.map (·.node.name)) : ∃ c' off, rewrite passes targets fused rules orig deflt c = .ok (c', passes (getD (withDefault deflt orig c)), off) := by
  unfold rewrite
  dsimp only
  generalize withDefault deflt orig c = c1 at *
  generalize passes (getD c1) = nodes at *
  have hg := groups_names fused rules nodes (listed nodes c1)
  generalize groupsOf fused rules nodes (listed nodes c1) = groups at *
  rw [if_pos]
  · exact ⟨_, _, rfl⟩
  · refine List.all_eq_true.mpr fun e he => decide_eq_true ?_
    revert e
    show keysIn _ _
    refine keysIn_foldl _ _ _ _ (fun c' x _ h => keysIn_del h) ?_
    refine keysIn_foldl _ _ _ _ (fun c' x hx h => keysIn_setdefault h (ht _ _ x hx)) ?_
    unfold dropped
    refine keysIn_foldl _ _ _ _ (fun c' x _ h => ?_) ?_
    · by_cases hh : x.skip = false ∧ c'.lookup x.node.name = some true
      · rw [if_pos hh]; exact keysIn_del h
      · rw [if_neg hh]; exact h
    refine keysIn_foldl _ _ _ _ (fun c' x _ h => keysIn_del h) ?_
    unfold spread
    refine keysIn_foldl _ _ _ _ (fun c' g hgm h => ?_) ?_
    · cases g with
      | nil => exact h
      | cons y t => exact keysIn_foldl _ _ _ _ (fun c'' n hn h => keysIn_assign h (hg _ hgm n (List.mem_cons_of_mem _ hn)).2) h
    unfold listed
    refine keysIn_foldl _ _ _ _ (fun c' x hx h => ?_) hk
    by_cases hs : x.stub = true
    · simp only [hs, if_true]; exact h
    · simp only [hs, Bool.false_eq_true, if_false]; exact keysIn_setdefault h (List.mem_map.mpr ⟨x, hx, rfl⟩)

end QR

open QR

/-- C142: a layer of the rewritten model stays in floating point exactly if the configuration switches it off, by its entry or by the default, or it cannot be quantized. -/
theorem C142_off (passes : (String → Bool) → List CNode) (targets : List CNode → List CNode → List String) (fused : Bool) (rules : List (List String)) (orig : List String) (deflt : Bool) (c c' : Conf) (nodes off : List CNode)
    (h : rewrite passes targets fused rules orig deflt c = .ok (c', nodes, off)) (x : CNode) (hx : x ∈ nodes) (hl : x.layer) :
    x ∈ off ↔ wanted c deflt orig x.node.name = false ∨ x.supported = false := by
  obtain ⟨-, h2, -, -⟩ := rewrite_spec h
  rw [h2, List.mem_filter]
  unfold notQuantizable
  rw [hl.1, hl.2.1, hl.2.2, getD_withDefault]
  cases hw : wanted c deflt orig x.node.name <;> cases hs : x.supported <;> simp [hx]

/-- Repeating a rewriting with the configuration it wrote. -/
def again (f : Conf → Except Err (Conf × List CNode × List CNode)) : ℕ → Conf → Except Err (Conf × List CNode × List CNode)
  | 0, c => f c
  | k + 1, c => match f c with
    | .error e => .error e
    | .ok r => again f k r.1

/-- C142: quantizing again with the configuration that was written gives the same nodes and keeps the same ones in floating point, any number of times.  The rewritings may use the configuration of anything but
nodes that read shapes, names are unique, and 2804 names nodes of the graph. -/
theorem C142_rerun (passes : (String → Bool) → List CNode) (targets : List CNode → List CNode → List String) (fused : Bool) (rules : List (List String)) (orig : List String) (deflt : Bool) (c c' : Conf) (nodes off : List CNode)
    (hp : ∀ f g, (∀ n, f n = g n ∨ ∃ x ∈ passes f, x.shapeLike = true ∧ x.node.name = n) → passes g = passes f) (hu : ∀ f, ∀ x ∈ passes f, ∀ y ∈ passes f, x.node.name = y.node.name → x = y)
    (ht : ∀ nodes off, ∀ a ∈ targets nodes off, a ∈ nodes.map (·.node.name)) (h : rewrite passes targets fused rules orig deflt c = .ok (c', nodes, off)) (k : ℕ) :
    ∃ c'', again (rewrite passes targets fused rules orig true) k c' = .ok (c'', nodes, off) := by
  have step : ∀ (deflt : Bool) (c c' : Conf), rewrite passes targets fused rules orig deflt c = .ok (c', nodes, off) → ∃ c'', rewrite passes targets fused rules orig true c' = .ok (c'', nodes, off) := by
    intro deflt c c' h
    obtain ⟨h1, h2, h3, h4⟩ := rewrite_spec h
    have hd : withDefault true orig c' = c' := by unfold withDefault; rw [if_neg (by simp)]
    have hn : passes (getD c') = nodes := by
      rw [h1]
      refine hp _ _ fun n => ?_
      by_cases hs : ∃ x ∈ nodes, x.shapeLike = true ∧ x.node.name = n
      · right; rw [← h1]; exact hs
      · left
        exact (h3 n fun x hx hsl he => hs ⟨x, hx, hsl, he⟩).symm
    obtain ⟨c'', off', hr⟩ := rewrite_ok (passes := passes) (targets := targets) (fused := fused) (rules := rules) (orig := orig) (deflt := true) (c := c') (by rw [hd, hn]; exact h4) ht
    rw [hd, hn] at hr
    obtain ⟨-, r2, -, -⟩ := rewrite_spec hr
    have ho : off' = off := by
      rw [r2, h2, hd]
      refine List.filter_congr fun x hx => ?_
      unfold notQuantizable
      by_cases hb : (x.fixed || x.stub || x.shapeLike) = true
      · rw [if_pos hb, if_pos hb]
      · rw [if_neg hb, if_neg hb]
        have hsl : x.shapeLike = false := by
          cases h : x.shapeLike with
          | false => rfl
          | true => exact absurd (by rw [h]; simp) hb
        rw [h3 x.node.name fun y hy hys he => by
          have := hu _ y (h1 ▸ hy) x (h1 ▸ hx) he
          rw [this, hsl] at hys
          cases hys]
    rw [ho] at hr
    exact ⟨c'', hr⟩
  induction k generalizing deflt c c' with
  | zero => exact step deflt c c' h
  | succ k ih =>
    obtain ⟨c'', hc''⟩ := step deflt c c' h
    unfold again
    rw [hc'']
    exact ih true c' c'' hc''

/-- A convolution and an activation behind it, and a normalization that is rewritten with an additional node unless it is switched off. -/
def exConv : CNode := ⟨⟨"Conv2d", "conv", false, [0], [2]⟩, false, false, false, true, false⟩
def exRelu : CNode := ⟨⟨"ReLU", "relu", false, [1], [3]⟩, false, false, false, true, false⟩
def exIn : CNode := ⟨⟨"QuantStub", "fake_quant_0", false, [], [1]⟩, true, false, false, true, false⟩
def exBn : CNode := ⟨⟨"BatchNorm1d", "bn", false, [2], [4]⟩, false, false, false, true, false⟩
def exBn2 : CNode := ⟨⟨"BatchNorm2d", "rewritten_bn2d_0", false, [2], [4]⟩, false, false, false, true, false⟩

/-- C142 fails: the file lists a group of fused layers under its first layer only; when that entry is switched off, the other layers of the group are still quantized. -/
theorem C142_group_false : rewrite (fun _ => [exIn, exConv, exRelu]) (fun _ _ => []) true qatRules ["conv", "relu"] true [] = .ok ([("conv", true)], [exIn, exConv, exRelu], []) ∧
    rewrite (fun _ => [exIn, exConv, exRelu]) (fun _ _ => []) true qatRules ["conv", "relu"] true [("conv", false)] = .ok ([("relu", true), ("conv", false)], [exIn, exConv, exRelu], [exConv]) := by
  decide +kernel

/-- C142 fails: after a layer is switched off in the file that a run wrote, the next run fails with a KeyError, since the file also lists a node that is not created any more. -/
theorem C142_edit_false : let passes : (String → Bool) → List CNode := fun f => if f "bn" then [exIn, exConv, exBn2] else [exIn, exConv, exBn]
    rewrite passes (fun _ _ => []) true [] ["conv", "bn"] true [] = .ok ([("rewritten_bn2d_0", true), ("conv", true)], [exIn, exConv, exBn2], []) ∧
    rewrite passes (fun _ _ => []) true [] ["conv", "bn"] true [("bn", false), ("rewritten_bn2d_0", true), ("conv", true)] = .error .keyError := by
  decide +kernel

variable {M C W : Type}

/-- C142, in part: with `force_overwrite` and whatever files earlier runs and crashes left, the result is the rewriting of the given model.  Missing: when the file of the configuration is read and was cut off
(`C142_crash_false`). -/
theorem C142_fresh_partial (gen : M → Bool → Conf → Except Err (Conf × C × W)) (o : Opts) (m : M) (fs : FS C W) (ho : o.force = true) (conf conf' : Conf) (c : C) (w : W)
    (hl : (o.conf ≠ [] ∨ o.ignore = true) ∧ conf = o.conf ∨ o.conf = [] ∧ o.ignore = false ∧ (fs.config = .missing ∧ conf = [] ∨ fs.config = .full conf))
    (hg : gen m ((conf.lookup "default").getD true) (conf.filter fun e => e.1 != "default") = .ok (conf', c, w)) :
    (quantize gen o m fs).2 = .ok (c, w) ∧ (quantize gen o m fs).1.getLast? = some ⟨.full c, if o.remove then .missing else .full w, .full conf'⟩ := by
  have hload : loadConf o fs = .ok conf := by
    unfold loadConf
    rcases hl with ⟨h, rfl⟩ | ⟨h1, h2, h⟩
    · rw [if_neg]
      rcases h with h | h
      · simp [h]
      · simp [h]
    · rw [if_pos (by simp [h1, h2])]
      rcases h with ⟨h, rfl⟩ | h
      · rw [h, h1]
      · rw [h]
  unfold quantize
  rw [hload]
  dsimp only
  rw [if_pos (by simp [ho])]
  unfold takeDefault del
  dsimp only
  rw [hg]
  cases hr : o.remove with
  | true => refine ⟨rfl, ?_⟩; simp [writes]
  | false => refine ⟨rfl, ?_⟩; simp [writes]

/-- C142 fails: a run may be interrupted while it writes the configuration, and then every later run without a configuration of its own fails, also with `force_overwrite`. -/
theorem C142_crash_false (gen : M → Bool → Conf → Except Err (Conf × C × W)) : (∀ (o : Opts) (m : M) (fs : FS C W), (∃ r, (quantize gen o m fs).2 = .ok r) → ∃ fs' ∈ (quantize gen o m fs).1, fs'.config = .cut) ∧
    ∀ (o : Opts) (m : M) (fs : FS C W), fs.config = .cut → o.conf = [] → o.ignore = false → quantize gen o m fs = ([fs], .error .noneType) := by
  refine ⟨fun o m fs ⟨r, hr⟩ => ?_, fun o m fs h1 h2 h3 => ?_⟩
  · unfold quantize at hr ⊢
    cases hl : loadConf o fs with
    | error e => rw [hl] at hr; cases hr
    | ok conf =>
      rw [hl] at hr
      dsimp only at hr ⊢
      by_cases hf : (o.force || !File.there fs.code || !File.there fs.weights) = true
      · rw [if_pos hf] at hr ⊢
        cases hg : gen m (takeDefault conf).1 (takeDefault conf).2 with
        | error e => rw [hg] at hr; cases hr
        | ok r' =>
          obtain ⟨conf', c, w⟩ := r'
          exact ⟨⟨.full c, .full w, .cut⟩, by simp [writes], rfl⟩
      · rw [if_neg hf]
        generalize importModel { fs with config := File.full (takeDefault conf).2 } = im
        cases im with
        | error e => exact ⟨{ fs with config := .cut }, by simp [writes], rfl⟩
        | ok r' => exact ⟨{ fs with config := .cut }, by simp [writes], rfl⟩
  · unfold quantize loadConf
    rw [if_pos (by simp [h2, h3]), h1]

/-- Histories: runs one after another, each completed or interrupted at any point. -/
inductive Reach (gen : M → Bool → Conf → Except Err (Conf × C × W)) (ok : Opts → M → Prop) : FS C W → Prop
  | start : Reach gen ok ⟨.missing, .missing, .missing⟩
  | run {fs fs' : FS C W} (o : Opts) (m : M) : Reach gen ok fs → ok o m → fs' ∈ (quantize gen o m fs).1 → Reach gen ok fs'

/-- C142: without `force_overwrite`, after any interrupted and completed runs for which the generated code and weights are the same, a run gives that code and those weights or fails. -/
theorem C142_cached (gen : M → Bool → Conf → Except Err (Conf × C × W)) (c : C) (w : W) (ok : Opts → M → Prop) (hg : ∀ o m, ok o m → ∀ d conf r, gen m d conf = .ok r → r.2 = (c, w)) (fs : FS C W) (h : Reach gen ok fs)
    (o : Opts) (m : M) (hom : ok o m) (r : C × W) (hr : (quantize gen o m fs).2 = .ok r) : r = (c, w) := by
  have inv : ∀ fs, Reach gen ok fs → (∀ x, fs.code = .full x → x = c) ∧ ∀ y, fs.weights = .full y → y = w := by
    intro fs h
    induction h with
    | start => exact ⟨fun x hx => (by cases hx), fun y hy => (by cases hy)⟩
    | @run fs fs' o m _ hom hmem ih =>
      obtain ⟨i1, i2⟩ := ih
      unfold quantize at hmem
      cases hl : loadConf o fs with
      | error e =>
        rw [hl] at hmem
        rw [List.mem_singleton.mp hmem]
        exact ⟨i1, i2⟩
      | ok conf =>
        rw [hl] at hmem
        dsimp only at hmem
        by_cases hf : (o.force || !File.there fs.code || !File.there fs.weights) = true
        · rw [if_pos hf] at hmem
          cases hgm : gen m (takeDefault conf).1 (takeDefault conf).2 with
          | error e =>
            rw [hgm] at hmem
            rw [List.mem_singleton.mp hmem]
            exact ⟨i1, i2⟩
          | ok r' =>
            obtain ⟨conf', c', w'⟩ := r'
            have he := hg o m hom _ _ _ hgm
            have e1 : c' = c := congrArg Prod.fst he
            have e2 : w' = w := congrArg Prod.snd he
            subst e1 e2
            rw [hgm] at hmem
            dsimp only [writes] at hmem
            have key : (fs'.code = fs.code ∨ fs'.code = .missing ∨ fs'.code = .cut ∨ fs'.code = .full c') ∧ (fs'.weights = fs.weights ∨ fs'.weights = .missing ∨ fs'.weights = .cut ∨ fs'.weights = .full w') := by
              cases hrm : o.remove <;> rw [hrm] at hmem <;> simp only [if_true, Bool.false_eq_true, if_false, List.append_nil, List.cons_append, List.nil_append, List.mem_cons, List.not_mem_nil, or_false] at hmem
              · rcases hmem with h | h | h | h | h | h | h | h <;> subst h <;> simp
              · rcases hmem with h | h | h | h | h | h | h | h | h <;> subst h <;> simp
            refine ⟨fun x hx => ?_, fun y hy => ?_⟩
            · rcases key.1 with h | h | h | h <;> rw [h] at hx
              · exact i1 x hx
              · cases hx
              · cases hx
              · cases hx; rfl
            · rcases key.2 with h | h | h | h <;> rw [h] at hy
              · exact i2 y hy
              · cases hy
              · cases hy
              · cases hy; rfl
        · rw [if_neg hf] at hmem
          generalize importModel { fs with config := File.full (takeDefault conf).2 } = im at hmem
          have key : fs'.code = fs.code ∧ (fs'.weights = fs.weights ∨ fs'.weights = .missing) := by
            cases im with
            | error e =>
              dsimp only [writes] at hmem
              simp only [List.mem_cons, List.not_mem_nil, or_false] at hmem
              rcases hmem with rfl | rfl | rfl <;> exact ⟨rfl, .inl rfl⟩
            | ok r' =>
              dsimp only [writes] at hmem
              cases hrm : o.remove <;> rw [hrm] at hmem <;> simp only [if_true, Bool.false_eq_true, if_false, List.append_nil, List.cons_append, List.nil_append, List.mem_cons, List.not_mem_nil, or_false] at hmem
              · rcases hmem with rfl | rfl | rfl <;> exact ⟨rfl, .inl rfl⟩
              · rcases hmem with rfl | rfl | rfl | rfl
                · exact ⟨rfl, .inl rfl⟩
                · exact ⟨rfl, .inl rfl⟩
                · exact ⟨rfl, .inl rfl⟩
                · exact ⟨rfl, .inr rfl⟩
          refine ⟨fun x hx => i1 x (key.1 ▸ hx), fun y hy => ?_⟩
          rcases key.2 with hk | hk
          · exact i2 y (hk ▸ hy)
          · rw [hk] at hy; cases hy
  obtain ⟨i1, i2⟩ := inv fs h
  have imp : ∀ fs' : FS C W, (∀ x, fs'.code = .full x → x = c) → (∀ y, fs'.weights = .full y → y = w) → importModel fs' = .ok r → r = (c, w) := by
    intro fs' h1 h2 h
    unfold importModel at h
    cases hc : fs'.code with
    | missing => rw [hc] at h; cases h
    | cut => rw [hc] at h; cases h
    | full x =>
      rw [hc] at h
      cases hw : fs'.weights with
      | missing => rw [hw] at h; cases h
      | cut => rw [hw] at h; cases h
      | full y =>
        rw [hw] at h
        cases h
        rw [h1 x hc, h2 y hw]
  unfold quantize at hr
  cases hl : loadConf o fs with
  | error e => rw [hl] at hr; cases hr
  | ok conf =>
    rw [hl] at hr
    dsimp only at hr
    by_cases hf : (o.force || !File.there fs.code || !File.there fs.weights) = true
    · rw [if_pos hf] at hr
      cases hgm : gen m (takeDefault conf).1 (takeDefault conf).2 with
      | error e => rw [hgm] at hr; cases hr
      | ok r' =>
        obtain ⟨conf', c', w'⟩ := r'
        have he := hg o m hom _ _ _ hgm
        rw [hgm] at hr
        cases hr
        exact he
    · rw [if_neg hf] at hr
      cases him : importModel { fs with config := File.full (takeDefault conf).2 } with
      | error e => rw [him] at hr; cases hr
      | ok r' =>
        rw [him] at hr
        cases hr
        exact imp _ i1 i2 him

/-- C142 fails: without `force_overwrite`, a run that was interrupted while it wrote the code or the weights leaves files that are never written again: every later run fails. -/
theorem C142_stuck_false (gen : M → Bool → Conf → Except Err (Conf × C × W)) (o : Opts) (m : M) (fs : FS C W) (ho : o.force = false) (hc : File.there fs.code = true) (hw : File.there fs.weights = true)
    (hcut : fs.code = .cut ∨ fs.weights = .cut) : (∀ r, (quantize gen o m fs).2 ≠ .ok r) ∧ ∀ fs' ∈ (quantize gen o m fs).1, fs'.code = fs.code ∧ fs'.weights = fs.weights := by
  have him : ∀ conf, ∃ e, importModel { fs with config := File.full conf } = Except.error e := by
    intro conf
    unfold importModel
    rcases hcut with h | h
    · rw [h]; exact ⟨_, rfl⟩
    · dsimp only
      rw [h]
      cases fs.code with
      | missing => exact ⟨_, rfl⟩
      | cut => exact ⟨_, rfl⟩
      | full x => exact ⟨_, rfl⟩
  unfold quantize
  cases hl : loadConf o fs with
  | error e =>
    refine ⟨fun r h => (by cases h), fun fs' h => ?_⟩
    rw [List.mem_singleton.mp h]
    exact ⟨rfl, rfl⟩
  | ok conf =>
    dsimp only
    rw [if_neg (by simp [ho, hc, hw])]
    obtain ⟨e, he⟩ := him (takeDefault conf).2
    rw [he]
    refine ⟨fun r h => (by cases h), fun fs' h => ?_⟩
    dsimp only [writes] at h
    simp only [List.mem_cons, List.not_mem_nil, or_false] at h
    rcases h with rfl | rfl | rfl <;> exact ⟨rfl, rfl⟩

/-- Generating code for a model given by numbers: the code of the model, its weights. -/
def exGen (m : ℕ × ℕ) (_ : Bool) (c : Conf) : Except Err (Conf × ℕ × ℕ) := .ok (c, m.1, m.2)

/-- C142 fails: code and weights of different models may be combined: the first run is completed and removes its weights, the second, for another model, is interrupted before it writes its code, and the third takes
the code of the first model with the weights of the second. -/
theorem C142_mix_false : ∃ fs1 ∈ (quantize exGen ⟨false, true, true, []⟩ (1, 10) ⟨.missing, .missing, .missing⟩).1, ∃ fs2 ∈ (quantize exGen ⟨false, true, true, []⟩ (2, 20) fs1).1,
    (quantize exGen ⟨false, true, true, []⟩ (2, 20) fs2).2 = .ok (1, 20) := by
  refine ⟨⟨.full 1, .missing, .full []⟩, by decide, ⟨.full 1, .full 20, .full []⟩, by decide, by decide⟩

/-- C142 fails: with `remove_weights_after_load` the generated code is overwritten by the next run also without `force_overwrite`, so that changes of the user are lost. -/
theorem C142_lost_false (o : Opts) (m : ℕ × ℕ) (edited : ℕ) (conf : Conf) (ho : o.ignore = true) : (quantize exGen o m ⟨.full edited, .missing, .full conf⟩).2 = .ok m := by
  unfold quantize loadConf
  rw [if_neg (by simp [ho])]
  dsimp only
  rw [if_pos (by simp [File.there])]
  rfl

example : (quantize exGen ⟨true, false, false, []⟩ (2, 20) ⟨.cut, .full 3, .full [("default", false), ("conv", true)]⟩).2 = .ok (2, 20) :=
  (C142_fresh_partial exGen _ _ _ rfl [("default", false), ("conv", true)] _ _ _ (.inr ⟨rfl, rfl, .inr rfl⟩) rfl).1

example : ∃ c', again (rewrite (fun _ => [exIn, exConv, exRelu]) (fun _ _ => []) true qatRules ["conv", "relu"] true) 5 c' = .ok (c', [exIn, exConv, exRelu], [exConv]) :=
  ⟨[("relu", true), ("conv", false)], by decide +kernel⟩

end Verif.Props
