import Verif.Spec.QConfigs
/-
Helper lemmas about trees of modules and the walks over them.
-/
namespace Verif.Lemmas.QConfigs
open Verif.Model.QConfigs Verif.Spec.QConfigs

theorem assignL_eq (ns : List String) (c : QCfg) (ks : List Mod) :
    assignL ns c ks = ks.map (assign ns c) := by
  induction ks with
  | nil => simp [assignL]
  | cons k ks ih => simp [assignL, ih]

theorem assignLstmL_eq (c : QCfg) (ks : List Mod) :
    assignLstmL c ks = ks.map (assignLstm c) := by
  induction ks with
  | nil => simp [assignLstmL]
  | cons k ks ih => simp [assignLstmL, ih]

theorem overrideWalkL_eq (f : String → String → Option QCfg) (n : String) (ks : List Mod) :
    overrideWalkL f n ks = ks.map (fun k : Mod =>
      overrideWalk f (if n.length > 0 then n ++ "." ++ k.name else k.name) k) := by
  induction ks with
  | nil => simp [overrideWalkL]
  | cons k ks ih => simp [overrideWalkL, ih]

theorem propagateL_eq (c : Option QCfg) (ks : List Mod) :
    propagateL c ks = ks.map (propagate c) := by
  induction ks with
  | nil => simp [propagateL]
  | cons k ks ih => simp [propagateL, ih]

/-- The settings of a module, or those it would take over. -/
def pick (o c0 : Option QCfg) : Option QCfg := match o with | some c => some c | none => c0

@[simp] theorem pick_some (c : QCfg) (c0 : Option QCfg) : pick (some c) c0 = some c := rfl
@[simp] theorem pick_none (c0 : Option QCfg) : pick none c0 = c0 := rfl

/-- The settings in force at a position: those of the closest module above (or
at) it that has some. -/
def eff (c0 : Option QCfg) (m : Mod) : List Nat → Option QCfg
  | [] => pick m.own c0
  | i :: p => match m.kids[i]? with
    | some k => eff (pick m.own c0) k p
    | none => none

theorem cfgAt_propagate (c0 : Option QCfg) (m : Mod) (p : List Nat) :
    cfgAt (propagate c0 m) p = eff c0 m p := by
  induction p generalizing m c0 with
  | nil => cases m with
    | mk n t o ks => cases o <;> simp [cfgAt, at?, propagate, eff, Mod.own, pick]
  | cons i p ih => cases m with
    | mk n t o ks =>
      have h : ∀ (m' : Mod), cfgAt m' (i :: p) =
          (match m'.kids[i]? with | some k => cfgAt k p | none => none) := by
        intro m'
        unfold cfgAt
        rw [at?]
        cases m'.kids[i]? <;> rfl
      rw [h]
      have hk : (propagate c0 (.mk n t o ks)).kids = ks.map (propagate (pick o c0)) := by
        rw [propagate.eq_def]
        simp only [Mod.kids, propagateL_eq]
        cases o <;> rfl
      rw [hk, List.getElem?_map, eff]
      simp only [Mod.kids, Mod.own]
      cases ks[i]? with
      | none => rfl
      | some k => simpa using ih (pick o c0) k

theorem assign_type (ns : List String) (c : QCfg) (m : Mod) : (assign ns c m).type = m.type := by
  cases m with
  | mk n t o ks => rw [assign]; by_cases h : ns.contains t = true <;> simp only [h] <;> rfl

theorem assign_name (ns : List String) (c : QCfg) (m : Mod) : (assign ns c m).name = m.name := by
  cases m with
  | mk n t o ks => rw [assign]; by_cases h : ns.contains t = true <;> simp only [h] <;> rfl

theorem assign_kids (ns : List String) (c : QCfg) (m : Mod) :
    (assign ns c m).kids = if ns.contains m.type then m.kids else m.kids.map (assign ns c) := by
  cases m with
  | mk n t o ks =>
    rw [assign, assignL_eq]
    by_cases h : ns.contains t = true <;> simp only [h, Mod.type] <;> rfl

theorem assign_own (ns : List String) (c : QCfg) (m : Mod) :
    (assign ns c m).own = if ns.contains m.type then some c else m.own := by
  cases m with
  | mk n t o ks =>
    rw [assign]
    by_cases h : ns.contains t = true <;> simp only [h, Mod.type] <;> rfl

theorem lstm_type (c : QCfg) (m : Mod) : (assignLstm c m).type = m.type := by
  cases m; rfl
theorem lstm_name (c : QCfg) (m : Mod) : (assignLstm c m).name = m.name := by
  cases m; rfl
theorem lstm_kids (c : QCfg) (m : Mod) :
    (assignLstm c m).kids = m.kids.map (assignLstm c) := by
  cases m with
  | mk n t o ks => rw [assignLstm, assignLstmL_eq]; rfl
theorem lstm_own (c : QCfg) (m : Mod) :
    (assignLstm c m).own = if m.type = "LSTM" then some c else m.own := by
  cases m; rfl

/-- Two trees with the same names and types at the same positions. -/
structure Same (m m' : Mod) : Prop where
  types : ∀ p : List Nat, (at? m' p).map Mod.type = (at? m p).map Mod.type
  names : ∀ (n : String) (p : List Nat), nameFrom n m' p = nameFrom n m p

theorem Same.trans {a b c : Mod} (h : Same a b) (g : Same b c) : Same a c :=
  ⟨fun p => (g.types p).trans (h.types p), fun n p => (g.names n p).trans (h.names n p)⟩

theorem same_refl (m : Mod) : Same m m := ⟨fun _ => rfl, fun _ _ => rfl⟩

theorem same_setOwn (m : Mod) (c : QCfg) : Same m (m.setOwn c) := by
  cases m with
  | mk n t o ks =>
    constructor
    · intro p; cases p <;> rfl
    · intro n p; cases p <;> rfl

theorem same_assign (ns : List String) (c : QCfg) (m : Mod) : Same m (assign ns c m) := by
  constructor
  · intro p
    induction p generalizing m with
    | nil => simp [at?, assign_type]
    | cons i p ih =>
      rw [at?, at?, assign_kids]
      by_cases h : ns.contains m.type = true
      · rw [if_pos h]
      · rw [if_neg h, List.getElem?_map]
        cases m.kids[i]? with
        | none => rfl
        | some k => exact ih k
  · intro n p
    induction p generalizing m n with
    | nil => rfl
    | cons i p ih =>
      rw [nameFrom, nameFrom, assign_kids]
      by_cases h : ns.contains m.type = true
      · rw [if_pos h]
      · rw [if_neg h, List.getElem?_map]
        cases m.kids[i]? with
        | none => rfl
        | some k =>
          simp only [Option.map_some, assign_name]
          exact ih k _

theorem same_lstm (c : QCfg) (m : Mod) : Same m (assignLstm c m) := by
  constructor
  · intro p
    induction p generalizing m with
    | nil => simp [at?, lstm_type]
    | cons i p ih =>
      rw [at?, at?, lstm_kids, List.getElem?_map]
      cases m.kids[i]? with
      | none => rfl
      | some k => exact ih k
  · intro n p
    induction p generalizing m n with
    | nil => rfl
    | cons i p ih =>
      rw [nameFrom, nameFrom, lstm_kids, List.getElem?_map]
      cases m.kids[i]? with
      | none => rfl
      | some k =>
        simp only [Option.map_some, lstm_name]
        exact ih k _

theorem within_nil (ns : List String) (m : Mod) : Within ns m [] ↔ m.type ∈ ns := by
  constructor
  · rintro ⟨q, x, hq, hx, ht⟩
    rw [List.prefix_nil.mp hq, at?] at hx
    injection hx with hx
    exact hx ▸ ht
  · intro h
    exact ⟨[], m, List.prefix_refl _, rfl, h⟩

theorem within_cons (ns : List String) (m k : Mod) (i : Nat) (p : List Nat)
    (hk : m.kids[i]? = some k) :
    Within ns m (i :: p) ↔ m.type ∈ ns ∨ Within ns k p := by
  constructor
  · rintro ⟨q, x, hq, hx, ht⟩
    cases q with
    | nil =>
      rw [at?] at hx
      injection hx with hx
      exact Or.inl (hx ▸ ht)
    | cons j q =>
      obtain ⟨hji, hq'⟩ := List.cons_prefix_cons.mp hq
      subst hji
      rw [at?, hk] at hx
      exact Or.inr ⟨q, x, hq', hx, ht⟩
  · rintro (h | ⟨q, x, hq, hx, ht⟩)
    · exact ⟨[], m, List.nil_prefix, rfl, h⟩
    · exact ⟨i :: q, x, List.cons_prefix_cons.mpr ⟨rfl, hq⟩, by rw [at?, hk]; exact hx, ht⟩

theorem fresh_kid {m k : Mod} {i : Nat} (h : Fresh m) (hk : m.kids[i]? = some k) : Fresh k := by
  intro p x hx
  exact h (i :: p) x (by rw [at?, hk]; exact hx)

theorem eff_fresh (c0 : Option QCfg) (m : Mod) (p : List Nat) (x : Mod)
    (hf : Fresh m) (hx : at? m p = some x) : eff c0 m p = c0 := by
  induction p generalizing m c0 with
  | nil => rw [eff, hf [] m rfl]; rfl
  | cons i p ih =>
    rw [at?] at hx
    rw [eff, hf [] m rfl]
    cases hk : m.kids[i]? with
    | none => rw [hk] at hx; cases hx
    | some k =>
      rw [hk] at hx
      exact ih c0 k (fresh_kid hf hk) hx

theorem eff_assign_in (ns : List String) (c : QCfg) (c0 : Option QCfg) (m : Mod) (p : List Nat)
    (x : Mod) (hf : Fresh m) (hx : at? m p = some x) (hw : Within ns m p) :
    eff c0 (assign ns c m) p = some c := by
  induction p generalizing m c0 with
  | nil =>
    rw [within_nil] at hw
    rw [eff, assign_own, if_pos (by simpa using hw)]
    rfl
  | cons i p ih =>
    rw [at?] at hx
    cases hk : m.kids[i]? with
    | none => rw [hk] at hx; cases hx
    | some k =>
      rw [hk] at hx
      rw [within_cons ns m k i p hk] at hw
      rw [eff, assign_own, assign_kids]
      by_cases h : ns.contains m.type = true
      · rw [if_pos h, if_pos h, hk]
        exact eff_fresh _ k p x (fresh_kid hf hk) hx
      · rw [if_neg h, if_neg h, List.getElem?_map, hk]
        refine ih _ k (fresh_kid hf hk) hx ?_
        rcases hw with hw | hw
        · exact absurd (by simpa using hw) h
        · exact hw

theorem eff_assign_out (ns : List String) (c : QCfg) (c0 : Option QCfg) (m : Mod) (p : List Nat)
    (hw : ¬ Within ns m p) :
    eff c0 (assign ns c m) p = eff c0 m p := by
  induction p generalizing m c0 with
  | nil =>
    rw [within_nil] at hw
    rw [eff, eff, assign_own, if_neg (by simpa using hw)]
  | cons i p ih =>
    have ht : m.type ∉ ns := by
      intro h
      exact hw ⟨[], m, List.nil_prefix, rfl, h⟩
    rw [eff, eff, assign_own, assign_kids, if_neg (by simpa using ht), if_neg (by simpa using ht),
      List.getElem?_map]
    cases hk : m.kids[i]? with
    | none => rfl
    | some k =>
      rw [within_cons ns m k i p hk] at hw
      exact ih _ k (fun h => hw (Or.inr h))

theorem eff_lstm_out (c : QCfg) (c0 : Option QCfg) (m : Mod) (p : List Nat)
    (hw : ¬ Within ["LSTM"] m p) :
    eff c0 (assignLstm c m) p = eff c0 m p := by
  induction p generalizing m c0 with
  | nil =>
    rw [within_nil] at hw
    rw [eff, eff, lstm_own, if_neg (by simpa using hw)]
  | cons i p ih =>
    have ht : m.type ≠ "LSTM" := by
      intro h
      exact hw ⟨[], m, List.nil_prefix, rfl, by simp [h]⟩
    rw [eff, eff, lstm_own, lstm_kids, if_neg ht, List.getElem?_map]
    cases hk : m.kids[i]? with
    | none => rfl
    | some k =>
      rw [within_cons _ m k i p hk] at hw
      exact ih _ k (fun h => hw (Or.inr h))

theorem eff_lstm_at (c : QCfg) (c0 : Option QCfg) (m : Mod) (p : List Nat) (x : Mod)
    (hx : at? m p = some x) (ht : x.type = "LSTM") :
    eff c0 (assignLstm c m) p = some c := by
  induction p generalizing m c0 with
  | nil =>
    rw [at?] at hx
    injection hx with hx
    subst hx
    rw [eff, lstm_own, if_pos ht]
    rfl
  | cons i p ih =>
    rw [at?] at hx
    rw [eff, lstm_kids, List.getElem?_map]
    cases hk : m.kids[i]? with
    | none => rw [hk] at hx; cases hx
    | some k => rw [hk] at hx; exact ih _ k hx

/-- Putting settings on the root is the same as starting with them. -/
theorem eff_setOwn (c : QCfg) (m : Mod) (c0 : Option QCfg) (p : List Nat) (h : m.own = none) :
    eff c0 (m.setOwn c) p = eff (some c) m p := by
  cases m with
  | mk n t o ks =>
    simp only [Mod.own] at h
    subst h
    cases p <;> rfl

theorem eff_assign_setOwn (ns : List String) (b c : QCfg) (m : Mod) (c0 : Option QCfg)
    (p : List Nat) (h : m.own = none) :
    eff c0 (assign ns c (m.setOwn b)) p = eff (some b) (assign ns c m) p := by
  cases m with
  | mk n t o ks =>
    simp only [Mod.own] at h
    subst h
    simp only [Mod.setOwn, Mod.name, Mod.type, Mod.kids]
    rw [assign, assign]
    by_cases ht : ns.contains t = true
    · rw [if_pos ht, if_pos ht]
      cases p <;> rfl
    · rw [if_neg ht, if_neg ht]
      cases p <;> rfl

theorem over_none {f : String → String → Option QCfg} {n : String} {m : Mod}
    (h : f n m.type = none) :
    (overrideWalk f n m).own = m.own ∧ (overrideWalk f n m).kids = m.kids.map (fun k : Mod =>
      overrideWalk f (if n.length > 0 then n ++ "." ++ k.name else k.name) k) := by
  cases m with
  | mk nm t o ks =>
    simp only [Mod.type] at h
    rw [overrideWalk, h]
    exact ⟨rfl, by rw [Mod.kids, overrideWalkL_eq]; rfl⟩

theorem over_some {f : String → String → Option QCfg} {n : String} {m : Mod} {c : QCfg}
    (h : f n m.type = some c) : overrideWalk f n m = m.setOwn c := by
  cases m with
  | mk nm t o ks =>
    simp only [Mod.type] at h
    rw [overrideWalk, h]
    rfl

/-- Where the user's function has nothing to say, nothing changes. -/
theorem eff_over_miss (f : String → String → Option QCfg) (n : String) (c0 : Option QCfg) (m : Mod)
    (p : List Nat)
    (h : ∀ (q : List Nat) (y : Mod), q <+: p → at? m q = some y → f (nameFrom n m q) y.type = none) :
    eff c0 (overrideWalk f n m) p = eff c0 m p := by
  induction p generalizing m c0 n with
  | nil =>
    have h0 := over_none (h [] m (List.prefix_refl _) rfl)
    simp only [nameFrom] at h0
    rw [eff, eff, h0.1]
  | cons i p ih =>
    have h0 := over_none (h [] m List.nil_prefix rfl)
    simp only [nameFrom] at h0
    rw [eff, eff, h0.1, h0.2, List.getElem?_map]
    cases hk : m.kids[i]? with
    | none => rfl
    | some k =>
      refine ih _ _ k ?_
      intro q y hq hy
      have := h (i :: q) y (List.cons_prefix_cons.mpr ⟨rfl, hq⟩) (by rw [at?, hk]; exact hy)
      rw [nameFrom, hk] at this
      exact this

/-- Where it answers, the module below which nothing has been visited gets the
answer. -/
theorem eff_over_hit (f : String → String → Option QCfg) (n : String) (c0 : Option QCfg) (m : Mod)
    (p r : List Nat) (x : Mod) (c : QCfg) (hx : at? m p = some x)
    (hc : f (nameFrom n m p) x.type = some c)
    (h : ∀ (q : List Nat) (y : Mod), q <+: p → q ≠ p → at? m q = some y →
      f (nameFrom n m q) y.type = none) :
    ∃ c1 : Option QCfg, eff c0 (overrideWalk f n m) (p ++ r) = eff c1 (x.setOwn c) r := by
  induction p generalizing m c0 n with
  | nil =>
    rw [at?] at hx
    injection hx with hx
    subst hx
    rw [nameFrom] at hc
    exact ⟨c0, by rw [List.nil_append, over_some hc]⟩
  | cons i p ih =>
    have h0 := over_none (h [] m List.nil_prefix (by simp) rfl)
    simp only [nameFrom] at h0
    rw [at?] at hx
    cases hk : m.kids[i]? with
    | none => rw [hk] at hx; cases hx
    | some k =>
      rw [hk] at hx
      rw [nameFrom, hk] at hc
      rw [List.cons_append, eff, h0.2, List.getElem?_map, hk]
      refine ih _ _ k hx hc ?_
      intro q y hq hne hy
      have := h (i :: q) y (List.cons_prefix_cons.mpr ⟨rfl, hq⟩) (by simpa using hne)
        (by rw [at?, hk]; exact hy)
      rw [nameFrom, hk] at this
      exact this

theorem at_append (m x : Mod) (p r : List Nat) (hx : at? m p = some x) :
    at? m (p ++ r) = at? x r := by
  induction p generalizing m with
  | nil => rw [at?] at hx; injection hx with hx; rw [List.nil_append, hx]
  | cons i p ih =>
    rw [at?] at hx
    rw [List.cons_append, at?]
    cases hk : m.kids[i]? with
    | none => rw [hk] at hx; cases hx
    | some k => rw [hk] at hx; exact ih k hx

theorem assign_at (ns : List String) (c : QCfg) (m y : Mod) (p : List Nat)
    (hy : at? (assign ns c m) p = some y) (ht : y.type ∉ ns) :
    ∃ x : Mod, at? m p = some x ∧ y.own = x.own := by
  induction p generalizing m with
  | nil =>
    rw [at?] at hy
    injection hy with hy
    subst hy
    rw [assign_type] at ht
    exact ⟨m, rfl, by rw [assign_own, if_neg (by simpa using ht)]⟩
  | cons i p ih =>
    rw [at?, assign_kids] at hy
    rw [at?]
    by_cases h : ns.contains m.type = true
    · rw [if_pos h] at hy
      exact ⟨y, hy, rfl⟩
    · rw [if_neg h, List.getElem?_map] at hy
      cases hk : m.kids[i]? with
      | none => rw [hk] at hy; cases hy
      | some k => rw [hk] at hy; exact ih k hy

theorem lstm_at (c : QCfg) (m y : Mod) (p : List Nat)
    (hy : at? (assignLstm c m) p = some y) (ht : y.type ≠ "LSTM") :
    ∃ x : Mod, at? m p = some x ∧ y.own = x.own ∧ y.type = x.type := by
  induction p generalizing m with
  | nil =>
    rw [at?] at hy
    injection hy with hy
    subst hy
    rw [lstm_type] at ht
    exact ⟨m, rfl, by rw [lstm_own, if_neg ht], lstm_type c m⟩
  | cons i p ih =>
    rw [at?, lstm_kids, List.getElem?_map] at hy
    rw [at?]
    cases hk : m.kids[i]? with
    | none => rw [hk] at hy; cases hy
    | some k => rw [hk] at hy; exact ih k hy

theorem at_setOwn (m : Mod) (c : QCfg) (p : List Nat) (hp : p ≠ []) :
    at? (m.setOwn c) p = at? m p := by
  cases p with
  | nil => exact absurd rfl hp
  | cons i p => cases m; rfl

theorem eff_clear (c : QCfg) (c1 : Option QCfg) (m : Mod) (r : List Nat) (z : Mod)
    (hz : at? m r = some z) (h0 : pick m.own c1 = some c)
    (h : ∀ (q : List Nat) (y : Mod), q <+: r → q ≠ [] → at? m q = some y → y.own = none) :
    eff c1 m r = some c := by
  induction r generalizing m c1 with
  | nil => rw [eff, h0]
  | cons i r ih =>
    rw [at?] at hz
    rw [eff]
    cases hk : m.kids[i]? with
    | none => rw [hk] at hz; cases hz
    | some k =>
      rw [hk] at hz
      have hown : k.own = none :=
        h [i] k (List.cons_prefix_cons.mpr ⟨rfl, List.nil_prefix⟩) (by simp)
          (by rw [at?, hk]; rfl)
      refine ih _ k hz (by rw [hown]; exact h0) ?_
      intro q y hq _ hy
      exact h (i :: q) y (List.cons_prefix_cons.mpr ⟨rfl, hq⟩) (by simp) (by rw [at?, hk]; exact hy)

end Verif.Lemmas.QConfigs
