import Verif.Spec.FromState
/-! C161: layers whose construction was not seen are written with the settings they have. -/

namespace Verif.Props
open Verif.Model.FromState Verif.Spec.FromState

theorem readBody_plain (s : List Char) (h : PlainText s) : readBody '"' s = some s := by
  induction s with
  | nil => rfl
  | cons c r ih =>
    have hc := h c (by simp)
    have hr := ih (fun d hd => h d (by simp [hd]))
    rw [readBody]
    · simp [hc.1, hc.2.1, hc.2.2, hr]
    · intro d r' he _
      exact hc.2.1 he

theorem read_esc (q : Char) (hq : q = '"' ∨ q = '\'') (c : Char) (r : List Char) : readBody q (esc q c ++ r) = (readBody q r).map (c :: ·) := by
  have hs : q ≠ '\\' ∧ q ≠ 'n' ∧ q ≠ '\n' := by rcases hq with rfl | rfl <;> decide
  by_cases h1 : c = '\\'
  · subst h1
    simp only [esc, if_true, List.cons_append, List.nil_append]
    rw [readBody]
    simp only [unesc, List.cons_append, List.nil_append]
    rfl
  · by_cases h2 : c = '\n'
    · subst h2
      simp only [esc, h1, if_false, if_true, List.cons_append, List.nil_append]
      rw [readBody]
      simp only [unesc, if_true, List.cons_append, List.nil_append]
    · by_cases h3 : c = q
      · subst h3
        simp only [esc, h1, h2, if_false, if_true, List.cons_append, List.nil_append]
        rw [readBody]
        rcases hq with rfl | rfl <;> simp [unesc]
      · simp only [esc, h1, h2, h3, if_false, List.cons_append, List.nil_append]
        rw [readBody]
        · simp [h1, h2, h3]
        · intro d r' he _
          exact h1 he

theorem read_flat (q : Char) (hq : q = '"' ∨ q = '\'') (s : List Char) : readBody q (s.flatMap (esc q)) = some s := by
  induction s with
  | nil => rfl
  | cons c r ih => rw [List.flatMap_cons, read_esc q hq, ih]; rfl

theorem read_repr (s : List Char) : readSrc (pyRepr s) = some (.str s) := by
  unfold pyRepr
  by_cases h : (s.contains '\'' && !s.contains '"') = true
  · rw [if_pos h]; simp [readSrc, read_flat '"' (Or.inl rfl)]
  · rw [if_neg h]; simp [readSrc, read_flat '\'' (Or.inr rfl)]

/-- What the optional parameters become. -/
theorem opt_args (l : Layer) (opt : List Param) (hself : ∀ p ∈ opt, p.name ≠ "self") (hk : ∀ p ∈ opt, p.name ∈ l.constants ∨ p.name ∈ l.simple)
    (hd : ∀ p ∈ opt, p.dflt.isSome) (hs : ∀ p ∈ opt, ∀ s, l.attr p.name = some (.str s) → PlainText s) :
    ∃ as k, argsOf l opt = some as ∧ readArgs as = some ([], k) ∧ (∀ n v, (n, v) ∈ k → l.attr n = some v ∧ ∃ p ∈ opt, p.name = n) ∧
      (∀ p ∈ opt, ∀ v, l.attr p.name = some v → p.dflt ≠ some v → (p.name, v) ∈ k) := by
  induction opt with
  | nil => exact ⟨[], [], rfl, rfl, by simp, by simp⟩
  | cons p ps ih =>
    obtain ⟨as, k, h1, h2, h3, h4⟩ := ih (fun q hq => hself q (by simp [hq])) (fun q hq => hk q (by simp [hq])) (fun q hq => hd q (by simp [hq])) (fun q hq => hs q (by simp [hq]))
    have hkn : known l p = true := by
      have := hk p (by simp)
      simpa [known] using this
    have hn := hself p (by simp)
    obtain ⟨d, hdv⟩ := Option.isSome_iff_exists.mp (hd p (by simp))
    cases ha : l.attr p.name with
    | none =>
      refine ⟨as, k, by simp [argsOf, hn, hkn, hdv, ha, h1], h2, ?_, ?_⟩
      · intro n v hm
        obtain ⟨e1, q, hq, e2⟩ := h3 n v hm
        exact ⟨e1, q, by simp [hq], e2⟩
      · intro q hq v hv hne
        rcases List.mem_cons.mp hq with rfl | hq
        · rw [ha] at hv; cases hv
        · exact h4 q hq v hv hne
    | some v =>
      by_cases he : d = v
      · refine ⟨as, k, by simp [argsOf, hn, hkn, hdv, ha, he, h1], h2, ?_, ?_⟩
        · intro n w hm
          obtain ⟨e1, q, hq, e2⟩ := h3 n w hm
          exact ⟨e1, q, by simp [hq], e2⟩
        · intro q hq w hv hne
          rcases List.mem_cons.mp hq with rfl | hq
          · rw [ha] at hv
            exact absurd (by rw [hdv, he]; exact hv) hne
          · exact h4 q hq w hv hne
      · have hread : readSrc (quotedText v) = some v := by
          cases v with
          | other n => rfl
          | str s => simp [quotedText, readSrc, readBody_plain s (hs p (by simp) s ha)]
        refine ⟨.kw p.name (quotedText v) :: as, (p.name, v) :: k, by simp [argsOf, hn, hkn, hdv, ha, he, h1], by simp [readArgs, hread, h2], ?_, ?_⟩
        · intro n w hm
          rcases List.mem_cons.mp hm with e | hm
          · cases e; exact ⟨ha, p, by simp, rfl⟩
          · obtain ⟨e1, q, hq, e2⟩ := h3 n w hm
            exact ⟨e1, q, by simp [hq], e2⟩
        · intro q hq w hv hne
          rcases List.mem_cons.mp hq with rfl | hq
          · rw [ha] at hv; cases hv; simp
          · exact List.mem_cons_of_mem _ (h4 q hq w hv hne)

theorem fs_lookup_mem (k : List (String × Val)) (n : String) (v : Val) (h : k.lookup n = some v) : (n, v) ∈ k := by
  induction k with
  | nil => cases h
  | cons e r ih =>
    obtain ⟨m, w⟩ := e
    by_cases hm : n = m
    · subst hm; simp [List.lookup] at h; simp [h]
    · have : (n == m) = false := by simp [hm]
      simp [List.lookup, this] at h
      exact List.mem_cons_of_mem _ (ih h)

theorem fs_mem_lookup (k : List (String × Val)) (n : String) (v : Val) (h : (n, v) ∈ k) : (k.lookup n).isSome := by
  induction k with
  | nil => cases h
  | cons e r ih =>
    obtain ⟨m, w⟩ := e
    by_cases hm : n = m
    · subst hm; simp [List.lookup]
    · have h2 : (n == m) = false := by simp [hm]
      simp only [List.lookup, h2]
      rcases List.mem_cons.mp h with e | h
      · cases e; exact absurd rfl hm
      · exact ih h

theorem bind_opt (l : Layer) (k : List (String × Val)) (opt : List Param) (hd : ∀ p ∈ opt, p.dflt.isSome) (h3 : ∀ n v, (n, v) ∈ k → l.attr n = some v)
    (h4 : ∀ p ∈ opt, ∀ v, l.attr p.name = some v → p.dflt ≠ some v → (p.name, v) ∈ k) : bindTo opt [] k = some (settings l opt) := by
  induction opt with
  | nil => rfl
  | cons p ps ih =>
    have hr := ih (fun q hq => hd q (by simp [hq])) (fun q hq => h4 q (by simp [hq]))
    obtain ⟨d, hdv⟩ := Option.isSome_iff_exists.mp (hd p (by simp))
    have hset : settings l ps = settings l ps := rfl
    cases hl : k.lookup p.name with
    | some v =>
      have ha := h3 _ _ (fs_lookup_mem k _ _ hl)
      simp [bindTo, hl, hr, settings, ha]
    | none =>
      cases ha : l.attr p.name with
      | none => simp [bindTo, hl, hdv, hr, settings, ha]
      | some v =>
        by_cases he : p.dflt = some v
        · have : d = v := by rw [hdv] at he; exact Option.some.inj he
          simp [bindTo, hl, hdv, hr, settings, ha, this]
        · have := fs_mem_lookup k _ _ (h4 p (by simp) v ha he)
          rw [hl] at this; cases this

/-- A layer of one of the classes written parameter by parameter: when all parameters of its constructor are known to be attributes, the required ones come first, are there and are no strings, and strings need no
escapes, the text runs and gives every parameter the value the layer has, or its default if the layer has none.  Full property: for all layers, see the `_false` theorems. -/
theorem C161_settings_partial (l : Layer) (req opt : List Param) (hnd : ((req ++ opt).map Param.name).Nodup) (hself : ∀ p ∈ req ++ opt, p.name ≠ "self")
    (hk : ∀ p ∈ req ++ opt, p.name ∈ l.constants ∨ p.name ∈ l.simple) (hreq : ∀ p ∈ req, p.dflt = none ∧ ∃ n, l.attr p.name = some (.other n)) (hd : ∀ p ∈ opt, p.dflt.isSome)
    (hs : ∀ p ∈ opt, ∀ s, l.attr p.name = some (.str s) → PlainText s) :
    ∃ as, argsOf l (req ++ opt) = some as ∧ call (req ++ opt) as = some (settings l (req ++ opt)) := by
  obtain ⟨ao, k, h1, h2, h3, h4⟩ := opt_args l opt (fun p hp => hself p (by simp [hp])) (fun p hp => hk p (by simp [hp])) hd hs
  have hb := bind_opt l k opt hd (fun n v hm => (h3 n v hm).1) h4
  have key : ∀ r : List Param, (∀ p ∈ r, p.name ≠ "self") → (∀ p ∈ r, p.name ∈ l.constants ∨ p.name ∈ l.simple) → (∀ p ∈ r, p.dflt = none ∧ ∃ n, l.attr p.name = some (.other n)) →
      (∀ p ∈ r, p.name ∉ opt.map Param.name) → ∃ as vs, argsOf l (r ++ opt) = some as ∧ readArgs as = some (vs, k) ∧ bindTo (r ++ opt) vs k = some (settings l (r ++ opt)) := by
    intro r
    induction r with
    | nil => intro _ _ _ _; exact ⟨ao, [], h1, h2, hb⟩
    | cons p ps ih =>
      intro hs1 hk1 hr1 hn1
      obtain ⟨as, vs, e1, e2, e3⟩ := ih (fun q hq => hs1 q (by simp [hq])) (fun q hq => hk1 q (by simp [hq])) (fun q hq => hr1 q (by simp [hq])) (fun q hq => hn1 q (by simp [hq]))
      obtain ⟨hpd, n, hpa⟩ := hr1 p (by simp)
      have hkn : known l p = true := by
        have := hk1 p (by simp)
        simpa [known] using this
      have hlk : k.lookup p.name = none := by
        cases hl : k.lookup p.name with
        | none => rfl
        | some v =>
          obtain ⟨_, q, hq, hqn⟩ := h3 _ _ (fs_lookup_mem k _ _ hl)
          exact absurd (List.mem_map.mpr ⟨q, hq, hqn⟩) (hn1 p (by simp))
      refine ⟨.pos (.other n) :: as, .other n :: vs, ?_, ?_, ?_⟩
      · simp [argsOf, hs1 p (by simp), hkn, hpd, hpa, bareText, e1]
      · simp [readArgs, readSrc, e2]
      · rw [List.cons_append, bindTo, hlk]
        have : settings l (p :: (ps ++ opt)) = (p.name, .other n) :: settings l (ps ++ opt) := by simp [settings, hpa]
        rw [this, e3]
        rfl
  have hdisj : ∀ p ∈ req, p.name ∉ opt.map Param.name := by
    intro p hp hm
    rw [List.map_append, List.nodup_append] at hnd
    exact hnd.2.2 p.name (List.mem_map.mpr ⟨p, hp, rfl⟩) p.name hm rfl
  obtain ⟨as, vs, e1, e2, e3⟩ := key req (fun p hp => hself p (by simp [hp])) (fun p hp => hk p (by simp [hp])) hreq hdisj
  refine ⟨as, e1, ?_⟩
  have hall : (k.all fun e => (req ++ opt).any fun p => p.name == e.1) = true := by
    rw [List.all_eq_true]
    intro e he
    obtain ⟨_, q, hq, hqn⟩ := h3 e.1 e.2 he
    rw [List.any_eq_true]
    exact ⟨q, by simp [hq], by simp [hqn]⟩
  simp only [call, e2, hall, if_true, e3]

/-- `torch.nn.Upsample(scale_factor=2, mode="bilinear")`. -/
def upsample : Layer :=
  ⟨["size", "scale_factor", "mode", "align_corners", "name", "recompute_scale_factor"], [],
    fun n => if n = "size" then some (.other 0) else if n = "scale_factor" then some (.other 2) else if n = "mode" then some (.str "bilinear".toList) else if n = "align_corners" then some (.other 0)
      else none⟩

def upsampleParams : List Param :=
  [⟨"size", some (.other 0)⟩, ⟨"scale_factor", some (.other 0)⟩, ⟨"mode", some (.str "nearest".toList)⟩, ⟨"align_corners", some (.other 0)⟩, ⟨"recompute_scale_factor", some (.other 0)⟩]

example : argsOf upsample upsampleParams = some [.kw "scale_factor" (.other 2), .kw "mode" (.dq "bilinear".toList)] ∧
    call upsampleParams [.kw "scale_factor" (.other 2), .kw "mode" (.dq "bilinear".toList)] =
      some [("size", .other 0), ("scale_factor", .other 2), ("mode", .str "bilinear".toList), ("align_corners", .other 0), ("recompute_scale_factor", .other 0)] := by
  decide +kernel

/-- The hypotheses hold for a layer with a required argument. -/
example : ∃ as, argsOf ⟨["kernel_size", "output_size"], [], fun n => if n = "kernel_size" then some (.other 3) else if n = "output_size" then some (.other 7) else none⟩
      [⟨"kernel_size", none⟩, ⟨"output_size", some (.other 0)⟩] = some as ∧
    call [⟨"kernel_size", none⟩, ⟨"output_size", some (.other 0)⟩] as = some [("kernel_size", .other 3), ("output_size", .other 7)] :=
  C161_settings_partial ⟨["kernel_size", "output_size"], [], fun n => if n = "kernel_size" then some (.other 3) else if n = "output_size" then some (.other 7) else none⟩
    [⟨"kernel_size", none⟩] [⟨"output_size", some (.other 0)⟩] (by decide) (by decide) (by decide)
    (by intro p hp; simp at hp; subst hp; exact ⟨rfl, 3, by decide⟩) (by decide) (by intro p hp s h; simp at hp; subst hp; simp at h)

/-- A string `extra_repr` reads in a line that is neither a condition nor uses `repr` is written as a string, and so is one it puts through `repr(self....)`: both give the string back. -/
theorem C161_strings_partial (ln : Line) (cv : Conv) (s : List Char)
    (h : (cv = .plain ∧ (ln.viaDict = true ∨ (ln.startsIf = false ∧ ln.reprSelf = false)) ∧ PlainText s) ∨ (cv = .repr ∧ ln.viaDict = false ∧ (ln.reprSelf = true ∨ ln.startsIf = true))) :
    readSrc (reprText ln cv s) = some (.str s) := by
  rcases h with ⟨rfl, hl, hp⟩ | ⟨rfl, hv, hl⟩
  · have : patched ln = true := by
      rcases hl with h | ⟨h1, h2⟩
      · simp [patched, h]
      · simp [patched, h1, h2]
    simp [reprText, this, readSrc, readBody_plain s hp]
  · have : patched ln = false := by
      rcases hl with h | h <;> simp [patched, hv, h]
    simp only [reprText, seen, this]
    exact read_repr s

example : readSrc (reprText ⟨true, false, false⟩ .plain "reflect".toList) = some (.str "reflect".toList) :=
  C161_strings_partial _ _ _ (Or.inl ⟨rfl, Or.inl rfl, by unfold PlainText; decide⟩)

example : readSrc (reprText ⟨false, false, true⟩ .repr "it's \"so\"".toList) = some (.str "it's \"so\"".toList) :=
  C161_strings_partial _ _ _ (Or.inr ⟨rfl, rfl, Or.inl rfl⟩)

/-- When the line converts the string with `{self.x!r}` instead of `repr(self.x)`, the value that is read back has two more characters: its own quotes. -/
theorem C161_quoted_twice (ln : Line) (s : List Char) (h : ln.viaDict = true ∨ (ln.startsIf = false ∧ ln.reprSelf = false)) :
    readSrc (reprText ln .repr s) = some (.str ('"' :: s ++ ['"'])) := by
  have : patched ln = true := by
    rcases h with h | ⟨h1, h2⟩
    · simp [patched, h]
    · simp [patched, h1, h2]
  simp only [reprText, seen, this, if_true]
  exact read_repr _

example : readSrc (reprText ⟨false, false, false⟩ .repr "tanh".toList) = some (.str "\"tanh\"".toList) := C161_quoted_twice _ _ (Or.inr ⟨rfl, rfl⟩)

/-- A string written plainly in a line that also has `repr(self....)`, or that starts with `if`, comes without quotes, whatever it is: the text is no value. -/
theorem C161_unquoted (ln : Line) (s : List Char) (hv : ln.viaDict = false) (h : ln.startsIf = true ∨ ln.reprSelf = true) : readSrc (reprText ln .plain s) = none := by
  have : patched ln = false := by
    rcases h with h | h <;> simp [patched, hv, h]
  simp [reprText, this, readSrc]

example : readSrc (reprText ⟨false, false, true⟩ .plain "mean".toList) = none := C161_unquoted _ _ rfl (Or.inr rfl)

/-- A required parameter that is not among the constants of the class is left out without a value, so the call fails: no layer of such a class can be written.  This is the case of
`TransformerEncoderLayer`, whose `d_model` and `nhead` are no constants. -/
theorem C161_required_missing (l : Layer) (p : Param) (opt : List Param) (hd : p.dflt = none) (hp : p.name ∉ l.constants) (hc : p.name ∉ l.simple) (hself : p.name ≠ "self")
    (ho : ∀ q ∈ opt, q.dflt.isSome ∧ q.name ≠ p.name) (as : List Arg) (ha : argsOf l (p :: opt) = some as) : call (p :: opt) as = none := by
  have hkn : known l p = false := by simp [known, hp, hc]
  rw [argsOf, if_neg hself] at ha
  simp only [hkn] at ha
  have hkw : ∀ (opt : List Param) (as : List Arg), (∀ q ∈ opt, q.dflt.isSome ∧ q.name ≠ p.name) → argsOf l opt = some as → ∀ a k, readArgs as = some (a, k) → a = [] ∧ k.lookup p.name = none := by
    intro opt
    induction opt with
    | nil =>
      intro as _ h a k hr
      simp [argsOf] at h; subst h
      simp [readArgs] at hr
      obtain ⟨rfl, rfl⟩ := hr
      exact ⟨rfl, rfl⟩
    | cons q qs ih =>
      intro as ho h a k hr
      obtain ⟨hqd, hqn⟩ := ho q (by simp)
      obtain ⟨d, hdv⟩ := Option.isSome_iff_exists.mp hqd
      have ih' := fun as h => ih as (fun x hx => ho x (by simp [hx])) h
      by_cases hs : q.name = "self"
      · rw [argsOf, if_pos hs] at h; exact ih' as h a k hr
      · rw [argsOf, if_neg hs] at h
        by_cases hk : known l q = true
        · rw [if_pos hk, hdv] at h
          cases hat : l.attr q.name with
          | none => rw [hat] at h; exact ih' as h a k hr
          | some v =>
            rw [hat] at h
            by_cases hdv2 : d = v
            · simp only [hdv2, if_true] at h; exact ih' as h a k hr
            · simp only [hdv2, if_false] at h
              cases hq : argsOf l qs with
              | none => rw [hq] at h; cases h
              | some as' =>
                rw [hq] at h
                simp at h; subst h
                rw [readArgs] at hr
                cases hrs : readSrc (quotedText v) with
                | none => rw [hrs] at hr; simp at hr
                | some w =>
                  cases hra : readArgs as' with
                  | none => rw [hrs, hra] at hr; simp at hr
                  | some ak =>
                    obtain ⟨a', k'⟩ := ak
                    obtain ⟨e1, e2⟩ := ih' as' hq a' k' hra
                    subst e1
                    rw [hrs, hra] at hr
                    simp at hr
                    obtain ⟨r1, r2⟩ := hr
                    subst r1; subst r2
                    refine ⟨rfl, ?_⟩
                    have : (p.name == q.name) = false := by simp [Ne.symm hqn]
                    simp [List.lookup, this, e2]
        · rw [if_neg hk] at h; exact ih' as h a k hr
  cases hr : readArgs as with
  | none => simp [call, hr]
  | some ak =>
    obtain ⟨a, k⟩ := ak
    obtain ⟨e1, e2⟩ := hkw opt as ho ha a k hr
    subst e1
    simp only [call, hr, bindTo, e2, hd]
    by_cases hc2 : (k.all fun e => (p :: opt).any fun p => p.name == e.1) = true
    · rw [if_pos hc2]
    · rw [if_neg hc2]

example : argsOf ⟨["batch_first"], [], fun n => if n = "batch_first" then some (.other 1) else none⟩ [⟨"d_model", none⟩, ⟨"batch_first", some (.other 0)⟩] = some [.kw "batch_first" (.other 1)] := by
  decide +kernel

/-- So the property fails for a `TransformerEncoderLayer`. -/
theorem C161_required_false : ∃ (l : Layer) (ps : List Param) (as : List Arg), (∀ p ∈ ps, p.dflt = none → ∃ n, l.attr p.name = some (.other n)) ∧ argsOf l ps = some as ∧ call ps as ≠ some (settings l ps) :=
  ⟨⟨["batch_first"], [], fun _ => some (.other 4)⟩, [⟨"d_model", none⟩, ⟨"nhead", none⟩, ⟨"batch_first", some (.other 0)⟩], [.kw "batch_first" (.other 4)],
    by intro p _ _; exact ⟨4, rfl⟩, by decide +kernel, by decide +kernel⟩

/-- When a parameter that is left out has a default, the call goes through and the value is lost (`_random_samples` of `FractionalMaxPool2d`, which is a buffer and no constant). -/
theorem C161_optional_false : ∃ (l : Layer) (ps : List Param) (as : List Arg), l.attr "_random_samples" = some (.other 5) ∧ argsOf l ps = some as ∧
    call ps as = some [("kernel_size", .other 3), ("_random_samples", .other 0)] :=
  ⟨⟨["kernel_size"], [], fun n => if n = "kernel_size" then some (.other 3) else if n = "_random_samples" then some (.other 5) else none⟩,
    [⟨"kernel_size", none⟩, ⟨"_random_samples", some (.other 0)⟩], [.pos (.other 3)], by decide +kernel, by decide +kernel, by decide +kernel⟩

/-- A required string is written without quotes. -/
theorem C161_required_string_false : ∃ (l : Layer) (ps : List Param) (as : List Arg), l.attr "mode" = some (.str "sum".toList) ∧ argsOf l ps = some as ∧ call ps as = none :=
  ⟨⟨["mode"], [], fun _ => some (.str "sum".toList)⟩, [⟨"mode", none⟩], [.pos (.bare "sum".toList)], by decide +kernel, by decide +kernel, by decide +kernel⟩

/-- A string with a backslash reads back as another string, and one with a quote is no string literal. -/
theorem C161_escape_false : argsOf ⟨["name"], [], fun _ => some (.str "a\\n".toList)⟩ [⟨"name", some (.other 0)⟩] = some [.kw "name" (.dq "a\\n".toList)] ∧
    call [⟨"name", some (.other 0)⟩] [.kw "name" (.dq "a\\n".toList)] = some [("name", .str "a\n".toList)] ∧
    argsOf ⟨["name"], [], fun _ => some (.str "a\"b".toList)⟩ [⟨"name", some (.other 0)⟩] = some [.kw "name" (.dq "a\"b".toList)] ∧
    call [⟨"name", some (.other 0)⟩] [.kw "name" (.dq "a\"b".toList)] = none := by
  decide +kernel

end Verif.Props
