import Verif.Model.FlatFile
import Mathlib.Tactic.Common
import Mathlib.Data.List.Forall2

/-!
C139: what a reader finds in the file that is written.
-/

namespace Verif.Props
open Verif.Spec.FlatFile Verif.Model.FlatSchema Verif.Model.FlatFile

theorem same_eq : ∀ (a b : Obj), same a b = true → a = b := by
  intro a b h
  cases a <;> cases b <;> simp_all [same]

theorem wrap32_id (x : ℤ) (h1 : -2147483648 ≤ x) (h2 : x ≤ 2147483647) : wrap32 x = x := by
  unfold wrap32
  rw [Int.bmod_def]
  split <;> omega

theorem wrap64_id (x : ℤ) (h1 : -9223372036854775808 ≤ x) (h2 : x ≤ 9223372036854775807) : Int.bmod x 18446744073709551616 = x := by
  rw [Int.bmod_def]
  split <;> omega

/-- The numbers of a list are 32-bit integers. -/
def All32 (l : List ℤ) : Prop := ∀ x ∈ l, -2147483648 ≤ x ∧ x ≤ 2147483647

theorem int32s_id (l : List ℤ) (h : All32 l) : int32s l = .ints l := by
  unfold int32s
  congr 1
  conv_rhs => rw [← List.map_id l]
  exact List.map_congr_left fun x hx => wrap32_id x (h x hx).1 (h x hx).2

theorem offsetVector_id (l : List Obj) : offsetVector l = .objs l := by
  unfold offsetVector
  rw [List.foldl_reverse]
  congr 1
  induction l with
  | nil => rfl
  | cons a l ih => simp [ih]

theorem lookup_append_of_none {l l' : List (ℕ × Obj)} {k : ℕ} (h : l.lookup k = none) : (l ++ l').lookup k = l'.lookup k := by
  rw [List.lookup_append, h, Option.none_or]

theorem lookup_out (f32 : ℚ → ℚ) (id : ℕ) : ∀ (l : List (Slot × Obj)) (t : List (ℕ × Obj)), writeTable f32 l = some t → id ∉ l.map (·.1.slot) → t.lookup id = none
  | [], t, h, _ => by
    obtain rfl := Option.some.inj h
    rfl
  | (s, v) :: l, t, h, hn => by
    unfold writeTable at h
    by_cases ha : accepted s.kind v
    · rw [if_pos ha] at h
      obtain ⟨t', ht', rfl⟩ := Option.map_eq_some_iff.mp h
      rw [lookup_append_of_none (lookup_out f32 id l t' ht' fun hm => hn (List.mem_cons_of_mem _ hm))]
      by_cases hs : same v s.dflt
      · rw [if_pos hs]
        rfl
      · rw [if_neg hs, List.lookup_cons]
        have : (id == s.slot) = false := beq_eq_false_iff_ne.mpr fun e => hn (by rw [e]; exact List.mem_cons_self)
        rw [this]
        rfl
    · rw [if_neg ha] at h
      simp at h

theorem lookup_in (f32 : ℚ → ℚ) : ∀ (l : List (Slot × Obj)) (t : List (ℕ × Obj)), writeTable f32 l = some t → (l.map (·.1.slot)).Nodup → ∀ (s : Slot) (v : Obj), (s, v) ∈ l →
    t.lookup s.slot = if same v s.dflt then none else some (stored f32 v)
  | [], t, h, _, s, v, hm => by simp at hm
  | (s', v') :: l, t, h, hnd, s, v, hm => by
    unfold writeTable at h
    by_cases ha : accepted s'.kind v'
    · rw [if_pos ha] at h
      obtain ⟨t', ht', rfl⟩ := Option.map_eq_some_iff.mp h
      obtain ⟨hn, hnd'⟩ := List.nodup_cons.mp hnd
      rcases List.mem_cons.mp hm with he | hm'
      · obtain ⟨rfl, rfl⟩ := Prod.mk.inj he
        rw [lookup_append_of_none (lookup_out f32 _ l t' ht' hn)]
        by_cases hs : same v s.dflt
        · rw [if_pos hs, if_pos hs]
          rfl
        · rw [if_neg hs, if_neg hs, List.lookup_cons]
          simp
      · rw [List.lookup_append, lookup_in f32 l t' ht' hnd' s v hm']
        by_cases hs : same v s.dflt
        · rw [if_pos hs, Option.none_or]
          have hne : s.slot ≠ s'.slot := fun e => hn (by
            show s'.slot ∈ _
            rw [← e]
            exact List.mem_map.mpr ⟨(s, v), hm', rfl⟩)
          by_cases hs' : same v' s'.dflt
          · rw [if_pos hs']
            rfl
          · rw [if_neg hs', List.lookup_cons, beq_eq_false_iff_ne.mpr hne]
            rfl
        · rw [if_neg hs]
          rfl
    · rw [if_neg ha] at h
      simp at h

theorem write_some (f32 : ℚ → ℚ) : ∀ (l : List (Slot × Obj)), (∀ p ∈ l, accepted p.1.kind p.2 = true) → ∃ t, writeTable f32 l = some t
  | [], _ => ⟨[], rfl⟩
  | (s, v) :: l, h => by
    obtain ⟨t, ht⟩ := write_some f32 l fun p hp => h p (List.mem_cons_of_mem _ hp)
    exact ⟨_, by
      unfold writeTable
      rw [if_pos (h (s, v) List.mem_cons_self), ht]
      rfl⟩

/-- A table that was written reads back: the fields written have their values, the others their defaults. -/
theorem table_reads (f32 : ℚ → ℚ) (l : List (Slot × Obj)) (h : ∀ p ∈ l, accepted p.1.kind p.2 = true) (hnd : (l.map (·.1.slot)).Nodup) (hd : ∀ p ∈ l, stored f32 p.1.dflt = p.1.dflt) :
    ∃ o, table f32 l = some o ∧ (∀ s v, (s, v) ∈ l → get o s.slot s.dflt = stored f32 v) ∧ (∀ id d, id ∉ l.map (·.1.slot) → get o id d = d) := by
  obtain ⟨t, ht⟩ := write_some f32 l h
  refine ⟨.table t, by unfold table; rw [ht]; rfl, fun s v hm => ?_, fun id d hn => ?_⟩
  · show (t.lookup s.slot).getD s.dflt = _
    rw [lookup_in f32 l t ht hnd s v hm]
    by_cases hs : same v s.dflt
    · rw [if_pos hs]
      have := same_eq _ _ hs
      rw [this]
      exact (hd (s, v) hm).symm
    · rw [if_neg hs]
      rfl
  · show (t.lookup id).getD d = d
    rw [lookup_out f32 id l t ht hn]
    rfl

/-- The fields of the options with a given name. -/
def fieldsOf (name : String) : List Field := (fields.lookup name).getD []

/-- Whether a call writes a field of the schema. -/
def callOk (a : Slot × String × Src) (f : Field) : Bool :=
  decide (a.2.1 = f.name) && decide (a.1.slot = f.id) && same a.1.dflt f.dflt &&
    match a.2.2 with
    | .direct => decide (a.1.kind = f.kind) && decide (f.kind ≠ .off ∧ f.kind ≠ .ints ∧ f.kind ≠ .nums ∧ f.kind ≠ .str)
    | .int32s => decide (a.1.kind = .off) && decide (f.kind = .ints)
    | .fails => false

/-- Whether a class writes what the schema has for its operator. -/
def classOk (c : OpClass) : Bool :=
  operators.any fun e => decide (e.1 = c.op) && decide (e.2.1 = c.code) &&
    (match c.union with
      | none => decide (e.2.2 = "NONE") && c.adds.isEmpty
      | some u => decide (unions[u.toNat]? = some e.2.2) && decide (0 ≤ u ∧ u ≤ 255)) &&
    decide ((c.adds.map (·.1.slot)).Nodup) && (fieldsOf e.2.2).all (fun f => c.adds.any fun a => callOk a f) && c.adds.all fun a => (fieldsOf e.2.2).any fun f => callOk a f

theorem classes_ok : ∀ c ∈ opClasses, c.name ≠ "BucketizeOperator" → c.name ≠ "VarHandleOperator" → classOk c = true := by decide +kernel

/-- Whether a default is not a number with a fraction, so that single precision keeps it. -/
def plainDefault : Obj → Bool
  | .num x => decide (x = 0)
  | _ => true

theorem stored_plain (f32 : ℚ → ℚ) (hf : f32 0 = 0) (o : Obj) (h : plainDefault o = true) : stored f32 o = o := by
  cases o <;> simp_all [plainDefault, stored]

theorem defaults_plain : ∀ c ∈ opClasses, ∀ a ∈ c.adds, plainDefault a.1.dflt = true := by decide +kernel

theorem mapM_all_some {α β : Type} (f : α → Option β) (g : α → β) : ∀ (l : List α), (∀ a ∈ l, f a = some (g a)) → l.mapM f = some (l.map g)
  | [], _ => rfl
  | a :: l, h => by
    rw [List.mapM_cons, h a List.mem_cons_self, mapM_all_some f g l fun x hx => h x (List.mem_cons_of_mem _ hx)]
    rfl

theorem callOk_arg (f32 : ℚ → ℚ) (a : Slot × String × Src) (f : Field) (attrs : String → Obj) (h : callOk a f = true) (hfit : Fits f.kind (attrs f.name)) :
    ∃ v, arg attrs a.2 = some v ∧ accepted a.1.kind v = true ∧ stored f32 v = kept f32 (attrs f.name) ∧ a.1.slot = f.id ∧ a.1.dflt = f.dflt := by
  unfold callOk at h
  obtain ⟨h', h4⟩ := (Bool.and_eq_true _ _).mp h
  obtain ⟨h'', h3⟩ := (Bool.and_eq_true _ _).mp h'
  obtain ⟨h1, h2⟩ := (Bool.and_eq_true _ _).mp h''
  have e1 := of_decide_eq_true h1
  have e2 := of_decide_eq_true h2
  have e3 := same_eq _ _ h3
  clear h1 h2 h3 h' h'' h
  obtain ⟨s, n, src⟩ := a
  dsimp only at e1 e2 e3 h4 ⊢
  subst e1
  cases src with
  | direct =>
    dsimp only at h4
    obtain ⟨h5, h6⟩ := (Bool.and_eq_true _ _).mp h4
    have h5 := of_decide_eq_true h5
    have h6 := of_decide_eq_true h6
    refine ⟨attrs f.name, rfl, ?_, ?_, e2, e3⟩
    · rw [h5]
      revert hfit h6
      cases f.kind <;> cases attrs f.name <;> simp [Fits, accepted]
    · revert hfit h6
      cases f.kind <;> cases attrs f.name <;> simp [Fits, stored, kept]
  | int32s =>
    dsimp only at h4
    obtain ⟨h5, h6⟩ := (Bool.and_eq_true _ _).mp h4
    have h5 := of_decide_eq_true h5
    have h6 := of_decide_eq_true h6
    rw [h6] at hfit
    cases ha : attrs f.name with
    | ints l =>
      rw [ha] at hfit
      refine ⟨int32s l, by simp [arg, ha], by rw [h5]; rfl, ?_, e2, e3⟩
      rw [int32s_id l hfit]
      rfl
    | _ => rw [ha] at hfit; simp [Fits] at hfit
  | fails => simp at h4

/-- What the options of a class read as. -/
theorem options_read (f32 : ℚ → ℚ) (hf : f32 0 = 0) (c : OpClass) (hc : c ∈ opClasses) (attrs : String → Obj) (F : List Field) (hnd : (c.adds.map (·.1.slot)).Nodup)
    (h1 : ∀ f ∈ F, ∃ a ∈ c.adds, callOk a f = true) (h2 : ∀ a ∈ c.adds, ∃ f ∈ F, callOk a f = true) (hfit : ∀ f ∈ F, Fits f.kind (attrs f.name)) :
    ∃ o, optionsBuild f32 c attrs = some o ∧ accepted .off o = true ∧ ∀ f ∈ F, get o f.id f.dflt = kept f32 (attrs f.name) := by
  have hm : c.adds.mapM (fun a => (arg attrs a.2).map fun v => (a.1, v)) = some (c.adds.map fun a => (a.1, (arg attrs a.2).getD .null)) := by
    refine mapM_all_some _ _ _ fun a ha => ?_
    obtain ⟨f, hf', hok⟩ := h2 a ha
    obtain ⟨v, hv, _⟩ := callOk_arg f32 a f attrs hok (hfit f hf')
    rw [hv]
    rfl
  have hslots : (c.adds.map fun a => (a.1, (arg attrs a.2).getD .null)).map (fun p : Slot × Obj => p.1.slot) = c.adds.map (·.1.slot) := by
    rw [List.map_map]
    rfl
  obtain ⟨o, ho, hin, _⟩ := table_reads f32 (c.adds.map fun a => (a.1, (arg attrs a.2).getD .null)) (by
      intro p hp
      obtain ⟨a, ha, rfl⟩ := List.mem_map.mp hp
      obtain ⟨f, hf', hok⟩ := h2 a ha
      obtain ⟨v, hv, hacc, _⟩ := callOk_arg f32 a f attrs hok (hfit f hf')
      dsimp only
      rw [hv]
      exact hacc) (by rw [hslots]; exact hnd) (by
      intro p hp
      obtain ⟨a, ha, rfl⟩ := List.mem_map.mp hp
      exact stored_plain f32 hf _ (defaults_plain c hc a ha))
  refine ⟨o, by unfold optionsBuild; rw [hm]; exact ho, ?_, fun f hf' => ?_⟩
  · obtain ⟨t, _, rfl⟩ := Option.map_eq_some_iff.mp ho
    rfl
  · obtain ⟨a, ha, hok⟩ := h1 f hf'
    obtain ⟨v, hv, _, hst, hid, hd⟩ := callOk_arg f32 a f attrs hok (hfit f hf')
    have := hin a.1 ((arg attrs a.2).getD .null) (List.mem_map.mpr ⟨a, ha, rfl⟩)
    rw [hid, hd, hv] at this
    exact this.trans hst

/-- The indices of an operator are 32-bit integers. -/
structure Indices (o : Op) : Prop where
  index : 0 ≤ o.index ∧ o.index ≤ 4294967295
  inputs : All32 o.inputs
  outputs : All32 o.outputs
  intermediates : All32 o.intermediates

theorem names_ok : ∀ c ∈ opClasses, letters c.name = letters c.op ++ letters "Operator" := by decide +kernel

/-- What belongs to an operator in the list of codes: a builtin operator has the code its options go with, a custom one that of `CUSTOM`. -/
def CodeReads (o : Op) (r : CodeRec) : Prop :=
  r.version = o.version ∧ r.custom = o.customCode ∧ match o.kind with
    | .builtin c _ => ∃ e ∈ operators, letters c.name = letters e.1 ++ letters "Operator" ∧ r.code = e.2.1
    | .custom _ => ("CUSTOM", r.code, "NONE") ∈ operators

/-- What belongs to an operator in the file: the indices, and the options, with the type of the schema for the operator and the values of the attributes in their fields. -/
inductive OpReads (f32 : ℚ → ℚ) (o : Op) (r : OpRec) : Prop
  | builtin (c : OpClass) (attrs : String → Obj) (name : String) (hk : o.kind = .builtin c attrs) (hname : letters c.name = letters c.op ++ letters "Operator") (hop : (c.op, c.code, name) ∈ operators) (hu : 0 ≤ r.union ∧ unions[r.union.toNat]? = some name)
    (hopt : ∀ f ∈ fieldsOf name, get r.options f.id f.dflt = kept f32 (attrs f.name)) (hc : r.customOptions = none)
    (h : r.index = o.index ∧ r.inputs = o.inputs ∧ r.outputs = o.outputs ∧ r.intermediates = o.intermediates)
  | custom (b : Option (List ℕ)) (hk : o.kind = .custom b) (hu : r.union = 0) (hc : r.customOptions = b)
    (h : r.index = o.index ∧ r.inputs = o.inputs ∧ r.outputs = o.outputs ∧ r.intermediates = o.intermediates)

/-- An operator that fits the file: the attributes its operator has in the schema have values of the right type. -/
def OpFits (o : Op) : Prop :=
  Indices o ∧ ∀ c attrs, o.kind = .builtin c attrs → c ∈ opClasses ∧ c.name ≠ "BucketizeOperator" ∧ c.name ≠ "VarHandleOperator" ∧
    ∀ e ∈ operators, e.1 = c.op → ∀ f ∈ fieldsOf e.2.2, Fits f.kind (attrs f.name)

theorem common_ok (o : Op) (h : Indices o) : ∀ p ∈ o.common, accepted p.1.kind p.2 = true := by
  intro p hp
  simp only [Op.common, List.mem_cons, List.not_mem_nil, or_false] at hp
  rcases hp with rfl | rfl | rfl | rfl
  · exact decide_eq_true h.index
  · rfl
  · rfl
  · rfl

theorem readOp_of (x : Obj) (i : ℤ) (a b c : List ℤ) (u : ℤ) (h0 : get x 0 (.int 0) = .int i) (h1 : get x 1 .null = .ints a) (h2 : get x 2 .null = .ints b) (h8 : get x 8 .null = .ints c)
    (h3 : get x 3 (.int 0) = .int u) (h5 : get x 5 .null = .null) : readOp x = some ⟨i, a, b, c, u, get x 4 .null, none⟩ := by
  unfold readOp
  rw [h0, h1, h2, h8, h3, h5]

theorem readOp_of_custom (x : Obj) (i : ℤ) (a b c : List ℤ) (u : ℤ) (d : List ℕ) (h0 : get x 0 (.int 0) = .int i) (h1 : get x 1 .null = .ints a) (h2 : get x 2 .null = .ints b)
    (h8 : get x 8 .null = .ints c) (h3 : get x 3 (.int 0) = .int u) (h5 : get x 5 .null = .bytes d) : readOp x = some ⟨i, a, b, c, u, get x 4 .null, some d⟩ := by
  unfold readOp
  rw [h0, h1, h2, h8, h3, h5]

theorem common_mem (o : Op) (h : Indices o) : (OperatorAddOpcodeIndex, Obj.int o.index) ∈ o.common ∧ (OperatorAddInputs, Obj.ints o.inputs) ∈ o.common ∧ (OperatorAddOutputs, Obj.ints o.outputs) ∈ o.common ∧
    (OperatorAddIntermediates, Obj.ints o.intermediates) ∈ o.common := by
  unfold Op.common
  rw [int32s_id _ h.inputs, int32s_id _ h.outputs, int32s_id _ h.intermediates]
  simp

theorem custom_mem : ("CUSTOM", Verif.Model.FlatSchema.custom, "NONE") ∈ operators := by decide +kernel

theorem class_operator (c : OpClass) (hc : c ∈ opClasses) (hn1 : c.name ≠ "BucketizeOperator") (hn2 : c.name ≠ "VarHandleOperator") : ∃ e ∈ operators, e.1 = c.op ∧ e.2.1 = c.code := by
  have hok := classes_ok c hc hn1 hn2
  unfold classOk at hok
  obtain ⟨e, he, hok⟩ := List.any_eq_true.mp hok
  obtain ⟨hok, hb⟩ := (Bool.and_eq_true _ _).mp hok
  obtain ⟨hok, ha⟩ := (Bool.and_eq_true _ _).mp hok
  obtain ⟨hok, hnd⟩ := (Bool.and_eq_true _ _).mp hok
  obtain ⟨hok, hun⟩ := (Bool.and_eq_true _ _).mp hok
  obtain ⟨hop, hcode⟩ := (Bool.and_eq_true _ _).mp hok
  exact ⟨e, he, of_decide_eq_true hop, of_decide_eq_true hcode⟩

/-- C139, in part: an operator of any class is read back with its indices and with its options, each in the field the schema has for it. -/
theorem C139_operator_partial (f32 : ℚ → ℚ) (hf : f32 0 = 0) (o : Op) (h : OpFits o) : ∃ x r, o.build f32 = some x ∧ readOp x = some r ∧ OpReads f32 o r := by
  obtain ⟨hi, hk⟩ := h
  obtain ⟨m0, m1, m2, m8⟩ := common_mem o hi
  cases hkind : o.kind with
  | builtin c attrs =>
    obtain ⟨hc, hn1, hn2, hfit⟩ := hk c attrs hkind
    have hok := classes_ok c hc hn1 hn2
    unfold classOk at hok
    obtain ⟨e, he, hok⟩ := List.any_eq_true.mp hok
    obtain ⟨hok, hb⟩ := (Bool.and_eq_true _ _).mp hok
    obtain ⟨hok, ha⟩ := (Bool.and_eq_true _ _).mp hok
    obtain ⟨hok, hnd⟩ := (Bool.and_eq_true _ _).mp hok
    obtain ⟨hok, hun⟩ := (Bool.and_eq_true _ _).mp hok
    obtain ⟨hop, hcode⟩ := (Bool.and_eq_true _ _).mp hok
    have hop := of_decide_eq_true hop
    have hcode := of_decide_eq_true hcode
    have hnd := of_decide_eq_true hnd
    have ha := List.all_eq_true.mp ha
    have hb := List.all_eq_true.mp hb
    obtain ⟨opts, hopts, hacc, hread⟩ := options_read f32 hf c hc attrs (fieldsOf e.2.2) hnd (fun f hf' => List.any_eq_true.mp (ha f hf')) (fun a ha' => List.any_eq_true.mp (hb a ha')) (hfit e he hop)
    have hmem : (c.op, c.code, e.2.2) ∈ operators := by
      rw [← hop, ← hcode]
      exact he
    cases hu : c.union with
    | none =>
      rw [hu] at hun
      obtain ⟨hnone, hemp⟩ := (Bool.and_eq_true _ _).mp hun
      have hnone := of_decide_eq_true hnone
      obtain ⟨x, hx, hin, hout⟩ := table_reads f32 o.common (common_ok o hi) (by unfold Op.common; show List.Nodup [0, 1, 2, 8]; decide) (by
        intro p hp
        simp only [Op.common, List.mem_cons, List.not_mem_nil, or_false] at hp
        rcases hp with rfl | rfl | rfl | rfl <;> rfl)
      have h3 : get x 3 (.int 0) = .int 0 := hout 3 (.int 0) (by unfold Op.common; show 3 ∉ [0, 1, 2, 8]; decide)
      have h5 : get x 5 .null = .null := hout 5 .null (by unfold Op.common; show 5 ∉ [0, 1, 2, 8]; decide)
      have h4 : get x 4 .null = .null := hout 4 .null (by unfold Op.common; show 4 ∉ [0, 1, 2, 8]; decide)
      refine ⟨x, _, ?_, readOp_of x o.index o.inputs o.outputs o.intermediates 0 (hin _ _ m0) (hin _ _ m1) (hin _ _ m2) (hin _ _ m8) h3 h5, ?_⟩
      · unfold Op.build
        rw [hkind]
        dsimp only
        rw [hu]
        exact hx
      · refine .builtin c attrs e.2.2 hkind (names_ok c hc) hmem ⟨Int.le_refl 0, by rw [hnone]; rfl⟩ ?_ rfl ⟨rfl, rfl, rfl, rfl⟩
        rw [hnone]
        intro f hf'
        exact absurd hf' (by rw [show fieldsOf "NONE" = [] by decide +kernel]; simp)
    | some u =>
      rw [hu] at hun
      obtain ⟨hname, hur⟩ := (Bool.and_eq_true _ _).mp hun
      have hname := of_decide_eq_true hname
      have hur := of_decide_eq_true hur
      obtain ⟨x, hx, hin, hout⟩ := table_reads f32 (o.common ++ [(OperatorAddBuiltinOptionsType, .int u), (OperatorAddBuiltinOptions, opts)]) (by
        intro p hp
        rcases List.mem_append.mp hp with hp | hp
        · exact common_ok o hi p hp
        · simp only [List.mem_cons, List.not_mem_nil, or_false] at hp
          rcases hp with rfl | rfl
          · exact decide_eq_true hur
          · exact hacc) (by unfold Op.common; show List.Nodup [0, 1, 2, 8, 3, 4]; decide) (by
        intro p hp
        simp only [Op.common, List.cons_append, List.nil_append, List.mem_cons, List.not_mem_nil, or_false] at hp
        rcases hp with rfl | rfl | rfl | rfl | rfl | rfl <;> rfl)
      have h3 : get x 3 (.int 0) = .int u := hin OperatorAddBuiltinOptionsType (.int u) (by simp)
      have h4 : get x 4 .null = stored f32 opts := hin OperatorAddBuiltinOptions opts (by simp)
      have h5 : get x 5 .null = .null := hout 5 .null (by unfold Op.common; show 5 ∉ [0, 1, 2, 8, 3, 4]; decide)
      have hso : stored f32 opts = opts := by
        revert hacc
        cases opts <;> simp [accepted, stored]
      refine ⟨x, _, ?_, readOp_of x o.index o.inputs o.outputs o.intermediates u (hin _ _ (List.mem_append_left _ m0)) (hin _ _ (List.mem_append_left _ m1)) (hin _ _ (List.mem_append_left _ m2))
        (hin _ _ (List.mem_append_left _ m8)) h3 h5, ?_⟩
      · unfold Op.build
        rw [hkind]
        dsimp only
        rw [hu]
        dsimp only
        rw [hopts]
        exact hx
      · refine .builtin c attrs e.2.2 hkind (names_ok c hc) hmem ⟨hur.1, hname⟩ ?_ rfl ⟨rfl, rfl, rfl, rfl⟩
        dsimp only
        rw [h4, hso]
        exact hread
  | custom b =>
    cases b with
    | none =>
      obtain ⟨x, hx, hin, hout⟩ := table_reads f32 (o.common ++ [(OperatorAddBuiltinOptionsType, .int 0), (OperatorAddBuiltinOptions, .null)] ++ []) (by
        intro p hp
        rw [List.append_nil] at hp
        rcases List.mem_append.mp hp with hp | hp
        · exact common_ok o hi p hp
        · simp only [List.mem_cons, List.not_mem_nil, or_false] at hp
          rcases hp with rfl | rfl <;> rfl) (by unfold Op.common; show List.Nodup [0, 1, 2, 8, 3, 4]; decide) (by
        intro p hp
        simp only [Op.common, List.cons_append, List.nil_append, List.append_nil, List.mem_cons, List.not_mem_nil, or_false] at hp
        rcases hp with rfl | rfl | rfl | rfl | rfl | rfl <;> rfl)
      have mem : ∀ p, p ∈ o.common → p ∈ o.common ++ [(OperatorAddBuiltinOptionsType, Obj.int 0), (OperatorAddBuiltinOptions, .null)] ++ [] := fun p hp => List.mem_append_left _ (List.mem_append_left _ hp)
      have h3 : get x 3 (.int 0) = .int 0 := hin OperatorAddBuiltinOptionsType (.int 0) (by simp)
      have h5 : get x 5 .null = .null := hout 5 .null (by unfold Op.common; show 5 ∉ [0, 1, 2, 8, 3, 4]; decide)
      refine ⟨x, _, ?_, readOp_of x o.index o.inputs o.outputs o.intermediates 0 (hin _ _ (mem _ m0)) (hin _ _ (mem _ m1)) (hin _ _ (mem _ m2)) (hin _ _ (mem _ m8)) h3 h5, ?_⟩
      · unfold Op.build
        rw [hkind]
        exact hx
      · exact .custom none hkind rfl rfl ⟨rfl, rfl, rfl, rfl⟩
    | some d =>
      obtain ⟨x, hx, hin, hout⟩ := table_reads f32 (o.common ++ [(OperatorAddBuiltinOptionsType, .int 0), (OperatorAddBuiltinOptions, .null)] ++
          [(OperatorAddCustomOptionsFormat, .int flexbuffers), (OperatorAddCustomOptions, .bytes d)]) (by
        intro p hp
        rcases List.mem_append.mp hp with hp | hp
        · rcases List.mem_append.mp hp with hp | hp
          · exact common_ok o hi p hp
          · simp only [List.mem_cons, List.not_mem_nil, or_false] at hp
            rcases hp with rfl | rfl <;> rfl
        · simp only [List.mem_cons, List.not_mem_nil, or_false] at hp
          rcases hp with rfl | rfl <;> rfl) (by unfold Op.common; show List.Nodup [0, 1, 2, 8, 3, 4, 6, 5]; decide) (by
        intro p hp
        simp only [Op.common, List.cons_append, List.nil_append, List.mem_cons, List.not_mem_nil, or_false] at hp
        rcases hp with rfl | rfl | rfl | rfl | rfl | rfl | rfl | rfl <;> rfl)
      have mem : ∀ p, p ∈ o.common → p ∈ o.common ++ [(OperatorAddBuiltinOptionsType, Obj.int 0), (OperatorAddBuiltinOptions, .null)] ++
          [(OperatorAddCustomOptionsFormat, .int flexbuffers), (OperatorAddCustomOptions, .bytes d)] := fun p hp => List.mem_append_left _ (List.mem_append_left _ hp)
      have h3 : get x 3 (.int 0) = .int 0 := hin OperatorAddBuiltinOptionsType (.int 0) (by simp)
      have h5 : get x 5 .null = .bytes d := hin OperatorAddCustomOptions (.bytes d) (by simp)
      refine ⟨x, _, ?_, readOp_of_custom x o.index o.inputs o.outputs o.intermediates 0 d (hin _ _ (mem _ m0)) (hin _ _ (mem _ m1)) (hin _ _ (mem _ m2)) (hin _ _ (mem _ m8)) h3 h5, ?_⟩
      · unfold Op.build
        rw [hkind]
        exact hx
      · exact .custom (some d) hkind rfl rfl ⟨rfl, rfl, rfl, rfl⟩

/-- What is expected of a tensor in the file. -/
def tensorRec (f32 : ℚ → ℚ) (t : Tensor) (ty : ℤ) : TensorRec :=
  ⟨t.shape, ty, t.buffer.getD 0, t.name, t.quant.map fun q => ⟨q.scale.map f32, q.zp, q.dim.getD 0⟩, t.isVariable⟩

/-- A tensor that fits the file. -/
structure TensorFits (t : Tensor) : Prop where
  shape : All32 t.shape
  buffer : 0 ≤ t.buffer.getD 0 ∧ t.buffer.getD 0 ≤ 4294967295
  zp : ∀ q, t.quant = some q → ∀ z ∈ q.zp, -9223372036854775808 ≤ z ∧ z ≤ 9223372036854775807
  dim : ∀ q, t.quant = some q → -2147483648 ≤ q.dim.getD 0 ∧ q.dim.getD 0 ≤ 2147483647

theorem mem_of_lookup {β : Type} (k : String) (v : β) : ∀ (l : List (String × β)), l.lookup k = some v → (k, v) ∈ l
  | [], h => by simp at h
  | (k', v') :: l, h => by
    rw [List.lookup_cons] at h
    by_cases e : k = k'
    · rw [beq_iff_eq.mpr e] at h
      obtain rfl := Option.some.inj h
      rw [e]
      exact List.mem_cons_self
    · rw [beq_eq_false_iff_ne.mpr e] at h
      exact List.mem_cons_of_mem _ (mem_of_lookup k v l h)

theorem dtypes_ok : ∀ p ∈ tensorTypes, dtypes.lookup p.1 = some p.2 ∧ -128 ≤ p.2 ∧ p.2 ≤ 127 := by decide +kernel

theorem quant_reads (f32 : ℚ → ℚ) (q : Quant) (hz : ∀ z ∈ q.zp, -9223372036854775808 ≤ z ∧ z ≤ 9223372036854775807) (hd : -2147483648 ≤ q.dim.getD 0 ∧ q.dim.getD 0 ≤ 2147483647) :
    ∃ x, q.build f32 = some x ∧ accepted .off x = true ∧ readQuant x = some (some ⟨q.scale.map f32, q.zp, q.dim.getD 0⟩) := by
  have hzp : q.zp.map (fun z => Int.bmod z 18446744073709551616) = q.zp := by
    conv_rhs => rw [← List.map_id q.zp]
    exact List.map_congr_left fun z hz' => wrap64_id z (hz z hz').1 (hz z hz').2
  obtain ⟨s, z, d⟩ := q
  dsimp only at hzp hd ⊢
  cases d with
  | none =>
    obtain ⟨x, hx, hin, hout⟩ := table_reads f32 ([(QuantizationParametersAddMin, .null), (QuantizationParametersAddMax, .null), (QuantizationParametersAddScale, .nums (s.map f32)), (QuantizationParametersAddZeroPoint, .ints z)] ++ [])
      (by
        intro p hp
        simp only [List.append_nil, List.mem_cons, List.not_mem_nil, or_false] at hp
        rcases hp with rfl | rfl | rfl | rfl <;> rfl) (by show List.Nodup [0, 1, 2, 3]; decide) (by
        intro p hp
        simp only [List.append_nil, List.mem_cons, List.not_mem_nil, or_false] at hp
        rcases hp with rfl | rfl | rfl | rfl <;> rfl)
    have h2 : get x 2 .null = .nums (s.map f32) := hin QuantizationParametersAddScale (.nums (s.map f32)) (by simp)
    have h3 : get x 3 .null = .ints z := hin QuantizationParametersAddZeroPoint (.ints z) (by simp)
    have h6 : get x 6 (.int 0) = .int 0 := hout 6 (.int 0) (by show 6 ∉ [0, 1, 2, 3]; decide)
    refine ⟨x, ?_, ?_, ?_⟩
    · unfold Quant.build
      dsimp only
      rw [hzp]
      exact hx
    · obtain ⟨t, _, rfl⟩ := Option.map_eq_some_iff.mp hx
      rfl
    · obtain ⟨t, _, rfl⟩ := Option.map_eq_some_iff.mp hx
      unfold readQuant
      dsimp only
      rw [h2, h3, h6]
      rfl
  | some d =>
    obtain ⟨x, hx, hin, hout⟩ := table_reads f32 ([(QuantizationParametersAddMin, .null), (QuantizationParametersAddMax, .null), (QuantizationParametersAddScale, .nums (s.map f32)), (QuantizationParametersAddZeroPoint, .ints z)] ++
        [(QuantizationParametersAddQuantizedDimension, .int d)])
      (by
        intro p hp
        simp only [List.cons_append, List.nil_append, List.mem_cons, List.not_mem_nil, or_false] at hp
        rcases hp with rfl | rfl | rfl | rfl | rfl
        · rfl
        · rfl
        · rfl
        · rfl
        · exact decide_eq_true hd) (by show List.Nodup [0, 1, 2, 3, 6]; decide) (by
        intro p hp
        simp only [List.cons_append, List.nil_append, List.mem_cons, List.not_mem_nil, or_false] at hp
        rcases hp with rfl | rfl | rfl | rfl | rfl <;> rfl)
    have h2 : get x 2 .null = .nums (s.map f32) := hin QuantizationParametersAddScale (.nums (s.map f32)) (by simp)
    have h3 : get x 3 .null = .ints z := hin QuantizationParametersAddZeroPoint (.ints z) (by simp)
    have h6 : get x 6 (.int 0) = .int d := hin QuantizationParametersAddQuantizedDimension (.int d) (by simp)
    refine ⟨x, ?_, ?_, ?_⟩
    · unfold Quant.build
      dsimp only
      rw [hzp]
      exact hx
    · obtain ⟨t, _, rfl⟩ := Option.map_eq_some_iff.mp hx
      rfl
    · obtain ⟨t, _, rfl⟩ := Option.map_eq_some_iff.mp hx
      unfold readQuant
      dsimp only
      rw [h2, h3, h6]
      rfl

/-- C139: a tensor of a type the format has is read back with its shape, type, buffer, name, quantization (scales in single precision) and kind. -/
theorem C139_tensor (f32 : ℚ → ℚ) (t : Tensor) (ty : ℤ) (hty : tensorTypes.lookup t.dtype = some ty) (h : TensorFits t) : ∃ x, t.build f32 = some x ∧ readTensor x = some (tensorRec f32 t ty) := by
  obtain ⟨hl, h1, h2⟩ := dtypes_ok _ (mem_of_lookup _ _ _ hty)
  dsimp only at hl h1 h2
  have hq : ∃ x, (match t.quant with
      | some q => q.build f32
      | none => some .null) = some x ∧ accepted .off x = true ∧ readQuant x = some (t.quant.map fun q => ⟨q.scale.map f32, q.zp, q.dim.getD 0⟩) := by
    cases hq : t.quant with
    | none => exact ⟨.null, rfl, rfl, rfl⟩
    | some q => exact quant_reads f32 q (h.zp q hq) (h.dim q hq)
  obtain ⟨q, hq1, hq2, hq3⟩ := hq
  obtain ⟨x, hx, hin, -⟩ := table_reads f32 [(TensorAddBuffer, .int (t.buffer.getD 0)), (TensorAddIsVariable, .bool t.isVariable), (TensorAddName, .str t.name), (TensorAddShape, .ints t.shape), (TensorAddType, .int ty),
      (TensorAddQuantization, q)] (by
    intro p hp
    simp only [List.mem_cons, List.not_mem_nil, or_false] at hp
    rcases hp with rfl | rfl | rfl | rfl | rfl | rfl
    · exact decide_eq_true h.buffer
    · rfl
    · rfl
    · rfl
    · exact decide_eq_true ⟨h1, h2⟩
    · exact hq2) (by show List.Nodup [2, 5, 3, 0, 1, 4]; decide) (by
    intro p hp
    simp only [List.mem_cons, List.not_mem_nil, or_false] at hp
    rcases hp with rfl | rfl | rfl | rfl | rfl | rfl <;> rfl)
  refine ⟨x, ?_, ?_⟩
  · unfold Tensor.build
    rw [hl, Option.bind_some, int32s_id _ h.shape]
    exact (congrArg (fun z => Option.bind z fun q => table f32 [(TensorAddBuffer, .int (t.buffer.getD 0)), (TensorAddIsVariable, .bool t.isVariable), (TensorAddName, .str t.name), (TensorAddShape, .ints t.shape),
      (TensorAddType, .int ty), (TensorAddQuantization, q)]) hq1).trans hx
  · have g0 : get x 0 .null = .ints t.shape := hin TensorAddShape (.ints t.shape) (by simp)
    have g1 : get x 1 (.int 0) = .int ty := hin TensorAddType (.int ty) (by simp)
    have g2 : get x 2 (.int 0) = .int (t.buffer.getD 0) := hin TensorAddBuffer (.int (t.buffer.getD 0)) (by simp)
    have g3 : get x 3 .null = .str t.name := hin TensorAddName (.str t.name) (by simp)
    have g4 : get x 4 .null = q := by
      have : get x 4 .null = stored f32 q := hin TensorAddQuantization q (by simp)
      rw [this]
      revert hq2
      cases q <;> simp [accepted, stored]
    have g5 : get x 5 (.bool false) = .bool t.isVariable := hin TensorAddIsVariable (.bool t.isVariable) (by simp)
    unfold readTensor
    rw [g0, g1, g2, g3, g4, hq3, g5]
    rfl

/-- C139: the code of an operator is read back, below and above the codes old files could hold. -/
theorem C139_code (f32 : ℚ → ℚ) (c : OpCode) (h : 0 ≤ c.code ∧ c.code ≤ 2147483647) (hv : -2147483648 ≤ c.version ∧ c.version ≤ 2147483647) :
    ∃ x, c.build f32 = some x ∧ readCode x = some ⟨c.code, c.version, c.custom⟩ := by
  obtain ⟨code, version, cust⟩ := c
  dsimp only at h hv ⊢
  have hacc : ∀ p ∈ (if code < placeholder then [(OperatorCodeAddDeprecatedBuiltinCode, Obj.int code)] else []) ++ [(OperatorCodeAddBuiltinCode, .int code), (OperatorCodeAddVersion, .int version)] ++
      (match cust with
        | some s => [(OperatorCodeAddCustomCode, Obj.str s)]
        | none => []), accepted p.1.kind p.2 = true ∧ stored f32 p.1.dflt = p.1.dflt := by
    intro p hp
    rcases List.mem_append.mp hp with hp | hp
    · rcases List.mem_append.mp hp with hp | hp
      · by_cases hlt : code < placeholder
        · rw [if_pos hlt] at hp
          obtain rfl := List.mem_singleton.mp hp
          have : code < 127 := hlt
          exact ⟨decide_eq_true ⟨by omega, by omega⟩, rfl⟩
        · rw [if_neg hlt] at hp
          simp at hp
      · simp only [List.mem_cons, List.not_mem_nil, or_false] at hp
        rcases hp with rfl | rfl
        · exact ⟨decide_eq_true ⟨by omega, by omega⟩, rfl⟩
        · exact ⟨decide_eq_true hv, rfl⟩
    · cases cust with
      | none => simp at hp
      | some s =>
        obtain rfl := List.mem_singleton.mp hp
        exact ⟨rfl, rfl⟩
  obtain ⟨x, hx, hin, hout⟩ := table_reads f32 _ (fun p hp => (hacc p hp).1) (by
    by_cases hlt : code < placeholder <;> cases cust
    · rw [if_pos hlt]; show List.Nodup [0, 3, 2]; decide
    · rw [if_pos hlt]; show List.Nodup [0, 3, 2, 1]; decide
    · rw [if_neg hlt]; show List.Nodup [3, 2]; decide
    · rw [if_neg hlt]; show List.Nodup [3, 2, 1]; decide) (fun p hp => (hacc p hp).2)
  refine ⟨x, hx, ?_⟩
  have g3 : get x 3 (.int 0) = .int code := hin OperatorCodeAddBuiltinCode (.int code) (by simp)
  have g2 : get x 2 (.int 1) = .int version := hin OperatorCodeAddVersion (.int version) (by simp)
  have g0 : ∃ d, get x 0 (.int 0) = .int d ∧ max d code = code := by
    by_cases hlt : code < placeholder
    · exact ⟨code, hin OperatorCodeAddDeprecatedBuiltinCode (.int code) (by rw [if_pos hlt]; simp), by omega⟩
    · refine ⟨0, hout 0 (.int 0) ?_, by omega⟩
      rw [if_neg hlt]
      cases cust
      · show 0 ∉ [3, 2]; decide
      · show 0 ∉ [3, 2, 1]; decide
  obtain ⟨d, g0, hmax⟩ := g0
  unfold readCode
  cases cust with
  | none =>
    have g1 : get x 1 .null = .null := hout 1 .null (by
      by_cases hlt : code < placeholder
      · rw [if_pos hlt]; show 1 ∉ [0, 3, 2]; decide
      · rw [if_neg hlt]; show 1 ∉ [3, 2]; decide)
    rw [g0, g1, g2, g3]
    dsimp only
    rw [hmax]
  | some s =>
    have g1 : get x 1 .null = .str s := hin OperatorCodeAddCustomCode (.str s) (by simp)
    rw [g0, g1, g2, g3]
    dsimp only
    rw [hmax]

theorem buffer_reads (f32 : ℚ → ℚ) (data : List ℕ) : ∃ x, bufferBuild f32 data = some x ∧ readBuffer x = some data := by
  obtain ⟨x, hx, hin, -⟩ := table_reads f32 [(BufferAddData, if data.length ≠ 0 then Obj.bytes data else .null)] (by
    intro p hp
    obtain rfl := List.mem_singleton.mp hp
    dsimp only
    by_cases h : data.length ≠ 0
    · rw [if_pos h]; rfl
    · rw [if_neg h]; rfl) (by show List.Nodup [0]; decide) (by
    intro p hp
    obtain rfl := List.mem_singleton.mp hp
    rfl)
  refine ⟨x, hx, ?_⟩
  have g0 : get x 0 .null = stored f32 (if data.length ≠ 0 then Obj.bytes data else .null) := hin BufferAddData (if data.length ≠ 0 then Obj.bytes data else .null) (by simp)
  unfold readBuffer
  rw [g0]
  by_cases h : data.length ≠ 0
  · rw [if_pos h]
    rfl
  · rw [if_neg h]
    have : data = [] := List.length_eq_zero_iff.mp (not_not.mp h)
    rw [this]
    rfl

/-- Building and reading lists part by part. -/
theorem mapM_reads {α β γ : Type} (build : α → Option β) (read : β → Option γ) (R : α → γ → Prop) : ∀ (l : List α), (∀ a ∈ l, ∃ x r, build a = some x ∧ read x = some r ∧ R a r) →
    ∃ xs rs, l.mapM build = some xs ∧ xs.mapM read = some rs ∧ List.Forall₂ R l rs
  | [], _ => ⟨[], [], rfl, rfl, .nil⟩
  | a :: l, h => by
    obtain ⟨x, r, h1, h2, h3⟩ := h a List.mem_cons_self
    obtain ⟨xs, rs, h4, h5, h6⟩ := mapM_reads build read R l fun b hb => h b (List.mem_cons_of_mem _ hb)
    refine ⟨x :: xs, r :: rs, ?_, ?_, .cons h3 h6⟩
    · rw [List.mapM_cons, h1, h4]; rfl
    · rw [List.mapM_cons, h2, h5]; rfl

/-- C139, in part: reading a file that was built gives back the inputs and outputs, the tensors, the operators, their codes and the buffers, each list in its order.
Missing: operators with options that cannot be written (`C139_bucketize_false`, `C139_var_handle_false`). -/
theorem C139_file_partial (f32 : ℚ → ℚ) (hf : f32 0 = 0) (ops : List Op) (tensors : List Tensor) (buffers : List (List ℕ)) (inputs outputs : List ℤ) (ho : ∀ o ∈ ops, OpFits o)
    (hv : ∀ o ∈ ops, -2147483648 ≤ o.version ∧ o.version ≤ 2147483647) (ht : ∀ t ∈ tensors, TensorFits t ∧ (tensorTypes.lookup t.dtype).isSome) (hi : All32 inputs) (hout : All32 outputs) :
    ∃ x m, buildModel f32 ops tensors buffers inputs outputs = some x ∧ readModel x = some m ∧ m.version = 3 ∧ m.inputs = inputs ∧ m.outputs = outputs ∧ m.buffers = buffers ∧
      List.Forall₂ (fun t r => ∃ ty, tensorTypes.lookup t.dtype = some ty ∧ r = tensorRec f32 t ty) tensors m.tensors ∧ List.Forall₂ (OpReads f32) ops m.ops ∧
      List.Forall₂ CodeReads ops m.codes := by
  obtain ⟨ts, trs, ht1, ht2, ht3⟩ := mapM_reads (Tensor.build f32) readTensor (fun t r => ∃ ty, tensorTypes.lookup t.dtype = some ty ∧ r = tensorRec f32 t ty) tensors fun t hm => by
    obtain ⟨hfit, hty⟩ := ht t hm
    obtain ⟨ty, hty⟩ := Option.isSome_iff_exists.mp hty
    obtain ⟨x, hx, hr⟩ := C139_tensor f32 t ty hty hfit
    exact ⟨x, _, hx, hr, ty, hty, rfl⟩
  obtain ⟨os, ors, ho1, ho2, ho3⟩ := mapM_reads (Op.build f32) readOp (OpReads f32) ops fun o hm => C139_operator_partial f32 hf o (ho o hm)
  have hcodes : ∀ c ∈ opClasses, 0 ≤ c.code ∧ c.code ≤ 2147483647 := by decide +kernel
  obtain ⟨cs, crs, hc1, hc2, hc3⟩ := mapM_reads (fun o : Op => o.opCode.build f32) readCode CodeReads ops fun o hm => by
    have hcode : (0 ≤ o.opCode.code ∧ o.opCode.code ≤ 2147483647) ∧ o.opCode.version = o.version ∧ o.opCode.custom = o.customCode := by
      unfold Op.opCode
      cases hk : o.kind with
      | builtin c attrs => exact ⟨hcodes c ((ho o hm).2 c attrs hk).1, rfl, rfl⟩
      | custom b => exact ⟨⟨(by decide : (0 : ℤ) ≤ Verif.Model.FlatSchema.custom), (by decide : Verif.Model.FlatSchema.custom ≤ 2147483647)⟩, rfl, rfl⟩
    obtain ⟨x, hx, hr⟩ := C139_code f32 o.opCode hcode.1 (by rw [hcode.2.1]; exact hv o hm)
    refine ⟨x, _, hx, hr, hcode.2.1, hcode.2.2, ?_⟩
    unfold Op.opCode
    cases hk : o.kind with
    | builtin c attrs =>
      obtain ⟨hc, hn1, hn2, _⟩ := (ho o hm).2 c attrs hk
      obtain ⟨e, he, hop, hcode'⟩ := class_operator c hc hn1 hn2
      exact ⟨e, he, by rw [hop]; exact names_ok c hc, hcode'.symm⟩
    | custom b => exact custom_mem
  obtain ⟨bs, brs, hb1, hb2, hb3⟩ := mapM_reads (bufferBuild f32) readBuffer (fun a r => a = r) buffers fun b _ => by
    obtain ⟨x, hx, hr⟩ := buffer_reads f32 b
    exact ⟨x, b, hx, hr, rfl⟩
  obtain ⟨g, hg, gin, -⟩ := table_reads f32 [(SubGraphAddInputs, .ints inputs), (SubGraphAddOutputs, .ints outputs), (SubGraphAddName, .str "main_graph"), (SubGraphAddTensors, .objs ts), (SubGraphAddOperators, .objs os)] (by
    intro p hp
    simp only [List.mem_cons, List.not_mem_nil, or_false] at hp
    rcases hp with rfl | rfl | rfl | rfl | rfl <;> rfl) (by show List.Nodup [1, 2, 4, 0, 3]; decide) (by
    intro p hp
    simp only [List.mem_cons, List.not_mem_nil, or_false] at hp
    rcases hp with rfl | rfl | rfl | rfl | rfl <;> rfl)
  obtain ⟨x, hx, xin, -⟩ := table_reads f32 [(ModelAddBuffers, .objs bs), (ModelAddDescription, .str "TinyNeuralNetwork Converted."), (ModelAddVersion, .int 3), (ModelAddOperatorCodes, .objs cs), (ModelAddSubgraphs, .objs [g])] (by
    intro p hp
    simp only [List.mem_cons, List.not_mem_nil, or_false] at hp
    rcases hp with rfl | rfl | rfl | rfl | rfl <;> rfl) (by show List.Nodup [4, 3, 0, 1, 2]; decide) (by
    intro p hp
    simp only [List.mem_cons, List.not_mem_nil, or_false] at hp
    rcases hp with rfl | rfl | rfl | rfl | rfl <;> rfl)
  have hbs : brs = buffers := (List.forall₂_eq_eq_eq ▸ hb3 : buffers = brs).symm
  refine ⟨x, ⟨3, crs, trs, inputs, outputs, ors, brs⟩, ?_, ?_, rfl, rfl, rfl, hbs, ht3, ho3, hc3⟩
  · unfold buildModel subGraphBuild modelBuild
    rw [ht1, Option.bind_some, ho1, Option.bind_some, hc1, Option.bind_some, hb1, Option.bind_some, int32s_id _ hi, int32s_id _ hout]
    simp only [offsetVector_id]
    rw [hg, Option.bind_some]
    exact hx
  · have x0 : get x 0 (.int 0) = .int 3 := xin ModelAddVersion (.int 3) (by simp)
    have x1 : get x 1 .null = .objs cs := xin ModelAddOperatorCodes (.objs cs) (by simp)
    have x2 : get x 2 .null = .objs [g] := xin ModelAddSubgraphs (.objs [g]) (by simp)
    have x4 : get x 4 .null = .objs bs := xin ModelAddBuffers (.objs bs) (by simp)
    have g0 : get g 0 .null = .objs ts := gin SubGraphAddTensors (.objs ts) (by simp)
    have g1 : get g 1 .null = .ints inputs := gin SubGraphAddInputs (.ints inputs) (by simp)
    have g2 : get g 2 .null = .ints outputs := gin SubGraphAddOutputs (.ints outputs) (by simp)
    have g3 : get g 3 .null = .objs os := gin SubGraphAddOperators (.objs os) (by simp)
    unfold readModel
    rw [x0, x1, x2, x4]
    dsimp only
    rw [g0, g1, g2, g3]
    dsimp only
    rw [hc2, Option.bind_some, ht2, Option.bind_some, ho2, Option.bind_some, hb2]
    rfl

/-- The class `BucketizeOperator` with the boundaries 1/2 and 3/2. -/
def bucketizeOp : Op :=
  ⟨.builtin ⟨"BucketizeOperator", "BUCKETIZE", 147, some 115, [(BucketizeOptionsAddBoundaries, "boundaries", .int32s)]⟩ (fun _ => .nums [1/2, 3/2]), 0, 1, none, [0], [1], []⟩

/-- C139 fails: the boundaries of a `BUCKETIZE` operator, floats in the schema, are written as integers. -/
theorem C139_bucketize_false : (match bucketizeOp.kind with
      | .builtin c _ => opClasses.any fun d => decide (d.name = c.name ∧ d.op = c.op ∧ d.code = c.code ∧ d.union = c.union ∧ d.adds.map (·.2) = c.adds.map (·.2))
      | .custom _ => false) = true ∧
    (∀ f ∈ fieldsOf "BucketizeOptions", f.kind = .nums) ∧ (((bucketizeOp.build id).bind readOp).bind fun r => match get r.options 0 .null with
      | .ints l => some l
      | _ => none) = some [0, 1] := by
  refine ⟨by decide +kernel, by decide +kernel, by decide +kernel⟩

/-- C139 fails: an operator of the class `VarHandleOperator` cannot be written, whatever its attributes. -/
theorem C139_var_handle_false : ∃ c ∈ opClasses, c.name = "VarHandleOperator" ∧ ∀ (f32 : ℚ → ℚ) (attrs : String → Obj) (i v : ℤ) (s : Option String) (a b t : List ℤ), Op.build f32 ⟨.builtin c attrs, i, v, s, a, b, t⟩ = none := by
  have h : ∃ c ∈ opClasses, c.name = "VarHandleOperator" ∧ c.union.isSome = true ∧ c.adds.head?.map (·.2.2) = some .fails := by decide +kernel
  obtain ⟨c, hc, hn, hu, hf⟩ := h
  refine ⟨c, hc, hn, fun f32 attrs i v s a b t => ?_⟩
  obtain ⟨u, hu⟩ := Option.isSome_iff_exists.mp hu
  unfold Op.build
  dsimp only
  rw [hu]
  dsimp only
  have : optionsBuild f32 c attrs = none := by
    unfold optionsBuild
    cases hadds : c.adds with
    | nil => rw [hadds] at hf; simp at hf
    | cons p l =>
      rw [hadds] at hf
      have hp : p.2.2 = .fails := by simpa using hf
      have harg : arg attrs p.2 = none := by
        unfold arg
        rw [hp]
      rw [List.mapM_cons, harg]
      rfl
  rw [this]
  rfl

/-- A convolution of tensors 0, 1, 2 to 3 with a stride of 2 and a fused RELU, followed by a custom operator. -/
def sampleAttrs : String → Obj
  | "padding" => .int 1
  | "strideW" => .int 2
  | "strideH" => .int 2
  | "fusedActivationFunction" => .int 1
  | "dilationWFactor" => .int 1
  | "dilationHFactor" => .int 1
  | _ => .null

example : ∃ c ∈ opClasses, c.name = "Conv2dOperator" ∧ OpFits ⟨.builtin c sampleAttrs, 0, 2, none, [0, 1, 2], [3], []⟩ := by
  have hall : ∀ c ∈ opClasses, c.name = "Conv2dOperator" → c.op = "CONV_2D" := by decide +kernel
  have hops : ∀ e ∈ operators, e.1 = "CONV_2D" → e.2.2 = "Conv2DOptions" := by decide +kernel
  have hex : ∃ c ∈ opClasses, c.name = "Conv2dOperator" := by decide +kernel
  obtain ⟨c, hc, hn⟩ := hex
  refine ⟨c, hc, hn, ⟨⟨Int.le_refl 0, (by decide : (0 : ℤ) ≤ 4294967295)⟩, (by unfold All32; decide : All32 [0, 1, 2]), (by unfold All32; decide : All32 [3]), (by unfold All32; decide : All32 [])⟩, ?_⟩
  intro c' attrs he
  obtain ⟨rfl, rfl⟩ := OpKind.builtin.inj he
  refine ⟨hc, by rw [hn]; decide, by rw [hn]; decide, fun e hem heq f hf => ?_⟩
  rw [hops e hem (heq.trans (hall c hc hn))] at hf
  have hfs : (fieldsOf "Conv2DOptions").map (fun f => (f.name, f.kind)) = [("padding", .i8), ("strideW", .i32), ("strideH", .i32), ("fusedActivationFunction", .i8), ("dilationWFactor", .i32),
      ("dilationHFactor", .i32)] := by decide +kernel
  have hm : (f.name, f.kind) ∈ (fieldsOf "Conv2DOptions").map (fun f => (f.name, f.kind)) := List.mem_map.mpr ⟨f, hf, rfl⟩
  rw [hfs] at hm
  simp only [List.mem_cons, List.not_mem_nil, or_false, Prod.mk.injEq] at hm
  rcases hm with h | h | h | h | h | h <;> (rw [h.1, h.2]; exact ⟨by decide, by decide⟩)

example : OpFits ⟨.custom (some [1, 2]), 1, 1, some "TFLite_Detection_PostProcess", [3], [4], []⟩ :=
  ⟨⟨⟨by decide, by decide⟩, by unfold All32; decide, by unfold All32; decide, by unfold All32; decide⟩, fun _ _ h => nomatch h⟩

example : TensorFits ⟨"w", [8, 3, 3, 3], "int8", some ⟨[1/16, 1/32], [0, 0], some 0⟩, some 1, false⟩ :=
  ⟨by unfold All32; decide, by decide, by rintro q ⟨⟩; decide, by rintro q ⟨⟩; decide⟩

end Verif.Props
