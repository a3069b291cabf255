import Verif.Lemmas.TracerNames
import Mathlib.Data.List.Pairwise
import Mathlib.Tactic.Tauto
import Mathlib.Tactic.Set

/-! The trace records what the program computes (used by C81). -/

namespace Verif.Lemmas.Tracer
open Verif.Spec.Trace Verif.Model.Tracer

variable {F M K T : Type}

section Paths

theorem mapIdx_get? {α β : Type} (f : Nat → α → β) (l : List α) (i : Nat) : (l.mapIdx f)[i]? = l[i]?.map (f i) := by
  simp [List.getElem?_mapIdx]

theorem mapPath_get {α β : Type} (f : Path → α → β) (o : Out α) (p : Path) : (mapPath f o).get p = (o.get p).map (f p) := by
  cases o with
  | one a => cases p <;> simp [mapPath, Out.get]
  | seq xs =>
    rcases p with _ | ⟨i, _ | ⟨j, _ | ⟨k, p⟩⟩⟩
    · simp [mapPath, Out.get]
    · simp only [mapPath, Out.get, mapIdx_get?]
      rcases xs[i]? with _ | (a | as) <;> simp
    · simp only [mapPath, Out.get, mapIdx_get?]
      rcases xs[i]? with _ | (a | as) <;> simp
    · simp [mapPath, Out.get]

theorem mem_leaves {α : Type} (o : Out α) (p : Path) (a : α) : (p, a) ∈ leaves o ↔ o.get p = some a := by
  cases o with
  | one b => cases p <;> simp [leaves, Out.get, eq_comm]
  | seq xs =>
    simp only [leaves, List.mem_flatten, List.mem_mapIdx]
    constructor
    · rintro ⟨l, ⟨i, hi, rfl⟩, h⟩
      have hx : xs[i]? = some xs[i] := List.getElem?_eq_getElem hi
      cases hc : xs[i] with
      | leaf b =>
        rw [hc] at h hx
        simp at h
        obtain ⟨rfl, rfl⟩ := h
        simp [Out.get, hx]
      | tup as =>
        rw [hc] at h hx
        simp only [List.mem_mapIdx, Prod.mk.injEq] at h
        obtain ⟨j, hj, rfl, rfl⟩ := h
        simp [Out.get, hx]
    · intro h
      rcases p with _ | ⟨i, _ | ⟨j, _ | ⟨k, p⟩⟩⟩
      · simp [Out.get] at h
      · simp only [Out.get] at h
        rcases hx : xs[i]? with _ | (b | as) <;> rw [hx] at h <;> simp at h
        subst h
        obtain ⟨hi, hx'⟩ := List.getElem?_eq_some_iff.1 hx
        exact ⟨_, ⟨i, hi, rfl⟩, by rw [hx']; simp⟩
      · simp only [Out.get] at h
        rcases hx : xs[i]? with _ | (b | as) <;> rw [hx] at h <;> simp at h
        obtain ⟨hi, hx'⟩ := List.getElem?_eq_some_iff.1 hx
        obtain ⟨hj, hy⟩ := List.getElem?_eq_some_iff.1 h
        refine ⟨_, ⟨i, hi, rfl⟩, ?_⟩
        rw [hx']
        simp only [List.mem_mapIdx]
        exact ⟨j, hj, by rw [hy]⟩
      · simp [Out.get] at h

end Paths

/-- The program's name for an object. -/
def toRef : Obj K → Ref K
  | .const k => .const k
  | .tmp d p => .res d p

def isOut : Kind F M K → Bool
  | .output => true
  | _ => false

/-- How a tensor of node `j` is written. -/
def refOf (nodes : List (TNode F M K)) (j : Nat) (p : Path) : NameRef :=
  match nodes[j]? with
  | some pn => ⟨isConst pn.kind, pn.name, p⟩
  | none => ⟨false, "", []⟩

/-- The tensors at the given places of the given nodes are `args`. -/
inductive Reads (nodes : List (TNode F M K)) (vals : List (Out T)) : List Nat → List Path → List T → Prop where
  | nil : Reads nodes vals [] [] []
  | cons {j p a prev idx args} (n : TNode F M K) (w : Out T) (h1 : nodes[j]? = some n) (h2 : isOut n.kind = false) (h3 : vals[j]? = some w)
      (h4 : w.get p = some a) (h : Reads nodes vals prev idx args) : Reads nodes vals (j :: prev) (p :: idx) (a :: args)

theorem getElem?_append_some {α : Type} {l l' : List α} {i : Nat} {a : α} (h : l[i]? = some a) : (l ++ l')[i]? = some a := by
  obtain ⟨hi, rfl⟩ := List.getElem?_eq_some_iff.1 h
  rw [List.getElem?_append_left hi]; exact h

theorem Reads.mono {nodes : List (TNode F M K)} {vals : List (Out T)} {prev idx args} (h : Reads nodes vals prev idx args)
    (l : List (TNode F M K)) (l' : List (Out T)) : Reads (nodes ++ l) (vals ++ l') prev idx args := by
  induction h with
  | nil => exact .nil
  | cons n w h1 h2 h3 h4 _ ih => exact .cons n w (getElem?_append_some h1) h2 (getElem?_append_some h3) h4 ih

theorem Reads.lt {nodes : List (TNode F M K)} {vals : List (Out T)} {prev idx args} (h : Reads nodes vals prev idx args) :
    ∀ j ∈ prev, j < nodes.length := by
  induction h with
  | nil => simp
  | cons n w h1 h2 h3 h4 _ ih =>
    intro j hj
    rcases List.mem_cons.1 hj with rfl | hj
    · exact (List.getElem?_eq_some_iff.1 h1).1
    · exact ih j hj

theorem Reads.refOf_mono {nodes : List (TNode F M K)} {vals : List (Out T)} {prev idx args} (h : Reads nodes vals prev idx args)
    (l : List (TNode F M K)) : List.zipWith (refOf (nodes ++ l)) prev idx = List.zipWith (refOf nodes) prev idx := by
  induction h with
  | nil => rfl
  | cons n w h1 h2 h3 h4 _ ih => simp [refOf, getElem?_append_some h1, h1, ih]

/-- Every recorded node holds what it should. -/
def NodeOk (s : Sem F M K T) (nodes : List (TNode F M K)) (vals : List (Out T)) (i : Nat) (n : TNode F M K) : Prop :=
  match n.kind with
  | .input => n.prev = []
  | .output => True
  | .const k => vals[i]? = some (.one (s.konst k)) ∧ n.prev = []
  | .func f => ∃ args, Reads nodes vals n.prev n.idx args ∧ vals[i]? = some (s.fn f args) ∧ n.names = List.zipWith (refOf nodes) n.prev n.idx ∧
      ∀ j ∈ n.prev, j < i
  | .module m => ∃ args, Reads nodes vals n.prev n.idx args ∧ vals[i]? = some (s.mod m args) ∧ ∀ j ∈ n.prev, j < i

theorem NodeOk.mono {s : Sem F M K T} {nodes : List (TNode F M K)} {vals : List (Out T)} {i : Nat} {n : TNode F M K} (h : NodeOk s nodes vals i n)
    (l : List (TNode F M K)) (l' : List (Out T)) : NodeOk s (nodes ++ l) (vals ++ l') i n := by
  unfold NodeOk at h ⊢
  cases hk : n.kind with
  | input => rw [hk] at h; exact h
  | output => trivial
  | const k => rw [hk] at h; exact ⟨getElem?_append_some h.1, h.2⟩
  | func f =>
    rw [hk] at h
    obtain ⟨args, h1, h2, h3, h4⟩ := h
    exact ⟨args, h1.mono l l', getElem?_append_some h2, by rw [h1.refOf_mono l]; exact h3, h4⟩
  | module m =>
    rw [hk] at h
    obtain ⟨args, h1, h2, h3⟩ := h
    exact ⟨args, h1.mono l l', getElem?_append_some h2, h3⟩

structure Core (U : String → Prop) (s : Sem F M K T) (st : State F M K) (vals : List (Out T)) : Prop where
  names : NameInv U st
  len : vals.length = st.nodes.length
  map : ∀ x i, st.nodesMap x = some i ↔ ∃ n, st.nodes[i]? = some n ∧ n.name = x
  node : ∀ i n, st.nodes[i]? = some n → NodeOk s st.nodes vals i n

theorem getElem?_snoc {α : Type} (l : List α) (a b : α) (i : Nat) : (l ++ [a])[i]? = some b ↔ l[i]? = some b ∨ (i = l.length ∧ a = b) := by
  rcases Nat.lt_trichotomy i l.length with h | h | h
  · rw [List.getElem?_append_left h]
    constructor
    · exact Or.inl
    · rintro (h1 | ⟨h1, -⟩)
      · exact h1
      · omega
  · subst h; simp
  · rw [List.getElem?_eq_none (by simp; omega), List.getElem?_eq_none (by omega)]
    simp; omega

theorem Core.push {U : String → Prop} {s : Sem F M K T} {st : State F M K} {vals : List (Out T)} (hc : Core U s st vals) {n : TNode F M K} {w : Out T}
    (hi : Issued st.gn n.name) (hn : ∀ m ∈ st.nodes, m.name ≠ n.name) (ho : NodeOk s (st.nodes ++ [n]) (vals ++ [w]) st.nodes.length n) :
    Core U s (push st n) (vals ++ [w]) := by
  refine ⟨⟨hc.names.big, hc.names.src, ?_⟩, by simp [Model.Tracer.push, hc.len], ?_, ?_⟩
  · intro m hm
    rcases List.mem_append.1 hm with hm | hm
    · exact hc.names.nodes m hm
    · rw [List.mem_singleton.1 hm]; exact hi
  · intro x i
    simp only [Model.Tracer.push, upd]
    by_cases hx : x = n.name
    · rw [if_pos hx]
      constructor
      · intro h
        cases h
        exact ⟨n, by simp, hx.symm⟩
      · rintro ⟨m, hm, rfl⟩
        rcases (getElem?_snoc _ _ _ _).1 hm with hm | ⟨rfl, rfl⟩
        · exact absurd hx (hn m (List.mem_of_getElem? hm))
        · rfl
    · rw [if_neg hx, hc.map]
      constructor
      · rintro ⟨m, hm, hx⟩
        exact ⟨m, getElem?_append_some hm, hx⟩
      · rintro ⟨m, hm, rfl⟩
        rcases (getElem?_snoc _ _ _ _).1 hm with hm | ⟨rfl, rfl⟩
        · exact ⟨m, hm, rfl⟩
        · exact absurd rfl hx
  · intro i m hm
    rcases (getElem?_snoc _ _ _ _).1 hm with hm | ⟨rfl, rfl⟩
    · exact (hc.node i m hm).mono [n] [w]
    · exact ho

structure Track (s : Sem F M K T) (st : State F M K) (vals defs : List (Out T)) : Prop where
  pre : ∀ o x, st.preNode o = some x → ∃ i n w v, st.nodesMap x = some i ∧ st.nodes[i]? = some n ∧ isOut n.kind = false ∧ vals[i]? = some w ∧
    w.get (st.preIdx o) = some v ∧ s.ref defs (toRef o) = some v
  fresh : ∀ d p, (st.preNode (.tmp d p)).isSome → d < defs.length
  clean : ∀ o, st.preNode o = none → st.preIdx o = []

theorem Track.push {s : Sem F M K T} {st : State F M K} {vals defs : List (Out T)} (ht : Track s st vals defs) {n : TNode F M K} (w : Out T)
    (hn : st.nodesMap n.name = none) : Track s (push st n) (vals ++ [w]) defs := by
  refine ⟨?_, ht.fresh, ht.clean⟩
  intro o x h
  obtain ⟨i, m, w', v, h1, h2, h3, h4, h5, h6⟩ := ht.pre o x h
  refine ⟨i, m, w', v, ?_, getElem?_append_some h2, h3, getElem?_append_some h4, h5, h6⟩
  simp only [Model.Tracer.push, upd]
  rw [if_neg (by rintro rfl; rw [hn] at h1; cases h1)]
  exact h1

/-- Which list a node belongs to. -/
def Placed (st : State F M K) (i : Nat) : Kind F M K → Prop
  | .input => i ∈ st.inputs
  | .output => i ∈ st.outputs
  | .const _ => i ∈ st.consts
  | .func _ => i ∈ st.forward
  | .module _ => i ∈ st.forward

structure Lists (st : State F M K) : Prop where
  sorted : (order st).Pairwise (· < ·)
  csorted : st.consts.Pairwise (· < ·)
  bound : ∀ i ∈ order st, i < st.nodes.length
  cls : ∀ (i : Nat) (n : TNode F M K), st.nodes[i]? = some n → Placed st i n.kind
  inp : ∀ i ∈ st.inputs, ∃ n : TNode F M K, st.nodes[i]? = some n ∧ n.kind = .input
  fwd : ∀ i ∈ st.forward, ∃ n : TNode F M K, st.nodes[i]? = some n ∧ ((∃ f, n.kind = .func f) ∨ ∃ m, n.kind = .module m)
  con : ∀ i ∈ st.consts, ∃ (n : TNode F M K) (k : K), st.nodes[i]? = some n ∧ n.kind = .const k

structure Inv (U : String → Prop) (s : Sem F M K T) (st : State F M K) (vals defs : List (Out T)) : Prop where
  core : Core U s st vals
  track : Track s st vals defs
  lists : Lists st

/-- What recording constants leaves alone. -/
structure Ext (st st' : State F M K) (vals vals' : List (Out T)) : Prop where
  nodes : ∃ l, st'.nodes = st.nodes ++ l
  vals : ∃ l, vals' = vals ++ l
  pre : ∀ o, (st.preNode o).isSome → st'.preNode o = st.preNode o
  idx : st'.preIdx = st.preIdx
  inputs : st'.inputs = st.inputs
  outputs : st'.outputs = st.outputs
  gnfn : ∀ kind n, st'.gn (fnName kind n) = st.gn (fnName kind n)
  gf : ∀ k N, st.gf k = some N → ∃ N', st'.gf k = some N' ∧ N ≤ N'
  pend : ∀ x, Issued st.gn x → (∀ n ∈ st.nodes, n.name ≠ x) → Issued st'.gn x ∧ ∀ n ∈ st'.nodes, n.name ≠ x

theorem Ext.refl (st : State F M K) (vals : List (Out T)) : Ext st st vals vals :=
  ⟨⟨[], by simp⟩, ⟨[], by simp⟩, fun _ _ => rfl, rfl, rfl, rfl, fun _ _ => rfl, fun _ N h => ⟨N, h, Nat.le_refl _⟩, fun _ h1 h2 => ⟨h1, h2⟩⟩

theorem Ext.trans {st st' st'' : State F M K} {vals vals' vals'' : List (Out T)} (h : Ext st st' vals vals') (h' : Ext st' st'' vals' vals'') :
    Ext st st'' vals vals'' := by
  obtain ⟨l1, e1⟩ := h.nodes
  obtain ⟨l2, e2⟩ := h'.nodes
  obtain ⟨l3, e3⟩ := h.vals
  obtain ⟨l4, e4⟩ := h'.vals
  refine ⟨⟨l1 ++ l2, by simp [e1, e2]⟩, ⟨l3 ++ l4, by simp [e3, e4]⟩, ?_, by rw [h'.idx, h.idx], by rw [h'.inputs, h.inputs], by rw [h'.outputs, h.outputs],
    fun k n => by rw [h'.gnfn, h.gnfn], ?_, fun x h1 h2 => ?_⟩
  · intro o ho
    rw [h'.pre o (by rw [h.pre o ho]; exact ho), h.pre o ho]
  · intro k N hN
    obtain ⟨N', h1, h2⟩ := h.gf k N hN
    obtain ⟨N'', h3, h4⟩ := h'.gf k N' h1
    exact ⟨N'', h3, by omega⟩
  · obtain ⟨h3, h4⟩ := h.pend x h1 h2
    exact h'.pend x h3 h4

variable [DecidableEq K]

/-- The names of the constants in the program are the user's. -/
def ConstsOk (U : String → Prop) (nm : Naming F M K) : Prop := ∀ k x, nm.const k = some x → U x

omit [DecidableEq K] in
theorem nodesMap_none {U : String → Prop} {s : Sem F M K T} {st : State F M K} {vals : List (Out T)} (hc : Core U s st vals) {x : String}
    (hn : ∀ m ∈ st.nodes, m.name ≠ x) : st.nodesMap x = none := by
  cases h : st.nodesMap x with
  | none => rfl
  | some i =>
    obtain ⟨n, h1, h2⟩ := (hc.map x i).1 h
    exact absurd h2 (hn n (List.mem_of_getElem? h1))

omit [DecidableEq K] in
theorem not_issued_nodes {U : String → Prop} {st : State F M K} (hi : NameInv U st) {x : String} (h : ¬ Issued st.gn x) :
    ∀ m ∈ st.nodes, m.name ≠ x := by
  rintro m hm rfl
  exact h (hi.nodes m hm)

omit [DecidableEq K] in
theorem gn_fnName_number {U : String → Prop} (hU : NamesOk U) (st : State F M K) (b : String)
    (hb : U b ∨ ∃ n : Nat, b = "tensor_" ++ toString n) (kind : String) (n : Nat) : (number st b).2.gn (fnName kind n) = st.gn (fnName kind n) := by
  obtain ⟨N, -, -, e3, -⟩ := number_name st b
  refine e3 _ ?_
  rintro h
  rcases hb with hb | ⟨k, rfl⟩
  · exact hU.2.1 b _ hb h.symm
  · exact fnName_ne_tensor h

theorem addConst_inv {U : String → Prop} (hU : NamesOk U) {nm : Naming F M K} (hnm : ConstsOk U nm) {s : Sem F M K T} {st : State F M K}
    {vals defs : List (Out T)} (h : Inv U s st vals defs) {k : K} (hk : st.preNode (.const k) = none) :
    Inv U s (addConst nm st k) (vals ++ [.one (s.konst k)]) defs ∧ Ext st (addConst nm st k) vals (vals ++ [.one (s.konst k)]) ∧
      ((addConst nm st k).preNode (.const k)).isSome := by
  obtain ⟨hc, ht, hl⟩ := h
  set b := bump st "tensor" with hb
  set base := (nm.const k).getD ("tensor_" ++ toString b.1) with hbase
  set r := number b.2 base with hr
  have hbi := bump_inv hc.names "tensor"
  obtain ⟨eb, eg, emono, -⟩ := bump_frame st "tensor"
  have hus : Usable U b.2 base := by
    cases hk : nm.const k with
    | some x => rw [hk] at hbase; rw [hbase]; exact Or.inl (hnm k x hk)
    | none =>
      rw [hk] at hbase
      rw [hbase]
      refine Or.inr ⟨?_, Or.inr ⟨b.1, b.1, rfl, eg, Nat.le_refl _⟩⟩
      exact bump_unused_tensor hU hc.names
  have hbU : U base ∨ ∃ n : Nat, base = "tensor_" ++ toString n := by
    cases hk : nm.const k with
    | some x => rw [hk] at hbase; rw [hbase]; exact Or.inl (hnm k x hk)
    | none => rw [hk] at hbase; exact Or.inr ⟨b.1, hbase⟩
  have hfresh : ¬ Issued st.gn r.1 := number_fresh hU hbi hus
  have hri := number_inv hbi hus
  obtain ⟨hiss, hissmono⟩ := number_issued b.2 base
  obtain ⟨f1, f2, f3, f4, f5, f6, f7, f8, f9⟩ := number_frame b.2 base
  have hnn : ∀ m ∈ st.nodes, m.name ≠ r.1 := not_issued_nodes hc.names hfresh
  have hc1 : Core U s r.2 vals := ⟨hri, by rw [f1]; exact hc.len, by rw [f6, f1]; exact hc.map, by rw [f1]; exact hc.node⟩
  have ht1 : Track s r.2 vals defs := ⟨by rw [f7, f6, f1, f8]; exact ht.pre, by rw [f7]; exact ht.fresh, by rw [f7, f8]; exact ht.clean⟩
  set n : TNode F M K := ⟨r.1, .const k, [], [], [], false⟩ with hn
  have hc2 : Core U s (push r.2 n) (vals ++ [.one (s.konst k)]) := by
    refine hc1.push hiss (by rw [f1]; exact hnn) ?_
    refine ⟨?_, rfl⟩
    rw [f1, ← (show vals.length = b.2.nodes.length from hc.len)]
    simp
  have hmn : r.2.nodesMap n.name = none := by rw [f6]; exact nodesMap_none hc hnn
  have ht2 := ht1.push (w := .one (s.konst k)) hmn
  refine ⟨⟨⟨⟨hc2.names.big, hc2.names.src, hc2.names.nodes⟩, hc2.len, hc2.map, hc2.node⟩, ⟨?_, ?_, ?_⟩, ?_⟩, ?_, ?_⟩
  · intro o x ho
    simp only [addConst, upd] at ho
    by_cases hok : o = .const k
    · subst hok
      rw [if_pos rfl] at ho
      cases ho
      refine ⟨r.2.nodes.length, n, .one (s.konst k), s.konst k, ?_, ?_, rfl, ?_, ?_, rfl⟩
      · show (push r.2 n).nodesMap r.1 = _
        simp [push, upd, hn]
      · show (push r.2 n).nodes[r.2.nodes.length]? = _
        simp [push]
      · rw [f1, ← (show vals.length = b.2.nodes.length from hc.len)]; simp
      · have : (addConst nm st k).preIdx (.const k) = [] := by
          show r.2.preIdx _ = []
          rw [f8]; exact ht.clean _ hk
        rw [this]; rfl
    · rw [if_neg hok] at ho
      exact ht2.pre o x ho
  · intro d p hd
    simp only [addConst, upd] at hd
    rw [if_neg (by simp)] at hd
    exact ht2.fresh d p hd
  · intro o ho
    simp only [addConst, upd] at ho
    split at ho
    · cases ho
    · exact ht2.clean o ho
  · have en : (addConst nm st k).nodes = st.nodes ++ [n] := by
      show r.2.nodes ++ [_] = _
      rw [f1]; rfl
    have ei : (addConst nm st k).inputs = st.inputs := by
      show r.2.inputs = _
      rw [f2]; rfl
    have ef : (addConst nm st k).forward = st.forward := by
      show r.2.forward = _
      rw [f3]; rfl
    have ec : (addConst nm st k).consts = st.consts ++ [st.nodes.length] := by
      show r.2.consts ++ _ = _
      rw [f5]; rfl
    have eo : (addConst nm st k).outputs = st.outputs := by
      show r.2.outputs = _
      rw [f4]; rfl
    have eord : order (addConst nm st k) = order st := by simp only [order, ei, ef, eo]
    refine ⟨by rw [eord]; exact hl.sorted, ?_, ?_, ?_, ?_, ?_, ?_⟩
    · rw [ec]
      refine List.pairwise_append.2 ⟨hl.csorted, by simp, ?_⟩
      intro a ha c hc'
      obtain ⟨m, k', hm, -⟩ := hl.con a ha
      rw [List.mem_singleton.1 hc']
      exact (List.getElem?_eq_some_iff.1 hm).1
    · rw [eord, en]
      intro i hi
      have := hl.bound i hi
      simp; omega
    · rw [en]
      intro i m hm
      rcases (getElem?_snoc _ _ _ _).1 hm with hm | ⟨rfl, rfl⟩
      · have := hl.cls i m hm
        revert this
        cases m.kind <;> simp only [Placed, ei, ef, ec, eo, List.mem_append] <;> tauto
      · simp [hn, Placed, ec]
    · rw [ei, en]
      intro i hi
      obtain ⟨m, h1, h2⟩ := hl.inp i hi
      exact ⟨m, getElem?_append_some h1, h2⟩
    · rw [ef, en]
      intro i hi
      obtain ⟨m, h1, h2⟩ := hl.fwd i hi
      exact ⟨m, getElem?_append_some h1, h2⟩
    · rw [ec, en]
      intro i hi
      rcases List.mem_append.1 hi with hi | hi
      · obtain ⟨m, k', h1, h2⟩ := hl.con i hi
        exact ⟨m, k', getElem?_append_some h1, h2⟩
      · rw [List.mem_singleton.1 hi]
        exact ⟨n, k, by simp, rfl⟩
  · refine ⟨⟨[n], ?_⟩, ⟨_, rfl⟩, ?_, ?_, ?_, ?_, ?_, ?_, ?_⟩
    · show r.2.nodes ++ [_] = _
      rw [f1]; rfl
    · intro o ho
      show upd r.2.preNode (.const k) (some r.1) o = _
      rw [upd, if_neg (by rintro rfl; rw [hk] at ho; cases ho), f7]
      rfl
    · show r.2.preIdx = _
      rw [f8]; rfl
    · show r.2.inputs = _
      rw [f2]; rfl
    · show r.2.outputs = _
      rw [f4]; rfl
    · intro kind m
      exact gn_fnName_number hU b.2 base hbU kind m
    · intro kk N hN
      show ∃ N', r.2.gf kk = some N' ∧ _
      rw [f9]
      exact emono kk N hN
    · intro x h1 h2
      refine ⟨hissmono x h1, ?_⟩
      intro m hm
      have hm' : m ∈ st.nodes ++ [n] := by
        have : (addConst nm st k).nodes = st.nodes ++ [n] := by
          show r.2.nodes ++ [_] = _
          rw [f1]; rfl
        rw [← this]; exact hm
      rcases List.mem_append.1 hm' with hm' | hm'
      · exact h2 m hm'
      · rw [List.mem_singleton.1 hm']
        rintro rfl
        exact hfresh h1
  · show (upd r.2.preNode (.const k) (some r.1) (.const k)).isSome
    simp [upd]

theorem constantHandler_inv {U : String → Prop} (hU : NamesOk U) {nm : Naming F M K} (hnm : ConstsOk U nm) {s : Sem F M K T} {st st' : State F M K}
    {vals defs : List (Out T)} (h : Inv U s st vals defs) {o : Obj K} {b : Bool} (e : constantHandler nm st o = some (st', b)) :
    ∃ vals', Inv U s st' vals' defs ∧ Ext st st' vals vals' ∧ (st'.preNode o).isSome ∧ (b = true → ∃ k, o = .const k ∧ st' = addConst nm st k) := by
  unfold constantHandler at e
  split at e
  · next ho =>
    cases e
    exact ⟨vals, h, Ext.refl _ _, ho, by simp⟩
  · next ho =>
    cases o with
    | tmp d p => cases e
    | const k =>
      cases e
      have hk : st.preNode (.const k) = none := by simpa using ho
      obtain ⟨h1, h2, h3⟩ := addConst_inv hU hnm h hk
      exact ⟨_, h1, h2, h3, fun _ => ⟨k, rfl, rfl⟩⟩

omit [DecidableEq K] in
theorem Ext.ref {st st' : State F M K} {vals vals' : List (Out T)} (h : Ext st st' vals vals') {j : Nat} (hj : j < st.nodes.length) (p : Path) :
    refOf st'.nodes j p = refOf st.nodes j p := by
  obtain ⟨l, e⟩ := h.nodes
  rw [refOf, refOf, e, List.getElem?_append_left hj]

/-- Reading the arguments of a node. -/
theorem readArgs_inv {U : String → Prop} (hU : NamesOk U) {nm : Naming F M K} (hnm : ConstsOk U nm) {s : Sem F M K T} (args : List (Obj K)) :
    ∀ {st st' : State F M K} {vals defs : List (Out T)} {prev : List Nat} {idx : List Path}, Inv U s st vals defs →
      readArgs nm st args = some (st', prev, idx) →
      ∃ vals' as, Inv U s st' vals' defs ∧ Ext st st' vals vals' ∧ args.mapM (fun o => s.ref defs (toRef o)) = some as ∧
        Reads st'.nodes vals' prev idx as ∧ (∀ o ∈ args, (st'.preNode o).isSome) := by
  induction args with
  | nil =>
    intro st st' vals defs prev idx h e
    simp only [readArgs, Option.some.injEq, Prod.mk.injEq] at e
    obtain ⟨rfl, rfl, rfl⟩ := e
    exact ⟨vals, [], h, Ext.refl _ _, rfl, .nil, by simp⟩
  | cons o os ih =>
    intro st st' vals defs prev idx h e
    simp only [readArgs, Option.bind_eq_bind, Option.bind_eq_some_iff, Option.some.injEq] at e
    obtain ⟨⟨st1, b⟩, e1, name, e2, i, e3, ⟨st2, pr, ix⟩, e4, e5⟩ := e
    simp only [Prod.mk.injEq] at e5
    obtain ⟨rfl, rfl, rfl⟩ := e5
    obtain ⟨vals1, h1, x1, t1, -⟩ := constantHandler_inv hU hnm h e1
    obtain ⟨vals2, as, h2, x2, m2, r2, t2⟩ := ih h1 e4
    obtain ⟨i', n, w, v, p1, p2, p3, p4, p5, p6⟩ := h1.track.pre o name e2
    have hii : i' = i := by rw [p1] at e3; exact Option.some.inj e3
    subst hii
    obtain ⟨l, el⟩ := x2.nodes
    obtain ⟨l', el'⟩ := x2.vals
    refine ⟨vals2, v :: as, h2, x1.trans x2, ?_, ?_, ?_⟩
    · simp [List.mapM_cons, p6, m2]
    · refine .cons n w ?_ p3 ?_ p5 r2
      · rw [el]; exact getElem?_append_some p2
      · rw [el']; exact getElem?_append_some p4
    · intro o' ho'
      rcases List.mem_cons.1 ho' with rfl | ho'
      · rw [x2.pre _ t1]; exact t1
      · exact t2 o' ho'

/-- With all arguments known, reading them changes nothing. -/
theorem readArgs_known {nm : Naming F M K} (args : List (Obj K)) :
    ∀ {st st' : State F M K} {prev : List Nat} {idx : List Path}, (∀ o ∈ args, (st.preNode o).isSome) →
      readArgs nm st args = some (st', prev, idx) →
      st' = st ∧ List.Forall₂ (fun o i => (st.preNode o).bind st.nodesMap = some i) args prev ∧ idx = args.map st.preIdx := by
  induction args with
  | nil =>
    intro st st' prev idx _ e
    simp only [readArgs, Option.some.injEq, Prod.mk.injEq] at e
    obtain ⟨rfl, rfl, rfl⟩ := e
    exact ⟨rfl, .nil, rfl⟩
  | cons o os ih =>
    intro st st' prev idx hk e
    simp only [readArgs, Option.bind_eq_bind, Option.bind_eq_some_iff, Option.some.injEq] at e
    obtain ⟨⟨st1, b⟩, e1, name, e2, i, e3, ⟨st2, pr, ix⟩, e4, e5⟩ := e
    simp only [Prod.mk.injEq] at e5
    obtain ⟨rfl, rfl, rfl⟩ := e5
    rw [constantHandler.eq_def, if_pos (hk o (by simp))] at e1
    cases e1
    obtain ⟨rfl, h2, h3⟩ := ih (fun o' ho' => hk o' (by simp [ho'])) e4
    exact ⟨rfl, .cons (by dsimp only at e2 e3 ⊢; rw [e2]; exact e3) h2, by rw [h3]; rfl⟩

/-- Rendering the arguments of a function. -/
theorem parseArgs_inv {U : String → Prop} (hU : NamesOk U) {nm : Naming F M K} (hnm : ConstsOk U nm) {s : Sem F M K T} (args : List (Obj K)) :
    ∀ {st st' : State F M K} {vals defs : List (Out T)} {names : List NameRef}, Inv U s st vals defs →
      parseArgs nm st args = some (st', names) →
      ∃ vals', Inv U s st' vals' defs ∧ Ext st st' vals vals' ∧ (∀ o ∈ args, (st'.preNode o).isSome) ∧
        List.Forall₂ (fun o r => ∀ i, (st'.preNode o).bind st'.nodesMap = some i → r = refOf st'.nodes i (st'.preIdx o)) args names := by
  induction args with
  | nil =>
    intro st st' vals defs names h e
    simp only [parseArgs, Option.some.injEq, Prod.mk.injEq] at e
    obtain ⟨rfl, rfl⟩ := e
    exact ⟨vals, h, Ext.refl _ _, by simp, .nil⟩
  | cons o os ih =>
    intro st st' vals defs names h e
    simp only [parseArgs, Option.bind_eq_bind, Option.bind_eq_some_iff, Option.some.injEq] at e
    obtain ⟨⟨st1, nr⟩, e1, ⟨st2, ns⟩, e2, e3⟩ := e
    simp only [Prod.mk.injEq] at e3
    obtain ⟨rfl, rfl⟩ := e3
    simp only [tensorName, Option.bind_eq_bind, Option.bind_eq_some_iff] at e1
    obtain ⟨⟨st1', b⟩, c1, name, c2, c3⟩ := e1
    obtain ⟨vals1, h1, x1, t1, k1⟩ := constantHandler_inv hU hnm h c1
    have key : st1' = st1 ∧ nr = refOf st1.nodes ((st1.nodesMap name).getD 0) (st1.preIdx o) := by
      obtain ⟨i, n, w, v, p1, p2, p3, p4, p5, p6⟩ := h1.track.pre o name c2
      cases b with
      | false =>
        simp only [Bool.false_eq_true, if_false, Option.bind_eq_some_iff, Option.some.injEq, Prod.mk.injEq] at c3
        obtain ⟨i', q1, n', q2, rfl, rfl⟩ := c3
        rw [p1] at q1
        cases q1
        have hn : n = n' := by rw [p2] at q2; exact Option.some.inj q2
        subst hn
        refine ⟨rfl, ?_⟩
        have hnm : n.name = name := by
          obtain ⟨n'', g1, g2⟩ := (h1.core.map name i).1 p1
          rw [p2] at g1; cases g1; exact g2
        simp [refOf, p1, p2, hnm]
      | true =>
        simp only [if_true, Option.some.injEq, Prod.mk.injEq] at c3
        obtain ⟨rfl, rfl⟩ := c3
        refine ⟨rfl, ?_⟩
        obtain ⟨k, rfl, hst⟩ := k1 rfl
        have hnm : n.name = name := by
          obtain ⟨n'', g1, g2⟩ := (h1.core.map name i).1 p1
          rw [p2] at g1; cases g1; exact g2
        have hkind : isConst n.kind = true := by
          have hlast : st1'.nodesMap name = some st.nodes.length ∧ ∃ m : TNode F M K, st1'.nodes[st.nodes.length]? = some m ∧ isConst m.kind = true := by
            subst hst
            have en : (number (bump st "tensor").2 ((nm.const k).getD ("tensor_" ++ toString (bump st "tensor").1))).2.nodes = st.nodes := by
              rw [(number_frame _ _).1]; rfl
            have c2' := c2
            simp only [addConst, upd, if_pos, Option.some.injEq] at c2'
            refine ⟨?_, ⟨name, .const k, [], [], [], false⟩, ?_, rfl⟩
            · simp only [addConst, push, upd, c2', if_pos]
              rw [en]
            · simp only [addConst, push, en, c2']
              simp
          obtain ⟨g1, m, g2, g3⟩ := hlast
          rw [p1] at g1
          cases g1
          rw [p2] at g2
          cases g2
          exact g3
        simp [refOf, p1, p2, hnm, hkind]
    obtain ⟨rfl, hnr⟩ := key
    obtain ⟨vals2, h2, x2, t2, f2⟩ := ih h1 e2
    obtain ⟨i, n, w, v, p1, p2, -, -, -, -⟩ := h1.track.pre o name c2
    refine ⟨vals2, h2, x1.trans x2, ?_, .cons ?_ f2⟩
    · intro o' ho'
      rcases List.mem_cons.1 ho' with rfl | ho'
      · rw [x2.pre _ t1]; exact t1
      · exact t2 o' ho'
    · intro i2 hi2
      rw [x2.pre _ t1, c2, Option.bind_some] at hi2
      obtain ⟨n2, g1, g2⟩ := (h2.core.map name i2).1 hi2
      obtain ⟨n', g3, g4⟩ := (h1.core.map name i).1 p1
      rw [p2] at g3
      cases g3
      obtain ⟨l, el⟩ := x2.nodes
      have hn2 : st2.nodesMap name = some i := (h2.core.map name i).2 ⟨n, by rw [el]; exact getElem?_append_some p2, g4⟩
      rw [hn2] at hi2
      cases hi2
      rw [hnr, p1, Option.getD_some, x2.idx, x2.ref (List.getElem?_eq_some_iff.1 p2).1]

end Verif.Lemmas.Tracer
