import Verif.Model.GroupTensors
import Verif.Spec.SharedConst
import Mathlib.Data.List.Basic
import Mathlib.Data.List.Count

/-! C73: sharing equal constants keeps every operator's inputs. -/

namespace Verif.Props
open Verif.Spec Verif.Model.GroupTensors
variable {T V K : Type} [DecidableEq T] [DecidableEq K]

theorem mem_actionsFor {g : DGraph T V} {v : Nat} {t new : T} {a : Action T} : a ∈ actionsFor g v t new ↔
    a.new = new ∧ (g.vtx a.target).kind = .op ∧ (g.vtx a.target).ins[a.idx]? = some t ∧ ∃ e ∈ g.edges, e.src = v ∧ e.tgt = a.target := by
  unfold actionsFor
  simp only [List.mem_flatMap, List.mem_filter, decide_eq_true_eq]
  constructor
  · rintro ⟨e, ⟨he, hs⟩, ha⟩
    split at ha
    · rename_i hk
      obtain ⟨i, hi, hx⟩ := List.mem_filterMap.1 ha
      split at hx
      · rename_i hi'
        cases hx
        exact ⟨rfl, hk, hi', e, he, hs, rfl⟩
      · cases hx
    · simp at ha
  · rintro ⟨h1, h2, h3, e, he, hs, ht⟩
    refine ⟨e, ⟨he, hs⟩, ?_⟩
    rw [ht, if_pos h2]
    refine List.mem_filterMap.2 ⟨a.idx, List.mem_range.2 ?_, ?_⟩
    · exact (List.getElem?_eq_some_iff.1 h3).1
    · rw [if_pos h3, ← h1]

/-- What the dictionary holds after the vertices `done`. -/
structure MapOk (g : DGraph T V) (key : T → Option K) (done : List Nat) (m : List (K × T)) : Prop where
  entry : ∀ p ∈ m, key p.2 = some p.1 ∧ ∃ v ∈ done, (g.vtx v).kind = .constant ∧ (g.vtx v).outs[0]? = some p.2
  inj : ∀ p ∈ m, ∀ q ∈ m, p.1 = q.1 → p = q

/-- What the actions are, once all vertices are done: one for each operand that is a constant other than its representative. -/
theorem scan_spec {g : DGraph T V} {key : T → Option K} (vs : List Nat) : ∀ {done : List Nat} {m : List (K × T)} {acts acts' : List (Action T)},
    MapOk g key done m → scan g key vs m acts = some acts' →
    ∃ m', MapOk g key (done ++ vs) m' ∧ (∀ p ∈ m, p ∈ m') ∧
      (∀ v ∈ vs, (g.vtx v).kind = .constant → ∃ t k r, (g.vtx v).outs[0]? = some t ∧ key t = some k ∧ (k, r) ∈ m' ∧ (r = t ∨ ∀ a ∈ actionsFor g v t r, a ∈ acts')) ∧
      (∀ a ∈ acts', a ∈ acts ∨ ∃ v ∈ vs, (g.vtx v).kind = .constant ∧ ∃ t k r, (g.vtx v).outs[0]? = some t ∧ key t = some k ∧ (k, r) ∈ m' ∧ a ∈ actionsFor g v t r) ∧
      (∀ a ∈ acts, a ∈ acts') := by
  induction vs with
  | nil =>
    intro done m acts acts' hm h
    simp only [scan, Option.some.injEq] at h
    subst h
    exact ⟨m, by simpa using hm, fun p hp => hp, by simp, fun a ha => Or.inl ha, fun a ha => ha⟩
  | cons v vs ih =>
    intro done m acts acts' hm h
    unfold scan at h
    split at h
    · rename_i hk
      simp only [Option.bind_eq_bind, Option.bind_eq_some_iff] at h
      obtain ⟨t, ht, k, hkey, h⟩ := h
      split at h
      · rename_i p hp
        have hpm := List.mem_of_find?_eq_some hp
        have hpk : p.1 = k := by simpa using List.find?_some hp
        have hm' : MapOk g key (done ++ [v]) m := by
          refine ⟨fun q hq => ?_, hm.inj⟩
          obtain ⟨a1, w, a2, a3⟩ := hm.entry q hq
          exact ⟨a1, w, by simp [a2], a3⟩
        obtain ⟨m', b1, b2, b3, b4, b5⟩ := ih hm' h
        have hin : (k, p.2) ∈ m' := by have := b2 p hpm; rw [← hpk]; exact this
        refine ⟨m', by simpa using b1, b2, ?_, ?_, fun a ha => b5 a (by simp [ha])⟩
        · intro w hw hwk
          rcases List.mem_cons.1 hw with rfl | hw
          · exact ⟨t, k, p.2, ht, hkey, hin, Or.inr (fun a ha => b5 a (by simp [ha]))⟩
          · exact b3 w hw hwk
        · intro a ha
          rcases b4 a ha with h1 | ⟨w, hw, h1⟩
          · rcases List.mem_append.1 h1 with h1 | h1
            · exact Or.inl h1
            · exact Or.inr ⟨v, by simp, hk, t, k, p.2, ht, hkey, hin, h1⟩
          · exact Or.inr ⟨w, by simp [hw], h1⟩
      · rename_i hnone
        have hm' : MapOk g key (done ++ [v]) (m ++ [(k, t)]) := by
          have hfresh : ∀ p ∈ m, p.1 ≠ k := by
            intro p hp hpk
            have := List.find?_eq_none.1 hnone p hp
            simp [hpk] at this
          refine ⟨fun q hq => ?_, fun p hp q hq hpq => ?_⟩
          · rcases List.mem_append.1 hq with hq | hq
            · obtain ⟨a1, w, a2, a3⟩ := hm.entry q hq
              exact ⟨a1, w, by simp [a2], a3⟩
            · simp only [List.mem_singleton] at hq
              subst hq
              exact ⟨hkey, v, by simp, hk, ht⟩
          · rcases List.mem_append.1 hp with hp | hp <;> rcases List.mem_append.1 hq with hq | hq
            · exact hm.inj p hp q hq hpq
            · simp only [List.mem_singleton] at hq
              subst hq
              exact absurd hpq (hfresh p hp)
            · simp only [List.mem_singleton] at hp
              subst hp
              exact absurd hpq.symm (hfresh q hq)
            · simp only [List.mem_singleton] at hp hq
              rw [hp, hq]
        obtain ⟨m', b1, b2, b3, b4, b5⟩ := ih hm' h
        refine ⟨m', by simpa using b1, fun p hp => b2 p (by simp [hp]), ?_, ?_, b5⟩
        · intro w hw hwk
          rcases List.mem_cons.1 hw with rfl | hw
          · exact ⟨t, k, t, ht, hkey, b2 _ (by simp), Or.inl rfl⟩
          · exact b3 w hw hwk
        · intro a ha
          rcases b4 a ha with h1 | ⟨w, hw, h1⟩
          · exact Or.inl h1
          · exact Or.inr ⟨w, by simp [hw], h1⟩
    · rename_i hk
      have hm' : MapOk g key (done ++ [v]) m := by
        refine ⟨fun q hq => ?_, hm.inj⟩
        obtain ⟨a1, w, a2, a3⟩ := hm.entry q hq
        exact ⟨a1, w, by simp [a2], a3⟩
      obtain ⟨m', b1, b2, b3, b4, b5⟩ := ih hm' h
      refine ⟨m', by simpa using b1, b2, ?_, ?_, b5⟩
      · intro w hw hwk
        rcases List.mem_cons.1 hw with rfl | hw
        · exact absurd hwk hk
        · exact b3 w hw hwk
      · intro a ha
        rcases b4 a ha with h1 | ⟨w, hw, h1⟩
        · exact Or.inl h1
        · exact Or.inr ⟨w, by simp [hw], h1⟩

/-- What one replacement leaves in place. -/
structure SameFrame (g g' : DGraph T V) : Prop where
  verts : g'.verts = g.verts
  kind : ∀ v, (g'.vtx v).kind = (g.vtx v).kind
  outs : ∀ v, (g'.vtx v).outs = (g.vtx v).outs
  own : ∀ v, (g'.vtx v).own = (g.vtx v).own
  node : g'.nodeOf = g.nodeOf
  buffer : g'.buffer = g.buffer

omit [DecidableEq T] in
theorem SameFrame.constant {g g' : DGraph T V} (h : SameFrame g g') (t : T) : IsConstant g' t ↔ IsConstant g t := by
  unfold IsConstant
  rw [h.verts]
  simp only [h.kind, h.outs]

theorem replaceInput_ok {g g' : DGraph T V} {rank : Nat → Nat} {a : Action T} (wf : DWellFormed g rank) (one : OneEdgePerOperand g)
    (hrank : ∀ v ∈ g.verts, (g.vtx v).kind = .constant → rank v = 0) (ht : a.target ∈ g.verts) (hop : (g.vtx a.target).kind = .op) (hnew : IsConstant g a.new)
    (h : replaceInput g a = some g') :
    DWellFormed g' rank ∧ OneEdgePerOperand g' ∧ SameFrame g g' ∧ a.idx < (g.vtx a.target).ins.length ∧
      ∀ v, (g'.vtx v).ins = if v = a.target then (g.vtx v).ins.set a.idx a.new else (g.vtx v).ins := by
  unfold replaceInput at h
  simp only [Option.bind_eq_bind, Option.bind_eq_some_iff, Option.some.injEq] at h
  obtain ⟨old, hold, h⟩ := h
  have hlt : a.idx < (g.vtx a.target).ins.length := (List.getElem?_eq_some_iff.1 hold).1
  have hget : (g.vtx a.target).ins[a.idx] = old := (List.getElem?_eq_some_iff.1 hold).2
  have hins : ∀ v, (g'.vtx v).ins = if v = a.target then (g.vtx v).ins.set a.idx a.new else (g.vtx v).ins := by
    intro v; rw [← h]; dsimp only; split <;> rfl
  have hfr : SameFrame g g' := by
    refine ⟨by rw [← h], fun v => ?_, fun v => ?_, fun v => ?_, by rw [← h], by rw [← h]⟩ <;> (rw [← h]; dsimp only; split <;> rfl)
  have hedges : g'.edges = g.edges.eraseP (fun e => decide (e.tgt = a.target ∧ old ∈ (g.vtx e.src).outs ∧ e.label = old)) ++ [⟨g.nodeOf a.new, a.target, a.new⟩] := by rw [← h]
  -- the edge that goes
  obtain ⟨e0, he0, et0, el0⟩ := wf.fed a.target ht hop old (List.mem_of_getElem? hold)
  obtain ⟨-, -, eo0, -⟩ := wf.edge e0 he0
  obtain ⟨e, l1, l2, -, hp, hl, her⟩ := List.exists_of_eraseP (p := fun e : DEdge T => decide (e.tgt = a.target ∧ old ∈ (g.vtx e.src).outs ∧ e.label = old)) he0
    (by simp only [decide_eq_true_eq]; exact ⟨et0, el0 ▸ eo0, el0⟩)
  simp only [decide_eq_true_eq] at hp
  rw [her] at hedges
  have hone : OneEdgePerOperand g' := by
    intro w hw hk t
    rw [hfr.verts] at hw
    rw [hfr.kind] at hk
    have h0 := one w hw hk t
    unfold edgesFor at h0 ⊢
    rw [hl] at h0
    rw [hedges, hins]
    simp only [List.filter_append, List.filter_cons, List.filter_nil, List.length_append, decide_eq_true_eq] at h0 ⊢
    by_cases hwt : w = a.target
    · subst hwt
      rw [if_pos rfl, List.count_set hlt, hget, ← h0]
      simp only [hp.1, hp.2.2, true_and, beq_iff_eq]
      by_cases c1 : old = t <;> by_cases c2 : a.new = t <;> simp [c1, c2]
    · rw [if_neg hwt, ← h0]
      simp [hp.1, Ne.symm hwt]
  refine ⟨?_, hone, hfr, hlt, hins⟩
  have hmem : ∀ e' ∈ g'.edges, e' ∈ g.edges ∨ e' = ⟨g.nodeOf a.new, a.target, a.new⟩ := by
    intro e' he'
    rw [hedges] at he'
    rw [hl]
    simp only [List.mem_append, List.mem_cons, List.not_mem_nil, or_false] at he' ⊢
    tauto
  have hcount : ∀ e' ∈ g'.edges, (g.vtx e'.tgt).kind = .op → e'.tgt ∈ g.verts → e'.label ∈ (g'.vtx e'.tgt).ins := by
    intro e' he' hk hv
    have := hone e'.tgt (by rw [hfr.verts]; exact hv) (by rw [hfr.kind]; exact hk) e'.label
    have hm : e' ∈ edgesFor g' e'.tgt e'.label := by unfold edgesFor; simp [he']
    have hpos := List.length_pos_of_mem hm
    rw [this] at hpos
    exact List.count_pos_iff.1 hpos
  obtain ⟨c, hc, hck, hct⟩ := hnew
  have hnode : g.nodeOf a.new = c := wf.node c hc a.new hct
  refine ⟨?_, ?_, ?_, ?_, ?_⟩
  · intro v hv hk t htm
    have := hone v hv hk t
    have hpos := List.count_pos_iff.2 htm
    rw [← this] at hpos
    obtain ⟨e', he'⟩ := List.exists_mem_of_length_pos hpos
    unfold edgesFor at he'
    simp only [List.mem_filter, decide_eq_true_eq] at he'
    exact ⟨e', he'.1, he'.2.1, he'.2.2⟩
  · intro e' he'
    rw [hfr.verts, hfr.kind, hfr.kind, hfr.outs]
    rcases hmem e' he' with h1 | h1
    · obtain ⟨a1, a2, a3, a4, a5, a6⟩ := wf.edge e' h1
      refine ⟨a1, a2, a3, ?_, a5, a6⟩
      rcases a4 with a4 | a4
      · exact Or.inl ⟨a4.1, hcount e' he' a4.1 a2⟩
      · exact Or.inr a4
    · have hm := hcount e' he'
      subst h1
      dsimp only at hm ⊢
      rw [hnode]
      refine ⟨hc, ht, hct, Or.inl ⟨hop, hm hop ht⟩, ?_, ?_⟩
      · rw [hck]; rintro (h | h) <;> cases h
      · rw [hrank c hc hck]
        obtain ⟨-, -, -, -, -, e6⟩ := wf.edge e0 he0
        rw [et0] at e6
        omega
  · intro u hu v hv t h1 h2
    rw [hfr.verts] at hu hv
    rw [hfr.outs] at h1 h2
    exact wf.single u hu v hv t h1 h2
  · intro v hv t h1
    rw [hfr.verts] at hv
    rw [hfr.outs] at h1
    rw [hfr.node]
    exact wf.node v hv t h1
  · intro v hv hk
    rw [hfr.verts] at hv ⊢
    rw [hfr.kind] at hk
    obtain ⟨⟨t, b1, b2⟩, b3⟩ := wf.constant v hv hk
    refine ⟨⟨t, by rw [hfr.outs]; exact b1, by rw [hfr.own, hfr.buffer]; exact b2⟩, ?_⟩
    intro u hu hku
    rw [hfr.kind] at hku
    rw [hfr.own, hfr.outs]
    exact b3 u hu hku

theorem fold_replace {rank : Nat → Nat} (acts : List (Action T)) : ∀ {g g' : DGraph T V}, DWellFormed g rank → OneEdgePerOperand g →
    (∀ v ∈ g.verts, (g.vtx v).kind = .constant → rank v = 0) → (∀ a ∈ acts, a.target ∈ g.verts ∧ (g.vtx a.target).kind = .op ∧ IsConstant g a.new) →
    acts.foldlM replaceInput g = some g' →
    DWellFormed g' rank ∧ OneEdgePerOperand g' ∧ SameFrame g g' ∧ (∀ v, (g'.vtx v).ins.length = (g.vtx v).ins.length) ∧
    ∀ v i, ((∀ a ∈ acts, a.target = v → a.idx ≠ i) → (g'.vtx v).ins[i]? = (g.vtx v).ins[i]?) ∧
      ∀ r, (∀ a ∈ acts, a.target = v → a.idx = i → a.new = r) → (∃ a ∈ acts, a.target = v ∧ a.idx = i) ∨ (g.vtx v).ins[i]? = some r → (g'.vtx v).ins[i]? = some r := by
  induction acts with
  | nil =>
    intro g g' wf one hr ha h
    simp only [List.foldlM_nil] at h
    cases h
    refine ⟨wf, one, ⟨rfl, fun _ => rfl, fun _ => rfl, fun _ => rfl, rfl, rfl⟩, fun _ => rfl, fun v i => ⟨fun _ => rfl, ?_⟩⟩
    rintro r - (⟨a, ha, -⟩ | h)
    · simp at ha
    · exact h
  | cons a l ih =>
    intro g g' wf one hr ha h
    simp only [List.foldlM_cons, Option.bind_eq_bind, Option.bind_eq_some_iff] at h
    obtain ⟨g1, h1, h2⟩ := h
    obtain ⟨b1, b2, b3⟩ := ha a (by simp)
    obtain ⟨c1, c2, c3, c4, c5⟩ := replaceInput_ok wf one hr b1 b2 b3 h1
    obtain ⟨d1, d2, d3, d4, d5⟩ := ih c1 c2 (fun v hv hk => hr v (by rw [← c3.verts]; exact hv) (by rw [← c3.kind]; exact hk))
      (fun x hx => by
        obtain ⟨e1, e2, e3⟩ := ha x (by simp [hx])
        exact ⟨by rw [c3.verts]; exact e1, by rw [c3.kind]; exact e2, (c3.constant _).2 e3⟩) h2
    refine ⟨d1, d2, ⟨d3.verts.trans c3.verts, fun v => (d3.kind v).trans (c3.kind v), fun v => (d3.outs v).trans (c3.outs v), fun v => (d3.own v).trans (c3.own v),
      d3.node.trans c3.node, d3.buffer.trans c3.buffer⟩, fun v => ?_, fun v i => ⟨fun hno => ?_, fun r hall hex => ?_⟩⟩
    · rw [d4 v, c5 v]; split <;> simp
    · rw [(d5 v i).1 (fun x hx => hno x (by simp [hx])), c5 v]
      split
      · rename_i hv
        have := hno a (by simp) hv.symm
        rw [List.getElem?_set_ne this]
      · rfl
    · refine (d5 v i).2 r (fun x hx => hall x (by simp [hx])) ?_
      by_cases hhere : a.target = v ∧ a.idx = i
      · right
        obtain ⟨q1, q2⟩ := hhere
        subst q1 q2
        rw [c5, if_pos rfl, List.getElem?_set_self c4, hall a (by simp) rfl rfl]
      · rcases hex with ⟨x, hx, hx1, hx2⟩ | hold
        · rcases List.mem_cons.1 hx with rfl | hx
          · exact absurd ⟨hx1, hx2⟩ hhere
          · exact Or.inl ⟨x, hx, hx1, hx2⟩
        · right
          rw [c5]
          split
          · rename_i hv
            rw [List.getElem?_set_ne (fun hc => hhere ⟨hv.symm, hc⟩)]; exact hold
          · exact hold

/-- After equal constants are merged the graph is well formed, everything but the operands is as before, and each operand is the tensor it was or, if that was a constant, a
constant with the same content, type, shape and quantization.  No two constants that operators still read are equal in this sense. -/
theorem C73 (g g' : DGraph T V) (key : T → Option K) (rank : Nat → Nat) (wf : DWellFormed g rank) (one : OneEdgePerOperand g)
    (hrank : ∀ v ∈ g.verts, (g.vtx v).kind = .constant → rank v = 0) (h : groupTensors g key = some g') :
    DWellFormed g' rank ∧ OneEdgePerOperand g' ∧ SameFrame g g' ∧
    (∀ v, (g'.vtx v).ins.length = (g.vtx v).ins.length ∧ ∀ i (hi : i < (g.vtx v).ins.length) (hi' : i < (g'.vtx v).ins.length),
      (g'.vtx v).ins[i] = (g.vtx v).ins[i] ∨ IsConstant g (g.vtx v).ins[i] ∧ IsConstant g (g'.vtx v).ins[i] ∧
        ∃ k, key (g'.vtx v).ins[i] = some k ∧ key (g.vtx v).ins[i] = some k) ∧
    (∀ v ∈ g.verts, (g.vtx v).kind = .op → ∀ w ∈ g.verts, (g.vtx w).kind = .op → ∀ t ∈ (g'.vtx v).ins, ∀ u ∈ (g'.vtx w).ins,
      IsConstant g t → IsConstant g u → key t = key u → t = u) := by
  unfold groupTensors at h
  simp only [Option.bind_eq_bind, Option.bind_eq_some_iff] at h
  obtain ⟨acts, hs, hf⟩ := h
  obtain ⟨m, m1, -, m3, m4, -⟩ := scan_spec g.verts (done := []) (m := []) (acts := []) (g := g) (key := key) ⟨by simp, by simp⟩ hs
  simp only [List.nil_append] at m1
  -- the tensor of a constant vertex
  have hc0 : ∀ v ∈ g.verts, (g.vtx v).kind = .constant → ∀ t, t ∈ (g.vtx v).outs ↔ (g.vtx v).outs[0]? = some t := by
    intro v hv hk t
    obtain ⟨⟨t', a1, -⟩, -⟩ := wf.constant v hv hk
    rw [a1]
    simp [eq_comm]
  have hrep : ∀ k r, (k, r) ∈ m → key r = some k ∧ IsConstant g r := by
    intro k r hm
    obtain ⟨a1, v, a2, a3, a4⟩ := m1.entry _ hm
    exact ⟨a1, v, a2, a3, (hc0 v a2 a3 r).2 a4⟩
  -- every action puts the representative of the operand it replaces
  have hact : ∀ a ∈ acts, (g.vtx a.target).kind = .op ∧ ∃ t k, IsConstant g t ∧ (g.vtx a.target).ins[a.idx]? = some t ∧ key t = some k ∧ (k, a.new) ∈ m := by
    intro a ha
    rcases m4 a ha with h1 | ⟨v, hv, hk, t, k, r, h1, h2, h3, h4⟩
    · simp at h1
    · obtain ⟨b1, b2, b3, -⟩ := mem_actionsFor.1 h4
      exact ⟨b2, t, k, ⟨v, hv, hk, (hc0 v hv hk t).2 h1⟩, b3, h2, by rw [b1]; exact h3⟩
  have htv : ∀ a ∈ acts, a.target ∈ g.verts := by
    intro a ha
    rcases m4 a ha with h1 | ⟨v, hv, hk, t, k, r, h1, h2, h3, h4⟩
    · simp at h1
    · obtain ⟨-, -, -, e, he, -, et⟩ := mem_actionsFor.1 h4
      rw [← et]; exact (wf.edge e he).2.1
  obtain ⟨f1, f2, f3, f4, f5⟩ := fold_replace acts wf one hrank (fun a ha => by
    obtain ⟨b1, t, k, -, -, -, b2⟩ := hact a ha
    exact ⟨htv a ha, b1, (hrep k a.new b2).2⟩) hf
  -- what becomes of an operand
  have hop : ∀ (v i : Nat) (t : T), (g.vtx v).ins[i]? = some t → (g'.vtx v).ins[i]? = some t ∨ ∃ k r, IsConstant g t ∧ key t = some k ∧ (k, r) ∈ m ∧ (g'.vtx v).ins[i]? = some r := by
    intro v i t ht
    by_cases hex : ∃ a ∈ acts, a.target = v ∧ a.idx = i
    · obtain ⟨a, ha, a1, a2⟩ := hex
      obtain ⟨-, t', k, b1, b2, b3, b4⟩ := hact a ha
      rw [a1, a2, ht] at b2
      cases b2
      refine Or.inr ⟨k, a.new, b1, b3, b4, (f5 v i).2 a.new ?_ (Or.inl ⟨a, ha, a1, a2⟩)⟩
      intro x hx x1 x2
      obtain ⟨-, t'', k', c1, c2, c3, c4⟩ := hact x hx
      rw [x1, x2, ht] at c2
      cases c2
      rw [b3] at c3
      cases c3
      have := m1.inj _ c4 _ b4 rfl
      exact (Prod.mk.inj this).2
    · left
      rw [(f5 v i).1 (fun a ha h1 h2 => hex ⟨a, ha, h1, h2⟩)]
      exact ht
  -- an operand that is a constant becomes its representative
  have hcon : ∀ v ∈ g.verts, (g.vtx v).kind = .op → ∀ t ∈ (g'.vtx v).ins, IsConstant g t → ∃ k, key t = some k ∧ (k, t) ∈ m := by
    intro v hv hk t ht hct
    obtain ⟨i, hi, hti⟩ := List.mem_iff_getElem.1 ht
    have hti' : (g'.vtx v).ins[i]? = some t := by rw [List.getElem?_eq_getElem hi, hti]
    have hi0 : i < (g.vtx v).ins.length := by rw [← f4 v]; exact hi
    have h0 : (g.vtx v).ins[i]? = some (g.vtx v).ins[i] := List.getElem?_eq_getElem hi0
    generalize (g.vtx v).ins[i] = t0 at h0
    by_cases hct0 : IsConstant g t0
    · -- it was a constant
      obtain ⟨c, hc, hck, hct'⟩ := hct0
      obtain ⟨t1, k, r, a1, a2, a3, a4⟩ := m3 c hc hck
      have : t1 = t0 := by
        have := (hc0 c hc hck t0).1 hct'
        rw [a1] at this
        exact Option.some.inj this
      subst this
      rcases a4 with a4 | a4
      · -- it is its own representative
        subst a4
        rcases hop v i r h0 with h1 | ⟨k', r', -, h2, h3, h4⟩
        · rw [h1] at hti'
          cases hti'
          exact ⟨k, a2, a3⟩
        · rw [a2] at h2
          cases h2
          have := (Prod.mk.inj (m1.inj _ h3 _ a3 rfl)).2
          subst this
          rw [h4] at hti'
          cases hti'
          exact ⟨k, a2, a3⟩
      · -- an action replaces it
        obtain ⟨e, he, et, el⟩ := wf.fed v hv hk t1 (List.mem_of_getElem? h0)
        obtain ⟨e1, -, e3, -⟩ := wf.edge e he
        have hsrc : e.src = c := wf.single _ e1 c hc t1 (el ▸ e3) hct'
        have hmem := a4 ⟨v, i, r⟩ (mem_actionsFor.2 ⟨rfl, hk, h0, e, he, hsrc, et⟩)
        have hr := (f5 v i).2 r (fun x hx x1 x2 => by
          obtain ⟨-, t'', k', c1, c2, c3, c4⟩ := hact x hx
          rw [x1, x2, h0] at c2
          cases c2
          rw [a2] at c3
          cases c3
          exact (Prod.mk.inj (m1.inj _ c4 _ a3 rfl)).2) (Or.inl ⟨_, hmem, rfl, rfl⟩)
        rw [hr] at hti'
        cases hti'
        exact ⟨k, (hrep k t a3).1, a3⟩
    · rcases hop v i t0 h0 with h1 | ⟨k', r', h2, -⟩
      · rw [h1] at hti'
        cases hti'
        exact absurd hct hct0
      · exact absurd h2 hct0
  refine ⟨f1, f2, f3, fun v => ⟨f4 v, fun i hi hi' => ?_⟩, ?_⟩
  · rcases hop v i _ (List.getElem?_eq_getElem hi) with h1 | ⟨k, r, h1, h2, h3, h4⟩
    · left
      rw [List.getElem?_eq_getElem hi'] at h1
      exact Option.some.inj h1
    · right
      rw [List.getElem?_eq_getElem hi'] at h4
      have h4 := Option.some.inj h4
      rw [h4]
      exact ⟨h1, (hrep k r h3).2, k, (hrep k r h3).1, h2⟩
  · intro v hv hvk w hw hwk t ht u hu hct hcu hkey
    obtain ⟨k, a1, a2⟩ := hcon v hv hvk t ht hct
    obtain ⟨k', b1, b2⟩ := hcon w hw hwk u hu hcu
    rw [hkey, b1] at a1
    cases a1
    exact (Prod.mk.inj (m1.inj _ a2 _ b2 rfl)).2

/-- The graph computes what it computed: every operator reads the same values. -/
theorem C73_computes (g g' : DGraph T V) (key : T → Option K) (rank : Nat → Nat) (wf : DWellFormed g rank) (one : OneEdgePerOperand g)
    (hrank : ∀ v ∈ g.verts, (g.vtx v).kind = .constant → rank v = 0) (hkey : ∀ t u k, key t = some k → key u = some k → g.buffer t = g.buffer u)
    (h : groupTensors g key = some g') (sem : Nat → List V → List V) (inp : Nat → V) (val : T → V) (hc : Computes g sem inp val) :
    Computes g' sem inp val ∧ ∀ v, (g'.vtx v).ins.map val = (g.vtx v).ins.map val := by
  obtain ⟨-, -, fr, hins, -⟩ := C73 g g' key rank wf one hrank h
  have hv : ∀ v, (g'.vtx v).ins.map val = (g.vtx v).ins.map val := by
    intro v
    obtain ⟨hl, hi⟩ := hins v
    apply List.ext_getElem (by simp [hl])
    intro i h1 h2
    simp only [List.length_map] at h1 h2
    simp only [List.getElem_map]
    rcases hi i h2 h1 with h3 | ⟨⟨c, c1, c2, c3⟩, ⟨d, d1, d2, d3⟩, k, h4, h5⟩
    · rw [h3]
    · rw [hc.const d d1 d2 _ d3, hc.const c c1 c2 _ c3]
      exact hkey _ _ k h4 h5
  refine ⟨⟨fun v hv' hk => ?_, fun v hv' hk t ht => ?_, fun v hv' hk t ht => ?_⟩, hv⟩
  · rw [fr.verts] at hv'
    rw [fr.kind] at hk
    rw [fr.outs, hv]
    exact hc.op v hv' hk
  · rw [fr.verts] at hv'
    rw [fr.kind] at hk
    rw [fr.outs] at ht
    rw [fr.buffer]
    exact hc.const v hv' hk t ht
  · rw [fr.verts] at hv'
    rw [fr.kind] at hk
    rw [fr.outs] at ht
    exact hc.input v hv' hk t ht

/-- A constant without a buffer, such as an omitted optional operand of a fused LSTM, makes the pass fail. -/
theorem scan_none {g : DGraph T V} {key : T → Option K} (vs : List Nat) : ∀ (m : List (K × T)) (acts : List (Action T)) (v : Nat), v ∈ vs → (g.vtx v).kind = .constant →
    (∀ t, (g.vtx v).outs[0]? = some t → key t = none) → scan g key vs m acts = none := by
  induction vs with
  | nil => intro m acts v hv; simp at hv
  | cons w vs ih =>
    intro m acts v hv hk hno
    unfold scan
    by_cases hwk : (g.vtx w).kind = .constant
    · rw [if_pos hwk]
      simp only [Option.bind_eq_bind]
      rcases List.mem_cons.1 hv with rfl | hv
      · cases h1 : (g.vtx v).outs[0]? with
        | none => rfl
        | some t => simp [hno t h1]
      · cases h1 : (g.vtx w).outs[0]? with
        | none => rfl
        | some t =>
          simp only [Option.bind_some]
          cases h2 : key t with
          | none => rfl
          | some k =>
            simp only [Option.bind_some]
            split
            · exact ih _ _ v hv hk hno
            · exact ih _ _ v hv hk hno
    · rw [if_neg hwk]
      rcases List.mem_cons.1 hv with rfl | hv
      · exact absurd hk hwk
      · exact ih _ _ v hv hk hno

theorem C73_optional_false (g : DGraph T V) (key : T → Option K) (v : Nat) (hv : v ∈ g.verts) (hk : (g.vtx v).kind = .constant)
    (hno : ∀ t, (g.vtx v).outs[0]? = some t → key t = none) : groupTensors g key = none := by
  unfold groupTensors
  rw [scan_none g.verts [] [] v hv hk hno]
  rfl

/-! ### Concrete graphs -/

/-- Constants `0`, `1` and `2` (the first two equal), operators `3` reading `0, 1, 1` and `4` reading `1, 2`, and an optional tensor `5` if `opt`. -/
def shareGraph (opt : Bool) : DGraph Nat Nat where
  verts := [0, 1, 2, 3, 4] ++ if opt then [5] else []
  vtx := fun v => match v with
    | 0 => ⟨.constant, 0, [], [0]⟩
    | 1 => ⟨.constant, 1, [], [1]⟩
    | 2 => ⟨.constant, 2, [], [2]⟩
    | 3 => ⟨.op, 3, [0, 1, 1], [3]⟩
    | 4 => ⟨.op, 4, [1, 2], [4]⟩
    | v => ⟨.constant, v, [], [v]⟩
  edges := [⟨0, 3, 0⟩, ⟨1, 3, 1⟩, ⟨1, 3, 1⟩, ⟨1, 4, 1⟩, ⟨2, 4, 2⟩]
  nodeOf := fun t => t
  buffer := fun t => if t = 2 then 8 else 7

def shareKey : Nat → Option Nat := fun t => if t = 5 then none else if t = 2 then some 8 else some 7

example : DWellFormed (shareGraph false) (fun v => if v = 3 ∨ v = 4 then 1 else 0) ∧ OneEdgePerOperand (shareGraph false) ∧
    (∀ v ∈ (shareGraph false).verts, ((shareGraph false).vtx v).kind = .constant → (if v = 3 ∨ v = 4 then 1 else 0) = 0) ∧
    (groupTensors (shareGraph false) shareKey).map (fun g => ((g.vtx 3).ins, (g.vtx 4).ins)) = some ([0, 0, 0], [0, 2]) := by
  refine ⟨⟨by decide, by decide, ?_, by decide, ?_⟩, ?_, by decide, by decide⟩
  · intro u hu v hv t h1 h2
    have H : ∀ u ∈ (shareGraph false).verts, ∀ v ∈ (shareGraph false).verts, ∀ t ∈ ((shareGraph false).vtx u).outs, t ∈ ((shareGraph false).vtx v).outs → u = v := by decide
    exact H u hu v hv t h1 h2
  · intro v hv hk
    have H : ∀ v ∈ (shareGraph false).verts, ((shareGraph false).vtx v).kind = .constant → ((shareGraph false).vtx v).outs = [v] ∧ ((shareGraph false).vtx v).own = v ∧
        ∀ u ∈ (shareGraph false).verts, ((shareGraph false).vtx u).kind = .op → ((shareGraph false).vtx v).own ∉ ((shareGraph false).vtx u).outs := by decide
    obtain ⟨h1, h2, h3⟩ := H v hv hk
    exact ⟨⟨v, h1, by rw [h2]⟩, h3⟩
  · intro v hv hk t
    have hv' : v = 3 ∨ v = 4 := by revert hk; revert v; decide
    rcases hv' with rfl | rfl
    · by_cases h0 : t = 0
      · subst h0; decide
      · by_cases h1 : t = 1
        · subst h1; decide
        · simp [edgesFor, shareGraph, Ne.symm h0, Ne.symm h1]
    · by_cases h0 : t = 1
      · subst h0; decide
      · by_cases h1 : t = 2
        · subst h1; decide
        · simp [edgesFor, shareGraph, Ne.symm h0, Ne.symm h1]

example : groupTensors (shareGraph true) shareKey = none := C73_optional_false _ _ 5 (by decide) (by decide) (by decide)

end Verif.Props
