import Verif.Lemmas.FuncRewrite3

/-! Lemmas for C87: the fusion of additions with `relu`. -/

namespace Verif.Lemmas.FuncRewrite
open Verif.Spec Verif.Spec.FuncCall Verif.Model.FuncRewrite

theorem reader_some {p : List Instr} {n : Name} {r : Instr} (h : reader p n = some r) : r ∈ p ∧ n ∈ r.ins :=
  ⟨List.mem_of_find?_eq_some h, by simpa using List.find?_some h⟩

theorem count_pos_sum {n : Name} : ∀ {p : List Instr} {q : Instr}, q ∈ p → n ∈ q.ins → 1 ≤ (p.map (fun i => i.ins.count n)).sum
  | i :: p, q, hq, hn => by
    rw [List.map_cons, List.sum_cons]
    rcases List.mem_cons.mp hq with rfl | hq
    · have := List.count_pos_iff.mpr hn
      omega
    · have := count_pos_sum hq hn
      omega

theorem only_reader {n : Name} {q r : Instr} (hnq : n ∈ q.ins) (hnr : n ∈ r.ins) (p : List Instr) : q ∈ p → r ∈ p → (p.map (fun i => i.ins.count n)).sum ≤ 1 → q = r := by
  induction p with
  | nil => intro hq; simp at hq
  | cons i p ih =>
    intro hq hr h
    rw [List.map_cons, List.sum_cons] at h
    rcases List.mem_cons.mp hq with hq | hq <;> rcases List.mem_cons.mp hr with hr | hr
    · rw [hq, hr]
    · have := List.count_pos_iff.mpr hnq
      have := count_pos_sum hr hnr
      rw [← hq] at h
      omega
    · have := List.count_pos_iff.mpr hnr
      have := count_pos_sum hq hnq
      rw [← hr] at h
      omega
    · exact ih hq hr (by omega)

/-- `relu` as a function or a module. -/
def isRelu : Op → Prop
  | .fn .relu _ | .mod .relu => True
  | _ => False

/-- Modules on the way from an addition to a `relu`. -/
def IdStep (p : List Instr) (G : List Name) (x y : Name) : Prop := x ∈ G ∧ ∃ r ∈ p, r.op = .mod .identity ∧ x ∈ r.ins ∧ r.out = y

/-- What the search finds. -/
structure Chain (p : List Instr) (outs : List Name) (n : Name) (ns : List Name) (m : Name) : Prop where
  start : n ∈ ns
  once : ∀ x ∈ ns, readers p outs x = 1
  reach : ∀ x ∈ ns, Relation.ReflTransGen (IdStep p ns) n x
  last : ∃ r ∈ p, isRelu r.op ∧ r.out = m ∧ ∃ x ∈ ns, x ∈ r.ins
  next : ∀ x ∈ ns, ∃ q ∈ p, x ∈ q.ins ∧ ((isRelu q.op ∧ q.out = m) ∨ (q.op = .mod .identity ∧ q.out ∈ ns))

theorem idStep_mono {p : List Instr} {G G' : List Name} (h : ∀ x ∈ G, x ∈ G') {a b : Name} (hr : Relation.ReflTransGen (IdStep p G) a b) :
    Relation.ReflTransGen (IdStep p G') a b := Relation.ReflTransGen.mono (fun _ _ hs => ⟨h _ hs.1, hs.2⟩) _ _ hr

theorem past_chain {p : List Instr} {outs : List Name} : ∀ (fuel : Nat) {n : Name} {ns : List Name} {m : Name}, pastIdentities p outs fuel n = some (ns, m) → Chain p outs n ns m
  | 0, n, ns, m, h => by simp [pastIdentities] at h
  | fuel + 1, n, ns, m, h => by
    unfold pastIdentities at h
    split at h
    · simp at h
    · rename_i h1
      push Not at h1
      split at h
      · rename_i r hr
        obtain ⟨hrp, hrn⟩ := reader_some hr
        split at h
        · rename_i hop
          obtain ⟨⟨ns', m'⟩, hq, he⟩ := Option.map_eq_some_iff.mp h
          simp only [Prod.mk.injEq] at he
          obtain ⟨rfl, rfl⟩ := he
          have ih := past_chain fuel hq
          have hsub : ∀ x ∈ ns', x ∈ n :: ns' := fun x hx => by simp [hx]
          refine ⟨by simp, ?_, ?_, ?_, ?_⟩
          · intro x hx
            rcases List.mem_cons.mp hx with rfl | hx
            · exact h1
            · exact ih.once x hx
          · intro x hx
            rcases List.mem_cons.mp hx with rfl | hx
            · exact .refl
            · exact .head ⟨by simp, r, hrp, hop, hrn, rfl⟩ (idStep_mono hsub (ih.reach x hx))
          · obtain ⟨q, hqp, hqr, hqm, x, hx, hxq⟩ := ih.last
            exact ⟨q, hqp, hqr, hqm, x, hsub x hx, hxq⟩
          · intro x hx
            rcases List.mem_cons.mp hx with rfl | hx
            · exact ⟨r, hrp, hrn, Or.inr ⟨hop, hsub _ ih.start⟩⟩
            · obtain ⟨q, hqp, hxq, hc⟩ := ih.next x hx
              exact ⟨q, hqp, hxq, hc.imp id (fun h => ⟨h.1, hsub _ h.2⟩)⟩
        · rename_i hop
          simp only [Option.some.injEq, Prod.mk.injEq] at h
          obtain ⟨rfl, rfl⟩ := h
          have hre : isRelu r.op := by rw [hop]; trivial
          refine ⟨by simp, by simpa using h1, ?_, ⟨r, hrp, hre, rfl, n, by simp, hrn⟩, ?_⟩
          · intro x hx
            simp only [List.mem_singleton] at hx
            subst hx
            exact .refl
          · intro x hx
            simp only [List.mem_singleton] at hx
            subst hx
            exact ⟨r, hrp, hrn, Or.inl ⟨hre, rfl⟩⟩
        · simp at h
      · simp at h

theorem addRelu_chain {p : List Instr} {outs : List Name} {i : Instr} {ns : List Name} {m : Name} (h : addRelu p outs i = some (ns, m)) :
    i.on = true ∧ isAdd i.op = true ∧ i.ins.length = 2 ∧ Chain p outs i.out ns m := by
  unfold addRelu at h
  split at h
  · rename_i hc
    refine ⟨hc.1, hc.2.1, hc.2.2.1, ?_⟩
    split at h
    · rename_i r hr
      obtain ⟨hrp, hrn⟩ := reader_some hr
      split at h
      · rename_i a hop
        simp only [Option.some.injEq, Prod.mk.injEq] at h
        obtain ⟨rfl, rfl⟩ := h
        have hre : isRelu r.op := by rw [hop]; trivial
        refine ⟨by simp, by simpa using hc.2.2.2, ?_, ⟨r, hrp, hre, rfl, _, by simp, hrn⟩, ?_⟩
        · intro x hx
          simp only [List.mem_singleton] at hx
          subst hx
          exact .refl
        · intro x hx
          simp only [List.mem_singleton] at hx
          subst hx
          exact ⟨r, hrp, hrn, Or.inl ⟨hre, rfl⟩⟩
      · exact past_chain _ h
    · simp at h
  · simp at h

theorem mem_gone {p : List Instr} {outs : List Name} {n : Name} : n ∈ gone p outs ↔ ∃ i ∈ p, ∃ ns m, addRelu p outs i = some (ns, m) ∧ n ∈ ns := by
  unfold gone
  rw [List.mem_flatMap]
  constructor
  · rintro ⟨i, hi, h⟩
    split at h
    · rename_i q hq
      exact ⟨i, hi, q.1, q.2, hq, h⟩
    · simp at h
  · rintro ⟨i, hi, ns, m, h, hn⟩
    exact ⟨i, hi, by rw [h]; exact hn⟩

/-- Every instruction writes its own name. -/
def Unique (p : List Instr) : Prop := ∀ q ∈ p, ∀ r ∈ p, q.out = r.out → q = r

/-- Operations with one operand have one. -/
def Arity (p : List Instr) : Prop := ∀ r ∈ p, (isRelu r.op ∨ r.op = .mod .identity) → ∃ x, r.ins = [x]

theorem add_not_id {o : Op} (h : isAdd o = true) : o ≠ .mod .identity := by rintro rfl; simp [isAdd] at h

theorem add_not_relu {o : Op} (h : isAdd o = true) : ¬ isRelu o := by
  intro hr
  unfold isRelu at hr
  split at hr
  · simp [isAdd] at h
  · simp [isAdd] at h
  · exact hr

theorem id_not_relu {o : Op} (h : o = .mod .identity) : ¬ isRelu o := by subst h; exact fun h => h

/-- A tensor is reached from one addition only. -/
theorem origin_unique {p : List Instr} (hu : Unique p) (ha : Arity p) {i j : Instr} (hi : i ∈ p) (hj : j ∈ p) (hia : isAdd i.op = true) (hja : isAdd j.op = true) {G G' : List Name} {x : Name}
    (h1 : Relation.ReflTransGen (IdStep p G) i.out x) : Relation.ReflTransGen (IdStep p G') j.out x → i = j := by
  induction h1 with
  | refl =>
    intro h2
    rcases Relation.ReflTransGen.cases_tail h2 with h | ⟨c, -, hs⟩
    · exact hu i hi j hj h
    · obtain ⟨-, r, hr, hop, -, he⟩ := hs
      exact absurd (hu r hr i hi he ▸ hop) (add_not_id hia)
  | tail _ hs ih =>
    obtain ⟨-, r, hr, hop, hx, he⟩ := hs
    intro h2
    rcases Relation.ReflTransGen.cases_tail h2 with h | ⟨c, h2, hs'⟩
    · exact absurd (hu r hr j hj (he.trans h) ▸ hop) (add_not_id hja)
    · obtain ⟨-, r', hr', hop', hx', he'⟩ := hs'
      have := hu r hr r' hr' (he.trans he'.symm)
      subst this
      obtain ⟨z, hz⟩ := ha r hr (Or.inr hop)
      rw [hz, List.mem_singleton] at hx hx'
      subst hx hx'
      exact ih h2

theorem result_unique {p : List Instr} {outs : List Name} (hu : Unique p) (ha : Arity p) {i j : Instr} (hi : i ∈ p) (hj : j ∈ p) {ns ns' : List Name} {m : Name}
    (h1 : addRelu p outs i = some (ns, m)) (h2 : addRelu p outs j = some (ns', m)) : i = j := by
  obtain ⟨-, hia, -, c1⟩ := addRelu_chain h1
  obtain ⟨-, hja, -, c2⟩ := addRelu_chain h2
  obtain ⟨r, hr, hre, hrm, x, hx, hxr⟩ := c1.last
  obtain ⟨r', hr', hre', hrm', x', hx', hxr'⟩ := c2.last
  have := hu r hr r' hr' (hrm.trans hrm'.symm)
  subst this
  obtain ⟨z, hz⟩ := ha r hr (Or.inl hre)
  rw [hz, List.mem_singleton] at hxr hxr'
  subst hxr hxr'
  exact origin_unique hu ha hi hj hia hja (c1.reach _ hx) (c2.reach _ hx')

/-- A name that disappears is read by one call, which is a `relu` or an `Identity` of the chain. -/
theorem gone_reader {p : List Instr} {outs : List Name} {i q : Instr} {ns : List Name} {m n : Name} (h : addRelu p outs i = some (ns, m)) (hn : n ∈ ns) (hq : q ∈ p) (hnq : n ∈ q.ins) :
    (isRelu q.op ∧ q.out = m) ∨ (q.op = .mod .identity ∧ q.out ∈ ns) := by
  obtain ⟨-, -, -, c⟩ := addRelu_chain h
  obtain ⟨q', hq', hn', hc⟩ := c.next n hn
  have h1 := c.once n hn
  unfold readers at h1
  have := only_reader hnq hn' p hq hq' (by omega)
  exact this ▸ hc

theorem gone_not_out {p : List Instr} {outs : List Name} {n : Name} (h : n ∈ gone p outs) : n ∉ outs := by
  obtain ⟨i, -, ns, m, ha, hn⟩ := mem_gone.mp h
  obtain ⟨-, -, -, c⟩ := addRelu_chain ha
  obtain ⟨q', hq', hn', -⟩ := c.next n hn
  have h1 := c.once n hn
  unfold readers at h1
  have := count_pos_sum hq' hn'
  intro ho
  have := List.count_pos_iff.mpr ho
  omega

/-- A value is there only when what it was computed from is there. -/
def Closed (p : List Instr) (E : Env) : Prop := ∀ r ∈ p, ∀ v, E r.out = some v → ∀ n ∈ r.ins, ∃ u, E n = some u

theorem chain_none {p : List Instr} {E : Env} (hc : Closed p E) {G : List Name} {a x : Name} (h0 : E a = none) (h : Relation.ReflTransGen (IdStep p G) a x) : E x = none := by
  induction h with
  | refl => exact h0
  | tail _ hs ih =>
    obtain ⟨-, r, hr, -, hx, he⟩ := hs
    by_contra hne
    obtain ⟨v, hv⟩ := Option.ne_none_iff_exists'.mp hne
    obtain ⟨u, hu⟩ := hc r hr v (he ▸ hv) _ hx
    rw [ih] at hu
    simp at hu

/-- The relation between the values of the program and of the fused program. -/
structure Sim (p : List Instr) (outs : List Name) (E E' : Env) : Prop where
  same : ∀ n v, E n = some v → n ∉ gone p outs → E' n = some v
  fused : ∀ i ∈ p, ∀ ns m, addRelu p outs i = some (ns, m) → ∀ n ∈ ns, ∀ v, E n = some v → E' m = some (mapTensor reluR v)

/-- What `fusePass` puts in place of an instruction. -/
def fuseInstr (p : List Instr) (outs : List Name) (i : Instr) : Option Instr := match addRelu p outs i with
  | some q => some { i with op := fusedOp i.op, out := q.2 }
  | none => if i.ins.any (fun n => n ∈ gone p outs) then none else some i

theorem mapM_same {p : List Instr} {outs : List Name} {E E' : Env} (h : Sim p outs E E') : ∀ {ins : List Name} {ts : List (Tensor ℝ)}, (∀ n ∈ ins, n ∉ gone p outs) →
    ins.mapM E = some ts → ins.mapM E' = some ts
  | [], _, _, hm => by simpa using hm
  | n :: ins, ts, hg, hm => by
    obtain ⟨v, vs, h1, h2, rfl⟩ := mapM_cons_some.mp hm
    exact mapM_cons_some.mpr ⟨v, vs, h.same n v h1 (hg n (by simp)), mapM_same h (fun m hm => hg m (by simp [hm])) h2, rfl⟩

/-- The additions that are fused are methods of `FloatFunctional`. -/
def Converted (i : Instr) : Prop := i.on = true → isAdd i.op = true → i.ins.length = 2 → ∃ a, i.op = .ff .add a

theorem relu_sem {w : World} {o : Op} (h : isRelu o) {u t : Tensor ℝ} (hs : o.sem w [u] = some t) : t = mapTensor reluR u := by
  unfold isRelu at h
  split at h
  · simp only [Op.sem, Fn.sem, Option.map_eq_some_iff] at hs
    obtain ⟨_, -, rfl⟩ := hs
    rfl
  · simp only [Op.sem, Mod.sem, Option.some.injEq] at hs
    exact hs.symm
  · exact h.elim

theorem fuse_step (w : World) {p : List Instr} {outs : List Name} (hu : Unique p) (ha : Arity p) (hcv : ∀ i ∈ p, Converted i) {i : Instr} (hi : i ∈ p) {E E1 E' : Env} (hcl : Closed p E)
    (hnew : E i.out = none) (he : i.exec w E = some E1) (hs : Sim p outs E E') : ∃ E1', run w (fuseInstr p outs i).toList E' = some E1' ∧ Sim p outs E1 E1' := by
  obtain ⟨ts, t, h1, h2, rfl⟩ := exec_some.mp he
  unfold fuseInstr
  split
  · rename_i q hq
    obtain ⟨ns, m⟩ := q
    obtain ⟨hon, hadd, hlen, c⟩ := addRelu_chain hq
    have hing : ∀ n ∈ i.ins, n ∉ gone p outs := by
      intro n hn hg
      obtain ⟨j, hj, ns', m', hj', hn'⟩ := mem_gone.mp hg
      rcases gone_reader hj' hn' hi hn with h | h
      · exact add_not_relu hadd h.1
      · exact add_not_id hadd h.1
    have h1' := mapM_same hs hing h1
    obtain ⟨a, hop⟩ := hcv i hi hon hadd hlen
    have hm0 : E m = none := by
      obtain ⟨r, hr, -, hrm, x, hx, hxr⟩ := c.last
      by_contra hne
      obtain ⟨v, hv⟩ := Option.ne_none_iff_exists'.mp hne
      obtain ⟨u, hu'⟩ := hcl r hr v (hrm ▸ hv) x hxr
      rw [chain_none hcl hnew (c.reach x hx)] at hu'
      simp at hu'
    have hgi : i.out ∈ gone p outs := mem_gone.mpr ⟨i, hi, ns, m, hq, c.start⟩
    refine ⟨E'.set m (mapTensor reluR t), ?_, ?_, ?_⟩
    · have : Instr.exec w { i with op := fusedOp i.op, out := m } E' = some (E'.set m (mapTensor reluR t)) := by
        refine exec_some.mpr ⟨ts, _, h1', ?_, rfl⟩
        rw [hop] at h2 ⊢
        simp only [fusedOp]
        have hl := mapM_length h1
        rw [hlen] at hl
        match ts, hl with
        | [u, v], _ =>
          simp only [Op.sem, FF.sem] at h2 ⊢
          split at h2
          · rename_i hae
            simp [hae, h2]
          · simp at h2
      simp [run, this]
    · intro n v hv hg
      have hne : n ≠ i.out := by rintro rfl; exact hg hgi
      rw [set_other _ _ hne] at hv
      have hnm : n ≠ m := by
        rintro rfl
        rw [hm0] at hv
        simp at hv
      rw [set_other _ _ hnm]
      exact hs.same n v hv hg
    · intro j hj ns' m' hj' n hn v hv
      by_cases hij : i = j
      · subst hij
        rw [hq] at hj'
        simp only [Option.some.injEq, Prod.mk.injEq] at hj'
        obtain ⟨rfl, rfl⟩ := hj'
        by_cases hne : n = i.out
        · subst hne
          rw [set_same] at hv
          simp only [Option.some.injEq] at hv
          subst hv
          exact set_same _ _ _
        · rw [set_other _ _ hne, chain_none hcl hnew (c.reach n hn)] at hv
          simp at hv
      · have hmm : m' ≠ m := by
          rintro rfl
          exact hij (result_unique hu ha hi hj hq hj')
        have hne : n ≠ i.out := by
          rintro rfl
          obtain ⟨-, hja, -, c'⟩ := addRelu_chain hj'
          exact hij (origin_unique hu ha hi hj hadd hja (G := ns) .refl (c'.reach _ hn))
        rw [set_other _ _ hne] at hv
        rw [set_other _ _ hmm]
        exact hs.fused j hj ns' m' hj' n hn v hv
  · rename_i hq
    split
    · rename_i hany
      obtain ⟨n, hn, hg⟩ := List.any_eq_true.mp hany
      have hg : n ∈ gone p outs := by simpa using hg
      obtain ⟨j, hj, ns, m, hj', hnn⟩ := mem_gone.mp hg
      obtain ⟨-, hja, -, c⟩ := addRelu_chain hj'
      refine ⟨E', rfl, ?_⟩
      have hrd := gone_reader hj' hnn hi hn
      obtain ⟨z, hz⟩ := ha i hi (hrd.imp (fun h => h.1) (fun h => h.1))
      rw [hz, List.mem_singleton] at hn
      subst hn
      rw [hz] at h1
      obtain ⟨u, hEu, rfl⟩ := mapM_one.mp h1
      have hrel := hs.fused j hj ns m hj' n hnn u hEu
      rcases hrd with ⟨hre, hom⟩ | ⟨hid, hons⟩
      · have ht := relu_sem hre h2
        refine ⟨?_, ?_⟩
        · intro k v hv hg'
          by_cases hk : k = i.out
          · subst hk
            rw [set_same] at hv
            simp only [Option.some.injEq] at hv
            rw [← hv, ht, hom]
            exact hrel
          · rw [set_other _ _ hk] at hv
            exact hs.same k v hv hg'
        · intro j2 hj2 ns2 m2 hj2' k hk v hv
          have hne : k ≠ i.out := by
            rintro rfl
            obtain ⟨-, hja2, -, c2⟩ := addRelu_chain hj2'
            rcases Relation.ReflTransGen.cases_tail (c2.reach _ hk) with h | ⟨_, -, hs'⟩
            · exact add_not_relu hja2 (hu i hi j2 hj2 h ▸ hre)
            · obtain ⟨-, r, hr, hop, -, he'⟩ := hs'
              exact id_not_relu hop (hu r hr i hi he' ▸ hre)
          rw [set_other _ _ hne] at hv
          exact hs.fused j2 hj2 ns2 m2 hj2' k hk v hv
      · have ht : t = u := by
          rw [hid] at h2
          simp only [Op.sem, Mod.sem, Option.some.injEq] at h2
          exact h2.symm
        have hgo : i.out ∈ gone p outs := mem_gone.mpr ⟨j, hj, ns, m, hj', hons⟩
        refine ⟨?_, ?_⟩
        · intro k v hv hg'
          have hk : k ≠ i.out := by rintro rfl; exact hg' hgo
          rw [set_other _ _ hk] at hv
          exact hs.same k v hv hg'
        · intro j2 hj2 ns2 m2 hj2' k hk v hv
          by_cases hne : k = i.out
          · subst hne
            rw [set_same] at hv
            simp only [Option.some.injEq] at hv
            obtain ⟨-, hja2, -, c2⟩ := addRelu_chain hj2'
            have := origin_unique hu ha hj hj2 hja hja2 (c.reach _ hons) (c2.reach _ hk)
            subst this
            rw [hj'] at hj2'
            simp only [Option.some.injEq, Prod.mk.injEq] at hj2'
            obtain ⟨rfl, rfl⟩ := hj2'
            rw [← hv, ht]
            exact hrel
          · rw [set_other _ _ hne] at hv
            exact hs.fused j2 hj2 ns2 m2 hj2' k hk v hv
    · rename_i hany
      have hing : ∀ n ∈ i.ins, n ∉ gone p outs := by
        intro n hn hg
        exact hany (List.any_eq_true.mpr ⟨n, hn, by simpa using hg⟩)
      have h1' := mapM_same hs hing h1
      refine ⟨E'.set i.out t, ?_, ?_, ?_⟩
      · have : i.exec w E' = some (E'.set i.out t) := exec_some.mpr ⟨ts, t, h1', h2, rfl⟩
        simp [run, this]
      · intro n v hv hg
        by_cases hne : n = i.out
        · subst hne
          rw [set_same] at hv ⊢
          exact hv
        · rw [set_other _ _ hne] at hv ⊢
          exact hs.same n v hv hg
      · intro j hj ns m hj' n hn v hv
        obtain ⟨-, hja, -, c⟩ := addRelu_chain hj'
        have hne : n ≠ i.out := by
          rintro rfl
          rcases Relation.ReflTransGen.cases_tail (c.reach _ hn) with h | ⟨_, -, hs'⟩
          · have := hu i hi j hj h
            subst this
            rw [hq] at hj'
            simp at hj'
          · obtain ⟨hx, r, hr, hop, hxr, he'⟩ := hs'
            have := hu r hr i hi he'
            subst this
            exact hing _ hxr (mem_gone.mpr ⟨j, hj, ns, m, hj', hx⟩)
        have hmo : m ≠ i.out := by
          rintro rfl
          obtain ⟨r, hr, -, hrm, x, hx, hxr⟩ := c.last
          have := hu r hr i hi hrm
          subst this
          exact hing _ hxr (mem_gone.mpr ⟨j, hj, ns, _, hj', hx⟩)
        rw [set_other _ _ hne] at hv
        rw [set_other _ _ hmo]
        exact hs.fused j hj ns m hj' n hn v hv

end Verif.Lemmas.FuncRewrite
