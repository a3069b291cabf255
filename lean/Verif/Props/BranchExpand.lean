import Verif.Model.BranchExpand
/-!
C132: copying a RESHAPE or TRANSPOSE for each of its readers.
-/

namespace Verif.Props
open Verif.Spec.BranchExpand Verif.Model.BranchExpand

variable {α β : Type}

/-- Operators of the copied kinds have one result. -/
def SingleOut (k : Kind) (net : Net α) : Prop := ∀ op ∈ net.ops, op.kind = k → op.outs.length = 1

theorem singleOut_outs (k : Kind) (net : Net α) (hs : SingleOut k net) (op : Op α) (ho : op ∈ net.ops) (hk : op.kind = k) : op.outs = [outOf op] := by
  have := hs op ho hk
  match h : op.outs, this with
  | [a], _ => simp [outOf, h]

theorem copies_mem (k : Kind) (keep : Nat → Nat) (net : Net α) (c : (Op α × Nat) × Nat) (hc : c ∈ copies k keep net) :
    c.1.1 ∈ net.ops ∧ c.1.1.kind = k ∧ net.next ≤ c.2 ∧ c.2 < net.next + (copies k keep net).length := by
  unfold copies at hc ⊢
  obtain ⟨x, n⟩ := c
  obtain ⟨h1, h2, h3⟩ := List.mem_zipIdx hc
  have hm : x ∈ pairs k keep net := by rw [h3]; exact List.getElem_mem _
  unfold pairs at hm
  obtain ⟨op, hop, hx⟩ := List.mem_flatMap.mp hm
  obtain ⟨j, hj, rfl⟩ := List.mem_map.mp hx
  obtain ⟨h4, h5⟩ := List.mem_filter.mp hop
  refine ⟨h4, ?_, h1, by simpa using h2⟩
  unfold selected at h5
  simp only [Bool.and_eq_true, decide_eq_true_eq] at h5
  exact h5.1.1

/-- The copies have different names. -/
theorem copies_inj (k : Kind) (keep : Nat → Nat) (net : Net α) (c d : (Op α × Nat) × Nat) (hc : c ∈ copies k keep net) (hd : d ∈ copies k keep net) (h : c.2 = d.2) : c = d := by
  unfold copies at hc hd
  obtain ⟨x, n⟩ := c
  obtain ⟨y, m⟩ := d
  simp only at h
  subst h
  obtain ⟨h1, h2, h3⟩ := List.mem_zipIdx hc
  obtain ⟨g1, g2, g3⟩ := List.mem_zipIdx hd
  rw [h3, g3]

/-- What a renamed operand is: itself or the copy of it for this reader. -/
theorem rename_cases (cs : List ((Op α × Nat) × Nat)) (j t : Nat) :
    rename cs j t = t ∨ ∃ c ∈ cs, c.1.2 = j ∧ outOf c.1.1 = t ∧ rename cs j t = c.2 := by
  unfold rename
  cases h : cs.find? fun c => decide (c.1.2 = j) && decide (outOf c.1.1 = t) with
  | none => exact .inl rfl
  | some c =>
    have h1 := List.mem_of_find?_eq_some h
    have h2 := List.find?_some h
    simp only [Bool.and_eq_true, decide_eq_true_eq] at h2
    exact .inr ⟨c, h1, h2.1, h2.2, rfl⟩

theorem expand_some (k : Kind) (keep : Nat → Nat) (net net' : Net α) (h : expand k keep net = some net') :
    net' = { net with ops := (net.ops.zipIdx.map fun p => { p.1 with ins := p.1.ins.map (rename (copies k keep net) p.2) }) ++ (copies k keep net).map copyOp, next := net.next + (copies k keep net).length } := by
  unfold expand at h
  simp only at h
  split at h
  · simp at h
  · simp only [Option.some.injEq] at h
    exact h.symm

open Classical in
/-- The values of the copies: those of what they are copies of. -/
noncomputable def extendVals (cs : List ((Op α × Nat) × Nat)) (v : Nat → β) (n : Nat) : β :=
  if h : ∃ c ∈ cs, c.2 = n then v (outOf h.choose.1.1) else v n

theorem extendVals_old (k : Kind) (keep : Nat → Nat) (net : Net α) (v : Nat → β) (n : Nat) (hn : n < net.next) : extendVals (copies k keep net) v n = v n := by
  unfold extendVals
  rw [dif_neg]
  rintro ⟨c, hc, rfl⟩
  have := (copies_mem k keep net c hc).2.2.1
  omega

theorem extendVals_new (k : Kind) (keep : Nat → Nat) (net : Net α) (v : Nat → β) (c : (Op α × Nat) × Nat) (hc : c ∈ copies k keep net) :
    extendVals (copies k keep net) v c.2 = v (outOf c.1.1) := by
  unfold extendVals
  have h : ∃ d ∈ copies k keep net, d.2 = c.2 := ⟨c, hc, rfl⟩
  rw [dif_pos h]
  have := copies_inj k keep net _ c h.choose_spec.1 hc h.choose_spec.2
  rw [this]

theorem extendVals_rename (k : Kind) (keep : Nat → Nat) (net : Net α) (v : Nat → β) (j t : Nat) (ht : t < net.next) : extendVals (copies k keep net) v (rename (copies k keep net) j t) = v t := by
  rcases rename_cases (copies k keep net) j t with h | ⟨c, hc, _, h2, h3⟩
  · rw [h]; exact extendVals_old k keep net v t ht
  · rw [h3, extendVals_new k keep net v c hc, h2]

/-- Values of the old network give values of the new one. -/
theorem consistent_new (k : Kind) (keep : Nat → Nat) (net net' : Net α) (h : expand k keep net = some net') (hn : Named net) (hs : SingleOut k net) (v : Nat → α) (hv : Consistent net v) :
    Consistent net' (extendVals (copies k keep net) v) := by
  rw [expand_some k keep net net' h]
  obtain ⟨n1, n2, n3, n4⟩ := hn
  refine ⟨fun c hc => ?_, fun op hop => ?_⟩
  · rw [extendVals_old k keep net v c.1 (n2 c hc)]
    exact hv.1 c hc
  · simp only [List.mem_append, List.mem_map] at hop
    rcases hop with ⟨p, hp, rfl⟩ | ⟨c, hc, rfl⟩
    · have hm : p.1 ∈ net.ops := List.fst_mem_of_mem_zipIdx hp
      simp only [List.map_map]
      have e1 : p.1.outs.map (extendVals (copies k keep net) v) = p.1.outs.map v := List.map_congr_left fun n hn => extendVals_old k keep net v n ((n4 _ hm).2 n hn)
      have e2 : p.1.ins.map (extendVals (copies k keep net) v ∘ rename (copies k keep net) p.2) = p.1.ins.map v :=
        List.map_congr_left fun n hn => extendVals_rename k keep net v p.2 n ((n4 _ hm).1 n hn)
      rw [e1, e2]
      exact hv.2 _ hm
    · obtain ⟨hm, hk, _, _⟩ := copies_mem k keep net c hc
      have e2 : c.1.1.ins.map (extendVals (copies k keep net) v) = c.1.1.ins.map v := List.map_congr_left fun n hn => extendVals_old k keep net v n ((n4 _ hm).1 n hn)
      simp only [copyOp, List.map_cons, List.map_nil]
      rw [e2, extendVals_new k keep net v c hc, ← hv.2 _ hm, singleOut_outs k net hs _ hm hk]
      rfl

/-- In the new network a copy has the value of what it is a copy of. -/
theorem copy_value (k : Kind) (keep : Nat → Nat) (net net' : Net α) (h : expand k keep net = some net') (ha : Acyclic net) (hs : SingleOut k net) (v : Nat → α) (hv : Consistent net' v)
    (c : (Op α × Nat) × Nat) (hc : c ∈ copies k keep net) : v c.2 = v (outOf c.1.1) := by
  obtain ⟨rank, hr⟩ := ha
  have key : ∀ (n : Nat) (c : (Op α × Nat) × Nat), c ∈ copies k keep net → rank (outOf c.1.1) = n → v c.2 = v (outOf c.1.1) := by
    intro n
    induction n using Nat.strongRecOn with
    | _ n ih =>
      intro c hc hcn
      obtain ⟨hm, hk, _, _⟩ := copies_mem k keep net c hc
      have hout := singleOut_outs k net hs _ hm hk
      rw [expand_some k keep net net' h] at hv
      have e1 := hv.2 (copyOp c) (by simp only [List.mem_append, List.mem_map]; exact .inr ⟨c, hc, rfl⟩)
      obtain ⟨j, hj, hjc⟩ := List.mem_iff_getElem.mp hm
      have e2 := hv.2 { c.1.1 with ins := c.1.1.ins.map (rename (copies k keep net) j) } (by
        simp only [List.mem_append, List.mem_map]
        refine .inl ⟨(c.1.1, j), ?_, rfl⟩
        rw [List.mem_zipIdx_iff_getElem?]
        simp [← hjc, hj])
      simp only [copyOp, List.map_cons, List.map_nil, List.map_map] at e1 e2
      have e3 : c.1.1.ins.map (v ∘ rename (copies k keep net) j) = c.1.1.ins.map v := by
        refine List.map_congr_left fun t ht => ?_
        rcases rename_cases (copies k keep net) j t with h1 | ⟨d, hd, _, h2, h3⟩
        · simp only [Function.comp, h1]
        · simp only [Function.comp, h3]
          have hlt : rank (outOf d.1.1) < n := by
            rw [h2, ← hcn]
            exact hr _ hm t ht _ (by rw [hout]; simp)
          rw [ih _ hlt d hd rfl, h2]
      rw [e3, ← e1, hout] at e2
      simpa using e2.symm
  exact key _ c hc rfl

/-- Values of the new network are values of the old one. -/
theorem consistent_old (k : Kind) (keep : Nat → Nat) (net net' : Net α) (h : expand k keep net = some net') (ha : Acyclic net) (hs : SingleOut k net) (v : Nat → α) (hv : Consistent net' v) :
    Consistent net v := by
  have hcv := copy_value k keep net net' h ha hs v hv
  have he := expand_some k keep net net' h
  rw [he] at hv
  refine ⟨hv.1, fun op hop => ?_⟩
  obtain ⟨j, hj, hjc⟩ := List.mem_iff_getElem.mp hop
  have e2 := hv.2 { op with ins := op.ins.map (rename (copies k keep net) j) } (by
    simp only [List.mem_append, List.mem_map]
    refine .inl ⟨(op, j), ?_, rfl⟩
    rw [List.mem_zipIdx_iff_getElem?]
    simp [← hjc, hj])
  simp only [List.map_map] at e2
  rw [e2]
  congr 1
  refine List.map_congr_left fun t ht => ?_
  rcases rename_cases (copies k keep net) j t with h1 | ⟨d, hd, _, h2, h3⟩
  · simp only [Function.comp, h1]
  · simp only [Function.comp, h3]
    rw [hcv d hd, h2]

/-- **C132**.  Whichever reader keeps the original, the model with the copies computes from every input what the model computed before, and nothing else. -/
theorem C132_same_function (k : Kind) (keep : Nat → Nat) (net net' : Net α) (h : expand k keep net = some net') (hn : Named net) (ha : Acyclic net) (hs : SingleOut k net) (xs ys : List α) :
    Computes net' xs ys ↔ Computes net xs ys := by
  have he := expand_some k keep net net' h
  constructor
  · rintro ⟨v, hv, h1, h2⟩
    exact ⟨v, consistent_old k keep net net' h ha hs v hv, by rw [he] at h1; exact h1, by rw [he] at h2; exact h2⟩
  · rintro ⟨v, hv, h1, h2⟩
    refine ⟨extendVals (copies k keep net) v, consistent_new k keep net net' h hn hs v hv, ?_, ?_⟩
    · rw [he, ← h1]
      exact List.map_congr_left fun n hm => extendVals_old k keep net v n (hn.1 n hm)
    · rw [he, ← h2]
      exact List.map_congr_left fun n hm => extendVals_old k keep net v n (hn.2.2.1 n hm)

/-- **C132**.  The new model is a model again: its inputs, constants and outputs have the same names, there are still no cycles, all names are below the new `next`, and every tensor has one source. -/
theorem C132_wellformed (k : Kind) (keep : Nat → Nat) (net net' : Net α) (h : expand k keep net = some net') (hn : Named net) (ha : Acyclic net) (hs : SingleOut k net) (h1 : OneSource net) :
    net'.inputs = net.inputs ∧ net'.outputs = net.outputs ∧ net'.consts = net.consts ∧ Named net' ∧ Acyclic net' ∧ OneSource net' ∧ SingleOut k net' := by
  have he := expand_some k keep net net' h
  obtain ⟨n1, n2, n3, n4⟩ := hn
  have hren : ∀ j t, t < net.next → rename (copies k keep net) j t < net.next + (copies k keep net).length := by
    intro j t ht
    rcases rename_cases (copies k keep net) j t with h | ⟨c, hc, _, _, h3⟩
    · omega
    · rw [h3]; exact (copies_mem k keep net c hc).2.2.2
  subst he
  refine ⟨rfl, rfl, rfl, ⟨fun n hm => Nat.lt_add_right _ (n1 n hm), fun c hm => Nat.lt_add_right _ (n2 c hm), fun n hm => Nat.lt_add_right _ (n3 n hm), fun op hop => ?_⟩, ?_, ?_, fun op hop hk => ?_⟩
  · simp only [List.mem_append, List.mem_map] at hop
    rcases hop with ⟨p, hp, rfl⟩ | ⟨c, hc, rfl⟩
    · have hm : p.1 ∈ net.ops := List.fst_mem_of_mem_zipIdx hp
      refine ⟨fun n hn => ?_, fun n hn => Nat.lt_add_right _ ((n4 _ hm).2 n hn)⟩
      obtain ⟨t, ht, rfl⟩ := List.mem_map.mp hn
      exact hren p.2 t ((n4 _ hm).1 t ht)
    · obtain ⟨hm, _, _, hlt⟩ := copies_mem k keep net c hc
      refine ⟨fun n hn => Nat.lt_add_right _ ((n4 _ hm).1 n hn), fun n hn => ?_⟩
      simp only [copyOp, List.mem_singleton] at hn
      rw [hn]; exact hlt
  · obtain ⟨rank, hr⟩ := ha
    refine ⟨extendVals (copies k keep net) rank, fun op hop i hi o ho => ?_⟩
    simp only [List.mem_append, List.mem_map] at hop
    rcases hop with ⟨p, hp, rfl⟩ | ⟨c, hc, rfl⟩
    · have hm : p.1 ∈ net.ops := List.fst_mem_of_mem_zipIdx hp
      obtain ⟨t, ht, rfl⟩ := List.mem_map.mp hi
      rw [extendVals_rename k keep net rank p.2 t ((n4 _ hm).1 t ht), extendVals_old k keep net rank o ((n4 _ hm).2 o ho)]
      exact hr _ hm t ht o ho
    · obtain ⟨hm, hk, _, _⟩ := copies_mem k keep net c hc
      simp only [copyOp, List.mem_singleton] at ho
      rw [ho, extendVals_new k keep net rank c hc, extendVals_old k keep net rank i ((n4 _ hm).1 i hi)]
      exact hr _ hm i hi _ (by rw [singleOut_outs k net hs _ hm hk]; simp)
  · unfold OneSource at h1 ⊢
    simp only [List.flatMap_append]
    have e1 : (net.ops.zipIdx.map fun p => ({ p.1 with ins := p.1.ins.map (rename (copies k keep net) p.2) } : Op α)).flatMap Op.outs = net.ops.flatMap Op.outs := by
      have : ∀ (l : List (Op α)) (m : Nat), ((l.zipIdx m).map fun p => ({ p.1 with ins := p.1.ins.map (rename (copies k keep net) p.2) } : Op α)).flatMap Op.outs = l.flatMap Op.outs := by
        intro l
        induction l with
        | nil => intro m; rfl
        | cons a r ih => intro m; simp [List.zipIdx_cons, ih]
      exact this net.ops 0
    have e2 : ((copies k keep net).map copyOp).flatMap Op.outs = (copies k keep net).map Prod.snd := by
      generalize copies k keep net = cs
      induction cs with
      | nil => rfl
      | cons a r ih => simp [copyOp]; simpa [copyOp] using ih
    rw [e1, e2, ← List.append_assoc, List.nodup_append]
    refine ⟨h1, ?_, ?_⟩
    · unfold copies
      rw [List.zipIdx_map_snd]
      exact List.nodup_range'
    · intro a ha b hb hab
      subst hab
      obtain ⟨c, hc, rfl⟩ := List.mem_map.mp hb
      have hge := (copies_mem k keep net c hc).2.2.1
      simp only [List.mem_append, List.mem_map, List.mem_flatMap] at ha
      rcases ha with (ha | ⟨d, hd, hdc⟩) | ⟨op, hop, ho⟩
      · have := n1 _ ha; omega
      · have := n2 d hd; omega
      · have := (n4 op hop).2 _ ho; omega
  · simp only [List.mem_append, List.mem_map] at hop
    rcases hop with ⟨p, hp, rfl⟩ | ⟨c, hc, rfl⟩
    · exact hs p.1 (List.fst_mem_of_mem_zipIdx hp) hk
    · rfl

theorem count_sum_pos (ops : List (Op α)) (t j : Nat) (q : Op α) (hj : ops[j]? = some q) (hq : t ∈ q.ins) : 1 ≤ (ops.map fun op => op.ins.count t).sum := by
  have hm : q ∈ ops := List.mem_of_getElem? hj
  clear hj
  induction ops with
  | nil => simp at hm
  | cons o os ih =>
    simp only [List.map_cons, List.sum_cons]
    rcases List.mem_cons.mp hm with rfl | h
    · have : 0 < q.ins.count t := List.count_pos_iff.mpr hq
      omega
    · have := ih h
      omega

theorem count_sum_two (ops : List (Op α)) (t j j' : Nat) (q q' : Op α) (hj : ops[j]? = some q) (hj' : ops[j']? = some q') (hlt : j < j') (hq : t ∈ q.ins) (hq' : t ∈ q'.ins) :
    2 ≤ (ops.map fun op => op.ins.count t).sum := by
  rw [← List.take_append_drop j' ops, List.map_append, List.sum_append]
  have h1 := count_sum_pos (ops.take j') t j q (by rw [List.getElem?_take, if_pos hlt]; exact hj) hq
  have h2 := count_sum_pos (ops.drop j') t 0 q' (by rw [List.getElem?_drop]; simpa using hj') hq'
  omega

/-- **C132**.  Which operators are copied: every RESHAPE (TRANSPOSE) that another one of its kind reads, if a second operator reads it too or it is an output of the model. -/
theorem C132_selected (k : Kind) (net : Net α) (op q : Op α) (j : Nat) (hk : op.kind = k) (hj : net.ops[j]? = some q) (hq : q.kind = k) (hr : q.ins.head? = some (outOf op))
    (hmore : outOf op ∈ net.outputs ∨ ∃ (j' : Nat) (q' : Op α), j' ≠ j ∧ net.ops[j']? = some q' ∧ outOf op ∈ q'.ins) : selected k net op = true := by
  have hmem : outOf op ∈ q.ins := List.mem_of_head? hr
  have h2 : 1 < outDegree net (outOf op) := by
    unfold outDegree
    rcases hmore with h | ⟨j', q', hne, hj', hr'⟩
    · have := count_sum_pos net.ops _ j q hj hmem
      rw [if_pos (by simpa using h)]
      omega
    · rcases Nat.lt_or_gt_of_ne hne with h | h
      · have := count_sum_two net.ops _ j' j q' q hj' hj h hr' hmem
        omega
      · have := count_sum_two net.ops _ j j' q q' hj hj' h hmem hr'
        omega
  unfold selected
  simp only [Bool.and_eq_true, decide_eq_true_eq, List.any_eq_true]
  exact ⟨⟨hk, h2⟩, q, List.mem_of_getElem? hj, hq, hr⟩

/-- A transpose that is an output of the model and read by one other transpose. -/
example : selected .transpose (⟨[0], [], [1], [⟨.transpose, id, [0], [1]⟩, ⟨.transpose, id, [1], [2]⟩], 3⟩ : Net Nat) ⟨.transpose, id, [0], [1]⟩ = true :=
  C132_selected _ _ _ ⟨.transpose, id, [1], [2]⟩ 1 rfl rfl rfl rfl (Or.inl (by decide))

/-- **C132**.  If no operator that is copied reads the result of another one that is, then afterwards every operator whose result several nodes read is read once: by the reader that was kept, or by
nothing but the output of the model. -/
theorem C132_one_reader_partial (k : Kind) (keep : Nat → Nat) (net net' : Net α) (h : expand k keep net = some net') (hn : Named net) (hs : SingleOut k net) (op : Op α) (ho : op ∈ net.ops)
    (hsel : selected k net op = true) (hchain : ∀ q ∈ net.ops, selected k net q = true → outOf op ∉ q.ins) (j : Nat) (r : Op α) (hj : net'.ops[j]? = some r) (hread : outOf op ∈ r.ins) :
    outOf op ∉ net.outputs ∧ j = keep (outOf op) := by
  have he := expand_some k keep net net' h
  have hk : op.kind = k := by
    unfold selected at hsel
    simp only [Bool.and_eq_true, decide_eq_true_eq] at hsel
    exact hsel.1.1
  have hlt : outOf op < net.next := (hn.2.2.2 op ho).2 _ (by rw [singleOut_outs k net hs op ho hk]; simp)
  rw [he] at hj
  by_cases hlen : j < net.ops.length
  · rw [List.getElem?_append_left (by simpa using hlen)] at hj
    simp only [List.getElem?_map, List.getElem?_zipIdx, List.getElem?_eq_getElem hlen, Option.map_some, Option.some.injEq] at hj
    subst hj
    simp only [Nat.zero_add] at hread
    obtain ⟨t, ht, htr⟩ := List.mem_map.mp hread
    rcases rename_cases (copies k keep net) j t with h1 | ⟨c, hc, _, _, h3⟩
    · rw [h1] at htr
      subst htr
      refine Classical.byContradiction fun hcon => ?_
      have hjr : j ∈ cloned keep net (outOf op) := by
        have hrd : j ∈ readers net.ops (outOf op) := by
          unfold readers
          refine List.mem_map.mpr ⟨(net.ops[j], j), List.mem_filter.mpr ⟨?_, by simpa using ht⟩, rfl⟩
          rw [List.mem_zipIdx_iff_getElem?]
          simp [hlen]
        unfold cloned
        by_cases hout : outOf op ∈ net.outputs
        · rw [if_pos (by simpa using hout)]; exact hrd
        · rw [if_neg (by simpa using hout)]
          exact List.mem_filter.mpr ⟨hrd, by simpa using fun x => hcon ⟨hout, x⟩⟩
      have hpair : (op, j) ∈ pairs k keep net := by
        unfold pairs
        exact List.mem_flatMap.mpr ⟨op, List.mem_filter.mpr ⟨ho, hsel⟩, List.mem_map.mpr ⟨j, hjr, rfl⟩⟩
      obtain ⟨m, hm, hmc⟩ := List.mem_iff_getElem.mp hpair
      have hcp : ((op, j), net.next + m) ∈ copies k keep net := by
        unfold copies
        rw [List.mem_zipIdx_iff_le_and_getElem?_sub]
        simp [hm, hmc]
      unfold rename at h1
      cases hf : (copies k keep net).find? fun c => decide (c.1.2 = j) && decide (outOf c.1.1 = outOf op) with
      | none =>
        have := List.find?_eq_none.mp hf _ hcp
        simp at this
      | some d =>
        rw [hf] at h1
        simp only at h1
        have := (copies_mem k keep net d (List.mem_of_find?_eq_some hf)).2.2.1
        omega
    · have := (copies_mem k keep net c hc).2.2.1
      omega
  · rw [List.getElem?_append_right (by simpa using hlen)] at hj
    obtain ⟨c, hc, rfl⟩ := List.mem_map.mp (List.mem_of_getElem? hj)
    have hcs := hc
    unfold copies at hcs
    obtain ⟨x, n⟩ := c
    obtain ⟨_, _, h3⟩ := List.mem_zipIdx hcs
    have hm : x ∈ pairs k keep net := by rw [h3]; exact List.getElem_mem _
    unfold pairs at hm
    obtain ⟨q, hq, hx⟩ := List.mem_flatMap.mp hm
    obtain ⟨i, _, rfl⟩ := List.mem_map.mp hx
    obtain ⟨h4, h5⟩ := List.mem_filter.mp hq
    exact absurd hread (hchain q h4 h5)

/-- **C132**.  Copying TRANSPOSE operators never fails. -/
theorem C132_transpose_total (keep : Nat → Nat) (net : Net α) : ∃ net', expand .transpose keep net = some net' := by
  unfold expand
  simp only
  exact ⟨_, if_neg (by simp)⟩

/-- Copying RESHAPE operators fails for every model in which a RESHAPE of a constant is to be copied. -/
theorem C132_constant_false (keep : Nat → Nat) (net : Net α) (op : Op α) (ho : op ∈ net.ops) (hsel : selected .reshape net op = true) (hc : cloned keep net (outOf op) ≠ []) (d : Nat × α) (hd : d ∈ net.consts)
    (hi : op.ins.head? = some d.1) : expand .reshape keep net = none := by
  obtain ⟨j, hj⟩ := List.exists_mem_of_ne_nil _ hc
  have hpair : (op, j) ∈ pairs .reshape keep net := by
    unfold pairs
    exact List.mem_flatMap.mpr ⟨op, List.mem_filter.mpr ⟨ho, hsel⟩, List.mem_map.mpr ⟨j, hj, rfl⟩⟩
  obtain ⟨m, hm, hmc⟩ := List.mem_iff_getElem.mp hpair
  have hcp : ((op, j), net.next + m) ∈ copies .reshape keep net := by
    unfold copies
    rw [List.mem_zipIdx_iff_le_and_getElem?_sub]
    simp [hm, hmc]
  unfold expand
  simp only
  rw [if_pos]
  refine ⟨trivial, ?_⟩
  rw [List.any_eq_true]
  refine ⟨_, hcp, ?_⟩
  rw [List.any_eq_true]
  exact ⟨d, hd, by simpa using hi⟩

/-! ### Examples -/

/-- A RESHAPE read by a RESHAPE and an addition, whose other operand is the result of that RESHAPE. -/
def branchDemo : Net Nat := ⟨[0], [], [3], [⟨.reshape, id, [0], [1]⟩, ⟨.reshape, id, [1], [2]⟩, ⟨.other, fun l => [l.sum], [1, 2], [3]⟩], 4⟩

example : Named branchDemo ∧ Acyclic branchDemo ∧ SingleOut .reshape branchDemo ∧ OneSource branchDemo ∧ (selected .reshape branchDemo ⟨.reshape, id, [0], [1]⟩ = true) ∧
    (∃ net', expand .reshape (fun _ => 1) branchDemo = some net' ∧ net'.ops.map (fun op => (op.ins, op.outs)) = [([0], [1]), ([1], [2]), ([4, 2], [3]), ([0], [4])]) := by
  refine ⟨by unfold Named; decide, ⟨id, by decide⟩, ?_, by unfold OneSource; decide, by decide, ⟨_, rfl, by decide⟩⟩
  intro op ho
  simp only [branchDemo, List.mem_cons, List.not_mem_nil, or_false] at ho
  rcases ho with rfl | rfl | rfl <;> simp

/-- A chain of RESHAPE operators, two of which are read several times. -/
def branchChain : Net Nat :=
  ⟨[0], [], [4, 5, 6], [⟨.reshape, id, [0], [1]⟩, ⟨.reshape, id, [1], [2]⟩, ⟨.reshape, id, [2], [4]⟩, ⟨.other, id, [2], [5]⟩, ⟨.other, id, [1], [6]⟩], 7⟩

/-- In a chain the copy of the later operator reads the original of the earlier one, which so keeps two readers. -/
theorem C132_chain_false : ∃ net', expand .reshape (fun t => if t = 1 then 4 else 2) branchChain = some net' ∧ selected .reshape branchChain ⟨.reshape, id, [0], [1]⟩ = true ∧
    ((net'.ops.filter fun op => op.ins.contains 1).map Op.outs) = [[6], [8]] := by
  refine ⟨_, rfl, by decide, by decide⟩

/-- A RESHAPE of a constant. -/
def branchConst : Net Nat := ⟨[], [(0, 5)], [2, 3], [⟨.reshape, id, [0], [1]⟩, ⟨.reshape, id, [1], [2]⟩, ⟨.other, id, [1], [3]⟩], 4⟩

example : selected .reshape branchConst ⟨.reshape, id, [0], [1]⟩ = true ∧ cloned (fun _ => 1) branchConst 1 ≠ [] := by decide

end Verif.Props
