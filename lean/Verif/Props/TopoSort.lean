import Verif.Model.TopoSort
import Mathlib.Order.WellFounded
import Mathlib.Data.Fintype.Basic
import Mathlib.Order.RelClasses
import Mathlib.Data.Fintype.Order
import Mathlib.Data.List.Nodup

/-! C17: operators are emitted once each, after their producers. -/

namespace Verif.Props
open Verif.Spec Verif.Model

theorem constEdge_fields (g : Graph) (l : List Nat) (st : ConstState) :
    (l.foldl (constEdge g) st).visited = st.visited ∧ (l.foldl (constEdge g) st).indices = st.indices ∧
    (∀ v, v ∈ st.others → v ∈ (l.foldl (constEdge g) st).others) ∧
    (∀ v ∈ l, (∀ u ∈ g.ins v, u ∈ st.visited) → g.kind v = .op → v ∈ (l.foldl (constEdge g) st).others) ∧
    (l.foldl (constEdge g) st).others.length ≤ st.others.length + l.length := by
  induction l generalizing st with
  | nil => simp
  | cons a l ih =>
    simp only [List.foldl_cons]
    obtain ⟨h1, h2, h3, h4, h5⟩ := ih (constEdge g st a)
    have e1 : (constEdge g st a).visited = st.visited := by
      unfold constEdge; split
      · rfl
      · split
        · rfl
        · split <;> rfl
    have e2 : (constEdge g st a).indices = st.indices := by
      unfold constEdge; split
      · rfl
      · split
        · rfl
        · split <;> rfl
    have e3 : ∀ v, v ∈ st.others → v ∈ (constEdge g st a).others := by
      intro v hv
      unfold constEdge; split
      · exact hv
      · split
        · exact hv
        · split
          · simp [hv]
          · exact hv
    have e4 : (∀ u ∈ g.ins a, u ∈ st.visited) → g.kind a = .op → a ∈ (constEdge g st a).others := by
      intro hin hk
      unfold constEdge
      split
      · rename_i h; simpa using h
      · have : ((g.ins a).any fun u => !st.visited.contains u) = false := by
          rw [List.any_eq_false]; intro u hu; simp [hin u hu]
        rw [this]; simp [hk]
    have e5 : (constEdge g st a).others.length ≤ st.others.length + 1 := by
      unfold constEdge; split
      · omega
      · split
        · omega
        · split
          · simp
          · omega
    refine ⟨h1.trans e1, h2.trans e2, fun v hv => h3 v (e3 v hv), ?_, ?_⟩
    · intro v hv hin hk
      rcases List.mem_cons.1 hv with rfl | hv
      · exact h3 _ (e4 hin hk)
      · exact h4 v hv (by rw [e1]; exact hin) hk
    · simp only [List.length_cons]; omega

/-- The loop over the constants `cs`. -/
theorem constLoop_spec (g : Graph) (hg : g.Consistent) (cs : List Nat) (hcs : cs.Nodup) (st : ConstState)
    (hst : ∀ x, x ∈ st.visited ↔ x ∈ st.indices) (hdis : ∀ c ∈ cs, c ∉ st.indices) (hnd : st.indices.Nodup)
    (hst4 : ∀ v, g.kind v = .op → (∃ u, u ∈ g.ins v) → (∀ u ∈ g.ins v, u ∈ st.visited) → v ∈ st.others) :
    let st' := cs.foldl (constNode g) st
    (∀ x, x ∈ st'.visited ↔ x ∈ st'.indices) ∧ st'.indices = st.indices ++ cs ∧ st'.indices.Nodup ∧
    (∀ v, v ∈ st.others → v ∈ st'.others) ∧
    (∀ v, g.kind v = .op → (∃ u, u ∈ g.ins v) → (∀ u ∈ g.ins v, u ∈ st'.visited) → v ∈ st'.others) ∧
    st'.others.length ≤ st.others.length + (cs.map (fun c => (g.outs c).length)).sum := by
  induction cs generalizing st with
  | nil => simp [hst, hnd]; exact fun v h1 x hx h2 => hst4 v h1 ⟨x, hx⟩ (fun u hu => (hst u).2 (h2 u hu))
  | cons c cs ih =>
    simp only [List.foldl_cons]
    rw [List.nodup_cons] at hcs
    obtain ⟨f1, f2, f3, f4, f5⟩ := constEdge_fields g (g.outs c)
      { st with indices := st.indices ++ [c], visited := c :: st.visited }
    simp only at f1 f2 f3 f4 f5
    have hc0 := hdis c (by simp)
    have := ih hcs.2 (constNode g st c)
      (by intro x; unfold constNode; rw [f1, f2]; simp [hst x]; tauto)
      (by
        intro d hd
        unfold constNode
        rw [f2]
        simp only [List.mem_append, List.mem_singleton, not_or]
        exact ⟨hdis d (by simp [hd]), fun h => hcs.1 (h ▸ hd)⟩)
      (by
        unfold constNode
        rw [f2, List.nodup_append]
        refine ⟨hnd, by simp, ?_⟩
        intro a ha b hb
        rw [List.mem_singleton] at hb
        subst hb
        exact fun h => hc0 (h ▸ ha))
      (by
        intro v hk hex hin
        unfold constNode at hin ⊢
        rw [f1] at hin
        by_cases hcv : c ∈ g.ins v
        · exact f4 v ((hg.mem c v).1 hcv) hin hk
        · refine f3 v (hst4 v hk hex ?_)
          intro u hu
          rcases List.mem_cons.1 (hin u hu) with rfl | h
          · exact absurd hu hcv
          · exact h)
    obtain ⟨g1, g2, g3, g4, g5, g6⟩ := this
    refine ⟨g1, ?_, g3, ?_, g5, ?_⟩
    · rw [g2]; unfold constNode; rw [f2]; simp
    · intro v hv; exact g4 v (f3 v hv)
    · have e : (constNode g st c).others.length ≤ st.others.length + (g.outs c).length := f5
      simp only [List.map_cons, List.sum_cons]
      omega

/-- Out-edges of the nodes not yet visited. -/
def pending (g : Graph) (visited : List Nat) : Nat :=
  (((List.range g.n).filter (fun v => !visited.contains v)).map (fun v => (g.outs v).length)).sum

theorem sum_filter_split (p : Nat → Bool) (f : Nat → Nat) (v : Nat) (l : List Nat) (hl : l.Nodup) (hv : v ∈ l)
    (hp : p v = true) :
    ((l.filter p).map f).sum = f v + ((l.filter (fun x => p x && x != v)).map f).sum := by
  induction l with
  | nil => simp at hv
  | cons a l ih =>
    rw [List.nodup_cons] at hl
    by_cases hav : a = v
    · subst hav
      have : l.filter (fun x => p x && x != a) = l.filter p := by
        apply List.filter_congr
        intro x hx
        have : x ≠ a := fun h => hl.1 (h ▸ hx)
        simp [this]
      simp [List.filter_cons, hp, this]
    · have hv' : v ∈ l := by
        rcases List.mem_cons.1 hv with h | h
        · exact absurd h.symm hav
        · exact h
      have := ih hl.2 hv'
      simp only [List.filter_cons]
      by_cases hpa : p a = true
      · simp only [hpa, if_true, List.map_cons, List.sum_cons, Bool.true_and, bne_iff_ne, ne_eq, hav, not_false_iff]
        omega
      · simp only [hpa, Bool.false_and]
        simpa using this

theorem pending_cons (g : Graph) (visited : List Nat) (v : Nat) (hv : v < g.n) (hn : v ∉ visited) :
    pending g visited = (g.outs v).length + pending g (v :: visited) := by
  unfold pending
  rw [sum_filter_split _ _ v (List.range g.n) List.nodup_range (by simpa using hv) (by simpa using hn)]
  congr 3
  apply List.filter_congr
  intro x _
  rw [Bool.eq_iff_iff]
  simp only [Bool.and_eq_true, Bool.not_eq_true', bne_iff_ne, ne_eq, List.contains_eq_mem, decide_eq_false_iff_not, List.mem_cons, not_or]
  tauto

/-- The invariant of the search loop. -/
structure DfsInv (g : Graph) (consts starts stack visited indices : List Nat) : Prop where
  mem : ∀ x, x ∈ visited ↔ x ∈ indices
  nodup : indices.Nodup
  range : ∀ x ∈ stack, x < g.n
  sub : ∀ x ∈ consts, x ∈ visited
  ordered : ∀ pre v post, indices = pre ++ v :: post → v ∉ consts → ∀ u ∈ g.ins v, u ∈ pre
  ready : ∀ v, v ∉ visited → (∀ u ∈ g.ins v, u ∈ visited) →
    (v ∈ starts ∨ ∃ u ∈ g.ins v, u ∉ consts) → v ∈ stack

theorem dfsLoop_spec (g : Graph) (hg : g.Consistent) (consts starts : List Nat) :
    ∀ (fuel : Nat) (stack visited indices : List Nat), DfsInv g consts starts stack visited indices →
      stack.length + pending g visited ≤ fuel →
      ∃ visited' indices', dfsLoop g fuel stack visited indices = some indices' ∧
        DfsInv g consts starts [] visited' indices' := by
  intro fuel
  induction fuel with
  | zero =>
    intro stack visited indices inv hf
    cases stack with
    | nil => exact ⟨visited, indices, by simp [dfsLoop], inv⟩
    | cons a s => simp at hf
  | succ f ih =>
    intro stack visited indices inv hf
    cases stack with
    | nil => exact ⟨visited, indices, by simp [dfsLoop], inv⟩
    | cons v stack =>
      simp only [List.length_cons] at hf
      unfold dfsLoop
      by_cases hv : v ∈ visited
      · have hc : visited.contains v = true := by simpa using hv
        simp only [hc, if_true]
        refine ih stack visited indices { inv with range := fun x hx => inv.range x (by simp [hx]), ready := ?_ } (by omega)
        intro w hw hin hs
        rcases List.mem_cons.1 (inv.ready w hw hin hs) with rfl | h
        · exact absurd hv hw
        · exact h
      · have hc : visited.contains v = false := by simpa using hv
        simp only [hc]
        by_cases ha : (g.ins v).any (fun u => !visited.contains u) = true
        · simp only [ha, if_true]
          refine ih stack visited indices { inv with range := fun x hx => inv.range x (by simp [hx]), ready := ?_ } (by omega)
          intro w hw hin hs
          rcases List.mem_cons.1 (inv.ready w hw hin hs) with rfl | h
          · rw [List.any_eq_true] at ha
            obtain ⟨u, hu, hu2⟩ := ha
            have := hin u hu
            simp [this] at hu2
          · exact h
        · simp only [ha]
          have hins : ∀ u ∈ g.ins v, u ∈ visited := by
            intro u hu
            by_contra hcon
            apply ha
            rw [List.any_eq_true]
            exact ⟨u, hu, by simpa using hcon⟩
          have hvn : v < g.n := inv.range v (by simp)
          have hvi : v ∉ indices := fun h => hv ((inv.mem v).2 h)
          refine ih (g.outs v ++ stack) (v :: visited) (indices ++ [v]) ?_ ?_
          · constructor
            · intro x; simp [inv.mem x]; tauto
            · rw [List.nodup_append]
              refine ⟨inv.nodup, by simp, ?_⟩
              intro a hai b hb
              rw [List.mem_singleton] at hb
              subst hb
              exact fun h => hvi (h ▸ hai)
            · intro x hx
              rcases List.mem_append.1 hx with h | h
              · exact (hg.lt v x h).2
              · exact inv.range x (by simp [h])
            · intro x hx; exact List.mem_cons_of_mem _ (inv.sub x hx)
            · intro pre w post he hwc u hu
              rcases List.eq_nil_or_concat post with rfl | ⟨post', z, rfl⟩
              · have h2 : indices ++ [v] = pre ++ [w] := he
                obtain ⟨h3, h4⟩ := List.append_inj' h2 (by simp)
                simp only [List.cons.injEq, and_true] at h4
                subst h3; subst h4
                exact (inv.mem u).1 (hins u hu)
              · have h2 : indices ++ [v] = (pre ++ w :: post') ++ [z] := by rw [he]; simp
                obtain ⟨h3, _⟩ := List.append_inj' h2 (by simp)
                exact inv.ordered pre w post' h3 hwc u hu
            · intro w hw hin hs
              rw [List.mem_cons, not_or] at hw
              rw [List.mem_append]
              by_cases hvw : v ∈ g.ins w
              · exact Or.inl ((hg.mem v w).1 hvw)
              · right
                have hin' : ∀ u ∈ g.ins w, u ∈ visited := by
                  intro u hu
                  rcases List.mem_cons.1 (hin u hu) with rfl | h
                  · exact absurd hu hvw
                  · exact h
                rcases List.mem_cons.1 (inv.ready w hw.2 hin' hs) with rfl | h
                · exact absurd rfl hw.1
                · exact h
          · rw [pending_cons g visited v hvn hv] at hf
            simp only [List.length_append]
            omega

/-- Number of edges. -/
def _root_.Verif.Spec.Graph.edgeCount (g : Graph) : Nat := ((List.range g.n).map (fun v => (g.outs v).length)).sum

theorem filter_sum_le (p : Nat → Bool) (f : Nat → Nat) (l : List Nat) : ((l.filter p).map f).sum ≤ (l.map f).sum := by
  induction l with
  | nil => simp
  | cons a l ih =>
    simp only [List.filter_cons]
    split <;> simp <;> omega

/-- Induction along the edges of a finite acyclic graph. -/
theorem acyclic_induction (g : Graph) (hg : g.Consistent) (ha : g.Acyclic) (P : Nat → Prop)
    (h : ∀ v, v < g.n → (∀ u, g.Edge u v → P u) → P v) : ∀ v, v < g.n → P v := by
  let r : Fin g.n → Fin g.n → Prop := fun a b => Relation.TransGen g.Edge a.1 b.1
  haveI : IsTrans (Fin g.n) r := ⟨fun a b c h1 h2 => Relation.TransGen.trans h1 h2⟩
  haveI : Std.Irrefl r := ⟨fun a h => ha a.1 h⟩
  have wf : WellFounded r := Finite.wellFounded_of_trans_of_irrefl r
  have key : ∀ a : Fin g.n, P a.1 := by
    intro a
    induction a using wf.induction with
    | _ a ih =>
      apply h a.1 a.2
      intro u hu
      exact ih ⟨u, (hg.lt u a.1 hu).1⟩ (Relation.TransGen.single hu)
  exact fun v hv => key ⟨v, hv⟩

/-- C17, node order: with enough fuel (twice the edges plus the nodes) the search ends; it lists no node twice, lists every
constant, input and operator, and lists every node that is not a constant after all nodes it has an edge from. -/
theorem C17_topological_sort (g : Graph) (hg : g.Consistent) (ha : g.Acyclic) (hp : g.ProducersOk)
    (fuel : Nat) (hf : 2 * g.n + 2 * g.edgeCount ≤ fuel) :
    ∃ order, topologicalSort g fuel = some order ∧ order.Nodup ∧
      (∀ v, v < g.n → g.kind v = .op ∨ g.kind v = .input ∨ g.kind v = .constant → v ∈ order) ∧
      DependencyOrder g (fun v => g.kind v = .constant) order := by
  set cs := (List.range g.n).filter (fun v => g.kind v = .constant) with hcs
  set inputs := (List.range g.n).filter (fun v => g.kind v = .input) with hin
  set os := (List.range g.n).filter (fun v => decide (g.kind v = .op) && (g.ins v).isEmpty) with hos
  have hcsmem : ∀ x, x ∈ cs ↔ x < g.n ∧ g.kind x = .constant := by intro x; simp [hcs]
  have spec := constLoop_spec g hg cs (List.nodup_range.filter _) { visited := [], indices := [], others := os }
    (by simp) (by simp) (by simp) (by rintro v _ ⟨u, hu⟩ h; simpa using h u hu)
  have hcl : constLoop g = cs.foldl (constNode g) { visited := [], indices := [], others := os } := by
    rw [hcs, hos]; rfl
  rw [← hcl] at spec
  obtain ⟨s1, s2, s3, s4, s5, s6⟩ := spec
  simp only [List.nil_append] at s2 s4 s6
  -- everything in `others` is a node
  have hothers : ∀ (l : List Nat) (st : ConstState), (∀ x ∈ l, x < g.n) → (∀ x ∈ st.others, x < g.n ∧ g.kind x = .op) →
      ∀ x ∈ (l.foldl (constEdge g) st).others, x < g.n ∧ g.kind x = .op := by
    intro l
    induction l with
    | nil => intro st _ h; simpa using h
    | cons a l ih =>
      intro st hl h
      simp only [List.foldl_cons]
      apply ih
      · exact fun x hx => hl x (by simp [hx])
      · intro x hx
        unfold constEdge at hx
        split at hx
        · exact h x hx
        · split at hx
          · exact h x hx
          · split at hx
            · simp only [List.mem_append, List.mem_singleton] at hx
              rcases hx with hx | rfl
              · exact h x hx
              · rename_i hk
                exact ⟨hl x (by simp), hk⟩
            · exact h x hx
  have hothers2 : ∀ (l : List Nat) (st : ConstState), (∀ x ∈ st.others, x < g.n ∧ g.kind x = .op) →
      ∀ x ∈ (l.foldl (constNode g) st).others, x < g.n ∧ g.kind x = .op := by
    intro l
    induction l with
    | nil => intro st h; simpa using h
    | cons a l ih =>
      intro st h
      simp only [List.foldl_cons]
      apply ih
      exact hothers _ _ (fun x hx => (hg.lt a x hx).2) h
  have hoth : ∀ x ∈ (constLoop g).others, x < g.n ∧ g.kind x = .op := by
    rw [hcl]
    apply hothers2
    intro x hx
    simp only [hos, List.mem_filter, List.mem_range, Bool.and_eq_true, decide_eq_true_eq] at hx
    exact ⟨hx.1, hx.2.1⟩
  have inv0 : DfsInv g cs (inputs ++ (constLoop g).others) (inputs ++ (constLoop g).others) (constLoop g).visited
      (constLoop g).indices := by
    constructor
    · exact s1
    · exact s3
    · intro x hx
      rcases List.mem_append.1 hx with h | h
      · simp only [hin, List.mem_filter, List.mem_range] at h; exact h.1
      · exact (hoth x h).1
    · intro x hx; rw [s1, s2]; exact hx
    · intro pre v post he hv
      exfalso
      apply hv
      rw [← s2, he]
      simp
    · intro v _ hin hs
      rcases hs with h | ⟨u, hu, huc⟩
      · exact h
      · exfalso
        apply huc
        have := hin u hu
        rwa [s1, s2] at this
  have hlen : (inputs ++ (constLoop g).others).length + pending g (constLoop g).visited ≤ fuel := by
    have h1 : inputs.length ≤ g.n := by
      rw [hin]; exact le_trans (List.length_filter_le _ _) (by simp)
    have h2 : os.length ≤ g.n := by
      rw [hos]; exact le_trans (List.length_filter_le _ _) (by simp)
    have h3 : pending g (constLoop g).visited ≤ g.edgeCount := filter_sum_le _ _ _
    have h4 : (cs.map (fun c => (g.outs c).length)).sum ≤ g.edgeCount := filter_sum_le _ _ _
    simp only [List.length_append]
    omega
  obtain ⟨visited, order, hrun, inv⟩ := dfsLoop_spec g hg cs _ fuel _ _ _ inv0 hlen
  refine ⟨order, ?_, inv.nodup, ?_, ?_⟩
  · unfold topologicalSort
    rw [← hin]
    exact hrun
  · intro v hvn hk
    rw [← inv.mem]
    revert hk
    refine acyclic_induction g hg ha (fun v => g.kind v = .op ∨ g.kind v = .input ∨ g.kind v = .constant → v ∈ visited) ?_ v hvn
    intro v hvn ih hk
    by_cases hc : v ∈ cs
    · exact inv.sub v hc
    by_contra hnv
    have hall : ∀ u ∈ g.ins v, u ∈ visited := by
      intro u hu
      have he : g.Edge u v := (hg.mem u v).1 hu
      have := hp u v he
      exact ih u he (by tauto)
    have : v ∈ (inputs ++ (constLoop g).others) ∨ ∃ u ∈ g.ins v, u ∉ cs := by
      rcases hk with hk | hk | hk
      · by_cases hex : ∃ u ∈ g.ins v, u ∉ cs
        · exact Or.inr hex
        · left
          rw [List.mem_append]; right
          push Not at hex
          by_cases hem : g.ins v = []
          · apply s4
            simp [hos, hvn, hk, hem]
          · obtain ⟨u, hu⟩ := List.exists_mem_of_ne_nil _ hem
            apply s5 v hk ⟨u, hu⟩
            intro w hw
            rw [s1, s2]
            exact hex w hw
      · left; rw [List.mem_append]; left; simp [hin, hvn, hk]
      · exact absurd ((hcsmem v).2 ⟨hvn, hk⟩) hc
    have := inv.ready v hnv hall this
    simp at this
  · intro pre v post he hv u hu
    exact inv.ordered pre v post he (fun h => hv ((hcsmem v).1 h).2) u ((hg.mem u v).2 hu)

/-- C17: the exported operator list holds every operator of the graph exactly once, and every operator comes after all
operators producing one of its inputs. -/
theorem C17_collect_operators (g : Graph) (hg : g.Consistent) (ha : g.Acyclic) (hp : g.ProducersOk)
    (fuel : Nat) (hf : 2 * g.n + 2 * g.edgeCount ≤ fuel) :
    ∃ ops, collectOperators g fuel = some ops ∧ ops.Nodup ∧ (∀ v, v < g.n → g.kind v = .op → v ∈ ops) ∧
      (∀ v ∈ ops, g.kind v = .op) ∧
      (∀ pre v post, ops = pre ++ v :: post → ∀ u, g.Edge u v → g.kind u = .op → u ∈ pre) := by
  obtain ⟨order, h1, h2, h3, h4⟩ := C17_topological_sort g hg ha hp fuel hf
  refine ⟨order.filter (fun v => g.kind v = .op), by simp [collectOperators, h1], h2.filter _, ?_, ?_, ?_⟩
  · intro v hv hk
    simp [hk, h3 v hv (Or.inl hk)]
  · intro v hv
    simpa using (List.mem_filter.1 hv).2
  · intro pre v post he u hu hk
    obtain ⟨l1, l2, e1, e2, e3⟩ := List.filter_eq_append_iff.1 he
    obtain ⟨m1, m2, e4, e5, e6⟩ := List.filter_eq_cons_iff.1 e3
    have hv : g.kind v = .op := by simpa using e6.1
    have : u ∈ l1 ++ m1 := h4 (l1 ++ m1) v m2 (by rw [e1, e4]; simp) (by simp [hv]) u hu
    rcases List.mem_append.1 this with h | h
    · rw [← e2]; simp [h, hk]
    · have := e5 u h
      simp [hk] at this

/-- An example graph: 0 input, 1 constant, 2 operator reading 0 and 1, 3 operator reading 2 twice and 0, 4 output. -/
def exampleGraph : Graph where
  n := 5
  kind := fun v => if v = 0 then .input else if v = 1 then .constant else if v = 4 then .output else .op
  ins := fun v => if v = 2 then [1, 0] else if v = 3 then [2, 0, 2] else if v = 4 then [3] else []
  outs := fun v => if v = 0 then [3, 2] else if v = 1 then [2] else if v = 2 then [3, 3] else if v = 3 then [4] else []

theorem exampleGraph_edge {u v : Nat} (h : exampleGraph.Edge u v) : u < v ∧ u < 4 ∧ v < 5 := by
  simp only [Graph.Edge, exampleGraph] at h
  split at h
  · simp at h; omega
  · split at h
    · simp at h; omega
    · split at h
      · simp at h; omega
      · split at h
        · simp at h; omega
        · simp at h

example : exampleGraph.Consistent ∧ exampleGraph.Acyclic ∧ exampleGraph.ProducersOk := by
  refine ⟨⟨?_, fun u v h => ?_⟩, ?_, ?_⟩
  · intro u v
    simp only [exampleGraph]
    repeat' split
    all_goals simp <;> omega
  · have := exampleGraph_edge h; exact ⟨by simp [exampleGraph]; omega, by simp [exampleGraph]; omega⟩
  · intro v h
    have : ∀ a b, Relation.TransGen exampleGraph.Edge a b → a < b := by
      intro a b h
      induction h with
      | single h => exact (exampleGraph_edge h).1
      | tail _ h ih => exact lt_trans ih (exampleGraph_edge h).1
    exact absurd (this v v h) (by omega)
  · intro u v h
    have := (exampleGraph_edge h).2.1
    simp only [exampleGraph]
    repeat' split
    all_goals simp_all

example : topologicalSort exampleGraph 100 = some [1, 0, 2, 3, 4] := by decide
example : collectOperators exampleGraph 100 = some [2, 3] := by decide

end Verif.Props
