import Verif.Spec.Flops
import Verif.Model.Flops
import Mathlib.Tactic.Ring

/-!
C33: the FLOPs reported for a masked model are those of the pruned model.
-/

namespace Verif.Props
open Verif.Model Verif.Spec

/-- How a layer appears in the traced graph: its module, and the sizes of its tensors. -/
def moduleOf : Layer → FModule
  | .conv _ _ groups inPer outC k bias => .conv (groups * inPer) outC groups k bias
  | .depthwise _ _ c k bias => .conv c c c k bias
  | .batchNorm _ _ c => .batchNorm c
  | .avgPool _ _ _ => .avgPool
  | .relu _ _ _ => .relu
  | .linear _ inF outF => .linear inF outF
  | .other => .other

def nodeOf (id : Nat) (rmIn rmOut : List Nat) : Layer → FNode
  | .conv n s groups inPer outC _ _ => ⟨id, n * (groups * inPer) * s, groups * inPer, n * outC * s, rmIn, rmOut⟩
  | .depthwise n s c _ _ => ⟨id, n * c * s, c, n * c * s, rmIn, rmOut⟩
  | .batchNorm n s c => ⟨id, n * c * s, c, n * c * s, rmIn, rmOut⟩
  | .avgPool n s c => ⟨id, n * c * s, c, n * c, rmIn, rmOut⟩
  | .relu n s c => ⟨id, n * c * s, c, n * c * s, rmIn, rmOut⟩
  | .linear n inF outF => ⟨id, n * inF, inF, n * outF, rmIn, rmOut⟩
  | .other => ⟨id, 0, 0, 0, rmIn, rmOut⟩

/-- One use of a module in the network: the module's number, the layer, and the channels that pruning takes out there. -/
structure Use where
  id : Nat
  layer : Layer
  rmIn : List Nat
  rmOut : List Nat

/-- The nodes of the graph. -/
def graphOf (uses : List Use) : List FNode := uses.map (fun u => nodeOf u.id u.rmIn u.rmOut u.layer)

/-- The modules of the model: `modules` gives the module of every use. -/
def Fits (modules : Nat → FModule) (uses : List Use) : Prop := ∀ u ∈ uses, modules u.id = moduleOf u.layer

/-- The physically pruned network: smaller layers, nothing masked. -/
def pruned (uses : List Use) : List Use := uses.map (fun u => ⟨u.id, u.layer.shrink u.rmIn.length u.rmOut.length, [], []⟩)

private theorem div_helper (n c s : Nat) (hc : 0 < c) : pyFloorDiv ((n * c * s : Nat) : Int) (c : Int) = some ((n * s : Nat) : Int) := by
  have hc' : (c : Int) ≠ 0 := by omega
  unfold pyFloorDiv
  rw [if_neg hc', show ((n * c * s : Nat) : Int) = (c : Int) * ((n * s : Nat) : Int) by push_cast; ring, Int.mul_fdiv_cancel_left _ hc']

private theorem nodeFlops_eq (l : Layer) (id a b : Nat) (rmIn rmOut : List Nat) (h : l.CanLose a b) :
    nodeFlops (moduleOf l) a b (nodeOf id rmIn rmOut l) = some ((l.shrink a b).flops : Int) := by
  cases l with
  | conv n s groups inPer outC k bias =>
    obtain ⟨⟨r, rfl⟩, ha, hb⟩ := h
    have hg : 0 < groups := by
      rcases Nat.eq_zero_or_pos groups with h0 | h0
      · subst h0; simp at ha
      · exact h0
    have hr : r < inPer := Nat.lt_of_mul_lt_mul_left ha
    have hg' : (groups : Int) ≠ 0 := by omega
    have hgn : groups ≠ 0 := by omega
    have hin : ((groups * inPer : Nat) : Int) - ((groups * r : Nat) : Int) = (groups : Int) * ((inPer - r : Nat) : Int) := by
      push_cast [Nat.cast_sub (Nat.le_of_lt hr)]; ring
    have hdiv : (pyFloorDiv (((groups * inPer : Nat) : Int) - ((groups * r : Nat) : Int))
        (if isDwConv (groups * inPer) outC groups then ((groups * inPer : Nat) : Int) - ((groups * r : Nat) : Int) else (groups : Int)))
        = some ((inPer - r : Nat) : Int) := by
      rw [hin]
      by_cases hd : isDwConv (groups * inPer) outC groups = true
      · rw [if_pos hd]
        simp only [isDwConv, Bool.and_eq_true, beq_iff_eq] at hd
        have h1 : inPer = 1 := by
          have := hd.1
          exact Nat.eq_of_mul_eq_mul_left hg (by omega)
        subst h1
        have h2 : r = 0 := by omega
        subst h2
        simp [pyFloorDiv, hgn, Int.fdiv_self hg']
      · rw [if_neg hd]
        simp [pyFloorDiv, hgn, Int.mul_fdiv_cancel_left _ hg']
    simp only [moduleOf, nodeOf, nodeFlops, hdiv, div_helper n outC s (by omega), Option.bind_eq_bind, Option.bind_some, Layer.shrink,
      Layer.flops, Nat.mul_div_cancel_left r hg]
    rw [Option.pure_def]
    congr 1
    push_cast [Nat.cast_sub (Nat.le_of_lt hr), Nat.cast_sub (Nat.le_of_lt hb)]
    cases bias <;> simp only [Bool.false_eq_true, if_false, if_true] <;> ring
  | depthwise n s c k bias =>
    obtain ⟨rfl, ha⟩ := h
    have hne : (c : Int) - (a : Int) ≠ 0 := by omega
    have hd : isDwConv c c c = true := by simp [isDwConv]
    have hdiv : pyFloorDiv ((c : Int) - a) ((c : Int) - a) = some 1 := by simp [pyFloorDiv, hne, Int.fdiv_self hne]
    simp only [moduleOf, nodeOf, nodeFlops, hd, if_true, hdiv, div_helper n c s (by omega), Option.bind_eq_bind, Option.bind_some,
      Layer.shrink, Layer.flops]
    rw [Option.pure_def]
    congr 1
    push_cast [Nat.cast_sub (Nat.le_of_lt ha)]
    cases bias <;> simp only [Bool.false_eq_true, if_false, if_true] <;> ring
  | batchNorm n s c =>
    have ha : a < c := h
    simp only [moduleOf, nodeOf, nodeFlops, div_helper n c s (by omega), Option.bind_eq_bind, Option.bind_some, Layer.shrink, Layer.flops]
    rw [Option.pure_def]
    congr 1
    push_cast [Nat.cast_sub (Nat.le_of_lt ha)]
    ring
  | avgPool n s c =>
    have ha : a < c := h
    simp only [moduleOf, nodeOf, nodeFlops, div_helper n c s (by omega), Option.bind_eq_bind, Option.bind_some, Layer.shrink, Layer.flops]
    rw [Option.pure_def]
    congr 1
    push_cast [Nat.cast_sub (Nat.le_of_lt ha)]
    ring
  | relu n s c =>
    have ha : a < c := h
    simp only [moduleOf, nodeOf, nodeFlops, div_helper n c s (by omega), Option.bind_eq_bind, Option.bind_some, Layer.shrink, Layer.flops]
    rw [Option.pure_def]
    congr 1
    push_cast [Nat.cast_sub (Nat.le_of_lt ha)]
    ring
  | linear n inF outF =>
    obtain ⟨ha, hb⟩ := h
    have hd := div_helper n outF 1 (by omega)
    rw [Nat.mul_one, Nat.mul_one] at hd
    simp only [moduleOf, nodeOf, nodeFlops, hd, Option.bind_eq_bind, Option.bind_some, Layer.shrink, Layer.flops]
    rw [Option.pure_def]
    congr 1
    push_cast [Nat.cast_sub (Nat.le_of_lt ha), Nat.cast_sub (Nat.le_of_lt hb)]
    ring
  | other => rfl

private theorem nodeOf_fields (id : Nat) (rmIn rmOut : List Nat) (l : Layer) :
    (nodeOf id rmIn rmOut l).module = id ∧ (nodeOf id rmIn rmOut l).prunedIn = rmIn ∧ (nodeOf id rmIn rmOut l).prunedOut = rmOut := by
  cases l <;> exact ⟨rfl, rfl, rfl⟩

private theorem register_other (nodes : List FNode) (ms : Maskers) (k : Nat) (h : ∀ nd ∈ nodes, nd.module ≠ k) :
    nodes.foldl registerNode ms k = ms k := by
  induction nodes generalizing ms with
  | nil => rfl
  | cons nd rest ih =>
    rw [List.foldl_cons, ih _ (fun x hx => h x (by simp [hx]))]
    simp [registerNode, Ne.symm (h nd (by simp))]

private theorem register_own (nodes : List FNode) (ms : Maskers) (hd : (nodes.map FNode.module).Nodup) (nd : FNode) (h : nd ∈ nodes)
    (h0 : ∀ x ∈ nodes, ms x.module = (none, none)) :
    nodes.foldl registerNode ms nd.module = (some nd.prunedIn, some nd.prunedOut) := by
  induction nodes generalizing ms with
  | nil => simp at h
  | cons x rest ih =>
    simp only [List.map_cons, List.nodup_cons] at hd
    rw [List.foldl_cons]
    rcases List.mem_cons.mp h with rfl | hr
    · rw [register_other _ _ _ (fun y hy e => hd.1 (by rw [← e]; exact List.mem_map_of_mem hy))]
      simp [registerNode, h0 nd (by simp), setRemoveIdx]
    · refine ih _ hd.2 hr (fun y hy => ?_)
      have : y.module ≠ x.module := fun e => hd.1 (by rw [← e]; exact List.mem_map_of_mem hy)
      simp [registerNode, this, h0 y (by simp [hy])]

private theorem calc_eq (modules : Nat → FModule) (ms : Maskers) (uses : List Use) (hf : Fits modules uses)
    (hc : ∀ u ∈ uses, u.layer.CanLose (removeCount (ms u.id).1) (removeCount (ms u.id).2)) :
    calcFlops modules ms (graphOf uses)
      = some (((uses.map (fun u => (u.layer.shrink (removeCount (ms u.id).1) (removeCount (ms u.id).2)).flops)).sum : Nat) : Int) := by
  induction uses with
  | nil => rfl
  | cons u rest ih =>
    have e := nodeOf_fields u.id u.rmIn u.rmOut u.layer
    have ih' := ih (fun x hx => hf x (by simp [hx])) (fun x hx => hc x (by simp [hx]))
    simp only [graphOf] at ih' ⊢
    simp only [List.map_cons, calcFlops, e.1, hf u (by simp), nodeFlops_eq _ _ _ _ _ _ (hc u (by simp)), ih', List.sum_cons]
    simp

/-- The layer's cost does not grow when channels are taken out. -/
private theorem shrink_le (l : Layer) (a b : Nat) : (l.shrink a b).flops ≤ l.flops := by
  cases l <;> simp only [Layer.shrink, Layer.flops] <;> gcongr <;> exact Nat.sub_le _ _

/-- **C33** For every network in which no module is used twice and in which every layer keeps a channel: the number reported for the
masked model is the cost of the network with the smaller layers, which is also the number reported for the physically pruned model, and
it is at most the cost of the original network. -/
theorem C33_flops_partial (modules modules' : Nat → FModule) (uses : List Use) (hf : Fits modules uses) (hf' : Fits modules' (pruned uses))
    (hd : (uses.map Use.id).Nodup) (hc : ∀ u ∈ uses, u.layer.CanLose u.rmIn.length u.rmOut.length) :
    let cost : Nat := ((pruned uses).map (fun u => u.layer.flops)).sum
    calcFlops modules (registerAll (graphOf uses)) (graphOf uses) = some (cost : Int)
    ∧ calcFlops modules' (fun _ => (none, none)) (graphOf (pruned uses)) = some (cost : Int)
    ∧ cost ≤ (uses.map (fun u => u.layer.flops)).sum := by
  intro cost
  have hreg : ∀ u ∈ uses, registerAll (graphOf uses) u.id = (some u.rmIn, some u.rmOut) := by
    intro u hu
    have e := nodeOf_fields u.id u.rmIn u.rmOut u.layer
    have := register_own (graphOf uses) (fun _ => (none, none)) ?_ (nodeOf u.id u.rmIn u.rmOut u.layer)
      (List.mem_map.mpr ⟨u, hu, rfl⟩) (fun _ _ => rfl)
    · rw [e.1, e.2.1, e.2.2] at this
      exact this
    · rw [graphOf, List.map_map]
      rwa [show (FNode.module ∘ fun u : Use => nodeOf u.id u.rmIn u.rmOut u.layer) = Use.id from
        funext (fun u => (nodeOf_fields u.id u.rmIn u.rmOut u.layer).1)]
  refine ⟨?_, ?_, ?_⟩
  · rw [calc_eq modules _ uses hf (fun u hu => by rw [hreg u hu]; exact hc u hu)]
    simp only [cost, pruned, List.map_map]
    congr 3
    apply List.map_congr_left
    intro u hu
    simp [hreg u hu, removeCount]
  · have hs : ∀ (l : Layer) a b, l.CanLose a b → (l.shrink a b).CanLose 0 0 := by
      intro l a b h
      cases l with
      | conv n s groups inPer outC k bias =>
        obtain ⟨⟨r, rfl⟩, h1, h2⟩ := h
        have hg : 0 < groups := by
          rcases Nat.eq_zero_or_pos groups with h0 | h0
          · subst h0; simp at h1
          · exact h0
        have hr : r < inPer := Nat.lt_of_mul_lt_mul_left h1
        refine ⟨Nat.dvd_zero _, ?_, by omega⟩
        rw [Nat.mul_div_cancel_left r hg]
        exact Nat.mul_pos hg (by omega)
      | depthwise n s c k bias => obtain ⟨rfl, h1⟩ := h; exact ⟨rfl, by omega⟩
      | batchNorm n s c => have h : a < c := h; show 0 < c - a; omega
      | avgPool n s c => have h : a < c := h; show 0 < c - a; omega
      | relu n s c => have h : a < c := h; show 0 < c - a; omega
      | linear n i o => obtain ⟨h1, h2⟩ := h; exact ⟨by omega, by omega⟩
      | other => trivial
    have h0 : ∀ l : Layer, l.shrink 0 0 = l := by intro l; cases l <;> simp [Layer.shrink]
    rw [calc_eq modules' _ (pruned uses) hf' ?_]
    · simp only [removeCount, h0, cost]
    · intro u hu
      obtain ⟨v, hv, rfl⟩ := List.mem_map.mp hu
      exact hs _ _ _ (hc v hv)
  · simp only [cost, pruned, List.map_map]
    clear hf hf' hd hc hreg cost
    induction uses with
    | nil => exact Nat.le_refl _
    | cons u rest ih =>
      simp only [List.map_cons, List.sum_cons]
      exact Nat.add_le_add (shrink_le u.layer _ _) ih

/-- A network: a grouped convolution, a batch norm, a ReLU, a depthwise convolution and a linear layer. -/
def sampleUses : List Use :=
  [⟨0, .conv 2 9 2 4 8 9 true, [0, 5], [1, 2, 6, 7]⟩, ⟨1, .batchNorm 2 9 8, [1, 2, 6, 7], [1, 2, 6, 7]⟩,
   ⟨2, .relu 2 9 8, [1, 2, 6, 7], [1, 2, 6, 7]⟩, ⟨3, .depthwise 2 9 8 9 false, [1, 2, 6, 7], [1, 2, 6, 7]⟩,
   ⟨4, .avgPool 2 9 8, [1, 2, 6, 7], [1, 2, 6, 7]⟩, ⟨5, .linear 2 8 10, [1, 2, 6, 7], []⟩]

example : (sampleUses.map Use.id).Nodup ∧ (∀ u ∈ sampleUses, u.layer.CanLose u.rmIn.length u.rmOut.length)
    ∧ calcFlops (fun k => moduleOf ((sampleUses.map Use.layer).getD k .other)) (registerAll (graphOf sampleUses)) (graphOf sampleUses)
      = some 3032 := by
  refine ⟨by decide, ?_, by decide⟩
  intro u hu
  simp only [sampleUses, List.mem_cons, List.not_mem_nil, or_false] at hu
  rcases hu with rfl | rfl | rfl | rfl | rfl | rfl <;> simp [Layer.CanLose]

/-- The property fails when a module is used more than once, as the ReLU of a residual block is: its masker collects the indices of all
its uses, and the number reported is wrong, and can even be negative. -/
theorem C33_shared_module_false : ∃ (modules : Nat → FModule) (uses : List Use), Fits modules uses
    ∧ (∀ u ∈ uses, u.layer.CanLose u.rmIn.length u.rmOut.length)
    ∧ ((pruned uses).map (fun u => u.layer.flops)).sum = 12
    ∧ calcFlops modules (registerAll (graphOf uses)) (graphOf uses) = some (-12) := by
  refine ⟨fun _ => .relu, [⟨0, .relu 1 1 8, [0, 1, 2, 3], [0, 1, 2, 3]⟩, ⟨0, .relu 1 1 8, [0, 1, 2, 3], [0, 1, 2, 3]⟩,
    ⟨0, .relu 1 1 8, [0, 1, 2, 3], [0, 1, 2, 3]⟩], ?_, ?_, by decide, by decide⟩
  · intro u hu
    simp only [List.mem_cons, List.not_mem_nil, or_false] at hu
    rcases hu with rfl | rfl | rfl <;> rfl
  · intro u hu
    simp only [List.mem_cons, List.not_mem_nil, or_false] at hu
    rcases hu with rfl | rfl | rfl <;> simp [Layer.CanLose]

end Verif.Props
