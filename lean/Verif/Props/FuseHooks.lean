import Verif.Model.FuseHooks
/-!
C157: forward hooks of layers that are fused for quantization.
-/

namespace Verif.Props
open Verif.Spec.FuseHooks Verif.Model.FuseHooks

variable {T : Type}

/-- The hooks with which fusing is safe. -/
def C157_Safe (isQat : Bool) : Group T → Prop
  | .deconvBn a b =>
    if isQat then a.pre.length ≤ 1 ∧ b.post.length ≤ 1 ∧ ∀ h ∈ b.post, h.blind
    else a.pre = [] ∧ a.post = [] ∧ b.pre = [] ∧ b.post.length ≤ 1 ∧ ∀ h ∈ b.post, h.blind
  | .bnConv a b => isQat = false ∧ a.pre.length ≤ 1 ∧ a.post = [] ∧ b.pre = [] ∧ b.post = []
  | .bnConvRelu a b c => isQat = false ∧ a.pre.length ≤ 1 ∧ a.post = [] ∧ b.pre = [] ∧ (∀ h ∈ b.post, h.blind) ∧ c.post.length ≤ 1 ∧ ∀ h ∈ c.post, h.blind

theorem move_some {H : Type} {l : List H} (h : l.length ≤ 1) : move l = some l := by
  match l, h with
  | [], _ => rfl
  | [_], _ => rfl

theorem move_none {H : Type} {l : List H} (h : 2 ≤ l.length) : move l = none := by
  match l, h with
  | _ :: _ :: _, _ => rfl

/-- Hooks that do not look at the input do the same whatever it is. -/
theorem postRun_blind (l : List (Post T)) (hl : ∀ h ∈ l, h.blind) (x x' y : T) :
    (postRun x l y).1 = (postRun x' l y).1 ∧ (postRun x l y).2.map seen = (postRun x' l y).2.map seen := by
  induction l generalizing y with
  | nil => exact ⟨rfl, rfl⟩
  | cons h hs ih =>
    have hb := hl h (by simp) x x' y
    obtain ⟨h1, h2⟩ := ih (fun g hg => hl g (by simp [hg])) (h.act x' y)
    constructor
    · simp only [postRun, hb, h1]
    · simp only [postRun, hb, List.map_cons, h2, seen, Option.getD_some]

/-- With safe hooks, fusing succeeds, the results are the same, and the same hooks are called, in the same order, with the same values. -/
theorem C157_hooks_partial (isQat : Bool) (g : Group T) (hs : C157_Safe isQat g) :
    ∃ out, fuse isQat g = some out ∧ ∀ x, (chain Seq.call out x).1 = (chain Layer.call g.layers x).1 ∧ (chain Seq.call out x).2.map seen = (chain Layer.call g.layers x).2.map seen := by
  match g with
  | .deconvBn a b =>
    cases isQat with
    | true =>
      obtain ⟨h1, h2, h3⟩ : a.pre.length ≤ 1 ∧ b.post.length ≤ 1 ∧ ∀ h ∈ b.post, h.blind := hs
      refine ⟨_, by simp only [fuse, move_some h1, move_some h2]; rfl, fun x => ?_⟩
      simp only [chain, Seq.call, Layer.call, hooked, identity, preRun, postRun, Group.layers, if_true, List.nil_append, List.append_nil, List.map_append]
      generalize (preRun a.pre x).1 = p
      generalize (postRun p a.post (a.run p)).1 = y
      generalize hz : (preRun b.pre y).1 = z
      obtain ⟨e1, e2⟩ := postRun_blind b.post h3 p z (b.run z)
      exact ⟨e1, by rw [e2]; simp [List.append_assoc]⟩
    | false =>
      obtain ⟨h1, h2, h3, h4, h5⟩ : a.pre = [] ∧ a.post = [] ∧ b.pre = [] ∧ b.post.length ≤ 1 ∧ ∀ h ∈ b.post, h.blind := hs
      refine ⟨_, by simp only [fuse, move_some (l := a.pre) (by simp [h1]), move_some h4]; rfl, fun x => ?_⟩
      simp only [chain, Seq.call, Layer.call, hooked, identity, copied, preRun, postRun, Group.layers, h1, h2, h3, Bool.false_eq_true, if_false, List.nil_append, List.append_nil]
      exact postRun_blind b.post h5 x (a.run x) (b.run (a.run x))
  | .bnConv a b =>
    obtain ⟨h0, h1, h2, h3, h4⟩ : isQat = false ∧ a.pre.length ≤ 1 ∧ a.post = [] ∧ b.pre = [] ∧ b.post = [] := hs
    subst h0
    refine ⟨_, by simp only [fuse, move_some (l := b.post) (by simp [h4]), move_some h1]; rfl, fun x => ?_⟩
    simp [chain, Seq.call, Layer.call, hooked, identity, copied, preRun, postRun, Group.layers, h2, h3, h4]
  | .bnConvRelu a b c =>
    obtain ⟨h0, h1, h2, h3, h4, h5, h6⟩ : isQat = false ∧ a.pre.length ≤ 1 ∧ a.post = [] ∧ b.pre = [] ∧ (∀ h ∈ b.post, h.blind) ∧ c.post.length ≤ 1 ∧ ∀ h ∈ c.post, h.blind := hs
    subst h0
    refine ⟨_, by simp only [fuse, move_some h1, move_some h5]; rfl, fun x => ?_⟩
    simp only [chain, Seq.call, Layer.call, hooked, identity, preRun, postRun, Group.layers, h2, h3, List.nil_append, List.append_nil, List.map_append]
    generalize (preRun a.pre x).1 = p
    obtain ⟨d1, d2⟩ := postRun_blind b.post h4 p (a.run p) (b.run (a.run p))
    rw [d1]
    generalize (postRun (a.run p) b.post (b.run (a.run p))).1 = y
    generalize (preRun c.pre y).1 = z
    obtain ⟨e1, e2⟩ := postRun_blind c.post h6 p z (c.run z)
    exact ⟨e1, by rw [d2, e2]; simp [List.append_assoc]⟩

/-- Fusing raises exactly with a batch norm in front in training, or with two hooks to move. -/
theorem C157_raises (isQat : Bool) (g : Group T) : fuse isQat g = none ↔
    match g with
    | .deconvBn a b => 2 ≤ a.pre.length ∨ 2 ≤ b.post.length
    | .bnConv a b => isQat = true ∨ 2 ≤ a.pre.length ∨ 2 ≤ b.post.length
    | .bnConvRelu a _ c => isQat = true ∨ 2 ≤ a.pre.length ∨ 2 ≤ c.post.length := by
  have key : ∀ {A B C : Type} (l : List A) (m : List B) (f : List A → List B → C),
      ((move l).bind fun p => (move m).map fun q => f p q) = none ↔ 2 ≤ l.length ∨ 2 ≤ m.length := by
    intro A B C l m f
    by_cases hl : 2 ≤ l.length
    · simp [move_none hl, hl]
    · rw [move_some (by omega)]
      by_cases hm : 2 ≤ m.length
      · simp [move_none hm, hm]
      · rw [move_some (by omega)]
        simp only [Option.bind_some, Option.map_some, reduceCtorEq, false_iff]
        omega
  match g with
  | .deconvBn a b => simp only [fuse]; apply key
  | .bnConv a b =>
    cases isQat with
    | true => simp [fuse]
    | false => simp only [fuse, Bool.false_eq_true, if_false, false_or]; apply key
  | .bnConvRelu a b c =>
    cases isQat with
    | true => simp [fuse]
    | false => simp only [fuse, Bool.false_eq_true, if_false, false_or]; apply key

/-- A hook after a convolution that follows a batch norm is called twice. -/
theorem C157_twice (bn conv : Layer T) (h : Post T) (hb : bn.pre = []) (hc : conv.pre = []) (hp : conv.post = [h]) :
    ∃ out, fuse false (.bnConv bn conv) = some out ∧ ∀ x, (chain Seq.call out x).2.map (·.name) = [h.name, h.name]
      ∧ (chain Seq.call out x).1 = h.act x (h.act x (conv.run (bn.run x))) := by
  refine ⟨_, by simp only [fuse, hb, hp, move]; rfl, fun x => ?_⟩
  simp [chain, Seq.call, Layer.call, hooked, identity, copied, preRun, postRun, hc, hp]

/-- The hook that adds one to the output of a layer. -/
def C157_addOne : Post Int := ⟨"add one", fun _ y => y + 1⟩

/-- With one hook, which adds one to the output of the convolution, the fused layers add two. -/
theorem C157_result_false : ∃ (g : Group Int) (out : List (Seq Int)), (g.layers.map fun l => l.pre.length + l.post.length).sum = 1 ∧ fuse false g = some out
    ∧ (chain Layer.call g.layers 5).1 = 6 ∧ (chain Seq.call out 5).1 = 7 :=
  ⟨.bnConv ⟨id, [], []⟩ ⟨id, [], [C157_addOne]⟩, _, by decide +kernel, rfl, by decide +kernel, by decide +kernel⟩

/-- A hook after a deconvolution is given the output of the batch norm that follows it. -/
theorem C157_value_false : ∃ (g : Group Int) (out : List (Seq Int)), (g.layers.map fun l => l.pre.length + l.post.length).sum = 1 ∧ fuse false g = some out
    ∧ (chain Layer.call g.layers 5).2.map seen = [("see", 6)] ∧ (chain Seq.call out 5).2.map seen = [("see", 12)] :=
  ⟨.deconvBn ⟨(· + 1), [], [⟨"see", fun _ y => y⟩]⟩ ⟨(2 * ·), [], []⟩, _, by decide +kernel, rfl, by decide +kernel, by decide +kernel⟩

/-- A hook on a batch norm in front of a convolution is not called any more. -/
theorem C157_lost_false : ∃ (g : Group Int) (out : List (Seq Int)), (g.layers.map fun l => l.pre.length + l.post.length).sum = 1 ∧ fuse false g = some out
    ∧ (chain Layer.call g.layers 5).2.map seen = [("see", 6)] ∧ (chain Seq.call out 5).2.map seen = [] :=
  ⟨.bnConv ⟨(· + 1), [], [⟨"see", fun _ y => y⟩]⟩ ⟨(2 * ·), [], []⟩, _, by decide +kernel, rfl, by decide +kernel, by decide +kernel⟩

/-- Two hooks in front of the first layer, or after the last: an exception. -/
theorem C157_two_false : ∃ g : Group Int, (g.layers.map fun l => l.pre.length + l.post.length).sum = 2 ∧ fuse true g = none :=
  ⟨.deconvBn ⟨id, [], []⟩ ⟨id, [], [C157_addOne, C157_addOne]⟩, by decide +kernel, by decide +kernel⟩

/-- Safe hooks on every layer of a group. -/
example : C157_Safe true (.deconvBn ⟨(· + 1), [⟨"a", (· + 2)⟩], [C157_addOne]⟩ ⟨(3 * ·), [⟨"b", (· + 4)⟩], [C157_addOne]⟩ : Group Int)
    ∧ (chain Layer.call (Group.deconvBn ⟨(· + 1), [⟨"a", (· + 2)⟩], [C157_addOne]⟩ ⟨(3 * ·), [⟨"b", (· + 4)⟩], [C157_addOne]⟩ : Group Int).layers 5).1 = 40 := by
  refine ⟨⟨by decide, by decide, ?_⟩, by decide +kernel⟩
  intro h hh
  simp only [List.mem_singleton] at hh
  subst hh
  exact fun _ _ _ => rfl

example : C157_Safe false (.bnConvRelu ⟨(· + 1), [⟨"a", (· + 2)⟩], []⟩ ⟨(3 * ·), [], [C157_addOne]⟩ ⟨(max 0 ·), [⟨"b", (· + 4)⟩], [C157_addOne]⟩ : Group Int) := by
  have hb : ∀ h ∈ [C157_addOne], h.blind := by
    intro h hh
    simp only [List.mem_singleton] at hh
    subst hh
    exact fun _ _ _ => rfl
  exact ⟨rfl, by decide, rfl, rfl, hb, by decide, hb⟩

end Verif.Props
