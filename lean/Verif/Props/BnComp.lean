import Verif.Model.BnComp
import Verif.Props.PruneNet
import Mathlib.Algebra.BigOperators.Ring.List
import Mathlib.Data.List.GetD
import Mathlib.Tactic.Ring
import Mathlib.Tactic.Abel

/-!
C120: removing dead channels with batch-norm compensation keeps what the network computes.
-/

namespace Verif.Props
open Verif.Spec.BnComp Verif.Model Verif.Model.BnComp

namespace Comp
variable {α : Type}

private theorem sum_split [AddCommMonoid α] (n : Nat) (rm : List Nat) (f : Nat → α) :
    ((List.range n).map f).sum = ((preserveIdx n rm).map f).sum + (((List.range n).filter fun c => rm.contains c).map f).sum := by
  have h := ((preserve_perm n rm).map f).sum_eq
  rw [h]
  unfold kept
  induction List.range n with
  | nil => simp
  | cons a l ih =>
    rw [List.map_cons, List.sum_cons, ih]
    by_cases ha : rm.contains a = true
    · rw [List.filter_cons_of_neg (by simp only [ha]; simp), List.filter_cons_of_pos ha, List.map_cons, List.sum_cons]
      abel
    · rw [List.filter_cons_of_pos (by simp only [Bool.not_eq_true] at ha; simp only [ha]; rfl), List.filter_cons_of_neg ha, List.map_cons, List.sum_cons]
      abel

private theorem sum_range_getD [AddCommMonoid α] (p : List Nat) (f : Nat → α) : ((List.range p.length).map fun i => f (p.getD i 0)).sum = (p.map f).sum := by
  congr 1
  apply List.ext_getElem (by simp)
  intro i h1 h2
  have : i < p.length := by simpa using h1
  simp [List.getD, this]

private theorem getD_map' {β γ : Type} (g : β → γ) (p : List β) (i : Nat) (d : γ) (e : β) (h : i < p.length) : (p.map g).getD i d = g (p.getD i e) := by
  simp [List.getD, h]

private theorem run_getD [Ring α] (b : Bn α) (act : α → α) (img : List (Nat → Nat → α)) {c : Nat} (hc : c < img.length) :
    (b.run act img).getD c (fun _ _ => 0) = fun r s => act (b.scale.getD c 0 * ((img.getD c (fun _ _ => 0) r s - b.mean.getD c 0) * b.inv.getD c 0) + b.shift.getD c 0) := by
  unfold Bn.run
  simp [List.getD, hc]

private theorem run_length [Ring α] (b : Bn α) (act : α → α) (img : List (Nat → Nat → α)) : (b.run act img).length = img.length := by simp [Bn.run]

/-- What channel `ch` adds to an output. -/
def term [Ring α] (c : Conv α) (h w o y x ch : Nat) (f : Nat → Nat → α) : α :=
  ((List.range c.kh).map fun i => ((List.range c.kw).map fun j =>
    (c.weight.getD o []).getD ch (fun _ _ => 0) i j * (match c.row h y i, c.col w x j with | some r, some s => f r s | _, _ => 0)).sum).sum

private theorem run_eq [Ring α] (c : Conv α) (h w : Nat) (img : List (Nat → Nat → α)) (o y x : Nat) :
    c.run h w img o y x = (match c.bias with | none => 0 | some b => b.getD o 0) + ((List.range img.length).map fun ch => term c h w o y x ch (img.getD ch fun _ _ => 0)).sum := rfl

/-- Inside of the image a constant channel adds its value times the sum of the kernel. -/
theorem term_const [Ring α] (c : Conv α) {h w y x : Nat} (hin : c.Inside h w y x) (o ch : Nat) (f : Nat → Nat → α) (v : α) (hf : ∀ r s, f r s = v) :
    term c h w o y x ch f = ((List.range c.kh).map fun i => ((List.range c.kw).map fun j => (c.weight.getD o []).getD ch (fun _ _ => 0) i j).sum).sum * v := by
  unfold term
  rw [← List.sum_map_mul_right]
  congr 1
  apply List.map_congr_left
  intro i hi
  rw [← List.sum_map_mul_right]
  congr 1
  apply List.map_congr_left
  intro j hj
  have := hin i (List.mem_range.1 hi) j (List.mem_range.1 hj)
  cases hr : c.row h y i with
  | none => exact absurd hr this.1
  | some r =>
    cases hs : c.col w x j with
    | none => exact absurd hs this.2
    | some s => simp only [hf]

end Comp
open Comp

/-- C120: a block whose bias was corrected computes, inside of the image, what the block computes when the scale of the removed channels is zero, whatever the input. -/
theorem C120_zeroed {α : Type} [Ring α] (nexts : List (Kind × List Kind)) (groups : Nat) (rm : List Nat) (b : Bn α) (act : α → α) (c : Conv α)
    (hb : b.shift.length = b.scale.length ∧ b.mean.length = b.scale.length ∧ b.inv.length = b.scale.length)
    (hcomp : compensates true nexts groups = some true) (h w : Nat) (img : List (Nat → Nat → α)) (himg : img.length = b.scale.length) (o y x : Nat) (ho : o < c.weight.length) (hin : c.Inside h w y x) :
    ∃ b' c', prune true nexts groups rm b act c = some (b', c') ∧
      block b' act c' h w ((preserveIdx b.scale.length rm).map fun i => img.getD i (fun _ _ => 0)) o y x =
        block { b with scale := b.scale.mapIdx fun i s => if i ∈ rm then 0 else s } act c h w img o y x := by
  unfold prune
  simp only [hcomp, Option.map_some, if_true]
  set n := b.scale.length with hn
  set p := preserveIdx n rm with hp
  have hpm : ∀ i ∈ p, i < n ∧ i ∉ rm := fun i hi => (mem_preserve n rm i).1 hi
  have hscale : ∀ i, i < n → i ∉ rm → (b.scale.mapIdx fun i s => if i ∈ rm then 0 else s).getD i 0 = b.scale.getD i 0 := by
    intro i hi hr
    simp [List.getD, List.getElem?_mapIdx, List.getElem?_eq_getElem (show i < b.scale.length from hi), hr]
  have hscale0 : ∀ i, i ∈ rm → (b.scale.mapIdx fun i s => if i ∈ rm then 0 else s).getD i 0 = 0 := by
    intro i hr
    by_cases hi : i < b.scale.length
    · simp [List.getD, List.getElem?_mapIdx, hi, hr]
    · simp [List.getD, List.getElem?_mapIdx, hi]
  -- the right side, split into kept and removed channels
  have hright : block { b with scale := b.scale.mapIdx fun i s => if i ∈ rm then 0 else s } act c h w img o y x =
      (match c.bias with | none => 0 | some b => b.getD o 0) + ((p.map fun ch => term c h w o y x ch ((b.run act img).getD ch fun _ _ => 0)).sum +
        (((List.range n).filter fun ch => rm.contains ch).map fun ch =>
          ((List.range c.kh).map fun i => ((List.range c.kw).map fun j => (c.weight.getD o []).getD ch (fun _ _ => 0) i j).sum).sum * act (b.shift.getD ch 0)).sum) := by
    unfold block
    rw [run_eq, run_length, himg, sum_split n rm]
    congr 2
    · congr 1
      apply List.map_congr_left
      intro ch hch
      have := hpm ch hch
      rw [run_getD _ _ _ (by rw [himg]; exact this.1), run_getD _ _ _ (by rw [himg]; exact this.1)]
      simp only [hscale ch this.1 this.2]
    · congr 1
      apply List.map_congr_left
      intro ch hch
      rw [List.mem_filter, List.mem_range, List.contains_iff_mem] at hch
      rw [run_getD _ _ _ (by rw [himg]; exact hch.1)]
      apply term_const c hin
      intro r s
      simp only [hscale0 ch hch.2, zero_mul, zero_add]
  by_cases hnone : n = (complementaryList n rm).length
  · rw [if_pos hnone]
    refine ⟨b, c, rfl, ?_⟩
    have hpr : p = List.range n := by
      rw [hp]; unfold preserveIdx; simp only; rw [if_pos hnone.symm]
    have himg' : (p.map fun i => img.getD i (fun _ _ => 0)) = img := by
      rw [hpr, ← himg]
      apply List.ext_getElem (by simp)
      intro i h1 h2
      simp [List.getD, h2]
    rw [himg']
    have hs : (b.scale.mapIdx fun i s => if i ∈ rm then 0 else s) = b.scale := by
      apply List.ext_getElem (by simp)
      intro i h1 h2
      have : i ∈ p := by rw [hpr]; simpa using h2
      simp [(hpm i this).2]
    rw [hs]
  · rw [if_neg hnone]
    refine ⟨_, _, rfl, ?_⟩
    rw [hright]
    unfold block
    rw [run_eq, run_length]
    simp only [List.length_map]
    have hnb : (newBias rm b act c).getD o 0 = (match c.bias with | none => 0 | some b => b.getD o 0) +
        (((List.range n).filter fun ch => rm.contains ch).map fun ch =>
          ((List.range c.kh).map fun i => ((List.range c.kw).map fun j => (c.weight.getD o []).getD ch (fun _ _ => 0) i j).sum).sum * act (b.shift.getD ch 0)).sum := by
      unfold newBias
      simp only [List.getD, List.getElem?_map, List.getElem?_range, ho, Option.map_some, Option.getD_some]
      rfl
    rw [hnb]
    have hsum : ((List.range p.length).map fun ch => term { c with weight := c.weight.map (fun row => p.map fun i => row.getD i (fun _ _ => 0)), bias := some (newBias rm b act c) } h w o y x ch
        ((Bn.run ⟨p.map fun i => b.scale.getD i 0, p.map fun i => b.shift.getD i 0, p.map fun i => b.mean.getD i 0, p.map fun i => b.inv.getD i 0⟩ act
          (p.map fun i => img.getD i fun _ _ => 0)).getD ch fun _ _ => 0)).sum = (p.map fun ch => term c h w o y x ch ((b.run act img).getD ch fun _ _ => 0)).sum := by
      rw [← sum_range_getD p]
      congr 1
      apply List.map_congr_left
      intro k hk
      have hk : k < p.length := List.mem_range.1 hk
      have hpk : p.getD k 0 < n := (hpm _ (by
        rw [List.getD_eq_getElem _ _ hk]; exact List.getElem_mem hk)).1
      rw [run_getD _ _ _ (by simpa using hk), run_getD _ _ _ (by rw [himg]; exact hpk)]
      simp only [getD_map' _ p k _ 0 hk]
      unfold term
      have hw : ((c.weight.map fun row => p.map fun i => row.getD i fun _ _ => (0 : α)).getD o []).getD k (fun _ _ => 0) = (c.weight.getD o []).getD (p.getD k 0) fun _ _ => 0 := by
        rw [getD_map' _ c.weight o _ [] ho, getD_map' _ p k _ 0 hk]
      simp only [hw]
      rfl
    rw [hsum]
    abel

/-- C120, in part: if the bias is corrected, removing channels that carry a constant keeps every output that reads no padding zeros.  Missing: outputs at the border of a zero-padded convolution
(`C120_padding_false`), and blocks whose bias is not corrected (`C120_consumers_false`, `C120_activation_false`) or whose activation is a function (`C120_function_false`). -/
theorem C120_partial {α : Type} [Ring α] (nexts : List (Kind × List Kind)) (groups : Nat) (rm : List Nat) (b : Bn α) (act : α → α) (c : Conv α)
    (hb : b.shift.length = b.scale.length ∧ b.mean.length = b.scale.length ∧ b.inv.length = b.scale.length)
    (hcomp : compensates true nexts groups = some true) (h w : Nat) (img : List (Nat → Nat → α)) (himg : img.length = b.scale.length) (hdead : Dead b rm img)
    (o y x : Nat) (ho : o < c.weight.length) (hin : c.Inside h w y x) :
    ∃ b' c', prune true nexts groups rm b act c = some (b', c') ∧
      block b' act c' h w ((preserveIdx b.scale.length rm).map fun i => img.getD i (fun _ _ => 0)) o y x = block b act c h w img o y x := by
  obtain ⟨b', c', h1, h2⟩ := C120_zeroed nexts groups rm b act c hb hcomp h w img himg o y x ho hin
  refine ⟨b', c', h1, h2.trans ?_⟩
  unfold block
  congr 1
  unfold Bn.run
  apply List.map_congr_left
  intro ch hch
  have hch : ch < b.scale.length := by rw [← himg]; exact List.mem_range.1 hch
  funext r s
  by_cases hr : ch ∈ rm
  · have e1 : img.getD ch (fun _ _ => 0) r s = b.mean.getD ch 0 := by
      have hi : ch < img.length := by rw [himg]; exact hch
      have hm : ch < b.mean.length := by rw [hb.2.1]; exact hch
      rw [List.getD_eq_getElem _ _ hi, List.getD_eq_getElem _ _ hm]
      exact hdead ch hr _ _ (List.getElem?_eq_getElem hi) (List.getElem?_eq_getElem hm) r s
    simp only [e1, sub_self, zero_mul, mul_zero]
  · have : (b.scale.mapIdx fun i s => if i ∈ rm then 0 else s).getD ch 0 = b.scale.getD ch 0 := by
      simp [List.getD, List.getElem?_mapIdx, List.getElem?_eq_getElem hch, hr]
    simp only [this]

/-- Exactly when the bias is corrected: the option is on, the batch norm has one consumer, an activation module out of the nine known ones, whose only consumer is a `Conv2d` that is not grouped. -/
theorem C120_when (enabled : Bool) (nexts : List (Kind × List Kind)) (groups : Nat) : compensates enabled nexts groups = some true ↔
    enabled = true ∧ groups = 1 ∧ ∃ t ∈ ["ReLU", "ReLU6", "LeakyReLU", "Sigmoid", "Tanh", "Hardsigmoid", "Hardtanh", "Hardswish", "LogSigmoid"], nexts = [(.module t, [.module "Conv2d"])] := by
  constructor
  · intro h
    unfold compensates at h
    split at h
    · rename_i act conv
      cases act with
      | function k => by_cases h2 : conv = .module "Conv2d" <;> by_cases h3 : groups = 1 <;> simp [h2, h3] at h
      | module t =>
        simp only [decide_not, Bool.not_eq_true', decide_eq_false_iff_not] at h
        by_cases h1 : t ∈ supported
        · rw [if_neg (not_not.mpr h1)] at h
          by_cases h2 : conv = .module "Conv2d"
          · by_cases h3 : groups = 1
            · exact ⟨rfl, h3, t, h1, by rw [h2]⟩
            · simp [h2, h3] at h
          · simp [h2] at h
        · simp [h1] at h
    · simp at h
  · rintro ⟨rfl, rfl, t, ht, rfl⟩
    have ht' : t ∈ supported := ht
    simp [compensates, ht']

/-- Which outputs read no padding zeros: all of them if the convolution pads with pixels of the image, or does not pad. -/
theorem C120_inside {α : Type} (c : Conv α) (h w y x : Nat) (hc : c.mode ≠ .zeros ∨ (c.py = 0 ∧ c.px = 0 ∧ y * c.sy + (c.kh - 1) * c.dy < h ∧ x * c.sx + (c.kw - 1) * c.dx < w)) : c.Inside h w y x := by
  intro i hi j hj
  rcases hc with hm | ⟨h1, h2, h3, h4⟩
  · constructor
    · unfold Conv.row pixel
      split
      · simp
      · cases hmode : c.mode <;> simp [hmode] at hm ⊢
    · unfold Conv.col pixel
      split
      · simp
      · cases hmode : c.mode <;> simp [hmode] at hm ⊢
  · have e1 : i * c.dy ≤ (c.kh - 1) * c.dy := Nat.mul_le_mul_right _ (by omega)
    have e2 : j * c.dx ≤ (c.kw - 1) * c.dx := Nat.mul_le_mul_right _ (by omega)
    constructor
    · unfold Conv.row pixel
      rw [if_pos ⟨by omega, by omega⟩]; simp
    · unfold Conv.col pixel
      rw [if_pos ⟨by omega, by omega⟩]; simp

namespace Comp

/-- Two channels, the second one constant (7) with shift 5. -/
def bn2 : Bn Int := ⟨[1, 1], [0, 5], [0, 7], [1, 1]⟩
def img2 : List (Nat → Nat → Int) := [fun r s => r + s, fun _ _ => 7]
def relu (v : Int) : Int := if v < 0 then 0 else v
/-- A convolution with a kernel of ones. -/
def conv3 (pad : Nat) : Conv Int := ⟨3, 3, 1, 1, pad, pad, 1, 1, .zeros, [[fun _ _ => 1, fun _ _ => 1]], none⟩

theorem dead2 : Dead bn2 [1] img2 := by
  intro c hc f m h1 h2 r s
  rw [List.mem_singleton] at hc
  subst hc
  simp only [img2, List.getElem?_cons_succ, List.getElem?_cons_zero, Option.some.injEq] at h1
  simp only [bn2, List.getElem?_cons_succ, List.getElem?_cons_zero, Option.some.injEq] at h2
  rw [← h1, ← h2]

/-- The block before and after, at one output of a 4 by 4 image. -/
def before (c : Conv Int) (y x : Nat) : Int := block bn2 relu c 4 4 img2 0 y x
def after (nexts : List (Kind × List Kind)) (groups : Nat) (c : Conv Int) (y x : Nat) : Option Int :=
  (prune true nexts groups [1] bn2 relu c).map fun e => block e.1 relu e.2 4 4 ((preserveIdx 2 [1]).map fun i => img2.getD i (fun _ _ => 0)) 0 y x

end Comp

/-- A corner of the usual padded convolution: the correction counts the kernel positions outside of the image too. -/
theorem C120_padding_false : Dead bn2 [1] img2 ∧ compensates true [(.module "ReLU", [.module "Conv2d"])] 1 = some true ∧
    before (conv3 1) 0 0 = 24 ∧ after [(.module "ReLU", [.module "Conv2d"])] 1 (conv3 1) 0 0 = some 49 := ⟨dead2, by decide +kernel, by decide +kernel, by decide +kernel⟩

/-- An activation with two consumers (a residual connection): the constant is lost, also where nothing is padded. -/
theorem C120_consumers_false : Dead bn2 [1] img2 ∧ (conv3 0).Inside 4 4 0 0 ∧ before (conv3 0) 0 0 = 63 ∧
    after [(.module "ReLU", [.module "Conv2d", .module "Conv2d"])] 1 (conv3 0) 0 0 = some 18 :=
  ⟨dead2, C120_inside _ _ _ _ _ (Or.inr (by decide +kernel)), by decide +kernel, by decide +kernel⟩

/-- An activation that is not in the list, or none at all (a convolution behind the batch norm, then any node): the constant is lost. -/
theorem C120_activation_false : Dead bn2 [1] img2 ∧ (conv3 0).Inside 4 4 0 0 ∧ before (conv3 0) 0 0 = 63 ∧ after [(.module "GELU", [.module "Conv2d"])] 1 (conv3 0) 0 0 = some 18 ∧
    after [(.module "Conv2d", [.module "ReLU"])] 1 (conv3 0) 0 0 = some 18 :=
  ⟨dead2, C120_inside _ _ _ _ _ (Or.inr (by decide +kernel)), by decide +kernel, by decide +kernel, by decide +kernel⟩

/-- `F.relu` between the batch norm and the convolution: pruning raises. -/
theorem C120_function_false : prune true [(.function "relu", [.module "Conv2d"])] 1 [1] bn2 relu (conv3 0) = none := by
  simp only [prune, Option.map_eq_none_iff]
  decide +kernel

/-- The hypotheses are met, and the corrected block agrees. -/
example : Dead bn2 [1] img2 ∧ compensates true [(.module "ReLU", [.module "Conv2d"])] 1 = some true ∧ (conv3 0).Inside 4 4 1 1 ∧ (conv3 1).Inside 4 4 1 1 ∧
    before (conv3 0) 1 1 = 81 ∧ after [(.module "ReLU", [.module "Conv2d"])] 1 (conv3 0) 1 1 = some 81 :=
  ⟨dead2, by decide +kernel, C120_inside _ _ _ _ _ (Or.inr (by decide +kernel)), (by unfold Conv.Inside; decide +kernel), by decide +kernel, by decide +kernel⟩

end Verif.Props
