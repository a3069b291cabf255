import Verif.Model.BiasAbsorb
import Verif.Props.AvgPool
import Mathlib.Algebra.BigOperators.Group.List.Lemmas
import Mathlib.Tactic.Linarith
import Mathlib.Tactic.Ring
import Mathlib.Tactic.NormNum

/-! C56: high bias absorption. -/

namespace Verif.Props
open Verif.Spec Verif.Model Verif.Lemmas

section
variable {K : Type} [Field K] [LinearOrder K] [IsStrictOrderedRing K]

/-- A convolution layer on `channels` input channels: its weight has shape `(O, channels / groups, kh, kw)`, everything per output channel has `O` elements, and the activation
is the identity on numbers that are not negative (ReLU, LeakyReLU, PReLU, identity). -/
structure LayerOk (l : ConvLayer K) (channels : Nat) : Prop where
  shape : l.wt.shape = [l.wt.shape.getD 0 0, l.wt.shape.getD 1 0, l.win.kernel 0, l.win.kernel 1]
  outs : 0 < l.wt.shape.getD 0 0
  groups : 0 < l.groups
  dvd : l.groups ∣ l.wt.shape.getD 0 0
  ins : l.wt.shape.getD 1 0 * l.groups = channels
  bias : l.bias.length = l.wt.shape.getD 0 0
  gamma : l.gamma.length = l.wt.shape.getD 0 0
  beta : l.beta.length = l.wt.shape.getD 0 0
  act : ∀ v, 0 ≤ v → l.act v = v

omit [LinearOrder K] [IsStrictOrderedRing K] in
private theorem sum_split {ι : Type} (L : List ι) (n : Nat) (w X X' : Nat → ι → K) (c : Nat → K) (h : ∀ κ ∈ L, ∀ i < n, X i κ = X' i κ + c i) :
    (L.map (fun κ => ((List.range n).map (fun i => w i κ * X i κ)).sum)).sum =
      (L.map (fun κ => ((List.range n).map (fun i => w i κ * X' i κ)).sum)).sum + ((List.range n).map (fun i => (L.map (w i)).sum * c i)).sum := by
  induction L with
  | nil => simp
  | cons κ L ih =>
    simp only [List.map_cons, List.sum_cons]
    rw [ih (fun κ' h' => h κ' (List.mem_cons_of_mem _ h'))]
    have e1 : ((List.range n).map (fun i => w i κ * X i κ)) = (List.range n).map (fun i => w i κ * X' i κ + w i κ * c i) := by
      refine List.map_congr_left ?_
      intro i hi
      rw [h κ List.mem_cons_self i (List.mem_range.1 hi), mul_add]
    have e2 : ((List.range n).map (fun i => (w i κ + (L.map (w i)).sum) * c i)) = (List.range n).map (fun i => w i κ * c i + (L.map (w i)).sum * c i) := by
      refine List.map_congr_left ?_
      intro i _
      rw [add_mul]
    rw [e1, e2, List.sum_map_add, List.sum_map_add]
    ring

omit [IsStrictOrderedRing K] in
/-- The amount added to the bias of output channel `o` is the response of the layer to the removed constants. -/
private theorem biasCorrect_getD (l : ConvLayer K) (C : Nat) (hl : LayerOk l C) (c corr : List K) (hc : c.length = C) (h : biasCorrect l.wt c = some corr) :
    corr.length = l.wt.shape.getD 0 0 ∧ ∀ o < l.wt.shape.getD 0 0, corr.getD o 0 =
      ((List.range (l.wt.shape.getD 1 0)).map (fun i => reducedWeight l.wt o i * c.getD (o / (l.wt.shape.getD 0 0 / l.groups) * l.wt.shape.getD 1 0 + i) 0)).sum := by
  have hins := hl.ins
  have hout := hl.outs
  have hg := hl.groups
  have hdvd := hl.dvd
  unfold biasCorrect at h
  simp only at h
  generalize hO : l.wt.shape.getD 0 0 = O at *
  generalize hI : l.wt.shape.getD 1 0 = I at *
  split at h
  · next h1 =>
    subst h1
    rw [Nat.one_mul] at hins
    split at h
    · next h2 =>
      cases h
      refine ⟨by simp, ?_⟩
      intro o ho
      rw [getD_range_map _ _ _ _ ho]
      have : O / l.groups = 1 := by rw [hins, ← hc, h2]; exact Nat.div_self hout
      simp [this]
    · split at h
      · next h2 =>
        cases h
        refine ⟨by simp, ?_⟩
        intro o ho
        rw [getD_range_map _ _ _ _ ho]
        have e : l.groups = 1 := by omega
        rw [e, Nat.div_one, Nat.div_eq_of_lt ho]
        simp
      · next h2 h3 =>
        split at h
        · next h4 =>
          subst h4
          have : l.groups = 1 := Nat.dvd_one.1 hdvd
          omega
        · cases h
  · split at h
    · next h2 =>
      cases h
      refine ⟨by simp, ?_⟩
      intro o ho
      rw [getD_range_map _ _ _ _ ho]
      rcases Nat.eq_zero_or_pos I with h0 | h0
      · subst h0; rfl
      · have e : l.groups = 1 := by
          have : I * l.groups = I * 1 := by omega
          exact Nat.eq_of_mul_eq_mul_left h0 this
        rw [e, Nat.div_one, Nat.div_eq_of_lt ho]
        simp
    · cases h

omit [LinearOrder K] [IsStrictOrderedRing K] in
private theorem kernelIdx_congr (k k' : Nat → Nat) (h0 : k 0 = k' 0) (h1 : k 1 = k' 1) : kernelIdx k 2 = kernelIdx k' 2 := by simp [kernelIdx, h0, h1]

omit [IsStrictOrderedRing K] in
/-- Removing a constant from every input channel and adding the correction to the bias does not change the layer. -/
private theorem conv_correct (l : ConvLayer K) (C : Nat) (hl : LayerOk l C) (c corr : List K) (hc : c.length = C) (h : biasCorrect l.wt c = some corr) (s : List Nat) (x x' : Nat → Tensor K)
    (hs : ∀ i, (x i).shape = s) (hs' : ∀ i, (x' i).shape = s) (hr : l.ReadsInside s) (hs2 : s.length = 2)
    (hx : ∀ i < C, ∀ p, InBounds s p → (x i).get p = (x' i).get p + c.getD i 0) (o : Nat) (ho : o < l.wt.shape.getD 0 0) (pos : List Nat) (hp : InBounds l.outShape pos) :
    (l.conv (addList l.bias corr) x' o).get pos = (l.conv l.bias x o).get pos := by
  obtain ⟨hlen, hcorr⟩ := biasCorrect_getD l C hl c corr hc h
  have hb : (addList l.bias corr).getD o 0 = l.bias.getD o 0 + corr.getD o 0 := by
    unfold addList
    have hbl := hl.bias
    rw [getD_eq_getElem _ _ _ (by simp; omega), List.getElem_zipWith, getD_eq_getElem l.bias _ _ (by omega), getD_eq_getElem corr _ _ (by omega)]
  simp only [ConvLayer.conv]
  rw [hb, hcorr o ho]
  have hgr : o / (l.wt.shape.getD 0 0 / l.groups) < l.groups := by
    obtain ⟨m, hm⟩ := hl.dvd
    have hg := hl.groups
    rw [hm, Nat.mul_div_cancel_left _ hg]
    have hm0 : 0 < m := by
      rcases Nat.eq_zero_or_pos m with h | h
      · subst h; have := hl.outs; omega
      · exact h
    rw [Nat.div_lt_iff_lt_mul hm0, ← hm]
    exact ho
  rw [sum_split (kernelIdx l.win.kernel 2) (l.wt.shape.getD 1 0) (fun i κ => l.wt.get (o :: i :: κ))
    (fun i κ => getOr (x (o / (l.wt.shape.getD 0 0 / l.groups) * l.wt.shape.getD 1 0 + i)) 0 (readPos l.win l.pad 2 pos κ))
    (fun i κ => getOr (x' (o / (l.wt.shape.getD 0 0 / l.groups) * l.wt.shape.getD 1 0 + i)) 0 (readPos l.win l.pad 2 pos κ))
    (fun i => c.getD (o / (l.wt.shape.getD 0 0 / l.groups) * l.wt.shape.getD 1 0 + i) 0)]
  · have : ∀ i, ((kernelIdx l.win.kernel 2).map (fun κ => l.wt.get (o :: i :: κ))).sum = reducedWeight l.wt o i := by
      intro i
      unfold reducedWeight
      have h2 : l.wt.shape.getD 2 0 = l.win.kernel 0 := by rw [hl.shape]; rfl
      have h3 : l.wt.shape.getD 3 0 = l.win.kernel 1 := by rw [hl.shape]; rfl
      rw [h2, h3]
      have hp := kernelIdx_perm [l.win.kernel 0, l.win.kernel 1] rfl
      rw [kernelIdx_congr l.win.kernel (fun a => [l.win.kernel 0, l.win.kernel 1].getD a 0) rfl rfl]
      exact (hp.map _).sum_eq
    simp only [this]
    ring
  · intro κ hκ i hi
    have hin := hr pos hp κ hκ
    have hlt : o / (l.wt.shape.getD 0 0 / l.groups) * l.wt.shape.getD 1 0 + i < C := by
      rw [← hl.ins]
      have : (o / (l.wt.shape.getD 0 0 / l.groups) + 1) * l.wt.shape.getD 1 0 ≤ l.groups * l.wt.shape.getD 1 0 := Nat.mul_le_mul_right _ hgr
      rw [Nat.add_mul] at this
      rw [Nat.mul_comm (l.wt.shape.getD 1 0)]
      omega
    simp only [getOr, hs, hs', hin, if_true]
    refine hx _ hlt _ ?_
    rw [inBounds_iff]
    have hlr : (readPos l.win l.pad 2 pos κ).length = 2 := by simp [readPos]
    refine ⟨by simp [hlr, hs2], ?_⟩
    intro a ha
    rw [List.all_eq_true] at hin
    have := hin a (by rw [List.mem_range]; omega)
    rw [decide_eq_true_eq] at this
    rw [getD_map_lt Int.toNat _ _ _ 0 (by omega)]
    omega

omit [IsStrictOrderedRing K] in
private theorem absorbed_length (gamma beta : List K) (n : Nat) (h1 : gamma.length = n) (h2 : beta.length = n) : (absorbed gamma beta).length = n := by
  unfold absorbed; simp [h1, h2]

omit [IsStrictOrderedRing K] in
/-- The absorbed amounts are never negative. -/
theorem absorbed_nonneg (gamma beta : List K) (o : Nat) : 0 ≤ (absorbed gamma beta).getD o 0 := by
  unfold absorbed
  rcases lt_or_ge o (List.zipWith (fun b g => let c := b - 3 * |g|; if c < 0 then 0 else c) beta gamma).length with h | h
  · rw [getD_eq_getElem _ _ _ h, List.getElem_zipWith]
    simp only
    split
    · exact le_refl _
    · next h' => exact not_lt.1 h'
  · simp [List.getD_eq_getElem?_getD, List.getElem?_eq_none h]

omit [IsStrictOrderedRing K] in
private theorem subList_getD (b c : List K) (n o : Nat) (hb : b.length = n) (hc : c.length = n) (ho : o < n) : (subList b c).getD o 0 = b.getD o 0 - c.getD o 0 := by
  unfold subList
  rw [getD_eq_getElem _ _ _ (by simp; omega), List.getElem_zipWith, getD_eq_getElem b _ _ (by omega), getD_eq_getElem c _ _ (by omega)]

/-- What the claim is about: every layer but the first sees its whole window inside its input, and the pre-activations of every layer but the last, computed with the original
biases, stay at or above the amount that is taken away. -/
def StaysAbove : List (ConvLayer K) → (Nat → Tensor K) → Prop
  | pre :: cur :: rest, x =>
    (∀ o < pre.wt.shape.getD 0 0, ∀ pos, InBounds pre.outShape pos → (absorbed pre.gamma pre.beta).getD o 0 ≤ (pre.conv pre.bias x o).get pos) ∧
      pre.outShape.length = 2 ∧ cur.ReadsInside pre.outShape ∧ LayerOk cur (pre.wt.shape.getD 0 0) ∧ StaysAbove (cur :: rest) (pre.run pre.bias x)
  | _, _ => True

/-- The invariant along the chain: `b` is the current bias of the first layer, and with it the layer computes on the new channels what it computed on the original ones. -/
private theorem chain_correct (ls : List (ConvLayer K)) : ∀ (l : ConvLayer K) (C : Nat) (b : List K) (bs : List (List K)) (x x' : Nat → Tensor K), LayerOk l C → b.length = l.wt.shape.getD 0 0 →
    StaysAbove (l :: ls) x → absorbChain b (l :: ls) = some bs →
    (∀ o < l.wt.shape.getD 0 0, ∀ pos, InBounds l.outShape pos → (l.conv b x' o).get pos = (l.conv l.bias x o).get pos) →
    ∀ o < ((l :: ls).getLast (by simp)).wt.shape.getD 0 0, Same (runChain (l :: ls) bs x' o) (runChain (l :: ls) ((l :: ls).map ConvLayer.bias) x o) := by
  induction ls with
  | nil =>
    intro l C b bs x x' hl hb _ h hc o ho
    simp only [absorbChain, Option.some.injEq] at h
    subst h
    simp only [runChain, List.map_cons, List.map_nil]
    refine ⟨rfl, ?_⟩
    intro pos hp
    simp only [ConvLayer.run]
    rw [hc o (by simpa using ho) pos hp]
  | cons m ls ih =>
    intro l C b bs x x' hl hb hs h hc o ho
    simp only [absorbChain, absorbPair, Option.bind_eq_bind, Option.bind_eq_some_iff] at h
    obtain ⟨⟨b', bc⟩, ⟨corr, h1, h2⟩, bs', h3, h4⟩ := h
    simp only [Option.some.injEq, Prod.mk.injEq] at h2 h4
    obtain ⟨rfl, rfl⟩ := h2
    subst h4
    obtain ⟨hab, hsl, hri, hm, hs⟩ := hs
    have hcl := absorbed_length l.gamma l.beta _ hl.gamma hl.beta
    obtain ⟨hcorrl, _⟩ := biasCorrect_getD m _ hm _ corr hcl h1
    have := ih m _ (addList m.bias corr) bs' (l.run l.bias x) (l.run (subList b (absorbed l.gamma l.beta)) x') hm (by unfold addList; simp [hm.bias, hcorrl]) hs h3 ?_ o (by simpa using ho)
    · simpa [runChain] using this
    · intro o' ho' pos hp
      refine conv_correct m _ hm _ corr hcl h1 l.outShape _ _ (fun _ => rfl) (fun _ => rfl) hri hsl ?_ o' ho' pos hp
      intro i hi p hpp
      have hz := hc i hi p hpp
      have hge := hab i hi p hpp
      have h0 := absorbed_nonneg l.gamma l.beta i
      simp only [ConvLayer.run]
      have e : (l.conv (subList b (absorbed l.gamma l.beta)) x' i).get p = (l.conv l.bias x i).get p - (absorbed l.gamma l.beta).getD i 0 := by
        rw [← hz]
        simp only [ConvLayer.conv]
        rw [subList_getD _ _ _ _ hb hcl hi]
        ring
      rw [e, hl.act _ (by linarith), hl.act _ (by linarith)]
      ring

/-- **C56** (for layers that read no padding, ungrouped or depthwise): when the absorption succeeds on a chain of layers, the new biases give the same output for every input for
which the pre-activations stay at or above the absorbed amounts. -/
theorem C56_partial (l : ConvLayer K) (ls : List (ConvLayer K)) (C : Nat) (bs : List (List K)) (x : Nat → Tensor K) (hl : LayerOk l C) (hs : StaysAbove (l :: ls) x)
    (h : absorbChain l.bias (l :: ls) = some bs) (o : Nat) (ho : o < ((l :: ls).getLast (by simp)).wt.shape.getD 0 0) :
    Same (runChain (l :: ls) bs x o) (runChain (l :: ls) ((l :: ls).map ConvLayer.bias) x o) :=
  chain_correct ls l C l.bias bs x x hl hl.bias hs h (fun _ _ _ _ => rfl) o ho

omit [IsStrictOrderedRing K] in
/-- The absorption into a layer succeeds when the layer is not grouped or is depthwise with one output per input channel. -/
theorem C56_defined (b : List K) (pre cur : ConvLayer K) (hp : pre.gamma.length = pre.wt.shape.getD 0 0 ∧ pre.beta.length = pre.wt.shape.getD 0 0)
    (hc : cur.wt.shape.getD 1 0 = pre.wt.shape.getD 0 0 ∨ cur.wt.shape.getD 1 0 = 1 ∧ cur.wt.shape.getD 0 0 = pre.wt.shape.getD 0 0) : (absorbPair b pre cur).isSome = true := by
  have hcl := absorbed_length pre.gamma pre.beta _ hp.1 hp.2
  unfold absorbPair biasCorrect
  simp only [Option.bind_eq_bind]
  rcases hc with h | ⟨h, h'⟩
  · split
    · next h1 =>
      split
      · rfl
      · rw [if_pos (by omega)]; rfl
    · rw [if_pos (by omega)]; rfl
  · rw [if_pos h, if_pos (by omega)]; rfl

omit [IsStrictOrderedRing K] in
/-- The full claim is false: absorbing into a layer with several channels per group and more than one group fails. -/
theorem C56_grouped_false (b : List K) (pre cur : ConvLayer K) (hp : pre.gamma.length = pre.wt.shape.getD 0 0 ∧ pre.beta.length = pre.wt.shape.getD 0 0) (h1 : 1 < cur.wt.shape.getD 1 0)
    (hg : 1 < cur.groups) (hc : cur.wt.shape.getD 1 0 * cur.groups = pre.wt.shape.getD 0 0) : absorbPair b pre cur = none := by
  have hcl := absorbed_length pre.gamma pre.beta _ hp.1 hp.2
  unfold absorbPair biasCorrect
  simp only [Option.bind_eq_bind]
  have : cur.wt.shape.getD 1 0 * 2 ≤ cur.wt.shape.getD 1 0 * cur.groups := Nat.mul_le_mul_left _ hg
  rw [if_neg (by omega), if_neg (by omega)]
  rfl

omit [IsStrictOrderedRing K] in
private theorem groups_chain : ∀ (ls : List (ConvLayer K)) (l : ConvLayer K) (done : List (ConvLayer K)) (b : List K) (bdone : List (List K)), bdone.length = done.length →
    absorbGroups (done ++ l :: ls) (List.range' done.length ls.length) (bdone ++ b :: ls.map ConvLayer.bias) = (absorbChain b (l :: ls)).map (bdone ++ ·)
  | [], l, done, b, bdone, h => by simp [absorbGroups, absorbChain]
  | c :: ls, l, done, b, bdone, h => by
    have hi : (done ++ l :: c :: ls)[done.length]? = some l := by simp
    have hj : (done ++ l :: c :: ls)[done.length + 1]? = some c := by
      rw [List.getElem?_append_right (by omega)]
      simp
    have hb : (bdone ++ b :: (c :: ls).map ConvLayer.bias).getD done.length [] = b := by
      rw [← h]
      simp [List.getD_eq_getElem?_getD]
    rw [List.length_cons, List.range'_succ]
    unfold absorbGroups
    rw [hi, hj, hb]
    simp only
    rw [absorbChain]
    cases hp : absorbPair b l c with
    | none => rfl
    | some p =>
      have hset : ((bdone ++ b :: (c :: ls).map ConvLayer.bias).set done.length p.1).set (done.length + 1) p.2 = (bdone ++ [p.1]) ++ p.2 :: ls.map ConvLayer.bias := by
        rw [← h, List.set_append_right _ _ (le_refl _), List.set_append_right _ _ (by omega)]
        simp
      have ih := groups_chain ls c (done ++ [l]) p.2 (bdone ++ [p.1]) (by simp [h])
      simp only [List.append_assoc, List.singleton_append, List.length_append, List.length_singleton] at ih
      simp only [Option.bind_some, Option.bind_eq_bind]
      rw [hset]
      simp only [List.append_assoc, List.singleton_append]
      rw [ih]
      cases absorbChain p.2 (c :: ls) <;> simp

/-- **C56.** The loop over the groups of a chain, taken in the order of the chain, keeps the function of the whole chain. -/
theorem C56_groups_partial (l : ConvLayer K) (ls : List (ConvLayer K)) (C : Nat) (bs : List (List K)) (x : Nat → Tensor K) (hl : LayerOk l C) (hs : StaysAbove (l :: ls) x)
    (h : absorbGroups (l :: ls) (List.range ls.length) ((l :: ls).map ConvLayer.bias) = some bs) (o : Nat) (ho : o < ((l :: ls).getLast (by simp)).wt.shape.getD 0 0) :
    Same (runChain (l :: ls) bs x o) (runChain (l :: ls) ((l :: ls).map ConvLayer.bias) x o) := by
  refine C56_partial l ls C bs x hl hs ?_ o ho
  have := groups_chain ls l [] l.bias [] rfl
  simp only [List.nil_append, List.length_nil, ← List.range_eq_range'] at this
  rw [List.map_cons, this] at h
  simpa using h

end

private def relu (v : ℚ) : ℚ := if v < 0 then 0 else v
/-- A layer with one channel whose pre-activation is the constant `b`. -/
private def constLayer (b beta : ℚ) (pad : Nat) : ConvLayer ℚ where
  wt := ⟨[1, 1, 1, 1], fun _ => 0⟩
  bias := [b]
  gamma := [0]
  beta := [beta]
  groups := 1
  win := ⟨fun _ => 1, fun _ => 1, fun _ => 1⟩
  pad := fun _ => pad
  outShape := [1, 1]
  act := relu
/-- A layer that copies its only channel. -/
private def copyLayer (pad : Nat) : ConvLayer ℚ := { constLayer 0 0 pad with wt := ⟨[1, 1, 1, 1], fun _ => 1⟩ }
private def input1 : Nat → Tensor ℚ := fun _ => ⟨[1, 1], fun _ => 7⟩

private theorem absorbed_one (b : ℚ) (hb : 0 ≤ b) : absorbed [(0 : ℚ)] [b] = [b] := by
  simp only [absorbed, List.zipWith_cons_cons, List.zipWith_nil_left]
  rw [if_neg (by simp; exact hb)]
  simp

private theorem one_reduced : reducedWeight (⟨[1, 1, 1, 1], fun _ => 1⟩ : Tensor ℚ) 0 0 = 1 := by decide +kernel

private theorem absorb_const (b beta : ℚ) (p q : Nat) (hb : 0 ≤ beta) : absorbChain [b] [constLayer b beta p, copyLayer q] = some [[b - beta], [0 + 1 * beta]] := by
  have e : biasCorrect (copyLayer q).wt (absorbed (constLayer b beta p).gamma (constLayer b beta p).beta) = some [1 * beta] := by
    show biasCorrect (⟨[1, 1, 1, 1], fun _ => 1⟩ : Tensor ℚ) (absorbed [(0 : ℚ)] [beta]) = _
    rw [absorbed_one beta hb]
    show some [reducedWeight (⟨[1, 1, 1, 1], fun _ => 1⟩ : Tensor ℚ) 0 0 * beta] = _
    rw [one_reduced]
  simp only [absorbChain, absorbPair, e, Option.bind_eq_bind, Option.bind_some]
  show some [subList [b] (absorbed [(0 : ℚ)] [beta]), addList [0] [1 * beta]] = _
  rw [absorbed_one beta hb]
  rfl

private theorem const_ok (b beta : ℚ) (p : Nat) : LayerOk (constLayer b beta p) 1 :=
  ⟨rfl, Nat.one_pos, Nat.one_pos, ⟨1, rfl⟩, rfl, rfl, rfl, rfl, fun v hv => if_neg (not_lt.2 hv)⟩

private theorem copy_ok (p : Nat) : LayerOk (copyLayer p) 1 := ⟨rfl, Nat.one_pos, Nat.one_pos, ⟨1, rfl⟩, rfl, rfl, rfl, rfl, fun v hv => if_neg (not_lt.2 hv)⟩

private theorem const_conv (b beta : ℚ) (p : Nat) (b' : ℚ) (x : Nat → Tensor ℚ) (pos : List Nat) : ((constLayer b beta p).conv [b'] x 0).get pos = b' := by
  simp [ConvLayer.conv, constLayer]

/-- What the two layers compute. -/
private theorem run_pair (b beta b1 b2 : ℚ) (p q : Nat) (x : Nat → Tensor ℚ) :
    (runChain [constLayer b beta p, copyLayer q] [[b1], [b2]] x 0).get [0, 0] = relu (b2 + if q = 0 then relu b1 else 0) := by
  show relu (((copyLayer q).conv [b2] ((constLayer b beta p).run [b1] x) 0).get [0, 0]) = _
  congr 1
  have h : ∀ i, ((constLayer b beta p).run [b1] x i) = ⟨[1, 1], fun pos => relu (((constLayer b beta p).conv [b1] x i).get pos)⟩ := fun _ => rfl
  have e : ((copyLayer q).conv [b2] ((constLayer b beta p).run [b1] x) 0).get [0, 0] = b2 + (((0 : ℚ) + (1 * getOr ((constLayer b beta p).run [b1] x 0) 0 [((0 : Nat) : Int) - q, ((0 : Nat) : Int) - q]))) := by
    simp [ConvLayer.conv, copyLayer, constLayer, kernelIdx, readPos, List.range_succ]
  rw [e, h]
  congr 1
  simp only [getOr]
  by_cases hq : q = 0
  · subst hq
    rw [if_pos (by simp [List.range_succ]), if_pos rfl]
    simp only [const_conv]
    ring
  · rw [if_neg (by simp [List.range_succ]; omega), if_neg hq]
    ring

/-- The full claim is false: with padding the border of the second layer changes, although the pre-activation stays above the absorbed amount. -/
theorem C56_padding_false : ∃ (pre cur : ConvLayer ℚ) (bs : List (List ℚ)) (x : Nat → Tensor ℚ), absorbChain pre.bias [pre, cur] = some bs ∧ LayerOk pre 1 ∧ LayerOk cur 1 ∧
    (∀ o < pre.wt.shape.getD 0 0, ∀ pos, InBounds pre.outShape pos → (absorbed pre.gamma pre.beta).getD o 0 ≤ (pre.conv pre.bias x o).get pos) ∧
    (runChain [pre, cur] [pre.bias, cur.bias] x 0).get [0, 0] = 0 ∧ (runChain [pre, cur] bs x 0).get [0, 0] = 1 := by
  refine ⟨constLayer 2 1 0, copyLayer 1, _, input1, absorb_const 2 1 0 1 (by norm_num), const_ok _ _ _, copy_ok _, ?_, ?_, ?_⟩
  · intro o ho pos _
    have : o = 0 := by
      have h : (constLayer 2 1 0).wt.shape.getD 0 0 = 1 := rfl
      omega
    subst this
    show (absorbed [(0 : ℚ)] [1]).getD 0 0 ≤ ((constLayer 2 1 0).conv [2] input1 0).get pos
    rw [const_conv, absorbed_one 1 (by norm_num)]
    norm_num
  · show (runChain [constLayer 2 1 0, copyLayer 1] [[2], [0]] input1 0).get [0, 0] = 0
    rw [run_pair]
    norm_num [relu]
  · rw [run_pair]
    norm_num [relu]

/-- After equalization the batch-norm parameters do not belong to the scaled layer any more: a layer whose pre-activation was the constant `beta = 2` and was halved by the
equalization loses 2, and the output changes for every input. -/
theorem C56_after_equalization_false : ∃ (pre cur : ConvLayer ℚ) (bs : List (List ℚ)), absorbChain pre.bias [pre, cur] = some bs ∧ LayerOk pre 1 ∧ LayerOk cur 1 ∧ pre.beta = [2] ∧ pre.gamma = [0] ∧
    (∀ x pos, (pre.conv pre.bias x 0).get pos = 2 / 2) ∧
    ∀ x, (runChain [pre, cur] [pre.bias, cur.bias] x 0).get [0, 0] = 1 ∧ (runChain [pre, cur] bs x 0).get [0, 0] = 2 := by
  refine ⟨constLayer 1 2 0, copyLayer 0, _, absorb_const 1 2 0 0 (by norm_num), const_ok _ _ _, copy_ok _, rfl, rfl, ?_, ?_⟩
  · intro x pos
    show ((constLayer 1 2 0).conv [1] x 0).get pos = _
    rw [const_conv]
    norm_num
  · intro x
    constructor
    · show (runChain [constLayer 1 2 0, copyLayer 0] [[1], [0]] x 0).get [0, 0] = 1
      rw [run_pair]
      norm_num [relu]
    · rw [run_pair]
      norm_num [relu]

/-- The hypotheses are met by a chain of two layers of which the second takes over 1 of the first one's bias 2. -/
example : ∃ (l : ConvLayer ℚ) (ls : List (ConvLayer ℚ)) (bs : List (List ℚ)) (x : Nat → Tensor ℚ), LayerOk l 1 ∧ StaysAbove (l :: ls) x ∧ absorbChain l.bias (l :: ls) = some bs ∧
    bs ≠ (l :: ls).map ConvLayer.bias := by
  refine ⟨constLayer 2 1 0, [copyLayer 0], _, input1, const_ok _ _ _, ⟨?_, rfl, ?_, copy_ok _, trivial⟩, absorb_const 2 1 0 0 (by norm_num), ?_⟩
  · intro o ho pos _
    have : o = 0 := by
      have h : (constLayer 2 1 0).wt.shape.getD 0 0 = 1 := rfl
      omega
    subst this
    show (absorbed [(0 : ℚ)] [1]).getD 0 0 ≤ ((constLayer 2 1 0).conv [2] input1 0).get pos
    rw [const_conv, absorbed_one 1 (by norm_num)]
    norm_num
  · intro pos hp κ hκ
    have h1 : pos = [0, 0] := by
      cases hp with
      | @cons i _ _ _ hi hp => cases hp with
        | @cons j _ _ _ hj hp =>
          cases hp
          have : i = 0 := by omega
          have : j = 0 := by omega
          subst i j; rfl
    have h2 : κ = [0, 0] := by
      have : kernelIdx (copyLayer 0).win.kernel 2 = [[0, 0]] := by decide
      rw [this] at hκ
      simpa using hκ
    subst h1 h2
    decide
  · show [[(2 : ℚ) - 1], [0 + 1 * 1]] ≠ [[2], [0]]
    norm_num

private theorem step {ls : List (ConvLayer ℚ)} {i : Nat} {is : List Nat} {bs : List (List ℚ)} {pre cur : ConvLayer ℚ} {b : List ℚ} {p : List ℚ × List ℚ} (hi : ls[i]? = some pre)
    (hj : ls[i + 1]? = some cur) (hb : bs.getD i [] = b) (hp : absorbPair b pre cur = some p) : absorbGroups ls (i :: is) bs = absorbGroups ls is ((bs.set i p.1).set (i + 1) p.2) := by
  rw [absorbGroups, hi, hj]
  simp only [hb, hp, Option.bind_some]

private theorem absorb_pair_const (b beta b' : ℚ) (hb : 0 ≤ beta) : absorbPair [b'] (constLayer b beta 0) (constLayer b beta 0) = some ([b' - beta], [b + 0 * beta]) := by
  have z : reducedWeight (⟨[1, 1, 1, 1], fun _ => 0⟩ : Tensor ℚ) 0 0 = 0 := by decide +kernel
  have e : biasCorrect (constLayer b beta 0).wt (absorbed (constLayer b beta 0).gamma (constLayer b beta 0).beta) = some [0 * beta] := by
    show biasCorrect (⟨[1, 1, 1, 1], fun _ => 0⟩ : Tensor ℚ) (absorbed [(0 : ℚ)] [beta]) = _
    rw [absorbed_one beta hb]
    show some [reducedWeight (⟨[1, 1, 1, 1], fun _ => 0⟩ : Tensor ℚ) 0 0 * beta] = _
    rw [z]
  simp only [absorbPair, e, Option.bind_eq_bind, Option.bind_some]
  show some (subList [b'] (absorbed [(0 : ℚ)] [beta]), addList [b] [0 * beta]) = _
  rw [absorbed_one beta hb]
  rfl

private theorem absorb_pair_copy (b beta b' : ℚ) (hb : 0 ≤ beta) : absorbPair [b'] (constLayer b beta 0) (copyLayer 0) = some ([b' - beta], [0 + 1 * beta]) := by
  have e : biasCorrect (copyLayer 0).wt (absorbed (constLayer b beta 0).gamma (constLayer b beta 0).beta) = some [1 * beta] := by
    show biasCorrect (⟨[1, 1, 1, 1], fun _ => 1⟩ : Tensor ℚ) (absorbed [(0 : ℚ)] [beta]) = _
    rw [absorbed_one beta hb]
    show some [reducedWeight (⟨[1, 1, 1, 1], fun _ => 1⟩ : Tensor ℚ) 0 0 * beta] = _
    rw [one_reduced]
  simp only [absorbPair, e, Option.bind_eq_bind, Option.bind_some]
  show some (subList [b'] (absorbed [(0 : ℚ)] [beta]), addList [0] [1 * beta]) = _
  rw [absorbed_one beta hb]
  rfl

/-- In another order the function changes (in the order of the chain, `bs`, it is kept: the hypotheses of `C56_groups_partial` are met): the bias the middle layer gave away to the last one comes back when the first layer is handled after it, and is counted twice. -/
theorem C56_order_false : ∃ (l m n : ConvLayer ℚ) (bs bs' : List (List ℚ)), LayerOk l 1 ∧ LayerOk m 1 ∧ LayerOk n 1 ∧ (∀ x, StaysAbove [l, m, n] x) ∧
    absorbGroups [l, m, n] [0, 1] ([l, m, n].map ConvLayer.bias) = some bs ∧ absorbGroups [l, m, n] [1, 0] ([l, m, n].map ConvLayer.bias) = some bs' ∧
    ∀ x, (runChain [l, m, n] ([l, m, n].map ConvLayer.bias) x 0).get [0, 0] = 2 ∧ (runChain [l, m, n] bs x 0).get [0, 0] = 2 ∧ (runChain [l, m, n] bs' x 0).get [0, 0] = 3 := by
  have above : ∀ x : Nat → Tensor ℚ, ∀ o < (constLayer 2 1 0).wt.shape.getD 0 0, ∀ pos, InBounds (constLayer 2 1 0).outShape pos →
      (absorbed (constLayer 2 1 0).gamma (constLayer 2 1 0).beta).getD o 0 ≤ ((constLayer 2 1 0).conv (constLayer 2 1 0).bias x o).get pos := by
    intro x o ho pos _
    have : o = 0 := by
      have h : (constLayer 2 1 0).wt.shape.getD 0 0 = 1 := rfl
      omega
    subst this
    show (absorbed [(0 : ℚ)] [1]).getD 0 0 ≤ ((constLayer 2 1 0).conv [2] x 0).get pos
    rw [const_conv, absorbed_one 1 (by norm_num)]
    norm_num
  refine ⟨constLayer 2 1 0, constLayer 2 1 0, copyLayer 0, [[2 - 1], [2 + 0 * 1 - 1], [0 + 1 * 1]], [[2 - 1], [2 + 0 * 1], [0 + 1 * 1]], const_ok _ _ _, const_ok _ _ _, copy_ok _, ?_, ?_, ?_, ?_⟩
  · intro x
    refine ⟨above x, rfl, ?_, const_ok _ _ _, above _, rfl, ?_, copy_ok _, trivial⟩ <;>
    · intro pos hp κ hκ
      have h1 : pos = [0, 0] := by
        cases hp with
        | @cons i _ _ _ hi hp => cases hp with
          | @cons j _ _ _ hj hp =>
            cases hp
            have : i = 0 := by omega
            have : j = 0 := by omega
            subst i j; rfl
      have h2 : κ = [0, 0] := by
        have : kernelIdx (copyLayer 0).win.kernel 2 = [[0, 0]] := by decide
        have hκ' : κ ∈ kernelIdx (copyLayer 0).win.kernel 2 := hκ
        rw [this] at hκ'
        simpa using hκ'
      subst h1 h2
      decide
  · rw [step (b := [2]) rfl rfl rfl (absorb_pair_const 2 1 2 (by norm_num)), step (b := [2 + 0 * 1]) rfl rfl rfl (absorb_pair_copy 2 1 _ (by norm_num))]
    rfl
  · rw [step (b := [2]) rfl rfl rfl (absorb_pair_copy 2 1 2 (by norm_num)), step (b := [2]) rfl rfl rfl (absorb_pair_const 2 1 2 (by norm_num))]
    rfl
  · intro x
    have r : ∀ b0 b1 b2 : ℚ, (runChain [constLayer 2 1 0, constLayer 2 1 0, copyLayer 0] [[b0], [b1], [b2]] x 0).get [0, 0] = relu (b2 + relu b1) := fun b0 b1 b2 => by
      have := run_pair 2 1 b1 b2 0 0 ((constLayer 2 1 0).run [b0] x)
      rw [if_pos rfl] at this
      exact this
    refine ⟨(r 2 2 0).trans ?_, (r _ _ _).trans ?_, (r _ _ _).trans ?_⟩ <;> norm_num [relu]

end Verif.Props
