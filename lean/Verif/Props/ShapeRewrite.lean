import Verif.Model.ShapeRewrite
import Verif.Lemmas.Squeeze
import Verif.Lemmas.Bcast
import Verif.Props.AvgPool

/-! C89: changing the form of a layer before quantization does not change what it computes. -/

namespace Verif.Props
open Verif.Spec Verif.Model Verif.Model.ShapeRewrite Verif.Lemmas

/-! ### Pooling with kernel 1 -/

private theorem kernelIdx_one (k : Nat → Nat) (n : Nat) (h : ∀ a < n, k a = 1) : kernelIdx k n = [List.replicate n 0] := by
  induction n with
  | zero => rfl
  | succ n ih => rw [kernelIdx, ih (fun a ha => h a (by omega)), h n (by omega)]; simp [List.replicate_succ']

private theorem poolOut_one (ceil : Bool) (i s : Nat) (hi : 0 < i) (hs : 0 < s) : torchPoolOut ceil i 1 s 0 = (i + (s - 1)) / s := by
  obtain ⟨j, rfl⟩ : ∃ j, i = j + 1 := ⟨i - 1, by omega⟩
  have e : j + 1 + (s - 1) = j + s := by omega
  have floor : (j + 1 + (s - 1)) / s = j / s + 1 := by rw [e, Nat.add_div_right _ hs]
  rw [floor]
  cases ceil with
  | false => simp [torchPoolOut]
  | true =>
    have hm := Nat.div_add_mod j s
    have hlt := Nat.mod_lt j hs
    set q := j / s
    set r := j % s
    have hj : j = q * s + r := by rw [Nat.mul_comm]; omega
    simp only [torchPoolOut, if_true, Bool.true_and, Nat.mul_zero, Nat.add_zero, Nat.add_sub_cancel]
    by_cases h0 : r = 0
    · have : (j + (s - 1)) / s = q := by
        rw [hj, h0]; rw [Nat.div_eq_iff hs]; constructor
        · omega
        · omega
      rw [this]; simp only [Nat.add_sub_cancel, decide_eq_true_eq]; rw [if_neg (by omega)]
    · have : (j + (s - 1)) / s = q + 1 := by
        rw [hj, Nat.div_eq_iff hs, Nat.add_mul]; omega
      rw [this]; simp only [Nat.add_sub_cancel, decide_eq_true_eq, Nat.add_mul, Nat.one_mul]; rw [if_pos (by omega)]

/-- A pooling with kernel 1 and no padding reads one position per output. -/
private theorem window_one {R : Type} (w : Window) (pad : Nat → Nat) (x : Tensor R) (o : List Nat) (hk : ∀ a < x.shape.length, w.kernel a = 1) (hp : ∀ a < x.shape.length, pad a = 0) :
    (kernelIdx w.kernel x.shape.length).map (fun κ => readPos w pad x.shape.length o κ) =
      [(List.range x.shape.length).map (fun a => ((o.getD a 0 * w.stride a : Nat) : Int))] := by
  rw [kernelIdx_one _ _ hk]
  simp only [List.map_cons, List.map_nil, readPos, List.cons.injEq, and_true]
  refine List.map_congr_left (fun a ha => ?_)
  have ha' : a < x.shape.length := by simpa using ha
  have hz : (List.replicate x.shape.length 0).getD a 0 = 0 := by rw [List.getD_eq_getElem?_getD, List.getElem?_replicate]; split <;> rfl
  rw [hz, hp a ha']; simp

private theorem replicate_of_all {l : List Nat} (h : ∀ n ∈ l, n = 1) (a : Nat) : l.getD a 1 = 1 := by
  rw [List.getD_eq_getElem?_getD]
  cases e : l[a]? with
  | none => rfl
  | some v => exact h v (List.mem_of_getElem? e)

private theorem ones_sizes {kernel : SizeArg} {d : Nat} {k : List Nat} (hk : kernelIsOne kernel = true) (h : kernel.sizes d none = some k) : ∀ n ∈ k, n = 1 := by
  cases kernel with
  | missing => simp [kernelIsOne] at hk
  | int n =>
    simp only [kernelIsOne, beq_iff_eq] at hk; simp only [SizeArg.sizes, Option.some.injEq] at h
    subst h; intro m hm; rw [(List.mem_replicate.1 hm).2, hk]
  | list l =>
    simp only [kernelIsOne, List.all_eq_true, beq_iff_eq] at hk
    match l, hk, h with
    | [], _, h => simp [SizeArg.sizes] at h
    | [n], hk, h =>
      simp only [SizeArg.sizes, Option.some.injEq] at h; subst h
      intro m hm; rw [(List.mem_replicate.1 hm).2]; exact hk n (by simp)
    | n :: m :: l, hk, h =>
      simp only [SizeArg.sizes] at h
      split at h
      · cases h; exact hk
      · cases h

/-- Strides whose number the rewriting gets right: one integer, none, or as many as there are axes. -/
def StrideOk (d : Nat) : SizeArg → Prop
  | .list l => l = [] ∨ l.length = d
  | _ => True

private theorem kernel_length {kernel : SizeArg} {d : Nat} {dflt : Option (List Nat)} {k : List Nat} (hd : ∀ l, dflt = some l → l.length = d) (h : kernel.sizes d dflt = some k) : k.length = d := by
  cases kernel with
  | missing => exact hd k h
  | int n => simp only [SizeArg.sizes, Option.some.injEq] at h; subst h; simp
  | list l =>
    match l, h with
    | [], h => exact hd k h
    | [n], h => simp only [SizeArg.sizes, Option.some.injEq] at h; subst h; simp
    | n :: m :: l, h =>
      simp only [SizeArg.sizes] at h
      split at h
      · next e => cases h; exact e
      · cases h

private theorem slices_stride {stride : SizeArg} {d : Nat} {k s : List Nat} (hk : ∀ n ∈ k, n = 1) (hkl : k.length = d) (hs : stride.sizes d (some k) = some s) (hok : StrideOk d stride) :
    s.length = d ∧ (poolSlices (d + 2) stride).length ≤ d + 2 ∧
    ∀ a < d + 2, ((poolSlices (d + 2) stride).getD a none).getD 1 = if a + d < d + 2 then 1 else s.getD (a + d - (d + 2)) 1 := by
  have hsl : s.length = d := kernel_length (fun l hl => by cases hl; exact hkl) hs
  have fin : ∀ ss : List (Option Nat), (∀ a, (ss.getD a none).getD 1 = s.getD a 1) → ∀ a,
      ((([none, none] : List (Option Nat)) ++ ss.map (fun v => if v = some 1 ∨ v = none then none else v)).getD a none).getD 1 = if a + d < d + 2 then 1 else s.getD (a + d - (d + 2)) 1 := by
    intro ss hss a
    match a with
    | 0 => rw [if_pos (by omega)]; rfl
    | 1 => rw [if_pos (by omega)]; rfl
    | a + 2 =>
      rw [if_neg (by omega), show a + 2 + d - (d + 2) = a by omega, ← hss a]
      simp only [List.cons_append, List.nil_append, List.getD_eq_getElem?_getD, List.getElem?_cons_succ, List.getElem?_map]
      cases ss[a]? with
      | none => rfl
      | some v => cases v with
        | none => simp
        | some n => by_cases h : n = 1 <;> simp [h]
  refine ⟨hsl, ?_, ?_⟩
  · cases stride with
    | missing => simp [poolSlices]
    | int n => simp [poolSlices]
    | list l => rcases hok with h | h <;> simp [poolSlices, h]
  · intro a ha
    cases stride with
    | missing =>
      simp only [SizeArg.sizes, Option.some.injEq] at hs; subst hs
      refine fin _ (fun b => ?_) a
      rw [replicate_of_all hk, List.getD_eq_getElem?_getD, List.getElem?_replicate]; split <;> rfl
    | int n =>
      simp only [SizeArg.sizes, Option.some.injEq] at hs; subst hs
      refine fin _ (fun b => ?_) a
      simp only [List.getD_eq_getElem?_getD, List.getElem?_replicate, Nat.add_sub_cancel]; split <;> rfl
    | list l =>
      have : (l = [] ∧ s = k) ∨ l = s := by
        match l, hs, hok with
        | [], hs, _ => left; simp only [SizeArg.sizes, Option.some.injEq] at hs; exact ⟨rfl, hs.symm⟩
        | [n], hs, hok =>
          right; simp only [SizeArg.sizes, Option.some.injEq] at hs
          rcases hok with h | h
          · cases h
          · rw [← hs, ← h]; rfl
        | n :: m :: l, hs, _ =>
          right; simp only [SizeArg.sizes] at hs
          split at hs
          · cases hs; rfl
          · cases hs
      refine fin _ (fun b => ?_) a
      rcases this with ⟨rfl, rfl⟩ | rfl
      · rw [replicate_of_all hk]; simp
      · simp only [List.getD_eq_getElem?_getD, List.getElem?_map]; cases l[b]? <;> rfl

private theorem poolSizes_one {d : Nat} {kernel stride padding dilation : SizeArg} {k s p l : List Nat} (hk : kernelIsOne kernel = true)
    (h : poolSizes d kernel stride padding dilation = some (k, s, p, l)) :
    (∀ n ∈ k, n = 1) ∧ k.length = d ∧ stride.sizes d (some k) = some s ∧ (∀ n ∈ s, 0 < n) ∧ p.length = d ∧ ∀ a, p.getD a 0 = 0 := by
  unfold poolSizes at h
  cases hk' : kernel.sizes d none with
  | none => simp [hk'] at h
  | some k' =>
    rw [hk'] at h
    have h1 := ones_sizes hk hk'
    have h2 : k'.length = d := kernel_length (fun l hl => by cases hl) hk'
    cases hs : stride.sizes d (some k') with
    | none => simp [hs] at h
    | some s' => cases hp : padding.sizes d (some (List.replicate d 0)) with
      | none => simp [hs, hp] at h
      | some p' => cases hl : dilation.sizes d (some (List.replicate d 1)) with
        | none => simp [hs, hp, hl] at h
        | some l' =>
          have h3 : p'.length = d := kernel_length (fun l hl => by cases hl; simp) hp
          simp only [hs, hp, hl] at h
          split at h
          · next hc =>
            cases h
            refine ⟨h1, h2, hs, hc.1, h3, fun a => ?_⟩
            by_cases ha : a < d
            · have := hc.2 a ha
              have e : k.getD a 0 = 1 := by
                rw [List.getD_eq_getElem?_getD, List.getElem?_eq_getElem (by omega)]; exact h1 _ (List.getElem_mem _)
              omega
            · rw [List.getD_eq_getElem?_getD, List.getElem?_eq_none (by omega)]; rfl
          · cases h

/-- The value of the slicing, and what the pooling's window reads. -/
private theorem pool_core {R : Type} {d : Nat} {kernel stride padding dilation : SizeArg} {k s p l : List Nat} (hk : kernelIsOne kernel = true)
    (h : poolSizes d kernel stride padding dilation = some (k, s, p, l)) (hok : StrideOk d stride) (x : Tensor R) (hr : x.shape.length = d + 2) (hpos : ∀ n ∈ x.shape, 0 < n) :
    ∃ r, stepSlices (poolSlices x.shape.length stride) x = some r ∧
      (∀ ceil, r.shape = (List.range x.shape.length).map (fun a => torchPoolOut ceil (x.shape.getD a 0) ((tailWindow x.shape.length k s l).kernel a) ((tailWindow x.shape.length k s l).stride a) (tailPad x.shape.length p a))) ∧
      ∀ idx, InBounds r.shape idx → ∃ pos, (kernelIdx (tailWindow x.shape.length k s l).kernel x.shape.length).map (fun κ => readPos (tailWindow x.shape.length k s l) (tailPad x.shape.length p) x.shape.length idx κ) = [pos] ∧
        inside x pos = true ∧ x.get (pos.map Int.toNat) = r.get idx := by
  obtain ⟨h1, h2, h3, h4, h5, h6⟩ := poolSizes_one hk h
  obtain ⟨s1, s2, s3⟩ := slices_stride h1 h2 h3 hok
  have hker : ∀ a, (tailWindow x.shape.length k s l).kernel a = 1 := by
    intro a; simp only [tailWindow]; split
    · rfl
    · exact replicate_of_all h1 _
  have hpad : ∀ a, tailPad x.shape.length p a = 0 := by
    intro a; simp only [tailPad]; split
    · rfl
    · exact h6 _
  have hstr : ∀ a < x.shape.length, ((poolSlices x.shape.length stride).getD a none).getD 1 = (tailWindow x.shape.length k s l).stride a := by
    intro a ha; rw [hr] at ha ⊢; rw [s3 a ha]; simp only [tailWindow, s1]
  have hspos : ∀ a, 0 < (tailWindow x.shape.length k s l).stride a := by
    intro a; simp only [tailWindow]; split
    · omega
    · rw [List.getD_eq_getElem?_getD]
      cases e : s[a + s.length - x.shape.length]? with
      | none => simp
      | some v => exact h4 v (List.mem_of_getElem? e)
  have hx : ∀ a < x.shape.length, 0 < x.shape.getD a 0 := by
    intro a ha; rw [List.getD_eq_getElem?_getD, List.getElem?_eq_getElem ha]; exact hpos _ (List.getElem_mem _)
  refine ⟨_, by rw [stepSlices, if_pos (by rw [hr]; exact s2)], fun ceil => ?_, fun idx hidx => ?_⟩
  · refine List.map_congr_left (fun a ha => ?_)
    have ha' : a < x.shape.length := by simpa using ha
    rw [hker, hpad, poolOut_one ceil _ _ (hx a ha') (hspos a), hstr a ha']
  · refine ⟨_, window_one _ _ x idx (fun a _ => hker a) (fun a _ => hpad a), ?_, ?_⟩
    · unfold inside
      rw [List.all_eq_true]
      intro a ha
      have ha' : a < x.shape.length := by simpa using ha
      rw [decide_eq_true_eq, getD_range_map _ _ _ _ ha']
      rw [inBounds_iff] at hidx
      have hb := hidx.2 a (by simpa using ha')
      rw [getD_range_map _ _ _ _ ha', hstr a ha'] at hb
      have hs0 := hspos a
      generalize (tailWindow x.shape.length k s l).stride a = t at *
      rw [Nat.lt_div_iff_mul_lt hs0] at hb
      refine ⟨by positivity, ?_⟩
      have : idx.getD a 0 * t < x.shape.getD a 0 := by have := hx a ha'; have e := Nat.mul_comm (idx.getD a 0) t; omega
      exact_mod_cast this
    · simp only [List.map_map]
      congr 1
      refine List.map_congr_left (fun a ha => ?_)
      have ha' : a < x.shape.length := by simpa using ha
      simp only [Function.comp, Int.toNat_natCast]
      rw [hstr a ha']

/-- **C89, max pooling with kernel 1.**  On a batch, with one integer as stride, none, or one per axis, the slices are what the pooling returns, whatever its padding, dilation and
`ceil_mode`.  `lowest` is the least number of the element type.  Missing: single samples and a list of one stride for two axes (see the two counterexamples). -/
theorem C89_max_pool_partial {R : Type} [LinearOrder R] (d : Nat) (kernel stride padding dilation : SizeArg) (ceil : Bool) (lowest : R) (x y : Tensor R)
    (hok : StrideOk d stride) (hr : x.shape.length = d + 2) (hpos : ∀ n ∈ x.shape, 0 < n) (hlow : ∀ idx, lowest ≤ x.get idx)
    (h : maxPoolNd d kernel stride padding dilation ceil lowest x = some y) :
    ∃ r, rewritePool kernel stride (maxPoolNd d kernel stride padding dilation ceil lowest) x = some r ∧ Same r y := by
  unfold rewritePool
  by_cases hk : kernelIsOne kernel = true
  · rw [if_pos hk]
    unfold maxPoolNd at h
    cases hps : poolSizes d kernel stride padding dilation with
    | none => simp [hps] at h
    | some q =>
      obtain ⟨k, s, p, l⟩ := q
      simp only [hps] at h
      rw [if_pos (Or.inr hr)] at h
      cases h
      obtain ⟨r, r1, r2, r3⟩ := pool_core hk hps hok x hr hpos
      refine ⟨r, r1, r2 ceil, fun idx hidx => ?_⟩
      obtain ⟨pos, q1, q2, q3⟩ := r3 idx hidx
      simp only [maxPoolTorch]
      rw [q1]
      simp only [List.filter_cons, q2, if_true, List.filter_nil, List.map_cons, List.map_nil, List.foldl_cons, List.foldl_nil]
      rw [max_eq_right (hlow _), q3]
  · rw [if_neg hk]; exact ⟨y, h, Same.refl y⟩

/-- **C89, average pooling with kernel 1.**  Missing in addition: a `divisor_override`. -/
theorem C89_avg_pool_partial (d : Nat) (kernel stride padding : SizeArg) (ceil includePad : Bool) (x y : Tensor ℚ)
    (hok : StrideOk d stride) (hr : x.shape.length = d + 2) (hpos : ∀ n ∈ x.shape, 0 < n) (h : avgPoolNd d kernel stride padding ceil includePad none x = some y) :
    ∃ r, rewritePool kernel stride (avgPoolNd d kernel stride padding ceil includePad none) x = some r ∧ Same r y := by
  unfold rewritePool
  by_cases hk : kernelIsOne kernel = true
  · rw [if_pos hk]
    unfold avgPoolNd at h
    cases hps : poolSizes d kernel stride padding .missing with
    | none => simp [hps] at h
    | some q =>
      obtain ⟨k, s, p, l⟩ := q
      simp only [hps] at h
      rw [if_pos (Or.inr hr)] at h
      cases h
      obtain ⟨r, r1, r2, r3⟩ := pool_core hk hps hok x hr hpos
      refine ⟨r, r1, r2 ceil, fun idx hidx => ?_⟩
      obtain ⟨pos, q1, q2, q3⟩ := r3 idx hidx
      have q4 : insidePadded x (tailPad x.shape.length p) pos = true := by
        unfold inside at q2; unfold insidePadded
        rw [List.all_eq_true] at q2 ⊢
        intro a ha
        have := q2 a ha
        rw [decide_eq_true_eq] at this ⊢
        omega
      simp only [avgPoolTorch]
      rw [q1]
      simp only [List.filter_cons, q2, q4, if_true, List.filter_nil, List.map_cons, List.map_nil, List.sum_cons, List.sum_nil, q3, List.length_cons, List.length_nil]
      cases includePad <;> simp
  · rw [if_neg hk]; exact ⟨y, h, Same.refl y⟩

/-- A batch of images of four by four numbers. -/
def poolBatch : Tensor ℚ := ⟨[1, 1, 4, 4], fun idx => idx.getD 2 0 * 4 + idx.getD 3 0⟩

example : StrideOk 2 (.list [2, 3]) ∧ poolBatch.shape.length = 2 + 2 ∧ (∀ n ∈ poolBatch.shape, 0 < n) ∧
    (∃ y, maxPoolNd 2 (.int 1) (.list [2, 3]) (.int 0) (.int 3) true (-1) poolBatch = some y ∧ y.shape = [1, 1, 2, 2] ∧ y.get [0, 0, 1, 1] = 11) ∧
    (∃ y, avgPoolNd 2 (.list [1, 1]) (.int 3) .missing true false none poolBatch = some y ∧ y.shape = [1, 1, 2, 2]) ∧
    (∃ r, rewritePool (.int 1) (.list [2, 3]) (maxPoolNd 2 (.int 1) (.list [2, 3]) (.int 0) (.int 3) true (-1)) poolBatch = some r ∧ r.shape = [1, 1, 2, 2] ∧ r.get [0, 0, 1, 1] = 11) := by
  refine ⟨Or.inr rfl, rfl, by decide, ⟨_, rfl, by decide, by decide +kernel⟩, ⟨_, rfl, by decide⟩, ⟨_, rfl, by decide, by decide +kernel⟩⟩

/-- A single sample without a batch axis is strided along its last axis only. -/
theorem C89_single_sample_false : ∃ (x y r : Tensor ℚ), maxPoolNd 2 (.int 1) (.int 2) .missing .missing false 0 x = some y ∧
    rewritePool (.int 1) (.int 2) (maxPoolNd 2 (.int 1) (.int 2) .missing .missing false 0) x = some r ∧ y.shape = [1, 2, 2] ∧ r.shape = [1, 4, 2] :=
  ⟨⟨[1, 4, 4], fun _ => 1⟩, _, _, rfl, rfl, by decide, by decide⟩

/-- A list of one stride holds for both axes, the rewriting uses it for the first. -/
theorem C89_single_stride_false : ∃ (y r : Tensor ℚ), avgPoolNd 2 (.int 1) (.list [2]) .missing false true none poolBatch = some y ∧
    rewritePool (.int 1) (.list [2]) (avgPoolNd 2 (.int 1) (.list [2]) .missing false true none) poolBatch = some r ∧ y.shape = [1, 1, 2, 2] ∧ r.shape = [1, 1, 2, 4] :=
  ⟨_, _, rfl, rfl, by decide, by decide⟩

/-- A `divisor_override` is lost. -/
theorem C89_divisor_false : ∃ (y r : Tensor ℚ), avgPoolNd 2 (.int 1) (.int 1) .missing false true (some 2) poolBatch = some y ∧
    rewritePool (.int 1) (.int 1) (avgPoolNd 2 (.int 1) (.int 1) .missing false true (some 2)) poolBatch = some r ∧ InBounds y.shape [0, 0, 1, 0] ∧
    y.get [0, 0, 1, 0] = 2 ∧ r.get [0, 0, 1, 0] = 4 :=
  ⟨_, _, rfl, rfl, by rw [inBounds_iff]; decide, by decide +kernel, by decide +kernel⟩

/-! ### Batch norm -/

variable {K : Type} [Field K]

private theorem unflat_insert (s : List Nat) (a k : Nat) (ha : a ≤ s.length) (hk : k < s.prod) : unflat (s.insertIdx a 1) k = (unflat s k).insertIdx a 0 := by
  have h1 := unflat_inBounds hk
  have h2 := inBounds_insert a 1 0 ha h1 (by omega)
  have h3 := flat_insert_one s (unflat s k) a (unflat_length s k)
  rw [flat_unflat hk] at h3
  conv_lhs => rw [← h3]
  exact unflat_flat h2

private theorem allIndices_insert (s : List Nat) (a : Nat) (ha : a ≤ s.length) : allIndices (s.insertIdx a 1) = (allIndices s).map (fun idx => idx.insertIdx a 0) := by
  unfold allIndices
  rw [prod_insert_one, List.map_map]
  exact List.map_congr_left (fun k hk => unflat_insert s a k ha (by simpa using hk))

/-- `y'` is `y` with an axis of size 1 put in at `a`. -/
def Widened {α : Type} (a : Nat) (y y' : Tensor α) : Prop :=
  a ≤ y.shape.length ∧ y'.shape = y.shape.insertIdx a 1 ∧ ∀ idx, InBounds y.shape idx → y'.get (idx.insertIdx a 0) = y.get idx

private theorem insert_getD_lt (l : List Nat) (a v j : Nat) (hj : j < a) (ha : a ≤ l.length) : (l.insertIdx a v).getD j 0 = l.getD j 0 := by
  rw [insert_getD ha, if_pos hj]

private theorem widened_elems {a : Nat} {y y' : Tensor K} (h : Widened a y y') (ha : 2 ≤ a) (c : Nat) : channelElems y' c = channelElems y c := by
  unfold channelElems
  rw [h.2.1, allIndices_insert _ _ h.1, List.filter_map, List.map_map]
  have hmem : ∀ j ∈ allIndices y.shape, InBounds y.shape j := fun j hj => (allIndices_mem_iff _ _).1 hj
  have hf : (allIndices y.shape).filter ((fun j : List Nat => decide (j.getD 1 0 = c)) ∘ fun idx => idx.insertIdx a 0) = (allIndices y.shape).filter (fun j => decide (j.getD 1 0 = c)) := by
    refine List.filter_congr (fun j hj => ?_)
    have hl := inBounds_length (hmem j hj)
    simp only [Function.comp]
    rw [insert_getD_lt j a 0 1 (by omega) (by rw [hl]; exact h.1)]
  rw [hf]
  refine List.map_congr_left (fun j hj => ?_)
  exact h.2.2 j (hmem j (List.mem_filter.1 hj).1)

private theorem widened_stats {a : Nat} {y y' : Tensor K} (h : Widened a y y') (ha : 2 ≤ a) (bn : BatchNorm K) (t : Bool) (c : Nat) : bn.stats t y' c = bn.stats t y c := by
  unfold BatchNorm.stats
  rw [widened_elems h ha]

private theorem widened_out {a : Nat} {y y' : Tensor K} (h : Widened a y y') (ha : 2 ≤ a) (sqrt : K → K) (bn : BatchNorm K) (t : Bool) : Widened a (bn.out sqrt t y) (bn.out sqrt t y') := by
  refine ⟨h.1, h.2.1, fun idx hidx => ?_⟩
  have hl := inBounds_length hidx
  have hb : InBounds y.shape idx := hidx
  have ha' := h.1
  simp only [BatchNorm.out]
  rw [insert_getD_lt idx a 0 1 (by omega) (by rw [hl]; exact ha'), widened_stats h ha, h.2.2 idx hb]

private theorem widened_step {a : Nat} {y y' : Tensor K} (h : Widened a y y') (ha : 2 ≤ a) (bn : BatchNorm K) (t : Bool) : bn.step t y' = bn.step t y := by
  unfold BatchNorm.step
  simp only [widened_elems h ha]

private theorem widened_unsqueeze {α : Type} (a : Nat) (y : Tensor α) (ha : a ≤ y.shape.length) : Widened a y (unsqueezeAt a y) := by
  refine ⟨ha, rfl, fun idx hidx => ?_⟩
  simp only [unsqueezeAt]
  rw [List.eraseIdx_insertIdx_self]

private theorem widened_size {α : Type} {a : Nat} {y y' : Tensor α} (h : Widened a y y') (ha : 2 ≤ a) : y'.size 1 = y.size 1 := by
  unfold Tensor.size
  rw [h.2.1, insert_getD_lt _ a 1 1 (by omega) h.1]

/-- **C89, batch norm.**  `BatchNorm1d` on a batch of sequences equals `BatchNorm2d` between `unsqueeze(2)` and `squeeze(2)`: same output and same new running statistics, in training
and in evaluation.  Missing: inputs with two axes (see C89_batch_norm_matrix_false). -/
theorem C89_batch_norm_partial (sqrt : K → K) (bn : BatchNorm K) (training : Bool) (x y : Tensor K) (st : Option (List K × List K)) (hr : x.shape.length = 3)
    (h : bn.run sqrt [2, 3] training x = some (y, st)) : ∃ r, rewriteBn1d sqrt bn training x = some (r, st) ∧ Same r y := by
  unfold BatchNorm.run at h
  split at h
  · next hc =>
    cases h
    have hw := widened_unsqueeze 2 x (by omega)
    have hlen : (unsqueezeAt 2 x).shape.length = 4 := by
      simp only [unsqueezeAt]; rw [List.length_insertIdx_of_le_length (by omega), hr]
    refine ⟨squeezeAt 2 ((bn2dOf bn).out sqrt training (unsqueezeAt 2 x)), ?_, ?_⟩
    · unfold rewriteBn1d BatchNorm.run
      rw [if_pos ⟨by simp [hlen], by rw [widened_size hw (by omega)]; exact hc.2⟩]
      simp only [Option.map_some]
      rw [widened_step hw (by omega)]
      rfl
    · have ho := widened_out hw (by omega) sqrt (bn2dOf bn) training
      have hsh : ((bn2dOf bn).out sqrt training (unsqueezeAt 2 x)).shape = x.shape.insertIdx 2 1 := rfl
      have h1 : ((bn2dOf bn).out sqrt training (unsqueezeAt 2 x)).shape[2]? = some 1 := by
        rw [hsh, List.getElem?_insertIdx_self]; rw [if_pos (by omega)]
      unfold squeezeAt
      rw [if_pos h1]
      refine ⟨by simp only [hsh, List.eraseIdx_insertIdx_self]; rfl, fun idx hidx => ?_⟩
      simp only [hsh, List.eraseIdx_insertIdx_self] at hidx
      exact ho.2.2 idx hidx
  · cases h

/-- A batch of vectors: `BatchNorm2d` rejects the result of `unsqueeze(2)`. -/
theorem C89_batch_norm_matrix_false (sqrt : K → K) : ∃ (bn : BatchNorm K) (x y : Tensor K), bn.run sqrt [2, 3] false x = some (y, none) ∧ rewriteBn1d sqrt bn false x = none := by
  refine ⟨⟨3, 1, 1, none, none⟩, ⟨[2, 3], fun _ => 1⟩, _, rfl, ?_⟩
  simp [rewriteBn1d, BatchNorm.run, unsqueezeAt]

example (sqrt : K → K) : ∃ (bn : BatchNorm K) (x y : Tensor K) (st : Option (List K × List K)), x.shape.length = 3 ∧ bn.run sqrt [2, 3] true x = some (y, st) ∧ y.shape = [2, 3, 5] ∧ st.isSome :=
  ⟨⟨3, 1, 1, some ([1, 2, 3], [0, 1, 0]), some ([0, 0, 0], [1, 1, 1])⟩, ⟨[2, 3, 5], fun idx => (idx.getD 2 0 : K)⟩, _, _, rfl, rfl, rfl, rfl⟩

private theorem conv_linear (w : Tensor K) (b : Option (List K)) (x : Tensor K) (hw : w.shape = [w.size 0, w.size 1]) (hx : x.shape = [x.size 0, w.size 1]) :
    Widened 3 (unsqueezeAt 2 (linear2 w b x)) (torchConv2d ⟨1, 0, 1⟩ ⟨1, 0, 1⟩ 1 (unsqueezeAt 3 (unsqueezeAt 2 x)) (convWeight w) b) := by
  set N := x.size 0 with hN
  set I := w.size 1 with hI
  set O := w.size 0 with hO
  have hxs : (unsqueezeAt 3 (unsqueezeAt 2 x)).shape = [N, I, 1, 1] := by simp [unsqueezeAt, hx]
  have hws : (convWeight w).shape = [O, I, 1, 1] := by simp [convWeight, reshape, hO, hI]
  have hls : (unsqueezeAt 2 (linear2 w b x)).shape = [N, O, 1] := by simp [unsqueezeAt, linear2, hN, hO]
  refine ⟨by simp [hls], ?_, ?_⟩
  · rw [hls]; simp [torchConv2d, Tensor.size, hxs, hws, ConvAxis.out]
  · intro idx hidx
    rw [hls] at hidx
    match idx, hidx with
    | [n, o, z], hidx =>
      simp only [InBounds, List.forall₂_cons, List.forall₂_nil_right_iff, and_true] at hidx
      obtain ⟨hn, ho, hz⟩ := hidx
      have hz0 : z = 0 := by omega
      subst hz0
      simp only [torchConv2d, Tensor.size, hxs, hws, unsqueezeAt, linear2]
      simp only [List.insertIdx_succ_cons, List.insertIdx_zero, List.getD_cons_succ, List.getD_cons_zero, List.range_one, List.map_cons, List.map_nil, List.sum_cons, List.sum_nil, add_zero,
        ConvAxis.src, List.eraseIdx_cons_succ, List.eraseIdx_cons_zero]
      rw [add_comm]
      congr 1
      have hI' : w.shape.getD 1 0 = I := rfl
      rw [hI']
      congr 1
      refine List.map_congr_left (fun i hi => ?_)
      have hi' : i < I := by simpa using hi
      congr 1
      · simp only [convWeight, reshape]
        have : flat [w.size 0, w.size 1, 1, 1] [o, i, 0, 0] = flat w.shape [o, i] := by rw [hw]; simp [flat, ← hI]
        rw [this, unflat_flat]
        rw [hw]; exact List.Forall₂.cons ho (List.Forall₂.cons hi' List.Forall₂.nil)
      · have hdiv : o / (O / 1) * I + i = i := by rw [Nat.div_one, Nat.div_eq_of_lt ho]; simp
        simp only [getOr, hdiv]
        have hxs' : ((x.shape.insertIdx 2 1).insertIdx 3 1) = [N, I, 1, 1] := hxs
        rw [hxs', if_pos]
        · simp
        · rw [List.all_eq_true]
          intro a ha
          have ha' : a < 4 := by simpa using ha
          rw [decide_eq_true_eq]
          interval_cases a <;> simp <;> omega

/-- **C89, fully connected layer and batch norm.**  A `Linear` followed by a `BatchNorm1d`, on a matrix, equals the 1x1 convolution followed by `BatchNorm2d` that replaces it: same output and same
new running statistics, in training and in evaluation, with and without bias, affine parameters and running statistics. -/
theorem C89_linear_batch_norm (sqrt : K → K) (w : Tensor K) (b : Option (List K)) (bn : BatchNorm K) (training : Bool) (orig : Tensor K → Option (Tensor K × Option (List K × List K))) (x y : Tensor K)
    (st : Option (List K × List K)) (hw : w.shape = [w.size 0, w.size 1]) (hx : x.shape = [x.size 0, w.size 1]) (h : bn.run sqrt [2, 3] training (linear2 w b x) = some (y, st)) :
    ∃ r, rewriteLinearBn sqrt w b bn training orig x = some (r, st) ∧ Same r y := by
  unfold BatchNorm.run at h
  split at h
  · next hc =>
    cases h
    have w1 := widened_unsqueeze 2 (linear2 w b x) (by simp [linear2])
    have w2 := conv_linear w b x hw hx
    set conv := torchConv2d ⟨1, 0, 1⟩ ⟨1, 0, 1⟩ 1 (unsqueezeAt 3 (unsqueezeAt 2 x)) (convWeight w) b with hconv
    have hsh : conv.shape = [x.size 0, w.size 0, 1, 1] := by rw [w2.2.1]; simp [unsqueezeAt, linear2]
    refine ⟨flattenFrom1 ((bn2dOf bn).out sqrt training conv), ?_, ?_⟩
    · unfold rewriteLinearBn BatchNorm.run
      rw [if_neg (by rw [hx]; simp)]
      simp only [← hconv]
      rw [if_pos ⟨by simp [hsh], by rw [widened_size w2 (by omega), widened_size w1 (by omega)]; exact hc.2⟩]
      simp only [Option.map_some]
      rw [widened_step w2 (by omega), widened_step w1 (by omega)]
      rfl
    · have o1 := widened_out w1 (by omega) sqrt (bn2dOf bn) training
      have o2 := widened_out w2 (by omega) sqrt (bn2dOf bn) training
      have hs' : ((bn2dOf bn).out sqrt training conv).shape = [x.size 0, w.size 0, 1, 1] := hsh
      have hshape : (flattenFrom1 ((bn2dOf bn).out sqrt training conv)).shape = [x.size 0, w.size 0] := by
        simp [flattenFrom1, reshape, Tensor.size, hs']
      refine ⟨hshape, fun idx hidx => ?_⟩
      rw [hshape] at hidx
      have e1 := o1.2.2 idx hidx
      have hb3 : InBounds ((bn2dOf bn).out sqrt training (unsqueezeAt 2 (linear2 w b x))).shape (idx.insertIdx 2 0) := by
        rw [o1.2.1]; exact inBounds_insert 2 1 0 o1.1 hidx (by omega)
      have e2 := o2.2.2 _ hb3
      rw [e1] at e2
      have hout : (bn.out sqrt training (linear2 w b x)).get idx = ((bn2dOf bn).out sqrt training (linear2 w b x)).get idx := rfl
      rw [hout, ← e2]
      match idx, hidx with
      | [n, o], hidx =>
        simp only [InBounds, List.forall₂_cons, List.forall₂_nil_right_iff, and_true] at hidx
        simp only [flattenFrom1, reshape, Tensor.size, hs']
        congr 1
        have hf : flat [([x.size 0, w.size 0, 1, 1] : List Nat).getD 0 0, (([x.size 0, w.size 0, 1, 1] : List Nat).drop 1).prod] [n, o] = flat [x.size 0, w.size 0, 1, 1] [n, o, 0, 0] := by simp [flat]
        simp only [Tensor.size] at hf hidx
        rw [hf, unflat_flat]
        · rfl
        · exact List.Forall₂.cons hidx.1 (List.Forall₂.cons hidx.2 (List.Forall₂.cons (by omega) (List.Forall₂.cons (by omega) List.Forall₂.nil)))
  · cases h

example (sqrt : K → K) : ∃ (w x y : Tensor K) (bn : BatchNorm K) (st : Option (List K × List K)), w.shape = [w.size 0, w.size 1] ∧ x.shape = [x.size 0, w.size 1] ∧
    bn.run sqrt [2, 3] true (linear2 w (some [1, 2, 3]) x) = some (y, st) ∧ y.shape = [2, 3] ∧ st.isSome :=
  ⟨⟨[3, 4], fun idx => (idx.getD 1 0 : K)⟩, ⟨[2, 4], fun idx => (idx.getD 0 0 : K)⟩, _, ⟨3, 1, 1, none, some ([0, 0, 0], [1, 1, 1])⟩, _, rfl, rfl, rfl, rfl, rfl⟩

/-! ### Broadcasting -/

private theorem expandTo_some {α : Type} (out : List Nat) (t : Tensor α) (h : ExpandOk t.shape out) : expandTo out t = some (torchExpand out t) := by
  unfold expandTo
  obtain ⟨hl, hf⟩ := h
  rw [if_pos]
  refine ⟨hl, ?_⟩
  rw [List.all_eq_true]
  intro a ha
  have ha' : a < t.shape.length := by simpa using ha
  rw [decide_eq_true_eq]
  have hf' := List.forall₂_iff_get.1 hf
  have h2 := hf'.2 a ha' (by rw [List.length_drop]; omega)
  simp only [List.get_eq_getElem, List.getElem_drop] at h2
  rw [List.getD_eq_getElem?_getD, List.getElem?_eq_getElem ha', List.getD_eq_getElem?_getD, List.getElem?_eq_getElem (by omega)]
  simp only [Option.getD_some]
  have e : out[a + (out.length - t.shape.length)]'(by omega) = out[out.length - t.shape.length + a]'(by omega) := by congr 1; omega
  rw [e]
  exact h2

private theorem expandOk_bc {α : Type} (t : Tensor α) (out idx : List Nat) (h : ExpandOk t.shape out) (hb : InBounds out idx) : bcGet (torchExpand out t) idx = bcGet t idx := by
  rw [bcGet_same (torchExpand out t) idx hb]; rfl

/-- Sizes of two operands, filled up to the same rank: they agree or one of them is 1. -/
private def Compat (p : Nat × Nat) : Prop := p.1 = p.2 ∨ p.1 = 1 ∨ p.2 = 1

private theorem refLoop_left (ps : List (Nat × Nat)) (hc : ∀ p ∈ ps, Compat p) (r : Ref) (h : refLoop r ps = .left) : ∀ p ∈ ps, p.2 = p.1 ∨ p.2 = 1 := by
  induction ps generalizing r with
  | nil => intro p hp; cases hp
  | cons q ps ih =>
    obtain ⟨l, d⟩ := q
    have hq := hc (l, d) (by simp)
    simp only [refLoop] at h
    intro p hp
    rcases List.mem_cons.1 hp with rfl | hp
    · split at h
      · split at h
        · next hlt hh => right; exact hh.2
        · cases h
      · split at h
        · split at h
          · next h1 h2 h3 =>
            exfalso
            clear ih hc hp
            have : ∀ qs, refLoop .right qs ≠ .left := by
              intro qs
              induction qs with
              | nil => simp [refLoop]
              | cons q qs ih => obtain ⟨a, b⟩ := q; simp only [refLoop]; split <;> [skip; split] <;> simp_all <;> split <;> simp_all
            exact this _ h
          · cases h
        · left; simp only; omega
    · have hc' : ∀ p ∈ ps, Compat p := fun p hp => hc p (by simp [hp])
      split at h
      · split at h
        · exact ih hc' _ h p hp
        · cases h
      · split at h
        · split at h
          · exact ih hc' _ h p hp
          · cases h
        · exact ih hc' _ h p hp

private theorem refLoop_swap (ps : List (Nat × Nat)) (r : Ref) :
    refLoop (match r with | .left => .right | .right => .left | r => r) (ps.map Prod.swap) = match refLoop r ps with | .left => .right | .right => .left | r => r := by
  induction ps generalizing r with
  | nil => cases r <;> rfl
  | cons q ps ih =>
    obtain ⟨l, d⟩ := q
    simp only [List.map_cons, Prod.swap, refLoop]
    by_cases h1 : d < l
    · have h2 : ¬ l < d := by omega
      simp only [h1, h2, if_true, if_false]
      cases r <;> by_cases h3 : d = 1 <;> simp [h3] <;> exact ih .left
    · by_cases h2 : l < d
      · simp only [h1, h2, if_true, if_false]
        cases r <;> by_cases h3 : l = 1 <;> simp [h3] <;> exact ih .right
      · simp only [h1, h2, if_false]
        exact ih r

private theorem refLoop_right (ps : List (Nat × Nat)) (hc : ∀ p ∈ ps, Compat p) (r : Ref) (h : refLoop r ps = .right) : ∀ p ∈ ps, p.1 = p.2 ∨ p.1 = 1 := by
  have hs := refLoop_swap ps r
  rw [h] at hs
  have := refLoop_left (ps.map Prod.swap) (by
    intro p hp
    obtain ⟨q, hq, rfl⟩ := List.mem_map.1 hp
    rcases hc q hq with h | h | h
    · left; exact h.symm
    · right; right; exact h
    · right; left; exact h) _ hs
  intro p hp
  exact this p.swap (List.mem_map.2 ⟨p, hp, rfl⟩)

private theorem refLoop_undecided (ps : List (Nat × Nat)) (r : Ref) (h : refLoop r ps = .undecided) : r = .undecided ∧ ∀ p ∈ ps, p.1 = p.2 := by
  induction ps generalizing r with
  | nil => exact ⟨h, fun p hp => by cases hp⟩
  | cons q ps ih =>
    obtain ⟨l, d⟩ := q
    simp only [refLoop] at h
    split at h
    · split at h
      · have := (ih _ h).1; cases this
      · cases h
    · split at h
      · split at h
        · have := (ih _ h).1; cases this
        · cases h
      · obtain ⟨h1, h2⟩ := ih _ h
        refine ⟨h1, fun p hp => ?_⟩
        rcases List.mem_cons.1 hp with rfl | hp
        · simp only; omega
        · exact h2 p hp

private theorem bcRev_compat (s t u : List Nat) (h : bcRev s t = some u) : ∀ p ∈ s.zip t, Compat p := by
  induction s generalizing t u with
  | nil => intro p hp; simp at hp
  | cons a s ih =>
    cases t with
    | nil => intro p hp; simp at hp
    | cons b t =>
      simp only [bcRev] at h
      have rest : ∀ c : Nat, (bcRev s t).map (c :: ·) = some u → ∀ p ∈ s.zip t, Compat p := by
        intro c hc
        obtain ⟨v, hv, _⟩ := Option.map_eq_some_iff.1 hc
        exact ih t v hv
      intro p hp
      simp only [List.zip_cons_cons, List.mem_cons] at hp
      split at h
      · next e => rcases hp with rfl | hp
                  · left; exact e
                  · exact rest _ h p hp
      · split at h
        · next e => rcases hp with rfl | hp
                    · right; left; exact e
                    · exact rest _ h p hp
        · split at h
          · next e => rcases hp with rfl | hp
                      · right; right; exact e
                      · exact rest _ h p hp
          · cases h

private theorem zip_same_forall {l r : List Nat} (hl : l.length = r.length) {P : Nat → Nat → Prop} (h : ∀ p ∈ l.zip r, P p.1 p.2) : List.Forall₂ P l r := by
  rw [List.forall₂_iff_zip]
  exact ⟨hl, fun {a b} hab => h (a, b) hab⟩

/-- The sizes paired from the last axis are those paired after filling up with ones. -/
private theorem zip_compat {l r : List Nat} {s : List Nat} (hl : r.length ≤ l.length) (h : bcShape l r = some s) : ∀ p ∈ l.zip (List.replicate (l.length - r.length) 1 ++ r), Compat p := by
  obtain ⟨u, hu, _⟩ := Option.map_eq_some_iff.1 h
  have hc := bcRev_compat _ _ _ hu
  intro p hp
  obtain ⟨i, hi, he⟩ := List.mem_iff_getElem.1 hp
  rw [List.getElem_zip] at he
  have hi1 : i < l.length := by simp at hi; omega
  by_cases hlt : i < l.length - r.length
  · right; right
    rw [← he]
    simp only
    rw [List.getElem_append_left (by simpa using hlt)]
    simp
  · apply hc
    rw [List.mem_iff_getElem]
    refine ⟨l.length - 1 - i, by simp; omega, ?_⟩
    rw [List.getElem_zip, ← he]
    simp only [List.getElem_reverse]
    rw [Prod.mk.injEq]
    refine ⟨?_, ?_⟩
    · congr 1; omega
    · rw [List.getElem_append_right (by simp; omega)]
      congr 1
      simp
      omega

private theorem expandOk_of_zip {l r : List Nat} (hl : r.length ≤ l.length) (h : ∀ p ∈ l.zip (List.replicate (l.length - r.length) 1 ++ r), p.2 = p.1 ∨ p.2 = 1) : ExpandOk r l := by
  refine ⟨hl, ?_⟩
  rw [List.forall₂_iff_get]
  refine ⟨by rw [List.length_drop]; omega, fun i h1 h2 => ?_⟩
  have hi : i + (l.length - r.length) < (l.zip (List.replicate (l.length - r.length) 1 ++ r)).length := by simp; omega
  have := h _ (List.getElem_mem hi)
  rw [List.getElem_zip] at this
  simp only at this
  rw [List.getElem_append_right (by simp)] at this
  simp only [List.get_eq_getElem, List.getElem_drop]
  have e1 : l[l.length - r.length + i]'(by omega) = l[i + (l.length - r.length)]'(by omega) := by congr 1; omega
  rw [e1]
  have e2 : r[i + (l.length - r.length) - (List.replicate (l.length - r.length) 1).length]'(by simp; omega) = r[i] := by congr 1; simp
  rw [e2] at this
  exact this

private theorem zip_swap (l r : List Nat) : (l.zip r).map Prod.swap = r.zip l := by
  induction l generalizing r with
  | nil => simp
  | cons a l ih => cases r with
    | nil => simp
    | cons b r => simp [ih]

/-- Which operand is expanded, if the shapes can be broadcast. -/
private theorem refIndex_spec {l r s : List Nat} (h : bcShape l r = some s) (hne : l ≠ r) :
    (refIndex l r = .left ∧ ExpandOk r l) ∨ (refIndex l r = .right ∧ ExpandOk l r) ∨ refIndex l r = .both := by
  have hcomm : bcShape r l = some s := by unfold bcShape at h ⊢; rw [bcRev_comm]; exact h
  have hL : ∀ st, r.length ≤ l.length → refLoop st (l.zip (List.replicate (l.length - r.length) 1 ++ r)) = .left → ExpandOk r l :=
    fun st hl he => expandOk_of_zip hl (refLoop_left _ (zip_compat hl h) st he)
  have hR : ∀ st, l.length ≤ r.length → refLoop st ((List.replicate (r.length - l.length) 1 ++ l).zip r) = .right → ExpandOk l r := by
    intro st hl he
    refine expandOk_of_zip hl ?_
    have hc : ∀ p ∈ (List.replicate (r.length - l.length) 1 ++ l).zip r, Compat p := by
      intro p hp
      have : p.swap ∈ r.zip (List.replicate (r.length - l.length) 1 ++ l) := by
        rw [← zip_swap]; exact List.mem_map.2 ⟨p, hp, rfl⟩
      rcases zip_compat hl hcomm _ this with q | q | q
      · left; exact q.symm
      · right; right; exact q
      · right; left; exact q
    have := refLoop_right _ hc st he
    intro p hp
    rw [← zip_swap] at hp
    obtain ⟨q, hq, rfl⟩ := List.mem_map.1 hp
    exact this q hq
  have noRight : ∀ qs, refLoop .left qs ≠ .right := by
    intro qs
    induction qs with
    | nil => simp [refLoop]
    | cons q qs ih => obtain ⟨a, b⟩ := q; simp only [refLoop]; split <;> [skip; split] <;> simp_all <;> split <;> simp_all
  have noLeft : ∀ qs, refLoop .right qs ≠ .left := by
    intro qs
    induction qs with
    | nil => simp [refLoop]
    | cons q qs ih => obtain ⟨a, b⟩ := q; simp only [refLoop]; split <;> [skip; split] <;> simp_all <;> split <;> simp_all
  unfold refIndex
  by_cases h1 : r.length < l.length
  · simp only [h1, if_true]
    cases e : refLoop .left (l.zip (List.replicate (l.length - r.length) 1 ++ r)) with
    | undecided => have := (refLoop_undecided _ _ e).1; cases this
    | left => exact Or.inl ⟨rfl, hL _ h1.le e⟩
    | right => exact absurd e (noRight _)
    | both => exact Or.inr (Or.inr rfl)
  · by_cases h2 : l.length < r.length
    · simp only [h1, h2, if_true, if_false]
      cases e : refLoop .right ((List.replicate (r.length - l.length) 1 ++ l).zip r) with
      | undecided => have := (refLoop_undecided _ _ e).1; cases this
      | left => exact absurd e (noLeft _)
      | right => exact Or.inr (Or.inl ⟨rfl, hR _ h2.le e⟩)
      | both => exact Or.inr (Or.inr rfl)
    · have hlen : l.length = r.length := by omega
      simp only [h1, h2, if_false]
      cases e : refLoop .undecided (l.zip r) with
      | undecided =>
        have := (refLoop_undecided _ _ e).2
        have hf : List.Forall₂ (fun a b : Nat => a = b) l r := zip_same_forall hlen this
        exact absurd (List.forall₂_eq_eq_eq ▸ hf) hne
      | left => exact Or.inl ⟨rfl, hL .undecided hlen.ge (by simpa [hlen] using e)⟩
      | right => exact Or.inr (Or.inl ⟨rfl, hR .undecided hlen.le (by simpa [hlen] using e)⟩)
      | both => exact Or.inr (Or.inr rfl)

private theorem bcRev_expand (s t u : List Nat) (h : bcRev s t = some u) : s.length ≤ u.length ∧ List.Forall₂ (fun d o => d = o ∨ d = 1) s (u.take s.length) := by
  induction s generalizing t u with
  | nil => simp
  | cons a s ih =>
    cases t with
    | nil =>
      simp only [bcRev, Option.some.injEq] at h
      subst h
      refine ⟨le_refl _, ?_⟩
      simp only [List.take_length]
      exact List.forall₂_same.2 (fun _ _ => Or.inl rfl)
    | cons b t =>
      simp only [bcRev] at h
      have rest : ∀ c : Nat, (a = c ∨ a = 1) → (bcRev s t).map (c :: ·) = some u → (a :: s).length ≤ u.length ∧ List.Forall₂ (fun d o => d = o ∨ d = 1) (a :: s) (u.take (a :: s).length) := by
        intro c hac hc
        obtain ⟨v, hv, rfl⟩ := Option.map_eq_some_iff.1 hc
        obtain ⟨h1, h2⟩ := ih t v hv
        exact ⟨by simpa using h1, by simpa using ⟨hac, h2⟩⟩
      split at h
      · exact rest _ (Or.inl rfl) h
      · split at h
        · next e => exact rest _ (Or.inr e) h
        · split at h
          · exact rest _ (Or.inl rfl) h
          · cases h

private theorem expandOk_bcShape (l r s : List Nat) (h : bcShape l r = some s) : ExpandOk l s := by
  obtain ⟨u, hu, rfl⟩ := Option.map_eq_some_iff.1 h
  obtain ⟨h1, h2⟩ := bcRev_expand _ _ _ hu
  simp only [List.length_reverse] at h1 h2
  refine ⟨by simpa using h1, ?_⟩
  rw [List.length_reverse, List.drop_reverse]
  rw [show u.length - (u.length - l.length) = l.length by omega]
  have := List.rel_reverse h2
  simpa using this

/-- **C89, broadcasting.**  Whenever two operands can be broadcast, the rewriting succeeds, the operation gets operands of one and the same shape, the broadcast shape, and its result is the
result it had before. -/
theorem C89_broadcast {α γ : Type} (f : α → α → γ) (a b : Tensor α) (s : List Nat) (h : bcShape a.shape b.shape = some s) :
    ∃ a' b' y r, operands a b = some (a', b') ∧ a'.shape = s ∧ b'.shape = s ∧ elementwise f a b = some y ∧ elementwise f a' b' = some r ∧ Same r y := by
  have hself : ∀ t : List Nat, bcShape t t = some t := fun t => bcShape_left t t (expandOk_refl t)
  have fin : ∀ a' b' : Tensor α, operands a b = some (a', b') → a'.shape = s → b'.shape = s → (∀ idx, InBounds s idx → bcGet a' idx = bcGet a idx ∧ bcGet b' idx = bcGet b idx) →
      ∃ a' b' y r, operands a b = some (a', b') ∧ a'.shape = s ∧ b'.shape = s ∧ elementwise f a b = some y ∧ elementwise f a' b' = some r ∧ Same r y := by
    intro a' b' ho ha hb hg
    refine ⟨a', b', ⟨s, fun idx => f (bcGet a idx) (bcGet b idx)⟩, ⟨s, fun idx => f (bcGet a' idx) (bcGet b' idx)⟩, ho, ha, hb, by rw [elementwise, h]; rfl, by rw [elementwise, ha, hb, hself]; rfl, rfl, fun idx hidx => ?_⟩
    simp only [(hg idx hidx).1, (hg idx hidx).2]
  by_cases he : a.shape = b.shape
  · have hs : a.shape = s := by rw [← he, hself] at h; exact Option.some.inj h
    exact fin a b (by rw [operands, if_pos he]) hs (he ▸ hs) (fun _ _ => ⟨rfl, rfl⟩)
  · have hcomm : bcShape b.shape a.shape = some s := by unfold bcShape at h ⊢; rw [bcRev_comm]; exact h
    rcases refIndex_spec h he with ⟨h1, h2⟩ | ⟨h1, h2⟩ | h1
    · have hs : a.shape = s := by rw [bcShape_left _ _ h2] at h; exact Option.some.inj h
      refine fin a (torchExpand a.shape b) (by rw [operands, if_neg he, h1]; simp only [expandTo_some _ _ h2, Option.map_some]) hs hs (fun idx hidx => ⟨rfl, ?_⟩)
      exact expandOk_bc b _ idx h2 (hs ▸ hidx)
    · have hs : b.shape = s := by rw [bcShape_right _ _ h2] at h; exact Option.some.inj h
      refine fin (torchExpand b.shape a) b (by rw [operands, if_neg he, h1]; simp only [expandTo_some _ _ h2, Option.map_some]) hs hs (fun idx hidx => ⟨?_, rfl⟩)
      exact expandOk_bc a _ idx h2 (hs ▸ hidx)
    · refine fin (torchExpand s a) (torchExpand s b) (by rw [operands, if_neg he, h1]; simp only [broadcastTensors, h, Option.map_some]) rfl rfl (fun idx hidx => ⟨?_, ?_⟩)
      · exact expandOk_bc a _ idx (expandOk_bcShape _ _ _ h) hidx
      · exact expandOk_bc b _ idx (expandOk_bcShape _ _ _ hcomm) hidx

example : bcShape [4, 1, 3] [5, 1] = some [4, 5, 3] ∧ refIndex [4, 1, 3] [5, 1] = .both ∧ refIndex [4, 5, 3] [5, 1] = .left ∧ refIndex [1, 3] [2, 3] = .right := by decide

/-- Operands that are the only outputs of their nodes are found in the pair of broadcast tensors. -/
theorem C89_broadcast_operand_partial {α : Type} (a b : Tensor α) : (Val.pair a b).items (operandPath none 0) = some (.tensor a) ∧ (Val.pair a b).items (operandPath none 1) = some (.tensor b) := ⟨rfl, rfl⟩

/-- An operand that is one of several outputs of a node (of `split` or `chunk`) is looked for at its old index: instead of the second operand, the operation gets row 1 of the first. -/
theorem C89_broadcast_operand_false : ∃ (a b r : Tensor Nat), a.shape = b.shape ∧ (Val.pair a b).items (operandPath (some [0]) 1) = some (.tensor r) ∧ r.shape ≠ b.shape :=
  ⟨⟨[2, 3], fun _ => 0⟩, ⟨[2, 3], fun _ => 1⟩, _, rfl, rfl, by decide⟩

end Verif.Props
