import Verif.Model.AtenSlice
import Verif.Lemmas.Tensor
import Verif.Props.Slice

/-! C52: slicing with constant bounds.  C51: slices with run-time bounds. -/

namespace Verif.Props
open Verif.Spec Verif.Model Verif.Lemmas

theorem positions_length (s e step : Nat) : (positions s e step).length = (e - s + step - 1) / step := by simp [positions]

theorem positions_getD (s e step k : Nat) (h : k < (positions s e step).length) : (positions s e step).getD k 0 = s + k * step := by
  rw [getD_eq_getElem _ _ _ h]; simp [positions]

/-- The start is inside the axis: not before its first element, and, for a step of 1, not behind its end. -/
def StartOk (n : Nat) (start : Option Int) (step : Nat) : Prop :=
  -(n : Int) ≤ start.getD 0 ∧ (step = 1 → start.getD 0 ≤ n)

/-- The start after the adjustment: a position of the axis. -/
theorem adjust_start (n : Nat) (s : Int) (h1 : -(n : Int) ≤ s) (h2 : s ≤ n) : (if s < 0 then s + (n : Int) else s) = ((clampBound n s : Nat) : Int) := by
  unfold clampBound; split <;> omega

theorem tflSlice_ok (n S : Nat) (E : Int) (h0 : (S : Int) ≤ E) (hE : E ≤ n) : tflSlice n S (E - S) = some (positions S E.toNat 1) := by
  unfold tflSlice
  rw [if_neg (by omega)]
  simp only [if_neg (by omega : ¬ (E - (S : Int) = -1))]
  rw [if_neg (by omega)]
  congr 2
  omega

theorem positions_empty (s e : Nat) (step : Nat) (hs : 0 < step) (h : e ≤ s) : positions s e step = [] := by
  unfold positions
  rw [show e - s + step - 1 = step - 1 by omega, Nat.div_eq_of_lt (by omega)]; rfl

theorem adjust_slice (n : Nat) (start stop : Option Int) (h : StartOk n start 1) :
    tflSlice n (adjustBounds n start stop).1 ((adjustBounds n start stop).2 - (adjustBounds n start stop).1) = some (torchSlice n start stop 1) := by
  obtain ⟨h1, h2⟩ := h
  have h2 := h2 rfl
  have key : ∀ s e : Int, -(n : Int) ≤ s → s ≤ n → tflSlice n (adjustBounds n (some s) (some e)).1
      ((adjustBounds n (some s) (some e)).2 - (adjustBounds n (some s) (some e)).1) = some (torchSlice n (some s) (some e) 1) := by
    intro s e h1 h2
    simp only [adjustBounds, torchSlice, Option.getD_some]
    rw [adjust_start n s h1 h2]
    have hSn : clampBound n s ≤ n := by unfold clampBound; omega
    generalize clampBound n s = S at *
    have hE : clampBound n e = min (if e < 0 then e + (n : Int) else e).toNat n := rfl
    rw [hE]
    generalize (if e < 0 then e + (n : Int) else e) = E
    by_cases hSE : (S : Int) > E
    · rw [if_pos hSE]
      have : (if (S : Int) ≥ n then (n : Int) else S) = S := by split <;> omega
      rw [this, tflSlice_ok n S S (le_refl _) (by omega), positions_empty _ _ _ (by omega) (by omega), positions_empty _ _ _ (by omega) (by omega)]
    · rw [if_neg hSE]
      by_cases hEn : E ≥ n
      · rw [if_pos hEn, tflSlice_ok n S n (by omega) (by omega)]
        congr 2; omega
      · rw [if_neg hEn, tflSlice_ok n S E (by omega) (by omega)]
        congr 2; omega
  exact key _ _ h1 h2

theorem adjust_strided (n step : Nat) (start stop : Option Int) (hs : 0 < step) (h : -(n : Int) ≤ start.getD 0) :
    tflStrided n (adjustBounds n start stop).1 (adjustBounds n start stop).2 step = some (torchSlice n start stop step) := by
  have key : ∀ s e : Int, -(n : Int) ≤ s →
      tflStrided n (adjustBounds n (some s) (some e)).1 (adjustBounds n (some s) (some e)).2 step = some (torchSlice n (some s) (some e) step) := by
    intro s e h
    simp only [adjustBounds, torchSlice, tflStrided, if_neg (by omega : ¬ step = 0), Option.some.injEq, Option.getD_some]
    have cS : clampBound n s = min (if s < 0 then s + (n : Int) else s).toNat n := rfl
    have cE : clampBound n e = min (if e < 0 then e + (n : Int) else e).toNat n := rfl
    have hS0 : 0 ≤ (if s < 0 then s + (n : Int) else s) := by split <;> omega
    rw [cS, cE]
    generalize (if s < 0 then s + (n : Int) else s) = S at *
    generalize (if e < 0 then e + (n : Int) else e) = E at *
    have cS' : clampBound n S = min S.toNat n := by unfold clampBound; rw [if_neg (by omega)]
    rw [cS']
    by_cases hSE : S > E
    · rw [if_pos hSE]
      have : clampBound n (if S ≥ n then (n : Int) else S) = min S.toNat n := by unfold clampBound; split <;> split <;> omega
      rw [this, positions_empty _ _ _ hs (by omega), positions_empty _ _ _ hs (by omega)]
    · rw [if_neg hSE]
      have : clampBound n (if E ≥ n then (n : Int) else E) = min E.toNat n := by unfold clampBound; split <;> split <;> omega
      rw [this]
  exact key _ _ h

theorem whole_slice (n : Nat) : tflSlice n 0 n = some (List.range n) := by
  unfold tflSlice positions
  rw [if_neg (by omega)]
  simp only [if_neg (by omega : ¬ ((n : Int) = -1))]
  rw [if_neg (by omega)]
  simp

theorem whole_strided (n : Nat) : tflStrided n 0 n 1 = some (List.range n) := by
  unfold tflStrided positions clampBound
  have : ¬ ((n : Int) < 0) := by omega
  simp [this]

theorem take_gather {α : Type} (t : Tensor α) (dim : Nat) (pos : List Nat) (hd : dim < t.shape.length) :
    Same (takePositions ((t.shape.map List.range).set dim pos) t) (gather dim pos t) := by
  refine ⟨?_, ?_⟩
  · simp only [takePositions, gather, List.map_set, List.map_map]
    congr 1
    apply List.ext_getElem <;> simp
  · intro idx hb
    simp only [takePositions, gather]
    congr 1
    have hshape : (takePositions ((t.shape.map List.range).set dim pos) t).shape = t.shape.set dim pos.length := by
      simp only [takePositions, List.map_set, List.map_map]
      congr 1
      apply List.ext_getElem <;> simp
    rw [hshape, inBounds_iff] at hb
    obtain ⟨hl, hb⟩ := hb
    rw [List.length_set] at hl
    apply List.ext_getElem
    · simp [hl]
    · intro a h1 h2
      have ha : a < t.shape.length := by simpa using h1
      simp only [List.getElem_map, List.getElem_range, List.getElem_set]
      by_cases had : dim = a
      · subst had
        rw [if_pos rfl]
        congr 1
        rw [getD_eq_getElem _ _ _ (by simpa using hd)]
        simp
      · rw [if_neg had]
        rw [getD_eq_getElem _ a _ (by simpa using ha), List.getElem_set_ne had]
        simp only [List.getElem_map]
        have hi := hb a (by simpa using ha)
        have : (t.shape.set dim pos.length).getD a 0 = t.shape[a] := by
          rw [getD_eq_getElem _ _ _ (by simpa using ha), List.getElem_set_ne had]
        rw [this] at hi
        rw [getD_eq_getElem _ _ _ (by simpa using hi)]
        simp only [List.getElem_range]
        exact getD_eq_getElem _ _ _ (by omega)

theorem axis_set_self {α : Type} (l : List α) (i : Nat) (v d : α) (h : i < l.length) : (l.set i v).getD i d = v := by
  rw [getD_eq_getElem _ _ _ (by simpa using h)]; simp

theorem axis_set_ne {α : Type} (l : List α) (i j : Nat) (v d : α) (h : j ≠ i) : (l.set i v).getD j d = l.getD j d := by
  simp [List.getD_eq_getElem?_getD, List.getElem?_set_ne (Ne.symm h)]

theorem axis_replicate {α : Type} (n : Nat) (v d : α) (i : Nat) (h : i < n) : (List.replicate n v).getD i d = v := by
  rw [getD_eq_getElem _ _ _ (by simpa using h)]; simp

theorem axis_whole (shape : List Nat) (i : Nat) (h : i < shape.length) : (shape.map (fun (d : Nat) => (d : Int))).getD i 0 = (shape.getD i 0 : Int) := by
  rw [getD_eq_getElem _ _ _ (by simpa using h), getD_eq_getElem _ _ _ h]; simp

theorem mapM_some {α β : Type} (f : α → Option β) (g : α → β) (l : List α) (h : ∀ x ∈ l, f x = some (g x)) : l.mapM f = some (l.map g) := by
  induction l with
  | nil => simp
  | cons a l ih =>
    rw [List.mapM_cons, h a (by simp), ih (fun x hx => h x (by simp [hx]))]
    simp

theorem range_map_set (shape : List Nat) (dim : Nat) (pos : List Nat) :
    (List.range shape.length).map (fun a => if a = dim then pos else List.range (shape.getD a 0)) = (shape.map List.range).set dim pos := by
  apply List.ext_getElem
  · simp
  · intro a h1 h2
    have ha : a < shape.length := by simpa using h1
    simp only [List.getElem_map, List.getElem_range, List.getElem_set]
    by_cases h : a = dim
    · subst h; simp
    · rw [if_neg h, if_neg (by omega), getD_eq_getElem _ _ _ ha]

/-- C52: the converted slice is accepted and takes exactly PyTorch's positions, provided the start is inside the axis. -/
theorem C52_slice_partial {α : Type} (t : Tensor α) (dim : Nat) (start stop : Option Int) (step : Nat) (hd : dim < t.shape.length) (hs : 0 < step)
    (hok : StartOk (t.shape.getD dim 0) start step) :
    ∃ r, (convertSlice t.shape dim start stop step).run t = some r ∧ Same r (gather dim (torchSlice (t.shape.getD dim 0) start stop step) t) := by
  set n := t.shape.getD dim 0 with hn
  refine ⟨takePositions ((t.shape.map List.range).set dim (torchSlice n start stop step)) t, ?_, take_gather t dim _ hd⟩
  rw [← range_map_set]
  unfold convertSlice
  simp only
  by_cases h1 : step = 1
  · subst h1
    simp only [ne_eq, not_true_eq_false, if_false, IntSliceOp.run]
    rw [mapM_some _ (fun a => if a = dim then torchSlice n start stop 1 else List.range (t.shape.getD a 0))]
    · rfl
    · intro a ha
      have ha : a < t.shape.length := by simpa using ha
      by_cases had : a = dim
      · subst had
        rw [axis_set_self _ _ _ _ (by simpa using ha), axis_set_self _ _ _ _ (by simpa using ha), if_pos rfl]
        exact adjust_slice n start stop hok
      · rw [if_neg had, axis_set_ne _ _ _ _ _ had, axis_set_ne _ _ _ _ _ had, axis_replicate _ _ _ _ ha, axis_whole _ _ ha]
        exact whole_slice _
  · simp only [ne_eq, h1, not_false_eq_true, if_true, IntSliceOp.run]
    rw [mapM_some _ (fun a => if a = dim then torchSlice n start stop step else List.range (t.shape.getD a 0))]
    · rfl
    · intro a ha
      have ha : a < t.shape.length := by simpa using ha
      by_cases had : a = dim
      · subst had
        rw [axis_set_self _ _ _ _ (by simpa using ha), axis_set_self _ _ _ _ (by simpa using ha), axis_set_self _ _ _ _ (by simpa using ha), if_pos rfl]
        exact adjust_strided n step start stop hs hok.1
      · rw [if_neg had, axis_set_ne _ _ _ _ _ had, axis_set_ne _ _ _ _ _ had, axis_set_ne _ _ _ _ _ had, axis_replicate _ _ _ _ ha, axis_replicate _ _ _ _ ha,
          axis_whole _ _ ha]
        exact whole_strided _

/-- `x[:, -3:-1]` and `x[:, 1::2]` of a 2 by 5 tensor meet the hypotheses. -/
example : StartOk 5 (some (-3)) 1 ∧ torchSlice 5 (some (-3)) (some (-1)) 1 = [2, 3] ∧ StartOk 5 (some 1) 2 ∧ torchSlice 5 (some 1) none 2 = [1, 3] := by
  refine ⟨⟨by decide, by decide⟩, by decide, ⟨by decide, by decide⟩, by decide⟩

/-- C52 fails when the start lies outside of the axis.  `x[-5:]` and `x[5:]` of three elements are the whole axis and nothing in PyTorch; the SLICE emitted
for them is rejected.  For `x[-4::2]` the STRIDED_SLICE takes the last element instead of the first and the third. -/
theorem C52_start_outside_false {α : Type} (t : Tensor α) (ht : t.shape = [3]) :
    torchSlice 3 (some (-5)) none 1 = [0, 1, 2] ∧ (convertSlice t.shape 0 (some (-5)) none 1).run t = none ∧
    torchSlice 3 (some 5) none 1 = [] ∧ (convertSlice t.shape 0 (some 5) none 1).run t = none ∧
    torchSlice 3 (some (-4)) none 2 = [0, 2] ∧ (convertSlice t.shape 0 (some (-4)) none 2).run t = some (takePositions [[2]] t) := by
  refine ⟨by decide, ?_, by decide, ?_, by decide, ?_⟩ <;>
    simp [IntSliceOp.run, convertSlice, ht, adjustBounds, tflSlice, tflStrided, clampBound, positions]

/-- The operators of a chain of two slices without fusion, at run time. -/
def dynChain (source target : DynSlice) (rs rz : List Nat) : List SliceOp := [source.atRuntime rs rz, target.atRuntime rs rz]

/-- C51: whatever the run-time bounds are, the chain after the pass computes what it computed before, provided a fused target has constant bounds. -/
theorem C51_dynamic_slices_partial {α : Type} (t : Tensor α) (source target : DynSlice) (rs rz : List Nat)
    (hc : sliceFusable source target = true → target.start.const = true ∧ target.size.const = true)
    (hv : ChainValid (dynChain source target rs rz) t) :
    Same (runSlices (fuseDynSlices source target rs rz) t) (runSlices (dynChain source target rs rz) t) := by
  unfold fuseDynSlices
  by_cases hf : sliceFusable source target = true
  · rw [if_pos hf]
    obtain ⟨h1, h2⟩ := hc hf
    simp only [sliceFusable, Bool.and_eq_true] at hf
    have e1 : source.atRuntime rs rz = source.traced := by simp [DynSlice.atRuntime, DynSlice.traced, hf.1, hf.2]
    have e2 : target.atRuntime rs rz = target.traced := by simp [DynSlice.atRuntime, DynSlice.traced, h1, h2]
    simp only [dynChain, e1, e2] at hv ⊢
    exact (C08_slice_chain t source.traced [target.traced] hv).1
  · rw [if_neg hf]; exact ⟨rfl, fun _ _ => rfl⟩

/-- `x[1:5][1:3]` with constants meets the hypotheses. -/
example : sliceFusable ⟨⟨[1], true⟩, ⟨[4], true⟩⟩ ⟨⟨[1], true⟩, ⟨[2], true⟩⟩ = true ∧
    fuseDynSlices ⟨⟨[1], true⟩, ⟨[4], true⟩⟩ ⟨⟨[1], true⟩, ⟨[2], true⟩⟩ [] [] = [.slice [2] [2]] := by decide

/-- C51 fails when the second slice's start is computed by the model: traced with start 0, the chain is fused into the constant slice `x[1:3]`, whatever the
start is at run time; with start 1 it should be `x[2:4]`. -/
theorem C51_dynamic_slices_false :
    ∃ source target : DynSlice, sliceFusable source target = true ∧ target.start.const = false ∧
      (∀ rs, fuseDynSlices source target rs [] = [.slice [1] [2]]) ∧
      ∃ t : Tensor Nat, ChainValid (dynChain source target [1] []) t ∧
        ¬ Same (runSlices (fuseDynSlices source target [1] []) t) (runSlices (dynChain source target [1] []) t) := by
  refine ⟨⟨⟨[1], true⟩, ⟨[4], true⟩⟩, ⟨⟨[0], false⟩, ⟨[2], true⟩⟩, by decide, rfl, fun rs => by simp [fuseDynSlices, sliceFusable, emitSlice, fuseSlices, DynSlice.traced]; decide, ⟨[6], fun i => i.getD 0 0⟩, ?_, ?_⟩
  · simp only [dynChain, ChainValid, SliceOp.Valid, DynSlice.atRuntime, SliceOp.run]
    simp
  · intro h
    have := h.2 [0] (by simp [fuseDynSlices, sliceFusable, emitSlice, fuseSlices, DynSlice.traced, sliceFirst, sliceNext, runSlices, SliceOp.run, sliceStart, sliceEnd, sliceStrides, InBounds])
    revert this
    simp [fuseDynSlices, sliceFusable, emitSlice, fuseSlices, DynSlice.traced, DynSlice.atRuntime, dynChain, sliceFirst, sliceNext, runSlices, SliceOp.run, sliceStart, sliceEnd, sliceStrides, List.range_succ]

end Verif.Props
