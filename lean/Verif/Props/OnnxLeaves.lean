import Verif.Model.OnnxLeaves
import Mathlib.Data.List.Basic
import Mathlib.Tactic.Ring

/-! C145: which activations of an ONNX model are not quantized. -/

namespace Verif.Props
open Verif.Model.OnnxLeaves Verif.Spec.OnnxLeaves

namespace OnnxLeaves

/-- What is found from `n`: a layer `m` from which `n` is reached through layers, with the state carried along. -/
inductive Found (g : Net) : Nat → Bool → Nat → Prop
  | here (n : Nat) : g.kind n = .observed → Found g n true n
  | back (n p m : Nat) (s : Bool) : g.kind n ≠ .func → p ∈ g.reads n → Found g p (stateAfter (g.kind n) s) m → Found g n s m

theorem mem_visit (g : Net) (ha : g.Acyclic) (fuel n : Nat) (s : Bool) (hf : n < fuel) (m : Nat) :
    m ∈ visit g fuel n s ↔ Found g n s m := by
  induction fuel generalizing n s with
  | zero => omega
  | succ fuel ih =>
    rw [visit]
    by_cases hk : g.kind n = .func
    · rw [if_pos hk]
      constructor
      · intro h; cases h
      · intro h
        cases h with
        | here _ h => rw [hk] at h; cases h
        | back _ _ _ _ h _ _ => exact absurd hk h
    · rw [if_neg hk, List.mem_append, List.mem_flatMap]
      constructor
      · rintro (h | ⟨p, hp, h⟩)
        · by_cases hc : g.kind n = .observed ∧ s = true
          · rw [if_pos hc] at h
            have : m = n := by simpa using h
            rw [this, hc.2]
            exact Found.here n hc.1
          · rw [if_neg hc] at h; cases h
        · exact Found.back n p m s hk hp ((ih p _ (by have := ha n p hp; omega)).mp h)
      · intro h
        cases h with
        | here _ h => left; simp [h]
        | back _ p _ _ _ hp h => right; exact ⟨p, hp, (ih p _ (by have := ha n p hp; omega)).mpr h⟩

/-- With the state on: through plain layers to an observed one, or to a DeQuantStub further back. -/
theorem found_true (g : Net) (n m : Nat) (s : Bool) (h : Found g n s m) :
    (s = true ∧ g.kind m = .observed ∧ Relation.ReflTransGen (g.Step (· = .plain)) m n) ∨
    (∃ d, g.kind d = .dequant ∧ (∃ p, Relation.ReflTransGen (g.Step (· = .plain)) m p ∧ p ∈ g.reads d) ∧ g.kind m = .observed ∧
      Relation.ReflTransGen (g.Step (· ≠ .func)) d n ∧ g.kind d ≠ .func) := by
  induction h with
  | here n h => exact Or.inl ⟨rfl, h, Relation.ReflTransGen.refl⟩
  | back n p m s hk hp _ ih =>
    rcases ih with ⟨h1, h2, h3⟩ | ⟨d, h1, ⟨q, h2, h2'⟩, h3, h4, h5⟩
    · cases hkn : g.kind n with
      | func => exact absurd hkn hk
      | dequant => exact Or.inr ⟨n, hkn, ⟨p, h3, hp⟩, h2, Relation.ReflTransGen.refl, hk⟩
      | quant => rw [hkn] at h1; cases h1
      | observed => rw [hkn] at h1; cases h1
      | plain =>
        rw [hkn] at h1
        exact Or.inl ⟨h1, h2, h3.tail ⟨hp, hkn⟩⟩
    · exact Or.inr ⟨d, h1, ⟨q, h2, h2'⟩, h3, h4.tail ⟨hp, hk⟩, h5⟩

theorem found_plain (g : Net) (m n : Nat) (hm : g.kind m = .observed)
    (h : Relation.ReflTransGen (g.Step (· = .plain)) m n) : Found g n true m := by
  induction h with
  | refl => exact Found.here m hm
  | tail _ hs ih =>
    rename_i b c _
    refine Found.back c b m true (by rw [hs.2]; decide) hs.1 ?_
    rw [hs.2]; exact ih

theorem found_path (g : Net) (m d n : Nat) (hd : ∀ s, Found g d s m)
    (h : Relation.ReflTransGen (g.Step (· ≠ .func)) d n) : ∀ s, Found g n s m := by
  induction h with
  | refl => exact hd
  | tail _ hs ih =>
    rename_i b c _
    intro s
    exact Found.back c b m s hs.2 hs.1 (ih _)

end OnnxLeaves

open OnnxLeaves

/-- C145: the layers found are exactly those whose result is dequantized on a way to an output that goes through layers only. -/
theorem C145_leaves (g : Net) (ha : g.Acyclic) (m : Nat) : m ∈ leafNodes g ↔ g.Leaves m := by
  unfold leafNodes
  rw [List.mem_flatMap]
  constructor
  · rintro ⟨o, ho, h⟩
    have hf := (mem_visit g ha _ _ _ (Nat.lt_succ_self o) m).mp h
    rcases found_true g o m false hf with ⟨h1, _⟩ | ⟨d, h1, ⟨p, h2, h2'⟩, h3, h4, h5⟩
    · cases h1
    · exact ⟨h3, p, d, h2, h2', h1, h5, o, ho, h4⟩
  · rintro ⟨hm, p, d, h1, h2, h3, h4, o, ho, h5⟩
    refine ⟨o, ho, (mem_visit g ha _ _ _ (Nat.lt_succ_self o) m).mpr ?_⟩
    refine found_path g m d o (fun s => ?_) h5 false
    refine Found.back d p m s h4 h2 ?_
    rw [h3]
    exact found_plain g m p hm h1

/-- C145: a layer with a quantizer of which no result is dequantized keeps quantizing. -/
theorem C145_inner (g : Net) (ha : g.Acyclic) (m : Nat) (hm : g.kind m = .observed)
    (hr : ∀ p d, Relation.ReflTransGen (g.Step (· = .plain)) m p → p ∈ g.reads d → g.kind d ≠ .dequant) : quantizes g m = true := by
  unfold quantizes
  simp only [hm, decide_true, Bool.true_and, Bool.not_eq_true', Bool.eq_false_iff, ne_eq, List.contains_iff_mem]
  rw [C145_leaves g ha]
  rintro ⟨_, p, d, h1, h2, h3, _⟩
  exact hr p d h1 h2 h3

/-- A net given by its list of nodes. -/
def netOf (ns : List (Kind × List Nat)) (outs : List Nat) : Net :=
  ⟨fun v => (ns.getD v (.plain, [])).1, fun v => (ns.getD v (.plain, [])).2, outs⟩

theorem netOf_acyclic (ns : List (Kind × List Nat)) (outs : List Nat) (h : ∀ v < ns.length, ∀ u ∈ (ns.getD v (.plain, [])).2, u < v) :
    (netOf ns outs).Acyclic := by
  intro v u hu
  by_cases hv : v < ns.length
  · exact h v hv u hu
  · simp [netOf, List.getElem?_eq_none (Nat.le_of_not_lt hv)] at hu

/-- C145 is false for values that are read twice: a layer whose result is an output and is also read by a quantized layer stops
quantizing, so the quantized layer reads values that are not quantized. -/
theorem C145_reader_false : ∃ g : Net, g.Acyclic ∧ ∃ m r, g.kind m = .observed ∧ g.kind r = .observed ∧ m ∈ g.reads r ∧
    quantizes g m = false :=
  ⟨netOf [(.quant, []), (.observed, [0]), (.dequant, [1]), (.observed, [1]), (.dequant, [3])] [2, 4],
    netOf_acyclic _ _ (by decide), 1, 3, rfl, rfl, by decide, by decide⟩

/-- C145 is false when a function comes after dequantizing: the result of the last quantized layer is read by nothing but a DeQuantStub,
whose result goes through a function to the output, and the layer keeps its quantizer. -/
theorem C145_func_false : ∃ g : Net, g.Acyclic ∧ ∃ m d f, g.kind m = .observed ∧ g.kind d = .dequant ∧ g.kind f = .func ∧
    g.reads d = [m] ∧ g.reads f = [d] ∧ g.outputs = [f] ∧ (∀ v, m ∈ g.reads v → v = d) ∧ quantizes g m = true := by
  refine ⟨netOf [(.quant, []), (.observed, [0]), (.dequant, [1]), (.func, [2])] [3], netOf_acyclic _ _ (by decide), 1, 2, 3, rfl, rfl, rfl,
    rfl, rfl, rfl, fun v hv => ?_, by decide⟩
  match v, hv with
  | 0, hv => simp [netOf] at hv
  | 1, hv => simp [netOf] at hv
  | 2, _ => rfl
  | 3, hv => simp [netOf] at hv
  | v + 4, hv => simp [netOf] at hv

/-- Layers in a row, each reading `d` results of the one before (as LSTMs that pass on their states do). -/
def rowNet (d : Nat) : Net := ⟨fun _ => .plain, fun v => if v = 0 then [] else List.replicate d (v - 1), []⟩

/-- C145: the search handles a node once for every way to it, so its effort is exponential in the number of layers. -/
theorem C145_steps_false (d k : Nat) : d ^ k ≤ steps (rowNet d) (k + 1) k := by
  induction k with
  | zero => simp [steps]
  | succ k ih =>
    rw [steps]
    have h1 : (rowNet d).kind (k + 1) ≠ .func := by simp [rowNet]
    have h2 : (rowNet d).reads (k + 1) = List.replicate d k := by simp [rowNet]
    rw [if_neg h1, h2, List.map_replicate, List.sum_replicate_nat]
    have := Nat.mul_le_mul_left d ih
    rw [pow_succ]
    rw [Nat.mul_comm] at this
    calc d ^ k * d ≤ d * steps (rowNet d) (k + 1) k := by rw [Nat.mul_comm (d ^ k)]; exact Nat.mul_le_mul_left d ih
      _ ≤ _ := by omega

/-- conv → relu without quantizer → dequantize → output: the convolution does not quantize, the layer before it does. -/
example : let g := netOf [(.quant, []), (.observed, [0]), (.observed, [1]), (.plain, [2]), (.dequant, [3])] [4]
    g.Acyclic ∧ leafNodes g = [2] ∧ quantizes g 1 = true ∧ quantizes g 2 = false ∧ g.Leaves 2 := by
  have ha : (netOf [(.quant, []), (.observed, [0]), (.observed, [1]), (.plain, [2]), (.dequant, [3])] [4]).Acyclic :=
    netOf_acyclic _ _ (by decide)
  exact ⟨ha, by decide, by decide, by decide, (C145_leaves _ ha 2).mp (by decide)⟩

end Verif.Props
