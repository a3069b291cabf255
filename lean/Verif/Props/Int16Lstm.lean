import Verif.Model.Int16Lstm
import Mathlib.Tactic.Linarith
import Mathlib.Tactic.NormNum
import Mathlib.Tactic.Ring
import Mathlib.Tactic.FieldSimp
import Mathlib.Tactic.Positivity

/-!
C138: biases, cell state and hidden state of integer LSTM operators.
-/

namespace Verif.Props
open Verif.Spec.Int16Lstm Verif.Model.Int16Lstm

/-- The unit of the sums of a gate. -/
def unitOf (n : Lstm) (m : ℕ × ℕ) : ℚ := n.weight m.1 * n.input.scale

/-- What the bias of a gate should be stored as. -/
def goodBias (r : ℚ → ℤ) (buffer : String → List ℚ) (n : Lstm) (m : ℕ × ℕ) : QBias := ⟨(buffer (n.bias m.2)).map fun b => r (b / unitOf n m), unitOf n m⟩

/-- A bias that is used twice is used with one unit. -/
def OneUnit (ns : List Lstm) : Prop := ∀ n ∈ ns, ∀ n' ∈ ns, ∀ m ∈ biasMapping, ∀ m' ∈ biasMapping, n.bias m.2 = n'.bias m'.2 → unitOf n m = unitOf n' m'

def BiasInv (r : ℚ → ℤ) (buffer : String → List ℚ) (ns : List Lstm) (replaced : List (String × QBias)) : Prop :=
  ∀ n ∈ ns, ∀ m ∈ biasMapping, ∀ q, replaced.lookup (n.bias m.2) = some q → q = goodBias r buffer n m

theorem biasStep_good (r : ℚ → ℤ) (buffer : String → List ℚ) (ns : List Lstm) (hu : OneUnit ns) (n : Lstm) (hn : n ∈ ns) (m : ℕ × ℕ) (hm : m ∈ biasMapping) (s : List (String × QBias) × List (ℕ × QBias)) (h : BiasInv r buffer ns s.1) :
    BiasInv r buffer ns (biasStep r buffer n s m).1 ∧ (biasStep r buffer n s m).2 = s.2 ++ [(m.2, goodBias r buffer n m)] := by
  unfold biasStep
  cases hl : s.1.lookup (n.bias m.2) with
  | some old =>
    simp only [hl]
    refine ⟨h, ?_⟩
    rw [h n hn m hm old hl]
  | none =>
    simp only [hl]
    refine ⟨fun n' hn' m' hm' q hq => ?_, rfl⟩
    rw [List.lookup_append] at hq
    cases ho : s.1.lookup (n'.bias m'.2) with
    | some o =>
      rw [ho] at hq
      exact h n' hn' m' hm' q (by rw [ho]; exact hq)
    | none =>
      rw [ho, Option.none_or, List.lookup_cons] at hq
      by_cases he : n'.bias m'.2 = n.bias m.2
      · have hb : (n'.bias m'.2 == n.bias m.2) = true := beq_iff_eq.mpr he
        rw [hb] at hq
        obtain rfl := Option.some.inj hq
        have hunit := hu n hn n' hn' m hm m' hm' he.symm
        unfold goodBias
        rw [← hunit, he]
        rfl
      · have hb : (n'.bias m'.2 == n.bias m.2) = false := beq_eq_false_iff_ne.mpr he
        rw [hb] at hq
        simp at hq

theorem biasFold_good (r : ℚ → ℤ) (buffer : String → List ℚ) (ns : List Lstm) (hu : OneUnit ns) (n : Lstm) (hn : n ∈ ns) : ∀ (ms : List (ℕ × ℕ)) (_ : ms ⊆ biasMapping) (s : List (String × QBias) × List (ℕ × QBias)), BiasInv r buffer ns s.1 →
    BiasInv r buffer ns (ms.foldl (biasStep r buffer n) s).1 ∧ (ms.foldl (biasStep r buffer n) s).2 = s.2 ++ ms.map fun m => (m.2, goodBias r buffer n m)
  | [], _, s, h => ⟨h, by simp⟩
  | m :: ms, hms, s, h => by
    obtain ⟨h1, h2⟩ := biasStep_good r buffer ns hu n hn m (hms List.mem_cons_self) s h
    obtain ⟨h3, h4⟩ := biasFold_good r buffer ns hu n hn ms (fun x hx => hms (List.mem_cons_of_mem _ hx)) _ h1
    refine ⟨h3, ?_⟩
    show (ms.foldl (biasStep r buffer n) (biasStep r buffer n s m)).2 = _
    rw [h4, h2]
    simp

theorem pass_biases (r : ℚ → ℤ) (buffer : String → List ℚ) (all : List Lstm) (hu : OneUnit all) : ∀ (ns : List Lstm) (_ : ns ⊆ all) (replaced : List (String × QBias)) (outs : List Out), BiasInv r buffer all replaced → pass r buffer replaced ns = some outs →
    outs.length = ns.length ∧ ∀ (i : ℕ) (n : Lstm) (o : Out), ns[i]? = some n → outs[i]? = some o → o.biases = biasMapping.map fun m => (m.2, goodBias r buffer n m)
  | [], _, replaced, outs, _, h => by
    obtain rfl := Option.some.inj h
    exact ⟨rfl, fun i n o hn => by simp at hn⟩
  | n :: ns, hs, replaced, outs, hi, h => by
    change ((n.cellOut.map _).bind _) = some outs at h
    cases hc : n.cellOut with
    | none => rw [hc] at h; simp at h
    | some q =>
      rw [hc] at h
      obtain ⟨h1, h2⟩ := biasFold_good r buffer all hu n (hs List.mem_cons_self) biasMapping (fun _ h => h) (replaced, []) hi
      simp only [Option.map_some, Option.bind_some] at h
      cases hp : pass r buffer (biasMapping.foldl (biasStep r buffer n) (replaced, [])).1 ns with
      | none => rw [hp] at h; simp at h
      | some os =>
        rw [hp] at h
        obtain rfl := Option.some.inj h
        obtain ⟨h3, h4⟩ := pass_biases r buffer all hu ns (fun x hx => hs (List.mem_cons_of_mem _ hx)) _ os h1 hp
        refine ⟨by simp [h3], fun i n' o hn' ho => ?_⟩
        cases i with
        | zero =>
          simp only [List.getElem?_cons_zero, Option.some.injEq] at hn' ho
          rw [← hn', ← ho]
          simpa using h2
        | succ i =>
          simp only [List.getElem?_cons_succ] at hn' ho
          exact h4 i n' o hn' ho

/-- C138, in part: the bias of every gate of every operator is stored in the unit of the sums of this gate, and what the kernel adds for it is at most half a unit from it.
Missing: biases used for sums with different units (`C138_shared_false`). -/
theorem C138_bias_partial (r : ℚ → ℤ) (hr : Nearest r) (buffer : String → List ℚ) (ns : List Lstm) (outs : List Out) (hp : pass r buffer [] ns = some outs) (hu : OneUnit ns)
    (hpos : ∀ n ∈ ns, 0 < n.input.scale ∧ ∀ g : Gate, 0 < n.weight g.weightIndex) (i : ℕ) (n : Lstm) (o : Out) (hn : ns[i]? = some n) (ho : outs[i]? = some o) (g : Gate) :
    ∃ q, o.biases.lookup g.biasIndex = some q ∧ q.scale = n.weight g.weightIndex * n.input.scale ∧ q.data.length = (buffer (n.bias g.biasIndex)).length ∧
      ∀ (j : ℕ) (z : ℤ) (b : ℚ), q.data[j]? = some z → (buffer (n.bias g.biasIndex))[j]? = some b → |biasEffect (n.weight g.weightIndex) n.input.scale z - b| ≤ n.weight g.weightIndex * n.input.scale / 2 := by
  have hb := (pass_biases r buffer ns hu ns (fun _ h => h) [] outs (fun n _ m _ q hq => by simp at hq) hp).2 i n o hn ho
  refine ⟨goodBias r buffer n (g.weightIndex, g.biasIndex), ?_, rfl, by simp [goodBias], fun j z b hz hbuf => ?_⟩
  · rw [hb]
    cases g <;> rfl
  · have hmem : n ∈ ns := List.mem_of_getElem? hn
    have hu0 : 0 < n.weight g.weightIndex * n.input.scale := mul_pos ((hpos n hmem).2 g) (hpos n hmem).1
    have hz' : r (b / (n.weight g.weightIndex * n.input.scale)) = z := by
      have : ((buffer (n.bias g.biasIndex)).map fun b => r (b / unitOf n (g.weightIndex, g.biasIndex)))[j]? = some z := hz
      rw [List.getElem?_map, hbuf] at this
      exact Option.some.inj this
    unfold biasEffect
    have h := hr (b / (n.weight g.weightIndex * n.input.scale))
    rw [hz'] at h
    set u := n.weight g.weightIndex * n.input.scale
    have he : (z : ℚ) * u - b = ((z : ℚ) - b / u) * u := by field_simp
    rw [he, abs_mul, abs_of_pos hu0]
    have := mul_le_mul_of_nonneg_right h hu0.le
    linarith

/-- C138: the pass fails only if the cell output of some operator was not quantized. -/
theorem C138_defined (r : ℚ → ℤ) (buffer : String → List ℚ) : ∀ (ns : List Lstm) (replaced : List (String × QBias)), (∀ n ∈ ns, n.cellOut ≠ none) → (pass r buffer replaced ns).isSome
  | [], _, _ => rfl
  | n :: ns, replaced, h => by
    cases hc : n.cellOut with
    | none => exact absurd hc (h n List.mem_cons_self)
    | some q =>
      have ih := C138_defined r buffer ns (biasMapping.foldl (biasStep r buffer n) (replaced, [])).1 fun x hx => h x (List.mem_cons_of_mem _ hx)
      obtain ⟨os, hos⟩ := Option.isSome_iff_exists.mp ih
      unfold pass lstmStep
      rw [hc]
      simp [hos]

/-- The quantizations of an operator after the pass. -/
theorem pass_states (r : ℚ → ℤ) (buffer : String → List ℚ) : ∀ (ns : List Lstm) (replaced : List (String × QBias)) (outs : List Out), pass r buffer replaced ns = some outs → ∀ (i : ℕ) (n : Lstm) (o : Out), ns[i]? = some n → outs[i]? = some o →
    ∃ q, n.cellOut = some q ∧ o.state = n.output ∧ o.cell = ⟨cellPot q / 32768, 0⟩ ∧ o.hidden = ⟨n.output.scale, 0⟩
  | [], _, _, _, i, n, o, hn, _ => by simp at hn
  | n :: ns, replaced, outs, h, i, n', o, hn, ho => by
    change ((n.cellOut.map _).bind _) = some outs at h
    cases hc : n.cellOut with
    | none => rw [hc] at h; simp at h
    | some q =>
      rw [hc] at h
      simp only [Option.map_some, Option.bind_some] at h
      cases hp : pass r buffer (biasMapping.foldl (biasStep r buffer n) (replaced, [])).1 ns with
      | none => rw [hp] at h; simp at h
      | some os =>
        rw [hp] at h
        obtain rfl := Option.some.inj h
        cases i with
        | zero =>
          simp only [List.getElem?_cons_zero, Option.some.injEq] at hn ho
          rw [← hn, ← ho]
          exact ⟨q, hc, rfl, rfl, rfl⟩
        | succ i =>
          simp only [List.getElem?_cons_succ] at hn ho
          exact pass_states r buffer ns _ os hp i n' o hn ho

/-- The largest number the observed cell state has. -/
def mostCell (q : QP) : ℚ := max |q.scale * (127 - q.zp)| |q.scale * (-128 - q.zp)|

theorem value_le_most (q : QP) (c : ℤ) (hl : -128 ≤ c) (hh : c ≤ 127) (hs : 0 < q.scale) : |q.value c| ≤ mostCell q := by
  unfold QP.value mostCell
  have h1 : (c : ℚ) ≤ 127 := by exact_mod_cast hh
  have h2 : (-128 : ℚ) ≤ c := by exact_mod_cast hl
  rcases le_total 0 ((c : ℚ) - q.zp) with h | h
  · refine le_trans ?_ (le_max_left _ _)
    rw [abs_of_nonneg (mul_nonneg hs.le h), abs_of_nonneg (mul_nonneg hs.le (by linarith))]
    exact mul_le_mul_of_nonneg_left (by linarith) hs.le
  · refine le_trans ?_ (le_max_right _ _)
    rw [abs_of_nonpos (mul_nonpos_of_nonneg_of_nonpos hs.le h), abs_of_nonpos (mul_nonpos_of_nonneg_of_nonpos hs.le (by linarith))]
    have := mul_le_mul_of_nonneg_left (show -((c : ℚ) - q.zp) ≤ -(-128 - (q.zp : ℚ)) by linarith) hs.le
    linarith

theorem mostCell_pos (q : QP) (hs : 0 < q.scale) : 0 < mostCell q := by
  unfold mostCell
  by_cases h : (127 - q.zp : ℚ) = 0
  · refine lt_of_lt_of_le ?_ (le_max_right _ _)
    refine abs_pos.mpr (mul_ne_zero hs.ne' ?_)
    intro h'
    linarith
  · exact lt_of_lt_of_le (abs_pos.mpr (mul_ne_zero hs.ne' h)) (le_max_left _ _)

theorem cellPot_range (q : QP) (hs : 0 < q.scale) : mostCell q ≤ cellPot q ∧ 1 ≤ cellPot q ∧ (cellPot q = 1 ∨ cellPot q < 2 * mostCell q) := by
  have hm := mostCell_pos q hs
  have hle : mostCell q ≤ (2 : ℚ) ^ Int.clog 2 (mostCell q) := by exact_mod_cast Int.self_le_zpow_clog (b := 2) (by norm_num) (mostCell q)
  have hpred : (2 : ℚ) ^ (Int.clog 2 (mostCell q) - 1) < mostCell q := by exact_mod_cast Int.zpow_pred_clog_lt_self (b := 2) (by norm_num) hm
  have hdef : cellPot q = (2 : ℚ) ^ (max (Int.clog 2 (mostCell q)) 0) := rfl
  rcases le_total (Int.clog 2 (mostCell q)) 0 with h | h
  · rw [hdef, max_eq_right h, zpow_zero]
    refine ⟨hle.trans ?_, le_refl _, Or.inl rfl⟩
    have := zpow_le_zpow_right₀ (show (1 : ℚ) ≤ 2 by norm_num) h
    simpa using this
  · rw [hdef, max_eq_left h]
    refine ⟨hle, ?_, Or.inr ?_⟩
    · have := zpow_le_zpow_right₀ (show (1 : ℚ) ≤ 2 by norm_num) h
      simpa using this
    · have h2 : (2 : ℚ) ^ Int.clog 2 (mostCell q) = 2 * 2 ^ (Int.clog 2 (mostCell q) - 1) := by
        rw [zpow_sub_one₀ (by norm_num)]
        ring
      rw [h2]
      linarith

/-- C138: the 16-bit cell state holds every value the observed 8-bit cell state can have: stored to the nearest step, up to half a step, except the power of two at the very end of the range, which is one step off.
The range is a power of two, at least one, and less than twice as large as needed unless it is one. -/
theorem C138_cell (r : ℚ → ℤ) (hr : Nearest r) (buffer : String → List ℚ) (ns : List Lstm) (outs : List Out) (hp : pass r buffer [] ns = some outs) (i : ℕ) (n : Lstm) (o : Out) (hn : ns[i]? = some n) (ho : outs[i]? = some o)
    (q : QP) (hq : n.cellOut = some q) (hs : 0 < q.scale) (c : ℤ) (hl : -128 ≤ c) (hh : c ≤ 127) :
    o.cell.zp = 0 ∧ 0 < o.cell.scale ∧ (∃ k : ℕ, o.cell.scale * 32768 = 2 ^ k) ∧ (o.cell.scale * 32768 = 1 ∨ o.cell.scale * 32768 < 2 * mostCell q) ∧
    |o.cell.value (o.cell.store r (-32768) 32767 (q.value c)) - q.value c| ≤ o.cell.scale ∧
    (q.value c ≤ o.cell.scale * 32767 → |o.cell.value (o.cell.store r (-32768) 32767 (q.value c)) - q.value c| ≤ o.cell.scale / 2) := by
  obtain ⟨q', hq', _, hcell, _⟩ := pass_states r buffer ns [] outs hp i n o hn ho
  rw [hq] at hq'
  obtain rfl := Option.some.inj hq'
  rw [hcell]
  obtain ⟨hm, h1, h2⟩ := cellPot_range q hs
  have hv := value_le_most q c hl hh hs
  set P := cellPot q with hP
  set x := q.value c with hx
  have hSpos : 0 < P / 32768 := by linarith
  have hxP : |x| ≤ P := hv.trans hm
  obtain ⟨hx1, hx2⟩ := abs_le.mp hxP
  have hP' : P / 32768 * 32768 = P := by ring
  have hstore : (⟨P / 32768, 0⟩ : QP).store r (-32768) 32767 x = max (-32768) (min 32767 (r (x / (P / 32768)))) := by simp [QP.store]
  have hval : ∀ z : ℤ, (⟨P / 32768, 0⟩ : QP).value z = P / 32768 * z := fun z => by simp [QP.value]
  set S := P / 32768 with hS
  have hxS1 : -32768 ≤ x / S := by rw [le_div_iff₀ hSpos]; linarith
  have hxS2 : x / S ≤ 32768 := by rw [div_le_iff₀ hSpos]; linarith
  have hrx := abs_le.mp (hr (x / S))
  have hrlo : -32768 ≤ r (x / S) := by
    have : (-32769 : ℚ) < r (x / S) := by linarith
    have : (-32769 : ℤ) < r (x / S) := by exact_mod_cast this
    omega
  have hrhi : r (x / S) ≤ 32768 := by
    have : (r (x / S) : ℚ) < 32769 := by linarith
    have : r (x / S) < 32769 := by exact_mod_cast this
    omega
  have hxeq : x = S * (x / S) := by field_simp
  refine ⟨rfl, hSpos, ⟨(max (Int.clog 2 (mostCell q)) 0).toNat, ?_⟩, ?_, ?_, ?_⟩
  · show S * 32768 = _
    rw [hP']
    have hk : ((max (Int.clog 2 (mostCell q)) 0).toNat : ℤ) = max (Int.clog 2 (mostCell q)) 0 := Int.toNat_of_nonneg (le_max_right _ _)
    rw [← zpow_natCast, hk]
    rfl
  · show S * 32768 = 1 ∨ S * 32768 < _
    rw [hP']
    exact h2
  · rw [hstore, hval, max_eq_right (by omega)]
    rcases le_or_gt (r (x / S)) 32767 with h | h
    · rw [min_eq_right h]
      have : S * (r (x / S) : ℚ) - x = S * ((r (x / S) : ℚ) - x / S) := by rw [mul_sub, ← hxeq]
      rw [this, abs_mul, abs_of_pos hSpos]
      have := mul_le_mul_of_nonneg_left (hr (x / S)) hSpos.le
      show _ ≤ S
      linarith
    · have hr' : r (x / S) = 32768 := by omega
      rw [min_eq_left (by omega)]
      show |S * ((32767 : ℤ) : ℚ) - x| ≤ S
      have h3 : (32768 : ℚ) - x / S ≤ 1 / 2 := by
        rw [hr'] at hrx
        have := hrx.2
        push_cast at this
        linarith
      have : S * ((32767 : ℤ) : ℚ) - x = S * (32767 - x / S) := by rw [mul_sub, ← hxeq]; push_cast; ring
      rw [this, abs_mul, abs_of_pos hSpos]
      have hab : |32767 - x / S| ≤ 1 := by
        rw [abs_le]
        constructor <;> linarith
      have := mul_le_mul_of_nonneg_left hab hSpos.le
      linarith
  · intro hx3
    have hx3 : x ≤ S * 32767 := hx3
    have hx4 : x / S ≤ 32767 := by rw [div_le_iff₀ hSpos]; linarith
    rw [hstore, hval, max_eq_right (by omega)]
    have h : r (x / S) ≤ 32767 := by
      have : (r (x / S) : ℚ) < 32768 := by linarith
      have : r (x / S) < 32768 := by exact_mod_cast this
      omega
    rw [min_eq_right h]
    have : S * (r (x / S) : ℚ) - x = S * ((r (x / S) : ℚ) - x / S) := by rw [mul_sub, ← hxeq]
    rw [this, abs_mul, abs_of_pos hSpos]
    have := mul_le_mul_of_nonneg_left (hr (x / S)) hSpos.le
    show _ ≤ S / 2
    linarith

/-- C138, in part: what the kernel stores for an element of the output in the range of the output tensor is at most half a step from it, and the state has the output's quantization.
Missing: outputs with a zero point (`C138_hidden_false`). -/
theorem C138_hidden_partial (r : ℚ → ℤ) (hr : Nearest r) (buffer : String → List ℚ) (ns : List Lstm) (outs : List Out) (hp : pass r buffer [] ns = some outs) (i : ℕ) (n : Lstm) (o : Out) (hn : ns[i]? = some n) (ho : outs[i]? = some o)
    (hs : 0 < n.output.scale) (hz : n.output.zp = 0) (y : ℚ) (h1 : n.output.value (-128) ≤ y) (h2 : y ≤ n.output.value 127) :
    o.state = n.output ∧ |n.output.value (hiddenCode r o.hidden y) - y| ≤ n.output.scale / 2 := by
  obtain ⟨q, _, hst, _, hh⟩ := pass_states r buffer ns [] outs hp i n o hn ho
  refine ⟨hst, ?_⟩
  rw [hh]
  unfold QP.value at *
  rw [hz] at *
  set S := n.output.scale
  have hcode : hiddenCode r ⟨S, 0⟩ y = max (-128) (min 127 (r (y / S))) := by simp [hiddenCode, QP.store]
  push_cast at h1 h2
  have hy1 : -128 ≤ y / S := by rw [le_div_iff₀ hs]; linarith
  have hy2 : y / S ≤ 127 := by rw [div_le_iff₀ hs]; linarith
  have hrx := abs_le.mp (hr (y / S))
  have hrlo : -128 ≤ r (y / S) := by
    have : (-129 : ℚ) < r (y / S) := by linarith
    have : (-129 : ℤ) < r (y / S) := by exact_mod_cast this
    omega
  have hrhi : r (y / S) ≤ 127 := by
    have : (r (y / S) : ℚ) < 128 := by linarith
    have : r (y / S) < 128 := by exact_mod_cast this
    omega
  rw [hcode, min_eq_right hrhi, max_eq_right hrlo]
  have hyeq : y = S * (y / S) := by field_simp
  have : S * ((r (y / S) : ℚ) - ((0 : ℤ) : ℚ)) - y = S * ((r (y / S) : ℚ) - y / S) := by rw [mul_sub S (r (y / S) : ℚ) (y / S), ← hyeq]; push_cast; ring
  rw [this, abs_mul, abs_of_pos hs]
  have := mul_le_mul_of_nonneg_left (hr (y / S)) hs.le
  linarith

theorem nearest_round : Nearest (fun x => round x) := fun x => by
  rw [abs_sub_comm]
  exact abs_sub_round x

/-- An operator with a scale of 1/2 for its input, and scales 1, 2, 3 and 4 for its weights. -/
def lstmA : Lstm := ⟨fun i => i, fun i => if i = 12 then "bi" else if i = 13 then "bf" else if i = 14 then "bc" else "bo", ⟨1 / 2, 3⟩, ⟨1 / 128, 0⟩, some ⟨1 / 32, 5⟩⟩

theorem lstmA_unit : OneUnit [lstmA, lstmA] := by
  intro n hn n' hn' m hm m' hm' h
  simp only [List.mem_cons, List.not_mem_nil, or_false, or_self] at hn hn'
  subst hn
  subst hn'
  simp only [biasMapping, List.mem_cons, List.not_mem_nil, or_false] at hm hm'
  rcases hm with rfl | rfl | rfl | rfl <;> rcases hm' with rfl | rfl | rfl | rfl <;> first | rfl | (exact absurd h (by decide))

example (buffer : String → List ℚ) : ∃ outs, pass (fun x => round x) buffer [] [lstmA, lstmA] = some outs ∧ OneUnit [lstmA, lstmA] := by
  have h := C138_defined (fun x => round x) buffer [lstmA, lstmA] [] (by intro n hn; simp only [List.mem_cons, List.not_mem_nil, or_false, or_self] at hn; subst hn; simp [lstmA])
  obtain ⟨o, ho⟩ := Option.isSome_iff_exists.mp h
  exact ⟨o, ho, lstmA_unit⟩

/-- An operator whose gates share a bias, as equal constants do (C73), with weights of different scales. -/
def lstmShared : Lstm := ⟨fun i => if i = 1 then 1 else 3, fun _ => "b", ⟨1, 0⟩, ⟨1 / 128, 0⟩, some ⟨1 / 32, 5⟩⟩

/-- C138 fails for a bias several gates share: it is stored in the unit of the first one, and counts three times for the others. -/
theorem C138_shared_false : ∃ outs o q, pass (fun x => round x) (fun _ => [1]) [] [lstmShared] = some outs ∧ outs[0]? = some o ∧ o.biases.lookup Gate.forget.biasIndex = some q ∧ q.data = [1] ∧
    biasEffect (lstmShared.weight Gate.forget.weightIndex) lstmShared.input.scale 1 = 3 := by
  refine ⟨_, _, _, rfl, rfl, rfl, ?_, ?_⟩
  · norm_num [biasStep, lstmShared]
  · norm_num [biasEffect, lstmShared, Gate.weightIndex]

/-- C138 fails for outputs with a zero point: the intermediate tensor has none, and an output of zero is read as ten steps. -/
theorem C138_hidden_false : ∃ (n : Lstm) (outs : List Out) (o : Out), pass (fun x => round x) (fun _ => []) [] [n] = some outs ∧ outs[0]? = some o ∧ n.output.value (-128) ≤ 0 ∧ 0 ≤ n.output.value 127 ∧
    n.output.value (hiddenCode (fun x => round x) o.hidden 0) = 10 * n.output.scale := by
  refine ⟨{ lstmA with output := ⟨1 / 128, -10⟩ }, _, _, rfl, rfl, ?_, ?_, ?_⟩ <;> norm_num [QP.value, hiddenCode, QP.store]

/-- C138 fails if the cell output of an operator is not quantized, for example because nothing reads it: the pass raises a KeyError. -/
theorem C138_missing_false : pass (fun x => round x) (fun _ => []) [] [{ lstmA with cellOut := none }] = none := rfl

end Verif.Props
