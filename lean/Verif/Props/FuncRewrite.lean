import Verif.Lemmas.FuncAccept
import Verif.Lemmas.FuncLeft
import Mathlib.Tactic.NormNum
import Mathlib.Tactic.FinCases

/-!
C87: the functional operations of a float model are rewritten before quantization into operations that have a quantized counterpart; the outputs of the model stay the same.
-/

namespace Verif.Props
open Verif.Spec Verif.Spec.FuncCall Verif.Model.FuncRewrite Verif.Lemmas.FuncRewrite

/-- A name of the traced program (not one introduced by the rewriting). -/
def Traced (n : Name) : Prop := ∃ k, n = .out k

/-- A traced program of calls whose names are traced, with inputs `E`. -/
structure TracedProgram (p : List Instr) (outs : List Name) (E : Env) : Prop where
  calls : ∀ i ∈ p, Traced i.out ∧ ∀ n ∈ i.ins, Traced n
  outputs : ∀ o ∈ outs, Traced o
  inputs : ∀ n v, E n = some v → Traced n
  wellFormed : WellFormed (fun n => ∃ v, E n = some v) p

private theorem traced_aux {n : Name} (h : Traced n) : ¬ auxSub n ∧ ¬ auxStack n := by
  obtain ⟨k, rfl⟩ := h
  exact ⟨by rintro ⟨m, h⟩; simp at h, by rintro ⟨m, j, h⟩; simp at h⟩

private theorem traced_avoids {p : List Instr} {outs : List Name} {E : Env} (h : TracedProgram p outs E) : ∀ i ∈ p, Avoids auxSub i ∧ Avoids auxStack i := fun i hi =>
  ⟨⟨(traced_aux (h.calls i hi).1).1, fun n hn => (traced_aux ((h.calls i hi).2 n hn)).1⟩, ⟨(traced_aux (h.calls i hi).1).2, fun n hn => (traced_aux ((h.calls i hi).2 n hn)).2⟩⟩

/-- **C87** (partial: over the real numbers; for the calls described in `Supported`). Whenever the rewriting of a traced program returns, and the program runs on an input, then the rewritten program runs
on it too and returns the same outputs: for every program, every choice of layers excluded from quantization, every mode of the model, every meaning of dropout and of unlisted functions. -/
theorem C87_rewrites_partial (w : World) (p p' : List Instr) (outs : List Name) (E E1 : Env) (hT : TracedProgram p outs E) (hS : ∀ i ∈ p, Supported w i)
    (hp : rewrite outs p = some p') (hr : run w p E = some E1) : ∃ E1', run w p' E = some E1' ∧ ∀ o ∈ outs, ∀ v, E1 o = some v → E1' o = some v :=
  rewrite_ok w hp (fun n v h => traced_aux (hT.inputs n v h)) (traced_avoids hT) (fun o ho => traced_aux (hT.outputs o ho)) hT.wellFormed hS hr

/-- The rewriting returns, for programs that run and whose numbers it can read. -/
theorem C87_accepts_partial (w : World) (p : List Instr) (outs : List Name) (E E1 : Env) (hT : TracedProgram p outs E) (hS : ∀ i ∈ p, Supported w i) (hR : ∀ i ∈ p, Readable i)
    (hr : run w p E = some E1) : ∃ p', rewrite outs p = some p' :=
  rewrite_accepts w (fun n v h => traced_aux (hT.inputs n v h)) (traced_avoids hT) hT.wellFormed hS hR hr

/-- The functions that have no counterpart in a quantized model: negation, division by a number, differences, `stack`, sums, products, `cat`, activations, dropout. -/
def NeedsRewriting : Fn → Nat → Prop
  | .neg, _ | .stack, _ | .add, _ | .radd, _ | .mul, _ | .rmul, _ | .cat, _ => True
  | .relu, _ | .relu6, _ | .silu, _ | .hardswish, _ | .sigmoid, _ | .tanh, _ | .elu, _ | .leakyRelu, _ | .glu, _ | .dropout, _ => True
  | .div, n => n = 1
  | .sub, n | .rsub, n => n = 1 ∨ n = 2
  | _, _ => False

/-- **C87**: the rewriting is complete. No function that has to be rewritten is left on the float tensors of the layers to be quantized, whatever the program. -/
theorem C87_complete (p p' : List Instr) (outs : List Name) (hp : rewrite outs p = some p') (i : Instr) (hi : i ∈ p') (hon : i.on = true) (hf : i.float = true) (f : Fn) (a : Args)
    (ho : i.op = .fn f a) : ¬ NeedsRewriting f i.ins.length := by
  have := rewrite_left hp i hi hon hf f a ho
  intro h
  obtain ⟨⟨⟨⟨⟨⟨h1, h2⟩, h3⟩, h4⟩, h5⟩, h6⟩, h7⟩ := this
  unfold NeedsRewriting at h
  split at h <;> simp_all [A1]

/-! ### A case that meets the hypotheses -/

/-- `y = 3 - x / 4; z = relu(x + y); clamp(torch.stack([z, x, z], -1), 0, 6)`. -/
def frDemo : List Instr :=
  [⟨.out 1, .fn .div ⟨[.int 4], []⟩, [.out 0], true, true⟩,
   ⟨.out 2, .fn .rsub ⟨[.int 3], []⟩, [.out 1], true, true⟩,
   ⟨.out 3, .fn .add .empty, [.out 0, .out 2], true, true⟩,
   ⟨.out 4, .fn .relu .empty, [.out 3], true, true⟩,
   ⟨.out 5, .fn .stack ⟨[], [("axis", .int (-1))]⟩, [.out 4, .out 0, .out 4], true, true⟩,
   ⟨.out 6, .fn .clamp ⟨[.int 0], [("max", .float 6 true)]⟩, [.out 5], true, true⟩]

/-- What becomes of it. -/
example : rewrite [.out 6] frDemo = some
    [⟨.out 1, .ff .mulScalar ⟨[.float (1 / 4) true], []⟩, [.out 0], true, true⟩,
     ⟨.aux (.out 2) 0, .ff .mulScalar ⟨[.int (-1)], []⟩, [.out 1], true, true⟩,
     ⟨.out 2, .ff .addScalar ⟨[.int 3], []⟩, [.aux (.out 2) 0], true, true⟩,
     ⟨.out 4, .ff .addRelu .empty, [.out 0, .out 2], true, true⟩,
     ⟨.aux (.out 5) 1, .fn .unsqueeze ⟨[.int (-1)], []⟩, [.out 0], true, true⟩,
     ⟨.aux (.out 5) 2, .fn .unsqueeze ⟨[.int (-1)], []⟩, [.out 4], true, true⟩,
     ⟨.out 5, .ff .cat ⟨[], [("dim", .int (-1))]⟩, [.aux (.out 5) 2, .aux (.out 5) 1, .aux (.out 5) 2], true, true⟩,
     ⟨.out 6, .mod .relu6, [.out 5], true, true⟩] := by
  decide +kernel

def frEnv (t : Tensor ℝ) : Env := fun n => if n = .out 0 then some t else none

theorem frDemo_traced (t : Tensor ℝ) : TracedProgram frDemo [.out 6] (frEnv t) := by
  refine ⟨?_, ?_, ?_, ?_⟩
  · intro i hi
    simp only [frDemo, List.mem_cons, List.not_mem_nil, or_false] at hi
    rcases hi with rfl | rfl | rfl | rfl | rfl | rfl <;> simp [Traced]
  · simp [Traced]
  · intro n v h
    unfold frEnv at h
    split at h
    · rename_i hn; exact ⟨0, hn⟩
    · simp at h
  · simp [frDemo, WellFormed, frEnv]

private theorem bcRev_same : ∀ s : List Nat, bcRev s s = some s
  | [] => rfl
  | a :: s => by simp [bcRev, bcRev_same s]

private theorem elementwise_same (f : ℝ → ℝ → ℝ) (a b : Tensor ℝ) (h : b.shape = a.shape) : ∃ g, elementwise f a b = some ⟨a.shape, g⟩ := by
  unfold elementwise
  rw [h]
  simp [bcShape, bcRev_same]

private theorem exec_one {w : World} {i : Instr} {E : Env} {ts : List (Tensor ℝ)} {t : Tensor ℝ} (h1 : i.ins.mapM E = some ts) (h2 : i.op.sem w ts = some t) :
    i.exec w E = some (E.set i.out t) := by
  simp [Instr.exec, h1, h2]

/-- It runs on every tensor. -/
theorem frDemo_runs (w : World) (t : Tensor ℝ) : ∃ E1, run w frDemo (frEnv t) = some E1 ∧ ∃ v, E1 (.out 6) = some v := by
  obtain ⟨g, hg⟩ := elementwise_same (fun v k => v + ((1 : ℚ) : ℝ) * k) t (mapTensor (fun v => ((3 : ℚ) : ℝ) - v) (mapTensor (fun v => v / ((4 : ℚ) : ℝ)) t)) rfl
  have hd : ∃ a, dimOf (t.shape.length + 1) (-1) = some a := by
    unfold dimOf
    rw [if_neg (by omega), if_pos (by constructor <;> omega)]
    exact ⟨_, rfl⟩
  obtain ⟨a, ha⟩ := hd
  have b1 : ∀ n d v, bindArgs [(n, d)] false ⟨[v], []⟩ = some [v] := bind_one
  have b2 : bindArgs [("inplace", some (Lit.bool false))] false .empty = some [.bool false] := rfl
  have b3 : bindArgs [("min", some Lit.none), ("max", some Lit.none)] false ⟨[.int 0], [("max", .float 6 true)]⟩ = some [.int 0, .float 6 true] := rfl
  have b4 : dimArg ⟨[], [("axis", .int (-1))]⟩ = some (-1) := rfl
  have b5 : bindArgs [("alpha", some (Lit.int 1))] false ⟨[], []⟩ = some [.int 1] := rfl
  simp only [frDemo, run]
  rw [exec_one (ts := [t]) (t := mapTensor (fun v => v / ((4 : ℚ) : ℝ)) t) (by simp [frEnv])
    (by simp [Op.sem, Fn.sem, b1, Lit.num, withScalar])]
  simp only [Option.bind_some]
  rw [exec_one (ts := [mapTensor (fun v => v / ((4 : ℚ) : ℝ)) t]) (t := mapTensor (fun v => ((3 : ℚ) : ℝ) - v) (mapTensor (fun v => v / ((4 : ℚ) : ℝ)) t)) (by simp [Env.set])
    (by simp [Op.sem, Fn.sem, b1, Lit.num, withScalar])]
  simp only [Option.bind_some]
  rw [exec_one (ts := [t, mapTensor (fun v => ((3 : ℚ) : ℝ) - v) (mapTensor (fun v => v / ((4 : ℚ) : ℝ)) t)]) (t := ⟨t.shape, g⟩) (by simp [Env.set, frEnv])
    (by simp only [Op.sem, Fn.sem, Args.empty, b5, Lit.num, if_true, Option.bind_some]; simpa using hg)]
  simp only [Option.bind_some]
  rw [exec_one (ts := [⟨t.shape, g⟩]) (t := mapTensor reluR ⟨t.shape, g⟩) (by simp [Env.set]) (by simp [Op.sem, Fn.sem, b2])]
  simp only [Option.bind_some]
  have hst : ∃ u, stackT (-1) [mapTensor reluR ⟨t.shape, g⟩, t, mapTensor reluR ⟨t.shape, g⟩] = some u := by
    unfold stackT
    have ha' : dimOf ((mapTensor reluR ⟨t.shape, g⟩).shape.length + 1) (-1) = some a := ha
    simp only [ha', Option.bind_some]
    rw [if_pos (by simp [mapTensor])]
    exact ⟨_, rfl⟩
  obtain ⟨u, hu⟩ := hst
  rw [exec_one (ts := [mapTensor reluR ⟨t.shape, g⟩, t, mapTensor reluR ⟨t.shape, g⟩]) (t := u) (by simp [Env.set, frEnv])
    (by simp only [Op.sem, Fn.sem, b4, Option.bind_some]; exact hu)]
  simp only [Option.bind_some]
  rw [exec_one (ts := [u]) (t := mapTensor (Activation.clamp (some ((0 : ℚ) : ℝ)) (some ((6 : ℚ) : ℝ))) u) (by simp [Env.set])
    (by simp [Op.sem, Fn.sem, b3, clampBy, Lit.num])]
  exact ⟨_, rfl, _, by simp [Env.set]; rfl⟩

example (w : World) (t : Tensor ℝ) : TracedProgram frDemo [.out 6] (frEnv t) ∧ (∀ i ∈ frDemo, Supported w i) ∧ (∀ i ∈ frDemo, Readable i) ∧
    ∃ E1, run w frDemo (frEnv t) = some E1 ∧ ∃ v, E1 (.out 6) = some v := by
  refine ⟨frDemo_traced t, ?_, ?_, frDemo_runs w t⟩
  · intro i hi
    simp only [frDemo, List.mem_cons, List.not_mem_nil, or_false] at hi
    rcases hi with rfl | rfl | rfl | rfl | rfl | rfl <;> simp [Supported, Args.empty]
  · intro i hi
    simp only [frDemo, List.mem_cons, List.not_mem_nil, or_false] at hi
    rcases hi with rfl | rfl | rfl | rfl | rfl | rfl <;> simp [Readable]

/-! ### What fails -/

/-- One call, on the tensor or tensors 0 and 1. -/
def frOne (f : Fn) (a : Args) (ins : List Name) (float : Bool := true) : List Instr := [⟨.out 2, .fn f a, ins, true, float⟩]

/-- Inputs `x` and `y`. -/
def frXy (x y : Tensor ℝ) : Env := fun n => if n = .out 0 then some x else if n = .out 1 then some y else none

/-- A tensor of one number. -/
def frScalar (v : ℝ) : Tensor ℝ := ⟨[], fun _ => v⟩

/-- What a program returns for `x` and `y`, as a number at the empty index. -/
noncomputable def frResult (w : World) (p : List Instr) (x y : ℝ) : Option ℝ := (run w p (frXy (frScalar x) (frScalar y))).bind (fun E => (E (.out 2)).map (fun t => t.get []))

private theorem result_one {w : World} {i : Instr} {x y : ℝ} {ts : List (Tensor ℝ)} {t : Tensor ℝ} (ho : i.out = .out 2) (h1 : i.ins.mapM (frXy (frScalar x) (frScalar y)) = some ts)
    (h2 : i.op.sem w ts = some t) : frResult w [i] x y = some (t.get []) := by
  simp [frResult, run, exec_one h1 h2, ho, Env.set]

/-- `F.leaky_relu(x, negative_slope=0.2)`, the slope given by keyword, becomes the identity. -/
theorem C87_leaky_relu_keyword_false (w : World) :
    rewrite [.out 2] (frOne .leakyRelu ⟨[], [("negative_slope", .float (1 / 5) true)]⟩ [.out 0]) = some [⟨.out 2, .mod (.leakyRelu 1), [.out 0], true, true⟩] ∧
    frResult w (frOne .leakyRelu ⟨[], [("negative_slope", .float (1 / 5) true)]⟩ [.out 0]) (-1) 0 = some (-1 / 5) ∧
    frResult w [⟨.out 2, .mod (.leakyRelu 1), [.out 0], true, true⟩] (-1) 0 = some (-1) := by
  refine ⟨by decide +kernel, ?_, ?_⟩
  · have : bindArgs [("negative_slope", some (Lit.float (1 / 100) true)), ("inplace", some (.bool false))] false ⟨[], [("negative_slope", .float (1 / 5) true)]⟩ =
      some [.float (1 / 5) true, .bool false] := rfl
    rw [frOne, result_one (ts := [frScalar (-1)]) (t := mapTensor (leaky ((1 / 5 : ℚ) : ℝ)) (frScalar (-1))) rfl (by simp [frXy]) (by simp only [Op.sem, Fn.sem, this, Lit.num, Option.map_some])]
    simp only [mapTensor, leaky, frScalar]
    norm_num
  · simp [frResult, run, Instr.exec, frXy, Op.sem, Mod.sem, Env.set, mapTensor, frScalar, leaky]

/-- `F.leaky_relu(x, inplace=True)` becomes the identity as well: the default slope is 0.01, not 1. -/
theorem C87_leaky_relu_inplace_false (w : World) :
    rewrite [.out 2] (frOne .leakyRelu ⟨[], [("inplace", .bool true)]⟩ [.out 0]) = some [⟨.out 2, .mod (.leakyRelu 1), [.out 0], true, true⟩] ∧
    frResult w (frOne .leakyRelu ⟨[], [("inplace", .bool true)]⟩ [.out 0]) (-1) 0 = some (-1 / 100) := by
  refine ⟨by decide +kernel, ?_⟩
  have : bindArgs [("negative_slope", some (Lit.float (1 / 100) true)), ("inplace", some (.bool false))] false ⟨[], [("inplace", .bool true)]⟩ =
    some [.float (1 / 100) true, .bool true] := rfl
  rw [frOne, result_one (ts := [frScalar (-1)]) (t := mapTensor (leaky ((1 / 100 : ℚ) : ℝ)) (frScalar (-1))) rfl (by simp [frXy]) (by simp only [Op.sem, Fn.sem, this, Lit.num, Option.map_some])]
  simp only [mapTensor, leaky, frScalar]
  norm_num

/-- `torch.sub(x, y, alpha=2)` loses its `alpha`: what runs afterwards is `x + y * -1`. -/
theorem C87_sub_alpha_false (w : World) :
    ∃ p', rewrite [.out 2] (frOne .sub ⟨[], [("alpha", .int 2)]⟩ [.out 0, .out 1]) = some p' ∧
      frResult w (frOne .sub ⟨[], [("alpha", .int 2)]⟩ [.out 0, .out 1]) 5 1 = some 3 ∧ frResult w p' 5 1 = some 4 := by
  refine ⟨[⟨.aux (.out 2) 0, .ff .mulScalar ⟨[.int (-1)], []⟩, [.out 1], true, true⟩, ⟨.out 2, .ff .add .empty, [.out 0, .aux (.out 2) 0], true, true⟩], by decide +kernel, ?_, ?_⟩
  · have : bindArgs [("alpha", some (Lit.int 1))] false ⟨[], [("alpha", .int 2)]⟩ = some [.int 2] := rfl
    simp [frResult, frOne, run, Instr.exec, frXy, Op.sem, Fn.sem, this, Lit.num, Env.set, elementwise, bcShape, bcRev, bcGet, frScalar]
    norm_num
  · have : bindArgs [("y", none)] false ⟨[.int (-1)], []⟩ = some [.int (-1)] := rfl
    simp [frResult, run, Instr.exec, frXy, Op.sem, FF.sem, this, withScalar, mapTensor, Lit.num, Env.set, elementwise, bcShape, bcRev, bcGet, frScalar]
    norm_num

/-- `x.__rsub__(y)` of two tensors, which is `y - x`, becomes `x - y`. -/
theorem C87_rsub_tensors_false (w : World) :
    ∃ p', rewrite [.out 2] (frOne .rsub .empty [.out 0, .out 1]) = some p' ∧ frResult w (frOne .rsub .empty [.out 0, .out 1]) 5 1 = some (-4) ∧ frResult w p' 5 1 = some 4 := by
  refine ⟨[⟨.aux (.out 2) 0, .ff .mulScalar ⟨[.int (-1)], []⟩, [.out 1], true, true⟩, ⟨.out 2, .ff .add .empty, [.out 0, .aux (.out 2) 0], true, true⟩], by decide +kernel, ?_, ?_⟩
  · simp [frResult, frOne, run, Instr.exec, frXy, Op.sem, Fn.sem, Env.set, elementwise, bcShape, bcRev, bcGet, frScalar]
    norm_num
  · have : bindArgs [("y", none)] false ⟨[.int (-1)], []⟩ = some [.int (-1)] := rfl
    simp [frResult, run, Instr.exec, frXy, Op.sem, FF.sem, this, withScalar, mapTensor, Lit.num, Env.set, elementwise, bcShape, bcRev, bcGet, frScalar]
    norm_num

/-- `x / 1e-05` and `1e-05 - x` are not accepted (`int('1e-05')`), while `x - 1e-05` is. -/
theorem C87_exponent_false (w : World) :
    rewrite [.out 2] (frOne .div ⟨[.float (1 / 100000) false], []⟩ [.out 0]) = none ∧ rewrite [.out 2] (frOne .rsub ⟨[.float (1 / 100000) false], []⟩ [.out 0]) = none ∧
    (rewrite [.out 2] (frOne .sub ⟨[.float (1 / 100000) false], []⟩ [.out 0])).isSome = true ∧
    (frResult w (frOne .div ⟨[.float (1 / 100000) false], []⟩ [.out 0]) 1 0) = some 100000 := by
  refine ⟨by decide +kernel, by decide +kernel, by decide +kernel, ?_⟩
  have : bindArgs [("other", none)] false ⟨[.float (1 / 100000) false], []⟩ = some [.float (1 / 100000) false] := rfl
  rw [frOne, result_one (ts := [frScalar 1]) (t := mapTensor (fun v => v / ((1 / 100000 : ℚ) : ℝ)) (frScalar 1)) rfl (by simp [frXy])
    (by simp only [Op.sem, Fn.sem, this]; rw [if_neg (by simp only [Lit.num]; norm_num)]; rfl)]
  simp only [mapTensor, frScalar]
  norm_num

/-- `torch.add(x, y, alpha=2)` becomes a method that has no such argument: the rewritten model raises. -/
theorem C87_add_alpha_false (w : World) :
    ∃ p', rewrite [.out 2] (frOne .add ⟨[], [("alpha", .int 2)]⟩ [.out 0, .out 1]) = some p' ∧
      frResult w (frOne .add ⟨[], [("alpha", .int 2)]⟩ [.out 0, .out 1]) 5 1 = some 7 ∧ frResult w p' 5 1 = none := by
  refine ⟨[⟨.out 2, .ff .add ⟨[], [("alpha", .int 2)]⟩, [.out 0, .out 1], true, true⟩], by decide +kernel, ?_, ?_⟩
  · have : bindArgs [("alpha", some (Lit.int 1))] false ⟨[], [("alpha", .int 2)]⟩ = some [.int 2] := rfl
    simp [frResult, frOne, run, Instr.exec, frXy, Op.sem, Fn.sem, this, Lit.num, Env.set, elementwise, bcShape, bcRev, bcGet, frScalar]
    norm_num
  · simp [frResult, run, Instr.exec, frXy, Op.sem, FF.sem, Args.empty]

/-- `torch.cat(ts, axis=0)`: the name is understood for `stack` only, and the rewritten model raises. -/
theorem C87_cat_axis_false (w : World) (x y : Tensor ℝ) (h : x.shape = [2] ∧ y.shape = [3]) :
    ∃ p', rewrite [.out 2] (frOne .cat ⟨[], [("axis", .int 0)]⟩ [.out 0, .out 1]) = some p' ∧
      ((run w (frOne .cat ⟨[], [("axis", .int 0)]⟩ [.out 0, .out 1]) (frXy x y)).bind (fun E => E (.out 2))) = some (concat 0 [x, y]) ∧ run w p' (frXy x y) = none := by
  refine ⟨[⟨.out 2, .ff .cat ⟨[], [("axis", .int 0)]⟩, [.out 0, .out 1], true, true⟩], by decide +kernel, ?_, ?_⟩
  · have : dimArg ⟨[], [("axis", .int 0)]⟩ = some 0 := rfl
    simp [frOne, run, Instr.exec, frXy, Op.sem, Fn.sem, this, Env.set, catT, dimOf, h.1, h.2]
  · have : bindArgs [("dim", some (Lit.int 0))] false ⟨[], [("axis", .int 0)]⟩ = none := rfl
    simp [run, Instr.exec, frXy, Op.sem, FF.sem, this]

/-- The sum of two integer tensors followed by `relu` becomes a function that does not exist. -/
theorem C87_integer_add_relu_false (w : World) (x y : Tensor ℝ) :
    ∃ p', rewrite [.out 3] (frOne .add .empty [.out 0, .out 1] false ++ [⟨.out 3, .fn .relu .empty, [.out 2], true, false⟩]) = some p' ∧ run w p' (frXy x y) = none := by
  refine ⟨[⟨.out 3, .missing, [.out 0, .out 1], true, false⟩], by decide +kernel, ?_⟩
  simp [run, Instr.exec, frXy, Op.sem]

/-- `F.dropout(x, 0.5)`, which is always active, is not in evaluation mode after the rewriting, and `F.dropout(x, 0.5, False)` becomes active in training. -/
theorem C87_dropout_mode_false (w : World) (x : Tensor ℝ) :
    rewrite [.out 2] (frOne .dropout ⟨[.float (1 / 2) true], []⟩ [.out 0]) = some [⟨.out 2, .mod (.dropout (1 / 2)), [.out 0], true, true⟩] ∧
    rewrite [.out 2] (frOne .dropout ⟨[.float (1 / 2) true, .bool false], []⟩ [.out 0]) = some [⟨.out 2, .mod (.dropout (1 / 2)), [.out 0], true, true⟩] ∧
    ((run w (frOne .dropout ⟨[.float (1 / 2) true], []⟩ [.out 0]) (frXy x x)).bind (fun E => E (.out 2))) = some (w.drop (1 / 2) x) ∧
    ((run w (frOne .dropout ⟨[.float (1 / 2) true, .bool false], []⟩ [.out 0]) (frXy x x)).bind (fun E => E (.out 2))) = some x ∧
    ((run w [⟨.out 2, .mod (.dropout (1 / 2)), [.out 0], true, true⟩] (frXy x x)).bind (fun E => E (.out 2))) = some (if w.training then w.drop (1 / 2) x else x) := by
  have h1 : bindArgs dropoutParams false ⟨[.float (1 / 2) true], []⟩ = some [.float (1 / 2) true, .bool true, .bool false] := rfl
  have h2 : bindArgs dropoutParams false ⟨[.float (1 / 2) true, .bool false], []⟩ = some [.float (1 / 2) true, .bool false, .bool false] := rfl
  refine ⟨by decide +kernel, by decide +kernel, ?_, ?_, ?_⟩
  · have hs : (Op.fn .dropout ⟨[.float (1 / 2) true], []⟩).sem w [x] = some (w.drop (1 / 2) x) := by simp only [Op.sem, Fn.sem, h1]; rfl
    simp only [frOne, run]
    rw [exec_one (ts := [x]) (by simp [frXy]) hs]
    simp [Env.set]
  · have hs : (Op.fn .dropout ⟨[.float (1 / 2) true, .bool false], []⟩).sem w [x] = some x := by simp only [Op.sem, Fn.sem, h2]; rfl
    simp only [frOne, run]
    rw [exec_one (ts := [x]) (by simp [frXy]) hs]
    simp [Env.set]
  · simp [run, Instr.exec, frXy, Op.sem, Mod.sem, Env.set]

end Verif.Props
