import Verif.Lemmas.Fusable

/-!
C85: before quantization-aware training, runs of modules such as convolution, batch norm and ReLU are replaced by one fused module. The runs found are the longest ones that
match a rule, no module is in two runs, and the network computes what it computed before, provided that the results inside a run are used by the run only.
-/

namespace Verif.Props

open Verif.Spec.FuseNet Verif.Model.Fusable Verif.Lemmas.Fusable

/-- Every run found matches a rule: it lies along a path of quantized nodes with one predecessor each, apart from `nn.Identity`, its classes form a rule, and no module is in two runs. -/
theorem C85_runs (g : Net) (rules : List (List String)) (fwd : List Nat) (hid : ∀ r ∈ rules, "Identity" ∉ r) :
    (quantList g rules fwd).Pairwise List.Disjoint ∧
      ∀ c ∈ quantList g rules fwd, ∃ i ∈ fwd, ∃ r ∈ rules, Back g [] i r.reverse c.reverse := by
  obtain ⟨new, h1, h2, h3⟩ := scan_spec (g := g) (noId_getDict hid) fwd.reverse [] []
  have hq : quantList g rules fwd = new := by unfold quantList; rw [h1]; rfl
  rw [hq]
  refine ⟨h2, fun c hc => ?_⟩
  obtain ⟨_, i, hi, ks, hb, ha⟩ := h3 c hc
  exact ⟨i, by simpa using hi, ks.reverse, ((accept_getDict rules ks).1 ha).1, by simpa using hb⟩

theorem not_exc {g : Net} (h : ∀ n ∈ g, n.kind = "ConvTranspose2d" → ∀ j m, n.next.head? = some j → g[j]? = some m → m.kind ≠ "BatchNorm2d") : ¬ Exc g := by
  rintro ⟨j, n, m, hn, hk, he⟩
  cases m with
  | zero => simp [nextKinds] at he
  | succ m =>
    unfold nextKinds at he
    simp only [hn, Option.bind_some] at he
    split at he
    · simp at he
    · rename_i j' hj'
      cases hm : g[j']? with
      | some m' =>
        simp only [hm, Option.map_some, Option.toList_some, List.cons_append, List.nil_append, List.cons.injEq] at he
        exact h n (List.mem_of_getElem? hn) hk j' m' hj' hm he.1
      | none =>
        simp only [hm, Option.map_none, Option.toList_none, List.nil_append] at he
        cases m with
        | zero => simp [nextKinds] at he
        | succ m => simp [nextKinds, hm] at he

/-- The run found from a node is the longest one allowed by the rules. Transposed convolutions followed by a batch norm are excepted: there the code deliberately gives up a
batch norm and ReLU. -/
theorem C85_longest (g : Net) (rules : List (List String)) (used : List String) (i : Nat) (ho : g.Ordered) (hid : ∀ r ∈ rules, "Identity" ∉ r)
    (hct : ∀ n ∈ g, n.kind = "ConvTranspose2d" → ∀ j m, n.next.head? = some j → g[j]? = some m → m.kind ≠ "BatchNorm2d") :
    (∀ r ∈ rules, ∀ c, Back g used i r.reverse c.reverse → c <:+ isFusable g used (getDict rules) i) ∧
      (isFusable g used (getDict rules) i ≠ [] → ∃ r ∈ rules, Back g used i r.reverse (isFusable g used (getDict rules) i).reverse) := by
  have hs : isFusable g used (getDict rules) i ≠ [] → ∃ r ∈ rules, Back g used i r.reverse (isFusable g used (getDict rules) i).reverse := by
    intro h
    obtain ⟨ks, hb, ha⟩ := isFusable_sound (noId_getDict hid) h
    exact ⟨ks.reverse, ((accept_getDict rules ks).1 ha).1, by simpa using hb⟩
  refine ⟨fun r hr c hb => ?_, hs⟩
  have hne := Back.ne_nil hb
  have ha : accept (getDict rules) r.reverse := (accept_getDict rules _).2 ⟨by simpa using hr, hne.1⟩
  rcases walk_longest ho hb (i + 1) _ [] [] (by omega) (noId_getDict hid) ha (by simp) with h | h
  · exact absurd h (not_exc hct)
  · have hlen : c.length ≤ (isFusable g used (getDict rules) i).length := by
      unfold isFusable; simpa using h
    have hne' : isFusable g used (getDict rules) i ≠ [] := by
      intro he
      rw [he] at hlen
      have : c = [] := by simpa using hlen
      exact hne.2 (by simp [this])
    obtain ⟨r', _, hb'⟩ := hs hne'
    have := ((Back.prefix hb hb').2 (by simpa using hlen)).1
    simpa [List.reverse_prefix] using this

/-- Nothing is overlooked: where modules match a rule, at least one of them is in a run. -/
theorem C85_complete (g : Net) (rules : List (List String)) (fwd : List Nat) (ho : g.Ordered) (hnm : g.Named) (hid : ∀ r ∈ rules, "Identity" ∉ r)
    (hct : ∀ n ∈ g, n.kind = "ConvTranspose2d" → ∀ j m, n.next.head? = some j → g[j]? = some m → m.kind ≠ "BatchNorm2d")
    (i : Nat) (hi : i ∈ fwd) (r : List String) (hr : r ∈ rules) (as : List String) (hb : Back g [] i r.reverse as) :
    ∃ c ∈ quantList g rules fwd, ∃ a ∈ as, a ∈ c :=
  scan_complete ho hnm (noId_getDict hid) (not_exc hct) fwd.reverse [] [] (by simp) (by simp) i (by simpa using hi) _ _ hb
    ((accept_getDict rules _).2 ⟨by simpa using hr, (Back.ne_nil hb).1⟩)

variable {V : Type} [Inhabited V]

/-- Replacing the runs found by fused modules keeps the result of every node that is not inside a run, provided that every fused module is called once and every result inside a
run is read once. The search does not check this; without it the claim is false (`C85_residual_false`, `C85_shared_module_false`). -/
theorem C85_fused_network_partial (g : Net) (rules : List (List String)) (fwd : List Nat) (sem : String → List V → V) (ho : g.Ordered)
    (hid : ∀ r ∈ rules, "Identity" ∉ r) (hsem : g.IdentityOk sem)
    (hone : ∀ c ∈ quantList g rules fwd, (∀ a ∈ c, g.uses a = 1) ∧ ∀ q, Inner g c q → g.readers q = 1)
    (j : Nat) (hj : ∀ c ∈ quantList g rules fwd, ¬ Inner g c j) :
    (g.eval (fuseAll sem (quantList g rules fwd)))[j]? = (g.eval sem)[j]? := by
  have h := chains_fuse ho (quantList g rules fwd) hsem (fun c hc => by
    obtain ⟨i, _, r, _, hb⟩ := (C85_runs g rules fwd hid).2 c hc
    exact ⟨⟨i, _, hb⟩, hone c hc⟩) j hj
  by_cases hl : j < g.length
  · unfold val at h
    rw [List.getD_eq_getElem _ _ (by rw [eval_length]; exact hl), List.getD_eq_getElem _ _ (by rw [eval_length]; exact hl)] at h
    rw [List.getElem?_eq_getElem (by rw [eval_length]; exact hl), List.getElem?_eq_getElem (by rw [eval_length]; exact hl), h]
  · rw [List.getElem?_eq_none (by rw [eval_length]; omega), List.getElem?_eq_none (by rw [eval_length]; omega)]

/-- The rules of the code do not mention `nn.Identity`. -/
theorem C85_code_rules : (∀ r ∈ qatRules, "Identity" ∉ r) ∧ ∀ r ∈ ptqRules, "Identity" ∉ r := by
  constructor <;> decide +kernel

/-- Convolution, identity, batch norm, ReLU, then a second convolution whose result is added to the first ReLU. -/
def residualNet : Net :=
  [⟨"Input", "x", false, [], [1]⟩, ⟨"QuantStub", "q", true, [0], [2]⟩, ⟨"Conv2d", "conv", true, [1], [3]⟩, ⟨"Identity", "id", true, [2], [4]⟩,
   ⟨"BatchNorm2d", "bn", true, [3], [5]⟩, ⟨"ReLU", "relu", true, [4], [6, 7]⟩, ⟨"Conv2d", "conv2", true, [5], [7]⟩, ⟨"add", "add_0_f", true, [6, 5], [8]⟩,
   ⟨"Output", "y", false, [7], []⟩]

theorem residual_runs : quantList residualNet qatRules [1, 2, 3, 4, 5, 6, 7] = [["conv", "bn", "relu"]] := by decide +kernel

theorem residual_ordered : residualNet.Ordered := by
  intro i n h p hp
  have hi := (List.getElem?_eq_some_iff.1 h).1
  have : ∀ i < residualNet.length, ∀ n, residualNet[i]? = some n → ∀ p ∈ n.prev, p < i := by decide +kernel
  exact this i hi n h p hp

example (sem : String → List V → V) (hsem : ∀ v, sem "id" [v] = v) :
    (residualNet.eval (fuseAll sem [["conv", "bn", "relu"]]))[8]? = (residualNet.eval sem)[8]? := by
  have hin : ∀ q, Inner residualNet ["conv", "bn", "relu"] q → q ∈ [2, 3, 4] := by
    intro q h
    induction h with
    | @mod i n hn hmem =>
      have hi := (List.getElem?_eq_some_iff.1 hn).1
      have : ∀ i < residualNet.length, ∀ n, residualNet[i]? = some n → n.name ∈ ["conv", "bn", "relu"].dropLast → i ∈ [2, 3, 4] := by decide +kernel
      exact this i hi n hn hmem
    | @ident i n p hn hk hp _ _ =>
      have hi := (List.getElem?_eq_some_iff.1 hn).1
      have : ∀ i < residualNet.length, ∀ n, residualNet[i]? = some n → n.kind = "Identity" → i ∈ [2, 3, 4] := by decide +kernel
      exact this i hi n hn hk
  have h := C85_fused_network_partial residualNet qatRules [1, 2, 3, 4, 5, 6, 7] sem residual_ordered C85_code_rules.1
    (by
      intro n hn hk
      have : ∀ n ∈ residualNet, n.kind = "Identity" → n.name = "id" := by decide +kernel
      rw [this n hn hk]; exact hsem)
    (by
      rw [residual_runs]
      intro c hc
      rcases List.mem_singleton.1 hc with rfl
      refine ⟨by decide +kernel, fun q hq => ?_⟩
      have : ∀ q ∈ [2, 3, 4], residualNet.readers q = 1 := by decide +kernel
      exact this q (hin q hq))
    8
    (by
      rw [residual_runs]
      intro c hc hq
      rcases List.mem_singleton.1 hc with rfl
      have := hin 8 hq
      simp at this)
  rwa [residual_runs] at h

/-- A transposed convolution, batch norm and ReLU: the first two are fused. -/
example : quantList [⟨"Input", "x", false, [], [1]⟩, ⟨"ConvTranspose2d", "conv", true, [0], [2]⟩, ⟨"BatchNorm2d", "bn", true, [1], [3]⟩, ⟨"ReLU", "relu", true, [2], []⟩]
    qatRules [1, 2, 3] = [["conv", "bn"]] := by decide +kernel

/-- The longest rule is used, nothing of it is left for a shorter one. -/
example : Back residualNet [] 5 (["Conv2d", "BatchNorm2d", "ReLU"] : List String).reverse (["conv", "bn", "relu"] : List String).reverse ∧
    isFusable residualNet [] (getDict qatRules) 5 = ["conv", "bn", "relu"] :=
  ⟨.step (n := ⟨"ReLU", "relu", true, [4], [6, 7]⟩) rfl rfl (by simp) (by decide) rfl
      (.step (n := ⟨"BatchNorm2d", "bn", true, [3], [5]⟩) rfl rfl (by simp) (by decide) rfl
        (.skip (n := ⟨"Identity", "id", true, [2], [4]⟩) rfl rfl (by simp) rfl rfl (.stop (n := ⟨"Conv2d", "conv", true, [1], [3]⟩) rfl rfl (by simp) (by decide) (by simp)))),
    by decide +kernel⟩

/-- A convolution whose result is normalised and also added to the normalised result. -/
def skipNet : Net :=
  [⟨"Input", "x", false, [], [1]⟩, ⟨"Conv2d", "conv", true, [0], [2, 3]⟩, ⟨"BatchNorm2d", "bn", true, [1], [3]⟩, ⟨"add", "add_0_f", true, [1, 2], [4]⟩,
   ⟨"Output", "y", false, [3], []⟩]

/-- A convolution applied to two inputs, each followed by its own batch norm. -/
def sharedNet : Net :=
  [⟨"Input", "x", false, [], [2]⟩, ⟨"Input", "z", false, [], [4]⟩, ⟨"Conv2d", "conv", true, [0], [3]⟩, ⟨"BatchNorm2d", "bn1", true, [2], [6]⟩,
   ⟨"Conv2d", "conv", true, [1], [5]⟩, ⟨"BatchNorm2d", "bn2", true, [4], [6]⟩, ⟨"add", "add_0_f", true, [3, 5], [7]⟩, ⟨"Output", "y", false, [6], []⟩]

/-- Doubling for the convolutions, adding one or two for the batch norms. -/
def smallSem : String → List Int → Int
  | "x", _ => 5
  | "z", _ => 7
  | "conv", [v] => 2 * v
  | "bn", [v] => v + 1
  | "bn1", [v] => v + 1
  | "bn2", [v] => v + 2
  | "add_0_f", [v, w] => v + w
  | _, [v] => v
  | _, _ => 0

/-- When a result inside a run is also read by another node, that node gets the result of the whole run: the returned value changes although the returned node is in no run. -/
theorem C85_residual_false : ¬ ∀ (g : Net) (fwd : List Nat) (sem : String → List Int → Int), g.Ordered → g.Named → g.IdentityOk sem → (∀ n ∈ g, g.uses n.name = 1) →
    ∀ (j : Nat) (n : Node), g[j]? = some n → n.kind = "Output" → (g.eval (fuseAll sem (quantList g qatRules fwd)))[j]? = (g.eval sem)[j]? := by
  intro h
  have := h skipNet [1, 2, 3] smallSem
    (by
      intro i n hn p hp
      have hi := (List.getElem?_eq_some_iff.1 hn).1
      have : ∀ i < skipNet.length, ∀ n, skipNet[i]? = some n → ∀ p ∈ n.prev, p < i := by decide +kernel
      exact this i hi n hn p hp)
    (by unfold Net.Named; decide +kernel)
    (by
      intro n hn hk
      have : ∀ n ∈ skipNet, n.kind ≠ "Identity" := by decide +kernel
      exact absurd hk (this n hn))
    (by decide +kernel) 4 _ rfl rfl
  revert this
  decide +kernel

/-- A module called twice is fused with the run around one call only, and the other call computes that run too. -/
theorem C85_shared_module_false : ¬ ∀ (g : Net) (fwd : List Nat) (sem : String → List Int → Int), g.Ordered → g.Named → g.IdentityOk sem →
    (∀ (i : Nat) (n : Node), g[i]? = some n → n.kind ≠ "Output" → g.readers i = 1) →
    ∀ (j : Nat) (n : Node), g[j]? = some n → n.kind = "Output" → (g.eval (fuseAll sem (quantList g qatRules fwd)))[j]? = (g.eval sem)[j]? := by
  intro h
  have := h sharedNet [2, 3, 4, 5, 6] smallSem
    (by
      intro i n hn p hp
      have hi := (List.getElem?_eq_some_iff.1 hn).1
      have : ∀ i < sharedNet.length, ∀ n, sharedNet[i]? = some n → ∀ p ∈ n.prev, p < i := by decide +kernel
      exact this i hi n hn p hp)
    (by unfold Net.Named; decide +kernel)
    (by
      intro n hn hk
      have : ∀ n ∈ sharedNet, n.kind ≠ "Identity" := by decide +kernel
      exact absurd hk (this n hn))
    (by
      intro i n hn hk
      have hi := (List.getElem?_eq_some_iff.1 hn).1
      have : ∀ i < sharedNet.length, ∀ n, sharedNet[i]? = some n → n.kind ≠ "Output" → sharedNet.readers i = 1 := by decide +kernel
      exact this i hi n hn hk)
    7 _ rfl rfl
  revert this
  decide +kernel

end Verif.Props
