import Verif.Model.IdentityInit
import Verif.Props.PruneConfig
import Verif.Props.BnComp

/-!
C164: the identity pruner works with the settings it was given.
-/

namespace Verif.Props
open Verif.Spec.PruneConfig Verif.Model.PruneConfig Verif.Model.IdentityInit

/-- Whatever rates the configuration asks for, every prunable operation is considered with all its channels (rate 1), except the last layer if it is linear and not asked for; and compensation is
on exactly if the configuration says so.  Missing from the full statement: compensation is on by default, see `C164_default_false`. -/
theorem C164_settings_partial {known : String → Bool} {c : IdConfig} {ops : List Op} {subs : List (List Op)} {p : Pruner} {comp : Bool} {c' : IdConfig}
    (h : Verif.Model.IdentityInit.construct known (.dict c) ops subs = .ok (p, comp, c')) :
    comp = (c.bnCompensation == some true) ∧ ∃ last, IsLast ops last ∧ (∀ o, o ∈ p.centers ↔ o ∈ ops ∧ Prunable o) ∧
      ∀ o ∈ ops, Prunable o →
        p.rates.lookup o.name = some (if c.base.skipLastFc ≠ some false ∧ last.kind = .linear ∧ o.name = last.name then 0 else 1) := by
  simp only [Verif.Model.IdentityInit.construct, prepare] at h
  cases hc : Verif.Model.PruneConfig.construct known { c.base with metrics := some (c.base.metrics.getD "l2_norm"), sparsity := some (.num 1) } ops subs with
  | error e => rw [hc] at h; cases h
  | ok x =>
    obtain ⟨p1, c1⟩ := x
    rw [hc] at h
    simp only [Except.ok.injEq, Prod.mk.injEq] at h
    obtain ⟨rfl, rfl, _⟩ := h
    refine ⟨by rcases hb : c.bnCompensation with _ | _ | _ <;> simp [flag, hb], ?_⟩
    obtain ⟨r, last, hr, hl, hcen, hrates⟩ := C98_rates_partial hc
    refine ⟨last, hl, hcen, ?_⟩
    intro o ho hp
    have hreq : r.dflt = 1 ∧ (∀ n, r.given n = none) ∧ r.skipLastFc = c.base.skipLastFc.getD true := by
      simp only [request, Option.some.injEq] at hr
      rw [← hr]
      exact ⟨rfl, fun _ => rfl, rfl⟩
    obtain ⟨h1, h2, h3⟩ := hreq
    obtain ⟨v, hv, hw⟩ := hrates (fun _ _ => Or.inl (by rw [h2]; simp)) o ho hp
    rw [hv]
    simp only [Wanted, h2] at hw
    have hsk : r.skipLastFc = true ↔ c.base.skipLastFc ≠ some false := by
      rw [h3]; rcases c.base.skipLastFc with _ | _ | _ <;> simp
    rw [hsk] at hw
    by_cases hz : c.base.skipLastFc ≠ some false ∧ last.kind = .linear ∧ o.name = last.name
    · rw [if_pos hz, hw.1 hz]
    · rw [if_neg hz, hw.2 hz, h1]

/-- It is constructed for every dictionary whose metric is known, or that names none, on every model with something to prune. -/
theorem C164_accepts (known : String → Bool) (c : IdConfig) (ops : List Op) (subs : List (List Op)) (hk : known (c.base.metrics.getD "l2_norm") = true) (o : Op) (ho : o ∈ ops) (hp : Prunable o) :
    ∃ p comp c', Verif.Model.IdentityInit.construct known (.dict c) ops subs = .ok (p, comp, c') := by
  have hr : ∃ r, request { c.base with metrics := some (c.base.metrics.getD "l2_norm"), sparsity := some (.num 1) } = some r := ⟨_, rfl⟩
  obtain ⟨r, hr⟩ := hr
  obtain ⟨p, c', h⟩ := C98_accepts (subs := subs) hr rfl hk ho hp
  exact ⟨p, flag true { c with base := { c.base with metrics := some (c.base.metrics.getD "l2_norm"), sparsity := some (.num 1) } }, { c with base := c' }, by
    simp only [Verif.Model.IdentityInit.construct, prepare, h]⟩

/-- `IdentityChannelPruner(model, dummy_input, config={"multiple": 8})`, as in the example of the project. -/
def idConfig : IdConfig := ⟨⟨none, none, none, none⟩, none⟩

example : (Verif.Model.IdentityInit.construct (fun _ => true) (.dict idConfig) pcOps []).toOption.map (fun x => (x.1.rates.lookup "conv", x.1.rates.lookup "fc", x.2.1)) = some (some 1, some 0, false) := by
  decide +kernel

example : (Verif.Model.IdentityInit.construct (fun _ => true) (.dict { idConfig with bnCompensation := some true }) pcOps []).toOption.map (fun x => x.2.1) = some true := by decide +kernel

/-- Compensation is switched on in the constructor and off again before the configuration is read: without an entry in the configuration it is off, for all models and configurations. -/
theorem C164_off {known : String → Bool} {a : ConfigArg} {ops : List Op} {subs : List (List Op)} {p : Pruner} {comp : Bool} {c' : IdConfig}
    (h : Verif.Model.IdentityInit.construct known a ops subs = .ok (p, comp, c')) (ha : a = .absent ∨ ∃ c, a = .dict c ∧ c.bnCompensation = none) : comp = false := by
  rcases ha with rfl | ⟨c, rfl, hn⟩
  · simp only [Verif.Model.IdentityInit.construct, prepare] at h
    cases hc : Verif.Model.PruneConfig.construct known ⟨some (.num 1), some "l2_norm", none, none⟩ ops subs with
    | error e => rw [hc] at h; cases h
    | ok x =>
      rw [hc] at h
      simp only [Except.ok.injEq, Prod.mk.injEq] at h
      rw [← h.2.1]; rfl
  · have := (C164_settings_partial h).1
    rw [this, hn]; rfl

/-- So the identity pruner changes what a network computes: a channel that always has the same value is removed and nothing is put in its place, where with compensation the result stays 63 (`C120`). -/
theorem C164_default_false : ∃ (p : Pruner) (comp : Bool) (c' : IdConfig), Verif.Model.IdentityInit.construct (fun _ => true) .absent pcOps [] = .ok (p, comp, c') ∧ Verif.Spec.BnComp.Dead Comp.bn2 [1] Comp.img2 ∧
    Comp.before (Comp.conv3 0) 0 0 = 63 ∧
    ((Verif.Model.BnComp.prune comp [(.module "ReLU", [.module "Conv2d"])] 1 [1] Comp.bn2 Comp.relu (Comp.conv3 0)).map fun e =>
      Verif.Spec.BnComp.block e.1 Comp.relu e.2 4 4 ((Verif.Model.preserveIdx 2 [1]).map fun i => Comp.img2.getD i (fun _ _ => 0)) 0 0 0) = some 18 ∧
    Comp.after [(.module "ReLU", [.module "Conv2d"])] 1 (Comp.conv3 0) 0 0 = some 63 := by
  obtain ⟨p, comp, c', h⟩ : ∃ p comp c', Verif.Model.IdentityInit.construct (fun _ => true) .absent pcOps [] = .ok (p, comp, c') := by
    obtain ⟨p, comp, c', h⟩ := C164_accepts (fun _ => true) idConfig pcOps [] rfl ⟨"conv", .conv2d, false, 1⟩ (by simp [pcOps]) (Or.inl ⟨Or.inr (Or.inl rfl), rfl⟩)
    exact ⟨p, comp, c', h⟩
  have hc := C164_off h (Or.inl rfl)
  subst hc
  exact ⟨p, false, c', h, Comp.dead2, by decide +kernel, by decide +kernel, by decide +kernel⟩

/-- The documented path of a configuration file is never accepted. -/
theorem C164_path (known : String → Bool) (s : String) (content : IdConfig) (ops : List Op) (subs : List (List Op)) :
    Verif.Model.IdentityInit.construct known (.path s content) ops subs = .error "TypeError" := rfl

/-- A path to a configuration that would be accepted as a dictionary. -/
theorem C164_path_false : ∃ content, (∃ x, Verif.Model.IdentityInit.construct (fun _ => true) (.dict content) pcOps [] = .ok x) ∧
    Verif.Model.IdentityInit.construct (fun _ => true) (.path "config.yml" content) pcOps [] = .error "TypeError" := by
  obtain ⟨p, comp, c', h⟩ := C164_accepts (fun _ => true) idConfig pcOps [] rfl ⟨"conv", .conv2d, false, 1⟩ (by simp [pcOps]) (Or.inl ⟨Or.inr (Or.inl rfl), rfl⟩)
  exact ⟨idConfig, ⟨_, h⟩, rfl⟩

/-- The caller's dictionary is left with sparsity 1: used for another pruner afterwards, it asks for all channels instead of a half. -/
theorem C164_config_false : ∃ (c : IdConfig) (p : Pruner) (comp : Bool) (c' : IdConfig), c.base.sparsity = some (.num (1/2)) ∧
    Verif.Model.IdentityInit.construct (fun _ => true) (.dict c) pcOps [] = .ok (p, comp, c') ∧ c'.base.sparsity = some (.num 1) := by
  obtain ⟨p, comp, c', h⟩ := C164_accepts (fun _ => true) ⟨⟨some (.num (1/2)), some "l1_norm", none, none⟩, none⟩ pcOps [] rfl ⟨"conv", .conv2d, false, 1⟩ (by simp [pcOps]) (Or.inl ⟨Or.inr (Or.inl rfl), rfl⟩)
  refine ⟨_, p, comp, c', rfl, h, ?_⟩
  have : (Verif.Model.IdentityInit.construct (fun _ => true) (.dict ⟨⟨some (.num (1/2)), some "l1_norm", none, none⟩, none⟩) pcOps []).toOption.map (fun x => x.2.2.base.sparsity) = some (some (.num 1)) := by decide +kernel
  rw [h] at this
  simpa [Except.toOption] using this

end Verif.Props
