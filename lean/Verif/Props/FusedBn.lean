import Verif.Model.FusedBn
/-!
C158: checkpoints of fused transposed convolutions of both versions can be loaded.
-/

namespace Verif.Props
open Verif.Spec.FusedBn Verif.Model.FusedBn

variable {V : Type}

/-- Renaming changes nothing outside the layer. -/
theorem rename_other (strict : Bool) (p : Key) (s : Dict V × List Key) (n : Key × String) (k : Key) (hk : ¬ p <+: k) : (rename strict p s n).1 k = s.1 k := by
  have h1 : ∀ l, k ≠ p ++ l := fun l h => hk ⟨l, h.symm⟩
  unfold rename
  cases hv : s.1 (p ++ [n.2]) with
  | some v => simp [put, h1]
  | none =>
    cases hw : s.1 (p ++ n.1) with
    | some w => simp
    | none => cases strict <;> simp

theorem foldl_rename_other (strict : Bool) (p : Key) (ns : List (Key × String)) (s : Dict V × List Key) (k : Key) (hk : ¬ p <+: k) : (ns.foldl (rename strict p) s).1 k = s.1 k := by
  induction ns generalizing s with
  | nil => rfl
  | cons n ns ih => rw [List.foldl_cons, ih, rename_other _ _ _ _ _ hk]

/-- Renaming inside the layer, where there is an old entry. -/
theorem rename_some (strict : Bool) (p : Key) (s : Dict V × List Key) (n : Key × String) (v : V) (hv : s.1 (p ++ [n.2]) = some v) :
    (rename strict p s n).2 = s.2 ∧ ∀ k, (rename strict p s n).1 (p ++ k) = if k = [n.2] then none else if k = n.1 then some v else s.1 (p ++ k) := by
  unfold rename
  rw [hv]
  exact ⟨rfl, fun k => by simp [put, List.append_cancel_left_eq]⟩

/-- Renaming inside the layer, where there is no old entry but a new one. -/
theorem rename_kept (strict : Bool) (p : Key) (s : Dict V × List Key) (n : Key × String) (v : V) (h1 : s.1 (p ++ [n.2]) = none) (h2 : s.1 (p ++ n.1) = some v) :
    rename strict p s n = s := by
  unfold rename
  rw [h1, h2]

/-- The step for an old entry, on the level of the entries of the layer. -/
theorem rename_holds (strict : Bool) (p : Key) (s : Dict V × List Key) (n : Key × String) (v : V) (e : Key → Option V) (he : Holds s.1 p e) (hv : e [n.2] = some v) :
    (rename strict p s n).2 = s.2 ∧ Holds (rename strict p s n).1 p (fun k => if k = [n.2] then none else if k = n.1 then some v else e k) := by
  obtain ⟨h1, h2⟩ := rename_some strict p s n v (by rw [he, hv])
  exact ⟨h1, fun k => by rw [h2, he]⟩

/-- A checkpoint in which the entries of a layer are those of the first version becomes one of the second version; nothing is reported missing, and other entries stay. -/
theorem C158_first_version (l : Layer V) (version : Option Nat) (hv : version = none ∨ version = some 1) (strict : Bool) (p : Key) (d : Dict V) (missing : List Key)
    (hd : Holds d p l.entries1) :
    Holds (loadFrom version strict p (d, missing)).1 p l.entries2 ∧ (loadFrom version strict p (d, missing)).2 = missing
      ∧ ∀ k, ¬ p <+: k → (loadFrom version strict p (d, missing)).1 k = d k := by
  have hl : loadFrom version strict p (d, missing) = v2ToV1.foldl (rename strict p) (d, missing) := by unfold loadFrom; rw [if_pos hv]
  rw [hl]
  refine ⟨?_, ?_, fun k hk => foldl_rename_other strict p _ _ k hk⟩
  all_goals
    obtain ⟨a1, a2⟩ := rename_holds strict p (d, missing) (["bn", "weight"], "gamma") l.gamma _ hd rfl
    obtain ⟨b1, b2⟩ := rename_holds strict p _ (["bn", "bias"], "beta") l.beta _ a2 (by simp [Layer.entries1])
    obtain ⟨c1, c2⟩ := rename_holds strict p _ (["bn", "running_mean"], "running_mean") l.mean _ b2 (by simp [Layer.entries1])
    obtain ⟨d1, d2⟩ := rename_holds strict p _ (["bn", "running_var"], "running_var") l.var _ c2 (by simp [Layer.entries1])
    obtain ⟨e1, e2⟩ := rename_holds strict p _ (["bn", "num_batches_tracked"], "num_batches_tracked") l.batches _ d2 (by simp [Layer.entries1])
  · intro k
    refine (e2 k).trans ?_
    unfold Layer.entries2 Layer.entries1
    by_cases k0 : k = ["weight"]
    · subst k0; simp
    by_cases k1 : k = ["bias"]
    · subst k1; simp
    by_cases k2 : k = ["gamma"]
    · subst k2; simp
    by_cases k3 : k = ["beta"]
    · subst k3; simp
    by_cases k4 : k = ["running_mean"]
    · subst k4; simp
    by_cases k5 : k = ["running_var"]
    · subst k5; simp
    by_cases k6 : k = ["num_batches_tracked"]
    · subst k6; simp
    by_cases k7 : k = ["bn", "weight"]
    · subst k7; simp
    by_cases k8 : k = ["bn", "bias"]
    · subst k8; simp
    by_cases k9 : k = ["bn", "running_mean"]
    · subst k9; simp
    by_cases k10 : k = ["bn", "running_var"]
    · subst k10; simp
    by_cases k11 : k = ["bn", "num_batches_tracked"]
    · subst k11; simp
    simp only [k0, k1, k2, k3, k4, k5, k6, k7, k8, k9, k10, k11, if_false]
  · exact e1.trans (d1.trans (c1.trans (b1.trans a1)))

/-- Entries of the second version are left as they are, whatever the checkpoint says its version is. -/
theorem C158_second_version (l : Layer V) (version : Option Nat) (strict : Bool) (p : Key) (d : Dict V) (missing : List Key) (hd : Holds d p l.entries2) :
    loadFrom version strict p (d, missing) = (d, missing) := by
  unfold loadFrom
  by_cases hv : version = none ∨ version = some 1
  · rw [if_pos hv]
    have keep : ∀ n ∈ v2ToV1, rename strict p (d, missing) n = (d, missing) := by
      intro n hn
      simp only [v2ToV1, List.mem_cons, List.not_mem_nil, or_false] at hn
      rcases hn with rfl | rfl | rfl | rfl | rfl
      · exact rename_kept _ _ _ _ l.gamma (hd _) (hd _)
      · exact rename_kept _ _ _ _ l.beta (hd _) (hd _)
      · exact rename_kept _ _ _ _ l.mean (hd _) (hd _)
      · exact rename_kept _ _ _ _ l.var (hd _) (hd _)
      · exact rename_kept _ _ _ _ l.batches (hd _) (hd _)
    have fold : ∀ ns : List (Key × String), (∀ n ∈ ns, rename strict p (d, missing) n = (d, missing)) → ns.foldl (rename strict p) (d, missing) = (d, missing) := by
      intro ns
      induction ns with
      | nil => intro _; rfl
      | cons n ns ih => intro h; rw [List.foldl_cons, h n (by simp), ih fun m hm => h m (by simp [hm])]
    exact fold _ keep
  · rw [if_neg hv]

/-- If the layer has no entries at all, exactly the entries of the batch norm are reported here (the base class reports the others), if `strict`. -/
theorem C158_missing (version : Option Nat) (hv : version = none ∨ version = some 1) (strict : Bool) (p : Key) (d : Dict V) (missing : List Key) (hd : Holds d p fun _ => none) :
    loadFrom version strict p (d, missing)
      = (d, if strict then missing ++ [["bn", "weight"], ["bn", "bias"], ["bn", "running_mean"], ["bn", "running_var"], ["bn", "num_batches_tracked"]].map (p ++ ·) else missing) := by
  unfold loadFrom
  rw [if_pos hv]
  have h := fun k => hd k
  cases strict <;> simp [v2ToV1, rename, h]

/-- A checkpoint of the first version with a layer at `["up", "0"]` and an entry of another layer. -/
example : ∃ (l : Layer Nat) (d : Dict Nat), Holds d ["up", "0"] l.entries1 ∧ d ["down", "gamma"] = some 9 ∧ (loadFrom none true ["up", "0"] (d, [])).1 ["up", "0", "bn", "running_var"] = some 6 :=
  ⟨⟨1, none, 3, 4, 5, 6, 7, fun _ => some 8⟩, fun k => match k with
    | ["down", "gamma"] => some 9
    | "up" :: "0" :: k => (⟨1, none, 3, 4, 5, 6, 7, fun _ => some 8⟩ : Layer Nat).entries1 k
    | _ => none, fun _ => rfl, rfl, rfl⟩

end Verif.Props
