import Verif.Model.QuantFc
import Mathlib.Data.List.Infix
import Mathlib.Tactic.Common

/-!
C149: quantizing the linear layers of a language model.
-/

namespace Verif.Props
open Verif.Spec.QuantFc Verif.Model.QuantFc

namespace QuantFc
variable {W : Type}

theorem resolve_snoc (H : Heap W) (root : Nat) (p : Path) (s : String) : resolve H root (p ++ [s]) = (resolve H root p).bind (fun i => (H i).children.lookup s) := by
  unfold resolve
  rw [List.foldlM_append]
  cases h : List.foldlM (fun i s => (H i).children.lookup s) root p <;> simp

theorem lookup_mem {l : List (String × Nat)} {s : String} {c : Nat} (h : l.lookup s = some c) : (s, c) ∈ l := by
  induction l with
  | nil => cases h
  | cons e l ih =>
    obtain ⟨k, v⟩ := e
    rw [List.lookup_cons] at h
    by_cases hk : s == k
    · simp only [hk] at h
      cases h
      have : s = k := by simpa using hk
      subst this
      simp
    · simp only [hk] at h
      exact List.mem_cons_of_mem _ (ih h)

theorem lookup_setChild (s x : String) (f : Nat) (l : List (String × Nat)) (h : (l.lookup s).isSome) : (setChild s f l).lookup x = if x = s then some f else l.lookup x := by
  induction l with
  | nil => cases h
  | cons e l ih =>
    obtain ⟨k, v⟩ := e
    unfold setChild at ih ⊢
    rw [List.map_cons]
    dsimp only
    by_cases hks : k = s
    · rw [if_pos hks]
      subst hks
      rw [List.lookup_cons, List.lookup_cons]
      by_cases hx : x = k
      · subst hx; simp
      · have hx' : (x == k) = false := by simpa using hx
        simp only [hx', if_neg hx]
        have keep : ∀ l : List (String × Nat), List.lookup x (l.map (fun e => if e.1 = k then (e.1, f) else e)) = List.lookup x l := by
          intro l
          induction l with
          | nil => rfl
          | cons e l ih2 =>
            obtain ⟨k', v'⟩ := e
            rw [List.map_cons]
            dsimp only
            by_cases hk' : k' = k
            · rw [if_pos hk', List.lookup_cons, List.lookup_cons, ih2]
              subst hk'
              simp [hx']
            · rw [if_neg hk', List.lookup_cons, List.lookup_cons, ih2]
        exact keep l
    · rw [if_neg hks, List.lookup_cons, List.lookup_cons]
      rw [List.lookup_cons] at h
      have hsk : (s == k) = false := by simpa using (fun e => hks e.symm)
      simp only [hsk] at h
      rw [ih h]
      by_cases hx : x = k
      · subst hx
        simp [hks]
      · have hx' : (x == k) = false := by simpa using hx
        simp [hx']

theorem resolve_lt {H : Heap W} {root size : Nat} (m : IsModel H root size) (p : Path) : ∀ i, resolve H root p = some i → i < size := by
  induction p using List.reverseRecOn with
  | nil =>
    intro i h
    cases h
    exact m.root
  | append_singleton p s ih =>
    intro i h
    rw [resolve_snoc] at h
    cases hp : resolve H root p with
    | none => rw [hp] at h; cases h
    | some j =>
      rw [hp] at h
      exact m.closed j (ih j hp) _ (lookup_mem h)

/-- The model while the names in `done` have been replaced. -/
structure Inv (H0 : Heap W) (root size : Nat) (done : List Path) (H : Heap W) (fresh : Nat) : Prop where
  le : size ≤ fresh
  new : ∀ p ∈ done, ∃ i w, resolve H0 root p = some i ∧ (H0 i).kind = .linear w ∧ ∃ f, size ≤ f ∧ f < fresh ∧ resolve H root p = some f ∧ H f = ⟨.quantized w, []⟩
  old : ∀ p, p ∉ done → resolve H root p = resolve H0 root p ∧ ∀ i, resolve H0 root p = some i → (H i).kind = (H0 i).kind

theorem longer_none {H0 : Heap W} {root size : Nat} (m : IsModel H0 root size) {t : Path} {i : Nat} {w : W} (ht : resolve H0 root t = some i) (hk : (H0 i).kind = .linear w) (x : String) (r : Path) :
    resolve H0 root (t ++ x :: r) = none := by
  induction r using List.reverseRecOn with
  | nil =>
    rw [resolve_snoc, ht]
    simp [m.leaf i w hk]
  | append_singleton r y ih =>
    rw [show t ++ x :: (r ++ [y]) = (t ++ x :: r) ++ [y] by simp, resolve_snoc, ih]
    rfl

/-- Replacing one more layer. -/
theorem inv_step {H0 : Heap W} {root size : Nat} (m : IsModel H0 root size) (hu : Unshared H0 root) {done : List Path} {H : Heap W} {fresh : Nat} (I : Inv H0 root size done H fresh)
    {pre : Path} {s : String} {i parent : Nat} {w : W} (hnot : pre ++ [s] ∉ done) (hi : resolve H0 root (pre ++ [s]) = some i) (hk : (H0 i).kind = .linear w)
    (hp : resolve H root pre = some parent) : Inv H0 root size (done ++ [pre ++ [s]]) (replaced H parent i fresh s w) (fresh + 1) := by
  have hpre : pre ∉ done := by
    intro h
    obtain ⟨j, v, h1, h2, -⟩ := I.new pre h
    have := longer_none m h1 h2 s []
    rw [this] at hi
    cases hi
  have hp0 : resolve H0 root pre = some parent := by rw [← (I.old pre hpre).1]; exact hp
  have hpl := resolve_lt m _ _ hp0
  have hil := resolve_lt m _ _ hi
  have hlook : (H parent).children.lookup s = some i := by
    have := (I.old _ hnot).1
    rw [hi, resolve_snoc, hp] at this
    exact this
  have hlt : ∀ q j, resolve H root q = some j → j < fresh := by
    intro q j hq
    by_cases hd : q ∈ done
    · obtain ⟨_, _, _, _, f, _, hf, hr, _⟩ := I.new q hd
      rw [hq] at hr
      cases hr
      exact hf
    · rw [(I.old q hd).1] at hq
      exact Nat.lt_of_lt_of_le (resolve_lt m _ _ hq) I.le
  have honly : ∀ q, resolve H root q = some parent → q = pre := by
    intro q hq
    by_cases hd : q ∈ done
    · obtain ⟨_, _, _, _, f, hf, _, hr, _⟩ := I.new q hd
      rw [hq] at hr
      cases hr
      omega
    · rw [(I.old q hd).1] at hq
      exact hu _ _ _ hq hp0
  have main : ∀ p, (p = pre ++ [s] → resolve (replaced H parent i fresh s w) root p = some fresh) ∧
      (∀ x r, p = pre ++ [s] ++ x :: r → resolve (replaced H parent i fresh s w) root p = none) ∧
      (¬ (pre ++ [s]) <+: p → resolve (replaced H parent i fresh s w) root p = resolve H root p) := by
    intro p
    induction p using List.reverseRecOn with
    | nil => exact ⟨fun h => by simp at h, fun x r h => by simp at h, fun _ => rfl⟩
    | append_singleton q x ih =>
      obtain ⟨ih1, ih2, ih3⟩ := ih
      refine ⟨?_, ?_, ?_⟩
      · intro h
        obtain ⟨rfl, hx⟩ := List.append_inj' h rfl
        cases hx
        rw [resolve_snoc, ih3 (by
          intro h
          have := h.length_le
          simp only [List.length_append, List.length_singleton] at this
          omega), hp]
        have hne : parent ≠ fresh := by have := I.le; omega
        simp only [Option.bind_some, replaced, if_neg hne, if_true]
        rw [lookup_setChild _ _ _ _ (by rw [hlook]; rfl), if_pos rfl]
      · intro y r h
        rcases List.eq_nil_or_concat r with rfl | ⟨r', z, rfl⟩
        · obtain ⟨rfl, hx⟩ := List.append_inj' h rfl
          rw [resolve_snoc, ih1 rfl]
          simp [replaced]
        · have h' : q ++ [x] = (pre ++ [s] ++ y :: r') ++ [z] := by rw [h]; simp
          obtain ⟨rfl, hx⟩ := List.append_inj' h' rfl
          rw [resolve_snoc, ih2 y r' rfl]
          rfl
      · intro h
        have hq : ¬ (pre ++ [s]) <+: q := fun hq => h (hq.trans (List.prefix_append _ _))
        rw [resolve_snoc, resolve_snoc, ih3 hq]
        cases hr : resolve H root q with
        | none => rfl
        | some j =>
          have hjf : j ≠ fresh := by have := hlt q j hr; omega
          simp only [Option.bind_some, replaced, if_neg hjf]
          by_cases hj : j = parent
          · subst hj
            rw [if_pos rfl]
            have := honly q hr
            subst this
            have hxs : x ≠ s := by
              rintro rfl
              exact h (List.prefix_refl _)
            rw [lookup_setChild _ _ _ _ (by rw [hlook]; rfl), if_neg hxs]
          · rw [if_neg hj]
            by_cases hji : j = i
            · rw [if_pos hji]
            · rw [if_neg hji]
  have hext : ∀ p j, resolve H0 root p = some j → p ≠ pre ++ [s] → ¬ (pre ++ [s]) <+: p := by
    rintro p j hpj hne ⟨r, rfl⟩
    cases r with
    | nil => simp at hne
    | cons x r =>
      rw [longer_none m hi hk x r] at hpj
      cases hpj
  refine ⟨by have := I.le; omega, ?_, ?_⟩
  · intro p hpd
    rcases List.mem_append.1 hpd with hd | hd
    · obtain ⟨j, v, h1, h2, f, h3, h4, h5, h6⟩ := I.new p hd
      refine ⟨j, v, h1, h2, f, h3, by omega, ?_, ?_⟩
      · rw [(main p).2.2 (hext p j h1 (fun e => hnot (e ▸ hd)))]
        exact h5
      · unfold replaced
        rw [if_neg (by omega), if_neg (by omega), if_neg (by omega), h6]
    · simp only [List.mem_singleton] at hd
      subst hd
      refine ⟨i, w, hi, hk, fresh, I.le, by omega, (main _).1 rfl, ?_⟩
      simp [replaced]
  · intro p hpn
    simp only [List.mem_append, List.mem_singleton, not_or] at hpn
    obtain ⟨o1, o2⟩ := I.old p hpn.1
    refine ⟨?_, ?_⟩
    · by_cases hpf : (pre ++ [s]) <+: p
      · obtain ⟨r, rfl⟩ := hpf
        cases r with
        | nil => simp at hpn
        | cons x r => rw [(main _).2.1 x r rfl, longer_none m hi hk x r]
      · rw [(main p).2.2 hpf, o1]
    · intro j hj
      have hjl := resolve_lt m _ _ hj
      have := I.le
      unfold replaced
      rw [if_neg (by omega)]
      by_cases hjp : j = parent
      · rw [if_pos hjp]
        exact o2 j hj
      · rw [if_neg hjp]
        by_cases hji : j = i
        · subst hji
          exact absurd (hu _ _ _ hj hi) hpn.2
        · rw [if_neg hji]
          exact o2 j hj

/-- The state after some entries have been looked at: `done` are names of linear layers among them that are not to be skipped; all of them if nothing was raised. -/
structure Run (H0 : Heap W) (root size : Nat) (skip : Path → Bool) (seen : List (Path × Nat)) (st : St W) (done : List Path) : Prop where
  inv : Inv H0 root size done st.heap st.fresh
  sub : ∀ p ∈ done, skip p = false ∧ ∃ i, (p, i) ∈ seen
  all : st.raised = false → ∀ e ∈ seen, ∀ w, (H0 e.2).kind = .linear w → skip e.1 = false → e.1 ∈ done

theorem run_ok {H0 : Heap W} {root size : Nat} (m : IsModel H0 root size) (hu : Unshared H0 root) (skip : Path → Bool) (ok : W → Bool)
    (L : List (Path × Nat)) : ∀ (seen : List (Path × Nat)) (st : St W) (done : List Path), (∀ e ∈ seen ++ L, resolve H0 root e.1 = some e.2) → ((seen ++ L).map Prod.snd).Nodup →
    Run H0 root size skip seen st done → ∃ done', Run H0 root size skip (seen ++ L) (quantFc skip ok root L st) done' ∧
      (st.raised = false → (∀ e ∈ L, skip e.1 = false → ∀ w, (H0 e.2).kind = .linear w → e.1 ≠ [] ∧ ok w = true) → (quantFc skip ok root L st).raised = false) := by
  induction L with
  | nil =>
    intro seen st done _ _ R
    exact ⟨done, by simpa [quantFc] using R, fun h _ => h⟩
  | cons e L ih =>
    intro seen st done hres hnd R
    have hres' : ∀ x ∈ (seen ++ [e]) ++ L, resolve H0 root x.1 = some x.2 := by simpa using hres
    have hnd' : (((seen ++ [e]) ++ L).map Prod.snd).Nodup := by simpa using hnd
    have he := hres e (by simp)
    have hnotdone : e.1 ∉ done := by
      intro h
      obtain ⟨-, i, hi⟩ := R.sub _ h
      have h1 := hres _ (List.mem_append_left _ hi)
      dsimp only at h1
      rw [he] at h1
      cases h1
      rw [List.map_append, List.nodup_append] at hnd
      exact hnd.2.2 e.2 (List.mem_map.2 ⟨_, hi, rfl⟩) e.2 (by simp) rfl
    -- the state is unchanged
    have same : step skip ok root st e = st → (st.raised = true ∨ skip e.1 = true ∨ ∀ w, (H0 e.2).kind ≠ .linear w) → ∃ done',
        Run H0 root size skip (seen ++ e :: L) (quantFc skip ok root (e :: L) st) done' ∧
        (st.raised = false → (∀ x ∈ e :: L, skip x.1 = false → ∀ w, (H0 x.2).kind = .linear w → x.1 ≠ [] ∧ ok w = true) → (quantFc skip ok root (e :: L) st).raised = false) := by
      intro hs hwhy
      obtain ⟨d, h1, h2⟩ := ih (seen ++ [e]) st done hres' hnd' ⟨R.inv, fun p hp => ⟨(R.sub p hp).1, by
        obtain ⟨i, hi⟩ := (R.sub p hp).2
        exact ⟨i, by simp [hi]⟩⟩, by
        intro hr x hx w hw hsk
        rcases List.mem_append.1 hx with hx | hx
        · exact R.all hr x hx w hw hsk
        · simp only [List.mem_singleton] at hx
          subst hx
          rcases hwhy with h | h | h
          · rw [hr] at h; cases h
          · rw [hsk] at h; cases h
          · exact absurd hw (h w)⟩
      refine ⟨d, ?_, ?_⟩
      · simpa [quantFc, hs] using h1
      · intro hr hall
        have := h2 hr (fun x hx => hall x (by simp [hx]))
        simpa [quantFc, hs] using this
    -- an exception
    have raise : step skip ok root st e = { st with raised := true } → ¬ (∀ x ∈ e :: L, skip x.1 = false → ∀ w, (H0 x.2).kind = .linear w → x.1 ≠ [] ∧ ok w = true) → ∃ done',
        Run H0 root size skip (seen ++ e :: L) (quantFc skip ok root (e :: L) st) done' ∧
        (st.raised = false → (∀ x ∈ e :: L, skip x.1 = false → ∀ w, (H0 x.2).kind = .linear w → x.1 ≠ [] ∧ ok w = true) → (quantFc skip ok root (e :: L) st).raised = false) := by
      intro hs hno
      obtain ⟨d, h1, h2⟩ := ih (seen ++ [e]) { st with raised := true } done hres' hnd' ⟨R.inv, fun p hp => ⟨(R.sub p hp).1, by
        obtain ⟨i, hi⟩ := (R.sub p hp).2
        exact ⟨i, by simp [hi]⟩⟩, by intro h; cases h⟩
      refine ⟨d, ?_, fun _ hall => absurd hall hno⟩
      simpa [quantFc, hs] using h1
    by_cases hr : st.raised = true
    · exact same (by unfold step; rw [if_pos hr]) (Or.inl hr)
    have hr' : st.raised = false := by simpa using hr
    by_cases hsk : skip e.1 = true
    · exact same (by unfold step; rw [if_neg hr, if_pos hsk]) (Or.inr (Or.inl hsk))
    have hsk' : skip e.1 = false := by simpa using hsk
    have hkind : (st.heap e.2).kind = (H0 e.2).kind := (R.inv.old e.1 hnotdone).2 e.2 he
    cases hk : (H0 e.2).kind with
    | quantized w => exact same (by unfold step; rw [if_neg hr, if_neg hsk, hkind, hk]) (Or.inr (Or.inr (by simp [hk])))
    | dead => exact same (by unfold step; rw [if_neg hr, if_neg hsk, hkind, hk]) (Or.inr (Or.inr (by simp [hk])))
    | other => exact same (by unfold step; rw [if_neg hr, if_neg hsk, hkind, hk]) (Or.inr (Or.inr (by simp [hk])))
    | linear w =>
      rcases List.eq_nil_or_concat e.1 with hnil | ⟨pre, s, hcat⟩
      · refine raise ?_ ?_
        · unfold step
          rw [if_neg hr, if_neg hsk, hkind, hk]
          simp [hnil]
        · intro hall
          exact (hall e (by simp) hsk' w hk).1 hnil
      · have hcat : e.1 = pre ++ [s] := by simpa using hcat
        by_cases hok : ok w = true
        · have hpar : ∃ parent, resolve st.heap root pre = some parent := by
            have h1 := (R.inv.old e.1 hnotdone).1
            rw [he, hcat, resolve_snoc] at h1
            cases hp : resolve st.heap root pre with
            | none => rw [hp] at h1; cases h1
            | some j => exact ⟨j, rfl⟩
          obtain ⟨parent, hpar⟩ := hpar
          have hstep : step skip ok root st e = ⟨replaced st.heap parent e.2 st.fresh s w, st.fresh + 1, false⟩ := by
            unfold step
            rw [if_neg hr, if_neg hsk, hkind, hk]
            simp [hcat, hpar, hok]
          have I := inv_step m hu R.inv (hcat ▸ hnotdone) (hcat ▸ he) hk hpar
          obtain ⟨d, h1, h2⟩ := ih (seen ++ [e]) ⟨replaced st.heap parent e.2 st.fresh s w, st.fresh + 1, false⟩ (done ++ [pre ++ [s]]) hres' hnd' ⟨I, by
            intro p hp
            rcases List.mem_append.1 hp with hp | hp
            · obtain ⟨i, hi⟩ := (R.sub p hp).2
              exact ⟨(R.sub p hp).1, i, by simp [hi]⟩
            · simp only [List.mem_singleton] at hp
              subst hp
              exact ⟨hcat ▸ hsk', e.2, by rw [← hcat]; simp⟩, by
            intro _ x hx v hv hxs
            rcases List.mem_append.1 hx with hx | hx
            · exact List.mem_append_left _ (R.all hr' x hx v hv hxs)
            · simp only [List.mem_singleton] at hx
              subst hx
              simp [hcat]⟩
          refine ⟨d, ?_, ?_⟩
          · simpa [quantFc, hstep] using h1
          · intro _ hall
            have := h2 rfl (fun x hx => hall x (by simp [hx]))
            simpa [quantFc, hstep] using this
        · refine raise ?_ ?_
          · have hpar : ∃ parent, resolve st.heap root pre = some parent := by
              have h1 := (R.inv.old e.1 hnotdone).1
              rw [he, hcat, resolve_snoc] at h1
              cases hp : resolve st.heap root pre with
              | none => rw [hp] at h1; cases h1
              | some j => exact ⟨j, rfl⟩
            obtain ⟨parent, hpar⟩ := hpar
            unfold step
            rw [if_neg hr, if_neg hsk, hkind, hk]
            simp [hcat, hpar, hok]
          · intro hall
            exact hok (hall e (by simp) hsk' w hk).2

theorem kinds_of_run {H0 : Heap W} {root size : Nat} (hu : Unshared H0 root) {skip : Path → Bool} {L : List (Path × Nat)} (hL : Listing H0 root L)
    {st : St W} {done : List Path} (R : Run H0 root size skip L st done) (p : Path) :
    (kindAt st.heap root p = kindAt H0 root p ∨ kindAt st.heap root p = (kindAt H0 root p).map (wanted skip p)) ∧
    (st.raised = false → kindAt st.heap root p = (kindAt H0 root p).map (wanted skip p)) := by
  by_cases hd : p ∈ done
  · obtain ⟨i, w, h1, h2, f, -, -, h5, h6⟩ := R.inv.new p hd
    have : kindAt st.heap root p = (kindAt H0 root p).map (wanted skip p) := by
      simp [kindAt, h1, h5, h6, h2, wanted, (R.sub p hd).1]
    exact ⟨Or.inr this, fun _ => this⟩
  · obtain ⟨o1, o2⟩ := R.inv.old p hd
    have hsame : kindAt st.heap root p = kindAt H0 root p := by
      unfold kindAt
      rw [o1]
      cases hr : resolve H0 root p with
      | none => rfl
      | some i => simp [o2 i hr]
    refine ⟨Or.inl hsame, fun hr => ?_⟩
    rw [hsame]
    unfold kindAt
    cases hi : resolve H0 root p with
    | none => rfl
    | some i =>
      simp only [Option.map_some, Option.some.injEq]
      cases hk : (H0 i).kind with
      | linear w =>
        by_cases hs : skip p = true
        · simp [wanted, hs]
        · exfalso
          obtain ⟨q, hq⟩ := hL.all p i hi
          have := hu _ _ _ (hL.named _ hq) hi
          dsimp only at this
          subst this
          exact hd (R.all hr _ hq w hk (by simpa using hs))
      | quantized w => rfl
      | dead => rfl
      | other => rfl

theorem start_run (H0 : Heap W) (root size : Nat) (skip : Path → Bool) : Run H0 root size skip [] ⟨H0, size, false⟩ [] :=
  ⟨⟨Nat.le_refl _, by simp, fun _ _ => ⟨rfl, fun _ _ => rfl⟩⟩, by simp, by simp⟩

end QuantFc

open QuantFc
variable {W : Type}

/-- **C149** (for models without shared modules, that are not a single linear layer): if every layer can be quantized, `quant_fc` returns, and under every name there is what should be there. -/
theorem C149_layers_partial (H : Heap W) (root size : Nat) (m : IsModel H root size) (hu : Unshared H root) (L : List (Path × Nat)) (hL : Listing H root L) (skip : Path → Bool) (ok : W → Bool)
    (hroot : ∀ w, (H root).kind ≠ .linear w) (hok : ∀ p i w, resolve H root p = some i → (H i).kind = .linear w → skip p = false → ok w = true) :
    (quantFc skip ok root L ⟨H, size, false⟩).raised = false ∧
    ∀ p, kindAt (quantFc skip ok root L ⟨H, size, false⟩).heap root p = (kindAt H root p).map (wanted skip p) := by
  obtain ⟨d, R, hr⟩ := run_ok m hu skip ok L [] ⟨H, size, false⟩ [] (by simpa using hL.named) (by simpa using hL.once) (start_run H root size skip)
  have hfalse := hr rfl (by
    intro e he hs w hw
    have hres := hL.named e he
    refine ⟨?_, hok _ _ _ hres hw hs⟩
    intro hnil
    rw [hnil] at hres
    cases hres
    exact hroot w hw)
  exact ⟨hfalse, fun p => (kinds_of_run hu hL (by simpa using R) p).2 hfalse⟩

/-- However it ends, also when a layer in the middle cannot be quantized: under every name there is what was there before or what should be there, so no layer is left without weights. -/
theorem C149_interrupted_partial (H : Heap W) (root size : Nat) (m : IsModel H root size) (hu : Unshared H root) (L : List (Path × Nat)) (hL : Listing H root L) (skip : Path → Bool)
    (ok : W → Bool) (p : Path) : kindAt (quantFc skip ok root L ⟨H, size, false⟩).heap root p = kindAt H root p ∨
      kindAt (quantFc skip ok root L ⟨H, size, false⟩).heap root p = (kindAt H root p).map (wanted skip p) := by
  obtain ⟨d, R, -⟩ := run_ok m hu skip ok L [] ⟨H, size, false⟩ [] (by simpa using hL.named) (by simpa using hL.once) (start_run H root size skip)
  exact (kinds_of_run hu hL (by simpa using R) p).1

/-- A model without linear layers that are to be quantized is left as it is: in particular a second run does nothing. -/
theorem C149_again (H : Heap W) (root fresh : Nat) (L : List (Path × Nat)) (skip : Path → Bool) (ok : W → Bool) (hnone : ∀ e ∈ L, ∀ w, (H e.2).kind = .linear w → skip e.1 = true) :
    quantFc skip ok root L ⟨H, fresh, false⟩ = ⟨H, fresh, false⟩ := by
  induction L with
  | nil => rfl
  | cons e L ih =>
    have : step skip ok root ⟨H, fresh, false⟩ e = ⟨H, fresh, false⟩ := by
      unfold step
      dsimp only
      rw [if_neg (by simp)]
      by_cases hs : skip e.1 = true
      · rw [if_pos hs]
      · rw [if_neg hs]
        cases hk : (H e.2).kind with
        | linear w => exact absurd (hnone e (by simp) w hk) hs
        | quantized w => rfl
        | dead => rfl
        | other => rfl
    show quantFc skip ok root L (step skip ok root ⟨H, fresh, false⟩ e) = _
    rw [this]
    exact ih (fun x hx => hnone x (by simp [hx]))

/-- Names that contain `lm_head` as one of their parts. -/
def headName (p : Path) : Bool := decide ("lm_head" ∈ p)

/-- A decoder with two layers and a head. -/
def decoder : Heap Nat
  | 0 => ⟨.other, [("layers", 1), ("lm_head", 4)]⟩
  | 1 => ⟨.other, [("0", 2), ("1", 3)]⟩
  | 2 => ⟨.linear 10, []⟩
  | 3 => ⟨.linear 20, []⟩
  | 4 => ⟨.linear 30, []⟩
  | _ => ⟨.other, []⟩

def decoderList : List (Path × Nat) := [([], 0), (["layers"], 1), (["layers", "0"], 2), (["layers", "1"], 3), (["lm_head"], 4)]

theorem QuantFc.decoder_paths (p : Path) : ∀ i, resolve decoder 0 p = some i → (p, i) ∈ decoderList := by
  induction p using List.reverseRecOn with
  | nil =>
    intro i h
    cases h
    decide
  | append_singleton p s ih =>
    intro i h
    rw [resolve_snoc] at h
    cases hp : resolve decoder 0 p with
    | none => rw [hp] at h; cases h
    | some j =>
      rw [hp] at h
      have hj := ih j hp
      have hm := lookup_mem h
      simp only [decoderList, List.mem_cons, Prod.mk.injEq, List.not_mem_nil, or_false] at hj
      rcases hj with ⟨rfl, rfl⟩ | ⟨rfl, rfl⟩ | ⟨rfl, rfl⟩ | ⟨rfl, rfl⟩ | ⟨rfl, rfl⟩ <;> simp [decoder] at hm
      · rcases hm with ⟨rfl, rfl⟩ | ⟨rfl, rfl⟩ <;> decide
      · rcases hm with ⟨rfl, rfl⟩ | ⟨rfl, rfl⟩ <;> decide

/-- The decoder meets the hypotheses. -/
theorem QuantFc.decoder_meets : IsModel decoder 0 5 ∧ Unshared decoder 0 ∧ Listing decoder 0 decoderList := by
  refine ⟨⟨by decide, by decide, ?_⟩, ?_, ⟨by decide, by decide, fun p i h => ⟨p, decoder_paths p i h⟩⟩⟩
  · intro i w h
    match i with
    | 0 => cases h
    | 1 => cases h
    | 2 => rfl
    | 3 => rfl
    | 4 => rfl
    | _ + 5 => rfl
  · intro p q i hp hq
    have h1 := decoder_paths p i hp
    have h2 := decoder_paths q i hq
    simp only [decoderList, List.mem_cons, Prod.mk.injEq, List.not_mem_nil, or_false] at h1 h2
    rcases h1 with ⟨rfl, rfl⟩ | ⟨rfl, rfl⟩ | ⟨rfl, rfl⟩ | ⟨rfl, rfl⟩ | ⟨rfl, rfl⟩ <;> simp_all

example (p : Path) : kindAt (quantFc headName (fun _ => true) 0 decoderList ⟨decoder, 5, false⟩).heap 0 p = (kindAt decoder 0 p).map (wanted headName p) :=
  (C149_layers_partial decoder 0 5 decoder_meets.1 decoder_meets.2.1 decoderList decoder_meets.2.2 headName (fun _ => true) (fun _ h => by cases h) (fun _ _ _ _ _ _ => rfl)).2 p

/-- Both layers are replaced, the head is not. -/
example : ([["layers", "0"], ["layers", "1"], ["lm_head"], ["layers"]].map (kindAt (quantFc headName (fun _ => true) 0 decoderList ⟨decoder, 5, false⟩).heap 0)) =
    [some (.quantized 10), some (.quantized 20), some (.linear 30), some .other] := by decide

/-- If the second one cannot be quantized, the first one is replaced and the second one is as it was. -/
example : ([["layers", "0"], ["layers", "1"], ["lm_head"]].map (kindAt (quantFc headName (fun w => decide (w ≠ 20)) 0 decoderList ⟨decoder, 5, false⟩).heap 0)) =
    [some (.quantized 10), some (.linear 20), some (.linear 30)] := by decide

/-- One linear layer under two names. -/
def tied : Heap Nat
  | 0 => ⟨.other, [("a", 1), ("b", 1)]⟩
  | 1 => ⟨.linear 10, []⟩
  | _ => ⟨.other, []⟩

/-- The full claim is false for a layer that is used under two names: it is replaced under the first one, and under the second one there is the old layer without its weights. -/
theorem C149_shared_false : kindAt tied 0 ["a"] = some (.linear 10) ∧ kindAt tied 0 ["b"] = some (.linear 10) ∧
    (quantFc headName (fun _ => true) 0 [([], 0), (["a"], 1)] ⟨tied, 2, false⟩).raised = false ∧
    kindAt (quantFc headName (fun _ => true) 0 [([], 0), (["a"], 1)] ⟨tied, 2, false⟩).heap 0 ["a"] = some (.quantized 10) ∧
    kindAt (quantFc headName (fun _ => true) 0 [([], 0), (["a"], 1)] ⟨tied, 2, false⟩).heap 0 ["b"] = some .dead := by decide

/-- With the modes that are accepted, layers with an even number of features can be made. -/
theorem C149_modes (features : Nat) : makes "weight8" features = true ∧ makes "dynamic" features = true ∧ (makes "weight4" features = true ↔ features % 2 = 0) := by
  simp [makes]

/-- The mode `dynamic_token`, which the documentation offers, is refused for every layer: `quant_fc` raises at the first one. -/
theorem C149_mode_false : (∀ features, makes "dynamic_token" features = false) ∧ (quantFc headName (makes "dynamic_token") 0 decoderList ⟨decoder, 5, false⟩).raised = true :=
  ⟨fun _ => by simp [makes], by decide⟩

/-- A model that is a single linear layer is not quantized: `quant_fc` raises an AttributeError. -/
theorem C149_root_false : (quantFc headName (fun _ => true) 0 [([], 0)] ⟨fun _ => (⟨.linear 10, []⟩ : Obj Nat), 1, false⟩).raised = true := by decide

end Verif.Props
