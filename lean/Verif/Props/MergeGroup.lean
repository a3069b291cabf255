import Verif.Lemmas.MergeGroup

/-!
C26 (`merge_group` returns the common refinement) and C27 (`get_smallest_k`).
-/

namespace Verif.Props
open Verif.Model Verif.Spec Verif.Lemmas

/-- C26.  `merge_group` terminates (the stated number of loop iterations suffices), and its result
* is pairwise disjoint,
* covers the same indices,
* refines every given group (each result set is inside the group or disjoint from it), and
* is the coarsest such family: two covered indices share a result set iff they belong to exactly the
  same given groups. -/
theorem C26_merge_group (sort : List (List Int) → List (List Int)) (hsort : ∀ l, (sort l).Perm l)
    (g : List (List Int)) :
    ∃ out, mergeGroup sort (2 * (g.map List.length).sum + g.length + 1) g = some out ∧
      out.Pairwise DisjointSets ∧
      (∀ x, Covered out x ↔ Covered g x) ∧
      (∀ s ∈ g, ∀ t ∈ out, (∀ x ∈ t, x ∈ s) ∨ DisjointSets t s) ∧
      (∀ x y, Covered g x → ((∃ t ∈ out, x ∈ t ∧ y ∈ t) ↔ ∀ s ∈ g, x ∈ s ↔ y ∈ s)) := by
  obtain ⟨ng, hng, inv⟩ := mgLoop_spec g (2 * (g.map List.length).sum + g.length + 1) g []
    (by unfold msum; omega) (mgInv_init g)
  refine ⟨sort (mgDedup ng ng), by simp [mergeGroup, hng], ?_⟩
  have hperm := hsort (mgDedup ng ng)
  have hdis : (sort (mgDedup ng ng)).Pairwise DisjointSets := by
    rw [hperm.pairwise_iff]
    · exact inv.disj.sublist (mgDedup_sublist _ _)
    · intro a b h x hx hx'; exact h x hx' hx
  have hmem : ∀ t, t ∈ sort (mgDedup ng ng) → t ∈ ng :=
    fun t ht => (mgDedup_sublist _ _).mem (hperm.mem_iff.1 ht)
  have hmem' : ∀ t, t ≠ [] → t ∈ ng → t ∈ sort (mgDedup ng ng) :=
    fun t hne ht => hperm.mem_iff.2 (mgDedup_mem ng ng inv.disj t hne ht)
  have hcov : ∀ x, Covered (sort (mgDedup ng ng)) x ↔ Covered g x := by
    intro x
    rw [← inv.cov x]
    constructor
    · rintro ⟨t, ht, hx⟩; exact Or.inr ⟨t, hmem t ht, hx⟩
    · rintro (⟨t, ht, hx⟩ | ⟨t, ht, hx⟩)
      · simp at ht
      · exact ⟨t, hmem' t (List.ne_nil_of_mem hx) ht, hx⟩
  have hsame : ∀ t ∈ ng, ∀ u ∈ ng, ∀ x, x ∈ t → x ∈ u → t = u := by
    intro t ht u hu x hxt hxu
    by_contra hne
    have : ∀ ⦃t u : List Int⦄, t ∈ ng → u ∈ ng → t ≠ u → DisjointSets t u := by
      intro t u ht hu hne
      exact List.Pairwise.forall_of_forall_of_flip
        (R := fun t u => t ≠ u → DisjointSets t u) (by intro x _ h; exact absurd rfl h)
        (inv.disj.imp (S := fun t u => t ≠ u → DisjointSets t u) fun h _ => h)
        (inv.disj.imp (S := flip fun t u => t ≠ u → DisjointSets t u) fun h _ x hx hx' => h x hx' hx) ht hu hne
    exact this ht hu hne x hxt hxu
  have href : ∀ s ∈ g, ∀ t ∈ ng, ∀ x ∈ t, x ∈ s → ∀ y ∈ t, y ∈ s := by
    intro s hs t ht x hxt hxs
    obtain ⟨u, hu, hxu, hus⟩ := inv.refine_ s hs x hxs
    have hu : u ∈ ng := by rcases hu with h | h; · simp at h
                           · exact h
    rw [hsame t ht u hu x hxt hxu]; exact hus
  refine ⟨hdis, hcov, ?_, ?_⟩
  · intro s hs t ht
    by_cases h : ∃ x ∈ t, x ∈ s
    · obtain ⟨x, hxt, hxs⟩ := h
      exact Or.inl (href s hs t (hmem t ht) x hxt hxs)
    · right; intro x hx hxs; exact h ⟨x, hx, hxs⟩
  · intro x y hx
    constructor
    · rintro ⟨t, ht, hxt, hyt⟩ s hs
      exact ⟨fun h => href s hs t (hmem t ht) x hxt h y hyt, fun h => href s hs t (hmem t ht) y hyt h x hxt⟩
    · intro h
      obtain ⟨t, ht, hxt⟩ := (hcov x).2 hx
      exact ⟨t, ht, hxt, (inv.coarse x y h t (Or.inr (hmem t ht))).1 hxt⟩

/-- A non-trivial instance: overlapping groups, a repeated group, an empty group. -/
example : mergeGroup id 100 [[0, 1, 2, 3], [2, 3, 4], [], [2, 3, 4], [7]] = some [[], [7], [0, 1], [4], [2, 3]] := by
  decide

example : ∀ l : List (List Int), (id l).Perm l := fun l => List.Perm.refl l

/-- C27.  The k least important indices: strictly increasing, `min k n` many, all in range (after the
shift by `offset`), and every index left out is at least as important as every selected one, ties
being resolved towards the smaller index. -/
theorem C27_get_smallest_k {α : Type} [LinearOrder α] (lst : List α) (k offset : Nat) :
    let out := getSmallestK lst k offset
    out.Pairwise (· < ·) ∧
    out.length = min k lst.length ∧
    (∀ o ∈ out, offset ≤ o ∧ o < offset + lst.length) ∧
    (∀ i j (hi : i < lst.length) (hj : j < lst.length), i + offset ∈ out → j + offset ∉ out →
      lst[i] < lst[j] ∨ (lst[i] = lst[j] ∧ i < j)) := by
  intro out
  set pairs : List (Nat × α) := lst.zipIdx.map (fun p => (p.2, p.1)) with hpairs
  set sorted := pairs.insertionSort (fun a b => a.2 ≤ b.2) with hsorted
  have hmem : ∀ p : Nat × α, p ∈ pairs ↔ ∃ h : p.1 < lst.length, lst[p.1] = p.2 := by
    intro p
    simp only [hpairs, List.mem_map]
    constructor
    · rintro ⟨⟨a, i⟩, h, rfl⟩
      have := List.mem_zipIdx h
      refine ⟨by simpa using this.2.1, by simpa using this.2.2.symm⟩
    · rintro ⟨h, e⟩
      refine ⟨(p.2, p.1), ?_, rfl⟩
      rw [List.mem_zipIdx_iff_getElem?]
      rw [List.getElem?_eq_getElem h, e]
  have hperm : sorted.Perm pairs := List.perm_insertionSort _ _
  have hstable : sorted.Pairwise (fun a b => a.2 < b.2 ∨ (a.2 = b.2 ∧ a.1 < b.1)) := by
    apply insertionSort_stable
    have : (lst.zipIdx.map Prod.snd).Pairwise (· < ·) := by
      rw [List.zipIdx_map_snd]
      simpa using List.pairwise_lt_range'
    rw [List.pairwise_map] at this
    rw [hpairs, List.pairwise_map]
    exact this
  have hnd : (sorted.map Prod.fst).Nodup := by
    have h1 : (pairs.map Prod.fst).Nodup := by
      have : pairs.map Prod.fst = List.range' 0 lst.length := by
        rw [hpairs, List.map_map]
        have := List.zipIdx_map_snd 0 lst
        simpa [Function.comp_def] using this
      rw [this]; exact List.nodup_range'
    exact (hperm.map _).nodup_iff.2 h1
  have hout : out = ((sorted.take k).map (fun p => p.1 + offset)).insertionSort (· ≤ ·) := rfl
  have hop : out.Perm ((sorted.take k).map (fun p => p.1 + offset)) := by
    rw [hout]; exact List.perm_insertionSort _ _
  have hmo : ∀ i, i + offset ∈ out ↔ ∃ p ∈ sorted.take k, p.1 = i := by
    intro i
    rw [hop.mem_iff, List.mem_map]
    constructor
    · rintro ⟨p, hp, h⟩; exact ⟨p, hp, by omega⟩
    · rintro ⟨p, hp, h⟩; exact ⟨p, hp, by omega⟩
  have hnd2 : ((sorted.take k).map (fun p => p.1 + offset)).Nodup := by
    have h2 : ((sorted.take k).map Prod.fst).Nodup :=
      hnd.sublist ((List.take_sublist _ _).map _)
    have : (sorted.take k).map (fun p => p.1 + offset) = ((sorted.take k).map Prod.fst).map (· + offset) := by
      rw [List.map_map]; rfl
    rw [this]
    exact h2.map (fun a b h => by simpa using h)
  refine ⟨?_, ?_, ?_, ?_⟩
  · have h1 : out.Pairwise (· ≤ ·) := by rw [hout]; exact List.pairwise_insertionSort _ _
    have h2 : out.Nodup := hop.nodup_iff.2 hnd2
    exact (h1.and h2).imp fun ⟨h, h'⟩ => lt_of_le_of_ne h h'
  · rw [hop.length_eq, List.length_map, List.length_take, hperm.length_eq, hpairs]
    simp
  · intro o ho
    rw [hop.mem_iff, List.mem_map] at ho
    obtain ⟨p, hp, rfl⟩ := ho
    have := (hmem p).1 (hperm.mem_iff.1 (List.mem_of_mem_take hp))
    obtain ⟨h, _⟩ := this
    omega
  · intro i j hi hj hio hjo
    obtain ⟨p, hp, rfl⟩ := (hmo i).1 hio
    have hjs : (j, lst[j]) ∈ sorted := hperm.mem_iff.2 ((hmem _).2 ⟨hj, rfl⟩)
    rw [← List.take_append_drop k sorted, List.mem_append] at hjs
    rcases hjs with h | h
    · exact absurd ((hmo j).2 ⟨_, h, rfl⟩) hjo
    · have hps : p ∈ sorted := List.mem_of_mem_take hp
      obtain ⟨_, hpv⟩ := (hmem p).1 (hperm.mem_iff.1 hps)
      rw [← List.take_append_drop k sorted, List.pairwise_append] at hstable
      have := hstable.2.2 p hp _ h
      simpa [hpv] using this

example : getSmallestK [5, 1, 4, 1, 3] 3 10 = [11, 13, 14] := by decide

end Verif.Props
