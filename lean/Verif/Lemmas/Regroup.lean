import Verif.Lemmas.Tensor

/-! Merging runs of axes into one: row-major offsets of grouped shapes. -/

namespace Verif.Lemmas
open Verif.Spec

theorem flat_append {s s' i i' : List Nat} (h : i.length = s.length) :
    flat (s ++ s') (i ++ i') = flat s i * s'.prod + flat s' i' := by
  induction s generalizing i with
  | nil => cases i with
    | nil => simp [flat]
    | cons => simp at h
  | cons d s ih => cases i with
    | nil => simp at h
    | cons a i =>
      simp only [List.cons_append, flat, List.prod_append]
      rw [ih (by simpa using h)]; ring

theorem prod_flatten (S : List (List Nat)) : S.flatten.prod = (S.map List.prod).prod := by
  induction S with
  | nil => rfl
  | cons s S ih => simp [ih]

/-- Offsets of a shape and of the shape with consecutive axes merged agree. -/
theorem flat_group {β : Type} (B : List β) (S I : β → List Nat) (h : ∀ b ∈ B, (I b).length = (S b).length) :
    flat (B.map S).flatten (B.map I).flatten = flat (B.map (fun b => (S b).prod)) (B.map (fun b => flat (S b) (I b))) := by
  induction B with
  | nil => rfl
  | cons b B ih =>
    simp only [List.map_cons, List.flatten_cons]
    rw [flat_append (h b List.mem_cons_self), ih (fun c hc => h c (List.mem_cons_of_mem _ hc)),
      prod_flatten, List.map_map]
    rfl

theorem inBounds_map {β : Type} (B : List β) (S I : β → Nat) (h : ∀ b ∈ B, I b < S b) :
    InBounds (B.map S) (B.map I) := by
  induction B with
  | nil => exact List.Forall₂.nil
  | cons b B ih =>
    exact List.Forall₂.cons (h b List.mem_cons_self) (ih (fun c hc => h c (List.mem_cons_of_mem _ hc)))

theorem map_range_getD (l : List Nat) : (List.range l.length).map (fun k => l.getD k 0) = l := by
  apply ext_getD (by simp)
  intro i hi
  rw [getD_range_map _ _ _ _ (by simpa using hi)]

theorem perm_map_src {n : Nat} {p idx : List Nat} (hp : IsPerm n p) (hl : idx.length = n) :
    p.map (fun k => ((List.range n).map (fun j => idx.getD (p.idxOf j) 0)).getD k 0) = idx := by
  apply ext_getD (by simp [hl, IsPerm.length hp])
  intro i hi
  have hi' : i < n := by simpa [IsPerm.length hp] using hi
  rw [getD_map_lt _ _ _ _ 0 (by rw [IsPerm.length hp]; exact hi'),
    getD_range_map _ _ _ _ (IsPerm.get_lt hp hi'), IsPerm.idxOf_get hp hi']

theorem map_getD_map {β : Type} (B : List β) (d : β) (f : β → Nat) (o : List Nat) (ho : ∀ k ∈ o, k < B.length) :
    o.map (fun k => (B.map f).getD k 0) = o.map (fun k => f (B.getD k d)) := by
  apply List.map_congr_left
  intro k hk
  rw [getD_map_lt _ _ _ _ d (ho k hk)]

theorem flatten_perm_of_isPerm {m : Nat} {o : List Nat} (ho : IsPerm m o) (B : List (List Nat)) (hB : B.length = m) :
    ((o.map (fun k => B.getD k [])).flatten).Perm B.flatten := by
  have h1 : (o.map (fun k => B.getD k [])).Perm ((List.range m).map (fun k => B.getD k [])) := ho.map _
  have h2 : (List.range m).map (fun k => B.getD k []) = B := by
    apply List.ext_getElem (by simp [hB])
    intro i h1 h2
    simp [List.getElem?_eq_getElem h2]
  rw [h2] at h1
  exact h1.flatten

/-- Merging the blocks `B` of consecutive axes, transposing the merged axes by `o` and splitting them
again is the transpose that moves the blocks. -/
theorem regroup {α : Type} (t : Tensor α) (B : List (List Nat)) (o : List Nat)
    (hB : B.flatten = List.range t.shape.length) (ho : IsPerm B.length o) :
    let p := (o.map (fun k => B.getD k [])).flatten
    let ns := B.map (fun b => (b.map (fun k => t.shape.getD k 0)).prod)
    IsPerm t.shape.length p ∧
      Same (reshape (transpose p t).shape (transpose o (reshape ns t))) (transpose p t) := by
  intro p ns
  have hp : IsPerm t.shape.length p := by
    have := flatten_perm_of_isPerm ho B rfl
    rw [hB] at this; exact this
  refine ⟨hp, rfl, ?_⟩
  intro out hout
  have hout : InBounds (transpose p t).shape out := hout
  set s := t.shape with hs
  have hlo : out.length = s.length := by
    have := inBounds_length hout; simpa [transpose, IsPerm.length hp] using this
  set idx := (List.range s.length).map (fun j => out.getD (p.idxOf j) 0) with hidx
  have hidxB : InBounds s idx := transpose_src_inBounds hp rfl hout
  have hil : idx.length = s.length := inBounds_length hidxB
  have hoidx : p.map (fun k => idx.getD k 0) = out := perm_map_src hp hlo
  -- every block lists in-range axes
  have hblk : ∀ b ∈ B, ∀ k ∈ b, k < s.length := by
    intro b hb k hk
    have : k ∈ B.flatten := List.mem_flatten.2 ⟨b, hb, hk⟩
    rw [hB] at this; simpa using this
  let S : List Nat → List Nat := fun b => b.map (fun k => s.getD k 0)
  let I : List Nat → List Nat := fun b => b.map (fun k => idx.getD k 0)
  have hSI : ∀ b ∈ B, InBounds (S b) (I b) := by
    intro b hb
    apply inBounds_map
    intro k hk
    exact ((inBounds_iff _ _).1 hidxB).2 k (hblk b hb k hk)
  have hJ : InBounds ns (B.map (fun b => flat (S b) (I b))) :=
    inBounds_map _ _ _ (fun b hb => flat_lt (hSI b hb))
  have hsB : (B.map S).flatten = s := by
    have : (B.map S).flatten = B.flatten.map (fun k => s.getD k 0) := by rw [List.map_flatten]
    rw [this, hB, map_range_getD]
  have hiB : (B.map I).flatten = idx := by
    have : (B.map I).flatten = B.flatten.map (fun k => idx.getD k 0) := by rw [List.map_flatten]
    rw [this, hB, ← hil, map_range_getD]
  have hflat : flat ns (B.map (fun b => flat (S b) (I b))) = flat s idx := by
    have := flat_group B S I (fun b _ => by simp [S, I])
    rw [hsB, hiB] at this
    exact this.symm
  have holt : ∀ k ∈ o, k < B.length := fun k hk => (IsPerm.mem ho k).1 hk
  have hnsl : ns.length = B.length := by simp [ns]
  -- offset of the output index
  have hflat2 : flat (transpose p t).shape out =
      flat (o.map (fun k => ns.getD k 0)) (o.map (fun k => (B.map (fun b => flat (S b) (I b))).getD k 0)) := by
    have e1 : (transpose p t).shape = ((o.map (fun k => B.getD k [])).map S).flatten := by
      simp only [transpose, p, List.map_flatten, S, hs]
    have e2 : out = ((o.map (fun k => B.getD k [])).map I).flatten := by
      rw [← hoidx]; simp only [p, List.map_flatten, I]
    have := flat_group (o.map (fun k => B.getD k [])) S I (fun b _ => by simp [S, I])
    rw [← e1, ← e2] at this
    rw [this, map_getD_map B [] _ o holt, map_getD_map B [] _ o holt, List.map_map, List.map_map]
    rfl
  have hJo : InBounds (o.map (fun k => ns.getD k 0)) (o.map (fun k => (B.map (fun b => flat (S b) (I b))).getD k 0)) := by
    apply inBounds_map
    intro k hk
    exact ((inBounds_iff _ _).1 hJ).2 k (by rw [hnsl]; exact holt k hk)
  have hns_shape : (transpose o (reshape ns t)).shape = o.map (fun k => ns.getD k 0) := rfl
  show (transpose o (reshape ns t)).get (unflat (transpose o (reshape ns t)).shape (flat (transpose p t).shape out)) = _
  rw [hflat2, hns_shape, unflat_flat hJo, transpose_get ho (reshape ns t) hnsl _ hJ]
  show t.get (unflat t.shape (flat ns _)) = t.get idx
  rw [hflat, ← hs, unflat_flat hidxB]

end Verif.Lemmas
