import Verif.Model.SplitArgs
import Mathlib.Data.List.Nodup
import Mathlib.Data.List.Forall2
import Mathlib.Algebra.BigOperators.Group.List.Basic

/-!
C115: after channels have been removed, a split gives every reader what is left of its chunk.
-/

namespace Verif.Props.SplitArgs
open Verif.Spec.SplitArgs Verif.Model.SplitArgs

theorem assign_new (d : List (ℕ × ℕ × ℕ)) (k : ℕ) (v : ℕ × ℕ) (h : k ∉ d.map Prod.fst) : assign d k v = d ++ [(k, v)] := by
  unfold assign
  rw [if_neg]
  intro hc
  obtain ⟨e, he, hk⟩ := List.any_eq_true.1 hc
  exact h (List.mem_map.2 ⟨e, he, by simpa using hk⟩)

/-- The readers that read nothing of this content leave the table alone. -/
theorem reads_none (t : ℕ) (v : ℕ × ℕ) (name : ℕ) : ∀ (ts : List ℕ) (d : List (ℕ × ℕ × ℕ)), t ∉ ts → ts.foldl (fun d t' => if t = t' then assign d name v else d) d = d
  | [], _, _ => rfl
  | x :: ts, d, h => by
    rw [List.mem_cons, not_or] at h
    rw [List.foldl_cons, if_neg h.1]
    exact reads_none t v name ts d h.2

theorem reads_one (t : ℕ) (v : ℕ × ℕ) (name : ℕ) : ∀ (ts : List ℕ) (d : List (ℕ × ℕ × ℕ)), ts.count t = 1 → name ∉ d.map Prod.fst →
    ts.foldl (fun d t' => if t = t' then assign d name v else d) d = d ++ [(name, v)]
  | [], _, h, _ => by simp at h
  | x :: ts, d, h, hn => by
    rw [List.foldl_cons]
    by_cases hx : t = x
    · subst hx
      rw [if_pos rfl, assign_new _ _ _ hn]
      refine reads_none t v name ts _ ?_
      rw [List.count_cons_self] at h
      exact List.count_eq_zero.1 (by omega)
    · rw [if_neg hx]
      rw [List.count_cons_of_ne (by exact fun e => hx e.symm)] at h
      exact reads_one t v name ts d h hn

theorem readers_none (t : ℕ) (v : ℕ × ℕ) : ∀ (rs : List Reader) (d : List (ℕ × ℕ × ℕ)), (∀ r ∈ rs, t ∉ r.reads) →
    rs.foldl (fun d r => r.reads.foldl (fun d t' => if t = t' then assign d r.name v else d) d) d = d
  | [], _, _ => rfl
  | r :: rs, d, h => by
    rw [List.foldl_cons, reads_none t v r.name r.reads d (h r (by simp))]
    exact readers_none t v rs d fun r hr => h r (List.mem_cons_of_mem _ hr)

/-- The one reader of a chunk: no other reader, and no other operand. -/
def OnlyReader (readers : List Reader) (t name : ℕ) : Prop :=
  ∃ before r after, readers = before ++ r :: after ∧ r.name = name ∧ r.reads.count t = 1 ∧ (∀ q ∈ before ++ after, t ∉ q.reads)

theorem readers_one {readers : List Reader} {t name : ℕ} (h : OnlyReader readers t name) (v : ℕ × ℕ) (d : List (ℕ × ℕ × ℕ)) (hn : name ∉ d.map Prod.fst) :
    readers.foldl (fun d r => r.reads.foldl (fun d t' => if t = t' then assign d r.name v else d) d) d = d ++ [(name, v)] := by
  obtain ⟨before, r, after, rfl, rfl, hc, ho⟩ := h
  rw [List.foldl_append, readers_none t v before d (fun q hq => ho q (List.mem_append_left _ hq)), List.foldl_cons, reads_one t v r.name r.reads d hc hn]
  exact readers_none t v after _ fun q hq => ho q (List.mem_append_right _ hq)

/-- The entries of chunks read by one reader each. -/
def entries : ℕ → List (ℕ × ℕ) → List ℕ → List (ℕ × ℕ × ℕ)
  | start, (n, _) :: chunks, name :: names => (name, start, start + n) :: entries (start + n) chunks names
  | _, _, _ => []

theorem splitDict_spec {readers : List Reader} : ∀ (chunks : List (ℕ × ℕ)) (names : List ℕ) (start : ℕ) (d : List (ℕ × ℕ × ℕ)), List.Forall₂ (fun c name => OnlyReader readers c.2 name) chunks names →
    (d.map Prod.fst ++ names).Nodup → splitDict readers start chunks d = d ++ entries start chunks names
  | [], [], start, d, _, _ => by simp [splitDict, entries]
  | (n, t) :: chunks, name :: names, start, d, h, hnd => by
    obtain ⟨h1, h2⟩ := List.forall₂_cons.1 h
    have hn : name ∉ d.map Prod.fst := fun hc => (List.nodup_append.1 hnd).2.2 _ hc _ (by simp) rfl
    rw [splitDict, readers_one h1 _ d hn, splitDict_spec chunks names (start + n) _ h2 (by simpa using hnd), List.append_assoc]
    rfl

theorem newSizes_entries (removed : List ℕ) : ∀ (chunks : List (ℕ × ℕ)) (names : List ℕ) (start : ℕ), chunks.length = names.length →
    newSizes removed (entries start chunks names) = (chunksFrom start (chunks.map Prod.fst)).map fun c => (left removed c).length
  | [], [], _, _ => rfl
  | (n, t) :: chunks, name :: names, start, h => by
    have := newSizes_entries removed chunks names (start + n) (by simpa using h)
    unfold newSizes at this ⊢
    simp only [entries, List.map_cons, chunksFrom, this, left]
    rw [Nat.add_sub_cancel_left]

theorem zipWith_min (removed : List ℕ) : ∀ (sizes : List ℕ) (start : ℕ),
    List.zipWith min sizes ((chunksFrom start sizes).map fun c => (left removed c).length) = (chunksFrom start sizes).map fun c => (left removed c).length
  | [], _ => rfl
  | n :: sizes, start => by
    simp only [chunksFrom, List.map_cons, List.zipWith_cons_cons, zipWith_min removed sizes (start + n)]
    congr 1
    have h := List.length_filter_le (fun i => decide (i ∉ removed)) (List.range' start n)
    rw [List.length_range'] at h
    exact Nat.min_eq_right h

theorem chunksFrom_flatten (removed : List ℕ) : ∀ (sizes : List ℕ) (start : ℕ), left removed (List.range' start sizes.sum) = ((chunksFrom start sizes).map (left removed)).flatten
  | [], _ => by simp [left, chunksFrom]
  | n :: sizes, start => by
    rw [List.sum_cons, chunksFrom, List.map_cons, List.flatten_cons, ← chunksFrom_flatten removed sizes (start + n), ← List.range'_append_1]
    exact List.filter_append ..

theorem cut_flatten {α : Type} : ∀ (ls : List (List α)), cut (ls.map List.length) ls.flatten = some ls
  | [] => rfl
  | l :: ls => by
    rw [List.map_cons, List.flatten_cons, cut, if_neg (by simp)]
    rw [List.drop_left, List.take_left, cut_flatten ls]
    rfl

theorem cutEvery_nil {α : Type} (n : ℕ) : cutEvery n ([] : List α) = [] := by
  rw [cutEvery]

theorem cutEvery_append {α : Type} {n : ℕ} {a r : List α} (h : a.length = n) (hn : 0 < n) : cutEvery n (a ++ r) = a :: cutEvery n r := by
  cases a with
  | nil => simp at h; omega
  | cons x a =>
    rw [List.cons_append, cutEvery]
    have : n - 1 = a.length := by simp at h; omega
    rw [this, List.take_left, List.drop_left]

theorem cutEvery_short {α : Type} {n : ℕ} {a : List α} (h : a.length ≤ n) (h0 : a ≠ []) : cutEvery n a = [a] := by
  cases a with
  | nil => exact absurd rfl h0
  | cons x a =>
    simp at h
    rw [cutEvery, List.take_of_length_le (by omega), List.drop_of_length_le (by omega), cutEvery_nil]

theorem cutEvery_flatten {α : Type} {n : ℕ} (hn : 0 < n) (last : List α) (hl : last.length ≤ n) (h0 : last ≠ []) : ∀ ls : List (List α), (∀ l ∈ ls, l.length = n) →
    cutEvery n (ls ++ [last]).flatten = ls ++ [last]
  | [], _ => by simpa using cutEvery_short hl h0
  | l :: ls, h => by
    rw [List.cons_append, List.flatten_cons, cutEvery_append (h l (by simp)) hn, cutEvery_flatten hn last hl h0 ls fun l hl => h l (List.mem_cons_of_mem _ hl)]

/-- How many slices of some chunks are removed. -/
theorem removed_length {removed : List ℕ} (hnd : removed.Nodup) {n : ℕ} (hlt : ∀ i ∈ removed, i < n) : (left removed (List.range' 0 n)).length + removed.length = n := by
  have h := List.length_eq_length_filter_add (l := List.range n) (fun i => decide (i ∈ removed))
  have h2 : ((List.range n).filter fun i => decide (i ∈ removed)).length = removed.length := by
    apply List.Perm.length_eq
    refine (List.perm_ext_iff_of_nodup (List.nodup_range.filter _) hnd).2 fun i => ?_
    rw [List.mem_filter, List.mem_range, decide_eq_true_eq]
    exact ⟨fun h => h.2, fun h => ⟨hlt i h, h⟩⟩
  have h3 : left removed (List.range' 0 n) = (List.range n).filter fun i => !decide (i ∈ removed) := by
    rw [List.range_eq_range']
    exact List.filter_congr fun i _ => by simp
  rw [h3]
  simp only [List.length_range] at h
  omega

end Verif.Props.SplitArgs

namespace Verif.Props
open Verif.Spec.SplitArgs Verif.Model.SplitArgs Verif.Props.SplitArgs

/-- C115, in part, for a list of sizes: if every chunk has one reader and every reader one chunk, splitting what is left gives every reader what is left of its chunk.
Missing: chunks with several readers or none, readers of several chunks (`C115_readers_false`, `C115_unread_false`). -/
theorem C115_list_partial (removed : List ℕ) (readers : List Reader) (chunks : List (ℕ × ℕ)) (names : List ℕ) (hr : List.Forall₂ (fun c name => OnlyReader readers c.2 name) chunks names)
    (hn : names.Nodup) : ∃ sizes, applyList removed readers chunks = some sizes ∧
      cut sizes (left removed (List.range' 0 (chunks.map Prod.fst).sum)) = some ((chunksFrom 0 (chunks.map Prod.fst)).map (left removed)) := by
  have hl := hr.length_eq
  have hd := splitDict_spec chunks names 0 [] hr (by simpa using hn)
  refine ⟨(chunksFrom 0 (chunks.map Prod.fst)).map fun c => (left removed c).length, ?_, ?_⟩
  · unfold applyList
    simp only
    rw [hd, List.nil_append, newSizes_entries removed chunks names 0 hl, zipWith_min]
    have : ∀ (s : List ℕ) (k : ℕ), (chunksFrom k s).length = s.length := by
      intro s
      induction s with
      | nil => intro k; rfl
      | cons x s ih => intro k; simp [chunksFrom, ih]
    rw [if_neg (by simp [this])]
  · rw [chunksFrom_flatten]
    have := cut_flatten ((chunksFrom 0 (chunks.map Prod.fst)).map (left removed))
    rw [List.map_map] at this
    exact this

theorem chunksFrom_append (a b : List ℕ) : ∀ start, chunksFrom start (a ++ b) = chunksFrom start a ++ chunksFrom (start + a.sum) b := by
  induction a with
  | nil => intro start; simp [chunksFrom]
  | cons x a ih => intro start; simp [chunksFrom, ih, Nat.add_assoc]

theorem mem_chunksFrom {n : ℕ} {c : List ℕ} (k : ℕ) : ∀ start, c ∈ chunksFrom start (List.replicate k n) → c.length = n := by
  induction k with
  | zero => intro start h; simp [chunksFrom] at h
  | succ k ih =>
    intro start h
    rw [List.replicate_succ, chunksFrom] at h
    rcases List.mem_cons.1 h with rfl | h
    · simp
    · exact ih _ h

/-- C115, in part, for one size `n`: if every chunk loses the same number of slices, and keeps some, splitting what is left gives what is left of the chunks.
Missing: chunks that lose different numbers (`C115_number_false`). -/
theorem C115_number_partial (removed : List ℕ) (hnd : removed.Nodup) (n m k r : ℕ) (hm : m ≤ n) (hlt : ∀ i ∈ removed, i < k * n + m)
    (heach : ∀ c ∈ chunksFrom 0 (List.replicate k n ++ [m]), (left removed c).length + r = c.length) (hr : r < m) :
    cutEvery (applyNumber removed (List.replicate k n ++ [m])) (left removed (List.range' 0 (k * n + m))) = (chunksFrom 0 (List.replicate k n ++ [m])).map (left removed) := by
  have hsum : (List.replicate k n ++ [m]).sum = k * n + m := by simp
  have hlen := removed_length hnd hlt
  have hflat := chunksFrom_flatten removed (List.replicate k n ++ [m]) 0
  rw [hsum] at hflat
  have hchunks : chunksFrom 0 (List.replicate k n ++ [m]) = chunksFrom 0 (List.replicate k n) ++ [List.range' (0 + (List.replicate k n).sum) m] := by
    rw [chunksFrom_append]; rfl
  have hk : (chunksFrom 0 (List.replicate k n)).length = k := by
    have : ∀ (s : List ℕ) (k : ℕ), (chunksFrom k s).length = s.length := by
      intro s
      induction s with
      | nil => intro k; rfl
      | cons x s ih => intro k; simp [chunksFrom, ih]
    simp [this]
  -- the number that is left
  have hsizes : ∀ c ∈ (chunksFrom 0 (List.replicate k n)).map (left removed), c.length = n - r := by
    intro c hc
    obtain ⟨c', hc', rfl⟩ := List.mem_map.1 hc
    have h1 := heach c' (by rw [hchunks]; exact List.mem_append_left _ hc')
    rw [mem_chunksFrom k 0 hc'] at h1
    omega
  have hlast := heach (List.range' (0 + (List.replicate k n).sum) m) (by rw [hchunks]; simp)
  rw [List.length_range'] at hlast
  have htotal : (left removed (List.range' 0 (k * n + m))).length = k * (n - r) + (m - r) := by
    rw [hflat, hchunks, List.map_append, List.flatten_append, List.length_append, List.length_flatten, List.map_cons, List.map_nil, List.flatten_cons, List.flatten_nil, List.append_nil]
    have : (((chunksFrom 0 (List.replicate k n)).map (left removed)).map List.length) = List.replicate k (n - r) := by
      refine List.eq_replicate_iff.2 ⟨by simp [hk], fun x hx => ?_⟩
      obtain ⟨c, hc, rfl⟩ := List.mem_map.1 hx
      exact hsizes c hc
    rw [this, List.sum_replicate_nat]
    omega
  have hrem : removed.length = (k + 1) * r := by
    have h1 : k * (n - r) = k * n - k * r := Nat.mul_sub k n r
    have h2 : k * r ≤ k * n := Nat.mul_le_mul_left k (by omega)
    rw [Nat.add_mul, Nat.one_mul]
    omega
  have hnum : applyNumber removed (List.replicate k n ++ [m]) = if k = 0 then m - r else n - r := by
    unfold applyNumber
    have hl : (List.replicate k n ++ [m]).length = k + 1 := by simp
    rw [hl, hrem, Nat.mul_div_cancel_left _ (by omega)]
    cases k with
    | zero => simp
    | succ k => simp [List.replicate_succ]
  rw [hnum, hflat, hchunks, List.map_append, List.map_cons, List.map_nil]
  refine cutEvery_flatten ?_ _ ?_ ?_ _ ?_
  · split <;> omega
  · split <;> omega
  · intro he
    rw [he] at hlast
    simp at hlast
    omega
  · intro c hc
    split
    · rename_i h0
      rw [h0] at hc
      simp [chunksFrom] at hc
    · exact hsizes c hc

/-- A chunk read by two layers: the other chunk gets its size. -/
theorem C115_readers_false : ∃ (removed : List ℕ) (readers : List Reader) (chunks : List (ℕ × ℕ)) (sizes : List ℕ), (chunks.map Prod.snd).Nodup ∧ (∀ c ∈ chunks, ∃ r ∈ readers, c.2 ∈ r.reads) ∧
    applyList removed readers chunks = some sizes ∧ cut sizes (left removed (List.range' 0 (chunks.map Prod.fst).sum)) = none :=
  ⟨[0, 1], [⟨0, [7]⟩, ⟨1, [7]⟩, ⟨2, [8]⟩], [(4, 7), (4, 8)], [2, 2], by decide, by decide, by decide, by decide⟩

/-- A chunk that nothing reads, or a layer that reads two chunks: an exception. -/
theorem C115_unread_false : ∃ (removed : List ℕ) (chunks : List (ℕ × ℕ)), applyList removed [⟨0, [7]⟩] chunks = none ∧ applyList removed [⟨0, [7, 8]⟩] chunks = none :=
  ⟨[0], [(4, 7), (4, 8)], by decide, by decide⟩

/-- One size, and channels removed from one chunk only: the next chunk gets channels of its neighbour. -/
theorem C115_number_false : ∃ (removed : List ℕ), removed.Nodup ∧ (∀ i ∈ removed, i < 8) ∧
    cutEvery (applyNumber removed [4, 4]) (left removed (List.range' 0 8)) ≠ (chunksFrom 0 [4, 4]).map (left removed) := by
  refine ⟨[0, 1], by decide, by decide, ?_⟩
  have h1 : applyNumber [0, 1] [4, 4] = 3 := by decide
  have h2 : left [0, 1] (List.range' 0 8) = [2, 3, 4] ++ [5, 6, 7] := by decide
  rw [h1, h2, cutEvery_append (n := 3) rfl (by decide)]
  intro h
  have := congrArg List.head? h
  revert this
  decide

/-- A split along an axis that loses nothing: the sizes shrink all the same, and the split fails or gives more pieces. -/
theorem C115_axis_false : ∃ (removed : List ℕ) (readers : List Reader) (chunks : List (ℕ × ℕ)) (sizes : List ℕ) (names : List ℕ), List.Forall₂ (fun c name => OnlyReader readers c.2 name) chunks names ∧ names.Nodup ∧
    applyList removed readers chunks = some sizes ∧ cut sizes (List.range' 0 (chunks.map Prod.fst).sum) = none ∧
    (cutEvery (applyNumber removed (chunks.map Prod.fst)) (List.range' 0 (chunks.map Prod.fst).sum)).length ≠ chunks.length := by
  refine ⟨[0, 1], [⟨0, [7]⟩, ⟨1, [8]⟩], [(4, 7), (4, 8)], [2, 4], [0, 1],
    .cons ⟨[], _, _, rfl, rfl, by decide, by decide⟩ (.cons ⟨[_], _, [], rfl, rfl, by decide, by decide⟩ .nil), by decide, by decide, by decide, ?_⟩
  have h1 : applyNumber [0, 1] ([(4, 7), (4, 8)].map Prod.fst) = 3 := by decide
  have h2 : List.range' 0 (([(4, 7), (4, 8)] : List (ℕ × ℕ)).map Prod.fst).sum = [0, 1, 2] ++ ([3, 4, 5] ++ [6, 7]) := by decide
  rw [h1, h2, cutEvery_append (n := 3) rfl (by decide), cutEvery_append (n := 3) rfl (by decide), cutEvery_short (by decide) (by decide)]
  decide

/-- Cases that meet the hypotheses. -/
example : List.Forall₂ (fun (c : ℕ × ℕ) name => OnlyReader [⟨0, [7, 3]⟩, ⟨1, [8]⟩] c.2 name) [(4, 7), (2, 8)] [0, 1] ∧ applyList [1, 2, 5] [⟨0, [7, 3]⟩, ⟨1, [8]⟩] [(4, 7), (2, 8)] = some [2, 1] :=
  ⟨.cons ⟨[], _, _, rfl, rfl, by decide, by decide⟩ (.cons ⟨[_], _, [], rfl, rfl, by decide, by decide⟩ .nil), by decide⟩

example : ∀ c ∈ chunksFrom 0 (List.replicate 2 4 ++ [3]), (left [1, 6, 8] c).length + 1 = c.length := by decide

end Verif.Props
