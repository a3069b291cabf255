import Verif.Model.Outermost

/-!
C150: the nodes of a traced graph are the calls made by the model's own code.
-/

namespace Verif.Props
open Verif.Spec.Outermost Verif.Model.Outermost

namespace Outermost

/-- With the lock held nothing is recorded and nothing changes. -/
theorem locked (p : Prog) : ∀ (skip running : List Nat), p.Smooth → p.NoReentry running → (∀ i ∈ skip, i ∈ running) → run p ⟨true, skip⟩ = ([], ⟨true, skip⟩, false) := by
  induction p with
  | nothing => intros; rfl
  | andThen p q ihp ihq =>
    intro skip running hs hn hsub
    simp [run, ihp skip running hs.1 hn.1 hsub, ihq skip running hs.2 hn.2 hsub]
  | fn key tracked body ih =>
    intro skip running hs hn hsub
    simp [run, ih skip running hs hn hsub]
  | mod id layer body ih =>
    intro skip running hs hn hsub
    cases layer with
    | false =>
      simp only [Prog.NoReentry, Bool.false_eq_true, if_false] at hn
      simp [run, ih skip running hs hn hsub]
    | true =>
      simp only [Prog.NoReentry, if_true] at hn
      have hnot : id ∉ skip := fun h => hn.1 (hsub id h)
      have := ih (id :: skip) (id :: running) hs hn.2 (by
        intro i hi
        rcases List.mem_cons.1 hi with rfl | hi
        · simp
        · exact List.mem_cons_of_mem _ (hsub i hi))
      simp [run, add, hnot, this]
  | fail => intro _ _ hs; exact hs.elim
  | attempt p ih =>
    intro skip running hs hn hsub
    simp [run, ih skip running hs hn hsub]

theorem smooth_own (p : Prog) : p.Smooth → p.own.2 = false := by
  induction p with
  | nothing => intro _; rfl
  | andThen p q ihp ihq =>
    intro h
    simp [Prog.own, ihp h.1, ihq h.2]
  | fn key tracked body ih =>
    intro h
    simp [Prog.own, ih h]
  | mod id layer body ih =>
    intro h
    cases layer <;> simp [Prog.own, ih h]
  | fail => intro h; exact h.elim
  | attempt p ih => intro _; rfl

theorem free (p : Prog) : p.Smooth → p.NoReentry [] → run p ⟨false, []⟩ = (p.own.1, ⟨false, []⟩, false) := by
  induction p with
  | nothing => intros; rfl
  | andThen p q ihp ihq =>
    intro hs hn
    simp [run, Prog.own, ihp hs.1 hn.1, ihq hs.2 hn.2, smooth_own p hs.1]
  | fn key tracked body ih =>
    intro hs hn
    simp [run, Prog.own, locked body [] [] hs hn (by simp), smooth_own body hs]
  | mod id layer body ih =>
    intro hs hn
    cases layer with
    | false =>
      simp only [Prog.NoReentry, Bool.false_eq_true, if_false] at hn
      simp [run, Prog.own, ih hs hn]
    | true =>
      simp only [Prog.NoReentry, if_true] at hn
      simp [run, Prog.own, locked body [] [id] hs hn.2 (by simp), smooth_own body hs]
  | fail => intro hs; exact hs.elim
  | attempt p ih =>
    intro hs hn
    simp [run, Prog.own, ih hs hn]

end Outermost

open Outermost

/-- **C150** (if nothing raises and no layer calls itself): exactly the calls made by the model's own code are recorded, in order, and afterwards the tracer is as before. -/
theorem C150_own_partial (p : Prog) (hs : p.Smooth) (hn : p.NoReentry []) : run p ⟨false, []⟩ = (p.own.1, ⟨false, []⟩, false) := free p hs hn

/-- Whatever a layer does inside, it is one node. -/
theorem C150_layer (id : Nat) (body : Prog) (hs : body.Smooth) (hn : body.NoReentry [id]) : (run (.mod id true body) ⟨false, []⟩).1 = [.mod id] := by
  have := C150_own_partial (.mod id true body) hs (by simp only [Prog.NoReentry, if_true]; exact ⟨by simp, hn⟩)
  rw [this]
  simp [Prog.own, smooth_own body hs]

/-- A block that is looked into with a layer that calls functions and another layer, a function, and the layer again. -/
def blockProg : Prog := .andThen (.mod 9 false (.andThen (.mod 1 true (.andThen (.fn 5 true .nothing) (.mod 2 true (.fn 6 true .nothing)))) (.fn 7 true (.fn 8 true .nothing)))) (.mod 1 true .nothing)

example : blockProg.Smooth ∧ blockProg.NoReentry [] ∧ (run blockProg ⟨false, []⟩).1 = [.mod 1, .fn 7, .mod 1] := by
  simp [blockProg, Prog.Smooth, Prog.NoReentry]
  decide

/-- A layer may even call itself once: the inner call is not recorded. -/
example : run (.mod 1 true (.andThen (.mod 1 true (.fn 5 true .nothing)) (.fn 6 true .nothing))) ⟨false, []⟩ = ([.mod 1], ⟨false, []⟩, false) := by decide

/-- The full claim is false for a layer that calls itself twice deep: it is recorded twice, and so is a function it calls. -/
theorem C150_reentry_false : ∃ p : Prog, p.Smooth ∧ p.own = ([.mod 1], false) ∧ (run p ⟨false, []⟩).1 = [.mod 1, .fn 6, .mod 1] :=
  ⟨.mod 1 true (.andThen (.mod 1 true (.mod 1 true .nothing)) (.fn 6 true .nothing)), by simp [Prog.Smooth], by decide, by decide⟩

/-- And if a layer raises an exception which the model catches: the lock stays, and nothing after it is recorded. -/
theorem C150_caught_false : ∃ p : Prog, p.NoReentry [] ∧ p.own = ([.fn 5, .mod 2], false) ∧ run p ⟨false, []⟩ = ([], ⟨true, []⟩, false) :=
  ⟨.andThen (.attempt (.mod 1 true .fail)) (.andThen (.fn 5 true .nothing) (.mod 2 true .nothing)), by simp [Prog.NoReentry], by decide, by decide⟩

end Verif.Props
