import Verif.Model.LazyArgs
/-!
C156: a lazily constructed object is constructed from the arguments it was given.
-/

namespace Verif.Props
namespace LazyArgs
open Verif.Spec.LazyArgs Verif.Model.LazyArgs

variable {V : Type} (make : String → List V → List (String × V) → V)

/-- A lazy object is passed by keyword only if the last positional argument is the same object. -/
def Fits (l : Lazy V) : Prop := ∀ p ∈ l.kw, ∀ i, p.2 = Arg.obj i → l.pos.getLast? = some (Arg.obj i)

theorem posOption_eq (s : State V) (a : Arg V) : posOption s a = resolve s a := by cases a <;> rfl

theorem mapM_congr' {α β : Type} (f g : α → Option β) (l : List α) (h : ∀ a ∈ l, f a = g a) : l.mapM f = l.mapM g := by
  induction l with
  | nil => rfl
  | cons a l ih => rw [List.mapM_cons, List.mapM_cons, h a (List.mem_cons_self ..), ih fun b hb => h b (List.mem_cons_of_mem _ hb)]

theorem getNext_eq (s : State V) (l : Lazy V) (h : Fits l) : getNext make s l = construct make s l := by
  unfold getNext construct
  rw [mapM_congr' (posOption s) (resolve s) l.pos fun a _ => posOption_eq s a]
  rw [mapM_congr' (kwOption s l.pos) (fun p => (resolve s p.2).map fun v => (p.1, v)) l.kw]
  intro p hp
  unfold kwOption
  cases hq : p.2 with
  | value v => rfl
  | expr e => rfl
  | obj i =>
    simp only [h p hp i hq]
    rfl

theorem run_eq (es : List (Event V)) : ∀ s : State V, (∀ o ∈ s.objs, Fits o.1) → (∀ l, Event.create l ∈ es → Fits l) → run make s es = expected make s es := by
  induction es with
  | nil => intro s _ _; rfl
  | cons e es ih =>
    intro s hs he
    have he' : ∀ l, Event.create l ∈ es → Fits l := fun l h => he l (List.mem_cons_of_mem _ h)
    cases e with
    | world env => exact ih ⟨s.objs, env⟩ hs he'
    | create l =>
      have hl := he l (List.mem_cons_self ..)
      rw [run, expected, getNext_eq make s l hl]
      cases construct make s l with
      | none => rfl
      | some v =>
        refine ih ⟨s.objs ++ [(l, v)], s.env⟩ ?_ he'
        intro o ho
        rw [List.mem_append] at ho
        rcases ho with ho | ho
        · exact hs o ho
        · rw [List.mem_singleton.mp ho]; exact hl
    | next i =>
      rw [run, expected]
      cases ho : s.objs[i]? with
      | none => rfl
      | some o =>
        have hf := hs o (List.mem_of_getElem? ho)
        simp only [Option.bind_eq_bind, Option.bind_some]
        rw [getNext_eq make s o.1 hf]
        cases construct make s o.1 with
        | none => rfl
        | some v =>
          refine ih ⟨s.objs.set i (o.1, v), s.env⟩ ?_ he'
          intro q hq
          rcases List.mem_or_eq_of_mem_set hq with hq | rfl
          · exact hs q hq
          · exact hf

/-- Objects as lists: the arguments, keyword arguments after a separating 0. -/
def demoMake (_ : String) (pos : List (List Nat)) (kw : List (String × List Nat)) : List Nat := pos.flatten ++ 0 :: (kw.map (·.2)).flatten

/-- Like an optimizer and its scheduler: the second object gets the first one and an expression; the first one is constructed anew after the expression has changed, then the second. -/
def demoEvents : List (Event (List Nat)) :=
  [.world fun e => [e + 1], .create ⟨"Optimizer", [.expr 3], [("lr", .value [7])]⟩, .create ⟨"Scheduler", [.obj 0], [("gamma", .expr 4)]⟩, .world fun e => [e + 10], .next 0, .next 1]

end LazyArgs

open Verif.Spec.LazyArgs Verif.Model.LazyArgs LazyArgs

/-- **C156 (restricted).** For every history of creating objects, constructing them anew and changes of the expressions: the objects are at each point what they should be, if a lazy object is passed by
keyword only when the last positional argument is the same object. -/
theorem C156_history_partial {V : Type} (make : String → List V → List (String × V) → V) (env : Nat → V) (es : List (Event V))
    (h : ∀ l, Event.create l ∈ es → ∀ p ∈ l.kw, ∀ i, p.2 = Arg.obj i → l.pos.getLast? = some (Arg.obj i)) : run make ⟨[], env⟩ es = expected make ⟨[], env⟩ es :=
  run_eq make es ⟨[], env⟩ (by simp) h

/-- The hypothesis holds for an object that depends on another and both are constructed anew. -/
example : (∀ l, Event.create l ∈ demoEvents → ∀ p ∈ l.kw, ∀ i, p.2 = Arg.obj i → l.pos.getLast? = some (Arg.obj i)) ∧
    (run demoMake ⟨[], fun _ => []⟩ demoEvents).map (fun s => s.objs.map (·.2)) = some [[13, 0, 7], [13, 0, 7, 0, 14]] := by
  refine ⟨?_, by decide⟩
  intro l hl
  simp [demoEvents] at hl
  rcases hl with rfl | rfl <;> simp

/-- **C156 fails for keyword arguments.** An object passed by keyword is replaced by the last positional argument, if that is a lazy object. -/
theorem C156_keyword_false : ∃ es : List (Event (List Nat)), (run demoMake ⟨[], fun _ => []⟩ es).map (fun s => s.objs.map (·.2)) = some [[1, 0], [2, 0], [1, 0, 0, 1, 0]] ∧
    (expected demoMake ⟨[], fun _ => []⟩ es).map (fun s => s.objs.map (·.2)) = some [[1, 0], [2, 0], [1, 0, 0, 2, 0]] :=
  ⟨[.create ⟨"A", [.value [1]], []⟩, .create ⟨"B", [.value [2]], []⟩, .create ⟨"C", [.obj 0], [("b", .obj 1)]⟩], by decide, by decide⟩

/-- **C156 fails for keyword arguments.** Without a lazy object as the last positional argument the construction raises an exception. -/
theorem C156_exception_false {V : Type} (make : String → List V → List (String × V) → V) (s : State V) (l : Lazy V) (k : String) (i : Nat) (hk : (k, Arg.obj i) ∈ l.kw)
    (hp : ∀ j, l.pos.getLast? ≠ some (Arg.obj j)) (es : List (Event V)) : run make s (.create l :: es) = none := by
  have hn : kwOption s l.pos (k, .obj i) = none := by
    unfold kwOption
    cases hq : l.pos.getLast? with
    | none => rfl
    | some o =>
      cases o with
      | obj j => exact absurd hq (hp j)
      | value v => rfl
      | expr e => rfl
  have hm : l.kw.mapM (kwOption s l.pos) = none := by
    generalize l.kw = kw at hk
    induction kw with
    | nil => simp at hk
    | cons p kw ih =>
      rw [List.mapM_cons]
      rcases List.mem_cons.mp hk with rfl | hk
      · rw [hn]; rfl
      · rw [ih hk]
        cases kwOption s l.pos p <;> rfl
  rw [run, getNext, hm]
  cases l.pos.mapM (posOption s) <;> rfl

/-- Its hypotheses hold for a scheduler whose optimizer is passed by keyword. -/
example : (("optimizer", Arg.obj 0) : String × Arg Nat) ∈ (⟨"Scheduler", [], [("optimizer", .obj 0)]⟩ : Lazy Nat).kw ∧ ∀ j, (⟨"Scheduler", [], [("optimizer", .obj 0)]⟩ : Lazy Nat).pos.getLast? ≠ some (Arg.obj j) := by
  constructor <;> simp

end Verif.Props
