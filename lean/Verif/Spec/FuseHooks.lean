/-!
Forward hooks of layers (C157).  A hook registered on a layer is called each time the layer runs: before it, with its input, or after it, with its input and output.  What it returns replaces the input or
the output.  Hooks are called in the order in which they were registered.
-/

namespace Verif.Spec.FuseHooks

/-- A hook called before a layer. -/
structure Pre (T : Type) where
  name : String
  act : T → T

/-- A hook called after a layer, with its input and its output. -/
structure Post (T : Type) where
  name : String
  act : T → T → T

/-- A call of a hook; `output` is what a hook called after a layer is given. -/
structure Event (T : Type) where
  name : String
  input : T
  output : Option T

/-- The hook called and the value it may replace: the input if it is called before a layer, the output if after. -/
def seen {T : Type} (e : Event T) : String × T := (e.name, e.output.getD e.input)

def preRun {T : Type} : List (Pre T) → T → T × List (Event T)
  | [], x => (x, [])
  | h :: hs, x => ((preRun hs (h.act x)).1, ⟨h.name, x, none⟩ :: (preRun hs (h.act x)).2)

def postRun {T : Type} (x : T) : List (Post T) → T → T × List (Event T)
  | [], y => (y, [])
  | h :: hs, y => ((postRun x hs (h.act x y)).1, ⟨h.name, x, some y⟩ :: (postRun x hs (h.act x y)).2)

/-- Running anything with hooks: `body` gives the result and the calls of hooks inside. -/
def hooked {T : Type} (pre : List (Pre T)) (body : T → T × List (Event T)) (post : List (Post T)) (x : T) : T × List (Event T) :=
  let p := preRun pre x
  let b := body p.1
  let q := postRun p.1 post b.1
  (q.1, p.2 ++ (b.2 ++ q.2))

/-- A layer with its hooks. -/
structure Layer (T : Type) where
  run : T → T
  pre : List (Pre T)
  post : List (Post T)

def Layer.call {T : Type} (l : Layer T) : T → T × List (Event T) := hooked l.pre (fun x => (l.run x, [])) l.post

/-- One after another. -/
def chain {T A : Type} (call : A → T → T × List (Event T)) : List A → T → T × List (Event T)
  | [], x => (x, [])
  | a :: as, x => ((chain call as (call a x).1).1, (call a x).2 ++ (chain call as (call a x).1).2)

/-- A module of layers run one after another, with hooks of its own. -/
structure Seq (T : Type) where
  pre : List (Pre T)
  layers : List (Layer T)
  post : List (Post T)

def Seq.call {T : Type} (s : Seq T) : T → T × List (Event T) := hooked s.pre (chain Layer.call s.layers) s.post

/-- A hook that does not look at the input of its layer. -/
def Post.blind {T : Type} (h : Post T) : Prop := ∀ x x' y, h.act x y = h.act x' y

end Verif.Spec.FuseHooks
