import Mathlib.Data.List.Basic

/-!
Models with in-place operations: tensors are views of storages, and writing through one is seen through all others.
-/

namespace Verif.Spec.InPlace

/-- A part of a value: how to read it and how to write it. -/
structure Lens (V : Type) where
  get : V → V
  put : V → V → V

/-- What is written is what is read. -/
def Lens.Lawful {V : Type} (l : Lens V) : Prop := ∀ w v, l.get (l.put w v) = v

/-- The whole value. -/
def Lens.whole {V : Type} : Lens V := ⟨fun w => w, fun _ v => v⟩

/-- A part of a part. -/
def Lens.comp {V : Type} (b k : Lens V) : Lens V := ⟨fun w => k.get (b.get w), fun w v => b.put w (k.put (b.get w) v)⟩

/-- A tensor: the storage it views and the part of it. -/
structure Ref (V : Type) where
  storage : ℕ
  lens : Lens V

/-- Statements; tensors are numbered in the order in which they come to be, inputs first. -/
inductive Stmt (F V : Type)
  /-- `y = f(args)`: a new tensor. -/
  | call (f : F) (args : List ℕ)
  /-- `y = a[...]`, `y = a.view(...)`: a view. -/
  | view (l : Lens V) (a : ℕ)
  /-- `ys = a.chunk(...)`: several views. -/
  | split (ls : List (Lens V)) (a : ℕ)
  /-- `a += ...`: in place; the result is a tensor of its own with the same content from then on. -/
  | iop (f : F) (a : ℕ) (args : List ℕ)
  /-- `y = a.f_(...)`: in place. -/
  | meth (f : F) (a : ℕ) (args : List ℕ)
  /-- `a[...] = b`. -/
  | setitem (l : Lens V) (a b : ℕ)

/-- Storages and tensors. -/
structure Mem (V : Type) where
  store : List V
  objs : List (Ref V)

variable {F V : Type}

/-- The value of a tensor. -/
def value (store : List V) (r : Ref V) : Option V := (store[r.storage]?).map r.lens.get

/-- Writing through a tensor. -/
def write (store : List V) (r : Ref V) (v : V) : Option (List V) := (store[r.storage]?).map fun w => store.set r.storage (r.lens.put w v)

/-- Values of several tensors. -/
def Mem.values (m : Mem V) : List ℕ → Option (List V)
  | [] => some []
  | a :: as =>
    match m.objs[a]? with
    | none => none
    | some r =>
      match value m.store r, m.values as with
      | some v, some vs => some (v :: vs)
      | _, _ => none

/-- One statement; `none` is an error. -/
def exec (sem : F → List V → V) (m : Mem V) : Stmt F V → Option (Mem V)
  | .call f args => (m.values args).map fun vs => ⟨m.store ++ [sem f vs], m.objs ++ [⟨m.store.length, Lens.whole⟩]⟩
  | .view l a => (m.objs[a]?).map fun r => ⟨m.store, m.objs ++ [⟨r.storage, r.lens.comp l⟩]⟩
  | .split ls a => (m.objs[a]?).map fun r => ⟨m.store, m.objs ++ ls.map fun l => ⟨r.storage, r.lens.comp l⟩⟩
  | .iop f a args | .meth f a args =>
    match m.objs[a]?, m.values (a :: args) with
    | some r, some vs => (write m.store r (sem f vs)).map fun st => ⟨st, m.objs ++ [r]⟩
    | _, _ => none
  | .setitem l a b =>
    match m.objs[a]?, m.values [b] with
    | some r, some [v] => (write m.store ⟨r.storage, r.lens.comp l⟩ v).map fun st => ⟨st, m.objs⟩
    | _, _ => none

/-- A program. -/
def run (sem : F → List V → V) : List (Stmt F V) → Mem V → Option (Mem V)
  | [], m => some m
  | s :: ss, m => (exec sem m s).bind (run sem ss)

/-- The inputs: tensors of their own. -/
def start (xs : List V) : Mem V := ⟨xs, (List.range xs.length).map fun i => ⟨i, Lens.whole⟩⟩

/-- What is known of a tensor without running: its storage, whether it is one of several results, whether its storage was since written by an operator like `+=` or by an assignment to a part, through
another tensor. -/
structure Info where
  storage : ℕ
  part : Bool
  stale : Bool
  deriving DecidableEq

/-- All tensors on the storage become stale, except one. -/
def outdate (s : ℕ) (keep : Option ℕ) (is : List Info) : List Info :=
  is.mapIdx fun j i => if i.storage = s ∧ keep ≠ some j then { i with stale := true } else i

/-- May the tensor be read? -/
def readable (is : List Info) (a : ℕ) : Bool :=
  match is[a]? with
  | some i => !i.stale
  | none => false

/-- One statement that reads no stale tensor and does not apply an operator like `+=` to one of several results; `n` counts the storages. -/
def track (n : ℕ) (is : List Info) : Stmt F V → Option (ℕ × List Info)
  | .call _ args => if args.all (readable is) then some (n + 1, is ++ [⟨n, false, false⟩]) else none
  | .view _ a =>
    match is[a]? with
    | some i => if i.stale then none else some (n, is ++ [⟨i.storage, false, false⟩])
    | none => none
  | .split ls a =>
    match is[a]? with
    | some i => if i.stale then none else some (n, is ++ ls.map fun _ => ⟨i.storage, true, false⟩)
    | none => none
  | .iop _ a args =>
    match is[a]? with
    | some i => if i.stale || i.part || !args.all (readable is) then none else some (n, outdate i.storage (some a) is ++ [⟨i.storage, false, false⟩])
    | none => none
  | .meth _ a args =>
    match is[a]? with
    | some i => if i.stale || !args.all (readable is) then none else some (n, is ++ [⟨i.storage, false, false⟩])
    | none => none
  | .setitem _ a _ =>
    match is[a]? with
    | some i => some (n, outdate i.storage none is)
    | none => none

/-- A program. -/
def tracks : List (Stmt F V) → ℕ → List Info → Option (ℕ × List Info)
  | [], n, is => some (n, is)
  | s :: ss, n, is => (track n is s).bind fun p => tracks ss p.1 p.2

/-- The program with `k` inputs reads and returns no stale tensor. -/
def Clean (k : ℕ) (ss : List (Stmt F V)) (outs : List ℕ) : Prop :=
  ∃ n is, tracks ss k ((List.range k).map fun i => ⟨i, false, false⟩) = some (n, is) ∧ outs.all (readable is) = true

/-- All lenses of the program are lawful. -/
def Lawful (ss : List (Stmt F V)) : Prop :=
  ∀ s ∈ ss, match s with
    | .view l _ => l.Lawful
    | .split ls _ => ∀ l ∈ ls, l.Lawful
    | .setitem l _ _ => l.Lawful
    | _ => True

end Verif.Spec.InPlace
