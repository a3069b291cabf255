/-!
Specification for C75: PyTorch programs with views and in-place updates.

A tensor is a list of addresses into one memory, so two tensors share storage when their address lists meet. A traced program is
a list of operations; the operation at position `k` defines one new tensor, and operations refer to tensors by their position
(first the inputs and constants, then the results). Shapes are left out: a tensor is the list of its elements in row-major order.

* `pure f args`: any operation that allocates its result (`aten::add`, `aten::conv2d`, …).
* `view idx x`: any operation returning a view (`aten::select`, `aten::slice`, `aten::view`, …): the result has the addresses of
  `x` at the positions `idx`.
* `inplace f x args`: any operation whose name ends in an underscore (`aten::add_`, `aten::copy_`, …): the result of `f` is
  written into `x`, and the operation returns `x` itself. PyTorch refuses such an operation when two elements of `x` share an
  address, and the result has as many elements as `x`.
-/

namespace Verif.Spec.Inplace

inductive Op (α : Type) where
  | pure (f : List (List α) → List α) (args : List Nat)
  | view (idx : List Nat) (x : Nat)
  | inplace (f : List α → List (List α) → List α) (x : Nat) (args : List Nat)

/-- The tensors an operation reads. -/
def Op.reads {α} : Op α → List Nat
  | .pure _ args => args
  | .view _ x => [x]
  | .inplace _ x args => x :: args

/-- Memory and the addresses of every tensor defined so far. -/
structure Heap (α : Type) where
  mem : List α
  locs : List (List Nat)

variable {α : Type} [Inhabited α]

/-- The addresses of tensor `n`. -/
def Heap.loc (h : Heap α) (n : Nat) : List Nat := h.locs.getD n []

/-- The elements of tensor `n`. -/
def Heap.read (h : Heap α) (n : Nat) : List α := (h.loc n).map (fun a => h.mem.getD a default)

/-- Put a new tensor with elements `v` into memory. -/
def Heap.alloc (h : Heap α) (v : List α) : Heap α :=
  ⟨h.mem ++ v, h.locs ++ [List.range' h.mem.length v.length]⟩

/-- Write the elements `v` at the addresses `as`. -/
def writeAll : List α → List Nat → List α → List α
  | mem, a :: as, x :: xs => writeAll (mem.set a x) as xs
  | mem, _, _ => mem

/-- One operation; `none` when PyTorch raises an error. -/
def Heap.step (h : Heap α) (op : Op α) : Option (Heap α) :=
  if op.reads.all (· < h.locs.length) then
    match op with
    | .pure f args => some (h.alloc (f (args.map h.read)))
    | .view idx x =>
      if idx.all (· < (h.loc x).length) then
        some ⟨h.mem, h.locs ++ [idx.map (fun i => (h.loc x).getD i 0)]⟩
      else none
    | .inplace f x args =>
      let v := f (h.read x) (args.map h.read)
      if v.length = (h.loc x).length ∧ (h.loc x).Nodup then
        some ⟨writeAll h.mem (h.loc x) v, h.locs ++ [h.loc x]⟩
      else none
  else none

/-- A whole program. -/
def Heap.run (h : Heap α) : List (Op α) → Option (Heap α)
  | [] => some h
  | op :: ops => (h.step op).bind (fun h' => h'.run ops)

/-- The memory before the program: one separate tensor per input and constant. -/
def Heap.init (vs : List (List α)) : Heap α := vs.foldl Heap.alloc ⟨[], []⟩

/-- No tensor is read after an in-place update of another tensor of the same storage. `root` gives the storage of every tensor so
far and `dead` those that must no longer be read; `outs` are the program's results. -/
def safeFrom : List (Op α) → List Nat → List Nat → List Nat → Bool
  | [], _, dead, outs => outs.all (fun o => !dead.contains o)
  | op :: ops, root, dead, outs =>
    op.reads.all (fun n => !dead.contains n) &&
    match op with
    | .pure _ _ => safeFrom ops (root ++ [root.length]) dead outs
    | .view _ x => safeFrom ops (root ++ [root.getD x 0]) dead outs
    | .inplace _ x _ =>
      safeFrom ops (root ++ [root.getD x 0])
        (dead ++ (List.range root.length).filter (fun n => root.getD n 0 = root.getD x 0)) outs

/-- The same for a program over `k` inputs and constants with separate storages. -/
def safe (ops : List (Op α)) (k : Nat) (outs : List Nat) : Bool := safeFrom ops (List.range k) [] outs

end Verif.Spec.Inplace
