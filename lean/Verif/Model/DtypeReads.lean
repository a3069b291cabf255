import Verif.Spec.DtypeReads
/-!
Model of how types of elements are traced: reading `.dtype`, tinynn/graph/tracer.py `new_getattr_gen` (914-968) with `add_forward_node` (1616-1624), and passing types to functions, `TraceFunction.parse_args` (585-596).
Simplifications: nodes are named by the tensor whose type they compute.  A `torch.dtype` is one object for each type, wherever it comes from, so the table of objects is a table of types.
-/

namespace Verif.Model.DtypeReads
open Verif.Spec.DtypeReads

/-- `tensor_pre_node_dict` at the objects that are types. -/
abbrev Table (D : Type) := D → Option Nat

/-- 914-968: `original_values_for_tracked_objects` has sizes only, so each read makes a new node, which replaces the one in the table (1624). -/
def readDtype {D : Type} [DecidableEq D] (traced : Nat → D) (s : Table D) (t : Nat) : Table D := fun d => if d = traced t then some t else s d

/-- 585-596: an argument that is a type becomes the node in the table, if there is one, else its name. -/
def useDtype {D : Type} (s : Table D) (d : D) : Source D :=
  match s d with
  | some t => .of t
  | none => .named d

/-- The arguments in the traced graph. -/
def arguments {D : Type} [DecidableEq D] (traced : Nat → D) : Table D → List (Event D) → List (Source D)
  | _, [] => []
  | s, .read t :: es => arguments traced (readDtype traced s t) es
  | s, .use u :: es => useDtype s (u.value traced) :: arguments traced s es

/-- The types the traced graph passes, if the tensors have the types `types`. -/
def passed {D : Type} [DecidableEq D] (traced types : Nat → D) (es : List (Event D)) : List D := (arguments traced (fun _ => none) es).map (Source.value types)

end Verif.Model.DtypeReads
