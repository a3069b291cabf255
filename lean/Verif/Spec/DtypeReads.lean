/-!
Types of elements read and used in a model (C160).  A model reads `.dtype` of tensors and passes types to functions: types it has read, or types it names, such as `torch.float32`.
-/

namespace Verif.Spec.DtypeReads

/-- Where a type passed to a function comes from: it is named, or it was read from a tensor. -/
inductive Source (D : Type) where
  | named (d : D)
  | of (tensor : Nat)
  deriving DecidableEq

/-- The type passed, if the tensors have the types `types`. -/
def Source.value {D : Type} (types : Nat → D) : Source D → D
  | .named d => d
  | .of t => types t

/-- What a model does with types. -/
inductive Event (D : Type) where
  | read (tensor : Nat)
  | use (s : Source D)
  deriving DecidableEq

/-- The types passed to functions. -/
def expected {D : Type} (types : Nat → D) : List (Event D) → List D
  | [] => []
  | .read _ :: es => expected types es
  | .use s :: es => s.value types :: expected types es

/-- Types are read before they are used; `past` are the tensors whose types were read before. -/
def WellFormed {D : Type} (past : List Nat) : List (Event D) → Prop
  | [] => True
  | .read t :: es => WellFormed (t :: past) es
  | .use (.named _) :: es => WellFormed past es
  | .use (.of t) :: es => t ∈ past ∧ WellFormed past es

end Verif.Spec.DtypeReads
