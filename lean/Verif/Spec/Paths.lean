import Mathlib.Data.List.Basic

/-! Consecutive pairs of a sequence. -/

namespace Verif.Spec

variable {V : Type}

/-- The consecutive pairs of a sequence, in order. -/
def links : List V → List (V × V)
  | a :: b :: l => (a, b) :: links (b :: l)
  | _ => []

end Verif.Spec
