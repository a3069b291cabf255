/-!
Specification for C144: PyTorch's tables are the caller's; a function that changes them for its own use has to put them back.
-/

namespace Verif.Spec.TorchTables

/-- `f` leaves the observation `obs` of the state as it was, from every state. -/
def Preserves {S O : Type} (f : S → S) (obs : S → O) : Prop := ∀ s, obs (f s) = obs s

/-- The states after a history of steps, starting from `s`. -/
def after {S E : Type} (step : S → E → S) (s : S) (h : List E) : S := h.foldl step s

end Verif.Spec.TorchTables
