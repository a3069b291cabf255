import Verif.Spec.ConvPair

/-! What a network of convolutions, activations and other operators computes.  The network is a straight line of steps; a step sees the current value and a store `E` for the values that
are kept for later (shortcuts, branches), so that every computation graph is such a line. -/

namespace Verif.Spec

variable {M E : Type} [AddCommGroup M] [Module ℝ M]

/-- A step: a convolution with the activation behind it, or any other computation. -/
inductive NetStep (M E : Type) [AddCommGroup M] [Module ℝ M] where
  | conv (p : ConvParams) (T : Nat → M →ₗ[ℝ] M) (act : Nat → M → M)
  | other (f : (Nat → M) × E → (Nat → M) × E)

/-- What a step computes. -/
def NetStep.run (one : M) : NetStep M E → (Nat → M) × E → (Nat → M) × E
  | .conv p T act, (x, e) => (fun c => act c (p.apply T one x c), e)
  | .other f, s => f s

/-- What a network computes. -/
def runNet (one : M) : List (NetStep M E) → (Nat → M) × E → (Nat → M) × E
  | [], s => s
  | l :: ls, s => runNet one ls (l.run one s)

end Verif.Spec
