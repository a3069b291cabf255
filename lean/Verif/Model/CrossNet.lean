import Verif.Spec.CrossNet
import Verif.Model.CrossLayer

/-! Model of the loops of `equalize_model`, /repo/tinynn/graph/quantization/algorithm/cross_layer_equalization.py 152-156: every group is a pair of convolutions that follow each other, given by
the place of the first.  Every convolution has its own module (a shared module: `C35_shared_module_false`).  The log messages (158-168) are left out. -/

namespace Verif.Model
open Verif.Spec

variable {M E : Type} [AddCommGroup M] [Module ℝ M]

/-- `_weight_equal_helper` (109-129) for the pair at a place; a group that is not a pair is left alone (128-129). -/
noncomputable def equalizeAt (threshold : ℝ) : Nat → List (NetStep M E) → Option (List (NetStep M E))
  | 0, .conv p T act :: .conv q U act' :: ls => (weightEqual threshold p q).map fun pq => .conv pq.1 T act :: .conv pq.2 U act' :: ls
  | i + 1, l :: ls => (equalizeAt threshold i ls).map (l :: ·)
  | _, ls => some ls

/-- `for cls in layer_groups` (155-156). -/
noncomputable def equalizeGroups (threshold : ℝ) : List Nat → List (NetStep M E) → Option (List (NetStep M E))
  | [], net => some net
  | i :: is, net => (equalizeAt threshold i net).bind (equalizeGroups threshold is)

/-- `for i in range(iters)` (154-156). -/
noncomputable def equalizeNet (threshold : ℝ) (groups : List Nat) : Nat → List (NetStep M E) → Option (List (NetStep M E))
  | 0, net => some net
  | n + 1, net => (equalizeGroups threshold groups net).bind (equalizeNet threshold groups n)

end Verif.Model
