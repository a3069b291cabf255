import Verif.Model.Train

/-! Specification: what has been recorded since the last reset, and its weighted mean. -/

namespace Verif.Spec
open Verif.Model

/-- The pairs recorded since the last reset, oldest first. -/
def recorded (ops : List MeterOp) : List (ℚ × ℚ) :=
  ops.foldl (fun acc op => match op with | .update v n => acc ++ [(v, n)] | .reset => []) []

def totalWeight (r : List (ℚ × ℚ)) : ℚ := (r.map (fun p => p.2)).sum

/-- The weighted mean, zero for no data. -/
def weightedMean (r : List (ℚ × ℚ)) : ℚ := (r.map (fun p => p.1 * p.2)).sum / totalWeight r

end Verif.Spec
