import Verif.Spec.Window

/-!
Model of the SAME-padding fusion of `/repo/tinynn/converter/operators/optimize.py`:
`get_same_padding_args` (4844-4856), `is_padding_fusable_edge` (3669-3700), `fuse_same_padding`
(269-320) and `fuse_same_padding_slicing` (323-383).
-/

namespace Verif.Model

/-- optimize.py 4848-4852: the padding of one spatial axis. -/
def samePaddingAxis (input filter stride dilation : Nat) : Int :=
  if input % stride = 0 then max (1 - (stride : Int) + ((filter : Int) - 1) * dilation) 0
  else max (1 + ((filter : Int) - 1) * dilation - ((input % stride : Nat) : Int)) 0

/-- `get_same_padding_args`, optimize.py 4844-4856: `[[0,0]] + [[x//2, x - x//2], ...] + [[0,0]]`.  The four
sequences have one entry per spatial axis. -/
def getSamePaddingArgs (input filter strides dilation : List Nat) : List (List Int) :=
  [[0, 0]] ++ (List.range input.length).map (fun i =>
    let x := samePaddingAxis (input.getD i 0) (filter.getD i 0) (strides.getD i 0) (dilation.getD i 0)
    [x / 2, x - x / 2]) ++ [[0, 0]]

/-- The operator types the fusion predicate distinguishes. -/
inductive PadTarget | conv2d | conv3d | depthwise | maxPool | other
  deriving DecidableEq, Repr

/-- The padding constant: absent (PAD with two inputs, which pads zeros), or a third input that is
float32 and equal to 0.0, to the lowest float, or anything else (also another dtype). -/
inductive PadValue | absent | zero | lowest | other
  deriving DecidableEq, Repr

/-- `is_padding_fusable_edge`, optimize.py 3669-3700, as a function of the pad value and the target;
the structural conditions (`outdegree() == 1`, target VALID) are not represented. -/
def isPaddingFusable (v : PadValue) (tgt : PadTarget) : Bool :=
  ((v == .absent) || ((v == .zero) && !(tgt == .maxPool)) || ((v == .lowest) && (tgt == .maxPool))) &&
  ((tgt == .conv2d) || (tgt == .conv3d) || (tgt == .depthwise) || (tgt == .maxPool))

/-- `_skip_pred`, optimize.py 283-306: the fusion happens only when the recorded padding array equals
the SAME arguments. -/
def padArrMatches (input filter strides dilation : List Nat) (padArr : List (List Int)) : Bool :=
  getSamePaddingArgs input filter strides dilation == padArr

/-- optimize.py 343-346: for a slice behind a transposed convolution, per axis `[start, rest]`. -/
def slicedPadAxis (full start out : Nat) : List Int := [(start : Int), (full : Int) - start - out]

end Verif.Model
