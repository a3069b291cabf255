import Verif.Spec.Expand
import Mathlib.Algebra.Ring.Defs

/-! Matrix products of PyTorch and the matrix operators of TFLite. -/

namespace Verif.Spec
variable {R : Type} [CommRing R]

/-- The index of an operand of shape `s` that meets index `idx` of a broadcast result. -/
def bcIndex (s idx : List Nat) : List Nat := (List.zipWith (fun d i => if d = 1 then 0 else i) s.reverse idx.reverse).reverse

/-- Product of two stacks of matrices (rank at least 2), the leading axes broadcast: `torch.matmul` on such operands, and BATCH_MATMUL. -/
def batchMatmul (a b : Tensor R) : Option (Tensor R) :=
  let ba := a.shape.take (a.shape.length - 2)
  let bb := b.shape.take (b.shape.length - 2)
  if 2 ≤ a.shape.length ∧ 2 ≤ b.shape.length ∧ a.shape.getD (a.shape.length - 1) 0 = b.shape.getD (b.shape.length - 2) 0 then
    (bcShape ba bb).map (fun s =>
      { shape := s ++ [a.shape.getD (a.shape.length - 2) 0, b.shape.getD (b.shape.length - 1) 0],
        get := fun idx =>
          ((List.range (a.shape.getD (a.shape.length - 1) 0)).map (fun k =>
            a.get (bcIndex ba (idx.take s.length) ++ [idx.getD s.length 0, k]) * b.get (bcIndex bb (idx.take s.length) ++ [k, idx.getD (s.length + 1) 0]))).sum })
  else none

/-- `torch.matmul`: a one-dimensional operand is made a matrix by adding an axis of size 1, which is removed from the result. -/
def torchMatmul (a b : Tensor R) : Option (Tensor R) :=
  let a' := if a.shape.length = 1 then reshape [1, a.shape.getD 0 0] a else a
  let b' := if b.shape.length = 1 then reshape [b.shape.getD 0 0, 1] b else b
  (batchMatmul a' b').map (fun r =>
    let n := r.shape.length
    let s := if b.shape.length = 1 then r.shape.take (n - 1) else r.shape
    if a.shape.length = 1 then reshape (s.eraseIdx (n - 2)) r else if b.shape.length = 1 then reshape s r else r)

/-- FULLY_CONNECTED: the input is read as rows of `k` elements, the weight has one row of `k` elements per output, the bias one element per output. -/
def fullyConnected (keepNumDims : Bool) (x w b : Tensor R) : Option (Tensor R) :=
  let n := w.shape.getD 0 0
  let k := w.shape.getD 1 0
  if w.shape.length = 2 ∧ 0 < k ∧ b.shape.prod = n ∧ k ∣ x.shape.prod ∧ (keepNumDims = true → x.shape ≠ [] ∧ x.shape.getD (x.shape.length - 1) 0 = k) then
    let lead := if keepNumDims then x.shape.dropLast else [x.shape.prod / k]
    some
      { shape := lead ++ [n],
        get := fun idx =>
          let row := flat lead (idx.take lead.length)
          let o := idx.getD lead.length 0
          ((List.range k).map (fun j => x.get (unflat x.shape (row * k + j)) * w.get [o, j])).sum + b.get (unflat b.shape o) }
  else none

/-- `torch.nn.functional.linear`. -/
def torchLinear (x w : Tensor R) (b : Option (Tensor R)) : Option (Tensor R) := do
  let p ← torchMatmul x (transpose [1, 0] w)
  match b with
  | none => some p
  | some b => elementwise (· + ·) p b

/-- `torch.addmm`: `beta * input + alpha * (m1 @ m2)` with `input` expanded to the product. -/
def torchAddmm (beta alpha : R) (input m1 m2 : Tensor R) : Option (Tensor R) := do
  let p ← batchMatmul m1 m2
  elementwise (fun i q => beta * i + alpha * q) input p

/-- `torch.baddbmm`: the same for stacks of matrices. -/
def torchBaddbmm (beta alpha : R) (input b1 b2 : Tensor R) : Option (Tensor R) := torchAddmm beta alpha input b1 b2

/-- `torch.addbmm`: the products of a stack are added up. -/
def torchAddbmm (beta alpha : R) (input b1 b2 : Tensor R) : Option (Tensor R) := do
  let p ← batchMatmul b1 b2
  let total : Tensor R := ⟨p.shape.drop 1, fun idx => ((List.range (p.shape.getD 0 0)).map (fun t => p.get (t :: idx))).sum⟩
  elementwise (fun i q => beta * i + alpha * q) input total

end Verif.Spec
