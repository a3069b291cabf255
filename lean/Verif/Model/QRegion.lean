import Verif.Spec.QRegion

/-!
Model of the placement of QuantStub and DeQuantStub nodes and of the search for the quantized nodes (`tinynn/graph/quantization/quantizer.py`).

Placement is described per tensor that a node reads: the chain of stubs between producer and consumer.  That `insert_after`, `insert_before` and `insert_between`
put a node exactly there is C86.
-/

namespace Verif.Model.QRegion
open Verif.Spec.QRegion

/-! ### Placement -/

/-- A QuantStub behind inputs, constants and creation functions whose type is not int32 or int64 (quantizer.py:1632-1651). -/
def sourceStub (m : Model) (u : ℕ) : List Stub :=
  if m.role u = .source ∧ m.dt u 0 ≠ .int then [.q] else []

/-- A DeQuantStub in front of outputs and of conversions to integer types (quantizer.py:1653-1686).  For a result with several tensors the code puts an
`nn.Identity` in front of int32 and int64 tensors, but registers it with the constructor line of DeQuantStub (1666-1668), so that the generated model has a
DeQuantStub there as well. -/
def sinkStub (m : Model) (u slot v : ℕ) : List Stub :=
  if m.role v = .float ∧ (m.multi v = true ∨ m.dt u slot ≠ .int) then [.dq] else []

/-- A QuantStub behind nodes without quantized form, except where only shape or type is read (quantizer.py:2697-2741). -/
def innerQuant (m : Model) (u v : ℕ) : List Stub :=
  if m.disabled u = true ∧ m.role v ≠ .prop then [.q] else []

/-- A DeQuantStub in front of nodes without quantized form, except behind nodes that read a shape or type (quantizer.py:2743-2784). -/
def innerDequant (m : Model) (u v : ℕ) : List Stub :=
  if m.disabled v = true ∧ m.role u ≠ .prop then [.dq] else []

/-- The stubs after insertion, from the producer on: a later stub is put next to the producer or next to the consumer. -/
def inserted (m : Model) (u slot v : ℕ) : List Stub :=
  innerQuant m u v ++ sourceStub m u ++ sinkStub m u slot v ++ innerDequant m u v

/-- The nodes that read this tensor. -/
def readers (m : Model) (nodes : List ℕ) (u slot : ℕ) : List ℕ := nodes.filter fun v => (m.args v).contains (u, slot)

/-- The last QuantStub behind the tensor is only followed by DeQuantStub and by readers of shape or type (quantizer.py:2809-2836). -/
def removable (m : Model) (nodes : List ℕ) (u slot : ℕ) : Bool :=
  (readers m nodes u slot).all fun v => m.role v = .prop || decide (sinkStub m u slot v ++ innerDequant m u v ≠ [])

/-- Take out the first QuantStub that is directly followed by a DeQuantStub, with it. -/
def cancel : List Stub → List Stub
  | .q :: .dq :: r => r
  | s :: r => s :: cancel r
  | [] => []

/-- The stubs that remain (quantizer.py:2786-2836); `keep` are the tensors whose pair of stubs is kept to observe their range (2796-2806). -/
def finalChain (m : Model) (nodes : List ℕ) (keep : ℕ → ℕ → Bool) (u slot v : ℕ) : List Stub :=
  if removable m nodes u slot && !keep u slot then cancel (inserted m u slot v) else inserted m u slot v

/-! ### Search -/

/-- What the search looks at: the kind of a node, whether it is an output, whether it only reads a shape or type, whether it is `expand_as`, and the readers of
a node. -/
structure Graph where
  stub : ℕ → Option Stub
  output : ℕ → Bool
  prop : ℕ → Bool
  expandAs : ℕ → Bool
  next : ℕ → List ℕ

/-- The nodes that are put into the queue (quantizer.py:591-597); `i` is the place in the list of readers. -/
def followed (g : Graph) (u : ℕ) : List ℕ :=
  (g.next u).zipIdx.filterMap fun p => if g.prop p.1 || (g.expandAs p.1 && decide (0 < p.2)) then none else some p.1

/-- What a node passes on (quantizer.py:581-589). -/
def passes (g : Graph) (u : ℕ) (q : Bool) : Bool :=
  match g.stub u with
  | some .q => true
  | some .dq => false
  | none => q

/-- What is recorded for a node. -/
def mark (g : Graph) (u : ℕ) (q : Bool) : Bool := (g.stub u).isSome || q

/-- The search (quantizer.py:564-597, 625-629): `visited` holds the nodes seen, with what was recorded for them (`none` for outputs); the number bounds the steps. -/
def search (g : Graph) : ℕ → List (ℕ × Bool) → List (ℕ × Option Bool) → List (ℕ × Option Bool)
  | 0, _, visited => visited
  | _ + 1, [], visited => visited
  | n + 1, (u, q) :: queue, visited =>
    if (visited.map Prod.fst).contains u then search g n queue visited
    else if g.output u then search g n queue ((u, none) :: visited)
    else search g n (queue ++ (followed g u).map fun v => (v, passes g u q)) ((u, some (mark g u q)) :: visited)

/-- What is recorded for a node in the end. -/
def recorded (visited : List (ℕ × Option Bool)) (v : ℕ) : Option Bool := ((visited.find? fun p => p.1 = v).map Prod.snd).join

end Verif.Model.QRegion
