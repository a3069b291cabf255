/-!
Specification for C148: models prepared for ONNX as graphs of operators, what they compute, and where a tensor was quantized last.
-/

namespace Verif.Spec.OnnxRepeat

/-- What an operator of the prepared model is: a module (or functional module) whose result is quantized, a `DeQuantStub`, `nn.Identity`, another operator that works on quantized values, or
an operator outside the quantized part. The number is that of the module. -/
inductive Kind
  | obs (q : Nat)
  | deq (q : Nat)
  | ident
  | plain
  | float
deriving DecidableEq, Repr

/-- An operator and the operators whose results it reads, in order; earlier operators have smaller numbers. An input reads nothing. -/
structure Node where
  kind : Kind
  prevs : List Nat
deriving DecidableEq, Repr

/-- The module of an operator at which quantization changes. -/
def Kind.mod : Kind → Option Nat
  | .obs q => some q
  | .deq q => some q
  | _ => none

/-- The module at which quantization changed last on some way to the result of an operator; `none` if it never did. -/
inductive Comes (nodes : List Node) : Nat → Option Nat → Prop
  | here {n : Nat} {nd : Node} {q : Nat} : nodes[n]? = some nd → nd.kind.mod = some q → Comes nodes n (some q)
  | start {n : Nat} {nd : Node} : nodes[n]? = some nd → nd.kind.mod = none → nd.prevs = [] → Comes nodes n none
  | pass {n m : Nat} {nd : Node} {o : Option Nat} : nodes[n]? = some nd → nd.kind.mod = none → m ∈ nd.prevs → Comes nodes m o → Comes nodes n o

variable {V : Type} [Inhabited V]

/-- The result of operator `n`: a function `g n` of what it reads, quantized if the operator has a quantizer. `change nd i` is done to what it reads at place `i`. -/
def value (g : Nat → List V → V) (Q : Nat → V → V) (change : Node → Nat → V → V) (n : Nat) (nd : Node) (vs : List V) : V :=
  let y := g n (nd.prevs.mapIdx (fun i m => change nd i (vs.getD m default)))
  match nd.kind with
  | .obs q => Q q y
  | _ => y

/-- The results of all operators. -/
def run (g : Nat → List V → V) (Q : Nat → V → V) (change : Node → Nat → V → V) : List Node → List V → List V
  | [], vs => vs
  | nd :: rest, vs => run g Q change rest (vs ++ [value g Q change vs.length nd vs])

/-- Nothing is done to what is read. -/
def asIs (_ : Node) (_ : Nat) (x : V) : V := x

end Verif.Spec.OnnxRepeat
