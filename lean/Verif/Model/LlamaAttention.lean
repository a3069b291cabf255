import Verif.Spec.Attention

/-!
Model of `LlamaAttentionFused` (`tinynn/llm_quant/llama.py`) for one entry of the batch.
-/

namespace Verif.Model.LlamaAttention
open Verif.Spec.Attention

variable {α : Type} [CommRing α]

/-- `torch.cat([q, k, v], dim=0)` of the weights (llama.py:24-30); each has `heads * dim` rows. -/
def fusedWeight (l : Layer α) : ℕ → ℕ → α := fun r c =>
  let n := l.heads * l.dim
  if r < n then l.wq r c else if r < n + n then l.wk (r - n) c else l.wv (r - (n + n)) c

/-- `qkv_proj(x).view(.., heads * 3, dim)` and part `p` of `chunk(3, 1)` (llama.py:56-57): head `h` of the part. -/
def qkv (l : Layer α) (x : ℕ → α) (p h d : ℕ) : α := apply l.hidden (fusedWeight l) x ((p * l.heads + h) * l.dim + d)

/-- Keys and values of a token, by head. -/
abbrev Cache (α : Type) := List ((ℕ → ℕ → α) × (ℕ → ℕ → α))

/-- Keys (rotated) and values of the new tokens (llama.py:57, 64-65); `pos` are the position ids. -/
def newKv (k : Kernel α) (l : Layer α) (pos : List ℕ) (xs : List (ℕ → α)) : Cache α :=
  List.zipWith (fun p x => (fun h => k.rot p (qkv l x 1 h), qkv l x 2)) pos xs

/-- Which keys query `i` of this call looks at.  With `F.scaled_dot_product_attention` (llama.py:74-87) no mask is passed: `is_causal` is set iff there is no
cache (59), and compares the numbers of query and key.  Before torch 1.13 (88-103) the mask of the caller is added, if there is one; a masked key gets the
smallest number and so no weight (a query all of whose keys are masked is left out). -/
def visible (sdpa isCausal : Bool) (mask : Option (ℕ → ℕ → Bool)) (i j : ℕ) : Bool :=
  if sdpa then (if isCausal then decide (j ≤ i) else true)
  else match mask with
    | some m => m i j
    | none => true

/-- The keys and values of a head that a query looks at. -/
def selected (vis : ℕ → Bool) (kv : Cache α) (h : ℕ) : List ((ℕ → α) × (ℕ → α)) :=
  ((List.range kv.length).filter vis).map fun j => ((kv.getD j (fun _ _ => 0, fun _ _ => 0)).1 h, (kv.getD j (fun _ _ => 0, fun _ _ => 0)).2 h)

/-- `forward` (llama.py:44-121): the outputs, and the cache if it is used. -/
def forward (k : Kernel α) (l : Layer α) (sdpa : Bool) (mask : Option (ℕ → ℕ → Bool)) (pos : List ℕ) (past : Option (Cache α)) (xs : List (ℕ → α)) :
    List (ℕ → α) × Cache α :=
  let kv := match past with
    | some c => c ++ newKv k l pos xs
    | none => newKv k l pos xs
  ((List.range xs.length).map fun i =>
    let q := fun h => k.rot (pos.getD i 0) (qkv l (xs.getD i fun _ => 0) 0 h)
    let out := fun h => k.att (q h) (selected (visible sdpa past.isNone mask i) kv h)
    apply l.hidden l.wo fun r => out (r / l.dim) (r % l.dim), kv)

/-- Generation: the sequence comes in pieces, every piece sees the cache of those before it; `mask n` is the mask passed after `n` tokens. -/
def generate (k : Kernel α) (l : Layer α) (sdpa : Bool) (mask : ℕ → Option (ℕ → ℕ → Bool)) : ℕ → Option (Cache α) → List (List (ℕ → α)) → List (ℕ → α)
  | _, _, [] => []
  | n, past, xs :: rest =>
    let r := forward k l sdpa (mask n) ((List.range xs.length).map (n + ·)) past xs
    r.1 ++ generate k l sdpa mask (n + xs.length) (some r.2) rest

end Verif.Model.LlamaAttention
