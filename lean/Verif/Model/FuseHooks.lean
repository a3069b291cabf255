import Verif.Spec.FuseHooks
/-!
Model of `gen_fuse_known_modules_wrapper` and the fusing functions it calls, tinynn/graph/quantization/fused_modules.py 24-141, with respect to forward hooks.
Simplifications: all layers of a group are in the same mode (the assertions of 39, 60 and 77); the fused weights compute the composition of the layers (C36 says when); `nn.utils.fusion.fuse_conv_bn_eval`
copies the layer as 50-56 does.  `copy.deepcopy` of a layer copies its dictionaries of hooks, too; hooks are functions, which `deepcopy` does not copy.
-/

namespace Verif.Model.FuseHooks
open Verif.Spec.FuseHooks

variable {T : Type}

/-- 123-125 and 127-129: the loop deletes from the ordered dictionary it iterates over.  The iterator of an ordered dictionary fetches the next key before it hands out the present one and complains about changes
only if there is a next key; so one hook is moved, two or more raise a RuntimeError (`none`). -/
def move {H : Type} : List H → Option (List H)
  | [] => some []
  | [h] => some [h]
  | _ :: _ :: _ => none

/-- The groups in `PATCH_MOD_MAPPING` (93-107). -/
inductive Group (T : Type) where
  | deconvBn (deconv bn : Layer T)
  | bnConv (bn conv : Layer T)
  | bnConvRelu (bn conv relu : Layer T)

def Group.layers : Group T → List (Layer T)
  | .deconvBn a b => [a, b]
  | .bnConv a b => [a, b]
  | .bnConvRelu a b c => [a, b, c]

/-- `nn.Identity()`, 132-135. -/
def identity : Seq T := ⟨[], [], []⟩

/-- A copy of layer `l` with the function `f`, and the hooks registered on it afterwards. -/
def copied (l : Layer T) (f : T → T) (pre : List (Pre T)) (post : List (Post T)) : Seq T := ⟨[], [⟨f, l.pre ++ pre, l.post ++ post⟩], []⟩

/-- `fuse_known_modules`, 111-141: the modules that replace the layers of a group; `none`: an exception. -/
def fuse (isQat : Bool) : Group T → Option (List (Seq T))
  | .deconvBn a b => (move a.pre).bind fun pre => (move b.post).map fun post =>
      -- 44-45 and 14-18: a Sequential of the layers themselves, 46-56: a copy of the first
      (if isQat then ⟨pre, [{ a with pre := [] }, { b with post := [] }], post⟩ else copied a (fun x => b.run (a.run x)) pre post) :: [identity]
  | .bnConv a b =>
      -- 65
      if isQat then none
      else (move a.pre).bind fun pre => (move b.post).map fun post => copied b (fun x => b.run (a.run x)) pre post :: [identity]
  | .bnConvRelu a b c =>
      -- 82
      if isQat then none
      else (move a.pre).bind fun pre => (move c.post).map fun post =>
        ⟨pre, [{ b with run := fun x => b.run (a.run x) }, { c with post := [] }], post⟩ :: [identity, identity]

end Verif.Model.FuseHooks
