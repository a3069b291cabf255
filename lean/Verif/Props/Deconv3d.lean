import Verif.Props.ConvLower
import Verif.Model.Deconv3d

/-!
C70: a transposed 3-D convolution, with stride, padding, output padding and dilation on every axis, computes what PyTorch computes.
-/

namespace Verif.Props

open Verif.Spec Verif.Model Verif.Lemmas

variable {R : Type} [Semiring R]

theorem src_shift (a : DeconvAxis) (y k : Nat) : deconvPos a.stride 0 (a.pad + y) (k * a.dil) = a.src y k := by
  unfold deconvPos DeconvAxis.src
  have : (((a.pad + y + 0 : Nat) : Int) - ((k * a.dil : Nat) : Int)) = (y : Int) + a.pad - k * a.dil := by push_cast; ring
  rw [this]

/-- A transposed 3-D convolution with one group, with or without a bias operand. -/
theorem C70_deconv3d (a₁ a₂ a₃ : DeconvAxis) (act : R → R) (withBias : Bool) (hact : withBias = false → ∀ v, act v = v) (x w : Tensor R) (b : Option (List R)) (N C D H W J KD KH KW : Nat)
    (hx : x.shape = [N, C, D, H, W]) (hw : w.shape = [C, J, KD, KH, KW]) :
    Same (lowerDeconv3d a₁ a₂ a₃ act withBias (torchDeconv3d a₁ a₂ a₃ x w b).shape x w b) (mapTensor act (torchDeconv3d a₁ a₂ a₃ x w b)) := by
  obtain ⟨⟨hxs, hxg⟩, -⟩ := transpose5 x hx
  obtain ⟨-, -, hws, hwg⟩ := transpose5 w hw
  have hout : (torchDeconv3d a₁ a₂ a₃ x w b).shape = [N, J, a₁.len D KD, a₂.len H KH, a₃.len W KW] := by
    simp [torchDeconv3d, Tensor.size, hx, hw]
  set OD := a₁.len D KD
  set OH := a₂.len H KH
  set OW := a₃.len W KW
  have hread : ∀ (n c : Nat) (u y z : Int), getOr (transpose [0, 2, 3, 4, 1] x) 0 [(n : Int), u, y, z, (c : Int)] = getOr x 0 [(n : Int), (c : Int), u, y, z] := by
    intro n c u y z
    rw [getOr5 _ hxs, getOr5 x hx, hxg]
    congr 1
    simp only [eq_iff_iff]
    tauto
  have hspec : ∀ n o u y z, (torchDeconv3d a₁ a₂ a₃ x w b).get [n, o, u, y, z] = biasOf b o + ((List.range KD).map (fun kz => ((List.range KH).map (fun ky => ((List.range KW).map (fun kx => ((List.range C).map (fun i =>
      match a₁.src u kz, a₂.src y ky, a₃.src z kx with
      | some pz, some py, some px => w.get [i, o, kz, ky, kx] * getOr x 0 [(n : Nat), (i : Nat), pz, py, px]
      | _, _, _ => 0)).sum)).sum)).sum)).sum := by
    intro n o u y z
    simp only [torchDeconv3d, Tensor.size, hx, hw, List.getD_cons_zero, List.getD_cons_succ]
    rfl
  unfold lowerDeconv3d deconvShape3
  rw [hout]
  simp only [List.getD_cons_zero, List.getD_cons_succ]
  set s := fun i : Fin 3 => if i = 0 then a₁.stride else if i = 1 then a₂.stride else a₃.stride with hs
  set d := fun i : Fin 3 => if i = 0 then a₁.dil else if i = 1 then a₂.dil else a₃.dil with hd
  have hval : ∀ (os : List Nat) (bb : Option (List R)) (n o u y z : Nat),
      (deconv3d s d act os (transpose [2, 3, 4, 1, 0] w) (transpose [0, 2, 3, 4, 1] x) bb).get [n, a₁.pad + u, a₂.pad + y, a₃.pad + z, o] =
        act (biasOf bb o + ((List.range KD).map (fun kz => ((List.range KH).map (fun ky => ((List.range KW).map (fun kx => ((List.range C).map (fun i =>
      match a₁.src u kz, a₂.src y ky, a₃.src z kx with
      | some pz, some py, some px => w.get [i, o, kz, ky, kx] * getOr x 0 [(n : Nat), (i : Nat), pz, py, px]
      | _, _, _ => 0)).sum)).sum)).sum)).sum) := by
    intro os bb n o u y z
    have s0 : s 0 = a₁.stride := rfl
    have s1 : s 1 = a₂.stride := rfl
    have s2 : s 2 = a₃.stride := rfl
    have d0 : d 0 = a₁.dil := rfl
    have d1 : d 1 = a₂.dil := rfl
    have d2 : d 2 = a₃.dil := rfl
    simp only [deconv3d, Tensor.size, hws, List.getD_cons_zero, List.getD_cons_succ, s0, s1, s2, d0, d1, d2, src_shift]
    congr 4
    funext kz
    congr 2
    funext ky
    congr 2
    funext kx
    congr 2
    funext i
    cases a₁.src u kz <;> cases a₂.src y ky <;> cases a₃.src z kx <;> simp only [hwg, hread]
  set bb : Option (List R) := if withBias then biasOperand b J else none with hbb
  set os : List Nat := if 0 < a₁.pad + a₂.pad + a₃.pad then [N, OD + 2 * a₁.pad, OH + 2 * a₂.pad, OW + 2 * a₃.pad, J] else [N, OD, OH, OW, J] with hosd
  set Y := deconv3d s d act os (transpose [2, 3, 4, 1, 0] w) (transpose [0, 2, 3, 4, 1] x) bb with hY
  set Z := if 0 < a₁.pad + a₂.pad + a₃.pad then SliceOp.run (.slice [0, a₁.pad, a₂.pad, a₃.pad, 0] [N, OD, OH, OW, J]) Y else Y with hZ
  have hZs : Z.shape = [N, OD, OH, OW, J] := by
    rw [hZ]
    split
    · rfl
    · rename_i h0
      show os = _
      rw [hosd, if_neg h0]
  have hZg : ∀ n o u y z, Z.get [n, u, y, z, o] = Y.get [n, a₁.pad + u, a₂.pad + y, a₃.pad + z, o] := by
    intro n o u y z
    rw [hZ]
    split
    · rename_i h0
      have : Y.shape = [N, OD + 2 * a₁.pad, OH + 2 * a₂.pad, OW + 2 * a₃.pad, J] := by show os = _; rw [hosd, if_pos h0]
      simp [SliceOp.run, this, List.range_succ]
    · rename_i h0
      have : a₁.pad = 0 ∧ a₂.pad = 0 ∧ a₃.pad = 0 := by omega
      simp [this.1, this.2.1, this.2.2]
  have key : ∀ T : Tensor R, T.shape = [N, OD, OH, OW, J] →
      (∀ n o u y z, o < J → T.get [n, u, y, z, o] = act ((torchDeconv3d a₁ a₂ a₃ x w b).get [n, o, u, y, z])) →
      Same (transpose [0, 4, 1, 2, 3] T) (mapTensor act (torchDeconv3d a₁ a₂ a₃ x w b)) := by
    intro T hT hTg
    obtain ⟨-, ⟨h1, h2⟩, -⟩ := transpose5 T hT
    refine ⟨by rw [h1]; simp [mapTensor, hout], fun idx hi => ?_⟩
    rw [h1] at hi
    obtain ⟨n, o, u, y, z, rfl, ho⟩ : ∃ n o u y z, idx = [n, o, u, y, z] ∧ o < J := by
      rcases hi with _ | ⟨_, _ | ⟨h2, _ | ⟨_, _ | ⟨_, _ | ⟨_, _ | _⟩⟩⟩⟩⟩
      exact ⟨_, _, _, _, _, rfl, h2⟩
    rw [h2, hTg _ _ _ _ _ ho]
    rfl
  cases hwb : withBias with
  | true =>
    apply key _ hZs
    intro n o u y z ho
    rw [hZg, hY, hval os, hspec]
    congr 2
    have := biasOperand_getD b J o
    rw [hbb, hwb]
    exact this
  | false =>
    have hact' := hact hwb
    have hb0 : bb = none := by rw [hbb, hwb]; rfl
    cases b with
    | none =>
      apply key _ hZs
      intro n o u y z ho
      rw [hZg, hY, hval os, hspec, hb0]
    | some l =>
      refine key ⟨Z.shape, fun idx => Z.get idx + l.getD (idx.getD 4 0) 0⟩ hZs ?_
      intro n o u y z ho
      simp only [List.getD_cons_zero, List.getD_cons_succ]
      rw [hZg, hY, hval os, hspec, hb0, hact', hact']
      simp [biasOf, add_comm]

/-- The source position is the one the definition of a transposed convolution names. -/
theorem C70_deconv3d_src (a : DeconvAxis) (hs : 0 < a.stride) (y k : Nat) (p : Int) : a.src y k = some p ↔ p * a.stride + k * a.dil = y + a.pad := by
  unfold DeconvAxis.src
  have h0 : (a.stride : Int) ≠ 0 := by omega
  constructor
  · intro h
    by_cases hm : ((y : Int) + a.pad - k * a.dil) % a.stride = 0
    · rw [if_pos hm] at h
      have := Int.ediv_mul_cancel (Int.dvd_of_emod_eq_zero hm)
      rw [Option.some.inj h] at this
      omega
    · rw [if_neg hm] at h
      exact absurd h (by simp)
  · intro h
    have : (y : Int) + a.pad - k * a.dil = p * a.stride := by omega
    rw [this, if_pos (Int.mul_emod_left _ _), Int.mul_ediv_cancel _ h0]

/-- The output shape operand is the size of the full result plus the output padding, and the part taken out of it lies inside. -/
theorem C70_deconv3d_shape (a₁ a₂ a₃ : DeconvAxis) (x w : Tensor R) (b : Option (List R)) (N C D H W J KD KH KW : Nat) (hx : x.shape = [N, C, D, H, W]) (hw : w.shape = [C, J, KD, KH, KW])
    (h1 : 2 * a₁.pad ≤ (D - 1) * a₁.stride + a₁.dil * (KD - 1) + 1 + a₁.outPad) (h2 : 2 * a₂.pad ≤ (H - 1) * a₂.stride + a₂.dil * (KH - 1) + 1 + a₂.outPad)
    (h3 : 2 * a₃.pad ≤ (W - 1) * a₃.stride + a₃.dil * (KW - 1) + 1 + a₃.outPad) :
    deconvShape3 a₁.pad a₂.pad a₃.pad (torchDeconv3d a₁ a₂ a₃ x w b).shape =
      [N, (D - 1) * a₁.stride + a₁.dil * (KD - 1) + 1 + a₁.outPad, (H - 1) * a₂.stride + a₂.dil * (KH - 1) + 1 + a₂.outPad, (W - 1) * a₃.stride + a₃.dil * (KW - 1) + 1 + a₃.outPad, J] := by
  simp only [deconvShape3, torchDeconv3d, Tensor.size, hx, hw, List.getD_cons_zero, List.getD_cons_succ, DeconvAxis.len]
  split
  · simp only [List.cons.injEq, and_true, true_and]
    omega
  · have : a₁.pad = 0 ∧ a₂.pad = 0 ∧ a₃.pad = 0 := by omega
    simp [this.1, this.2.1, this.2.2]

/-- A dilated, strided, padded case meets the hypotheses, and the operator computes something. -/
example : (torchDeconv3d (R := Int) ⟨2, 1, 1, 2⟩ ⟨1, 0, 0, 1⟩ ⟨1, 0, 0, 1⟩ ⟨[1, 1, 2, 1, 1], fun i => (1 + flat [1, 1, 2, 1, 1] i : Int)⟩ ⟨[1, 1, 3, 1, 1], fun i => (1 + flat [1, 1, 3, 1, 1] i : Int)⟩ (some [5])).shape = [1, 1, 6, 1, 1] ∧
    (lowerDeconv3d (R := Int) ⟨2, 1, 1, 2⟩ ⟨1, 0, 0, 1⟩ ⟨1, 0, 0, 1⟩ (fun v => v) true [1, 1, 6, 1, 1] ⟨[1, 1, 2, 1, 1], fun i => (1 + flat [1, 1, 2, 1, 1] i : Int)⟩
      ⟨[1, 1, 3, 1, 1], fun i => (1 + flat [1, 1, 3, 1, 1] i : Int)⟩ (some [5])).get [0, 0, 1, 0, 0] = 9 := by
  decide +kernel

end Verif.Props
