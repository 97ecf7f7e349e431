import Verif.Proofs.MatrixTransformLemmas

/-!
# C36 – C39: rotations, scales, translations and histories of them

Specifications (`Spec.rotX`, `Spec.rotAxis`, `Spec.scale`, …) are in `Proofs/MatrixTransformLemmas`; `Spec.rodrigues` (C15) is
Rodrigues' formula.
-/

set_option linter.unusedSimpArgs false
set_option maxHeartbeats 1000000

namespace Vmml
open Mat
variable {M N : Nat} {α : Type}

/-- A unit vector. -/
def Spec.IsUnit3 (n : Fin 3 → ℝ) : Prop := n 0 ^ 2 + n 1 ^ 2 + n 2 ^ 2 = 1

/-- Rigid transforms: the linear block is a rotation (orthogonal, determinant 1) and the last row is `(0, 0, 0, 1)`. -/
def Spec.Rigid (a : Matrix (Fin 4) (Fin 4) ℝ) : Prop :=
  Spec.block3 a * (Spec.block3 a).transpose = 1 ∧ (Spec.block3 a).det = 1 ∧ a 3 = ![0, 0, 0, 1]

/-! ## C36 -/

/-- C36. `rotate( angle, axis )` *sets* the matrix to the Rodrigues rotation about `axis`: for every previous content,
angle and axis (the axis is taken as it is, not normalised). -/
theorem C36_rodrigues (m : Mat 4 4 ℝ) (θ : ℝ) (n : Vec 3 ℝ) :
    (m.rotate θ n).toMat = Spec.rotAxis (fun i => n[i]) θ := rotate_toMat m θ n

/-- The rotation block, entry by entry. -/
theorem block3_rotAxis (n : Fin 3 → ℝ) (θ : ℝ) : Spec.block3 (Spec.rotAxis n θ) =
    !![Real.cos θ + (1 - Real.cos θ) * n 0 ^ 2, (1 - Real.cos θ) * n 0 * n 1 - Real.sin θ * n 2,
        (1 - Real.cos θ) * n 0 * n 2 + Real.sin θ * n 1;
       (1 - Real.cos θ) * n 0 * n 1 + Real.sin θ * n 2, Real.cos θ + (1 - Real.cos θ) * n 1 ^ 2,
        (1 - Real.cos θ) * n 1 * n 2 - Real.sin θ * n 0;
       (1 - Real.cos θ) * n 0 * n 2 - Real.sin θ * n 1, (1 - Real.cos θ) * n 1 * n 2 + Real.sin θ * n 0,
        Real.cos θ + (1 - Real.cos θ) * n 2 ^ 2] := by
  ext r c
  fin_cases r <;> fin_cases c <;> simp [Spec.block3, Spec.rotAxis, Spec.rodrigues] <;> ring

theorem rotAxis_lastRow (n : Fin 3 → ℝ) (θ : ℝ) : Spec.rotAxis n θ 3 = ![0, 0, 0, 1] := by
  ext c; fin_cases c <;> simp [Spec.rotAxis]

theorem rotAxis_rigid (n : Fin 3 → ℝ) (hn : Spec.IsUnit3 n) (θ : ℝ) : Spec.Rigid (Spec.rotAxis n θ) := by
  have hcs := Real.sin_sq_add_cos_sq θ
  unfold Spec.IsUnit3 at hn
  refine ⟨?_, ?_, rotAxis_lastRow n θ⟩
  · rw [block3_rotAxis]
    generalize Real.cos θ = c at *
    generalize Real.sin θ = s at *
    ext i j
    fin_cases i <;> fin_cases j <;> simp [Matrix.mul_apply, Fin.sum_univ_three]
    · linear_combination ((1 - c) ^ 2 * n 0 ^ 2 + s ^ 2) * hn + (1 - n 0 ^ 2) * hcs
    · linear_combination ((1 - c) ^ 2 * n 0 * n 1) * hn - n 0 * n 1 * hcs
    · linear_combination ((1 - c) ^ 2 * n 0 * n 2) * hn - n 0 * n 2 * hcs
    · linear_combination ((1 - c) ^ 2 * n 0 * n 1) * hn - n 0 * n 1 * hcs
    · linear_combination ((1 - c) ^ 2 * n 1 ^ 2 + s ^ 2) * hn + (1 - n 1 ^ 2) * hcs
    · linear_combination ((1 - c) ^ 2 * n 1 * n 2) * hn - n 1 * n 2 * hcs
    · linear_combination ((1 - c) ^ 2 * n 0 * n 2) * hn - n 0 * n 2 * hcs
    · linear_combination ((1 - c) ^ 2 * n 1 * n 2) * hn - n 1 * n 2 * hcs
    · linear_combination ((1 - c) ^ 2 * n 2 ^ 2 + s ^ 2) * hn + (1 - n 2 ^ 2) * hcs
  · rw [block3_rotAxis, Matrix.det_fin_three]
    generalize Real.cos θ = c at *
    generalize Real.sin θ = s at *
    simp
    have h2 : n 2 ^ 2 = 1 - n 0 ^ 2 - n 1 ^ 2 := by linarith
    have hs : s ^ 2 = 1 - c ^ 2 := by linarith
    linear_combination (c ^ 2 * (1 - c) + (1 - c) * s ^ 2 * (n 0 ^ 2 + n 1 ^ 2 + n 2 ^ 2 + 1) + c * s ^ 2) * hn + hcs

/-- C36. For a unit axis the result is a rigid transform (rotation block orthogonal with determinant 1, last row
`(0,0,0,1)`, no translation) that fixes the axis. -/
theorem C36_rotation (m : Mat 4 4 ℝ) (θ : ℝ) (n : Vec 3 ℝ) (hn : Spec.IsUnit3 fun i => n[i]) :
    Spec.Rigid (m.rotate θ n).toMat ∧ (∀ r : Fin 3, (m.rotate θ n).toMat r.castSucc 3 = 0) ∧
      (Spec.block3 (m.rotate θ n).toMat).mulVec (fun i => n[i]) = fun i => n[i] := by
  rw [rotate_toMat]
  refine ⟨rotAxis_rigid _ hn θ, ?_, ?_⟩
  · intro r; fin_cases r <;> simp [Spec.rotAxis]
  · rw [block3_rotAxis]
    unfold Spec.IsUnit3 at hn
    simp only [Fin.getElem_fin, Fin.val_zero, Fin.val_one, Fin.val_two] at hn
    ext i
    fin_cases i <;> simp [Matrix.mulVec, dotProduct, Fin.sum_univ_three]
    · linear_combination (1 - Real.cos θ) * n[0] * hn
    · linear_combination (1 - Real.cos θ) * n[1] * hn
    · linear_combination (1 - Real.cos θ) * n[2] * hn

/-- C36. Angles about the same unit axis add; the angle 0 gives the identity. -/
theorem C36_additive (m : Mat 4 4 ℝ) (θ φ : ℝ) (n : Vec 3 ℝ) (hn : Spec.IsUnit3 fun i => n[i]) :
    (m.rotate (θ + φ) n).toMat = (m.rotate θ n).toMat * (m.rotate φ n).toMat ∧ (m.rotate 0 n).toMat = 1 := by
  simp only [rotate_toMat]
  unfold Spec.IsUnit3 at hn
  generalize (fun i : Fin 3 => n[i]) = n at hn
  constructor
  · ext r c
    fin_cases r <;> fin_cases c <;>
      simp [Spec.rotAxis, Spec.rodrigues, Matrix.mul_apply, Fin.sum_univ_four, Real.cos_add, Real.sin_add]
    all_goals generalize Real.cos θ = c₁ at *
    all_goals generalize Real.cos φ = c₂ at *
    all_goals generalize Real.sin θ = s₁ at *
    all_goals generalize Real.sin φ = s₂ at *
    · linear_combination (-(1 - c₁) * (1 - c₂) * n 0 ^ 2 + s₁ * s₂) * hn
    · linear_combination (-(1 - c₁) * (1 - c₂) * n 0 * n 1) * hn
    · linear_combination (-(1 - c₁) * (1 - c₂) * n 0 * n 2) * hn
    · linear_combination (-(1 - c₁) * (1 - c₂) * n 0 * n 1) * hn
    · linear_combination (-(1 - c₁) * (1 - c₂) * n 1 ^ 2 + s₁ * s₂) * hn
    · linear_combination (-(1 - c₁) * (1 - c₂) * n 1 * n 2) * hn
    · linear_combination (-(1 - c₁) * (1 - c₂) * n 0 * n 2) * hn
    · linear_combination (-(1 - c₁) * (1 - c₂) * n 1 * n 2) * hn
    · linear_combination (-(1 - c₁) * (1 - c₂) * n 2 ^ 2 + s₁ * s₂) * hn
  · ext r c
    fin_cases r <;> fin_cases c <;> simp [Spec.rotAxis, Spec.rodrigues]

/-- C36. For a unit axis, `Matrix::rotate` applied to a point is `Vector::rotate` of the point. -/
theorem C36_vector_rotate (cfg : Cfg) (m : Mat 4 4 ℝ) (θ : ℝ) (n v : Vec 3 ℝ) (hn : Spec.IsUnit3 fun i => n[i]) :
    (m.rotate θ n).mulVecHom cfg v = v.rotate cfg θ n := by
  have hn' : n[0] ^ 2 + n[1] ^ 2 + n[2] ^ 2 = 1 := hn
  have hne : n ≠ #v[0, 0, 0] := by rintro rfl; norm_num at hn'
  obtain ⟨u, l, hl, h1, h2, h3, h4⟩ := rotate_eq cfg v n θ hne
  have hl1 : l = 1 := by
    have : l ^ 2 * (u[0] ^ 2 + u[1] ^ 2 + u[2] ^ 2) = 1 := by
      rw [← hn', h2 0 (by omega), h2 1 (by omega), h2 2 (by omega)]; ring
    rw [h3, mul_one] at this
    nlinarith
  have hu : u = n := by
    ext i hi; rw [h2 i hi, hl1, one_mul]
  rw [h4, hu, mulVecHom_eq, rotate_toMat]
  congr 1
  have hw : ∀ v : Fin 3 → ℝ, homRow (Spec.rotAxis (fun i => n[i]) θ) v (Fin.last 3) = 1 := by
    intro v
    have e : ∀ j, Spec.rotAxis (fun i => n[i]) θ (Fin.last 3) j = ![(0 : ℝ), 0, 0, 1] j :=
      fun j => congrFun (rotAxis_lastRow _ θ) j
    simp only [homRow, e, Fin.sum_univ_three]
    simp [Fin.last]
  simp only [hw, div_one]
  apply vec3_ext <;> simp [homRow, Fin.sum_univ_three, Spec.rotAxis, Spec.rodrigues] <;> ring

/-- The axis `(3/5, 0, 4/5)` is a unit axis, so the theorems apply to it. -/
example : Spec.IsUnit3 fun i => (#v[3 / 5, 0, 4 / 5] : Vec 3 ℝ)[i] := by
  show ((3 : ℝ) / 5) ^ 2 + 0 ^ 2 + (4 / 5) ^ 2 = 1
  norm_num

/-! ## C37 -/

/-- C37. `rotate_x/y/z( θ )` multiply from the right by the rotation about that axis. -/
theorem C37_rotate (m : Mat 4 4 ℝ) (θ : ℝ) :
    (m.rotateX θ).toMat = m.toMat * Spec.rotX θ ∧ (m.rotateY θ).toMat = m.toMat * Spec.rotY θ ∧
    (m.rotateZ θ).toMat = m.toMat * Spec.rotZ θ :=
  ⟨rotateX_toMat m θ, rotateY_toMat m θ, rotateZ_toMat m θ⟩

/-- C37, proved part: `pre_rotate_x/y/z( θ )` multiply from the left by the rotation by `-θ`. Missing: by the *same*
rotation as `rotate_x/y/z`, which is false (`C37_pre_rotate_violated`). -/
theorem C37_pre_rotate_partial (m : Mat 4 4 ℝ) (θ : ℝ) :
    (m.preRotateX θ).toMat = Spec.rotX (-θ) * m.toMat ∧ (m.preRotateY θ).toMat = Spec.rotY (-θ) * m.toMat ∧
    (m.preRotateZ θ).toMat = Spec.rotZ (-θ) * m.toMat :=
  ⟨preRotateX_toMat m θ, preRotateY_toMat m θ, preRotateZ_toMat m θ⟩

/-- C37 fails for `pre_rotate_*`: on the identity, `pre_rotate_x( π/2 )` is not the rotation `rotate_x( π/2 )` gives
(likewise for y and z); it is its inverse. -/
theorem C37_pre_rotate_violated (m : Mat 4 4 ℝ) (hm : m.toMat = 1) :
    (m.preRotateX (Real.pi / 2)).toMat ≠ Spec.rotX (Real.pi / 2) * m.toMat ∧
    (m.preRotateY (Real.pi / 2)).toMat ≠ Spec.rotY (Real.pi / 2) * m.toMat ∧
    (m.preRotateZ (Real.pi / 2)).toMat ≠ Spec.rotZ (Real.pi / 2) * m.toMat := by
  rw [preRotateX_toMat, preRotateY_toMat, preRotateZ_toMat, hm]
  simp only [mul_one]
  refine ⟨?_, ?_, ?_⟩
  · intro h; have := congrFun (congrFun h 1) 2; simp [Spec.rotX] at this; norm_num at this
  · intro h; have := congrFun (congrFun h 0) 2; simp [Spec.rotY] at this; norm_num at this
  · intro h; have := congrFun (congrFun h 0) 1; simp [Spec.rotZ] at this; norm_num at this

theorem rotX_add (θ φ : ℝ) : Spec.rotX θ * Spec.rotX φ = Spec.rotX (θ + φ) := by
  ext r c; fin_cases r <;> fin_cases c <;>
    simp [Spec.rotX, Matrix.mul_apply, Fin.sum_univ_four, Real.cos_add, Real.sin_add] <;> ring
theorem rotY_add (θ φ : ℝ) : Spec.rotY θ * Spec.rotY φ = Spec.rotY (θ + φ) := by
  ext r c; fin_cases r <;> fin_cases c <;>
    simp [Spec.rotY, Matrix.mul_apply, Fin.sum_univ_four, Real.cos_add, Real.sin_add] <;> ring
theorem rotZ_add (θ φ : ℝ) : Spec.rotZ θ * Spec.rotZ φ = Spec.rotZ (θ + φ) := by
  ext r c; fin_cases r <;> fin_cases c <;>
    simp [Spec.rotZ, Matrix.mul_apply, Fin.sum_univ_four, Real.cos_add, Real.sin_add] <;> ring
theorem rotX_zero : Spec.rotX 0 = 1 := by
  ext r c; fin_cases r <;> fin_cases c <;> simp [Spec.rotX]
theorem rotY_zero : Spec.rotY 0 = 1 := by
  ext r c; fin_cases r <;> fin_cases c <;> simp [Spec.rotY]
theorem rotZ_zero : Spec.rotZ 0 = 1 := by
  ext r c; fin_cases r <;> fin_cases c <;> simp [Spec.rotZ]

/-- C37. Successive rotations about one axis add their angles, whatever the matrix; in particular `rotate_k( a )` then
`rotate_k( -a )` restores the matrix, and likewise for `pre_rotate_k`. -/
theorem C37_additive (m : Mat 4 4 ℝ) (θ φ : ℝ) :
    (m.rotateX θ).rotateX φ = m.rotateX (θ + φ) ∧ (m.rotateY θ).rotateY φ = m.rotateY (θ + φ) ∧
    (m.rotateZ θ).rotateZ φ = m.rotateZ (θ + φ) ∧ (m.preRotateX θ).preRotateX φ = m.preRotateX (θ + φ) ∧
    (m.preRotateY θ).preRotateY φ = m.preRotateY (θ + φ) ∧ (m.preRotateZ θ).preRotateZ φ = m.preRotateZ (θ + φ) := by
  refine ⟨?_, ?_, ?_, ?_, ?_, ?_⟩ <;> apply toMat_inj.1
  · rw [rotateX_toMat, rotateX_toMat, rotateX_toMat, Matrix.mul_assoc, rotX_add]
  · rw [rotateY_toMat, rotateY_toMat, rotateY_toMat, Matrix.mul_assoc, rotY_add]
  · rw [rotateZ_toMat, rotateZ_toMat, rotateZ_toMat, Matrix.mul_assoc, rotZ_add]
  · rw [preRotateX_toMat, preRotateX_toMat, preRotateX_toMat, ← Matrix.mul_assoc, rotX_add, neg_add, add_comm]
  · rw [preRotateY_toMat, preRotateY_toMat, preRotateY_toMat, ← Matrix.mul_assoc, rotY_add, neg_add, add_comm]
  · rw [preRotateZ_toMat, preRotateZ_toMat, preRotateZ_toMat, ← Matrix.mul_assoc, rotZ_add, neg_add, add_comm]

theorem C37_undo (m : Mat 4 4 ℝ) (θ : ℝ) :
    (m.rotateX θ).rotateX (-θ) = m ∧ (m.rotateY θ).rotateY (-θ) = m ∧ (m.rotateZ θ).rotateZ (-θ) = m ∧
    (m.preRotateX θ).preRotateX (-θ) = m ∧ (m.preRotateY θ).preRotateY (-θ) = m ∧
    (m.preRotateZ θ).preRotateZ (-θ) = m := by
  obtain ⟨h1, h2, h3, h4, h5, h6⟩ := C37_additive m θ (-θ)
  rw [h1, h2, h3, h4, h5, h6, add_neg_cancel]
  refine ⟨?_, ?_, ?_, ?_, ?_, ?_⟩ <;> apply toMat_inj.1
  · rw [rotateX_toMat, rotX_zero, mul_one]
  · rw [rotateY_toMat, rotY_zero, mul_one]
  · rw [rotateZ_toMat, rotZ_zero, mul_one]
  · rw [preRotateX_toMat, neg_zero, rotX_zero, one_mul]
  · rw [preRotateY_toMat, neg_zero, rotY_zero, one_mul]
  · rw [preRotateZ_toMat, neg_zero, rotZ_zero, one_mul]

/-- C37. The axis rotations are `rotate( θ, axis )` for the coordinate axes. -/
theorem C37_axes (θ : ℝ) :
    Spec.rotX θ = Spec.rotAxis ![1, 0, 0] θ ∧ Spec.rotY θ = Spec.rotAxis ![0, 1, 0] θ ∧
    Spec.rotZ θ = Spec.rotAxis ![0, 0, 1] θ := by
  refine ⟨?_, ?_, ?_⟩ <;> ext r c <;> fin_cases r <;> fin_cases c <;>
    simp [Spec.rotX, Spec.rotY, Spec.rotZ, Spec.rotAxis, Spec.rodrigues]

/-! ## C38 -/

/-- C38. `scale` multiplies from the right by the diagonal scale matrix (both overloads). -/
theorem C38_scale [CommRing α] (m : Mat 4 4 α) (s : Vec 3 α) (x y z : α) :
    (m.scale s).toMat = m.toMat * Matrix.diagonal ![s[0], s[1], s[2], 1] ∧
    (m.scaleXYZ x y z).toMat = m.toMat * Matrix.diagonal ![x, y, z, 1] :=
  ⟨scale_toMat m s, scaleXYZ_toMat m x y z⟩

/-- C38. `scale_translation` and `set_translation` change exactly the three translation cells. -/
theorem C38_translation_cells [Mul α] (m : Mat 4 4 α) (t : Vec 3 α) (r c : Fin 4) :
    (m.setTranslation t).toMat r c = (if h : c = 3 ∧ r.1 < 3 then t[r.1] else m.toMat r c) ∧
    (m.setTranslationXYZ t[0] t[1] t[2]).toMat r c = (if h : c = 3 ∧ r.1 < 3 then t[r.1] else m.toMat r c) ∧
    (m.scaleTranslation t).toMat r c = (if h : c = 3 ∧ r.1 < 3 then m.toMat r c * t[r.1] else m.toMat r c) := by
  simp only [toMat_apply]
  refine ⟨setTranslation_get m t r c, ?_, scaleTranslation_get m t r c⟩
  rw [setTranslationXYZ_eq, ← setTranslation_get]
  congr 2
  apply vec3_ext <;> rfl

theorem Mat.getTranslation_eq {K : Nat} (m : Mat M (K + 1) α) (t : Vec K α) (hM : K ≤ M) :
    m.getTranslationTo t = .ok (Vector.ofFn fun i : Fin K => m.get ⟨i.1, by omega⟩ (Fin.last K)) := by
  apply loop_set
  intro i hi w _
  have hb : i + M * K < M * (K + 1) := by rw [Nat.mul_succ]; omega
  rw [rawGet_lt m hb, bind_ok, Vec.rawSet_lt w _ hi]
  congr 2
  simp only [Mat.get, Fin.val_last]
  congr 1
  rw [mul_comm, add_comm]

/-- C38. `get_translation` returns the upper part of the last column (for every size with at least `N - 1` rows); it returns
what `set_translation` stored; `x()`, `y()`, `z()` are its components. -/
theorem C38_get_translation [Zero α] {K : Nat} (m : Mat M (K + 1) α) (t : Vec K α) (hM : K ≤ M) :
    ∃ r, m.getTranslationTo t = .ok r ∧ m.getTranslation = .ok r ∧
      ∀ i : Fin K, r[i] = m.toMat ⟨i.1, by omega⟩ (Fin.last K) :=
  ⟨_, getTranslation_eq m t hM, getTranslation_eq m _ hM, by simp⟩

theorem C38_get_set [Zero α] (m : Mat 4 4 α) (t : Vec 3 α) :
    (m.setTranslation t).getTranslation = .ok t ∧
    t = #v[(m.setTranslation t).x, (m.setTranslation t).y, (m.setTranslation t).z] := by
  constructor
  · unfold getTranslation
    rw [getTranslation_eq _ _ (by omega)]
    congr 1
    ext i hi
    rw [Vector.getElem_ofFn, setTranslation_get, dif_pos ⟨rfl, hi⟩]
  · apply vec3_ext <;> simp [Mat.x, Mat.y, Mat.z, Mat.setTranslation, Vector.getElem_set]

/-- With fewer than `N - 1` rows `get_translation` reads past the end of the array. -/
theorem C38_get_translation_short_violated {K : Nat} (m : Mat M (K + 1) α) (t : Vec K α) (hM : M < K) :
    m.getTranslationTo t = .error .ub := by
  have key : ∀ n, n ≤ K → loop n (fun i (t : Vec K α) => do t.rawSet i (← m.rawGet (i + M * K))) t =
      if n ≤ M then loop n (fun i (t : Vec K α) => do t.rawSet i (← m.rawGet (i + M * K))) t else .error .ub := by
    intro n hn
    induction n with
    | zero => simp
    | succ n ih =>
      split_ifs with h
      · rfl
      · rw [loop_succ]
        by_cases hnM : n ≤ M
        · have hok : ∃ w, loop n (fun i (t : Vec K α) => do t.rawSet i (← m.rawGet (i + M * K))) t = .ok w := by
            obtain ⟨w, hw, -⟩ := loop_ok (n := n) (s := t)
              (body := fun i (t : Vec K α) => do t.rawSet i (← m.rawGet (i + M * K))) (fun _ _ => True) trivial (by
              intro i hi s _
              have hb : i + M * K < M * (K + 1) := by rw [Nat.mul_succ]; omega
              exact ⟨_, by rw [rawGet_lt m hb, bind_ok, Vec.rawSet_lt s _ (by omega)], trivial⟩)
            exact ⟨w, hw⟩
          obtain ⟨w, hw⟩ := hok
          rw [hw, bind_ok, rawGet_ge m (by rw [Nat.mul_succ]; omega)]
          rfl
        · rw [ih (by omega), if_neg hnM]; rfl
  exact (key K le_rfl).trans (if_neg (by omega))

example : (⟨#v[1, 2, 3, 4, 5, 6, 7, 8, 9, 10, 11, 12, 13, 14, 15, 16]⟩ : Mat 4 4 Int).getTranslation = .ok #v[13, 14, 15] := by
  decide

/-! ## C39 -/

/-- One call of a transform function on a 4x4 matrix. -/
inductive TOp
  | rotX (θ : ℝ) | rotY (θ : ℝ) | rotZ (θ : ℝ)
  | preX (θ : ℝ) | preY (θ : ℝ) | preZ (θ : ℝ)
  | axis (θ : ℝ) (n : Vec 3 ℝ)
  | translate (t : Vec 3 ℝ)

/-- The call. -/
noncomputable def TOp.run (m : Mat 4 4 ℝ) : TOp → Mat 4 4 ℝ
  | rotX θ => m.rotateX θ
  | rotY θ => m.rotateY θ
  | rotZ θ => m.rotateZ θ
  | preX θ => m.preRotateX θ
  | preY θ => m.preRotateY θ
  | preZ θ => m.preRotateZ θ
  | axis θ n => m.rotate θ n
  | translate t => m.setTranslation t

/-- The axis argument, if any, is a unit vector. -/
def TOp.Valid : TOp → Prop
  | axis _ n => Spec.IsUnit3 fun i => n[i]
  | _ => True

theorem rigid_mul {a b : Matrix (Fin 4) (Fin 4) ℝ} (ha : Spec.Rigid a) (hb : Spec.Rigid b) : Spec.Rigid (a * b) := by
  obtain ⟨a1, a2, a3⟩ := ha
  obtain ⟨b1, b2, b3⟩ := hb
  have hbl : Spec.block3 (a * b) = Spec.block3 a * Spec.block3 b := by
    ext i j
    have : b (Fin.last 3) j.castSucc = 0 := by
      have := congrFun b3 j.castSucc
      rw [show Fin.last 3 = 3 from rfl, this]
      fin_cases j <;> rfl
    simp [Spec.block3, Matrix.mul_apply, Fin.sum_univ_castSucc (n := 3), this, show b 3 j.castSucc = 0 from this]
  refine ⟨?_, ?_, ?_⟩
  · rw [hbl, Matrix.transpose_mul, Matrix.mul_assoc, ← Matrix.mul_assoc (Spec.block3 b), b1, Matrix.one_mul, a1]
  · rw [hbl, Matrix.det_mul, a2, b2, one_mul]
  · ext j
    rw [Matrix.mul_apply, Fin.sum_univ_four, a3]
    simp only [Matrix.cons_val, zero_mul, one_mul, zero_add]
    rw [b3]

theorem rotX_rigid (θ : ℝ) : Spec.Rigid (Spec.rotX θ) := by
  rw [(C37_axes θ).1]; exact rotAxis_rigid _ (by simp [Spec.IsUnit3]) θ
theorem rotY_rigid (θ : ℝ) : Spec.Rigid (Spec.rotY θ) := by
  rw [(C37_axes θ).2.1]; exact rotAxis_rigid _ (by simp [Spec.IsUnit3]) θ
theorem rotZ_rigid (θ : ℝ) : Spec.Rigid (Spec.rotZ θ) := by
  rw [(C37_axes θ).2.2]; exact rotAxis_rigid _ (by simp [Spec.IsUnit3]) θ

theorem setTranslation_rigid (m : Mat 4 4 ℝ) (t : Vec 3 ℝ) (h : Spec.Rigid m.toMat) :
    Spec.Rigid (m.setTranslation t).toMat := by
  have hbl : Spec.block3 (m.setTranslation t).toMat = Spec.block3 m.toMat := by
    ext i j
    simp only [Spec.block3, Matrix.submatrix_apply, toMat_apply, setTranslation_get]
    rw [dif_neg]
    rintro ⟨h, -⟩
    have := congrArg Fin.val h
    simp at this
    omega
  refine ⟨by rw [hbl]; exact h.1, by rw [hbl]; exact h.2.1, ?_⟩
  rw [← h.2.2]
  ext j
  simp [setTranslation_get]

theorem TOp.run_rigid (m : Mat 4 4 ℝ) (h : Spec.Rigid m.toMat) (op : TOp) (hv : op.Valid) :
    Spec.Rigid (op.run m).toMat := by
  cases op with
  | rotX θ => simp only [run, rotateX_toMat]; exact rigid_mul h (rotX_rigid θ)
  | rotY θ => simp only [run, rotateY_toMat]; exact rigid_mul h (rotY_rigid θ)
  | rotZ θ => simp only [run, rotateZ_toMat]; exact rigid_mul h (rotZ_rigid θ)
  | preX θ => simp only [run, preRotateX_toMat]; exact rigid_mul (rotX_rigid _) h
  | preY θ => simp only [run, preRotateY_toMat]; exact rigid_mul (rotY_rigid _) h
  | preZ θ => simp only [run, preRotateZ_toMat]; exact rigid_mul (rotZ_rigid _) h
  | axis θ n => simp only [run, rotate_toMat]; exact rotAxis_rigid (fun i => n[i]) hv θ
  | translate t => exact setTranslation_rigid m t h

/-- C39. After any history of transform calls a rigid transform is still rigid. -/
theorem C39_history_rigid (m : Mat 4 4 ℝ) (h : Spec.Rigid m.toMat) (ops : List TOp) (hv : ∀ op ∈ ops, op.Valid) :
    Spec.Rigid (ops.foldl TOp.run m).toMat := by
  induction ops generalizing m with
  | nil => exact h
  | cons op ops ih =>
    exact ih (op.run m) (TOp.run_rigid m h op (hv op (by simp))) fun o ho => hv o (by simp [ho])

theorem sq_orthogonal {R : Matrix (Fin 3) (Fin 3) ℝ} (h : R * R.transpose = 1) (v : Fin 3 → ℝ) :
    ∑ i, (∑ j, R i j * v j) * (∑ j, R i j * v j) = ∑ i, v i * v i := by
  have h' : R.transpose * R = 1 := mul_eq_one_comm.1 h
  have : (R.mulVec v) ⬝ᵥ (R.mulVec v) = v ⬝ᵥ v := by
    rw [Matrix.dotProduct_mulVec, Matrix.vecMul_mulVec, h', Matrix.vecMul_one]
  exact this

/-- C39. A rigid transform applied to points (`matrix * vector3`, homogeneous) preserves the distance of any two points. -/
theorem C39_distance (cfg : Cfg) (m : Mat 4 4 ℝ) (h : Spec.Rigid m.toMat) (p q : Vec 3 ℝ) :
    ∃ p' q', m.mulVecHom cfg p = .ok p' ∧ m.mulVecHom cfg q = .ok q' ∧ p'.distance cfg q' = p.distance cfg q := by
  refine ⟨_, _, mulVecHom_eq cfg m p, mulVecHom_eq cfg m q, ?_⟩
  have hw : ∀ v : Fin 3 → ℝ, homRow m.toMat v (Fin.last 3) = 1 := by
    intro v
    have := h.2.2
    have e : ∀ j, m.toMat (Fin.last 3) j = ![(0 : ℝ), 0, 0, 1] j := fun j => congrFun this j
    simp only [homRow, e, Fin.sum_univ_three]
    simp [Fin.last]
  rw [distance_eq, distance_eq]
  congr 2
  rw [← sq_orthogonal h.1 (fun i => p[i] - q[i])]
  apply Finset.sum_congr rfl
  intro i _
  have : homRow m.toMat (fun j => p[j]) i.castSucc - homRow m.toMat (fun j => q[j]) i.castSucc =
      ∑ j, Spec.block3 m.toMat i j * (p[j] - q[j]) := by
    simp only [homRow, Spec.block3, Matrix.submatrix_apply, mul_sub, Finset.sum_sub_distrib]
    ring
  simp only [Fin.getElem_fin, Vector.getElem_ofFn, hw, div_one]
  simp only [Fin.getElem_fin, Fin.eta] at this
  rw [this]

/-- C39. Distances are preserved forever: after any history of transform calls on a rigid transform. -/
theorem C39_history_distance (cfg : Cfg) (m : Mat 4 4 ℝ) (h : Spec.Rigid m.toMat) (ops : List TOp)
    (hv : ∀ op ∈ ops, op.Valid) (p q : Vec 3 ℝ) :
    ∃ p' q', (ops.foldl TOp.run m).mulVecHom cfg p = .ok p' ∧ (ops.foldl TOp.run m).mulVecHom cfg q = .ok q' ∧
      p'.distance cfg q' = p.distance cfg q :=
  C39_distance cfg _ (C39_history_rigid m h ops hv) p q

/-- The default-constructed matrix is a rigid transform to start from. -/
theorem C39_start (cfg : Cfg) : ∃ m : Mat 4 4 ℝ, Mat.ctor cfg = .ok m ∧ Spec.Rigid m.toMat := by
  refine ⟨_, ctor_eq cfg, ?_⟩
  rw [show (ofFn fun r c => if (4 = 4 ∧ r.1 = c.1) then (1 : ℝ) else 0 : Mat 4 4 ℝ).toMat = Spec.rotX 0 by
    rw [rotX_zero]; ext r c; simp [Matrix.one_apply, Fin.ext_iff]]
  exact rotX_rigid 0

end Vmml
