import Verif.Model.MatrixTransform
import Verif.Props.MatrixAlgebra
import Verif.Props.VectorGeom
import Mathlib.LinearAlgebra.Matrix.Determinant.Basic
import Mathlib.Data.Matrix.Block
import Mathlib.Tactic.FinCases
import Mathlib.Tactic.LinearCombination

/-!
# Specifications of the 4x4 transforms and closed forms of the model functions
-/

set_option linter.unusedSimpArgs false
set_option maxHeartbeats 2000000

namespace Vmml
open Mat
variable {M N : Nat} {α : Type}

/-- Closing tactic: two 4x4 matrices agree cell by cell. -/
macro "cells4" "[" ls:Lean.Parser.Tactic.simpLemma,* "]" : tactic => `(tactic|
  (ext r c; fin_cases r <;> fin_cases c <;>
    simp [Mat.get, Matrix.mul_apply, Fin.sum_univ_four, Vector.getElem_set, $ls,*] <;> try ring))

/-! ## Specification -/

/-- Rotation by `θ` about the x axis, as a 4x4 matrix. -/
noncomputable def Spec.rotX (θ : ℝ) : Matrix (Fin 4) (Fin 4) ℝ :=
  !![1, 0, 0, 0; 0, Real.cos θ, -Real.sin θ, 0; 0, Real.sin θ, Real.cos θ, 0; 0, 0, 0, 1]
/-- Rotation by `θ` about the y axis. -/
noncomputable def Spec.rotY (θ : ℝ) : Matrix (Fin 4) (Fin 4) ℝ :=
  !![Real.cos θ, 0, Real.sin θ, 0; 0, 1, 0, 0; -Real.sin θ, 0, Real.cos θ, 0; 0, 0, 0, 1]
/-- Rotation by `θ` about the z axis. -/
noncomputable def Spec.rotZ (θ : ℝ) : Matrix (Fin 4) (Fin 4) ℝ :=
  !![Real.cos θ, -Real.sin θ, 0, 0; Real.sin θ, Real.cos θ, 0, 0; 0, 0, 1, 0; 0, 0, 0, 1]
/-- The 4x4 matrix whose upper left block is the Rodrigues rotation about `n` (the images of the unit vectors are its
columns) and which is otherwise the identity. -/
noncomputable def Spec.rotAxis (n : Fin 3 → ℝ) (θ : ℝ) : Matrix (Fin 4) (Fin 4) ℝ :=
  Matrix.of fun r c => if hr : r.1 < 3 then
      (if hc : c.1 < 3 then Spec.rodrigues n (Pi.single (⟨c.1, hc⟩ : Fin 3) 1) (Real.cos θ) (Real.sin θ) ⟨r.1, hr⟩ else 0)
    else (if c.1 = 3 then 1 else 0)
/-- The upper left 3x3 block. -/
def Spec.block3 (a : Matrix (Fin 4) (Fin 4) ℝ) : Matrix (Fin 3) (Fin 3) ℝ := a.submatrix Fin.castSucc Fin.castSucc

/-! ## Closed forms -/

theorem rotateX_toMat (m : Mat 4 4 ℝ) (θ : ℝ) : (m.rotateX θ).toMat = m.toMat * Spec.rotX θ := by
  cells4 [rotateX, Spec.rotX]
theorem rotateY_toMat (m : Mat 4 4 ℝ) (θ : ℝ) : (m.rotateY θ).toMat = m.toMat * Spec.rotY θ := by
  cells4 [rotateY, Spec.rotY]
theorem rotateZ_toMat (m : Mat 4 4 ℝ) (θ : ℝ) : (m.rotateZ θ).toMat = m.toMat * Spec.rotZ θ := by
  cells4 [rotateZ, Spec.rotZ]
theorem preRotateX_toMat (m : Mat 4 4 ℝ) (θ : ℝ) : (m.preRotateX θ).toMat = Spec.rotX (-θ) * m.toMat := by
  cells4 [preRotateX, Spec.rotX]
theorem preRotateY_toMat (m : Mat 4 4 ℝ) (θ : ℝ) : (m.preRotateY θ).toMat = Spec.rotY (-θ) * m.toMat := by
  cells4 [preRotateY, Spec.rotY]
theorem preRotateZ_toMat (m : Mat 4 4 ℝ) (θ : ℝ) : (m.preRotateZ θ).toMat = Spec.rotZ (-θ) * m.toMat := by
  cells4 [preRotateZ, Spec.rotZ]

theorem rotate_toMat (m : Mat 4 4 ℝ) (θ : ℝ) (n : Vec 3 ℝ) :
    (m.rotate θ n).toMat = Spec.rotAxis (fun i => n[i]) θ := by
  have e : (1 + 1 : ℝ) = 2 := by norm_num
  ext r c
  fin_cases r <;> fin_cases c <;>
    simp [Mat.get, Vector.getElem_set, Mat.rotate, Spec.rotAxis, Spec.rodrigues, e] <;> try ring

/-- The diagonal matrix `diag( s0, s1, s2, 1 )`. -/
def Spec.scale (s : Fin 3 → α) [Zero α] [One α] : Matrix (Fin 4) (Fin 4) α :=
  Matrix.diagonal ![s 0, s 1, s 2, 1]

theorem scale_toMat [CommRing α] (m : Mat 4 4 α) (s : Vec 3 α) :
    (m.scale s).toMat = m.toMat * Spec.scale (fun i => s[i]) := by
  ext r c
  rw [Spec.scale, Matrix.mul_diagonal]
  fin_cases r <;> fin_cases c <;> simp [Mat.get, Mat.scale, Vector.getElem_set]

theorem scaleXYZ_toMat [CommRing α] (m : Mat 4 4 α) (x y z : α) :
    (m.scaleXYZ x y z).toMat = m.toMat * Spec.scale ![x, y, z] := by
  ext r c
  rw [Spec.scale, Matrix.mul_diagonal]
  fin_cases r <;> fin_cases c <;> simp [Mat.get, Mat.scaleXYZ, Vector.getElem_set]

theorem setTranslation_get (m : Mat 4 4 α) (t : Vec 3 α) (r c : Fin 4) :
    (m.setTranslation t).get r c = if h : c = 3 ∧ r.1 < 3 then t[r.1] else m.get r c := by
  fin_cases r <;> fin_cases c <;> simp [Mat.get, Mat.setTranslation, Vector.getElem_set]

theorem setTranslationXYZ_eq (m : Mat 4 4 α) (x y z : α) : m.setTranslationXYZ x y z = m.setTranslation #v[x, y, z] := rfl

theorem scaleTranslation_get [Mul α] (m : Mat 4 4 α) (s : Vec 3 α) (r c : Fin 4) :
    (m.scaleTranslation s).get r c = if h : c = 3 ∧ r.1 < 3 then m.get r c * s[r.1] else m.get r c := by
  fin_cases r <;> fin_cases c <;> simp [Mat.get, Mat.scaleTranslation, Vector.getElem_set]

end Vmml
