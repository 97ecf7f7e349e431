import Verif.Props.QR
import Mathlib.LinearAlgebra.Matrix.Block
import Mathlib.LinearAlgebra.Matrix.NonsingularInverse

/-!
# C77: the QR decomposition is the only one
-/

namespace Vmml
open Mat QR
variable {M N : Nat}

/-- An upper triangular matrix with positive diagonal is determined by its Gram matrix. -/
private theorem tri_unique (R S : Matrix (Fin N) (Fin N) ℝ) (hR : R.BlockTriangular id) (hS : S.BlockTriangular id) (hRd : ∀ j, 0 < R j j) (hSd : ∀ j, 0 < S j j)
    (h : R.transpose * R = S.transpose * S) : R = S := by
  have dR : IsUnit R.det := by
    rw [Matrix.det_of_isUpperTriangular hR]; exact (Finset.prod_pos fun i _ => hRd i).ne'.isUnit
  have dS : IsUnit S.det := by
    rw [Matrix.det_of_isUpperTriangular hS]; exact (Finset.prod_pos fun i _ => hSd i).ne'.isUnit
  have := Matrix.invertibleOfIsUnitDet R dR
  have hRi : R⁻¹.BlockTriangular id := by
    exact Matrix.blockTriangular_inv_of_blockTriangular hR
  set T := S * R⁻¹ with hT
  have tT : T.BlockTriangular id := hS.mul hRi
  have hRR : R * R⁻¹ = 1 := Matrix.mul_nonsing_inv R dR
  have hRR' : R⁻¹ * R = 1 := Matrix.nonsing_inv_mul R dR
  have o : T.transpose * T = 1 := by
    rw [hT, Matrix.transpose_mul, Matrix.mul_assoc, ← Matrix.mul_assoc S.transpose, ← h, Matrix.mul_assoc R.transpose, hRR, Matrix.mul_one, ← Matrix.transpose_mul, hRR, Matrix.transpose_one]
  have dpos : ∀ j, 0 < T j j := by
    intro j
    have e : S = T * R := by rw [hT, Matrix.mul_assoc, hRR', Matrix.mul_one]
    have : S j j = T j j * R j j := by
      rw [e, Matrix.mul_apply]
      refine (Finset.sum_eq_single j (fun k _ hk => ?_) (by simp)).trans rfl
      rcases lt_or_gt_of_ne hk with hlt | hgt
      · rw [tT hlt, zero_mul]
      · rw [hR hgt, mul_zero]
    have h1 := hSd j
    rw [this] at h1
    exact (mul_pos_iff_of_pos_right (hRd j)).1 h1
  have oT : T * T.transpose = 1 := mul_eq_one_comm.1 o
  have inv : T⁻¹ = T.transpose := Matrix.inv_eq_left_inv o
  have := Matrix.invertibleOfIsUnitDet T (Matrix.isUnit_det_of_left_inverse o)
  have tTi : T.transpose.BlockTriangular id := by
    rw [← inv]; exact Matrix.blockTriangular_inv_of_blockTriangular tT
  have diag : ∀ i j, i ≠ j → T i j = 0 := by
    intro i j hij
    rcases lt_or_gt_of_ne hij with hlt | hgt
    · exact tTi (i := j) (j := i) hlt
    · exact tT hgt
  have one : T = 1 := by
    ext i j
    by_cases hij : i = j
    · subst hij
      have e := congrFun (congrFun o i) i
      rw [Matrix.mul_apply, Matrix.one_apply_eq, Finset.sum_eq_single i (fun k _ hk => by rw [diag k i hk, mul_zero]) (by simp), Matrix.transpose_apply] at e
      rw [Matrix.one_apply_eq]
      nlinarith [dpos i]
    · rw [diag i j hij, Matrix.one_apply_ne hij]
  calc R = T * R := by rw [one, Matrix.one_mul]
    _ = S := by rw [hT, Matrix.mul_assoc, hRR', Matrix.mul_one]

/-- **C77** `decompose` finds the QR decomposition of `A`: if `A = q ρ` in any way with orthonormal columns in `q` and `ρ` upper triangular with positive diagonal, the call succeeds, the leading columns of
`Q` are `q` and `R` is `ρ`, whatever the output matrices contained before. -/
theorem C77_unique (cfg : Cfg) (A : Mat M N ℝ) (Q₀ : Mat M M ℝ) (R₀ : Mat N N ℝ) (q : Fin M → Fin N → ℝ) (ρ : Fin N → Fin N → ℝ)
    (horth : ∀ i j, ∑ r, q r i * q r j = if i = j then 1 else 0) (htri : ∀ i j, j < i → ρ i j = 0) (hpos : ∀ j, 0 < ρ j j) (hA : ∀ r j, A.get r j = ∑ i, q r i * ρ i j) :
    ∃ (hNM : N ≤ M) (Q : Mat M M ℝ) (R : Mat N N ℝ), decompose cfg A Q₀ R₀ = .ok (Q, R) ∧ (∀ r j, Q.get r (j.castLE hNM) = q r j) ∧ (∀ i j, R.get i j = ρ i j) := by
  let q' : Matrix (Fin M) (Fin N) ℝ := q
  let p' : Matrix (Fin N) (Fin N) ℝ := ρ
  have hp : p'.BlockTriangular id := fun i j h => htri i j h
  have hq : q'.transpose * q' = 1 := by
    ext i j
    rw [Matrix.mul_apply, Matrix.one_apply]
    exact horth i j
  have hmul : A.toMat = q' * p' := by
    ext r j
    rw [Matrix.mul_apply]
    exact hA r j
  have dp : IsUnit p'.det := by
    rw [Matrix.det_of_isUpperTriangular hp]; exact (Finset.prod_pos fun i _ => hpos i).ne'.isUnit
  have hind : LinearIndependent ℝ A.toMat.col := by
    rw [← Matrix.mulVec_injective_iff]
    refine Function.LeftInverse.injective (g := (p'⁻¹ * q'.transpose).mulVec) fun x => ?_
    rw [hmul, Matrix.mulVec_mulVec, Matrix.mul_assoc, ← Matrix.mul_assoc q'.transpose, hq, Matrix.one_mul, Matrix.nonsing_inv_mul _ dp, Matrix.one_mulVec]
  obtain ⟨hNM, Q, R, h1, h2, -, h4, h5, h6⟩ := C77_qr cfg A Q₀ R₀ hind
  let Q' : Matrix (Fin M) (Fin N) ℝ := fun r j => Q.get r (j.castLE hNM)
  have hQ : Q'.transpose * Q' = 1 := by
    ext i j
    rw [Matrix.mul_apply, Matrix.one_apply]
    exact h2 i j
  have hmul' : A.toMat = Q' * R.toMat := by
    ext r j
    rw [Matrix.mul_apply]
    exact h6 r j
  have gram : ∀ (X : Matrix (Fin M) (Fin N) ℝ) (Y : Matrix (Fin N) (Fin N) ℝ), X.transpose * X = 1 → A.toMat = X * Y → A.toMat.transpose * A.toMat = Y.transpose * Y := by
    intro X Y hX e
    rw [e, Matrix.transpose_mul, Matrix.mul_assoc, ← Matrix.mul_assoc X.transpose, hX, Matrix.one_mul]
  have hRt : R.toMat.BlockTriangular id := fun i j h => h4 i j h
  have hR : R.toMat = p' := tri_unique _ _ hRt hp h5 hpos ((gram _ _ hQ hmul').symm.trans (gram _ _ hq hmul))
  have hQq : Q' = q' := by
    have e : Q' * p' = q' * p' := by rw [← hmul, hmul', hR]
    calc Q' = Q' * p' * p'⁻¹ := by rw [Matrix.mul_assoc, Matrix.mul_nonsing_inv _ dp, Matrix.mul_one]
      _ = q' * p' * p'⁻¹ := by rw [e]
      _ = q' := by rw [Matrix.mul_assoc, Matrix.mul_nonsing_inv _ dp, Matrix.mul_one]
  exact ⟨hNM, Q, R, h1, fun r j => congrFun (congrFun hQq r) j, fun i j => congrFun (congrFun hR i) j⟩

/-- **C77** A matrix with orthonormal columns is its own `Q`, and an invertible upper triangular one with positive diagonal its own `R` (then `Q` is the identity). -/
theorem C77_fixed (cfg : Cfg) (A Q₀ R₀ : Mat M M ℝ) :
    (A.toMat.transpose * A.toMat = 1 → ∃ R, decompose cfg A Q₀ R₀ = .ok (A, R) ∧ R.toMat = 1) ∧
    ((∀ i j, j < i → A.get i j = 0) → (∀ j, 0 < A.get j j) → ∃ Q, decompose cfg A Q₀ R₀ = .ok (Q, A) ∧ Q.toMat = 1) := by
  constructor
  · intro h
    obtain ⟨_, Q, R, h1, h2, h3⟩ := C77_unique cfg A Q₀ R₀ A.get (fun i j => if i = j then 1 else 0)
      (fun i j => by have := congrFun (congrFun h i) j; rw [Matrix.mul_apply, Matrix.one_apply] at this; exact this)
      (fun i j hij => if_neg hij.ne') (fun j => by simp) (fun r j => by simp)
    have e : Q = A := Mat.ext fun r c => h2 r c
    subst e
    exact ⟨R, h1, by ext i j; rw [Matrix.one_apply]; exact h3 i j⟩
  · intro ht hd
    obtain ⟨_, Q, R, h1, h2, h3⟩ := C77_unique cfg A Q₀ R₀ (fun i j => if i = j then 1 else 0) A.get (fun i j => by simp [eq_comm]) ht hd (fun r j => by simp)
    have e : R = A := Mat.ext fun r c => h3 r c
    subst e
    exact ⟨Q, h1, by ext i j; rw [Matrix.one_apply]; exact h2 i j⟩

/-- A case: a reflection-free 2 × 2 rotation by a right angle times a triangular matrix. -/
example (cfg : Cfg) (Q₀ R₀ : Mat 2 2 ℝ) : ∃ Q R, decompose cfg (⟨#v[0, 2, -3, 1]⟩ : Mat 2 2 ℝ) Q₀ R₀ = .ok (Q, R) ∧ R.get 0 0 = 2 ∧ R.get 0 1 = 1 ∧ R.get 1 1 = 3 ∧ Q.get 1 0 = 1 ∧ Q.get 0 1 = -1 := by
  obtain ⟨_, Q, R, h1, h2, h3⟩ := C77_unique cfg (⟨#v[0, 2, -3, 1]⟩ : Mat 2 2 ℝ) Q₀ R₀ !![0, -1; 1, 0] !![2, 1; 0, 3]
    (by intro i j; fin_cases i <;> fin_cases j <;> simp [Fin.sum_univ_two]) (by intro i j; fin_cases i <;> fin_cases j <;> simp) (by intro j; fin_cases j <;> simp)
    (by intro i j; fin_cases i <;> fin_cases j <;> simp [Fin.sum_univ_two, Mat.get])
  refine ⟨Q, R, h1, ?_, ?_, ?_, ?_, ?_⟩
  · rw [h3]; simp
  · rw [h3]; simp
  · rw [h3]; simp
  · exact (h2 1 0).trans (by simp)
  · exact (h2 0 1).trans (by simp)

end Vmml
