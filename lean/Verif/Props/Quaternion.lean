import Verif.Model.Quaternion
import Verif.Proofs.MatrixLemmas
import Verif.Props.MatrixTransform
import Verif.Model.Rounding
import Mathlib.Algebra.Quaternion
import Mathlib.Tactic.LinearCombination
import Mathlib.Tactic.FieldSimp

/-!
# C51, C52, C53, C56 – C59: quaternions

The specification is Mathlib's quaternion algebra `ℍ[R]`.
-/

set_option linter.unusedSimpArgs false

namespace Vmml
open Quat
open scoped Quaternion
variable {α : Type}

/-- The mathematical quaternion `w + x i + y j + z k`. -/
def Spec.toH [CommRing α] (q : Quat α) : ℍ[α] := ⟨q.w, q.x, q.y, q.z⟩

/-- The pure quaternion of a vector. -/
def Spec.pureH [CommRing α] (v : Fin 3 → α) : ℍ[α] := ⟨0, v 0, v 1, v 2⟩

@[simp] theorem Spec.toH_re [CommRing α] (q : Quat α) : (Spec.toH q).re = q.w := rfl
@[simp] theorem Spec.toH_imI [CommRing α] (q : Quat α) : (Spec.toH q).imI = q.x := rfl
@[simp] theorem Spec.toH_imJ [CommRing α] (q : Quat α) : (Spec.toH q).imJ = q.y := rfl
@[simp] theorem Spec.toH_imK [CommRing α] (q : Quat α) : (Spec.toH q).imK = q.z := rfl
@[simp] theorem Spec.pureH_re [CommRing α] (v : Fin 3 → α) : (Spec.pureH v).re = 0 := rfl
@[simp] theorem Spec.pureH_imI [CommRing α] (v : Fin 3 → α) : (Spec.pureH v).imI = v 0 := rfl
@[simp] theorem Spec.pureH_imJ [CommRing α] (v : Fin 3 → α) : (Spec.pureH v).imJ = v 1 := rfl
@[simp] theorem Spec.pureH_imK [CommRing α] (v : Fin 3 → α) : (Spec.pureH v).imK = v 2 := rfl

theorem Spec.toH_inj [CommRing α] {p q : Quat α} (h : Spec.toH p = Spec.toH q) : p = q := by
  obtain ⟨x, y, z, w⟩ := p
  obtain ⟨x', y', z', w'⟩ := q
  simp only [Spec.toH, QuaternionAlgebra.mk.injEq] at h
  obtain ⟨rfl, rfl, rfl, rfl⟩ := h
  rfl

/-! ## C51 -/

/-- C51. `q *= r` and `q * r` compute the Hamilton product, also if `r` is `q` itself; for every commutative ring in which the factor
`0.5` halves doubles (in particular the reals and, the halved sum being even, the integers). -/
theorem C51_hamilton [CommRing α] (half : α → α) (hh : ∀ a, half (a + a) = a) (q : Quat α) (r : Arg α) (s : Quat α) :
    Spec.toH (q.mulAssign half r) = Spec.toH q * Spec.toH (r.read q) ∧ Spec.toH (q.mul half s) = Spec.toH q * Spec.toH s := by
  have key : ∀ (q : Quat α) (r : Arg α), Spec.toH (q.mulAssign half r) = Spec.toH q * Spec.toH (r.read q) := by
    intro q r
    generalize hr : r.read q = s
    have e : ∀ a b c d x y z w : α, half ((d - b) * (y - z) + ((d + b) * (y + z) + (a + c) * (x - w) + (a - c) * (x + w))) =
        d * y + b * z + a * x - c * w := by
      intro a b c d x y z w
      rw [← hh (d * y + b * z + a * x - c * w)]
      congr 1; ring
    ext <;> simp [mulAssign, hr, e] <;> ring
  exact ⟨key q r, key q (.other s)⟩

/-- C51. The algebraic laws: associativity, distributivity, neutral element, and (reals) multiplicativity of the norm. -/
theorem C51_laws [CommRing α] (half : α → α) (hh : ∀ a, half (a + a) = a) (p q r : Quat α) :
    (p.mul half q).mul half r = p.mul half (q.mul half r) ∧
    p.mul half (q.add r) = (p.mul half q).add (p.mul half r) ∧
    (p.add q).mul half r = (p.mul half r).add (q.mul half r) ∧
    Quat.IDENTITY.mul half p = p ∧ p.mul half Quat.IDENTITY = p ∧
    (p.mul half q).squaredAbs = p.squaredAbs * q.squaredAbs := by
  have hm : ∀ a b : Quat α, Spec.toH (a.mul half b) = Spec.toH a * Spec.toH b := fun a b => (C51_hamilton half hh a .self b).2
  have ha : ∀ a b : Quat α, Spec.toH (a.add b) = Spec.toH a + Spec.toH b := by
    intro a b; ext <;> simp [Quat.add, mk4]
  have h1 : Spec.toH (Quat.IDENTITY : Quat α) = 1 := by ext <;> simp [Quat.IDENTITY]
  refine ⟨?_, ?_, ?_, ?_, ?_, ?_⟩
  · apply Spec.toH_inj; simp only [hm, mul_assoc]
  · apply Spec.toH_inj; simp only [hm, ha, mul_add]
  · apply Spec.toH_inj; simp only [hm, ha, add_mul]
  · apply Spec.toH_inj; rw [hm, h1, one_mul]
  · apply Spec.toH_inj; rw [hm, h1, mul_one]
  · have hn : ∀ a : Quat α, a.squaredAbs = Quaternion.normSq (Spec.toH a) := by
      intro a; rw [Quaternion.normSq_def']; simp only [Quat.squaredAbs, Spec.toH_re, Spec.toH_imI, Spec.toH_imJ, Spec.toH_imK]; ring
    rw [hn, hn, hn, hm, map_mul]

/-- C51. `|q r| = |q| |r|` for the norm itself. -/
theorem C51_norm (p q : Quat ℝ) : (p.mul (fun a => (1 / 2) * a) q).abs = p.abs * q.abs := by
  have h := (C51_laws (fun a : ℝ => (1 / 2) * a) (by intro a; ring) p q p).2.2.2.2.2
  simp only [Quat.abs, sqrt_real, h]
  rw [Real.sqrt_mul]
  simp only [Quat.squaredAbs]
  nlinarith [mul_self_nonneg p.x, mul_self_nonneg p.y, mul_self_nonneg p.z, mul_self_nonneg p.w]

/-- The quaternion units: `i j = k`, `j i = -k`, and squaring in place. -/
example : (QUATERI : Quat Int).mul (fun a => a / 2) QUATERJ = QUATERK ∧ (QUATERJ : Quat Int).mul (fun a => a / 2) QUATERI = QUATERK.neg ∧
    (⟨1, 2, 3, 4⟩ : Quat Int).mulAssign (fun a => a / 2) .self = ⟨8, 16, 24, 2⟩ := by decide

/-! ## C52 -/

theorem squaredAbs_eq_zero (q : Quat ℝ) : q.squaredAbs = 0 ↔ q = ⟨0, 0, 0, 0⟩ := by
  obtain ⟨x, y, z, w⟩ := q
  simp only [Quat.squaredAbs, Quat.mk.injEq]
  constructor
  · intro h
    have hx := mul_self_nonneg x
    have hy := mul_self_nonneg y
    have hz := mul_self_nonneg z
    have hw := mul_self_nonneg w
    refine ⟨?_, ?_, ?_, ?_⟩ <;> apply mul_self_eq_zero.1 <;> linarith
  · rintro ⟨rfl, rfl, rfl, rfl⟩; ring

theorem squaredAbs_nonneg (q : Quat ℝ) : 0 ≤ q.squaredAbs := by
  simp only [Quat.squaredAbs]
  nlinarith [mul_self_nonneg q.x, mul_self_nonneg q.y, mul_self_nonneg q.z, mul_self_nonneg q.w]

/-- C52. `conjugate` and `get_conjugate` are the mathematical conjugate (negated vector part), an involution that reverses products. -/
theorem C52_conjugate [CommRing α] (half : α → α) (hh : ∀ a, half (a + a) = a) (p q : Quat α) :
    Spec.toH q.conjugate = star (Spec.toH q) ∧ q.getConjugate = q.conjugate ∧ q.conjugate.conjugate = q ∧
    (p.mul half q).conjugate = q.conjugate.mul half p.conjugate ∧
    Spec.toH (q.mul half q.conjugate) = (q.squaredAbs : ℍ[α]) := by
  have hm : ∀ a b : Quat α, Spec.toH (a.mul half b) = Spec.toH a * Spec.toH b := fun a b => (C51_hamilton half hh a .self b).2
  have hc : ∀ a : Quat α, Spec.toH a.conjugate = star (Spec.toH a) := by
    intro a; ext <;> simp [Quat.conjugate]
  refine ⟨hc q, rfl, ?_, ?_, ?_⟩
  · simp [Quat.conjugate]
  · apply Spec.toH_inj; simp only [hm, hc, star_mul]
  · rw [hm, hc]
    ext <;> simp [Quat.squaredAbs] <;> ring

/-- C52. `inverse` is the two-sided multiplicative inverse of every non-zero quaternion. -/
theorem C52_inverse (q : Quat ℝ) (hq : q ≠ ⟨0, 0, 0, 0⟩) :
    q.mul (fun a => (1 / 2) * a) q.inverse = Quat.IDENTITY ∧ q.inverse.mul (fun a => (1 / 2) * a) q = Quat.IDENTITY := by
  have hm : ∀ a b : Quat ℝ, Spec.toH (a.mul (fun a => (1 / 2) * a) b) = Spec.toH a * Spec.toH b :=
    fun a b => (C51_hamilton _ (by intro a; ring) a .self b).2
  have hn : q.squaredAbs ≠ 0 := fun h => hq ((squaredAbs_eq_zero q).1 h)
  have hn2 : q.w ^ 2 + q.x ^ 2 + q.y ^ 2 + q.z ^ 2 ≠ 0 := by
    intro h; apply hn; simp only [Quat.squaredAbs]; linarith
  constructor <;> apply Spec.toH_inj <;> rw [hm]
  all_goals
    simp only [Quat.squaredAbs] at hn
    ext <;> simp [Quat.inverse, Quat.conjugate, Quat.mulS, mk4, Quat.squaredAbs, Quat.IDENTITY] <;> ring_nf
    rw [← add_mul, ← add_mul, ← add_mul]
    exact mul_inv_cancel₀ hn2

/-- C52. `abs` is the norm; it is zero only for the zero quaternion; `normalize` of a non-zero quaternion gives the unit quaternion in the
same direction and returns the reciprocal of the old norm; the zero quaternion is left alone and 0 is returned. -/
theorem C52_normalize (q : Quat ℝ) :
    q.abs ^ 2 = q.x ^ 2 + q.y ^ 2 + q.z ^ 2 + q.w ^ 2 ∧ 0 ≤ q.abs ∧ (q.abs = 0 ↔ q = ⟨0, 0, 0, 0⟩) ∧
    (q ≠ ⟨0, 0, 0, 0⟩ → q.normalize.1.abs = 1 ∧ q = q.normalize.1.mulS q.abs ∧ q.normalize.2 * q.abs = 1) ∧
    (q = ⟨0, 0, 0, 0⟩ → q.normalize = (q, 0)) ∧ q.getNormalized = q.normalize.1 := by
  have h0 := squaredAbs_nonneg q
  have hz : q.abs = 0 ↔ q = ⟨0, 0, 0, 0⟩ := by
    rw [Quat.abs, sqrt_real, Real.sqrt_eq_zero h0, squaredAbs_eq_zero]
  have hsq : q.abs * q.abs = q.squaredAbs := Real.mul_self_sqrt h0
  refine ⟨?_, Real.sqrt_nonneg _, hz, ?_, ?_, rfl⟩
  · rw [pow_two, hsq, Quat.squaredAbs]; ring
  · intro hq
    have hne : q.abs ≠ 0 := fun h => hq (hz.1 h)
    have hpos : 0 < q.abs := lt_of_le_of_ne (Real.sqrt_nonneg _) (Ne.symm hne)
    have hbeq : (q.abs == 0) = false := by simpa using hne
    have hN : q.normalize = (q.mulAssignS (1 / q.abs), 1 / q.abs) := by simp [Quat.normalize, hbeq]
    rw [hN]
    refine ⟨?_, ?_, ?_⟩
    · have : (q.mulAssignS (1 / q.abs)).squaredAbs = 1 := by
        have e : (q.mulAssignS (1 / q.abs)).squaredAbs = q.squaredAbs * (1 / q.abs) ^ 2 := by
          simp only [Quat.mulAssignS, Quat.squaredAbs]; ring
        rw [e, ← hsq]; field_simp
      rw [Quat.abs, this, sqrt_real, Real.sqrt_one]
    · obtain ⟨x, y, z, w⟩ := q
      simp only [Quat.mulAssignS, Quat.mulS, mk4, Quat.mk.injEq]
      refine ⟨?_, ?_, ?_, ?_⟩ <;> field_simp
    · field_simp
  · intro hq
    have : q.abs = 0 := hz.2 hq
    simp [Quat.normalize, this]

example : (⟨1, 1, 1, 1⟩ : Quat ℝ) ≠ ⟨0, 0, 0, 0⟩ := by simp

/-! ## C53 -/

/-- The closed form of the rotation matrix. -/
def rotMat [CommRing α] (q : Quat α) : Matrix (Fin 3) (Fin 3) α :=
  !![q.w * q.w + q.x * q.x - q.y * q.y - q.z * q.z, 2 * (q.x * q.y - q.w * q.z), 2 * (q.x * q.z + q.w * q.y);
     2 * (q.x * q.y + q.w * q.z), q.w * q.w - q.x * q.x + q.y * q.y - q.z * q.z, 2 * (q.y * q.z - q.w * q.x);
     2 * (q.x * q.z - q.w * q.y), 2 * (q.y * q.z + q.w * q.x), q.w * q.w - q.x * q.x - q.y * q.y + q.z * q.z]

/-- The upper left 3x3 block of a matrix with at least three rows. -/
def Spec.block {D : Nat} (hD : 3 ≤ D) (a : Matrix (Fin D) (Fin D) α) : Matrix (Fin 3) (Fin 3) α :=
  a.submatrix (Fin.castLE hD) (Fin.castLE hD)

theorem getRotationMatrixTo_eq [CommRing α] {D : Nat} (hD : 3 ≤ D) (cfg : Cfg) (q : Quat α) (m : Mat D D α) :
    ∃ r, q.getRotationMatrixTo cfg m = .ok r ∧ Spec.block hD r.toMat = rotMat q ∧
      ∀ i j : Fin D, (3 ≤ i.1 ∨ 3 ≤ j.1) → r.toMat i j = m.toMat i j := by
  have h0 : 0 < D := by omega
  have h1 : 1 < D := by omega
  have h2 : 2 < D := by omega
  unfold Quat.getRotationMatrixTo
  simp only [Mat.atSet_lt cfg _ _ h0 h0, Mat.atSet_lt cfg _ _ h0 h1, Mat.atSet_lt cfg _ _ h0 h2, Mat.atSet_lt cfg _ _ h1 h0,
    Mat.atSet_lt cfg _ _ h1 h1, Mat.atSet_lt cfg _ _ h1 h2, Mat.atSet_lt cfg _ _ h2 h0, Mat.atSet_lt cfg _ _ h2 h1,
    Mat.atSet_lt cfg _ _ h2 h2, bind_ok]
  refine ⟨_, rfl, ?_, ?_⟩
  · ext r c
    fin_cases r <;> fin_cases c <;>
      simp [Spec.block, rotMat, Mat.get_put, Fin.ext_iff] <;> ring
  · intro i j hij
    simp only [Mat.toMat_apply, Mat.get_put, Fin.ext_iff]
    repeat rw [if_neg (by omega)]

theorem getRotationMatrix_eq [CommRing α] (cfg : Cfg) (q : Quat α) :
    ∃ r, q.getRotationMatrix cfg = .ok r ∧ r.toMat = rotMat q := by
  unfold Quat.getRotationMatrix
  rw [Mat.ctor_eq, bind_ok]
  obtain ⟨r, h1, h2, -⟩ := getRotationMatrixTo_eq le_rfl cfg q (Mat.ofFn fun r c => if 3 = 3 ∧ r.1 = c.1 then 1 else 0)
  exact ⟨r, h1, h2⟩

theorem rotMat_orthogonal [CommRing α] (q : Quat α) : rotMat q * (rotMat q).transpose = (q.squaredAbs ^ 2) • (1 : Matrix (Fin 3) (Fin 3) α) := by
  ext r c
  fin_cases r <;> fin_cases c <;>
    simp [rotMat, Matrix.mul_apply, Fin.sum_univ_three, Quat.squaredAbs] <;> ring

theorem rotMat_det [CommRing α] (q : Quat α) : (rotMat q).det = q.squaredAbs ^ 3 := by
  rw [Matrix.det_fin_three]
  simp [rotMat, Quat.squaredAbs]
  ring

/-- C53. The matrix of a unit quaternion is a rotation (orthogonal, determinant 1), and applying it to `v` is the conjugation
`q v q*` of the pure quaternion `v`. -/
theorem C53_rotation (cfg : Cfg) (q : Quat ℝ) (hq : q.abs = 1) :
    ∃ R, q.getRotationMatrix cfg = .ok R ∧ R.toMat * R.toMat.transpose = 1 ∧ R.toMat.det = 1 ∧
      ∀ v, Spec.pureH (R.toMat.mulVec v) = Spec.toH q * Spec.pureH v * star (Spec.toH q) := by
  obtain ⟨R, h1, h2⟩ := getRotationMatrix_eq cfg q
  have hs : q.squaredAbs = 1 := by
    have := Real.mul_self_sqrt (squaredAbs_nonneg q)
    rw [show Real.sqrt q.squaredAbs = 1 from hq] at this
    linarith
  refine ⟨R, h1, ?_, ?_, ?_⟩
  · rw [h2, rotMat_orthogonal, hs]; simp
  · rw [h2, rotMat_det, hs]; simp
  · intro v
    rw [h2]
    ext <;> simp [rotMat, Matrix.mulVec, dotProduct, Fin.sum_univ_three] <;> ring

example : (⟨0, 0, 0, 1⟩ : Quat ℝ).abs = 1 := by simp [Quat.abs, Quat.squaredAbs]

/-- C53. `R( p q ) = R( p ) R( q )`, `R( -q ) = R( q )`, `R( q* )` is the transpose, for all quaternions. -/
theorem C53_homomorphism [CommRing α] (half : α → α) (hh : ∀ a, half (a + a) = a) (cfg : Cfg) (p q : Quat α) :
    ∃ P Q PQ C, p.getRotationMatrix cfg = .ok P ∧ q.getRotationMatrix cfg = .ok Q ∧ (p.mul half q).getRotationMatrix cfg = .ok PQ ∧
      q.conjugate.getRotationMatrix cfg = .ok C ∧ q.neg.getRotationMatrix cfg = .ok Q ∧
      PQ.toMat = P.toMat * Q.toMat ∧ C.toMat = Q.toMat.transpose := by
  obtain ⟨P, hP, hP'⟩ := getRotationMatrix_eq cfg p
  obtain ⟨Q, hQ, hQ'⟩ := getRotationMatrix_eq cfg q
  obtain ⟨S, hS, hS'⟩ := getRotationMatrix_eq cfg (p.mul half q)
  obtain ⟨C, hC, hC'⟩ := getRotationMatrix_eq cfg q.conjugate
  obtain ⟨T, hT, hT'⟩ := getRotationMatrix_eq cfg q.neg
  refine ⟨P, Q, S, C, hP, hQ, hS, hC, ?_, ?_, ?_⟩
  · rw [hT]
    congr 1
    have : T.toMat = Q.toMat := by
      rw [hT', hQ']; ext r c; fin_cases r <;> fin_cases c <;> simp [rotMat, Quat.neg, mk4]
    ext r c
    exact congrFun (congrFun this r) c
  · have hm := (C51_hamilton half hh p .self q).2
    have hw : (p.mul half q).w = p.w * q.w - p.x * q.x - p.y * q.y - p.z * q.z := by
      have := congrArg QuaternionAlgebra.re hm; simpa using this
    have hx : (p.mul half q).x = p.w * q.x + p.x * q.w + p.y * q.z - p.z * q.y := by
      have := congrArg QuaternionAlgebra.imI hm; simpa using this
    have hy : (p.mul half q).y = p.w * q.y - p.x * q.z + p.y * q.w + p.z * q.x := by
      have := congrArg QuaternionAlgebra.imJ hm; simpa using this
    have hz : (p.mul half q).z = p.w * q.z + p.x * q.y - p.y * q.x + p.z * q.w := by
      have := congrArg QuaternionAlgebra.imK hm; simpa using this
    rw [hS', hP', hQ']
    ext r c
    fin_cases r <;> fin_cases c <;>
      simp [rotMat, Matrix.mul_apply, Fin.sum_univ_three, hw, hx, hy, hz] <;> ring
  · rw [hC', hQ']
    ext r c
    fin_cases r <;> fin_cases c <;> simp [rotMat, Quat.conjugate] <;> ring

/-- C53. The quaternion `( n sin( θ/2 ), cos( θ/2 ) )` built from a unit axis gives the rotation by `θ` about `n` (the one
`Matrix::rotate( θ, n )` sets, C36). -/
theorem C53_axis_angle (cfg : Cfg) (n : Vec 3 ℝ) (hn : Spec.IsUnit3 fun i => n[i]) (θ : ℝ) :
    ∃ R, (ofVec #v[n[0] * Real.sin (θ / 2), n[1] * Real.sin (θ / 2), n[2] * Real.sin (θ / 2)] (Real.cos (θ / 2))).getRotationMatrix cfg =
      .ok R ∧ R.toMat = Spec.block3 (Spec.rotAxis (fun i => n[i]) θ) := by
  obtain ⟨R, h1, h2⟩ := getRotationMatrix_eq cfg
    (ofVec #v[n[0] * Real.sin (θ / 2), n[1] * Real.sin (θ / 2), n[2] * Real.sin (θ / 2)] (Real.cos (θ / 2)))
  refine ⟨R, h1, ?_⟩
  rw [h2]
  have hu : n[0] ^ 2 + n[1] ^ 2 + n[2] ^ 2 = 1 := hn
  have hc : Real.cos θ = Real.cos (θ / 2) ^ 2 - Real.sin (θ / 2) ^ 2 := by
    have := Real.cos_sq' (θ / 2)
    have h2 := Real.cos_two_mul (θ / 2)
    rw [show 2 * (θ / 2) = θ by ring] at h2
    linarith [Real.sin_sq_add_cos_sq (θ / 2)]
  have hs : Real.sin θ = 2 * Real.sin (θ / 2) * Real.cos (θ / 2) := by
    have h2 := Real.sin_two_mul (θ / 2)
    rwa [show 2 * (θ / 2) = θ by ring] at h2
  have h1 := Real.sin_sq_add_cos_sq (θ / 2)
  generalize Real.cos (θ / 2) = c at *
  generalize Real.sin (θ / 2) = s at *
  ext r k
  fin_cases r <;> fin_cases k <;>
    simp [rotMat, ofVec, Spec.block3, Spec.rotAxis, Spec.rodrigues, hc, hs, Pi.single_apply]
  · linear_combination (n[0] * n[0]) * h1 - s ^ 2 * hu
  · linear_combination (n[0] * n[1]) * h1
  · linear_combination (n[0] * n[2]) * h1
  · linear_combination (n[0] * n[1]) * h1
  · linear_combination (n[1] * n[1]) * h1 - s ^ 2 * hu
  · linear_combination (n[1] * n[2]) * h1
  · linear_combination (n[0] * n[2]) * h1
  · linear_combination (n[1] * n[2]) * h1
  · linear_combination (n[2] * n[2]) * h1 - s ^ 2 * hu

/-- C53. The form that fills a given `D x D` matrix (`D >= 3`) writes the rotation into the upper left block and nothing else. -/
theorem C53_embedded [CommRing α] {D : Nat} (hD : 3 ≤ D) (cfg : Cfg) (q : Quat α) (m : Mat D D α) :
    ∃ r R, q.getRotationMatrixTo cfg m = .ok r ∧ q.getRotationMatrix cfg = .ok R ∧ Spec.block hD r.toMat = R.toMat ∧
      ∀ i j : Fin D, (3 ≤ i.1 ∨ 3 ≤ j.1) → r.toMat i j = m.toMat i j := by
  obtain ⟨r, h1, h2, h3⟩ := getRotationMatrixTo_eq hD cfg q m
  obtain ⟨R, h4, h5⟩ := getRotationMatrix_eq cfg q
  exact ⟨r, R, h1, h4, by rw [h2, h5], h3⟩

/-! ## C56 -/

/-- C56, proved part: `q + v`, `q -= v` and `q *= v` treat `v` as the pure quaternion `( v, 0 )`. (Missing: `q - v`, `q * v` and `q += v`, which
do not, see the `_violated` theorems.) -/
theorem C56_vector_ops_partial [CommRing α] (q : Quat α) (v : Vec 3 α) :
    Spec.toH (q.addV v) = Spec.toH q + Spec.pureH (fun i => v[i]) ∧
    Spec.toH (q.subAssignV v) = Spec.toH q - Spec.pureH (fun i => v[i]) ∧
    Spec.toH (q.mulAssignV v) = Spec.toH q * Spec.pureH (fun i => v[i]) := by
  refine ⟨?_, ?_, ?_⟩ <;> ext <;> simp [Quat.addV, Quat.subAssignV, Quat.mulAssignV, mk4] <;> ring

/-- C56 fails for `q - v` and `q * v`: the components of the correct result `( x, y, z, w )` come out as `( w, x, y, z )`, for all `q` and
`v`; so the result is correct only if all its components are equal. -/
theorem C56_rotated_components_violated [CommRing α] (q : Quat α) (v : Vec 3 α) :
    (q.subV v).x = (q.subAssignV v).w ∧ (q.subV v).y = (q.subAssignV v).x ∧ (q.subV v).z = (q.subAssignV v).y ∧
      (q.subV v).w = (q.subAssignV v).z ∧
    (q.mulV v).x = (q.mulAssignV v).w ∧ (q.mulV v).y = (q.mulAssignV v).x ∧ (q.mulV v).z = (q.mulAssignV v).y ∧
      (q.mulV v).w = (q.mulAssignV v).z := ⟨rfl, rfl, rfl, rfl, rfl, rfl, rfl, rfl⟩

/-- C56 fails for `q += v`: it agrees with `q + v` exactly if the last component of `v` is zero. -/
theorem C56_add_assign_violated [CommRing α] (q : Quat α) (v : Vec 3 α) : q.addAssignV v = q.addV v ↔ v[2] = 0 := by
  simp only [Quat.addAssignV, Quat.addV, mk4, Quat.mk.injEq, add_assoc, true_and, and_true]
  constructor
  · rintro ⟨-, h⟩; simpa using h.symm
  · intro h; simp [h]

/-- Concrete wrong results. -/
theorem C56_witness_violated :
    (⟨0, 0, 0, 1⟩ : Quat Int).subV #v[0, 0, 0] = ⟨1, 0, 0, 0⟩ ∧
    (⟨0, 0, 0, 1⟩ : Quat Int).mulV #v[1, 0, 0] = ⟨0, 1, 0, 0⟩ ∧
    (⟨0, 0, 0, 1⟩ : Quat Int).addAssignV #v[0, 0, 1] = ⟨0, 1, 0, 1⟩ := by decide

/-! ## C57 -/

/-- C57. Additive and scalar operations are those of the quaternion algebra; the in-place forms agree, also for `q += q` and
`q -= q`. -/
theorem C57_componentwise [CommRing α] (q r : Quat α) (a : α) :
    Spec.toH (q.add r) = Spec.toH q + Spec.toH r ∧ Spec.toH (q.sub r) = Spec.toH q - Spec.toH r ∧ Spec.toH q.neg = -Spec.toH q ∧
    Spec.toH (q.mulS a) = a • Spec.toH q ∧
    q.addAssign (.other r) = q.add r ∧ q.addAssign .self = q.add q ∧
    q.subAssign (.other r) = q.sub r ∧ q.subAssign .self = q.sub q ∧ q.mulAssignS a = q.mulS a := by
  refine ⟨?_, ?_, ?_, ?_, rfl, rfl, rfl, rfl, rfl⟩ <;> ext <;> simp [Quat.add, Quat.sub, Quat.neg, Quat.mulS, mk4, mul_comm]

/-- C57. Division by a non-zero scalar is multiplication by its inverse and never fails; it undoes the multiplication. -/
theorem C57_division (cfg : Cfg) (q : Quat ℝ) (a : ℝ) (ha : a ≠ 0) :
    ∃ r, q.divS cfg a = .ok r ∧ q.divAssignS cfg a = .ok r ∧ Spec.toH r = a⁻¹ • Spec.toH q ∧ (q.mulS a).divS cfg a = .ok q := by
  have h : (a == 0) = false := by simpa using ha
  refine ⟨q.mulS (1 / a), ?_, ?_, ?_, ?_⟩
  · simp [Quat.divS, h, Quat.mulS]
  · simp [Quat.divAssignS, h, Quat.mulAssignS, Quat.mulS, mk4]
  · ext <;> simp [Quat.mulS, mk4, mul_comm]
  · simp [Quat.divS, h, Quat.mulS, mk4, mul_assoc, ha]

/-- C57. Division by zero throws with `VMMLIB_THROW_EXCEPTIONS`, aborts in a debug build without exceptions. -/
theorem C57_division_by_zero (cfg : Cfg) (q : Quat ℝ) :
    (cfg.throws = true → q.divS cfg 0 = .error .thrown ∧ q.divAssignS cfg 0 = .error .thrown) ∧
    (cfg.throws = false → cfg.ndebug = false → q.divS cfg 0 = .error .aborted ∧ q.divAssignS cfg 0 = .error .aborted) := by
  constructor
  · intro h; simp [Quat.divS, Quat.divAssignS, vmmlibError, h]
  · intro h h'; simp [Quat.divS, Quat.divAssignS, vmmlibError, h, h']

/-- C57. `dot` is the Euclidean inner product of the four components: bilinear and symmetric, with `dot( q, q ) = |q|²`, and it is
the scalar part of `p q*`. -/
theorem C57_dot [CommRing α] (p q r : Quat α) (a : α) :
    p.dot q = q.dot p ∧ p.dot (q.add r) = p.dot q + p.dot r ∧ (p.mulS a).dot q = a * p.dot q ∧ q.dot q = q.squaredAbs ∧
    p.dot q = (Spec.toH p * star (Spec.toH q)).re := by
  refine ⟨?_, ?_, ?_, ?_, ?_⟩ <;> simp [Quat.dot, Quat.add, Quat.mulS, mk4, Quat.squaredAbs] <;> ring

/-! ## C58 -/

/-- C58, proved part: `cross` is the cross product of the vector parts. (Missing: the `normal` helpers, which do not compute a
normal, see `C58_normal_violated`.) -/
theorem C58_cross_partial [CommRing α] (p q : Quat α) :
    p.cross q = Vec.cross #v[p.x, p.y, p.z] #v[q.x, q.y, q.z] := by
  simp [Quat.cross, Vec.cross]

/-- C58 fails for all arguments: `normal( aa, bb, cc )` returns the identity quaternion `( 0, 0, 0, 1 )` whatever the points are, and
`normal( aa, bb, cc, dd )` only normalises the object (the cross products are dropped). -/
theorem C58_normal_violated (self aa bb cc dd : Quat ℝ) :
    self.normal3 aa bb cc = Quat.IDENTITY ∧ self.normal4 aa bb cc dd = self.getNormalized := by
  refine ⟨?_, rfl⟩
  have h : (⟨0, 0, 0, 1⟩ : Quat ℝ).abs = 1 := by simp [Quat.abs, Quat.squaredAbs]
  simp [Quat.normal3, Quat.normal4, Quat.normalize, h, Quat.mulAssignS, Quat.ctor, Quat.IDENTITY]

/-! ## C59 -/

/-- C59. With a lawful element comparison `==` is equality of all components, `!=` its negation; hence an equivalence relation. The
comparison with a scalar is that with the real quaternion. -/
theorem C59_equality [Zero α] [DecidableEq α] (p q : Quat α) (a : α) :
    (p.eq q = true ↔ p = q) ∧ (p.ne q = true ↔ p ≠ q) ∧ (p.eqS a = true ↔ p = ⟨0, 0, 0, a⟩) ∧ (p.neS a = true ↔ p ≠ ⟨0, 0, 0, a⟩) := by
  obtain ⟨x, y, z, w⟩ := p
  obtain ⟨x', y', z', w'⟩ := q
  simp only [Quat.eq, Quat.ne, Quat.eqS, Quat.neS, Quat.mk.injEq, Bool.and_eq_true, beq_iff_eq, Bool.not_eq_true', ne_eq,
    Bool.or_eq_true, bne_iff_ne, ← Bool.not_eq_true]
  tauto

/-- C59. For `T = float`, `is_akin( a, delta )` holds exactly if no component differs by more than `delta`; symmetric, and reflexive for
`delta >= 0`. -/
theorem C59_is_akin (p q : Quat ℝ) (δ : ℝ) :
    (p.isAkin id q δ = true ↔ |p.x - q.x| ≤ δ ∧ |p.y - q.y| ≤ δ ∧ |p.z - q.z| ≤ δ ∧ |p.w - q.w| ≤ δ) ∧
    p.isAkin id q δ = q.isAkin id p δ ∧ (0 ≤ δ → p.isAkin id p δ = true) := by
  have key : ∀ p q : Quat ℝ, p.isAkin id q δ = true ↔ |p.x - q.x| ≤ δ ∧ |p.y - q.y| ≤ δ ∧ |p.z - q.z| ≤ δ ∧ |p.w - q.w| ≤ δ := by
    intro p q
    simp only [Quat.isAkin, id, fabs_real, Bool.if_false_left, Bool.and_true, Bool.not_eq_true', Bool.or_eq_false_iff, decide_eq_false_iff_not,
      not_lt, Bool.or_eq_true, decide_eq_true_eq, not_or]
    tauto
  refine ⟨key p q, ?_, ?_⟩
  · rw [Bool.eq_iff_iff, key, key]
    simp only [abs_sub_comm]
  · intro h; rw [key]; simpa using h

/-- C59. For wider `T` the differences are narrowed to `float` (relative error at most `u`) before they are compared: every component within
`delta / ( 1 + u )` is enough, and every component within `delta / ( 1 - u )` is necessary. -/
theorem C59_is_akin_double {u : ℝ} (ρ : Rounding u) (p q : Quat ℝ) (δ : ℝ) :
    (((1 + u) * |p.x - q.x| ≤ δ ∧ (1 + u) * |p.y - q.y| ≤ δ ∧ (1 + u) * |p.z - q.z| ≤ δ ∧ (1 + u) * |p.w - q.w| ≤ δ) →
      p.isAkin ρ.rnd q δ = true) ∧
    (p.isAkin ρ.rnd q δ = true →
      (1 - u) * |p.x - q.x| ≤ δ ∧ (1 - u) * |p.y - q.y| ≤ δ ∧ (1 - u) * |p.z - q.z| ≤ δ ∧ (1 - u) * |p.w - q.w| ≤ δ) := by
  have key : p.isAkin ρ.rnd q δ = true ↔ |ρ.rnd (p.x - q.x)| ≤ δ ∧ |ρ.rnd (p.y - q.y)| ≤ δ ∧ |ρ.rnd (p.z - q.z)| ≤ δ ∧
      |ρ.rnd (p.w - q.w)| ≤ δ := by
    simp only [Quat.isAkin, fabs_real, Bool.if_false_left, Bool.and_true, Bool.not_eq_true', Bool.or_eq_false_iff, decide_eq_false_iff_not,
      not_lt, Bool.or_eq_true, decide_eq_true_eq, not_or]
    tauto
  have up : ∀ d, |ρ.rnd d| ≤ (1 + u) * |d| := by
    intro d
    have h1 := ρ.err d
    have h2 := abs_add_le (ρ.rnd d - d) d
    rw [sub_add_cancel] at h2
    linarith
  have lo : ∀ d, (1 - u) * |d| ≤ |ρ.rnd d| := by
    intro d
    have h1 := ρ.err d
    have h2 := abs_add_le (d - ρ.rnd d) (ρ.rnd d)
    rw [sub_add_cancel, abs_sub_comm] at h2
    linarith
  rw [key]
  refine ⟨fun ⟨a, b, c, d⟩ => ⟨(up _).trans a, (up _).trans b, (up _).trans c, (up _).trans d⟩,
    fun ⟨a, b, c, d⟩ => ⟨(lo _).trans a, (lo _).trans b, (lo _).trans c, (lo _).trans d⟩⟩

/-- C59. For `double`, `is_akin` accepts quaternions whose components differ by *more* than `delta`: `1 + 2^-30` narrows to the `float` 1. -/
theorem C59_is_akin_double_violated :
    ∃ (p q : Quat ℝ) (δ : ℝ), δ < |p.x - q.x| ∧ p.isAkin (binRounding 23).rnd q δ = true := by
  have h : Int.log 2 (1 + (2 : ℝ)⁻¹ ^ 30) = 0 := by
    have h1 : (2 : ℝ) ^ (0 : Int) ≤ 1 + (2 : ℝ)⁻¹ ^ 30 := by norm_num
    have h2 : 1 + (2 : ℝ)⁻¹ ^ 30 < (2 : ℝ) ^ ((0 : Int) + 1) := by norm_num
    have a := (Int.zpow_le_iff_le_log (b := 2) (by norm_num) (x := 0) (r := 1 + (2 : ℝ)⁻¹ ^ 30) (by norm_num)).1 (by exact_mod_cast h1)
    have b := (Int.lt_zpow_iff_log_lt (b := 2) (by norm_num) (x := 0 + 1) (r := 1 + (2 : ℝ)⁻¹ ^ 30) (by norm_num)).1 (by exact_mod_cast h2)
    omega
  have hr : roundBin 23 (1 + (2 : ℝ)⁻¹ ^ 30) = 1 := by
    unfold roundBin
    rw [abs_of_pos (by norm_num), h]
    norm_num [round_eq]
  have h0 : roundBin 23 0 = 0 := by simp [roundBin]
  refine ⟨⟨1 + (2 : ℝ)⁻¹ ^ 30, 0, 0, 0⟩, ⟨0, 0, 0, 0⟩, 1, ?_, ?_⟩
  · norm_num
  · simp only [Quat.isAkin, fabs_real, binRounding, sub_zero, hr, h0]
    norm_num

example : (⟨1, 2, 3, 4⟩ : Quat Int).eq ⟨1, 2, 3, 4⟩ = true ∧ (⟨1, 2, 3, 4⟩ : Quat Int).eq ⟨1, 2, 3, 5⟩ = false := by decide

/-! ## C89: construction and constants -/

/-- C89. The constructors and setters store the components they are given, and `zero`, `identity`, assignment and the setters do not depend on the
previous value of the object. The default-constructed quaternion is the identity. -/
theorem C89_construction [Zero α] [One α] (self : Quat α) (a b c d : α) (v : Vec 3 α) (u : Vec 4 α) :
    (Quat.ctor : Quat α) = Quat.IDENTITY ∧ self.identity = Quat.ctor ∧ self.zero = ⟨0, 0, 0, 0⟩ ∧
    ((Quat.mk4 a b c d).x = a ∧ (Quat.mk4 a b c d).y = b ∧ (Quat.mk4 a b c d).z = c ∧ (Quat.mk4 a b c d).w = d) ∧
    self.set4 a b c d = Quat.mk4 a b c d ∧
    ((self.setVec v d).x = v[0] ∧ (self.setVec v d).y = v[1] ∧ (self.setVec v d).z = v[2] ∧ (self.setVec v d).w = d) ∧
    Quat.ofVec v d = self.setVec v d ∧ Quat.ofVec0 v = self.setVec v 0 ∧
    (self.assignVec u).toVec = u ∧ self.assignVec (Quat.toVec ⟨a, b, c, d⟩) = ⟨a, b, c, d⟩ := by
  refine ⟨rfl, rfl, rfl, ⟨rfl, rfl, rfl, rfl⟩, rfl, ⟨rfl, rfl, rfl, rfl⟩, rfl, rfl, ?_, rfl⟩
  apply Vector.ext
  intro i hi
  have : i = 0 ∨ i = 1 ∨ i = 2 ∨ i = 3 := by omega
  rcases this with rfl | rfl | rfl | rfl <;> rfl

/-- C89. The header declares `set( ww, xx, yy, zz )`, scalar part first, but the first argument becomes `x` and the last one `w`: a caller who follows
the declaration and asks for the real quaternion `w` gets a multiple of the unit `i`. -/
theorem C89_set_violated (self : Quat ℝ) (w : ℝ) (hw : w ≠ 0) :
    self.set4 w 0 0 0 ≠ ⟨0, 0, 0, w⟩ ∧ self.set4 w 0 0 0 = Quat.QUATERI.mulS w := by
  refine ⟨?_, ?_⟩
  · intro h
    have := congrArg Quat.x h
    exact hw this
  · simp [Quat.set4, Quat.QUATERI, Quat.mulS, Quat.mk4]

/-- C89. Hamilton's relations between the exported units, for the actual product: `i² = j² = k² = ijk = -1`, `ij = k`, `jk = i`, `ki = j`, the reverse
products are the negatives (that `IDENTITY` is neutral is part of `C51_laws`). `half` is the multiplication by 0.5. -/
theorem C89_units {R : Type} [CommRing R] (half : R → R) (hh : ∀ a, half (a + a) = a) :
    let i : Quat R := Quat.QUATERI
    let j : Quat R := Quat.QUATERJ
    let k : Quat R := Quat.QUATERK
    let one : Quat R := Quat.IDENTITY
    i.mul half i = one.neg ∧ j.mul half j = one.neg ∧ k.mul half k = one.neg ∧ (i.mul half j).mul half k = one.neg ∧
    i.mul half j = k ∧ j.mul half k = i ∧ k.mul half i = j ∧ j.mul half i = k.neg ∧ k.mul half j = i.neg ∧ i.mul half k = j.neg := by
  have hm : ∀ a b : Quat R, Spec.toH (a.mul half b) = Spec.toH a * Spec.toH b := fun a b => (C51_hamilton half hh a .self b).2
  refine ⟨?_, ?_, ?_, ?_, ?_, ?_, ?_, ?_, ?_, ?_⟩ <;> apply Spec.toH_inj <;> simp only [hm] <;> ext <;>
    simp [Quat.QUATERI, Quat.QUATERJ, Quat.QUATERK, Quat.IDENTITY, Quat.neg, Quat.mk4]

end Vmml
