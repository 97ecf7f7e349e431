import Verif.Props.Quaternion
import Verif.Props.VectorOrder
import Mathlib.Analysis.SpecialFunctions.Complex.Arg

/-!
# C54, C55: quaternion from a rotation matrix, spherical interpolation
-/

set_option linter.unusedSimpArgs false

namespace Vmml
open Quat
variable {D : Nat}

/-! ## C54 -/

theorem pivot_scale (t v : ℝ) (ht : t ≠ 0) :
    (4 * t * v) * (1 / (1 + 1) / Real.sqrt (4 * t * t)) = v * (if 0 < t then 1 else -1) ∧
    1 / ((1 + 1) * (1 + 1)) / (1 / (1 + 1) / Real.sqrt (4 * t * t)) = t * (if 0 < t then 1 else -1) := by
  have e : Real.sqrt (4 * t * t) = 2 * |t| := by
    rw [show 4 * t * t = (2 * |t|) ^ 2 by rw [mul_pow, sq_abs]; ring]
    exact Real.sqrt_sq (by positivity)
  rw [e]
  split_ifs with h
  · rw [abs_of_pos h]
    constructor <;> field_simp <;> ring
  · have hn : t < 0 := lt_of_le_of_ne (not_lt.1 h) ht
    rw [abs_of_neg hn]
    constructor <;> field_simp <;> ring

/-- Which case of `set( matrix )` applies, and what it computes, for the matrix of a unit quaternion. -/
theorem setMatrix_eq (hD : 3 ≤ D) (cfg : Cfg) (eps : ℝ) (h0 : 0 ≤ eps) (h4 : eps < 4) (self q : Quat ℝ) (m : Mat D D ℝ)
    (hq : q.squaredAbs = 1) (hm : Spec.block hD m.toMat = rotMat q) :
    (eps < 4 * q.w ^ 2 → ∃ σ : ℝ, (σ = 1 ∨ σ = -1) ∧ self.setMatrix cfg eps m = .ok (q.mulS σ)) ∧
    (4 * q.w ^ 2 ≤ eps → (∃ σ : ℝ, (σ = 1 ∨ σ = -1) ∧
      ((q.x ^ 2 < q.y ^ 2 ∧ q.z ^ 2 ≤ q.y ^ 2) → self.setMatrix cfg eps m = .ok (q.mulS σ)) ∧
      (¬ (q.x ^ 2 < q.y ^ 2 ∧ q.z ^ 2 ≤ q.y ^ 2) → (q.x ≠ 0 ∨ q.z ≠ 0) ∧
        self.setMatrix cfg eps m = .ok ((⟨q.x, q.y, q.z, -q.w⟩ : Quat ℝ).mulS σ)))) := by
  have hget : ∀ (i j : Fin 3), m.atGet cfg i.1 j.1 = .ok (rotMat q i j) := by
    intro i j
    rw [← hm, Mat.atGet_lt cfg m (by omega) (by omega)]; rfl
  have e00 : m.atGet cfg 0 0 = .ok _ := hget 0 0
  have e01 : m.atGet cfg 0 1 = .ok _ := hget 0 1
  have e02 : m.atGet cfg 0 2 = .ok _ := hget 0 2
  have e10 : m.atGet cfg 1 0 = .ok _ := hget 1 0
  have e11 : m.atGet cfg 1 1 = .ok _ := hget 1 1
  have e12 : m.atGet cfg 1 2 = .ok _ := hget 1 2
  have e20 : m.atGet cfg 2 0 = .ok _ := hget 2 0
  have e21 : m.atGet cfg 2 1 = .ok _ := hget 2 1
  have e22 : m.atGet cfg 2 2 = .ok _ := hget 2 2
  obtain ⟨x, y, z, w⟩ := q
  have hu : x * x + y * y + z * z + w * w = 1 := hq
  simp only [rotMat, Matrix.of_apply, Matrix.cons_val', Matrix.cons_val_zero, Matrix.cons_val_one, Matrix.cons_val,
    Matrix.cons_val_fin_one] at e00 e01 e02 e10 e11 e12 e20 e21 e22
  have htr : w * w + x * x - y * y - z * z + (w * w - x * x + y * y - z * z) + (w * w - x * x - y * y + z * z) + 1 = 4 * w * w := by
    linear_combination (-1 : ℝ) * hu
  have hw2 : 4 * w * w = 4 * w ^ 2 := by ring
  have hσ : ∀ t : ℝ, (if 0 < t then (1 : ℝ) else -1) = 1 ∨ (if 0 < t then (1 : ℝ) else -1) = -1 := by
    intro t; split_ifs <;> simp
  constructor
  · intro hw
    simp only at hw
    have hw0 : w ≠ 0 := by rintro rfl; norm_num at hw; linarith
    refine ⟨if 0 < w then 1 else -1, hσ w, ?_⟩
    unfold Quat.setMatrix
    simp only [e00, e01, e02, e10, e11, e12, e20, e21, e22, bind_ok, htr]
    rw [if_pos (by rw [hw2]; exact hw)]
    simp only [pure_ok, sqrt_real, Quat.mulS, mk4]
    congr 2
    · rw [← (pivot_scale w x hw0).1]; ring
    · rw [← (pivot_scale w y hw0).1]; ring
    · rw [← (pivot_scale w z hw0).1]; ring
    · rw [← (pivot_scale w z hw0).2]
  · intro hw
    simp only at hw
    obtain ⟨k, hk, h1, -, h2, h3⟩ := (C12_min_max (M := 3) (by norm_num)
      (#v[w * w + x * x - y * y - z * z, w * w - x * x + y * y - z * z, w * w - x * x - y * y + z * z] : Vec 3 ℝ)).2
    unfold Quat.setMatrix
    simp only [e00, e01, e02, e10, e11, e12, e20, e21, e22, bind_ok, htr]
    rw [if_neg (by rw [hw2]; exact not_lt.2 hw)]
    simp only [h1, bind_ok, pure_ok, sqrt_real, Quat.mulS, mk4]
    have hne : ¬ (x = 0 ∧ y = 0 ∧ z = 0) := by
      rintro ⟨rfl, rfl, rfl⟩
      have : w ^ 2 = 1 := by linear_combination hu
      rw [this] at hw; linarith
    obtain rfl | rfl | rfl : k = 0 ∨ k = 1 ∨ k = 2 := by omega
    · have a1 := h2 1 (by norm_num)
      have a2 := h2 2 (by norm_num)
      simp at a1 a2
      have hx : x ≠ 0 := by
        rintro rfl
        exact hne ⟨rfl, by nlinarith [mul_self_nonneg y], by nlinarith [mul_self_nonneg z]⟩
      refine ⟨if 0 < x then 1 else -1, hσ x, ?_, ?_⟩
      · rintro ⟨h, -⟩; exfalso; nlinarith
      · intro _
        refine ⟨Or.inl hx, ?_⟩
        have e : 1 + (w * w + x * x - y * y - z * z) - (w * w - x * x + y * y - z * z) - (w * w - x * x - y * y + z * z) = 4 * x * x := by
          linear_combination (-1 : ℝ) * hu
        simp only [e, if_true]
        congr 2
        · rw [← (pivot_scale x z hx).2]
        · rw [← (pivot_scale x y hx).1]; ring
        · rw [← (pivot_scale x z hx).1]; ring
        · rw [← (pivot_scale x (-w) hx).1]; ring
    · have a1 := h2 0 (by norm_num)
      have a2 := h2 2 (by norm_num)
      have a3 := h3 0 (by norm_num)
      simp at a1 a2 a3
      have hy : y ≠ 0 := by
        rintro rfl; nlinarith [mul_self_nonneg x]
      refine ⟨if 0 < y then 1 else -1, hσ y, ?_, ?_⟩
      · intro _
        have e : 1 + (w * w - x * x + y * y - z * z) - (w * w + x * x - y * y - z * z) - (w * w - x * x - y * y + z * z) = 4 * y * y := by
          linear_combination (-1 : ℝ) * hu
        simp only [e, one_ne_zero, if_true, if_false]
        congr 2
        · rw [← (pivot_scale y x hy).1]; ring
        · rw [← (pivot_scale y z hy).2]
        · rw [← (pivot_scale y z hy).1]; ring
        · rw [← (pivot_scale y w hy).1]; ring
      · intro h; exfalso; apply h; constructor <;> nlinarith
    · have a1 := h2 0 (by norm_num)
      have a2 := h2 1 (by norm_num)
      have a3 := h3 0 (by norm_num)
      have a4 := h3 1 (by norm_num)
      simp at a1 a2 a3 a4
      have hz : z ≠ 0 := by
        rintro rfl; nlinarith [mul_self_nonneg x]
      refine ⟨if 0 < z then 1 else -1, hσ z, ?_, ?_⟩
      · rintro ⟨-, h⟩; exfalso; nlinarith
      · intro _
        refine ⟨Or.inr hz, ?_⟩
        have e : 1 + (w * w - x * x - y * y + z * z) - (w * w + x * x - y * y - z * z) - (w * w - x * x + y * y - z * z) = 4 * z * z := by
          linear_combination (-1 : ℝ) * hu
        have e2 : ¬ (2 : ℕ) = 0 := by norm_num
        have e3 : ¬ (2 : ℕ) = 1 := by norm_num
        simp only [e, e2, e3, if_true, if_false]
        congr 2
        · rw [← (pivot_scale z x hz).1]; ring
        · rw [← (pivot_scale z y hz).1]; ring
        · rw [← (pivot_scale z z hz).2]
        · rw [← (pivot_scale z (-w) hz).1]; ring

/-- C54, proved part. Let `q` be a unit quaternion and `m` a matrix of at least three rows whose upper left block is the rotation matrix of
`q`. `set( m )` succeeds, whatever the quaternion held before, and returns `± q` exactly if the trace test takes the first branch
(`4 w² > epsilon`), or `w = 0`, or the second diagonal element is the (first) largest; in the remaining cases it returns
`± ( x, y, z, -w )`. (Missing: `± q` in the remaining cases, see `C54_witness_violated`.) -/
theorem C54_from_matrix_partial (hD : 3 ≤ D) (cfg : Cfg) (eps : ℝ) (h0 : 0 ≤ eps) (h4 : eps < 4) (self q : Quat ℝ) (m : Mat D D ℝ)
    (R : Mat 3 3 ℝ) (hq : q.abs = 1) (hR : q.getRotationMatrix cfg = .ok R) (hm : Spec.block hD m.toMat = R.toMat) :
    ∃ r, self.setMatrix cfg eps m = .ok r ∧
      ((r = q ∨ r = q.neg) ↔ eps < 4 * q.w ^ 2 ∨ q.w = 0 ∨ (q.x ^ 2 < q.y ^ 2 ∧ q.z ^ 2 ≤ q.y ^ 2)) ∧
      (r = q ∨ r = q.neg ∨ r = ⟨q.x, q.y, q.z, -q.w⟩ ∨ r = ⟨-q.x, -q.y, -q.z, q.w⟩) := by
  obtain ⟨R', h1, h2⟩ := getRotationMatrix_eq cfg q
  obtain rfl : R' = R := by rw [h1] at hR; injection hR
  have hs : q.squaredAbs = 1 := by
    have := Real.mul_self_sqrt (squaredAbs_nonneg q)
    rw [show Real.sqrt q.squaredAbs = 1 from hq] at this
    linarith
  obtain ⟨hA, hB⟩ := setMatrix_eq hD cfg eps h0 h4 self q m hs (hm.trans h2)
  obtain ⟨x, y, z, w⟩ := q
  simp only at hA hB ⊢
  by_cases hw : eps < 4 * w ^ 2
  · obtain ⟨σ, hσ, h⟩ := hA hw
    refine ⟨_, h, ?_, ?_⟩
    · rcases hσ with rfl | rfl <;> simp [Quat.mulS, mk4, Quat.neg, hw]
    · rcases hσ with rfl | rfl <;> simp [Quat.mulS, mk4, Quat.neg]
  · obtain ⟨σ, hσ, hy, hn⟩ := hB (not_lt.1 hw)
    by_cases hlarge : x ^ 2 < y ^ 2 ∧ z ^ 2 ≤ y ^ 2
    · refine ⟨_, hy hlarge, ?_, ?_⟩
      · rcases hσ with rfl | rfl <;> simp [Quat.mulS, mk4, Quat.neg, hlarge]
      · rcases hσ with rfl | rfl <;> simp [Quat.mulS, mk4, Quat.neg]
    · obtain ⟨hxz, h⟩ := hn hlarge
      refine ⟨_, h, ?_, ?_⟩
      · constructor
        · intro hr
          refine Or.inr (Or.inl ?_)
          rcases hσ with rfl | rfl <;> rcases hr with hr | hr <;>
            simp only [Quat.mulS, mk4, Quat.neg, Quat.mk.injEq] at hr <;> obtain ⟨e1, -, e3, e4⟩ := hr
          · linarith
          · exact absurd hxz (by rintro (h | h) <;> apply h <;> linarith)
          · exact absurd hxz (by rintro (h | h) <;> apply h <;> linarith)
          · linarith
        · rintro (h | rfl | h)
          · exact absurd h hw
          · rcases hσ with rfl | rfl <;> simp [Quat.mulS, mk4, Quat.neg]
          · exact absurd h hlarge
      · rcases hσ with rfl | rfl <;> simp [Quat.mulS, mk4, Quat.neg]

/-- C54 fails: with the library's epsilon 1e-5, the unit quaternion `( 3999999, 0, 0, 4000 ) / 4000001` (a rotation by about 179.885
degrees about the x axis) comes back as the rotation by the opposite angle. -/
theorem C54_witness_violated (cfg : Cfg) (self : Quat ℝ) :
    ∃ q : Quat ℝ, q.abs = 1 ∧ ∃ R, q.getRotationMatrix cfg = .ok R ∧
      ∃ r, self.setMatrix cfg (1 / 100000) R = .ok r ∧ r ≠ q ∧ r ≠ q.neg := by
  have hq : (⟨3999999 / 4000001, 0, 0, 4000 / 4000001⟩ : Quat ℝ).abs = 1 := by
    rw [Quat.abs, sqrt_real, show (⟨3999999 / 4000001, 0, 0, 4000 / 4000001⟩ : Quat ℝ).squaredAbs = 1 by
      simp only [Quat.squaredAbs]; norm_num]
    exact Real.sqrt_one
  refine ⟨_, hq, ?_⟩
  obtain ⟨R, h1, -⟩ := getRotationMatrix_eq cfg (⟨3999999 / 4000001, 0, 0, 4000 / 4000001⟩ : Quat ℝ)
  obtain ⟨r, h2, h3, -⟩ := C54_from_matrix_partial le_rfl cfg (1 / 100000) (by norm_num) (by norm_num) self _ R R hq h1 rfl
  refine ⟨R, h1, r, h2, ?_⟩
  have : ¬ (r = _ ∨ r = _) := fun h => by
    rcases h3.1 h with h | h | h <;> norm_num at h
  exact not_or.1 this

/-- C54. The hypotheses hold for the identity. -/
example (cfg : Cfg) : (Quat.IDENTITY : Quat ℝ).abs = 1 ∧ ∃ R, (Quat.IDENTITY : Quat ℝ).getRotationMatrix cfg = .ok R :=
  ⟨by simp [Quat.abs, Quat.squaredAbs, Quat.IDENTITY], (getRotationMatrix_eq cfg _).imp fun _ h => h.1⟩

/-! ## C55 -/

/-- The end point `slerp` moves towards: `q` or, if the angle to `p` is obtuse, `-q` (the same rotation). -/
noncomputable def Spec.nearEnd (p q : Quat ℝ) : Quat ℝ := if p.dot q < 0 then q.neg else q

/-- The angle between unit quaternions, up to sign. -/
noncomputable def Spec.angle (p q : Quat ℝ) : ℝ := Real.arccos |p.dot q|

theorem getNormalized_unit (p : Quat ℝ) (hp : p.abs = 1) : p.getNormalized = p := by
  obtain ⟨x, y, z, w⟩ := p
  simp [Quat.getNormalized, Quat.normalize, hp, Quat.mulAssignS]

theorem squaredAbs_unit {p : Quat ℝ} (hp : p.abs = 1) : p.squaredAbs = 1 := by
  have := Real.mul_self_sqrt (squaredAbs_nonneg p)
  rw [show Real.sqrt p.squaredAbs = 1 from hp] at this
  linarith

theorem abs_eq_one {p : Quat ℝ} (hp : p.squaredAbs = 1) : p.abs = 1 := by
  rw [Quat.abs, hp, sqrt_real, Real.sqrt_one]

/-- Cauchy–Schwarz. -/
theorem dot_sq_le (p q : Quat ℝ) : p.dot q ^ 2 ≤ p.squaredAbs * q.squaredAbs := by
  obtain ⟨x, y, z, w⟩ := p
  obtain ⟨x', y', z', w'⟩ := q
  simp only [Quat.dot, Quat.squaredAbs]
  nlinarith [sq_nonneg (x * y' - y * x'), sq_nonneg (x * z' - z * x'), sq_nonneg (x * w' - w * x'),
    sq_nonneg (y * z' - z * y'), sq_nonneg (y * w' - w * y'), sq_nonneg (z * w' - w * z')]

theorem slerp_setup (p q : Quat ℝ) (hp : p.abs = 1) (hq : q.abs = 1) (a eps : ℝ) :
    (Spec.nearEnd p q).squaredAbs = 1 ∧ p.dot (Spec.nearEnd p q) = |p.dot q| ∧ |p.dot q| ≤ 1 ∧
    Quat.slerp a p q eps =
      (if |p.dot q| < 1 - eps then
        (p.mulS (Real.sin ((1 - a) * Complex.arg ⟨|p.dot q|, Real.sqrt (1 - |p.dot q| * |p.dot q|)⟩) / Real.sqrt (1 - |p.dot q| * |p.dot q|))).add
          ((Spec.nearEnd p q).mulS (Real.sin (a * Complex.arg ⟨|p.dot q|, Real.sqrt (1 - |p.dot q| * |p.dot q|)⟩) /
            Real.sqrt (1 - |p.dot q| * |p.dot q|)))
      else ((p.mulS (1 - a)).add ((Spec.nearEnd p q).mulS a)).normalize.1) := by
  have hp' := squaredAbs_unit hp
  have hq' := squaredAbs_unit hq
  have hcs := dot_sq_le p q
  rw [hp', hq'] at hcs
  have hneg : ∀ r : Quat ℝ, p.dot r.neg = -p.dot r ∧ r.neg.squaredAbs = r.squaredAbs := by
    intro r; constructor <;> simp only [Quat.dot, Quat.neg, mk4, Quat.squaredAbs] <;> ring
  refine ⟨?_, ?_, ?_, ?_⟩
  · unfold Spec.nearEnd; split_ifs
    · rw [(hneg q).2, hq']
    · exact hq'
  · unfold Spec.nearEnd; split_ifs with h
    · rw [(hneg q).1, abs_of_neg h]
    · rw [abs_of_nonneg (not_lt.1 h)]
  · rw [← sq_le_one_iff_abs_le_one]; linarith
  · unfold Quat.slerp
    simp only [getNormalized_unit p hp, getNormalized_unit q hq, fabs_real, sqrt_real, sin_real, atan2_real]
    unfold Spec.nearEnd
    by_cases h : p.dot q < 0
    · simp only [h, if_true, abs_neg, abs_of_neg h]
      rfl
    · simp only [h, if_false, abs_of_nonneg (not_lt.1 h)]
      rfl

theorem arg_eq (c : ℝ) (h0 : 0 ≤ c) (h1 : c ≤ 1) : Complex.arg ⟨c, Real.sqrt (1 - c * c)⟩ = Real.arccos c := by
  have hnn : 0 ≤ 1 - c * c := by nlinarith
  have hnorm : ‖(⟨c, Real.sqrt (1 - c * c)⟩ : ℂ)‖ = 1 := by
    rw [Complex.norm_eq_sqrt_sq_add_sq]
    simp only
    rw [Real.sq_sqrt hnn, show c ^ 2 + (1 - c * c) = 1 by ring, Real.sqrt_one]
  rw [Complex.arg_of_im_nonneg_of_ne_zero (Real.sqrt_nonneg _) (by rw [← norm_ne_zero_iff, hnorm]; norm_num), hnorm, div_one]

theorem dot_combination (p q r : Quat ℝ) (s t : ℝ) :
    ((p.mulS s).add (q.mulS t)).dot r = s * p.dot r + t * q.dot r ∧
    ((p.mulS s).add (q.mulS t)).squaredAbs = s ^ 2 * p.squaredAbs + 2 * s * t * p.dot q + t ^ 2 * q.squaredAbs := by
  constructor <;> simp only [Quat.dot, Quat.mulS, Quat.add, mk4, Quat.squaredAbs] <;> ring

/-- C55. For unit `p`, `q` that are not too close (`|cos| < 1 - epsilon`), `slerp( a, p, q )` is, for every real `a`, the unit quaternion in
the plane of `p` and `±q` at angle `a θ` from `p` and `( 1 - a ) θ` from `±q`, where `θ` is the angle between them: the angle moves
linearly. -/
theorem C55_slerp (p q : Quat ℝ) (hp : p.abs = 1) (hq : q.abs = 1) (a eps : ℝ) (h0 : 0 ≤ eps) (hc : |p.dot q| < 1 - eps) :
    (Quat.slerp a p q eps).abs = 1 ∧ (Quat.slerp a p q eps).dot p = Real.cos (a * Spec.angle p q) ∧
    (Quat.slerp a p q eps).dot (Spec.nearEnd p q) = Real.cos ((1 - a) * Spec.angle p q) ∧
    (∃ s t, Quat.slerp a p q eps = (p.mulS s).add ((Spec.nearEnd p q).mulS t)) := by
  obtain ⟨hn, hd, hle, hs⟩ := slerp_setup p q hp hq a eps
  have hp' := squaredAbs_unit hp
  rw [if_pos hc, arg_eq _ (abs_nonneg _) hle] at hs
  rw [hs]
  have hθc : Real.cos (Spec.angle p q) = |p.dot q| := Real.cos_arccos (by linarith [abs_nonneg (p.dot q)]) hle
  have hθs : Real.sin (Spec.angle p q) = Real.sqrt (1 - |p.dot q| * |p.dot q|) := by
    rw [Spec.angle, Real.sin_arccos, pow_two]
  change (Quat.abs ((p.mulS (Real.sin ((1 - a) * Spec.angle p q) / _)).add ((Spec.nearEnd p q).mulS
    (Real.sin (a * Spec.angle p q) / _)))) = 1 ∧ _
  have hspos : 0 < Real.sin (Spec.angle p q) := by
    rw [hθs]; apply Real.sqrt_pos.2; nlinarith [abs_nonneg (p.dot q)]
  rw [← hθs] at *
  have hfold : Real.arccos |p.dot q| = Spec.angle p q := rfl
  rw [hfold] at *
  have hpd : p.dot p = 1 := by rw [(C57_dot p p p (0 : ℝ)).2.2.2.1, hp']
  have hnd : (Spec.nearEnd p q).dot (Spec.nearEnd p q) = 1 := by
    rw [(C57_dot (Spec.nearEnd p q) (Spec.nearEnd p q) p (0 : ℝ)).2.2.2.1, hn]
  have hnp : (Spec.nearEnd p q).dot p = |p.dot q| := by rw [(C57_dot (Spec.nearEnd p q) p p (0 : ℝ)).1, hd]
  have h1 := Real.sin_sq_add_cos_sq (Spec.angle p q)
  generalize Spec.angle p q = θ at *
  have e1 : Real.sin ((1 - a) * θ) = Real.sin θ * Real.cos (a * θ) - Real.cos θ * Real.sin (a * θ) := by
    rw [show (1 - a) * θ = θ - a * θ by ring, Real.sin_sub]
  have e2 : Real.cos ((1 - a) * θ) = Real.cos θ * Real.cos (a * θ) + Real.sin θ * Real.sin (a * θ) := by
    rw [show (1 - a) * θ = θ - a * θ by ring, Real.cos_sub]
  have h2 := Real.sin_sq_add_cos_sq (a * θ)
  refine ⟨abs_eq_one ?_, ?_, ?_, ⟨_, _, rfl⟩⟩
  · rw [(dot_combination p (Spec.nearEnd p q) p _ _).2, hp', hn, hd, ← hθc, e1]
    field_simp
    linear_combination (-(Real.sin (a * θ) ^ 2)) * h1 + (Real.sin θ ^ 2) * h2
  · rw [(dot_combination p (Spec.nearEnd p q) p _ _).1, hpd, hnp, ← hθc, e1]
    field_simp
    ring
  · rw [(dot_combination p (Spec.nearEnd p q) (Spec.nearEnd p q) _ _).1, hd, hnd, ← hθc, e1, e2]
    field_simp
    linear_combination (-Real.sin (a * θ)) * h1

/-- C55. In every case (also for nearly equal inputs, where the interpolation is linear) the result is a unit quaternion, `a = 0`
gives `p`, and `a = 1` gives `q` or `-q`. -/
theorem C55_ends (p q : Quat ℝ) (hp : p.abs = 1) (hq : q.abs = 1) (a eps : ℝ) (h0 : 0 ≤ eps) :
    (Quat.slerp a p q eps).abs = 1 ∧ Quat.slerp 0 p q eps = p ∧
    (Quat.slerp 1 p q eps = q ∨ Quat.slerp 1 p q eps = q.neg) := by
  have hp' := squaredAbs_unit hp
  have hend : Spec.nearEnd p q = q ∨ Spec.nearEnd p q = q.neg := by unfold Spec.nearEnd; split_ifs <;> simp
  by_cases hc : |p.dot q| < 1 - eps
  · refine ⟨(C55_slerp p q hp hq a eps h0 hc).1, ?_, ?_⟩
    · obtain ⟨-, -, hle, hs⟩ := slerp_setup p q hp hq 0 eps
      rw [if_pos hc, arg_eq _ (abs_nonneg _) hle] at hs
      have hθs : Real.sin (Real.arccos |p.dot q|) = Real.sqrt (1 - |p.dot q| * |p.dot q|) := by rw [Real.sin_arccos, pow_two]
      have hspos : 0 < Real.sqrt (1 - |p.dot q| * |p.dot q|) := by
        apply Real.sqrt_pos.2; nlinarith [abs_nonneg (p.dot q)]
      rw [hs, sub_zero, one_mul, zero_mul, Real.sin_zero, hθs, div_self hspos.ne', zero_div]
      simp [Quat.mulS, Quat.add, mk4]
    · obtain ⟨-, -, hle, hs⟩ := slerp_setup p q hp hq 1 eps
      rw [if_pos hc, arg_eq _ (abs_nonneg _) hle] at hs
      have hθs : Real.sin (Real.arccos |p.dot q|) = Real.sqrt (1 - |p.dot q| * |p.dot q|) := by rw [Real.sin_arccos, pow_two]
      have hspos : 0 < Real.sqrt (1 - |p.dot q| * |p.dot q|) := by
        apply Real.sqrt_pos.2; nlinarith [abs_nonneg (p.dot q)]
      have : Quat.slerp 1 p q eps = Spec.nearEnd p q := by
        rw [hs, one_mul, hθs, div_self hspos.ne']
        simp [Quat.mulS, Quat.add, mk4]
      rw [this]; exact hend
  · have key : ∀ a, ((p.mulS (1 - a)).add ((Spec.nearEnd p q).mulS a)).squaredAbs = 1 - 2 * a * (1 - a) * (1 - |p.dot q|) := by
      intro a
      obtain ⟨hn, hd, -, -⟩ := slerp_setup p q hp hq a eps
      rw [(dot_combination p (Spec.nearEnd p q) p _ _).2, hp', hn, hd]; ring
    refine ⟨?_, ?_, ?_⟩
    · obtain ⟨-, -, hle, hs⟩ := slerp_setup p q hp hq a eps
      rw [if_neg hc] at hs
      rw [hs]
      refine ((C52_normalize _).2.2.2.1 ?_).1
      intro h
      have h2 := (squaredAbs_eq_zero _).2 h
      rw [key] at h2
      nlinarith [sq_nonneg (2 * a - 1), abs_nonneg (p.dot q)]
    · obtain ⟨-, -, -, hs⟩ := slerp_setup p q hp hq 0 eps
      rw [if_neg hc] at hs
      rw [hs]
      have : (p.mulS (1 - 0)).add ((Spec.nearEnd p q).mulS 0) = p := by
        obtain ⟨x, y, z, w⟩ := p; simp [Quat.mulS, Quat.add, mk4]
      rw [this]
      exact getNormalized_unit p hp
    · obtain ⟨hn, -, -, hs⟩ := slerp_setup p q hp hq 1 eps
      rw [if_neg hc] at hs
      have : (p.mulS (1 - 1)).add ((Spec.nearEnd p q).mulS 1) = Spec.nearEnd p q := by
        simp [Quat.mulS, Quat.add, mk4]
      rw [this] at hs
      rw [hs, show (Spec.nearEnd p q).normalize.1 = Spec.nearEnd p q from getNormalized_unit _ (abs_eq_one hn)]
      exact hend

/-- C55. Scaling the inputs does not matter: they are normalised first. -/
theorem C55_normalises (p q : Quat ℝ) (hp : p ≠ ⟨0, 0, 0, 0⟩) (hq : q ≠ ⟨0, 0, 0, 0⟩) (a eps : ℝ) :
    Quat.slerp a p q eps = Quat.slerp a p.getNormalized q.getNormalized eps := by
  have h1 := getNormalized_unit _ ((C52_normalize p).2.2.2.1 hp).1
  have h2 := getNormalized_unit _ ((C52_normalize q).2.2.2.1 hq).1
  have h1' : p.getNormalized.getNormalized = p.getNormalized := h1
  have h2' : q.getNormalized.getNormalized = q.getNormalized := h2
  simp only [Quat.slerp, h1', h2']

example : (QUATERI : Quat ℝ).abs = 1 ∧ (QUATERJ : Quat ℝ).abs = 1 ∧ |(QUATERI : Quat ℝ).dot QUATERJ| < 1 - 1e-13 := by
  norm_num [Quat.abs, Quat.squaredAbs, QUATERI, QUATERJ, Quat.dot]

end Vmml
