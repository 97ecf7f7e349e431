import Verif.Model.Constants
import Verif.Props.Frustum
import Verif.Props.MatrixSignal
import Mathlib.Analysis.Real.Pi.Bounds

/-!
# C106: the angle constants, and what they do to angles in degrees
-/

namespace Vmml
open Const

/-- C106. The literals are π, π/2, π/3 and π/4 to within one unit of their last digit. -/
theorem C106_constants : |mPi - Real.pi| < 1e-20 ∧ |mPiF - Real.pi| < 1e-20 ∧ |mPi2F - Real.pi / 2| < 5e-21 ∧ |mPi3F - Real.pi / 3| < 1e-20 ∧
    |mPi4F - Real.pi / 4| < 1e-20 := by
  have h1 := Real.pi_gt_d20
  have h2 := Real.pi_lt_d20
  simp only [mPi, mPiF, mPi2F, mPi3F, mPi4F, abs_lt]
  norm_num at h1 h2 ⊢
  refine ⟨⟨?_, ?_⟩, ⟨?_, ?_⟩, ⟨?_, ?_⟩, ?_, ?_⟩ <;> linarith

/-- C106. In a floating-point type with unit roundoff `u` the constant π is off by at most one rounding and 2e-20. -/
theorem C106_rounded {u : ℝ} (ρ : Rounding u) (hu : u ≤ 1) : |ρ.rnd mPi - Real.pi| ≤ u * Real.pi + 2e-20 := by
  have h0 := ρ.nonneg
  have h1 := ρ.err mPi
  have h2 := abs_lt.1 C106_constants.1
  have h3 : |mPi| = mPi := abs_of_pos (by norm_num [mPi])
  rw [h3] at h1
  have h4 : u * mPi ≤ u * Real.pi + 1e-20 := by
    nlinarith [mul_nonneg h0 (show (0:ℝ) ≤ Real.pi + 1e-20 - mPi by linarith [h2.2]), mul_le_mul_of_nonneg_right hu (show (0 : ℝ) ≤ 1e-20 by norm_num)]
  have h5 := abs_sub_le (ρ.rnd mPi) mPi Real.pi
  have h6 := C106_constants.1
  norm_num at h4 h5 h6 ⊢
  linarith

theorem log_mPi : Int.log 2 mPi = 1 := by
  have hpos : (0 : ℝ) < mPi := by norm_num [mPi]
  have a := (Int.zpow_le_iff_le_log (b := 2) (R := ℝ) (x := 1) (by norm_num) hpos).1 (by norm_num [mPi])
  have b := (Int.lt_zpow_iff_log_lt (b := 2) (R := ℝ) (x := 2) (by norm_num) hpos).1 (by norm_num [mPi])
  omega

/-- `M_PI` in `double`. -/
theorem double_pi : roundBin 52 mPi = 884279719003555 / 2 ^ 48 := by
  have hp : |mPi| = mPi := abs_of_pos (by norm_num [mPi])
  unfold roundBin
  rw [hp, log_mPi]
  have : round (mPi / (2 : ℝ) ^ ((1 : ℤ) - (52 : ℕ))) = 7074237752028440 := by
    rw [round_eq, Int.floor_eq_iff]
    have : (2 : ℝ) ^ ((1 : ℤ) - (52 : ℕ)) = 1 / 2 ^ 51 := by norm_num
    rw [this]; norm_num [mPi]
  rw [this]; norm_num

/-- C106. `M_PI` as a `double` is less than π (by less than 1.3e-16). -/
theorem C106_double : (binRounding 52).rnd mPi < Real.pi ∧ Real.pi - (binRounding 52).rnd mPi < 1.3e-16 := by
  have h1 := Real.pi_gt_d20
  have h2 := Real.pi_lt_d20
  show roundBin 52 mPi < _ ∧ _ - roundBin 52 mPi < _
  rw [double_pi]
  norm_num at h1 h2 ⊢
  constructor <;> linarith

/-- C106. With any value `p` for the constant, `set_perspective( fov, ... )` is exactly `set_perspective` with true π for the angle `fov * p / π`: the relative
error of the constant is the relative error of the angle. -/
theorem C106_perspective (f : Frustum ℝ) (p fov aspect n fa : ℝ) :
    f.setPerspective (1 / 2) p 180 fov aspect n fa = f.setPerspective (1 / 2) Real.pi 180 (fov * (p / Real.pi)) aspect n fa := by
  have : 1 / 2 * fov * p / 180 = 1 / 2 * (fov * (p / Real.pi)) * Real.pi / 180 := by
    have := Real.pi_ne_zero
    field_simp
  unfold Frustum.setPerspective
  rw [this]

/-- C106. With the `double` constant the half angle stays below 90 degrees, so the top of the frustum is positive for every field of view up to and including 180
degrees, and the frustum differs from the exact one by an angle of less than 1e-14 degrees. -/
theorem C106_perspective_top (f : Frustum ℝ) (fov aspect n fa : ℝ) (h0 : 0 < fov) (h1 : fov ≤ 180) :
    0 < (f.setPerspective (1 / 2) ((binRounding 52).rnd mPi) 180 fov aspect n fa).top ∧
      |fov * ((binRounding 52).rnd mPi / Real.pi) - fov| < 1e-14 := by
  obtain ⟨a, b⟩ := C106_double
  have hp : 0 < (binRounding 52).rnd mPi := by
    show 0 < roundBin 52 mPi
    rw [double_pi]; norm_num
  have h3 := Real.pi_gt_three
  constructor
  · rw [show (f.setPerspective (1 / 2) ((binRounding 52).rnd mPi) 180 fov aspect n fa).top
        = Real.tan (1 / 2 * fov * (binRounding 52).rnd mPi / 180) * (1 / 2) by
      simp [Frustum.setPerspective, Frustum.setLeft, Frustum.setRight, Frustum.setBottom, Frustum.setTop, Frustum.setNear, Frustum.setFar, Frustum.top]]
    apply mul_pos _ (by norm_num)
    apply Real.tan_pos_of_pos_of_lt_pi_div_two (by positivity)
    have : fov * (binRounding 52).rnd mPi ≤ 180 * (binRounding 52).rnd mPi := by gcongr
    linarith
  · have e : fov * ((binRounding 52).rnd mPi / Real.pi) - fov = -(fov * ((Real.pi - (binRounding 52).rnd mPi) / Real.pi)) := by
      field_simp; ring
    rw [e, abs_neg, abs_of_pos (by have : 0 < Real.pi - (binRounding 52).rnd mPi := by linarith
                                   positivity)]
    have : (Real.pi - (binRounding 52).rnd mPi) / Real.pi < 1.3e-16 / 3 := by
      apply div_lt_div₀ b h3.le (by norm_num) (by norm_num)
    have hq : 0 < (Real.pi - (binRounding 52).rnd mPi) / Real.pi := by
      have : 0 < Real.pi - (binRounding 52).rnd mPi := by linarith
      positivity
    calc _ ≤ 180 * ((Real.pi - (binRounding 52).rnd mPi) / Real.pi) := by gcongr
      _ < 180 * (1.3e-16 / 3) := by gcongr
      _ < _ := by norm_num

/-- C106. A square `set_dct()` with the value `p` for the constant: every entry is within `sqrt( 2 M ) |p - π|` of the exact basis. -/
theorem C106_dct {M : Nat} (cfg : Cfg) (m : Mat M M ℝ) (p : ℝ) :
    ∃ d, m.setDct cfg (fun n => (n : ℝ)) p id = .ok d ∧ ∀ r c, |d.toMat r c - Spec.dct M r.1 c.1| ≤ Real.sqrt (2 * M) * |p - Real.pi| := by
  refine ⟨Mat.ofFn fun r c => Real.cos ((2 * c + 1) * r * p / (2 * M)) * (if (r : ℕ) = 0 then Real.sqrt (1 / M) else Real.sqrt (2 / M)), ?_, ?_⟩
  · unfold Mat.setDct
    simp only
    apply Mat.loop2_full
    intro r hr c hc m _
    rw [Mat.atSet_lt cfg m _ hr hc]
    congr 2
    simp only [id, cos_real, sqrt_real]
    push_cast
    split_ifs <;> simp
  · intro r c
    have hM : (0 : ℝ) < M := by exact_mod_cast Fin.pos r
    simp only [Mat.toMat_apply, Mat.get_ofFn, Spec.dct]
    rw [← sub_mul, abs_mul]
    have hr : (r : ℝ) ≤ M := by exact_mod_cast r.2.le
    have hc : 2 * (c : ℝ) + 1 ≤ 2 * M := by
      have : (c : ℝ) + 1 ≤ M := by exact_mod_cast c.2
      linarith
    have hw : |(if (r : ℕ) = 0 then Real.sqrt (1 / M) else Real.sqrt (2 / M))| ≤ Real.sqrt (2 / M) := by
      split_ifs
      · rw [abs_of_nonneg (Real.sqrt_nonneg _)]; apply Real.sqrt_le_sqrt; gcongr; norm_num
      · rw [abs_of_nonneg (Real.sqrt_nonneg _)]
    have hcos : |Real.cos ((2 * c + 1) * r * p / (2 * M)) - Real.cos ((2 * c + 1) * r * Real.pi / (2 * M))| ≤ M * |p - Real.pi| := by
      refine (Real.abs_cos_sub_cos_le _ _).trans ?_
      rw [show (2 * (c : ℝ) + 1) * r * p / (2 * M) - (2 * c + 1) * r * Real.pi / (2 * M) = ((2 * c + 1) * r / (2 * M)) * (p - Real.pi) by ring, abs_mul]
      gcongr
      rw [abs_of_nonneg (by positivity), div_le_iff₀ (by positivity)]
      nlinarith [mul_le_mul hc hr (by positivity) (by positivity)]
    calc _ ≤ (M * |p - Real.pi|) * Real.sqrt (2 / M) := by gcongr
      _ = (M * Real.sqrt (2 / M)) * |p - Real.pi| := by ring
      _ = _ := by
        congr 1
        rw [show (M : ℝ) * Real.sqrt (2 / M) = Real.sqrt (M ^ 2) * Real.sqrt (2 / M) by rw [Real.sqrt_sq hM.le], ← Real.sqrt_mul (by positivity)]
        congr 1; field_simp

/-- Non-vacuity: the bound of `C106_dct` with the double constant, for 1000 x 1000. -/
example (cfg : Cfg) (m : Mat 1000 1000 ℝ) : ∃ d, m.setDct cfg (fun n => (n : ℝ)) ((binRounding 52).rnd mPi) id = .ok d ∧
    ∀ r c, |d.toMat r c - Spec.dct 1000 r.1 c.1| ≤ 1e-13 := by
  obtain ⟨d, hd, h⟩ := C106_dct cfg m ((binRounding 52).rnd mPi)
  refine ⟨d, hd, fun r c => (h r c).trans ?_⟩
  obtain ⟨a, b⟩ := C106_double
  have hs : Real.sqrt (2 * (1000 : ℕ)) ≤ 100 := by
    rw [Real.sqrt_le_left (by norm_num)]; norm_num
  rw [abs_of_neg (by linarith)]
  calc Real.sqrt (2 * (1000 : ℕ)) * -((binRounding 52).rnd mPi - Real.pi) ≤ 100 * 1.3e-16 :=
      mul_le_mul hs (by linarith) (by linarith) (by norm_num)
    _ ≤ 1e-13 := by norm_num

end Vmml
