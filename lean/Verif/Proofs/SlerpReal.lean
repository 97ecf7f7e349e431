import Mathlib.Analysis.SpecialFunctions.Trigonometric.Bounds
import Mathlib.Analysis.SpecialFunctions.Trigonometric.Deriv
import Mathlib.Analysis.SpecialFunctions.Trigonometric.Inverse
import Mathlib.Analysis.Calculus.MeanValue
import Mathlib.Analysis.Real.Pi.Bounds

/-!
# Real analysis for C143: the coefficients of spherical interpolation

`sin ( a φ ) / sin φ` depends on the cosine of `φ` in a Lipschitz way, also where `φ` tends to 0.
-/

namespace Vmml
open Real Filter Topology

/-- `sin ( a φ ) / sin φ`, with the limit `a` at 0. -/
noncomputable def Spec.sinRatio (a φ : ℝ) : ℝ := if φ = 0 then a else Real.sin (a * φ) / Real.sin φ

private theorem sin_pos17 {φ : ℝ} (h0 : 0 < φ) (h1 : φ ≤ 17 / 10) : 0 < Real.sin φ := Real.sin_pos_of_pos_of_lt_pi h0 (by linarith [Real.pi_gt_three])

/-- Jordan's inequality a little beyond the right angle. -/
theorem jordan17 {φ : ℝ} (h0 : 0 ≤ φ) (h1 : φ ≤ 17 / 10) : φ ≤ 43 / 25 * Real.sin φ := by
  have p1 := Real.pi_gt_d2
  have p2 := Real.pi_lt_d2
  rcases le_total φ (π / 2) with h | h
  · have := Real.mul_le_sin h0 h
    have e : φ = π / 2 * (2 / π * φ) := by field_simp
    have h2 : 0 ≤ 2 / π * φ := by positivity
    calc φ = π / 2 * (2 / π * φ) := e
      _ ≤ 43 / 25 * (2 / π * φ) := mul_le_mul_of_nonneg_right (by linarith) h2
      _ ≤ _ := mul_le_mul_of_nonneg_left this (by norm_num)
  · have e : Real.sin φ = Real.cos (φ - π / 2) := by rw [Real.cos_sub_pi_div_two]
    have := Real.one_sub_sq_div_two_le_cos (x := φ - π / 2)
    rw [e]
    have h3 : 0 ≤ φ - π / 2 := by linarith
    have h4 : φ - π / 2 ≤ 13 / 100 := by linarith
    nlinarith

private theorem cubic {a : ℝ} (h0 : 0 ≤ a) : a * (1 - a ^ 2) ≤ 2 / 5 := by nlinarith [mul_nonneg h0 (sq_nonneg (a - 29 / 50)), sq_nonneg (a - 29 / 50)]

/-- The derivative of the numerator of the derivative. -/
private theorem num_bound {a φ : ℝ} (a0 : 0 ≤ a) (a1 : a ≤ 1) (h0 : 0 < φ) (h1 : φ ≤ 17 / 10) :
    0 ≤ a * Real.cos (a * φ) * Real.sin φ - Real.sin (a * φ) * Real.cos φ ∧
    a * Real.cos (a * φ) * Real.sin φ - Real.sin (a * φ) * Real.cos φ ≤ 7 / 10 * Real.sin φ ^ 3 := by
  have hd : ∀ x : ℝ, HasDerivAt (fun x => a * Real.cos (a * x) * Real.sin x - Real.sin (a * x) * Real.cos x) ((1 - a ^ 2) * (Real.sin (a * x) * Real.sin x)) x := by
    intro x
    have hl : HasDerivAt (fun x => a * x) a x := by simpa using (hasDerivAt_id x).const_mul a
    have h := ((hl.cos.const_mul a).mul (Real.hasDerivAt_sin x)).sub (hl.sin.mul (Real.hasDerivAt_cos x))
    exact h.congr_deriv (by ring)
  have hs : ∀ x, 0 ≤ x → x ≤ 17 / 10 → 0 ≤ Real.sin (a * x) * Real.sin x ∧ Real.sin (a * x) * Real.sin x ≤ a * x ^ 2 := by
    intro x x0 x1
    have hpi := Real.pi_gt_three
    have h2 : a * x ≤ x := mul_le_of_le_one_left x0 a1
    have h3 : 0 ≤ a * x := mul_nonneg a0 x0
    have s1 := Real.sin_nonneg_of_nonneg_of_le_pi h3 (by linarith)
    have s2 := Real.sin_nonneg_of_nonneg_of_le_pi x0 (by linarith)
    refine ⟨mul_nonneg s1 s2, ?_⟩
    calc _ ≤ (a * x) * x := mul_le_mul (Real.sin_le h3) (Real.sin_le x0) s2 h3
      _ = _ := by ring
  have ha2 : 0 ≤ 1 - a ^ 2 := by nlinarith
  constructor
  · obtain ⟨ξ, hξ, e⟩ := exists_hasDerivAt_eq_slope (fun x => a * Real.cos (a * x) * Real.sin x - Real.sin (a * x) * Real.cos x) _ h0
      (fun x _ => (hd x).continuousAt.continuousWithinAt) (fun x _ => hd x)
    simp only [mul_zero, Real.sin_zero, zero_mul, sub_zero, sub_self] at e
    rw [eq_div_iff h0.ne'] at e
    rw [← e]
    exact mul_nonneg (mul_nonneg ha2 (hs ξ hξ.1.le (by linarith [hξ.2])).1) h0.le
  · have hg : ∀ x : ℝ, HasDerivAt (fun x => a * (1 - a ^ 2) / 3 * x ^ 3 - (a * Real.cos (a * x) * Real.sin x - Real.sin (a * x) * Real.cos x))
        (a * (1 - a ^ 2) * x ^ 2 - (1 - a ^ 2) * (Real.sin (a * x) * Real.sin x)) x := by
      intro x
      have h := ((hasDerivAt_pow 3 x).const_mul (a * (1 - a ^ 2) / 3)).sub (hd x)
      exact h.congr_deriv (by push_cast; ring)
    obtain ⟨ξ, hξ, e⟩ := exists_hasDerivAt_eq_slope (fun x => a * (1 - a ^ 2) / 3 * x ^ 3 - (a * Real.cos (a * x) * Real.sin x - Real.sin (a * x) * Real.cos x)) _ h0
      (fun x _ => (hg x).continuousAt.continuousWithinAt) (fun x _ => hg x)
    simp only [mul_zero, Real.sin_zero, zero_mul, sub_zero, sub_self, ne_eq, OfNat.ofNat_ne_zero, not_false_eq_true, zero_pow] at e
    rw [eq_div_iff h0.ne'] at e
    have h3 : 0 ≤ (a * (1 - a ^ 2) * ξ ^ 2 - (1 - a ^ 2) * (Real.sin (a * ξ) * Real.sin ξ)) * φ := by
      refine mul_nonneg ?_ h0.le
      have := mul_le_mul_of_nonneg_left (hs ξ hξ.1.le (by linarith [hξ.2])).2 ha2
      linarith
    rw [e] at h3
    have j := jordan17 h0.le h1
    have sp := sin_pos17 h0 h1
    have j3 : φ ^ 3 ≤ (43 / 25 * Real.sin φ) ^ 3 := pow_le_pow_left₀ h0.le j 3
    have c := cubic a0
    have c0 : 0 ≤ a * (1 - a ^ 2) := mul_nonneg a0 ha2
    calc _ ≤ a * (1 - a ^ 2) / 3 * φ ^ 3 := by linarith
      _ ≤ 2 / 5 / 3 * (43 / 25 * Real.sin φ) ^ 3 := mul_le_mul (by linarith) j3 (by positivity) (by norm_num)
      _ ≤ 7 / 10 * Real.sin φ ^ 3 := by
        rw [mul_pow]
        have : 0 ≤ Real.sin φ ^ 3 := by positivity
        nlinarith

private theorem lip_pos {a φ ψ : ℝ} (a0 : 0 ≤ a) (a1 : a ≤ 1) (h0 : 0 < φ) (hlt : φ < ψ) (h1 : ψ ≤ 17 / 10) :
    |Real.sin (a * ψ) / Real.sin ψ - Real.sin (a * φ) / Real.sin φ| ≤ 7 / 10 * |Real.cos ψ - Real.cos φ| := by
  have hd : ∀ x ∈ Set.Icc φ ψ, HasDerivAt (fun x => Real.sin (a * x) / Real.sin x) ((a * Real.cos (a * x) * Real.sin x - Real.sin (a * x) * Real.cos x) / Real.sin x ^ 2) x := by
    intro x hx
    have sp := sin_pos17 (lt_of_lt_of_le h0 hx.1) (hx.2.trans h1)
    have hl : HasDerivAt (fun x => a * x) a x := by simpa using (hasDerivAt_id x).const_mul a
    have h := hl.sin.div (Real.hasDerivAt_sin x) sp.ne'
    exact h.congr_deriv (by ring)
  obtain ⟨ξ, hξ, e⟩ := exists_ratio_hasDerivAt_eq_ratio_slope (fun x => Real.sin (a * x) / Real.sin x) _ hlt (fun x hx => (hd x hx).continuousAt.continuousWithinAt)
    (fun x hx => hd x ⟨hx.1.le, hx.2.le⟩) Real.cos (fun x => -Real.sin x) Real.continuous_cos.continuousOn (fun x _ => Real.hasDerivAt_cos x)
  have sp := sin_pos17 (h0.trans hξ.1) (hξ.2.le.trans h1)
  obtain ⟨n0, n1⟩ := num_bound a0 a1 (h0.trans hξ.1) (hξ.2.le.trans h1)
  obtain ⟨N, hN⟩ : ∃ N, N = a * Real.cos (a * ξ) * Real.sin ξ - Real.sin (a * ξ) * Real.cos ξ := ⟨_, rfl⟩
  rw [← hN] at n0 n1 e
  have hq : |N / Real.sin ξ ^ 2| ≤ 7 / 10 * Real.sin ξ := by
    rw [abs_of_nonneg (by positivity), div_le_iff₀ (by positivity)]
    linarith [show 7 / 10 * Real.sin ξ * Real.sin ξ ^ 2 = 7 / 10 * Real.sin ξ ^ 3 by ring]
  have e2 : |Real.cos ψ - Real.cos φ| * |N / Real.sin ξ ^ 2| = |Real.sin (a * ψ) / Real.sin ψ - Real.sin (a * φ) / Real.sin φ| * Real.sin ξ := by
    rw [← abs_mul, e, abs_mul, abs_neg, abs_of_pos sp]
  have := mul_le_mul_of_nonneg_left hq (abs_nonneg (Real.cos ψ - Real.cos φ))
  rw [e2] at this
  refine le_of_mul_le_mul_right ?_ sp
  linarith

/-- The limit at 0. -/
private theorem ratio_tendsto (a : ℝ) : Tendsto (fun φ => Real.sin (a * φ) / Real.sin φ) (𝓝[>] 0) (𝓝 a) := by
  have hl : HasDerivAt (fun x => a * x) a 0 := by simpa using (hasDerivAt_id (0 : ℝ)).const_mul a
  have h1 := hasDerivAt_iff_tendsto_slope_zero.1 hl.sin
  have h2 := hasDerivAt_iff_tendsto_slope_zero.1 (Real.hasDerivAt_sin 0)
  have h := (h1.div h2 (by simp)).mono_left (nhdsWithin_mono 0 (fun x hx => ne_of_gt hx) : 𝓝[>] (0 : ℝ) ≤ 𝓝[≠] 0)
  simp only [mul_zero, Real.cos_zero, one_mul, div_one] at h
  refine h.congr' ?_
  filter_upwards [self_mem_nhdsWithin] with x hx
  have hx : (0 : ℝ) < x := hx
  simp only [Pi.div_apply, zero_add, mul_zero, Real.sin_zero, sub_zero, smul_eq_mul]
  rw [mul_div_mul_left _ _ (inv_ne_zero hx.ne')]

private theorem lip_zero {a φ : ℝ} (a0 : 0 ≤ a) (a1 : a ≤ 1) (h0 : 0 < φ) (h1 : φ ≤ 17 / 10) :
    |Real.sin (a * φ) / Real.sin φ - a| ≤ 7 / 10 * |Real.cos φ - 1| := by
  have t1 : Tendsto (fun x => |Real.sin (a * φ) / Real.sin φ - Real.sin (a * x) / Real.sin x|) (𝓝[>] 0) (𝓝 |Real.sin (a * φ) / Real.sin φ - a|) :=
    ((ratio_tendsto a).const_sub _).abs
  have t2 : Tendsto (fun x => 7 / 10 * |Real.cos φ - Real.cos x|) (𝓝[>] 0) (𝓝 (7 / 10 * |Real.cos φ - 1|)) := by
    have : Tendsto Real.cos (𝓝[>] 0) (𝓝 1) := by
      have := (Real.continuous_cos.tendsto 0).mono_left (nhdsWithin_le_nhds : 𝓝[>] (0 : ℝ) ≤ 𝓝 0)
      rwa [Real.cos_zero] at this
    exact ((this.const_sub _).abs).const_mul _
  refine le_of_tendsto_of_tendsto t1 t2 ?_
  filter_upwards [Ioo_mem_nhdsGT h0] with x hx
  exact lip_pos a0 a1 hx.1 hx.2 h1

/-- The coefficients of spherical interpolation depend on the cosine with the Lipschitz constant 7/10. -/
theorem sinRatio_lip {a φ ψ : ℝ} (a0 : 0 ≤ a) (a1 : a ≤ 1) (h0 : 0 ≤ φ) (h1 : φ ≤ 17 / 10) (g0 : 0 ≤ ψ) (g1 : ψ ≤ 17 / 10) :
    |Spec.sinRatio a φ - Spec.sinRatio a ψ| ≤ 7 / 10 * |Real.cos φ - Real.cos ψ| := by
  unfold Spec.sinRatio
  rcases h0.eq_or_lt with rfl | h0
  · rw [if_pos rfl]
    rcases g0.eq_or_lt with rfl | g0
    · simp
    · rw [if_neg g0.ne', abs_sub_comm, abs_sub_comm (Real.cos 0), Real.cos_zero]
      exact lip_zero a0 a1 g0 g1
  · rw [if_neg h0.ne']
    rcases g0.eq_or_lt with rfl | g0
    · rw [if_pos rfl, Real.cos_zero]
      exact lip_zero a0 a1 h0 h1
    · rw [if_neg g0.ne']
      rcases lt_trichotomy φ ψ with h | rfl | h
      · rw [abs_sub_comm, abs_sub_comm (Real.cos φ)]
        exact lip_pos a0 a1 h0 h g1
      · simp
      · exact lip_pos a0 a1 g0 h h1

end Vmml
