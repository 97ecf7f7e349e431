import Verif.Model.SlerpFloat
import Verif.Proofs.SlerpReal
import Verif.Proofs.FClose
import Verif.Props.FloatQuatMatrix
import Verif.Props.FloatQuantize

/-!
# C143: spherical interpolation of quaternions in IEEE 754 arithmetic
-/

set_option linter.unusedSimpArgs false
set_option linter.unusedVariables false

namespace Vmml
open Format Quat
variable {F D : Format}

/-! ## Specification -/

/-- The scalar product of quaternions, the cosine of the angle between unit quaternions. -/
def Spec.hdot (P Q : Quaternion ℝ) : ℝ := P.re * Q.re + P.imI * Q.imI + P.imJ * Q.imJ + P.imK * Q.imK

/-- The point at the fraction `a` of the great arc from `P` to `Q` (`C143_arc`). -/
noncomputable def Spec.arc (a : ℝ) (P Q : Quaternion ℝ) : Quaternion ℝ :=
  Spec.sinRatio (1 - a) (Real.arccos (Spec.hdot P Q)) • P + Spec.sinRatio a (Real.arccos (Spec.hdot P Q)) • Q

/-- A sine that is accurate to `σ` relative to the argument, for arguments up to 2. -/
def Spec.SinFn (s : Fp F → Fp F) (σ : ℝ) : Prop :=
  ∀ t : Fp F, t.Finite → |t.val| ≤ 2 → (s t).Finite ∧ |(s t).val - Real.sin t.val| ≤ σ * (|t.val| + F.tiny)

/-- An arcus tangent of two arguments that is accurate to the relative error `σ` in the first quadrant, where the angle is in the range of normal numbers. -/
def Spec.Atan2Fn (f : Fp F → Fp F → Fp F) (σ : ℝ) : Prop :=
  ∀ y x : Fp F, y.Finite → x.Finite → 0 < y.val → 0 ≤ x.val → F.tiny ≤ Complex.arg ⟨x.val, y.val⟩ →
    (f y x).Finite ∧ |(f y x).val - Complex.arg ⟨x.val, y.val⟩| ≤ σ * Complex.arg ⟨x.val, y.val⟩

/-! ## The cosine -/

private theorem cauchy (P Q : Quaternion ℝ) : |Spec.hdot P Q| ≤ ‖P‖ * ‖Q‖ := by
  have h1 := hnorm_sq P
  have h2 := hnorm_sq Q
  refine abs_le_of_sq_le_sq ?_ (by positivity)
  rw [mul_pow, h1, h2]
  unfold Spec.hdot
  generalize P.re = a
  generalize P.imI = b
  generalize P.imJ = c
  generalize P.imK = d
  generalize Q.re = e
  generalize Q.imI = f
  generalize Q.imJ = g
  generalize Q.imK = h
  nlinarith [sq_nonneg (a * f - b * e), sq_nonneg (a * g - c * e), sq_nonneg (a * h - d * e), sq_nonneg (b * g - c * f), sq_nonneg (b * h - d * f), sq_nonneg (c * h - d * g)]

/-- **C143** What the great arc of the specification is: for unit quaternions that are not opposite, the point at the fraction `a` is a unit quaternion in their plane whose angle to `P` is
`a φ` and whose angle to `Q` is `( 1 - a ) φ`, `φ` the angle between `P` and `Q`; it is `P` for `a = 0` and `Q` for `a = 1`. -/
theorem C143_arc {P Q : Quaternion ℝ} (nP : ‖P‖ = 1) (nQ : ‖Q‖ = 1) (h : -1 < Spec.hdot P Q) (a : ℝ) :
    let φ := Real.arccos (Spec.hdot P Q)
    ‖Spec.arc a P Q‖ = 1 ∧ Spec.hdot P (Spec.arc a P Q) = Real.cos (a * φ) ∧ Spec.hdot (Spec.arc a P Q) Q = Real.cos ((1 - a) * φ) ∧ Spec.arc 0 P Q = P ∧ Spec.arc 1 P Q = Q := by
  intro φ
  have h1 := hnorm_sq P
  have h2 := hnorm_sq Q
  rw [nP, one_pow] at h1
  rw [nQ, one_pow] at h2
  have hc := abs_le.1 (cauchy P Q)
  rw [nP, nQ, one_mul] at hc
  have hcos : Real.cos φ = Spec.hdot P Q := Real.cos_arccos hc.1 hc.2
  have φ0 : 0 ≤ φ := Real.arccos_nonneg _
  rcases φ0.eq_or_lt with z | φ0
  · have hPQ : P = Q := by
      rw [← z, Real.cos_zero] at hcos
      have : ‖P - Q‖ ^ 2 = 0 := by
        rw [hnorm_sq]
        simp only [Quaternion.re_sub, Quaternion.imI_sub, Quaternion.imJ_sub, Quaternion.imK_sub]
        unfold Spec.hdot at hcos
        linear_combination -h1 - h2 + 2 * hcos
      exact sub_eq_zero.1 (norm_eq_zero.1 (by simpa using this))
    have harc : ∀ a, Spec.arc a P Q = P := by
      intro a
      have e : Real.arccos (Spec.hdot P Q) = 0 := z.symm
      rw [Spec.arc, e, Spec.sinRatio, Spec.sinRatio, if_pos rfl, if_pos rfl, ← hPQ, ← add_smul, sub_add_cancel, one_smul]
    have hPP : Spec.hdot P P = 1 := by rw [h1]; unfold Spec.hdot; ring
    rw [harc, harc, harc, ← hPQ, ← z, mul_zero, mul_zero, Real.cos_zero]
    exact ⟨nP, hPP, hPP, rfl, rfl⟩
  · have φ1 : φ < Real.pi := by
      refine lt_of_le_of_ne (Real.arccos_le_pi _) fun hp => ?_
      rw [hp, Real.cos_pi] at hcos
      linarith
    have hs : Real.sin φ ≠ 0 := (Real.sin_pos_of_pos_of_lt_pi φ0 φ1).ne'
    have hr : ∀ b, Spec.sinRatio b φ = Real.sin (b * φ) / Real.sin φ := fun b => by rw [Spec.sinRatio, if_neg φ0.ne']
    have hs2 := Real.sin_sq_add_cos_sq φ
    have ha2 := Real.sin_sq_add_cos_sq (a * φ)
    have e1 : Real.sin ((1 - a) * φ) = Real.sin φ * Real.cos (a * φ) - Real.cos φ * Real.sin (a * φ) := by rw [sub_mul, one_mul, Real.sin_sub]
    have e2 : Real.cos ((1 - a) * φ) = Real.cos φ * Real.cos (a * φ) + Real.sin φ * Real.sin (a * φ) := by rw [sub_mul, one_mul, Real.cos_sub]
    have harc : Spec.arc a P Q = (Real.sin ((1 - a) * φ) / Real.sin φ) • P + (Real.sin (a * φ) / Real.sin φ) • Q := by
      rw [← hr, ← hr]; rfl
    have hPQ : ∀ x y : ℝ, Spec.hdot P (x • P + y • Q) = x + y * Real.cos φ ∧ Spec.hdot (x • P + y • Q) Q = x * Real.cos φ + y ∧ ‖x • P + y • Q‖ ^ 2 = x ^ 2 + y ^ 2 + 2 * x * y * Real.cos φ := by
      intro x y
      rw [hnorm_sq, hcos]
      simp only [Spec.hdot, Quaternion.re_add, Quaternion.re_smul, Quaternion.imI_add, Quaternion.imI_smul, Quaternion.imJ_add, Quaternion.imJ_smul, Quaternion.imK_add, Quaternion.imK_smul,
        smul_eq_mul]
      exact ⟨by linear_combination -x * h1, by linear_combination -y * h2, by linear_combination -x ^ 2 * h1 - y ^ 2 * h2⟩
    refine ⟨?_, ?_, ?_, ?_, ?_⟩
    · have : ‖Spec.arc a P Q‖ ^ 2 = 1 := by
        rw [harc, (hPQ _ _).2.2, e1]
        field_simp
        linear_combination Real.sin φ ^ 2 * ha2 - Real.sin (a * φ) ^ 2 * hs2
      have h0 := norm_nonneg (Spec.arc a P Q)
      nlinarith
    · rw [harc, (hPQ _ _).1, e1]; field_simp; ring
    · rw [harc, (hPQ _ _).2.1, e1, e2]; field_simp; linear_combination -Real.sin (a * φ) * hs2
    · show Spec.sinRatio (1 - 0) φ • P + Spec.sinRatio 0 φ • Q = P
      rw [hr, hr, sub_zero, one_mul, div_self hs, zero_mul, Real.sin_zero, zero_div, one_smul, zero_smul, add_zero]
    · show Spec.sinRatio (1 - 1) φ • P + Spec.sinRatio 1 φ • Q = Q
      rw [hr, hr, sub_self, one_mul, div_self hs, zero_mul, Real.sin_zero, zero_div, one_smul, zero_smul, zero_add]

private theorem tiny_u (hF : Spec.Usual F) : F.tiny ≤ 2 * F.u := by
  unfold Format.tiny Format.u
  rw [pow_succ, show (2 : ℝ) * ((2 : ℝ)⁻¹ ^ F.p * 2⁻¹) = (2 : ℝ)⁻¹ ^ F.p by ring, inv_pow, ← zpow_natCast, ← zpow_neg]
  exact zpow_le_zpow_right₀ (by norm_num) (by unfold emin; have := hF.range; omega)

/-- One product or sum. -/
private theorem one_step (hF : Spec.Usual F) {x : ℝ} (hx : |x| ≤ 2) : |x| ≤ F.maxFinite ∧ |F.rnd x - x| ≤ F.u * (|x| + F.tiny) :=
  ⟨hx.trans (Usual.max hF (by have := Usual.u hF; linarith)), rnd_err_tiny x⟩

private theorem dot4 (hF : Spec.Usual F) {a b c d e f g h : Fp F} (fa : a.Finite) (fb : b.Finite) (fc : c.Finite) (fd : d.Finite) (fe : e.Finite) (ff : f.Finite) (fg : g.Finite) (fh : h.Finite)
    (hs : |a.val * e.val| + |b.val * f.val| + |c.val * g.val| + |d.val * h.val| ≤ 11 / 10) :
    (a * e + b * f + c * g + d * h).Finite ∧ |(a * e + b * f + c * g + d * h).val - (a.val * e.val + b.val * f.val + c.val * g.val + d.val * h.val)| ≤ 9 / 2 * F.u := by
  have u0 := F.u_pos
  have u1 := Usual.u hF
  have h0 := Usual.pos hF
  have t0 := F.tiny_pos
  have t1 := tiny_u hF
  have key : ∀ {p q : Fp F}, p.Finite → q.Finite → |p.val * q.val| ≤ 11 / 10 → (p * q).Finite ∧ |(p * q).val - p.val * q.val| ≤ F.u * (|p.val * q.val| + F.tiny) := by
    intro p q fp fq hpq
    obtain ⟨k1, k2⟩ := one_step hF (x := p.val * q.val) (by linarith)
    obtain ⟨m1, m2⟩ := Fp.mul_fin h0 fp fq k1
    exact ⟨m1, by rw [m2]; exact k2⟩
  have keya : ∀ {p q : Fp F}, p.Finite → q.Finite → |p.val + q.val| ≤ 111 / 100 → (p + q).Finite ∧ |(p + q).val - (p.val + q.val)| ≤ F.u * (112 / 100) := by
    intro p q fp fq hpq
    obtain ⟨k1, k2⟩ := one_step hF (x := p.val + q.val) (by linarith)
    obtain ⟨m1, m2⟩ := Fp.add_fin h0 fp fq k1
    exact ⟨m1, by rw [m2]; exact k2.trans (mul_le_mul_of_nonneg_left (by linarith) u0.le)⟩
  have n1 := abs_nonneg (a.val * e.val)
  have n2 := abs_nonneg (b.val * f.val)
  have n3 := abs_nonneg (c.val * g.val)
  have n4 := abs_nonneg (d.val * h.val)
  obtain ⟨p1, q1⟩ := key fa fe (by linarith)
  obtain ⟨p2, q2⟩ := key fb ff (by linarith)
  obtain ⟨p3, q3⟩ := key fc fg (by linarith)
  obtain ⟨p4, q4⟩ := key fd fh (by linarith)
  generalize a * e = A at *
  generalize b * f = B at *
  generalize c * g = C at *
  generalize d * h = E at *
  generalize a.val * e.val = α at *
  generalize b.val * f.val = β at *
  generalize c.val * g.val = γ at *
  generalize d.val * h.val = δ at *
  have hsu : F.u * (|α| + F.tiny) + F.u * (|β| + F.tiny) + F.u * (|γ| + F.tiny) + F.u * (|δ| + F.tiny) ≤ F.u * (111 / 100) := by
    have : |α| + |β| + |γ| + |δ| + 4 * F.tiny ≤ 111 / 100 := by linarith
    have := mul_le_mul_of_nonneg_left this u0.le
    linarith
  have sm : ∀ x : ℝ, 0 ≤ F.u * (|x| + F.tiny) := fun x => mul_nonneg u0.le (by have := abs_nonneg x; linarith)
  have s1 := sm α
  have s2 := sm β
  have s3 := sm γ
  have s4 := sm δ
  rw [abs_le] at q1 q2 q3 q4
  have a1 := abs_le.1 (le_refl |α|)
  have a2 := abs_le.1 (le_refl |β|)
  have a3 := abs_le.1 (le_refl |γ|)
  have a4 := abs_le.1 (le_refl |δ|)
  obtain ⟨r1, w1⟩ := keya p1 p2 (by rw [abs_le]; constructor <;> linarith)
  rw [abs_le] at w1
  obtain ⟨r2, w2⟩ := keya r1 p3 (by rw [abs_le]; constructor <;> linarith)
  rw [abs_le] at w2
  obtain ⟨r3, w3⟩ := keya r2 p4 (by rw [abs_le]; constructor <;> linarith)
  rw [abs_le] at w3
  exact ⟨r3, by rw [abs_le]; constructor <;> linarith⟩

/-- The computed cosine. -/
private theorem cosine_fp (hF : Spec.Usual F) {px qx : Quat (Fp F)} (hp : Spec.QFinite px) (hq : Spec.QFinite qx) {P Q : Quaternion ℝ} (nP : ‖P‖ = 1) (nQ : ‖Q‖ = 1)
    (eP : ‖Spec.fhval px - P‖ ≤ 14 * F.u) (eQ : ‖Spec.fhval qx - Q‖ ≤ 14 * F.u) : (px.dot qx).Finite ∧ |(px.dot qx).val - Spec.hdot P Q| ≤ 33 * F.u := by
  have u0 := F.u_pos
  have u1 := Usual.u hF
  obtain ⟨p1, p2, p3, p4⟩ := hp
  obtain ⟨q1, q2, q3, q4⟩ := hq
  have lp : ‖Spec.fhval px‖ ≤ 1 + 14 * F.u := by
    have : ‖Spec.fhval px‖ ≤ ‖Spec.fhval px - P‖ + ‖P‖ := by simpa using norm_add_le (Spec.fhval px - P) P
    linarith
  have lq : ‖Spec.fhval qx‖ ≤ 1 + 14 * F.u := by
    have : ‖Spec.fhval qx‖ ≤ ‖Spec.fhval qx - Q‖ + ‖Q‖ := by simpa using norm_add_le (Spec.fhval qx - Q) Q
    linarith
  have e1 := hnorm_sq (Spec.fhval px)
  have e2 := hnorm_sq (Spec.fhval qx)
  have s1 : ‖Spec.fhval px‖ ^ 2 ≤ 11 / 10 := by have := norm_nonneg (Spec.fhval px); nlinarith
  have s2 : ‖Spec.fhval qx‖ ^ 2 ≤ 11 / 10 := by have := norm_nonneg (Spec.fhval qx); nlinarith
  have am : ∀ a b : ℝ, |a * b| ≤ (a ^ 2 + b ^ 2) / 2 := by
    intro a b; rw [abs_le]; constructor <;> nlinarith [sq_nonneg (a + b), sq_nonneg (a - b)]
  obtain ⟨f, h⟩ := dot4 hF (a := px.w) (b := px.x) (c := px.y) (d := px.z) (e := qx.w) (f := qx.x) (g := qx.y) (h := qx.z) (by assumption) (by assumption) (by assumption) (by assumption)
    (by assumption) (by assumption) (by assumption) (by assumption) (by
      have a1 := am px.w.val qx.w.val
      have a2 := am px.x.val qx.x.val
      have a3 := am px.y.val qx.y.val
      have a4 := am px.z.val qx.z.val
      simp only [Spec.fhval] at e1 e2 s1 s2
      linarith)
  refine ⟨f, ?_⟩
  have e3 : px.w.val * qx.w.val + px.x.val * qx.x.val + px.y.val * qx.y.val + px.z.val * qx.z.val - Spec.hdot P Q =
      Spec.hdot (Spec.fhval px - P) (Spec.fhval qx) + Spec.hdot P (Spec.fhval qx - Q) := by
    simp only [Spec.hdot, Quaternion.re_sub, Quaternion.imI_sub, Quaternion.imJ_sub, Quaternion.imK_sub]; simp only [Spec.fhval]; ring
  have c1 := cauchy (Spec.fhval px - P) (Spec.fhval qx)
  have c2 := cauchy P (Spec.fhval qx - Q)
  rw [nP, one_mul] at c2
  have c3 : ‖Spec.fhval px - P‖ * ‖Spec.fhval qx‖ ≤ 14 * F.u * (1 + 14 * F.u) := mul_le_mul eP lq (norm_nonneg _) (by positivity)
  have c4 : 14 * F.u * (1 + 14 * F.u) ≤ 14.2 * F.u := by nlinarith
  show |(px.w * qx.w + px.x * qx.x + px.y * qx.y + px.z * qx.z).val - _| ≤ _
  calc _ = |((px.w * qx.w + px.x * qx.x + px.y * qx.y + px.z * qx.z).val - (px.w.val * qx.w.val + px.x.val * qx.x.val + px.y.val * qx.y.val + px.z.val * qx.z.val)) +
        (Spec.hdot (Spec.fhval px - P) (Spec.fhval qx) + Spec.hdot P (Spec.fhval qx - Q))| := by rw [← e3]; congr 1; ring
    _ ≤ _ := (abs_add_le _ _).trans (add_le_add_right (abs_add_le _ _) _)
    _ ≤ _ := by norm_num at c4; linarith

/-! ## The sine -/

private theorem below_one {x : ℝ} (h : F.Rep x) (h1 : x < 1) : x ≤ 1 - F.u := by
  obtain ⟨k, e, he, hk, rfl⟩ := h
  have hu : F.u * 2 ^ (F.p + 1) = 1 := by unfold Format.u; rw [← mul_pow]; norm_num
  have u0 := F.u_pos
  rcases le_or_gt (-((F.p : Int) + 1)) e with h | h
  · obtain ⟨n, hn⟩ := Int.eq_ofNat_of_zero_le (by omega : 0 ≤ e + (F.p + 1))
    have e1 : (2 : ℝ) ^ e = 2 ^ n * F.u := by
      have e2 : (2 : ℝ) ^ e * 2 ^ (F.p + 1) = 2 ^ n := by
        rw [← zpow_natCast, ← zpow_natCast, ← zpow_add₀ (by norm_num)]; congr 1
      calc (2 : ℝ) ^ e = (2 : ℝ) ^ e * (F.u * 2 ^ (F.p + 1)) := by rw [hu, mul_one]
        _ = (2 : ℝ) ^ e * 2 ^ (F.p + 1) * F.u := by ring
        _ = _ := by rw [e2]
    rw [e1] at h1 ⊢
    have h2 : ((k * 2 ^ n : Int) : ℝ) < ((2 ^ (F.p + 1) : Int) : ℝ) := by
      push_cast
      refine lt_of_mul_lt_mul_right ?_ u0.le
      rw [mul_comm ((2 : ℝ) ^ (F.p + 1)), hu]; linarith
    have h3 : k * 2 ^ n ≤ 2 ^ (F.p + 1) - 1 := by have := Int.cast_lt.1 h2; omega
    have h4 : ((k * 2 ^ n : Int) : ℝ) ≤ ((2 ^ (F.p + 1) - 1 : Int) : ℝ) := Int.cast_le.2 h3
    push_cast at h4
    have := mul_le_mul_of_nonneg_right h4 u0.le
    rw [sub_mul, mul_comm ((2 : ℝ) ^ (F.p + 1)), hu] at this
    linarith
  · have h2 : (k : ℝ) ≤ 2 ^ (F.p + 1) := by
      have := (le_abs_self k).trans hk
      exact_mod_cast this
    have h3 : (2 : ℝ) ^ e ≤ (2 : ℝ) ^ (-((F.p : Int) + 2)) := zpow_le_zpow_right₀ (by norm_num) (by omega)
    have h4 : (2 : ℝ) ^ (F.p + 1) * (2 : ℝ) ^ (-((F.p : Int) + 2)) = 1 / 2 := by
      rw [← zpow_natCast, ← zpow_add₀ (by norm_num)]
      rw [show ((F.p + 1 : ℕ) : Int) + -((F.p : Int) + 2) = -1 by push_cast; ring]
      norm_num
    have h5 : (k : ℝ) * (2 : ℝ) ^ e ≤ 1 / 2 := by
      rw [← h4]
      exact (mul_le_mul_of_nonneg_right h2 (by positivity)).trans (mul_le_mul_of_nonneg_left h3 (by positivity))
    have h6 : F.u ≤ 1 / 2 := by
      unfold Format.u
      calc (2 : ℝ)⁻¹ ^ (F.p + 1) ≤ (2 : ℝ)⁻¹ ^ 1 := pow_le_pow_of_le_one (by norm_num) (by norm_num) (by omega)
        _ = _ := by norm_num
    linarith

private theorem sine_real {u x cc d q sD s : ℝ} (u0 : 0 < u) (u1 : u ≤ 1 / 1024) (h1 : |cc - x ^ 2| ≤ 1.01 * u) (h2 : cc ≤ 1 - u) (h3 : 0 ≤ cc)
    (h4 : |d - (1 - cc)| ≤ 3 * u * (1 - cc)) (q0 : 0 ≤ q) (hq : q ^ 2 = d) (h5 : |sD - q| ≤ u * q) (h6 : |s - sD| ≤ 9 / 8 * u * sD) :
    16 * u ≤ s ∧ |s ^ 2 + x ^ 2 - 1| ≤ 9 * u := by
  have d1 : |d - (1 - cc)| ≤ 3 * u := h4.trans (by nlinarith)
  have dl : 961 * u ^ 2 ≤ d := by
    have := (abs_le.1 h4).1
    nlinarith
  have du : d ≤ 1.003 := by have := (abs_le.1 d1).2; norm_num at *; linarith
  have ql : 31 * u ≤ q := by
    by_contra hc
    push Not at hc
    nlinarith
  obtain ⟨a1, a2⟩ := abs_le.1 h5
  obtain ⟨b1, b2⟩ := abs_le.1 h6
  have e1 : |s - q| ≤ 2.13 * u * q := by
    have : u * sD ≤ u * (q + u * q) := mul_le_mul_of_nonneg_left (by linarith) u0.le
    have : u * (q + u * q) ≤ u * q * (1025 / 1024) := by nlinarith [mul_nonneg u0.le q0]
    rw [abs_le]; constructor <;> norm_num <;> linarith
  obtain ⟨c1, c2⟩ := abs_le.1 e1
  have uq : u * q ≤ 1 / 1024 * q := mul_le_mul_of_nonneg_right u1 q0
  have sl : 0 ≤ s + q := by norm_num at *; linarith
  have su : s + q ≤ 2.003 * q := by norm_num at *; linarith
  refine ⟨by norm_num at *; linarith, ?_⟩
  have e2 : |s ^ 2 - d| ≤ 4.28 * u := by
    rw [← hq, show s ^ 2 - q ^ 2 = (s - q) * (s + q) by ring, abs_mul, abs_of_nonneg sl]
    calc |s - q| * (s + q) ≤ 2.13 * u * q * (2.003 * q) := mul_le_mul e1 su sl (by positivity)
      _ = 4.26639 * u * d := by rw [← hq]; ring
      _ ≤ 4.26639 * u * 1.003 := mul_le_mul_of_nonneg_left du (by positivity)
      _ ≤ _ := by nlinarith
  obtain ⟨g1, g2⟩ := abs_le.1 e2
  obtain ⟨k1, k2⟩ := abs_le.1 d1
  obtain ⟨l1, l2⟩ := abs_le.1 h1
  rw [abs_le]; constructor <;> norm_num at * <;> linarith

set_option maxHeartbeats 1000000 in
/-- The computed sine. -/
private theorem sine_fp (hF : Spec.Usual F) (hD : Spec.Usual D) (hw : Spec.Wider F D) {x : Fp F} (fx : x.Finite) (x0 : 0 ≤ x.val) (x1 : x.val < 1) {s : Fp F}
    (hs : s = Fp.convert F (CMath.sqrt ((1 : Fp D) - Fp.convert D (x * x)))) : s.Finite ∧ 16 * F.u ≤ s.val ∧ |s.val ^ 2 + x.val ^ 2 - 1| ≤ 9 * F.u := by
  obtain ⟨wp, we⟩ := wider_p hw
  have u0 := F.u_pos
  have u1 := Usual.u hF
  have v0 := D.u_pos
  have v1 : D.u ≤ F.u := u_le wp
  have tF := tiny_u hF
  have tD := tiny_u hD
  have t0 := F.tiny_pos
  have hle : x.val ≤ 1 - F.u := below_one (Fp.rep_val fx) x1
  have hxx : |x.val * x.val| ≤ 2 := by rw [abs_le]; constructor <;> nlinarith
  obtain ⟨k1, k2⟩ := one_step hF hxx
  obtain ⟨f1, e1⟩ := Fp.mul_fin (Usual.pos hF) fx fx k1
  have hcc1 : (x * x).val ≤ 1 - F.u := by
    rw [e1]; exact (rnd_le_rep (Fp.rep_val fx) (by nlinarith)).trans hle
  have hcc0 : 0 ≤ (x * x).val := by rw [e1]; exact rnd_nonneg (by positivity)
  have hcc : |(x * x).val - x.val ^ 2| ≤ 1.01 * F.u := by
    rw [e1, sq]; refine k2.trans ?_
    rw [abs_of_nonneg (by positivity)]
    have : x.val * x.val + F.tiny ≤ 1.01 := by norm_num; nlinarith
    rw [mul_comm]; exact mul_le_mul_of_nonneg_right this u0.le
  obtain ⟨f2, e2⟩ := Fp.widen_fin wp we (Usual.pos hF) f1
  obtain ⟨f3, e3⟩ := Fp.one_fin (F := D) (Usual.pos hD)
  have n1 : |(1 : Fp D).val - (Fp.convert D (x * x)).val| ≤ 2 := by rw [e2, e3, abs_le]; constructor <;> linarith
  obtain ⟨k3, k4⟩ := one_step hD n1
  obtain ⟨f4, e4⟩ := Fp.sub_fin (Usual.pos hD) f3 f2 k3
  have hd : |((1 : Fp D) - Fp.convert D (x * x)).val - (1 - (x * x).val)| ≤ 3 * F.u * (1 - (x * x).val) := by
    rw [e4]
    rw [e3, e2, abs_of_nonneg (a := 1 - (x * x).val) (by linarith)] at k4
    rw [e3, e2]
    refine k4.trans ?_
    have : D.u * (1 - (x * x).val + D.tiny) ≤ F.u * (3 * (1 - (x * x).val)) := mul_le_mul v1 (by linarith) (by have := D.tiny_pos; linarith) u0.le
    linarith
  have hd0 : 0 ≤ ((1 : Fp D) - Fp.convert D (x * x)).val := by
    have := (abs_le.1 hd).1
    nlinarith
  obtain ⟨f5, e5⟩ := Fp.sqrt_fin (Usual.pos hD) f4 hd0
  have r1 := sqrt_rel hD.range (Fp.rep_val f4) hd0
  rw [← e5] at r1
  have hq := Real.sq_sqrt hd0
  have q0 := Real.sqrt_nonneg ((1 : Fp D) - Fp.convert D (x * x)).val
  generalize Real.sqrt ((1 : Fp D) - Fp.convert D (x * x)).val = q at r1 hq q0
  replace r1 := r1.trans (mul_le_mul_of_nonneg_right v1 q0)
  have hD1 : ((1 : Fp D) - Fp.convert D (x * x)).val ≤ 2 := by have := (abs_le.1 hd).2; nlinarith
  have hql : 31 * F.u ≤ q := by
    have := (abs_le.1 hd).1
    by_contra hc
    push Not at hc
    nlinarith
  have hqu : q ≤ 3 / 2 := by nlinarith
  obtain ⟨a1, a2⟩ := abs_le.1 r1
  have uq : F.u * q ≤ 1 / 1024 * q := mul_le_mul_of_nonneg_right u1 q0
  have hsl : 16 * F.u ≤ (CMath.sqrt ((1 : Fp D) - Fp.convert D (x * x))).val := by linarith only [a1, hql, uq, u0]
  have hsu : (CMath.sqrt ((1 : Fp D) - Fp.convert D (x * x))).val ≤ 2 := by linarith only [a2, hqu, uq]
  have hsa : |(CMath.sqrt ((1 : Fp D) - Fp.convert D (x * x))).val| ≤ 2 := by rw [abs_of_nonneg (by linarith)]; exact hsu
  obtain ⟨k5, k6⟩ := one_step hF hsa
  obtain ⟨f6, e6⟩ := Fp.convert_fin (G := F) (Usual.pos hF) f5 k5
  rw [← hs] at f6 e6
  rw [abs_of_nonneg (a := (CMath.sqrt ((1 : Fp D) - Fp.convert D (x * x))).val) (by linarith)] at k6
  have h6 : |s.val - (CMath.sqrt ((1 : Fp D) - Fp.convert D (x * x))).val| ≤ 9 / 8 * F.u * (CMath.sqrt ((1 : Fp D) - Fp.convert D (x * x))).val := by
    rw [e6]; refine k6.trans ?_
    have := mul_le_mul_of_nonneg_left (show (CMath.sqrt ((1 : Fp D) - Fp.convert D (x * x))).val + F.tiny ≤ 9 / 8 * (CMath.sqrt ((1 : Fp D) - Fp.convert D (x * x))).val by linarith) u0.le
    linarith
  exact ⟨f6, sine_real u0 u1 hcc hcc1 hcc0 hd q0 hq r1 h6⟩

/-! ## The angle -/

private theorem angle_real {u x s : ℝ} (u0 : 0 < u) (u1 : u ≤ 1 / 1000) (x0 : 0 ≤ x) (hs : 16 * u ≤ s) (h : |s ^ 2 + x ^ 2 - 1| ≤ 9 * u) :
    ∃ r, |r - 1| ≤ 4.6 * u ∧ Real.cos (Complex.arg ⟨x, s⟩) * r = x ∧ Real.sin (Complex.arg ⟨x, s⟩) * r = s ∧ 0 < Complex.arg ⟨x, s⟩ ∧ Complex.arg ⟨x, s⟩ ≤ 17 / 10 ∧
      Complex.arg ⟨x, s⟩ ≤ Real.pi / 2 := by
  have s0 : 0 < s := by linarith
  have hz : (⟨x, s⟩ : ℂ) ≠ 0 := by intro hc; have := congrArg Complex.im hc; simp at this; linarith
  have hn : 0 < ‖(⟨x, s⟩ : ℂ)‖ := norm_pos_iff.2 hz
  have hsq : ‖(⟨x, s⟩ : ℂ)‖ ^ 2 = s ^ 2 + x ^ 2 := by rw [Complex.sq_norm, Complex.normSq_mk]; ring
  have hpi : Complex.arg ⟨x, s⟩ ≤ Real.pi / 2 := Complex.arg_le_pi_div_two_iff.2 (Or.inl x0)
  have h0 : 0 ≤ Complex.arg ⟨x, s⟩ := Complex.arg_nonneg_iff.2 s0.le
  have hsin : Real.sin (Complex.arg ⟨x, s⟩) * ‖(⟨x, s⟩ : ℂ)‖ = s := by rw [Complex.sin_arg, div_mul_cancel₀ _ hn.ne']
  refine ⟨‖(⟨x, s⟩ : ℂ)‖, ?_, ?_, hsin, ?_, by linarith [Real.pi_lt_d2], hpi⟩
  · rw [← hsq] at h
    obtain ⟨a, b⟩ := abs_le.1 h
    generalize ‖(⟨x, s⟩ : ℂ)‖ = r at *
    have hr : 0.99 ≤ r := by norm_num; nlinarith
    rw [abs_le]; constructor
    · by_contra hc
      push Not at hc
      norm_num at *
      nlinarith
    · by_contra hc
      push Not at hc
      norm_num at *
      nlinarith
  · rw [Complex.cos_arg hz, div_mul_cancel₀ _ hn.ne']
  · refine h0.lt_of_ne' fun hc => ?_
    rw [hc, Real.sin_zero, zero_mul] at hsin
    linarith

/-! ## The coefficients -/

/-- The angle in terms of the computed sine. -/
private theorem angle_le {u r ψ s : ℝ} (u0 : 0 < u) (u1 : u ≤ 1 / 1000) (hr : |r - 1| ≤ 4.6 * u) (hs : Real.sin ψ * r = s) (p0 : 0 < ψ) (p1 : ψ ≤ 17 / 10) : ψ ≤ 1.73 * s ∧ s ≤ 1.01 := by
  obtain ⟨a1, a2⟩ := abs_le.1 hr
  have j := jordan17 p0.le p1
  have h1 := Real.sin_le_one ψ
  have h0 : 0 ≤ Real.sin ψ := by linarith
  have r0 : 0.9954 ≤ r := by norm_num at *; linarith
  have r1 : r ≤ 1.0046 := by norm_num at *; linarith
  have k1 := mul_le_mul_of_nonneg_left r0 h0
  have k2 := mul_le_mul_of_nonneg_left r1 h0
  constructor <;> norm_num at * <;> linarith

private theorem quot_real {u ε r ψ s b t N τ : ℝ} (u0 : 0 < u) (hu : u ≤ ε) (hε : ε ≤ 1 / 1000) (hr : |r - 1| ≤ 4.6 * u) (hs : Real.sin ψ * r = s) (p0 : 0 < ψ) (p1 : ψ ≤ 17 / 10)
    (p2 : ψ ≤ Real.pi / 2) (hs16 : 16 * u ≤ s) (b0 : 0 ≤ b) (b1 : b ≤ 1) (ht : |t - b * ψ| ≤ 3.7 * ε * s) (hτ : τ ≤ s / 8) (hN : |N - Real.sin t| ≤ ε * (|t| + τ)) :
    |N / s - Spec.sinRatio b ψ| ≤ 10.4 * ε ∧ |Spec.sinRatio b ψ| ≤ 1 := by
  have s0 : 0 < s := by linarith
  have ε0 : 0 < ε := by linarith
  obtain ⟨hp, hs1⟩ := angle_le u0 (hu.trans hε) hr hs p0 p1
  obtain ⟨a1, a2⟩ := abs_le.1 hr
  have r0 : 0.9954 ≤ r := by norm_num at *; linarith
  have rpos : 0 < r := by norm_num at r0; linarith
  have hsin : 0 < Real.sin ψ := by
    refine Real.sin_pos_of_pos_of_lt_pi p0 (by linarith [Real.pi_gt_three])
  have hR : Spec.sinRatio b ψ = Real.sin (b * ψ) / Real.sin ψ := by rw [Spec.sinRatio, if_neg p0.ne']
  have hbp : b * ψ ≤ ψ := mul_le_of_le_one_left p0.le b1
  have hb0 : 0 ≤ b * ψ := by positivity
  have R0 : 0 ≤ Spec.sinRatio b ψ := by
    rw [hR]; exact div_nonneg (Real.sin_nonneg_of_nonneg_of_le_pi hb0 (by linarith [Real.pi_gt_three])) hsin.le
  have R1 : Spec.sinRatio b ψ ≤ 1 := by
    rw [hR, div_le_one hsin]
    exact Real.sin_le_sin_of_le_of_le_pi_div_two (by linarith [Real.pi_pos]) p2 hbp
  refine ⟨?_, by rwa [abs_of_nonneg R0]⟩
  have e1 : |N - Real.sin (b * ψ)| ≤ 5.7 * ε * s := by
    have l : |Real.sin t - Real.sin (b * ψ)| ≤ |t - b * ψ| := by
      have := Real.lipschitzWith_sin.dist_le_mul t (b * ψ)
      simpa [Real.dist_eq] using this
    have ta : |t| + τ ≤ 1.9 * s := by
      have : |t| ≤ |t - b * ψ| + |b * ψ| := by simpa using abs_add_le (t - b * ψ) (b * ψ)
      rw [abs_of_nonneg hb0] at this
      have : 3.7 * ε * s ≤ 0.01 * s := mul_le_mul_of_nonneg_right (by norm_num; linarith) s0.le
      norm_num at *
      linarith
    have := mul_le_mul_of_nonneg_left ta ε0.le
    calc _ = |(N - Real.sin t) + (Real.sin t - Real.sin (b * ψ))| := by congr 1; ring
      _ ≤ _ := abs_add_le _ _
      _ ≤ _ := by norm_num at *; linarith [mul_nonneg ε0.le s0.le]
  have e2 : |N / s - Real.sin (b * ψ) / s| ≤ 5.7 * ε := by
    rw [← sub_div, abs_div, abs_of_pos s0, div_le_iff₀ s0]; exact e1
  have e3 : Real.sin (b * ψ) / s = Spec.sinRatio b ψ / r := by
    rw [hR, ← hs, div_div]
  have e4 : |Spec.sinRatio b ψ / r - Spec.sinRatio b ψ| ≤ 4.7 * u := by
    rw [show Spec.sinRatio b ψ / r - Spec.sinRatio b ψ = Spec.sinRatio b ψ * (1 - r) / r by field_simp, abs_div, abs_mul, abs_of_nonneg R0, abs_of_pos rpos, div_le_iff₀ rpos, abs_sub_comm]
    calc Spec.sinRatio b ψ * |r - 1| ≤ 1 * (4.6 * u) := mul_le_mul R1 hr (abs_nonneg _) (by norm_num)
      _ ≤ 4.7 * u * r := by norm_num at *; nlinarith
  rw [e3] at e2
  calc _ = |(N / s - Spec.sinRatio b ψ / r) + (Spec.sinRatio b ψ / r - Spec.sinRatio b ψ)| := by congr 1; ring
    _ ≤ _ := abs_add_le _ _
    _ ≤ _ := by norm_num at *; linarith

private theorem coeff_real {u ε ψ b c q φ : ℝ} (u0 : 0 < u) (hu : u ≤ ε) (hε : ε ≤ 1 / 1000) (p0 : 0 < ψ) (p1 : ψ ≤ 17 / 10) (b0 : 0 ≤ b) (b1 : b ≤ 1) (g0 : 0 ≤ φ) (g1 : φ ≤ 17 / 10)
    (hC : |Real.cos ψ - Real.cos φ| ≤ 37.7 * u) (hc : |c - q| ≤ 2.2 * u) (h : |q - Spec.sinRatio b ψ| ≤ 10.4 * ε ∧ |Spec.sinRatio b ψ| ≤ 1) :
    |c - Spec.sinRatio b φ| ≤ 40 * ε ∧ |Spec.sinRatio b φ| ≤ 21 / 20 := by
  have l := sinRatio_lip b0 b1 p0.le p1 g0 g1
  obtain ⟨h1, h2⟩ := h
  obtain ⟨a1, a2⟩ := abs_le.1 (l.trans (mul_le_mul_of_nonneg_left hC (by norm_num)))
  rw [abs_le] at hc h1 h2
  constructor
  · rw [abs_le]; constructor <;> norm_num at * <;> linarith
  · rw [abs_le]; constructor <;> norm_num at * <;> linarith

set_option maxHeartbeats 1000000 in
/-- The second coefficient, all in `T`. -/
private theorem coeff2_fp (hF : Spec.Usual F) {σ r ψ : ℝ} (σ0 : 0 ≤ σ) (hε : σ + F.u ≤ 1 / 1000) {sinF : Fp F → Fp F} (hsin : Spec.SinFn sinF σ) {a θ s : Fp F} (fa : a.Finite) (fθ : θ.Finite)
    (fs : s.Finite) (a0 : 0 ≤ a.val) (a1 : a.val ≤ 1) (hr : |r - 1| ≤ 4.6 * F.u) (hs : Real.sin ψ * r = s.val) (p0 : 0 < ψ) (p1 : ψ ≤ 17 / 10) (p2 : ψ ≤ Real.pi / 2)
    (hs16 : 16 * F.u ≤ s.val) (hθ : |θ.val - ψ| ≤ σ * ψ) {φ : ℝ} (g0 : 0 ≤ φ) (g1 : φ ≤ 17 / 10) (hC : |Real.cos ψ - Real.cos φ| ≤ 37.7 * F.u) :
    FClose (σ + F.u) 40 (21 / 20) (sinF (a * θ) / s) (Spec.sinRatio a.val φ) := by
  have u0 := F.u_pos
  have u1 := Usual.u hF
  have t0 := F.tiny_pos
  have tF := tiny_u hF
  have s0 : 0 < s.val := by linarith
  obtain ⟨hp, hs1⟩ := angle_le u0 (by linarith) hr hs p0 p1
  have hσψ : σ * ψ ≤ 1 / 1000 * ψ := mul_le_mul_of_nonneg_right (by linarith) p0.le
  obtain ⟨c1, c2⟩ := abs_le.1 hθ
  have θ0 : 0 ≤ θ.val := by linarith
  have θ1 : θ.val ≤ 1.001 * ψ := by norm_num; linarith
  have aθ0 : 0 ≤ a.val * θ.val := by positivity
  have aθ1 : a.val * θ.val ≤ θ.val := mul_le_of_le_one_left θ0 a1
  have m : |a.val * θ.val| ≤ 2 := by rw [abs_of_nonneg aθ0]; norm_num at *; linarith
  obtain ⟨k1, k2⟩ := one_step hF m
  obtain ⟨f1, e1⟩ := Fp.mul_fin (Usual.pos hF) fa fθ k1
  rw [abs_of_nonneg aθ0, ← e1] at k2
  have ht : |(a * θ).val - a.val * ψ| ≤ 3.7 * (σ + F.u) * s.val := by
    have h1 : |a.val * θ.val - a.val * ψ| ≤ σ * ψ := by
      rw [← mul_sub, abs_mul, abs_of_nonneg a0]
      exact (mul_le_of_le_one_left (abs_nonneg _) a1).trans hθ
    have h2 : F.u * (a.val * θ.val + F.tiny) ≤ F.u * (3 * s.val) := mul_le_mul_of_nonneg_left (by norm_num at *; linarith) u0.le
    have h3 : σ * ψ ≤ σ * (1.73 * s.val) := mul_le_mul_of_nonneg_left hp σ0
    calc _ = |((a * θ).val - a.val * θ.val) + (a.val * θ.val - a.val * ψ)| := by congr 1; ring
      _ ≤ _ := abs_add_le _ _
      _ ≤ _ := by norm_num at *; linarith [mul_nonneg σ0 s0.le, mul_nonneg u0.le s0.le]
  have tb : |(a * θ).val| ≤ 2 := by
    have : |(a * θ).val| ≤ |(a * θ).val - a.val * ψ| + |a.val * ψ| := by simpa using abs_add_le ((a * θ).val - a.val * ψ) (a.val * ψ)
    rw [abs_of_nonneg (a := a.val * ψ) (by positivity)] at this
    have h2 : a.val * ψ ≤ ψ := mul_le_of_le_one_left p0.le a1
    have h3 : 3.7 * (σ + F.u) * s.val ≤ 0.01 * 1.01 := mul_le_mul (by norm_num; linarith) hs1 s0.le (by norm_num)
    norm_num at *
    linarith
  obtain ⟨f2, e2⟩ := hsin _ f1 tb
  have e3 : |(sinF (a * θ)).val - Real.sin (a * θ).val| ≤ (σ + F.u) * (|(a * θ).val| + F.tiny) :=
    e2.trans (mul_le_mul_of_nonneg_right (by linarith) (by have := abs_nonneg (a * θ).val; linarith))
  have q := quot_real u0 (by linarith : F.u ≤ σ + F.u) hε hr hs p0 p1 p2 hs16 a0 a1 ht (by linarith : F.tiny ≤ s.val / 8) e3
  have qb : |(sinF (a * θ)).val / s.val| ≤ 1.02 := by
    obtain ⟨q1, q2⟩ := q
    have : |(sinF (a * θ)).val / s.val| ≤ |(sinF (a * θ)).val / s.val - Spec.sinRatio a.val ψ| + |Spec.sinRatio a.val ψ| := by
      simpa using abs_add_le ((sinF (a * θ)).val / s.val - Spec.sinRatio a.val ψ) (Spec.sinRatio a.val ψ)
    norm_num at *
    linarith
  obtain ⟨k3, k4⟩ := one_step hF (qb.trans (by norm_num))
  obtain ⟨f3, e4⟩ := Fp.div_fin (Usual.pos hF) f2 fs s0.ne' k3
  rw [← e4] at k4
  exact ⟨f3, coeff_real u0 (by linarith : F.u ≤ σ + F.u) hε p0 p1 a0 a1 g0 g1 hC (k4.trans (by
    rw [mul_comm]; exact mul_le_mul_of_nonneg_right (by norm_num at *; linarith) u0.le)) q⟩

set_option maxHeartbeats 1000000 in
/-- The first coefficient, in `double`. -/
private theorem coeff1_fp (hF : Spec.Usual F) (hD : Spec.Usual D) (hw : Spec.Wider F D) {σ r ψ : ℝ} (σ0 : 0 ≤ σ) (hε : σ + F.u ≤ 1 / 1000) {sinD : Fp D → Fp D} (hsin : Spec.SinFn sinD σ)
    {a θ s : Fp F} (fa : a.Finite) (fθ : θ.Finite)
    (fs : s.Finite) (a0 : 0 ≤ a.val) (a1 : a.val ≤ 1) (hr : |r - 1| ≤ 4.6 * F.u) (hs : Real.sin ψ * r = s.val) (p0 : 0 < ψ) (p1 : ψ ≤ 17 / 10) (p2 : ψ ≤ Real.pi / 2)
    (hs16 : 16 * F.u ≤ s.val) (hθ : |θ.val - ψ| ≤ σ * ψ) {φ : ℝ} (g0 : 0 ≤ φ) (g1 : φ ≤ 17 / 10) (hC : |Real.cos ψ - Real.cos φ| ≤ 37.7 * F.u) :
    FClose (σ + F.u) 40 (21 / 20) (Fp.convert F (sinD (((1 : Fp D) - Fp.convert D a) * Fp.convert D θ) / Fp.convert D s)) (Spec.sinRatio (1 - a.val) φ) := by
  obtain ⟨wp, we⟩ := wider_p hw
  have u0 := F.u_pos
  have u1 := Usual.u hF
  have v0 := D.u_pos
  have v1 : D.u ≤ F.u := u_le wp
  have t0 := F.tiny_pos
  have tF := tiny_u hF
  have d0 := D.tiny_pos
  have tD := tiny_u hD
  have s0 : 0 < s.val := by linarith
  obtain ⟨hp, hs1⟩ := angle_le u0 (by linarith) hr hs p0 p1
  have hσψ : σ * ψ ≤ 1 / 1000 * ψ := mul_le_mul_of_nonneg_right (by linarith) p0.le
  obtain ⟨c1, c2⟩ := abs_le.1 hθ
  have θ0 : 0 ≤ θ.val := by linarith
  have θ1 : θ.val ≤ 1.001 * ψ := by norm_num; linarith
  obtain ⟨fA, eA⟩ := Fp.widen_fin wp we (Usual.pos hF) fa
  obtain ⟨fT, eT⟩ := Fp.widen_fin wp we (Usual.pos hF) fθ
  obtain ⟨fS, eS⟩ := Fp.widen_fin wp we (Usual.pos hF) fs
  obtain ⟨f1', e1'⟩ := Fp.one_fin (F := D) (Usual.pos hD)
  have m1 : |(1 : Fp D).val - (Fp.convert D a).val| ≤ 2 := by rw [e1', eA, abs_le]; constructor <;> linarith
  obtain ⟨k1, k2⟩ := one_step hD m1
  obtain ⟨f1, e1⟩ := Fp.sub_fin (Usual.pos hD) f1' fA k1
  rw [← e1, e1', eA, abs_of_nonneg (a := 1 - a.val) (by linarith)] at k2
  have b0 : 0 ≤ ((1 : Fp D) - Fp.convert D a).val := by rw [e1, e1', eA]; exact rnd_nonneg (by linarith)
  have b1 : ((1 : Fp D) - Fp.convert D a).val ≤ 1 := by
    rw [e1, e1', eA]
    have : D.Rep 1 := by rw [← e1']; exact Fp.rep_val f1'
    exact rnd_le_rep this (by linarith)
  have hb : |((1 : Fp D) - Fp.convert D a).val - (1 - a.val)| ≤ 1.01 * F.u := k2.trans (by
    rw [mul_comm]; exact mul_le_mul (by norm_num; linarith) v1 v0.le (by norm_num))
  generalize (1 : Fp D) - Fp.convert D a = b at *
  have bθ0 : 0 ≤ b.val * θ.val := by positivity
  have bθ1 : b.val * θ.val ≤ θ.val := mul_le_of_le_one_left θ0 b1
  have m : |b.val * (Fp.convert D θ).val| ≤ 2 := by rw [eT, abs_of_nonneg bθ0]; norm_num at *; linarith
  obtain ⟨k3, k4⟩ := one_step hD m
  obtain ⟨f2, e2⟩ := Fp.mul_fin (Usual.pos hD) f1 fT k3
  rw [← e2, eT, abs_of_nonneg bθ0] at k4
  have ht : |(b * Fp.convert D θ).val - (1 - a.val) * ψ| ≤ 3.7 * (σ + F.u) * s.val := by
    have h1 : |b.val * θ.val - b.val * ψ| ≤ σ * ψ := by
      rw [← mul_sub, abs_mul, abs_of_nonneg b0]
      exact (mul_le_of_le_one_left (abs_nonneg _) b1).trans hθ
    have h4 : |b.val * ψ - (1 - a.val) * ψ| ≤ 1.01 * F.u * ψ := by
      rw [← sub_mul, abs_mul, abs_of_pos p0]
      exact mul_le_mul_of_nonneg_right hb p0.le
    have h5 : 1.01 * F.u * ψ ≤ 1.01 * F.u * (1.73 * s.val) := mul_le_mul_of_nonneg_left hp (by positivity)
    have h2 : D.u * (b.val * θ.val + D.tiny) ≤ F.u * (1.9 * s.val) := mul_le_mul v1 (by norm_num at *; linarith) (by linarith) u0.le
    have h3 : σ * ψ ≤ σ * (1.73 * s.val) := mul_le_mul_of_nonneg_left hp σ0
    calc _ = |((b * Fp.convert D θ).val - b.val * θ.val) + ((b.val * θ.val - b.val * ψ) + (b.val * ψ - (1 - a.val) * ψ))| := by congr 1; ring
      _ ≤ _ := (abs_add_le _ _).trans (add_le_add_right (abs_add_le _ _) _)
      _ ≤ _ := by norm_num at *; linarith [mul_nonneg σ0 s0.le, mul_nonneg u0.le s0.le]
  generalize b * Fp.convert D θ = t at *
  have tb : |t.val| ≤ 2 := by
    have : |t.val| ≤ |t.val - (1 - a.val) * ψ| + |(1 - a.val) * ψ| := by simpa using abs_add_le (t.val - (1 - a.val) * ψ) ((1 - a.val) * ψ)
    have h2 : (1 - a.val) * ψ ≤ ψ := mul_le_of_le_one_left p0.le (by linarith)
    rw [abs_of_nonneg (a := (1 - a.val) * ψ) (mul_nonneg (by linarith) p0.le)] at this
    have h3 : 3.7 * (σ + F.u) * s.val ≤ 0.01 * 1.01 := mul_le_mul (by norm_num; linarith) hs1 s0.le (by norm_num)
    norm_num at *
    linarith
  obtain ⟨f3, e3⟩ := hsin _ f2 tb
  have e3 : |(sinD t).val - Real.sin t.val| ≤ (σ + F.u) * (|t.val| + D.tiny) :=
    e3.trans (mul_le_mul_of_nonneg_right (by linarith) (by have := abs_nonneg t.val; linarith))
  have q := quot_real u0 (by linarith : F.u ≤ σ + F.u) hε hr hs p0 p1 p2 hs16 (by linarith) (by linarith) ht (by linarith : D.tiny ≤ s.val / 8) e3
  have qb : |(sinD t).val / (Fp.convert D s).val| ≤ 1.02 := by
    rw [eS]
    obtain ⟨q1, q2⟩ := q
    have : |(sinD t).val / s.val| ≤ |(sinD t).val / s.val - Spec.sinRatio (1 - a.val) ψ| + |Spec.sinRatio (1 - a.val) ψ| := by
      simpa using abs_add_le ((sinD t).val / s.val - Spec.sinRatio (1 - a.val) ψ) (Spec.sinRatio (1 - a.val) ψ)
    norm_num at *
    linarith
  obtain ⟨k5, k6⟩ := one_step hD (qb.trans (by norm_num))
  obtain ⟨f4, e4⟩ := Fp.div_fin (Usual.pos hD) f3 fS (by rw [eS]; exact s0.ne') k5
  rw [← e4] at k6
  have k7 : |(sinD t / Fp.convert D s).val - (sinD t).val / (Fp.convert D s).val| ≤ 1.03 * F.u := k6.trans (by
    rw [mul_comm]; exact mul_le_mul (by norm_num at *; linarith) v1 v0.le (by norm_num))
  generalize sinD t / Fp.convert D s = w at *
  have wb : |w.val| ≤ 1.03 := by
    have : |w.val| ≤ |w.val - (sinD t).val / (Fp.convert D s).val| + |(sinD t).val / (Fp.convert D s).val| := by
      simpa using abs_add_le (w.val - (sinD t).val / (Fp.convert D s).val) ((sinD t).val / (Fp.convert D s).val)
    norm_num at *
    linarith
  obtain ⟨k8, k9⟩ := one_step hF (wb.trans (by norm_num))
  obtain ⟨f5, e5⟩ := Fp.convert_fin (G := F) (Usual.pos hF) f4 k8
  rw [← e5] at k9
  have k10 : |(Fp.convert F w).val - w.val| ≤ 1.04 * F.u := k9.trans (by
    rw [mul_comm]; exact mul_le_mul_of_nonneg_right (by norm_num at *; linarith) u0.le)
  refine ⟨f5, coeff_real u0 (by linarith : F.u ≤ σ + F.u) hε p0 p1 (by linarith) (by linarith) g0 g1 hC (q := (sinD t).val / s.val) ?_ q⟩
  rw [eS] at k7
  calc _ = |((Fp.convert F w).val - w.val) + (w.val - (sinD t).val / s.val)| := by congr 1; ring
    _ ≤ _ := abs_add_le _ _
    _ ≤ _ := by norm_num at *; linarith

/-! ## The components -/

private theorem comp_le (Q : Quaternion ℝ) : |Q.re| ≤ ‖Q‖ ∧ |Q.imI| ≤ ‖Q‖ ∧ |Q.imJ| ≤ ‖Q‖ ∧ |Q.imK| ≤ ‖Q‖ := by
  have h := hnorm_sq Q
  have h0 := norm_nonneg Q
  refine ⟨?_, ?_, ?_, ?_⟩ <;> refine abs_le_of_sq_le_sq ?_ h0 <;> rw [h] <;> nlinarith [sq_nonneg Q.re, sq_nonneg Q.imI, sq_nonneg Q.imJ, sq_nonneg Q.imK]

/-- The norm is at most the sum of the magnitudes of the components. -/
private theorem norm_le_comp (Q : Quaternion ℝ) {e : ℝ} (h1 : |Q.re| ≤ e) (h2 : |Q.imI| ≤ e) (h3 : |Q.imJ| ≤ e) (h4 : |Q.imK| ≤ e) : ‖Q‖ ≤ 2 * e := by
  have h := hnorm_sq Q
  have e0 : 0 ≤ e := (abs_nonneg _).trans h1
  refine abs_le_of_sq_le_sq ?_ (by linarith) |>.trans' (le_abs_self _)
  rw [h]
  have := sq_le_sq' (abs_le.1 h1).1 (abs_le.1 h1).2
  have := sq_le_sq' (abs_le.1 h2).1 (abs_le.1 h2).2
  have := sq_le_sq' (abs_le.1 h3).1 (abs_le.1 h3).2
  have := sq_le_sq' (abs_le.1 h4).1 (abs_le.1 h4).2
  linarith

private theorem comps {ε : ℝ} (hu : F.u ≤ ε) {px : Quat (Fp F)} (hp : Spec.QFinite px) {P : Quaternion ℝ} (nP : ‖P‖ = 1) (eP : ‖Spec.fhval px - P‖ ≤ 14 * F.u) :
    FClose ε 14 1 px.w P.re ∧ FClose ε 14 1 px.x P.imI ∧ FClose ε 14 1 px.y P.imJ ∧ FClose ε 14 1 px.z P.imK := by
  obtain ⟨p1, p2, p3, p4⟩ := hp
  obtain ⟨a1, a2, a3, a4⟩ := comp_le P
  obtain ⟨b1, b2, b3, b4⟩ := comp_le (Spec.fhval px - P)
  rw [nP] at a1 a2 a3 a4
  rw [Quaternion.re_sub] at b1
  rw [Quaternion.imI_sub] at b2
  rw [Quaternion.imJ_sub] at b3
  rw [Quaternion.imK_sub] at b4
  have e : ‖Spec.fhval px - P‖ ≤ 14 * ε := by linarith
  exact ⟨⟨by assumption, b1.trans e, a1⟩, ⟨by assumption, b2.trans e, a2⟩, ⟨by assumption, b3.trans e, a3⟩, ⟨by assumption, b4.trans e, a4⟩⟩

/-- The linear combination of the standard case. -/
private theorem combineA (hF : Spec.Usual F) {ε : ℝ} (hu : F.u ≤ ε) (hε : ε ≤ 1 / 1000) {px qx : Quat (Fp F)} (hp : Spec.QFinite px) (hq : Spec.QFinite qx) {P Q : Quaternion ℝ} (nP : ‖P‖ = 1)
    (nQ : ‖Q‖ = 1) (eP : ‖Spec.fhval px - P‖ ≤ 14 * F.u) (eQ : ‖Spec.fhval qx - Q‖ ≤ 14 * F.u) {c1 c2 : Fp F} {C1 C2 : ℝ} (h1 : FClose ε 40 (21 / 20) c1 C1) (h2 : FClose ε 40 (21 / 20) c2 C2) :
    Spec.QClose ((px.mulAssignS c1).addAssign (.other (qx.mulAssignS c2))) (C1 • P + C2 • Q) (130 * ε) := by
  obtain ⟨a1, a2, a3, a4⟩ := comps hu hp nP eP
  obtain ⟨b1, b2, b3, b4⟩ := comps hu hq nQ eQ
  have key : ∀ {a b : Fp F} {A B : ℝ}, FClose ε 14 1 a A → FClose ε 14 1 b B → (a * c1 + b * c2).Finite ∧ |(a * c1 + b * c2).val - (C1 * A + C2 * B)| ≤ 130 * ε := by
    intro a b A B ha hb
    have m1 := FClose.mul hF hu (by linarith) (k' := 63) ha h1 (by norm_num) (by norm_num) (by norm_num) (by norm_num) (by norm_num) (by norm_num) (by norm_num)
    have m2 := FClose.mul hF hu (by linarith) (k' := 63) hb h2 (by norm_num) (by norm_num) (by norm_num) (by norm_num) (by norm_num) (by norm_num) (by norm_num)
    obtain ⟨f, e, -⟩ := FClose.add hF hu (by linarith) (k' := 130) m1 m2 (by norm_num) (by norm_num) (by norm_num) (by norm_num) (by norm_num)
    exact ⟨f, by rw [mul_comm C1, mul_comm C2]; exact e⟩
  obtain ⟨k1, l1⟩ := key a1 b1
  obtain ⟨k2, l2⟩ := key a2 b2
  obtain ⟨k3, l3⟩ := key a3 b3
  obtain ⟨k4, l4⟩ := key a4 b4
  refine ⟨⟨?_, ?_, ?_, ?_⟩, ?_, ?_, ?_, ?_⟩ <;> first | exact k1 | exact k2 | exact k3 | exact k4 | skip
  · rw [Quaternion.re_add, Quaternion.re_smul, Quaternion.re_smul]; exact l1
  · rw [Quaternion.imI_add, Quaternion.imI_smul, Quaternion.imI_smul]; exact l2
  · rw [Quaternion.imJ_add, Quaternion.imJ_smul, Quaternion.imJ_smul]; exact l3
  · rw [Quaternion.imK_add, Quaternion.imK_smul, Quaternion.imK_smul]; exact l4

/-- The linear combination for small angles. -/
private theorem combineB (hF : Spec.Usual F) {ε : ℝ} (hu : F.u ≤ ε) (hε : ε ≤ 1 / 1000) {px qx : Quat (Fp F)} (hp : Spec.QFinite px) (hq : Spec.QFinite qx) {P Q : Quaternion ℝ} (nP : ‖P‖ = 1)
    (nQ : ‖Q‖ = 1) (eP : ‖Spec.fhval px - P‖ ≤ 14 * F.u) (eQ : ‖Spec.fhval qx - Q‖ ≤ 14 * F.u) {c1 c2 : Fp F} {C1 C2 : ℝ} (h1 : FClose ε 2.1 1 c1 C1) (h2 : FClose ε 0 1 c2 C2) :
    Spec.QClose ((px.mulAssignS c1).addAssign (.other (qx.mulAssignS c2))) (C1 • P + C2 • Q) (36 * ε) := by
  obtain ⟨a1, a2, a3, a4⟩ := comps hu hp nP eP
  obtain ⟨b1, b2, b3, b4⟩ := comps hu hq nQ eQ
  have key : ∀ {a b : Fp F} {A B : ℝ}, FClose ε 14 1 a A → FClose ε 14 1 b B → (a * c1 + b * c2).Finite ∧ |(a * c1 + b * c2).val - (C1 * A + C2 * B)| ≤ 36 * ε := by
    intro a b A B ha hb
    have m1 := FClose.mul hF hu (by linarith) (k' := 17.7) ha h1 (by norm_num) (by norm_num) (by norm_num) (by norm_num) (by norm_num) (by norm_num) (by norm_num)
    have m2 := FClose.mul hF hu (by linarith) (k' := 15.2) hb h2 (by norm_num) (by norm_num) (by norm_num) (by norm_num) (by norm_num) (by norm_num) (by norm_num)
    obtain ⟨f, e, -⟩ := FClose.add hF hu (by linarith) (k' := 36) m1 m2 (by norm_num) (by norm_num) (by norm_num) (by norm_num) (by norm_num)
    exact ⟨f, by rw [mul_comm C1, mul_comm C2]; exact e⟩
  obtain ⟨k1, l1⟩ := key a1 b1
  obtain ⟨k2, l2⟩ := key a2 b2
  obtain ⟨k3, l3⟩ := key a3 b3
  obtain ⟨k4, l4⟩ := key a4 b4
  refine ⟨⟨?_, ?_, ?_, ?_⟩, ?_, ?_, ?_, ?_⟩ <;> first | exact k1 | exact k2 | exact k3 | exact k4 | skip
  · rw [Quaternion.re_add, Quaternion.re_smul, Quaternion.re_smul]; exact l1
  · rw [Quaternion.imI_add, Quaternion.imI_smul, Quaternion.imI_smul]; exact l2
  · rw [Quaternion.imJ_add, Quaternion.imJ_smul, Quaternion.imJ_smul]; exact l3
  · rw [Quaternion.imK_add, Quaternion.imK_smul, Quaternion.imK_smul]; exact l4

/-! ## Normalising -/

private theorem norm_const4 {u e : ℝ} (u0 : 0 < u) (u1 : u ≤ 1 / 1024) (he : e = (1 + 2 * Spec.gamma u 4) * (1 + u) - 1) : e ≤ 1 / 2 ∧ (1 + u) ^ 2 / (1 - e) - 1 ≤ 12 * u := by
  have g0 : 0 ≤ Spec.gamma u 4 := by unfold Spec.gamma; exact div_nonneg (by positivity) (by push_cast; linarith)
  have g1 : Spec.gamma u 4 ≤ 4.02 * u := by
    unfold Spec.gamma
    rw [div_le_iff₀ (by push_cast; linarith)]
    push_cast; nlinarith
  have e1 : e ≤ 9.05 * u := by rw [he]; nlinarith
  have d : 0 < 1 - e := by linarith
  refine ⟨by linarith, ?_⟩
  rw [sub_le_iff_le_add, div_le_iff₀ d]; nlinarith

/-- `normalize` up to `14 u`. -/
private theorem norm14 (hF : Spec.Usual F) {q : Quat (Fp F)} (hq : Spec.QFinite q) (hlo : F.tiny ≤ ‖Spec.fhval q‖ ^ 2) (hhi : ‖Spec.fhval q‖ ^ 2 + 4 * F.eta ≤ (1 - 4 * F.u) * F.maxFinite) :
    Spec.QFinite q.normalize.1 ∧ ‖Spec.fhval q.normalize.1 - ‖Spec.fhval q‖⁻¹ • Spec.fhval q‖ ≤ 14 * F.u ∧ ‖‖Spec.fhval q‖⁻¹ • Spec.fhval q‖ = 1 := by
  have u0 := F.u_pos
  have u1 := Usual.u hF
  obtain ⟨e1, e2⟩ := norm_const4 (e := Spec.flenErr F 4) u0 u1 rfl
  obtain ⟨n1, n2, -⟩ := C114_normalize hF.range (by have := hF.digits; have := hF.range; omega) (by linarith) e1 q hq hlo hhi
  have he : F.eta ≤ F.u := by
    rw [Format.eta_eq_tiny]; exact mul_le_of_le_one_right u0.le (tiny_le_one (Usual.pos hF))
  refine ⟨n1, n2.trans (by linarith), ?_⟩
  have t0 := F.tiny_pos
  have : ‖Spec.fhval q‖ ≠ 0 := by intro h; rw [h] at hlo; norm_num at hlo; linarith
  rw [norm_smul, norm_inv, norm_norm, inv_mul_cancel₀ this]

/-! ## The two cases -/

/-- The program after the choice of the sign. -/
private noncomputable def slerpTail (atan2F : Fp F → Fp F → Fp F) (sinD : Fp D → Fp D) (sinF : Fp F → Fp F) (a : Fp F) (px qx : Quat (Fp F)) (cosine epsilon : Fp F) : Quat (Fp F) :=
  if CMath.fabs cosine < (Fp.convert F ((1 : Fp D) - Fp.convert D epsilon) : Fp F) then
    let sine : Fp F := Fp.convert F (CMath.sqrt ((1 : Fp D) - Fp.convert D (cosine * cosine)))
    let angle := atan2F sine cosine
    (px.mulAssignS (Fp.convert F (sinD (((1 : Fp D) - Fp.convert D a) * Fp.convert D angle) / Fp.convert D sine))).addAssign (.other (qx.mulAssignS (sinF (a * angle) / sine)))
  else ((px.mulAssignS (Fp.convert F ((1 : Fp D) - Fp.convert D a))).addAssign (.other (qx.mulAssignS a))).normalize.1

private theorem slerp_tail (atan2F : Fp F → Fp F → Fp F) (sinD : Fp D → Fp D) (sinF : Fp F → Fp F) (a : Fp F) (p q : Quat (Fp F)) (epsilon : Fp F) :
    slerpFp atan2F sinD sinF a p q epsilon = if p.getNormalized.dot q.getNormalized < 0 then
      slerpTail atan2F sinD sinF a p.getNormalized q.getNormalized.neg (-(p.getNormalized.dot q.getNormalized)) epsilon
    else slerpTail atan2F sinD sinF a p.getNormalized q.getNormalized (p.getNormalized.dot q.getNormalized) epsilon := by
  unfold slerpFp slerpTail
  by_cases h : p.getNormalized.dot q.getNormalized < 0
  · simp only [if_pos h]
  · simp only [if_neg h]

/-- `1. - a`, converted. -/
private theorem one_minus (hF : Spec.Usual F) (hD : Spec.Usual D) (hw : Spec.Wider F D) {a : Fp F} (fa : a.Finite) (a0 : 0 ≤ a.val) (a1 : a.val ≤ 1) :
    (Fp.convert F ((1 : Fp D) - Fp.convert D a)).Finite ∧ |(Fp.convert F ((1 : Fp D) - Fp.convert D a)).val - (1 - a.val)| ≤ 2.1 * F.u ∧
      (Fp.convert F ((1 : Fp D) - Fp.convert D a)).val ≤ 1 := by
  obtain ⟨wp, we⟩ := wider_p hw
  have u0 := F.u_pos
  have u1 := Usual.u hF
  have v0 := D.u_pos
  have v1 : D.u ≤ F.u := u_le wp
  have tF := tiny_u hF
  have tD := tiny_u hD
  obtain ⟨fA, eA⟩ := Fp.widen_fin wp we (Usual.pos hF) fa
  obtain ⟨f1', e1'⟩ := Fp.one_fin (F := D) (Usual.pos hD)
  obtain ⟨f1'', e1''⟩ := Fp.one_fin (F := F) (Usual.pos hF)
  have m1 : |(1 : Fp D).val - (Fp.convert D a).val| ≤ 2 := by rw [e1', eA, abs_le]; constructor <;> linarith
  obtain ⟨k1, k2⟩ := one_step hD m1
  obtain ⟨f1, e1⟩ := Fp.sub_fin (Usual.pos hD) f1' fA k1
  rw [← e1, e1', eA, abs_of_nonneg (a := 1 - a.val) (by linarith)] at k2
  have b0 : 0 ≤ ((1 : Fp D) - Fp.convert D a).val := by rw [e1, e1', eA]; exact rnd_nonneg (by linarith)
  have b1 : ((1 : Fp D) - Fp.convert D a).val ≤ 1 := by
    rw [e1, e1', eA]
    have : D.Rep 1 := by rw [← e1']; exact Fp.rep_val f1'
    exact rnd_le_rep this (by linarith)
  have hb : |((1 : Fp D) - Fp.convert D a).val - (1 - a.val)| ≤ 1.01 * F.u := k2.trans (by
    rw [mul_comm]; exact mul_le_mul (by norm_num; linarith) v1 v0.le (by norm_num))
  generalize (1 : Fp D) - Fp.convert D a = b at *
  obtain ⟨k3, k4⟩ := one_step hF (x := b.val) (by rw [abs_of_nonneg b0]; linarith)
  obtain ⟨f2, e2⟩ := Fp.convert_fin (G := F) (Usual.pos hF) f1 k3
  refine ⟨f2, ?_, ?_⟩
  · rw [e2]
    rw [abs_of_nonneg b0] at k4
    have : F.u * (b.val + F.tiny) ≤ F.u * 1.01 := mul_le_mul_of_nonneg_left (by norm_num; linarith) u0.le
    calc _ = |(F.rnd b.val - b.val) + (b.val - (1 - a.val))| := by congr 1; ring
      _ ≤ _ := abs_add_le _ _
      _ ≤ _ := by norm_num at *; linarith
  · rw [e2]
    have : F.Rep 1 := by rw [← e1'']; exact Fp.rep_val f1''
    exact rnd_le_rep this b1

private theorem arccos17 {C : ℝ} (h : -(4 / 100) ≤ C) : Real.arccos C ≤ 17 / 10 := by
  have hc : Real.cos (17 / 10) ≤ C := by
    have e : Real.cos (17 / 10) = -Real.sin (17 / 10 - Real.pi / 2) := by rw [Real.sin_sub_pi_div_two, neg_neg]
    have h1 := Real.pi_lt_d2
    have h2 := Real.pi_gt_d2
    have hs := Real.sin_gt_sub_cube (x := 17 / 10 - Real.pi / 2) (by linarith)
    have hb : 17 / 10 - Real.pi / 2 ≤ 0.131 := by norm_num at *; linarith
    have hb0 : 0.125 ≤ 17 / 10 - Real.pi / 2 := by norm_num at *; linarith
    generalize 17 / 10 - Real.pi / 2 = y at *
    have : y ^ 3 ≤ 0.131 ^ 3 := pow_le_pow_left₀ (by norm_num at *; linarith) hb 3
    norm_num at *
    linarith
  calc Real.arccos C ≤ Real.arccos (Real.cos (17 / 10)) := Real.arccos_le_arccos hc
    _ = 17 / 10 := Real.arccos_cos (by norm_num) (by linarith [Real.pi_gt_three])

private theorem caseA (hF : Spec.Usual F) (hD : Spec.Usual D) (hw : Spec.Wider F D) {σ : ℝ} (σ0 : 0 ≤ σ) (hε : σ + F.u ≤ 1 / 1000) {atan2F : Fp F → Fp F → Fp F} {sinD : Fp D → Fp D}
    {sinF : Fp F → Fp F} (hat : Spec.Atan2Fn atan2F σ) (hsD : Spec.SinFn sinD σ) (hsF : Spec.SinFn sinF σ) {a x : Fp F} (fa : a.Finite) (a0 : 0 ≤ a.val) (a1 : a.val ≤ 1) (fx : x.Finite)
    (x0 : 0 ≤ x.val) (x1 : x.val < 1) {px qx : Quat (Fp F)} (hp : Spec.QFinite px) (hq : Spec.QFinite qx) {P Q : Quaternion ℝ} (nP : ‖P‖ = 1)
    (nQ : ‖Q‖ = 1) (eP : ‖Spec.fhval px - P‖ ≤ 14 * F.u) (eQ : ‖Spec.fhval qx - Q‖ ≤ 14 * F.u) (hx : |x.val - Spec.hdot P Q| ≤ 33 * F.u) {s : Fp F}
    (hs : s = Fp.convert F (CMath.sqrt ((1 : Fp D) - Fp.convert D (x * x)))) :
    Spec.QClose ((px.mulAssignS (Fp.convert F (sinD (((1 : Fp D) - Fp.convert D a) * Fp.convert D (atan2F s x)) / Fp.convert D s))).addAssign (.other (qx.mulAssignS (sinF (a * atan2F s x) / s))))
      (Spec.arc a.val P Q) (130 * (σ + F.u)) := by
  have u0 := F.u_pos
  have tF := tiny_u hF
  have hCc := abs_le.1 (cauchy P Q)
  rw [nP, nQ, one_mul] at hCc
  obtain ⟨x2, x3⟩ := abs_le.1 hx
  obtain ⟨fs, s16, ssq⟩ := sine_fp hF hD hw fx x0 x1 hs
  obtain ⟨r, hr, hcos, hsin, p0, p1, p2⟩ := angle_real u0 (by linarith) x0 s16 ssq
  obtain ⟨r1, r2⟩ := abs_le.1 hr
  have ht : F.tiny ≤ Complex.arg ⟨x.val, s.val⟩ := by
    have h1 := Real.sin_le p0.le
    have h2 : 0 ≤ Real.sin (Complex.arg ⟨x.val, s.val⟩) := Real.sin_nonneg_of_nonneg_of_le_pi p0.le (by linarith [Real.pi_pos])
    have h3 : s.val ≤ 2 * Real.sin (Complex.arg ⟨x.val, s.val⟩) := by
      have h4 : r ≤ 2 := by norm_num at r2 hε; linarith
      calc s.val = _ := hsin.symm
        _ ≤ Real.sin (Complex.arg ⟨x.val, s.val⟩) * 2 := mul_le_mul_of_nonneg_left h4 h2
        _ = _ := mul_comm _ _
    linarith
  obtain ⟨fθ, hθ⟩ := hat s x fs fx (by linarith) x0 ht
  have g0 := Real.arccos_nonneg (Spec.hdot P Q)
  have g1 := arccos17 (C := Spec.hdot P Q) (by linarith)
  have hC : |Real.cos (Complex.arg ⟨x.val, s.val⟩) - Real.cos (Real.arccos (Spec.hdot P Q))| ≤ 37.7 * F.u := by
    rw [Real.cos_arccos hCc.1 hCc.2]
    have h1 : |Real.cos (Complex.arg ⟨x.val, s.val⟩) - x.val| ≤ 4.6 * F.u := by
      nth_rw 2 [← hcos]
      rw [show ∀ c : ℝ, c - c * r = c * (1 - r) by intro c; ring, abs_mul, abs_sub_comm 1 r]
      exact (mul_le_of_le_one_left (abs_nonneg _) (Real.abs_cos_le_one _)).trans hr
    calc _ = |(Real.cos (Complex.arg ⟨x.val, s.val⟩) - x.val) + (x.val - Spec.hdot P Q)| := by congr 1; ring
      _ ≤ _ := abs_add_le _ _
      _ ≤ _ := by norm_num at *; linarith
  have c1 := coeff1_fp hF hD hw σ0 hε hsD fa fθ fs a0 a1 hr hsin p0 p1 p2 s16 hθ g0 g1 hC
  have c2 := coeff2_fp hF σ0 hε hsF fa fθ fs a0 a1 hr hsin p0 p1 p2 s16 hθ g0 g1 hC
  exact combineA hF (by linarith) hε hp hq nP nQ eP eQ c1 c2

set_option maxHeartbeats 1600000 in
private theorem caseB (hF : Spec.Usual F) (hD : Spec.Usual D) (hw : Spec.Wider F D) {σ : ℝ} (σ0 : 0 ≤ σ) (hε : σ + F.u ≤ 1 / 1000) {a : Fp F} (fa : a.Finite) (a0 : 0 ≤ a.val) (a1 : a.val ≤ 1)
    {px qx : Quat (Fp F)} (hp : Spec.QFinite px) (hq : Spec.QFinite qx) {P Q : Quaternion ℝ} (nP : ‖P‖ = 1)
    (nQ : ‖Q‖ = 1) (eP : ‖Spec.fhval px - P‖ ≤ 14 * F.u) (eQ : ‖Spec.fhval qx - Q‖ ≤ 14 * F.u) {e : ℝ} (e0 : 0 ≤ e) (e1 : e ≤ 1 / 8) (hx : 1 - Spec.hdot P Q ≤ e + 35.1 * F.u) :
    Spec.QClose ((px.mulAssignS (Fp.convert F ((1 : Fp D) - Fp.convert D a))).addAssign (.other (qx.mulAssignS a))).normalize.1 (Spec.arc a.val P Q) (230 * (σ + F.u) + 2 * e) ∧
      |‖Spec.fhval ((px.mulAssignS (Fp.convert F ((1 : Fp D) - Fp.convert D a))).addAssign (.other (qx.mulAssignS a))).normalize.1‖ - 1| ≤ 14 * F.u := by
  have u0 := F.u_pos
  have u1 := Usual.u hF
  have hCc := abs_le.1 (cauchy P Q)
  rw [nP, nQ, one_mul] at hCc
  obtain ⟨o1, o2, o3⟩ := one_minus hF hD hw fa a0 a1
  have hcomb := combineB hF (ε := σ + F.u) (by linarith) hε hp hq nP nQ eP eQ (c1 := Fp.convert F ((1 : Fp D) - Fp.convert D a)) (C1 := 1 - a.val) (c2 := a) (C2 := a.val)
    ⟨o1, o2.trans (mul_le_mul_of_nonneg_left (by linarith) (by norm_num)), by rw [abs_le]; constructor <;> linarith⟩ ⟨fa, by simp, by rw [abs_le]; constructor <;> linarith⟩
  generalize (px.mulAssignS (Fp.convert F ((1 : Fp D) - Fp.convert D a))).addAssign (.other (qx.mulAssignS a)) = v at hcomb
  show Spec.QClose v.normalize.1 _ _ ∧ |‖Spec.fhval v.normalize.1‖ - 1| ≤ _
  obtain ⟨fv, d1, d2, d3, d4⟩ := hcomb
  set V : Quaternion ℝ := (1 - a.val) • P + a.val • Q with hV
  have dV : ‖Spec.fhval v - V‖ ≤ 72 * (σ + F.u) := by
    refine (norm_le_comp (Spec.fhval v - V) (e := 36 * (σ + F.u)) ?_ ?_ ?_ ?_).trans_eq (by ring)
    · rw [Quaternion.re_sub]; exact d1
    · rw [Quaternion.imI_sub]; exact d2
    · rw [Quaternion.imJ_sub]; exact d3
    · rw [Quaternion.imK_sub]; exact d4
  set C := Spec.hdot P Q with hCdef
  have nV : ‖V‖ ^ 2 = 1 - 2 * (a.val * (1 - a.val)) * (1 - C) := by
    have h1 := hnorm_sq P
    have h2 := hnorm_sq Q
    rw [nP] at h1
    rw [nQ] at h2
    rw [hnorm_sq, hCdef, hV]
    simp only [Quaternion.re_add, Quaternion.re_smul, Quaternion.imI_add, Quaternion.imI_smul, Quaternion.imJ_add, Quaternion.imJ_smul, Quaternion.imK_add, Quaternion.imK_smul, smul_eq_mul, Spec.hdot]
    linear_combination -(1 - a.val) ^ 2 * h1 - a.val ^ 2 * h2
  have aa0 : 0 ≤ a.val * (1 - a.val) := mul_nonneg a0 (by linarith)
  have aa1 : a.val * (1 - a.val) ≤ 1 / 4 := by nlinarith [sq_nonneg (a.val - 1 / 2)]
  have C1 : 0 ≤ 1 - C := by linarith
  have k0 := norm_nonneg V
  have aaC : a.val * (1 - a.val) * (1 - C) ≤ 1 / 4 * (1 - C) := mul_le_mul_of_nonneg_right aa1 C1
  have aaC0 := mul_nonneg aa0 C1
  have V1 : ‖V‖ ≤ 1 := by nlinarith
  have V2 : 1 - ‖V‖ ≤ (1 - C) / 2 := by nlinarith
  have w1 : 1 - C ≤ 0.17 := by norm_num at *; linarith
  have hv1 : |‖Spec.fhval v‖ - ‖V‖| ≤ 72 * (σ + F.u) := (abs_norm_sub_norm_le _ _).trans dV
  obtain ⟨v1, v2⟩ := abs_le.1 hv1
  have nv1 : 0.8 ≤ ‖Spec.fhval v‖ := by norm_num at *; linarith
  have nv2 : ‖Spec.fhval v‖ ≤ 1.1 := by norm_num; linarith
  have he : F.eta ≤ F.u := by
    rw [Format.eta_eq_tiny]; exact mul_le_of_le_one_right u0.le (tiny_le_one (Usual.pos hF))
  have hmax : (100 : ℝ) ≤ F.maxFinite := Usual.max hF (by linarith)
  obtain ⟨n1, n2, n5⟩ := norm14 hF fv (by have := tiny_u hF; norm_num at *; nlinarith) (by norm_num at *; nlinarith)
  have n3 : ‖‖Spec.fhval v‖⁻¹ • Spec.fhval v - Spec.fhval v‖ ≤ (1 - C) / 2 + 72 * (σ + F.u) := by
    have hn : ‖Spec.fhval v‖ ≠ 0 := by norm_num at nv1; linarith
    rw [show ‖Spec.fhval v‖⁻¹ • Spec.fhval v - Spec.fhval v = (‖Spec.fhval v‖⁻¹ - 1) • Spec.fhval v by rw [sub_smul, one_smul], norm_smul, Real.norm_eq_abs]
    rw [← abs_of_nonneg (norm_nonneg (Spec.fhval v)), ← abs_mul, abs_of_nonneg (norm_nonneg (Spec.fhval v)), sub_mul, inv_mul_cancel₀ hn, one_mul, abs_le]
    constructor <;> linarith
  have g0 := Real.arccos_nonneg C
  have g1 := arccos17 (C := C) (by norm_num at w1; linarith)
  have lip : ∀ b : ℝ, 0 ≤ b → b ≤ 1 → |b - Spec.sinRatio b (Real.arccos C)| ≤ 7 / 10 * (1 - C) := by
    intro b b0 b1
    have := sinRatio_lip b0 b1 le_rfl (by norm_num) g0 g1
    rw [Real.cos_zero, Real.cos_arccos hCc.1 hCc.2, abs_of_nonneg C1, Spec.sinRatio, if_pos rfl] at this
    exact this
  have n4 : ‖V - Spec.arc a.val P Q‖ ≤ 7 / 5 * (1 - C) := by
    have e : V - Spec.arc a.val P Q = ((1 - a.val) - Spec.sinRatio (1 - a.val) (Real.arccos C)) • P + (a.val - Spec.sinRatio a.val (Real.arccos C)) • Q := by
      rw [hV, Spec.arc]; module
    rw [e]
    refine (norm_add_le _ _).trans ?_
    rw [norm_smul, norm_smul, nP, nQ, mul_one, mul_one, Real.norm_eq_abs, Real.norm_eq_abs]
    have := lip (1 - a.val) (by linarith) (by linarith)
    have := lip a.val a0 a1
    linarith
  have tot : ‖Spec.fhval v.normalize.1 - Spec.arc a.val P Q‖ ≤ 230 * (σ + F.u) + 2 * e := by
    calc _ = ‖(Spec.fhval v.normalize.1 - ‖Spec.fhval v‖⁻¹ • Spec.fhval v) + ((‖Spec.fhval v‖⁻¹ • Spec.fhval v - Spec.fhval v) + ((Spec.fhval v - V) + (V - Spec.arc a.val P Q)))‖ := by
            rw [sub_add_sub_cancel, sub_add_sub_cancel, sub_add_sub_cancel]
      _ ≤ _ := norm_add_le _ _
      _ ≤ _ := add_le_add_right (norm_add_le _ _) _
      _ ≤ _ := add_le_add_right (add_le_add_right (norm_add_le _ _) _) _
      _ ≤ _ := by norm_num at hx ⊢; linarith
  obtain ⟨b1, b2, b3, b4⟩ := comp_le (Spec.fhval v.normalize.1 - Spec.arc a.val P Q)
  rw [Quaternion.re_sub] at b1
  rw [Quaternion.imI_sub] at b2
  rw [Quaternion.imJ_sub] at b3
  rw [Quaternion.imK_sub] at b4
  refine ⟨⟨n1, b1.trans tot, b2.trans tot, b3.trans tot, b4.trans tot⟩, ?_⟩
  have := (abs_norm_sub_norm_le _ _).trans n2
  rwa [n5] at this

private theorem tail_close (hF : Spec.Usual F) (hD : Spec.Usual D) (hw : Spec.Wider F D) {σ : ℝ} (σ0 : 0 ≤ σ) (hε : σ + F.u ≤ 1 / 1000) {atan2F : Fp F → Fp F → Fp F} {sinD : Fp D → Fp D}
    {sinF : Fp F → Fp F} (hat : Spec.Atan2Fn atan2F σ) (hsD : Spec.SinFn sinD σ) (hsF : Spec.SinFn sinF σ) {a x e : Fp F} (fa : a.Finite) (a0 : 0 ≤ a.val) (a1 : a.val ≤ 1)
    (fe : e.Finite) (e0 : 0 ≤ e.val) (e1 : e.val ≤ 1 / 8) (fx : x.Finite)
    (x0 : 0 ≤ x.val) {px qx : Quat (Fp F)} (hp : Spec.QFinite px) (hq : Spec.QFinite qx) {P Q : Quaternion ℝ} (nP : ‖P‖ = 1)
    (nQ : ‖Q‖ = 1) (eP : ‖Spec.fhval px - P‖ ≤ 14 * F.u) (eQ : ‖Spec.fhval qx - Q‖ ≤ 14 * F.u) (hx : |x.val - Spec.hdot P Q| ≤ 33 * F.u) :
    Spec.QClose (slerpTail atan2F sinD sinF a px qx x e) (Spec.arc a.val P Q) (230 * (σ + F.u) + 2 * e.val) ∧ |‖Spec.fhval (slerpTail atan2F sinD sinF a px qx x e)‖ - 1| ≤ 260 * (σ + F.u) := by
  have u0 := F.u_pos
  obtain ⟨o1, o2, o3⟩ := one_minus hF hD hw fe e0 (by linarith)
  obtain ⟨f1, v1⟩ := Fp.fabs_fin fx
  unfold slerpTail
  by_cases h : CMath.fabs x < (Fp.convert F ((1 : Fp D) - Fp.convert D e) : Fp F)
  · rw [if_pos h]
    rw [Fp.lt_val f1 o1, v1, abs_of_nonneg x0] at h
    obtain ⟨q1, q2, q3, q4, q5⟩ := caseA hF hD hw σ0 hε hat hsD hsF fa a0 a1 fx x0 (h.trans_le o3) hp hq nP nQ eP eQ hx rfl
    have : 130 * (σ + F.u) ≤ 230 * (σ + F.u) + 2 * e.val := by linarith
    refine ⟨⟨q1, q2.trans this, q3.trans this, q4.trans this, q5.trans this⟩, ?_⟩
    have na := (C143_arc nP nQ (by have := (abs_le.1 hx).2; linarith) a.val).1
    rw [← na]
    refine (abs_norm_sub_norm_le _ _).trans ((norm_le_comp _ (e := 130 * (σ + F.u)) ?_ ?_ ?_ ?_).trans_eq (by ring))
    · rw [Quaternion.re_sub]; exact q2
    · rw [Quaternion.imI_sub]; exact q3
    · rw [Quaternion.imJ_sub]; exact q4
    · rw [Quaternion.imK_sub]; exact q5
  · rw [if_neg h]
    rw [Fp.lt_val f1 o1, v1, abs_of_nonneg x0, not_lt] at h
    have := (abs_le.1 o2).1
    have := (abs_le.1 hx).2
    obtain ⟨b1, b2⟩ := caseB hF hD hw σ0 hε fa a0 a1 hp hq nP nQ eP eQ e0 e1 (by norm_num at *; linarith)
    exact ⟨b1, b2.trans (by linarith)⟩

/-! ## The theorem -/

/-- **C143** For finite quaternions `p` and `q` whose lengths neither overflow nor underflow and a fraction `0 <= a <= 1`, the components of `slerp( a, p, q, epsilon )` are finite and within
`230 ( σ + u ) + 2 epsilon` of the point at the fraction `a` of the great arc from the direction of `p` to the one of `q` or `-q` that is on the same side (up to the rounding of the cosine). The
library functions have the relative error `σ`. The result is of unit length up to `260 ( σ + u )`, whatever `epsilon` is. -/
theorem C143_slerp (hF : Spec.Usual F) (hD : Spec.Usual D) (hw : Spec.Wider F D) {σ : ℝ} (σ0 : 0 ≤ σ) (hε : σ + F.u ≤ 1 / 1000) {atan2F : Fp F → Fp F → Fp F} {sinD : Fp D → Fp D}
    {sinF : Fp F → Fp F} (hat : Spec.Atan2Fn atan2F σ) (hsD : Spec.SinFn sinD σ) (hsF : Spec.SinFn sinF σ) {a e : Fp F} (fa : a.Finite) (a0 : 0 ≤ a.val) (a1 : a.val ≤ 1)
    (fe : e.Finite) (e0 : 0 ≤ e.val) (e1 : e.val ≤ 1 / 8) {p q : Quat (Fp F)} (fp : Spec.QFinite p) (fq : Spec.QFinite q)
    (plo : F.tiny ≤ ‖Spec.fhval p‖ ^ 2) (phi : ‖Spec.fhval p‖ ^ 2 + 4 * F.eta ≤ (1 - 4 * F.u) * F.maxFinite)
    (qlo : F.tiny ≤ ‖Spec.fhval q‖ ^ 2) (qhi : ‖Spec.fhval q‖ ^ 2 + 4 * F.eta ≤ (1 - 4 * F.u) * F.maxFinite) :
    let P := ‖Spec.fhval p‖⁻¹ • Spec.fhval p
    let Q := ‖Spec.fhval q‖⁻¹ • Spec.fhval q
    ∃ Q', (Q' = Q ∨ Q' = -Q) ∧ -(33 * F.u) ≤ Spec.hdot P Q' ∧ Spec.QClose (slerpFp atan2F sinD sinF a p q e) (Spec.arc a.val P Q') (230 * (σ + F.u) + 2 * e.val) ∧
      |‖Spec.fhval (slerpFp atan2F sinD sinF a p q e)‖ - 1| ≤ 260 * (σ + F.u) := by
  intro P Q
  obtain ⟨pf, pe, pn⟩ := norm14 hF fp plo phi
  obtain ⟨qf, qe, qn⟩ := norm14 hF fq qlo qhi
  obtain ⟨cf, ce⟩ := cosine_fp hF pf qf pn qn pe qe
  rw [slerp_tail]
  obtain ⟨z1, z2⟩ : (0 : Fp F).Finite ∧ (0 : Fp F).val = 0 := ⟨Fp.finite_zero, Fp.val_zero⟩
  change ∃ Q', _ ∧ _ ∧ Spec.QClose (if p.normalize.1.dot q.normalize.1 < 0 then slerpTail atan2F sinD sinF a p.normalize.1 q.normalize.1.neg (-(p.normalize.1.dot q.normalize.1)) e
    else slerpTail atan2F sinD sinF a p.normalize.1 q.normalize.1 (p.normalize.1.dot q.normalize.1) e) _ _ ∧
    |‖Spec.fhval (if p.normalize.1.dot q.normalize.1 < 0 then slerpTail atan2F sinD sinF a p.normalize.1 q.normalize.1.neg (-(p.normalize.1.dot q.normalize.1)) e
    else slerpTail atan2F sinD sinF a p.normalize.1 q.normalize.1 (p.normalize.1.dot q.normalize.1) e)‖ - 1| ≤ _
  generalize p.normalize.1.dot q.normalize.1 = x at *
  by_cases h : x < 0
  · rw [if_pos h]
    rw [Fp.lt_val cf z1, z2] at h
    have hneg : Spec.hdot P (-Q) = -Spec.hdot P Q := by
      simp only [Spec.hdot, Quaternion.re_neg, Quaternion.imI_neg, Quaternion.imJ_neg, Quaternion.imK_neg]; ring
    have hx : |(-x).val - Spec.hdot P (-Q)| ≤ 33 * F.u := by
      rw [hneg, Fp.val_neg, ← abs_neg]; convert ce using 2; ring
    have hx0 : 0 ≤ (-x).val := by rw [Fp.val_neg]; linarith
    refine ⟨-Q, Or.inr rfl, by have := (abs_le.1 hx).2; linarith, ?_⟩
    refine tail_close hF hD hw σ0 hε hat hsD hsF fa a0 a1 fe e0 e1 (Fp.finite_neg cf) hx0 pf ?_ pn (by rw [norm_neg]; exact qn) pe ?_ hx
    · obtain ⟨q1, q2, q3, q4⟩ := qf
      exact ⟨Fp.finite_neg q1, Fp.finite_neg q2, Fp.finite_neg q3, Fp.finite_neg q4⟩
    · have : Spec.fhval q.normalize.1.neg = -Spec.fhval q.normalize.1 := by
        ext
        · rw [Quaternion.re_neg]; exact Fp.val_neg _
        · rw [Quaternion.imI_neg]; exact Fp.val_neg _
        · rw [Quaternion.imJ_neg]; exact Fp.val_neg _
        · rw [Quaternion.imK_neg]; exact Fp.val_neg _
      rw [this, show ∀ A B : Quaternion ℝ, -A - -B = -(A - B) by intro A B; abel, norm_neg]
      exact qe
  · rw [if_neg h]
    rw [Fp.lt_val cf z1, z2, not_lt] at h
    refine ⟨Q, Or.inl rfl, by have := (abs_le.1 ce).2; linarith, ?_⟩
    exact tail_close hF hD hw σ0 hε hat hsD hsF fa a0 a1 fe e0 e1 cf h pf qf pn qn pe qe ce

/-- **C143** A library that rounds correctly meets the requirements with `σ = u`. -/
theorem C143_correctly_rounded (hF : Spec.Usual F) (hD : Spec.Usual D) (hw : Spec.Wider F D) :
    Spec.Atan2Fn (CMath.atan2 : Fp F → Fp F → Fp F) F.u ∧ Spec.SinFn (CMath.sin : Fp D → Fp D) F.u ∧ Spec.SinFn (CMath.sin : Fp F → Fp F) F.u := by
  obtain ⟨wp, we⟩ := wider_p hw
  have u0 := F.u_pos
  have u1 := Usual.u hF
  have sin : ∀ {G : Format}, Spec.Usual G → G.u ≤ F.u → Spec.SinFn (CMath.sin : Fp G → Fp G) F.u := by
    intro G hG hGu t ft ht
    have h1 := Real.abs_sin_le_one t.val
    obtain ⟨k1, k2⟩ := one_step hG (x := Real.sin t.val) (by linarith)
    obtain ⟨f, e⟩ := Fp.ofReal_fin (F := G) (Usual.pos hG) k1
    refine ⟨f, ?_⟩
    show |(Fp.ofReal (Real.sin t.val) : Fp G).val - _| ≤ _
    rw [e]
    have g0 := G.tiny_pos
    have h2 : |Real.sin t.val| ≤ |t.val| := Real.abs_sin_le_abs
    exact k2.trans (mul_le_mul hGu (by linarith) (by have := abs_nonneg (Real.sin t.val); linarith) u0.le)
  refine ⟨?_, sin hD (u_le wp), sin hF le_rfl⟩
  intro y x fy fx y0 x0 ht
  have h0 : 0 < Complex.arg ⟨x.val, y.val⟩ := F.tiny_pos.trans_le ht
  have h1 : Complex.arg ⟨x.val, y.val⟩ ≤ Real.pi / 2 := Complex.arg_le_pi_div_two_iff.2 (Or.inl x0)
  obtain ⟨k1, k2⟩ := one_step hF (x := Complex.arg ⟨x.val, y.val⟩) (by rw [abs_of_pos h0]; linarith [Real.pi_lt_d2])
  obtain ⟨f, e⟩ := Fp.ofReal_fin (F := F) (Usual.pos hF) k1
  refine ⟨f, ?_⟩
  show |(Fp.ofReal (Complex.arg ⟨x.val, y.val⟩) : Fp F).val - _| ≤ _
  rw [e]
  have := rnd_err_normal (F := F) (x := Complex.arg ⟨x.val, y.val⟩) (by rw [abs_of_pos h0]; exact ht)
  rwa [abs_of_pos h0] at this

/-! ## Example -/

/-- `C143_slerp`: interpolating in `float` (with the constants in `double`) between the quaternions `1` and `i + j`. -/
example (a : Fp single) (fa : a.Finite) (a0 : 0 ≤ a.val) (a1 : a.val ≤ 1) :
    ∃ Q' : Quaternion ℝ, Spec.QClose (slerpFp CMath.atan2 (CMath.sin : Fp double → Fp double) CMath.sin a ⟨0, 0, 0, 1⟩ ⟨1, 1, 0, 0⟩ (0 : Fp single)) (Spec.arc a.val 1 Q') (1 / 30000) := by
  obtain ⟨of, ov⟩ := Fp.one_fin (F := single) (by norm_num)
  have zf : (0 : Fp single).Finite := Fp.finite_zero
  have zv : (0 : Fp single).val = 0 := Fp.val_zero
  have hu : single.u = 1 / 2 ^ 24 := by unfold u; norm_num
  have he : single.eta ≤ single.u := by
    rw [Format.eta_eq_tiny]; exact mul_le_of_le_one_right single.u_pos.le (tiny_le_one (by norm_num))
  have hmax : (1000 : ℝ) ≤ single.maxFinite := Usual.max usual_single (by rw [hu]; norm_num)
  have ht := tiny_le_one (F := single) (by norm_num)
  obtain ⟨h1, h2, h3⟩ := C143_correctly_rounded usual_single usual_double wider_single
  have n1 : ‖Spec.fhval (⟨0, 0, 0, 1⟩ : Quat (Fp single))‖ ^ 2 = 1 := by rw [hnorm_sq]; simp only [Spec.fhval, zv, ov]; norm_num
  have n2 : ‖Spec.fhval (⟨1, 1, 0, 0⟩ : Quat (Fp single))‖ ^ 2 = 2 := by rw [hnorm_sq]; simp only [Spec.fhval, zv, ov]; norm_num
  obtain ⟨Q', -, -, h, -⟩ := C143_slerp usual_single usual_double wider_single single.u_pos.le (by rw [hu]; norm_num) h1 h2 h3 fa a0 a1 zf zv.ge (by rw [zv]; norm_num)
    (p := ⟨0, 0, 0, 1⟩) (q := ⟨1, 1, 0, 0⟩) ⟨of, zf, zf, zf⟩ ⟨zf, of, of, zf⟩ (by rw [n1]; exact ht) (by rw [n1, hu] at *; nlinarith) (by rw [n2]; linarith) (by rw [n2]; rw [hu] at *; nlinarith)
  refine ⟨Q', ?_⟩
  have hP : ‖Spec.fhval (⟨0, 0, 0, 1⟩ : Quat (Fp single))‖⁻¹ • Spec.fhval (⟨0, 0, 0, 1⟩ : Quat (Fp single)) = 1 := by
    have : ‖Spec.fhval (⟨0, 0, 0, 1⟩ : Quat (Fp single))‖ = 1 := by have := norm_nonneg (Spec.fhval (⟨0, 0, 0, 1⟩ : Quat (Fp single))); nlinarith
    rw [this, inv_one, one_smul]
    ext
    · exact ov
    · exact zv
    · exact zv
    · exact zv
  rw [hP, zv, hu] at h
  obtain ⟨g, g1, g2, g3, g4⟩ := h
  have : 230 * (1 / 2 ^ 24 + 1 / 2 ^ 24) + 2 * 0 ≤ (1 / 30000 : ℝ) := by norm_num
  exact ⟨g, g1.trans this, g2.trans this, g3.trans this, g4.trans this⟩

end Vmml
