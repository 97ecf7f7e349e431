import Verif.Model.QuatMatrixFloat
import Verif.Props.FloatRotation
import Verif.Props.FloatOrder
import Verif.Props.FloatRay
import Verif.Props.FloatMixed
import Verif.Props.FloatFilter

/-!
# C141: quaternions from rotation matrices in IEEE 754 arithmetic
-/

set_option linter.unusedSimpArgs false
set_option linter.unusedVariables false

namespace Vmml
open Format Quat
variable {F D : Format} {d : Nat}

/-! ## Specification -/

/-- The usual proportions of a binary format: at least ten bits, and more exponents than bits. -/
structure Spec.Usual (F : Format) : Prop where
  digits : 9 ≤ F.p
  range : F.p < F.emax

/-- The upper left block consists of finite numbers within `δ` of the matrix of `v ↦ Q v Q*`. -/
def Spec.NearRot (hd : 3 ≤ d) (m : Mat d d (Fp F)) (Q : Quaternion ℝ) (δ : ℝ) : Prop :=
  ∀ i j : Fin 3, (m.get (i.castLE hd) (j.castLE hd)).Finite ∧ |(m.get (i.castLE hd) (j.castLE hd)).val - Spec.hrot Q i j| ≤ δ

/-- The components of `r` are finite and within `E` of those of `Q`. -/
def Spec.QClose (r : Quat (Fp F)) (Q : Quaternion ℝ) (E : ℝ) : Prop :=
  Spec.QFinite r ∧ |r.w.val - Q.re| ≤ E ∧ |r.x.val - Q.imI| ≤ E ∧ |r.y.val - Q.imJ| ≤ E ∧ |r.z.val - Q.imK| ≤ E

/-- `Q` with the sign of the real part changed. -/
def Spec.flipRe (Q : Quaternion ℝ) : Quaternion ℝ := ⟨-Q.re, Q.imI, Q.imJ, Q.imK⟩

/-- A square root for numbers of the type `F` with a result of the type `D` that is accurate to a unit roundoff of `F`. -/
def Spec.SqrtFn (sq : Fp F → Fp D) : Prop :=
  ∀ t : Fp F, t.Finite → 0 < t.val → (sq t).Finite ∧ |(sq t).val - Real.sqrt t.val| ≤ F.u * Real.sqrt t.val

/-- The error of the sum of three diagonal entries and 1. -/
noncomputable def Spec.traceErr (F : Format) (δ : ℝ) : ℝ := 3 * δ + 16 * F.u

/-! ## Real numbers -/

private theorem ratio {k t T e κ : ℝ} (ht : 0 < t) (hk : κ = e / (4 * t ^ 2)) (hT : |T - 4 * t ^ 2| ≤ e) (he : e ≤ t ^ 2 / 2) (hkk : k = Real.sqrt T / (2 * t)) :
    0 ≤ κ ∧ κ ≤ 1 / 8 ∧ |k - 1| ≤ κ := by
  have he0 : 0 ≤ e := (abs_nonneg _).trans hT
  have h4 : 0 < 4 * t ^ 2 := by positivity
  have k0 : 0 ≤ κ := by rw [hk]; positivity
  have k1 : κ ≤ 1 / 8 := by rw [hk, div_le_iff₀ h4]; linarith
  refine ⟨k0, k1, ?_⟩
  have hT0 : 0 ≤ T := by have := (abs_le.1 hT).1; nlinarith
  have hk0 : 0 ≤ k := by rw [hkk]; positivity
  have hsq : k ^ 2 * (4 * t ^ 2) = T := by
    rw [hkk, div_pow, Real.sq_sqrt hT0]; field_simp; ring
  have hke : κ * (4 * t ^ 2) = e := by rw [hk]; field_simp
  have : |k ^ 2 - 1| ≤ κ := by
    have e1 : (k ^ 2 - 1) * (4 * t ^ 2) = T - 4 * t ^ 2 := by rw [sub_mul, hsq]; ring
    have : |k ^ 2 - 1| * (4 * t ^ 2) ≤ κ * (4 * t ^ 2) := by
      rw [← abs_of_pos h4, ← abs_mul, abs_of_pos h4, e1, hke]; exact hT
    exact le_of_mul_le_mul_right this h4
  have e2 : k ^ 2 - 1 = (k - 1) * (k + 1) := by ring
  rw [e2, abs_mul, abs_of_nonneg (by linarith : 0 ≤ k + 1)] at this
  have := abs_nonneg (k - 1)
  nlinarith

private theorem mul_bounds {u x a b : ℝ} (hu : 0 ≤ u) (h : |a - x| ≤ u * x) (hb : |b - a| ≤ u * a) (hx : 0 ≤ x) (hu1 : u ≤ 1) :
    (1 - u) ^ 2 * x ≤ b ∧ b ≤ (1 + u) ^ 2 * x := by
  obtain ⟨h1, h2⟩ := abs_le.1 h
  obtain ⟨h3, h4⟩ := abs_le.1 hb
  constructor
  · nlinarith
  · nlinarith

private theorem poly_lo {u κ : ℝ} (hu : 0 ≤ u) (k0 : 0 ≤ κ) : (1 - 2 * κ - 8 * u) * ((1 + u) * (1 + κ)) ≤ (1 - u) ^ 2 := by
  have h1 : (1 - 2 * κ - 8 * u) * (1 + κ) ≤ 1 - 8 * u := by nlinarith [mul_nonneg k0 k0, mul_nonneg hu k0]
  have h2 := mul_le_mul_of_nonneg_right h1 (by linarith : 0 ≤ 1 + u)
  have h3 : (1 - 8 * u) * (1 + u) ≤ (1 - u) ^ 2 := by nlinarith
  calc _ = (1 - 2 * κ - 8 * u) * (1 + κ) * (1 + u) := by ring
    _ ≤ _ := h2.trans h3

private theorem poly_hi {u κ : ℝ} (hu : 0 ≤ u) (hu5 : u ≤ 1 / 512) (k0 : 0 ≤ κ) (k1 : κ ≤ 1 / 8) : (1 + u) ^ 2 ≤ (1 + 2 * κ + 8 * u) * ((1 - u) * (1 - κ)) := by
  have h1 : 1 + 7 * u ≤ (1 + 2 * κ + 8 * u) * (1 - κ) := by nlinarith [mul_nonneg k0 (by linarith : 0 ≤ 1 / 8 - κ), mul_nonneg hu (by linarith : 0 ≤ 1 / 8 - κ)]
  have h2 := mul_le_mul_of_nonneg_right h1 (by linarith : 0 ≤ 1 - u)
  have h3 : (1 + u) ^ 2 ≤ (1 + 7 * u) * (1 - u) := by nlinarith
  calc _ ≤ _ := h3.trans h2
    _ = _ := by ring

/-- The scale factor. -/
private theorem scale_real {u t T e κ r a s : ℝ} (hu : 0 < u) (hu5 : u ≤ 1 / 512) (ht : 0 < t) (hk : κ = e / (4 * t ^ 2)) (hT : |T - 4 * t ^ 2| ≤ e) (he : e ≤ t ^ 2 / 2)
    (hr : |r - Real.sqrt T| ≤ u * Real.sqrt T) (ha : |a - 1 / 2 / r| ≤ u * (1 / 2 / r)) (hs : |s - a| ≤ u * a) :
    0 < r ∧ r ≤ 3 * t ∧ t ≤ r ∧ |4 * t * s - 1| ≤ 2 * κ + 8 * u := by
  obtain ⟨k0, k1, h1⟩ := ratio ht hk hT he rfl
  obtain ⟨k, hkk⟩ : ∃ k, k = Real.sqrt T / (2 * t) := ⟨_, rfl⟩
  rw [← hkk] at h1
  have e1 : Real.sqrt T = k * (2 * t) := by rw [hkk]; field_simp
  rw [e1] at hr
  obtain ⟨k2, k3⟩ := abs_le.1 h1
  obtain ⟨r1, r2⟩ := abs_le.1 hr
  obtain ⟨g, hg⟩ : ∃ g, g = r / (2 * t) := ⟨_, rfl⟩
  have e2 : r = g * (2 * t) := by rw [hg]; field_simp
  have h2t : 0 < 2 * t := by linarith
  have g1 : (1 - u) * k ≤ g := by
    rw [hg, le_div_iff₀ h2t]; linarith
  have g2 : g ≤ (1 + u) * k := by
    rw [hg, div_le_iff₀ h2t]; linarith
  have hk0 : 0 < k := by linarith
  have g3 : (1 - u) * (1 - κ) ≤ g := le_trans (mul_le_mul_of_nonneg_left (by linarith) (by linarith)) g1
  have g4 : g ≤ (1 + u) * (1 + κ) := le_trans g2 (mul_le_mul_of_nonneg_left (by linarith) (by linarith))
  have g5 : 1 / 2 ≤ g := by nlinarith
  have g6 : g ≤ 3 / 2 := by nlinarith
  have hrp : 0 < r := by rw [e2]; positivity
  obtain ⟨b1, b2⟩ := mul_bounds hu.le ha hs (by positivity) (by linarith)
  obtain ⟨l, hl⟩ : ∃ l, l = 4 * t * s := ⟨_, rfl⟩
  have e3 : l * g = 2 * s * r := by rw [hl, e2]; ring
  have e4 : 1 / 2 / r * (2 * r) = 1 := by field_simp
  have c1 : (1 - u) ^ 2 ≤ l * g := by
    rw [e3]
    have := mul_le_mul_of_nonneg_right b1 (by linarith : 0 ≤ 2 * r)
    rw [mul_assoc, e4] at this; linarith
  have c2 : l * g ≤ (1 + u) ^ 2 := by
    rw [e3]
    have := mul_le_mul_of_nonneg_right b2 (by linarith : 0 ≤ 2 * r)
    rw [mul_assoc, e4] at this; linarith
  refine ⟨hrp, by rw [e2]; nlinarith, by rw [e2]; nlinarith, ?_⟩
  rw [← hl]
  have gp : 0 < g := by linarith
  rw [abs_le]
  constructor
  · have : (1 - 2 * κ - 8 * u) * g ≤ l * g := by
      refine le_trans ?_ c1
      rcases le_total (1 - 2 * κ - 8 * u) 0 with h | h
      · exact (mul_nonpos_of_nonpos_of_nonneg h gp.le).trans (sq_nonneg _)
      · have : (1 - 2 * κ - 8 * u) * g ≤ (1 - 2 * κ - 8 * u) * ((1 + u) * (1 + κ)) := mul_le_mul_of_nonneg_left g4 h
        refine this.trans ?_
        exact poly_lo hu.le k0
    have := le_of_mul_le_mul_right this gp
    linarith
  · have : l * g ≤ (1 + 2 * κ + 8 * u) * g := by
      refine c2.trans ?_
      have : (1 + 2 * κ + 8 * u) * ((1 - u) * (1 - κ)) ≤ (1 + 2 * κ + 8 * u) * g := mul_le_mul_of_nonneg_left g3 (by positivity)
      refine le_trans ?_ this
      exact poly_hi hu.le hu5 k0 k1
    have := le_of_mul_le_mul_right this gp
    linarith

/-- The component computed by division. -/
private theorem pivot_real {u t κ s b p : ℝ} (hu : 0 < u) (hu5 : u ≤ 1 / 512) (ht : 0 < t) (ht1 : t ≤ 1) (k0 : 0 ≤ κ) (k1 : κ ≤ 1 / 8)
    (hs : |4 * t * s - 1| ≤ 2 * κ + 8 * u) (hb : |b - 1 / 4 / s| ≤ u * (1 / 4 / s)) (hp : |p - b| ≤ u * b) : |p - t| ≤ 4 * κ + 20 * u := by
  obtain ⟨l, hl⟩ : ∃ l, l = 4 * t * s := ⟨_, rfl⟩
  rw [← hl] at hs
  obtain ⟨l1, l2⟩ := abs_le.1 hs
  have lp : 0 < l := by linarith
  have sp : 0 < s := by
    rcases lt_or_ge 0 s with h | h
    · exact h
    · exfalso; have : 4 * t * s ≤ 0 := mul_nonpos_of_nonneg_of_nonpos (by linarith) h
      linarith
  obtain ⟨b1, b2⟩ := mul_bounds hu.le hb hp (by positivity) (by linarith)
  have e1 : 1 / 4 / s * l = t := by rw [hl]; field_simp
  have c1 : (1 - u) ^ 2 * t ≤ p * l := by
    have := mul_le_mul_of_nonneg_right b1 lp.le
    rwa [mul_assoc, e1] at this
  have c2 : p * l ≤ (1 + u) ^ 2 * t := by
    have := mul_le_mul_of_nonneg_right b2 lp.le
    rwa [mul_assoc, e1] at this
  obtain ⟨L, hL⟩ : ∃ L, L = 2 * κ + 8 * u := ⟨_, rfl⟩
  have L0 : 0 ≤ L := by rw [hL]; positivity
  have L1 : L ≤ 17 / 64 := by rw [hL]; linarith
  have m1 : 1 - L ≤ l := by linarith
  have m2 : l ≤ 1 + L := by linarith
  have key : |p - t| ≤ t * (2 * L + 4 * u) := by
    rw [abs_le]
    constructor
    · have : (t * (1 - 2 * L - 4 * u)) * l ≤ p * l := by
        refine le_trans ?_ c1
        rcases le_total (1 - 2 * L - 4 * u) 0 with h | h
        · have : t * (1 - 2 * L - 4 * u) * l ≤ 0 := mul_nonpos_of_nonpos_of_nonneg (mul_nonpos_of_nonneg_of_nonpos ht.le h) lp.le
          exact this.trans (by positivity)
        · have : t * (1 - 2 * L - 4 * u) * l ≤ t * (1 - 2 * L - 4 * u) * (1 + L) := mul_le_mul_of_nonneg_left m2 (mul_nonneg ht.le h)
          refine this.trans ?_
          rw [mul_assoc, mul_comm _ t]
          refine mul_le_mul_of_nonneg_left ?_ ht.le
          nlinarith [mul_nonneg hu.le L0, mul_nonneg L0 L0, mul_nonneg hu.le hu.le]
      have := le_of_mul_le_mul_right this lp
      linarith
    · have : p * l ≤ (t * (1 + 2 * L + 4 * u)) * l := by
        refine c2.trans ?_
        have : t * (1 + 2 * L + 4 * u) * (1 - L) ≤ t * (1 + 2 * L + 4 * u) * l := mul_le_mul_of_nonneg_left m1 (by positivity)
        refine le_trans ?_ this
        rw [mul_assoc, mul_comm _ t]
        refine mul_le_mul_of_nonneg_left ?_ ht.le
        nlinarith [mul_nonneg hu.le L0, mul_nonneg L0 (by linarith : 0 ≤ 17 / 64 - L), mul_nonneg hu.le (by linarith : 0 ≤ 1 / 512 - u), mul_nonneg hu.le (by linarith : 0 ≤ 17 / 64 - L)]
      have := le_of_mul_le_mul_right this lp
      linarith
  refine key.trans ?_
  have : t * (2 * L + 4 * u) ≤ 1 * (2 * L + 4 * u) := mul_le_mul_of_nonneg_right ht1 (by positivity)
  rw [hL] at this
  rw [hL]; linarith

/-- The components computed by multiplication. -/
private theorem other_real {u t κ s f v dd : ℝ} (hu : 0 < u) (hu5 : u ≤ 1 / 512) (ht : 0 < t) (ht1 : t ≤ 1) (k0 : 0 ≤ κ) (k1 : κ ≤ 1 / 8) (hv : |v| ≤ 1)
    (hs : |4 * t * s - 1| ≤ 2 * κ + 8 * u) (hd : |dd - 4 * t * v| ≤ f) (hf : f ≤ t ^ 2 / 2) :
    |dd * s| ≤ 2 ∧ |dd * s - v| ≤ 2 * κ + 8 * u + f / (2 * t) := by
  have f0 : 0 ≤ f := (abs_nonneg _).trans hd
  have s1 : |s| ≤ 1 / (2 * t) := by
    have e : s = (4 * t * s) / (4 * t) := by field_simp
    rw [e, abs_div, abs_of_pos (by linarith : 0 < 4 * t), div_le_div_iff₀ (by positivity) (by positivity)]
    obtain ⟨l1, l2⟩ := abs_le.1 hs
    have : |4 * t * s| ≤ 2 := abs_le.2 ⟨by linarith, by linarith⟩
    nlinarith
  have e : dd * s - v = (dd - 4 * t * v) * s + v * (4 * t * s - 1) := by ring
  have key : |dd * s - v| ≤ 2 * κ + 8 * u + f / (2 * t) := by
    rw [e]
    refine (abs_add_le _ _).trans ?_
    rw [abs_mul, abs_mul]
    have h1 : |dd - 4 * t * v| * |s| ≤ f * (1 / (2 * t)) := mul_le_mul hd s1 (abs_nonneg _) f0
    have h2 : |v| * |4 * t * s - 1| ≤ 1 * (2 * κ + 8 * u) := mul_le_mul hv hs (abs_nonneg _) (by norm_num)
    rw [mul_one_div] at h1
    linarith
  refine ⟨?_, key⟩
  have h3 : f / (2 * t) ≤ 1 / 4 := by
    rw [div_le_iff₀ (by positivity)]; nlinarith
  have := abs_sub_abs_le_abs_sub (dd * s) v
  linarith

/-! ## One component by division, three by multiplication -/

theorem Usual.pos (h : Spec.Usual F) : 0 < F.emax := by have := h.digits; have := h.range; omega

theorem Usual.u (h : Spec.Usual F) : F.u ≤ 1 / 1024 := by
  unfold Format.u
  have : (2 : ℝ)⁻¹ ^ (F.p + 1) ≤ (2 : ℝ)⁻¹ ^ 10 := pow_le_pow_of_le_one (by norm_num) (by norm_num) (by have := h.digits; omega)
  exact this.trans (by norm_num)

theorem Usual.max (h : Spec.Usual F) {x : ℝ} (hx : x * F.u ≤ 1) : x ≤ F.maxFinite := by
  have e : (2 : ℝ) ^ (F.p + 1) * F.u = 1 := by
    unfold Format.u; rw [← mul_pow]; norm_num
  have h1 : x ≤ (2 : ℝ) ^ (F.p + 1) := by
    rw [← e] at hx; exact le_of_mul_le_mul_right hx F.u_pos
  have h2 : (2 : ℝ) ^ (F.p + 1) ≤ (2 : ℝ) ^ F.emax := pow_le_pow_right₀ (by norm_num) h.range
  refine h1.trans (h2.trans ?_)
  have := pow_emax_le (F := F)
  exact_mod_cast this

private theorem Usual.rel (h : Spec.Usual F) {x : ℝ} (hx : 2 * F.u ≤ x) : |F.rnd x - x| ≤ F.u * x := by
  have hx0 : 0 < x := by have := F.u_pos; linarith
  have := rnd_err_normal (F := F) (x := x) (by
    rw [abs_of_pos hx0]
    have h1 : (2 : ℝ) ^ F.emin ≤ (2 : ℝ) ^ (-(F.p : Int)) := zpow_le_zpow_right₀ (by norm_num) (by unfold emin; have := h.range; omega)
    have h2 : (2 : ℝ) ^ (-(F.p : Int)) = 2 * F.u := by
      unfold Format.u; rw [zpow_neg, zpow_natCast, pow_succ, inv_pow]; ring
    exact h1.trans (h2.le.trans hx))
  rwa [abs_of_pos hx0] at this

private theorem quarter_lit (h : Spec.Usual D) : (Fp.round false (1 / 4) : Fp D).Finite ∧ (Fp.round false (1 / 4) : Fp D).val = 1 / 4 := by
  have hr : D.Rep (1 / 4) := by
    have := rep_pow (F := D) (e := -2) (by unfold emin; have := h.digits; have := h.range; omega)
    norm_num at this
    norm_num
    exact this
  have h := Fp.round_signed (F := D) (x := 1 / 4) (s := false) (Usual.pos h) (by intro _; simp) (by
    have := one_le_max (F := D) (Usual.pos h)
    rw [abs_of_pos (by norm_num)]; linarith)
  rw [abs_of_pos (by norm_num), hr.rnd_eq] at h
  exact h

theorem wider_p (h : Spec.Wider F D) : F.p ≤ D.p ∧ F.emax ≤ D.emax := by
  rcases h with rfl | ⟨h1, h2⟩
  · exact ⟨le_rfl, le_rfl⟩
  · exact ⟨h1, h2.le⟩

/-- A number of the type `D` divided by another one, and converted to `F`. -/
private theorem div_conv (hF : Spec.Usual F) (hD : Spec.Usual D) (hw : Spec.Wider F D) {a b : Fp D} (ha : a.Finite) (hb : b.Finite) (hb0 : b.val ≠ 0) {x : ℝ} (hx : x = a.val / b.val)
    (h1 : 4 * F.u ≤ x) (h2 : 2 * x * F.u ≤ 1) :
    (Fp.convert F (a / b)).Finite ∧ ∃ y, |y - x| ≤ F.u * x ∧ |(Fp.convert F (a / b)).val - y| ≤ F.u * y := by
  obtain ⟨wp, we⟩ := wider_p hw
  have hu := F.u_pos
  have hu10 := Usual.u hF
  have hDu : D.u ≤ F.u := u_le wp
  have m1 : 2 * x ≤ F.maxFinite := Usual.max hF h2
  obtain ⟨f1, e1⟩ := Fp.div_fin (Usual.pos hD) ha hb hb0 (by
    rw [← hx, abs_of_pos (by linarith)]
    have := max_widen wp we
    linarith)
  rw [← hx] at e1
  have r1 := (Usual.rel hD (by linarith : 2 * D.u ≤ x)).trans (mul_le_mul_of_nonneg_right hDu (by linarith))
  rw [← e1] at r1
  obtain ⟨b1, b2⟩ := abs_le.1 r1
  have y1 : 2 * F.u ≤ (a / b).val := by nlinarith
  have y2 : (a / b).val ≤ 2 * x := by nlinarith
  obtain ⟨f2, e2⟩ := Fp.convert_fin (G := F) (Usual.pos hF) f1 (by rw [abs_of_pos (by linarith)]; linarith)
  refine ⟨f2, (a / b).val, r1, ?_⟩
  rw [e2]
  exact Usual.rel hF y1

private theorem pivot_fp (hF : Spec.Usual F) (hD : Spec.Usual D) (hw : Spec.Wider F D) {t T e κ : ℝ} (ht : 0 < t) (ht1 : t ≤ 1) (hk : κ = e / (4 * t ^ 2))
    (hT : |T - 4 * t ^ 2| ≤ e) (he : e ≤ t ^ 2 / 2) (hue : 16 * F.u ≤ e) {r : Fp D} (rf : r.Finite) (hr : |r.val - Real.sqrt T| ≤ F.u * Real.sqrt T) :
    (quarterOver D (halfOver F r)).Finite ∧ |(quarterOver D (halfOver F r)).val - t| ≤ 4 * κ + 20 * F.u ∧
    ∀ (dd : Fp F) (v f : ℝ), dd.Finite → |v| ≤ 1 → |dd.val - 4 * t * v| ≤ f → f ≤ t ^ 2 / 2 →
      (dd * halfOver F r).Finite ∧ |(dd * halfOver F r).val - v| ≤ 2 * κ + 10 * F.u + f / (2 * t) := by
  obtain ⟨wp, we⟩ := wider_p hw
  have hu := F.u_pos
  have hu10 := Usual.u hF
  have hu5 : F.u ≤ 1 / 512 := by linarith
  obtain ⟨k0, k1, -⟩ := ratio ht hk hT he rfl
  have r0 : 0 ≤ r.val := by
    have := (abs_le.1 hr).1
    have := Real.sqrt_nonneg T
    nlinarith
  obtain ⟨rp, r3, rt, -⟩ := scale_real (a := 1 / 2 / r.val) (s := 1 / 2 / r.val) hu hu5 ht hk hT he hr (by simp; positivity) (by simp; positivity)
  obtain ⟨hf, hv⟩ := half_lit (F := D) (by have := hD.digits; have := hD.range; omega)
  have tu : 32 * F.u ≤ t := by nlinarith
  have x1 : 4 * F.u ≤ 1 / 2 / r.val := by rw [le_div_iff₀ rp]; nlinarith
  have x2 : 2 * (1 / 2 / r.val) * F.u ≤ 1 := by
    have e : 2 * (1 / 2 / r.val) * F.u = F.u / r.val := by field_simp
    rw [e, div_le_one rp]; linarith
  obtain ⟨sf, a, ha, hs⟩ := div_conv hF hD hw hf rf rp.ne' (by rw [hv]) x1 x2
  change (halfOver F r).Finite at sf
  change |(halfOver F r).val - a| ≤ _ at hs
  obtain ⟨-, -, -, hl⟩ := scale_real hu hu5 ht hk hT he hr ha hs
  obtain ⟨s, hs'⟩ : ∃ s, s = halfOver F r := ⟨_, rfl⟩
  rw [← hs'] at hl sf ⊢
  obtain ⟨l1, l2⟩ := abs_le.1 hl
  have L1 : 2 * κ + 8 * F.u ≤ 17 / 64 := by linarith
  have sp : 0 < s.val := by
    rcases lt_or_ge 0 s.val with h | h
    · exact h
    · exfalso; have : 4 * t * s.val ≤ 0 := mul_nonpos_of_nonneg_of_nonpos (by linarith) h
      linarith
  obtain ⟨cf, cv⟩ := Fp.widen_fin wp we (Usual.pos hF) sf
  obtain ⟨qf, qv⟩ := quarter_lit hD
  have e4 : 1 / 4 / s.val = t / (4 * t * s.val) := by field_simp
  have lp : 0 < 4 * t * s.val := by linarith
  have q1 : 1 / 4 / s.val ≤ 2 := by
    rw [e4, div_le_iff₀ lp]; linarith
  have q2 : t / 2 ≤ 1 / 4 / s.val := by
    rw [e4, le_div_iff₀ lp]; nlinarith
  have sm : 4 * s.val ≤ 2 / t := by rw [le_div_iff₀ ht]; linarith
  obtain ⟨pf, b, hb, hp⟩ := div_conv (b := Fp.convert D s) hF hD hw qf cf (by rw [cv]; exact sp.ne') (by rw [qv, cv]) (by linarith : 4 * F.u ≤ 1 / 4 / s.val) (by nlinarith)
  refine ⟨pf, pivot_real hu hu5 ht ht1 k0 k1 hl hb hp, ?_⟩
  intro dd v f df hv1 hd hft
  obtain ⟨o1, o2⟩ := other_real hu hu5 ht ht1 k0 k1 hv1 hl hd hft
  obtain ⟨mf, me⟩ := Fp.mul_fin (Usual.pos hF) df sf (o1.trans (Usual.max hF (by linarith)))
  refine ⟨mf, ?_⟩
  rw [me]
  have h1 := rnd_err_le (F := F) o1 ((tiny_le_one (Usual.pos hF)).trans (by norm_num))
  have h2 := abs_sub_le (F.rnd (dd.val * s.val)) (dd.val * s.val) v
  linarith

/-! ## Sums of entries -/

private theorem sum_err {G : Format} (h0 : 0 < G.emax) {x X : ℝ} (h : |x| ≤ X) (hX : 1 ≤ X) : |G.rnd x - x| ≤ G.u * X :=
  rnd_err_le h ((tiny_le_one h0).trans hX)

private theorem trace_fp (hF : Spec.Usual F) (hD : Spec.Usual D) (hw : Spec.Wider F D) {a b c : Fp F} (fa : a.Finite) (fb : b.Finite) (fc : c.Finite)
    (ha : |a.val| ≤ 101 / 100) (hb : |b.val| ≤ 101 / 100) (hc : |c.val| ≤ 101 / 100) :
    (Fp.convert F (Fp.convert D (a + b + c) + (1 : Fp D))).Finite ∧
      |(Fp.convert F (Fp.convert D (a + b + c) + (1 : Fp D))).val - (a.val + b.val + c.val + 1)| ≤ 16 * F.u := by
  obtain ⟨wp, we⟩ := wider_p hw
  have hu := F.u_pos
  have hu10 := Usual.u hF
  have hDu : D.u ≤ F.u := u_le wp
  have m5 : (5 : ℝ) ≤ F.maxFinite := Usual.max hF (by linarith)
  have M5 : (5 : ℝ) ≤ D.maxFinite := m5.trans (max_widen wp we)
  have b1 : |a.val + b.val| ≤ 101 / 50 := (abs_add_le _ _).trans (by linarith)
  obtain ⟨f1, e1⟩ := Fp.add_fin (Usual.pos hF) fa fb (by linarith)
  have r1 := sum_err (Usual.pos hF) b1 (by norm_num)
  rw [← e1] at r1
  obtain ⟨x, hx⟩ : ∃ x, x = (a + b).val := ⟨_, rfl⟩
  rw [← hx] at r1
  have b2 : |x + c.val| ≤ 31 / 10 := by
    have : x + c.val = (x - (a.val + b.val)) + (a.val + b.val) + c.val := by ring
    rw [this]
    refine (abs_add_le _ _).trans ?_
    have := abs_add_le (x - (a.val + b.val)) (a.val + b.val)
    linarith
  obtain ⟨f2, e2⟩ := Fp.add_fin (a := a + b) (Usual.pos hF) f1 fc (by rw [← hx]; linarith)
  rw [← hx] at e2
  have r2 := sum_err (Usual.pos hF) b2 (by norm_num)
  rw [← e2] at r2
  obtain ⟨y, hy⟩ : ∃ y, y = (a + b + c).val := ⟨_, rfl⟩
  rw [← hy] at r2
  obtain ⟨f3, e3⟩ := Fp.widen_fin wp we (Usual.pos hF) f2
  obtain ⟨of, oe⟩ := Fp.one_fin (F := D) (Usual.pos hD)
  have b3 : |y + 1| ≤ 42 / 10 := by
    have : y + 1 = (y - (x + c.val)) + (x + c.val) + 1 := by ring
    rw [this]
    refine (abs_add_le _ _).trans ?_
    have := abs_add_le (y - (x + c.val)) (x + c.val)
    rw [abs_one]
    linarith
  obtain ⟨f4, e4⟩ := Fp.add_fin (Usual.pos hD) f3 of (by rw [e3, oe, ← hy]; linarith)
  rw [e3, oe, ← hy] at e4
  have r4 := sum_err (Usual.pos hD) b3 (by norm_num)
  rw [← e4] at r4
  obtain ⟨z, hz⟩ : ∃ z, z = (Fp.convert D (a + b + c) + (1 : Fp D)).val := ⟨_, rfl⟩
  rw [← hz] at r4
  have r4' : |z - (y + 1)| ≤ F.u * (42 / 10) := r4.trans (mul_le_mul_of_nonneg_right hDu (by norm_num))
  have b4 : |z| ≤ 43 / 10 := by
    have : z = (z - (y + 1)) + (y + 1) := by ring
    rw [this]
    refine (abs_add_le _ _).trans ?_
    linarith
  obtain ⟨f5, e5⟩ := Fp.convert_fin (G := F) (Usual.pos hF) f4 (by rw [← hz]; linarith)
  rw [← hz] at e5
  have r5 := sum_err (Usual.pos hF) b4 (by norm_num)
  rw [← e5] at r5
  refine ⟨f5, ?_⟩
  rw [abs_le] at *
  constructor <;> linarith

private theorem trace2_fp (hF : Spec.Usual F) (hD : Spec.Usual D) (hw : Spec.Wider F D) {a b c : Fp F} (fa : a.Finite) (fb : b.Finite) (fc : c.Finite)
    (ha : |a.val| ≤ 101 / 100) (hb : |b.val| ≤ 101 / 100) (hc : |c.val| ≤ 101 / 100) :
    ((1 : Fp D) + Fp.convert D a - Fp.convert D b - Fp.convert D c).Finite ∧
      |((1 : Fp D) + Fp.convert D a - Fp.convert D b - Fp.convert D c).val - (1 + a.val - b.val - c.val)| ≤ 16 * F.u := by
  obtain ⟨wp, we⟩ := wider_p hw
  have hu := F.u_pos
  have hu10 := Usual.u hF
  have hDu : D.u ≤ F.u := u_le wp
  have m5 : (5 : ℝ) ≤ F.maxFinite := Usual.max hF (by linarith)
  have M5 : (5 : ℝ) ≤ D.maxFinite := m5.trans (max_widen wp we)
  obtain ⟨of, oe⟩ := Fp.one_fin (F := D) (Usual.pos hD)
  obtain ⟨ga, ea⟩ := Fp.widen_fin wp we (Usual.pos hF) fa
  obtain ⟨gb, eb⟩ := Fp.widen_fin wp we (Usual.pos hF) fb
  obtain ⟨gc, ec⟩ := Fp.widen_fin wp we (Usual.pos hF) fc
  have b1 : |1 + a.val| ≤ 21 / 10 := by have := abs_add_le 1 a.val; rw [abs_one] at this; linarith
  obtain ⟨f1, e1⟩ := Fp.add_fin (Usual.pos hD) of ga (by rw [oe, ea]; linarith)
  rw [oe, ea] at e1
  have r1 := sum_err (Usual.pos hD) b1 (by norm_num)
  rw [← e1] at r1
  obtain ⟨x, hx⟩ : ∃ x, x = ((1 : Fp D) + Fp.convert D a).val := ⟨_, rfl⟩
  rw [← hx] at r1
  have r1' : |x - (1 + a.val)| ≤ F.u * (21 / 10) := r1.trans (mul_le_mul_of_nonneg_right hDu (by norm_num))
  have b2 : |x - b.val| ≤ 32 / 10 := by
    rw [abs_le] at *; constructor <;> linarith
  obtain ⟨f2, e2⟩ := Fp.sub_fin (Usual.pos hD) f1 gb (by rw [← hx, eb]; linarith)
  rw [← hx, eb] at e2
  have r2 := sum_err (Usual.pos hD) b2 (by norm_num)
  rw [← e2] at r2
  obtain ⟨y, hy⟩ : ∃ y, y = ((1 : Fp D) + Fp.convert D a - Fp.convert D b).val := ⟨_, rfl⟩
  rw [← hy] at r2
  have r2' : |y - (x - b.val)| ≤ F.u * (32 / 10) := r2.trans (mul_le_mul_of_nonneg_right hDu (by norm_num))
  have b3 : |y - c.val| ≤ 43 / 10 := by
    rw [abs_le] at *; constructor <;> linarith
  obtain ⟨f3, e3⟩ := Fp.sub_fin (Usual.pos hD) f2 gc (by rw [← hy, ec]; linarith)
  rw [← hy, ec] at e3
  have r3 := sum_err (Usual.pos hD) b3 (by norm_num)
  rw [← e3] at r3
  have r3' := r3.trans (mul_le_mul_of_nonneg_right hDu (by norm_num))
  refine ⟨f3, ?_⟩
  rw [abs_le] at *
  constructor <;> linarith

private theorem diff_fp (hF : Spec.Usual F) {a b : Fp F} (fa : a.Finite) (fb : b.Finite) (ha : |a.val| ≤ 101 / 100) (hb : |b.val| ≤ 101 / 100) :
    ((a - b).Finite ∧ |(a - b).val - (a.val - b.val)| ≤ 3 * F.u) ∧ (a + b).Finite ∧ |(a + b).val - (a.val + b.val)| ≤ 3 * F.u := by
  have hu := F.u_pos
  have hu10 := Usual.u hF
  have m5 : (5 : ℝ) ≤ F.maxFinite := Usual.max hF (by linarith)
  have b1 : |a.val - b.val| ≤ 3 := (abs_sub _ _).trans (by linarith)
  have b2 : |a.val + b.val| ≤ 3 := (abs_add_le _ _).trans (by linarith)
  obtain ⟨f1, e1⟩ := Fp.sub_fin (Usual.pos hF) fa fb (by linarith)
  obtain ⟨f2, e2⟩ := Fp.add_fin (Usual.pos hF) fa fb (by linarith)
  refine ⟨⟨f1, ?_⟩, f2, ?_⟩
  · rw [e1]; have := sum_err (Usual.pos hF) b1 (by norm_num); linarith
  · rw [e2]; have := sum_err (Usual.pos hF) b2 (by norm_num); linarith

/-- One component `τ` by division, three by multiplication. -/
private theorem quad (hF : Spec.Usual F) (hD : Spec.Usual D) (hw : Spec.Wider F D) {τ T δ : ℝ} (hδ : 0 ≤ δ) (hτ : τ ^ 2 ≤ 1)
    (hT : |T - 4 * τ ^ 2| ≤ Spec.traceErr F δ) (he : Spec.traceErr F δ ≤ τ ^ 2 / 2) {r : Fp D} (rf : r.Finite) (hr : |r.val - Real.sqrt T| ≤ F.u * Real.sqrt T) :
    ∃ σ : ℝ, (σ = 1 ∨ σ = -1) ∧ (quarterOver D (halfOver F r)).Finite ∧ |(quarterOver D (halfOver F r)).val - σ * τ| ≤ (3 * δ + 36 * F.u) / τ ^ 2 ∧
      ∀ (dd : Fp F) (v : ℝ), dd.Finite → |v| ≤ 1 → |dd.val - 4 * τ * v| ≤ 2 * δ + 3 * F.u →
        (dd * halfOver F r).Finite ∧ |(dd * halfOver F r).val - σ * v| ≤ (3 * δ + 36 * F.u) / τ ^ 2 := by
  have hu := F.u_pos
  have e0 : 0 < Spec.traceErr F δ := by unfold Spec.traceErr; positivity
  have hne : τ ≠ 0 := by rintro rfl; norm_num at he; linarith
  obtain ⟨σ, hσ, hστ⟩ : ∃ σ : ℝ, (σ = 1 ∨ σ = -1) ∧ σ * τ = |τ| := by
    rcases lt_or_gt_of_ne hne with h | h
    · exact ⟨-1, Or.inr rfl, by rw [abs_of_neg h]; ring⟩
    · exact ⟨1, Or.inl rfl, by rw [abs_of_pos h]; ring⟩
  have hσ2 : σ * σ = 1 := by rcases hσ with rfl | rfl <;> norm_num
  have hσa : |σ| = 1 := by rcases hσ with rfl | rfl <;> norm_num
  have t0 : 0 < |τ| := abs_pos.2 hne
  have t2 : |τ| ^ 2 = τ ^ 2 := sq_abs τ
  have t1 : |τ| ≤ 1 := by rw [← abs_one, ← sq_le_sq]; simpa using hτ
  obtain ⟨pf, pe, po⟩ := pivot_fp (e := Spec.traceErr F δ) hF hD hw t0 t1 rfl (by rw [t2]; exact hT) (by rw [t2]; exact he) (by unfold Spec.traceErr; linarith) rf hr
  have q0 : 0 < τ ^ 2 := by rw [← t2]; positivity
  have k1 : 4 * (Spec.traceErr F δ / (4 * |τ| ^ 2)) = (3 * δ + 16 * F.u) / τ ^ 2 := by rw [t2]; unfold Spec.traceErr; field_simp
  have g1 : F.u ≤ F.u / τ ^ 2 := by rw [le_div_iff₀ q0]; nlinarith
  refine ⟨σ, hσ, pf, ?_, ?_⟩
  · rw [hστ]
    refine pe.trans ?_
    rw [k1]
    have : (3 * δ + 36 * F.u) / τ ^ 2 = (3 * δ + 16 * F.u) / τ ^ 2 + 20 * (F.u / τ ^ 2) := by ring
    rw [this]; linarith
  · intro dd v df hv hd
    have e1 : 4 * τ * v = 4 * |τ| * (σ * v) := by rw [← hστ]; linear_combination (-4 * τ * v) * hσ2
    obtain ⟨h1, h2⟩ := po dd (σ * v) (2 * δ + 3 * F.u) df (by rw [abs_mul, hσa, one_mul]; exact hv) (by rw [← e1]; exact hd) (by
      rw [t2]; refine le_trans ?_ he; unfold Spec.traceErr; linarith)
    refine ⟨h1, h2.trans ?_⟩
    have k2 : 2 * (Spec.traceErr F δ / (4 * |τ| ^ 2)) = (3 * δ + 16 * F.u) / 2 / τ ^ 2 := by rw [t2]; unfold Spec.traceErr; field_simp; ring
    rw [k2]
    have k3 : (2 * δ + 3 * F.u) / (2 * |τ|) ≤ (2 * δ + 3 * F.u) / 2 / τ ^ 2 := by
      rw [div_div]
      refine div_le_div_of_nonneg_left (by positivity) (by positivity) ?_
      rw [← t2]; nlinarith
    have e2 : (3 * δ + 36 * F.u) / τ ^ 2 = (3 * δ + 16 * F.u) / 2 / τ ^ 2 + 10 * (F.u / τ ^ 2) + (2 * δ + 3 * F.u) / 2 / τ ^ 2 + (δ / 2 + 33 / 2 * F.u) / τ ^ 2 := by ring
    have : 0 ≤ (δ / 2 + 33 / 2 * F.u) / τ ^ 2 := by positivity
    rw [e2]; linarith

/-! ## The four cases -/

theorem hrot_entries (Q : Quaternion ℝ) :
    Spec.hrot Q 0 0 = Q.re ^ 2 + Q.imI ^ 2 - Q.imJ ^ 2 - Q.imK ^ 2 ∧ Spec.hrot Q 1 1 = Q.re ^ 2 - Q.imI ^ 2 + Q.imJ ^ 2 - Q.imK ^ 2 ∧
    Spec.hrot Q 2 2 = Q.re ^ 2 - Q.imI ^ 2 - Q.imJ ^ 2 + Q.imK ^ 2 ∧
    Spec.hrot Q 0 1 = 2 * (Q.imI * Q.imJ - Q.re * Q.imK) ∧ Spec.hrot Q 1 0 = 2 * (Q.imI * Q.imJ + Q.re * Q.imK) ∧
    Spec.hrot Q 0 2 = 2 * (Q.imI * Q.imK + Q.re * Q.imJ) ∧ Spec.hrot Q 2 0 = 2 * (Q.imI * Q.imK - Q.re * Q.imJ) ∧
    Spec.hrot Q 1 2 = 2 * (Q.imJ * Q.imK - Q.re * Q.imI) ∧ Spec.hrot Q 2 1 = 2 * (Q.imJ * Q.imK + Q.re * Q.imI) := by
  refine ⟨?_, ?_, ?_, ?_, ?_, ?_, ?_, ?_, ?_⟩ <;> simp [Spec.hrot] <;> ring

theorem hrot_le {Q : Quaternion ℝ} (hQ : ‖Q‖ = 1) (i j : Fin 3) : |Spec.hrot Q i j| ≤ 1 := by
  have h := hnorm_sq Q
  rw [hQ] at h
  obtain ⟨a, b, c, e, f, g, k, l, o⟩ := hrot_entries Q
  have p1 := sq_nonneg Q.re
  have p2 := sq_nonneg Q.imI
  have p3 := sq_nonneg Q.imJ
  have p4 := sq_nonneg Q.imK
  have key : ∀ p q r s : ℝ, p ^ 2 + q ^ 2 + r ^ 2 + s ^ 2 = 1 → |2 * (p * q + r * s)| ≤ 1 ∧ |2 * (p * q - r * s)| ≤ 1 := by
    intro p q r s h
    rw [abs_le, abs_le]
    refine ⟨⟨?_, ?_⟩, ?_, ?_⟩ <;> nlinarith [sq_nonneg (p - q), sq_nonneg (p + q), sq_nonneg (r - s), sq_nonneg (r + s)]
  have k1 := key Q.imI Q.imJ Q.re Q.imK (by linarith)
  have k2 := key Q.imI Q.imK Q.re Q.imJ (by linarith)
  have k3 := key Q.imJ Q.imK Q.re Q.imI (by linarith)
  fin_cases i <;> fin_cases j
  · show |Spec.hrot Q 0 0| ≤ 1
    rw [a, abs_le]; constructor <;> linarith
  · show |Spec.hrot Q 0 1| ≤ 1
    rw [e]; exact k1.2
  · show |Spec.hrot Q 0 2| ≤ 1
    rw [g]; exact k2.1
  · show |Spec.hrot Q 1 0| ≤ 1
    rw [f]; exact k1.1
  · show |Spec.hrot Q 1 1| ≤ 1
    rw [b, abs_le]; constructor <;> linarith
  · show |Spec.hrot Q 1 2| ≤ 1
    rw [l]; exact k3.2
  · show |Spec.hrot Q 2 0| ≤ 1
    rw [k]; exact k2.2
  · show |Spec.hrot Q 2 1| ≤ 1
    rw [o]; exact k3.1
  · show |Spec.hrot Q 2 2| ≤ 1
    rw [c, abs_le]; constructor <;> linarith

private theorem sqrt_acc (hF : Spec.Usual F) (hD : Spec.Usual D) (hw : Spec.Wider F D) {t : Fp D} (ht : t.Finite) (h0 : 0 ≤ t.val) :
    (CMath.sqrt t).Finite ∧ |(CMath.sqrt t).val - Real.sqrt t.val| ≤ F.u * Real.sqrt t.val := by
  obtain ⟨f, e⟩ := Fp.sqrt_fin (Usual.pos hD) ht h0
  refine ⟨f, ?_⟩
  rw [e]
  exact (sqrt_rel hD.range (Fp.rep_val ht) h0).trans (mul_le_mul_of_nonneg_right (u_le (wider_p hw).1) (Real.sqrt_nonneg _))

private theorem close_of {σ E : ℝ} (hσ : σ = 1 ∨ σ = -1) {r : Quat (Fp F)} {Q : Quaternion ℝ} (hf : Spec.QFinite r) (h1 : |r.w.val - σ * Q.re| ≤ E) (h2 : |r.x.val - σ * Q.imI| ≤ E)
    (h3 : |r.y.val - σ * Q.imJ| ≤ E) (h4 : |r.z.val - σ * Q.imK| ≤ E) : Spec.QClose r Q E ∨ Spec.QClose r (-Q) E := by
  rcases hσ with rfl | rfl
  · left; simp only [one_mul] at *; exact ⟨hf, h1, h2, h3, h4⟩
  · right; exact ⟨hf, by simpa using h1, by simpa using h2, by simpa using h3, by simpa using h4⟩

private theorem le1 {x : ℝ} (h : x ^ 2 ≤ 1) : |x| ≤ 1 := by
  rw [abs_le_one_iff_mul_self_le_one]; nlinarith

/-- The `T trace` of the code. -/
private noncomputable def tr (D : Format) (hd : 3 ≤ d) (m : Mat d d (Fp F)) : Fp F :=
  Fp.convert F (Fp.convert D (m.get ⟨0, by omega⟩ ⟨0, by omega⟩ + m.get ⟨1, by omega⟩ ⟨1, by omega⟩ + m.get ⟨2, by omega⟩ ⟨2, by omega⟩) + (1 : Fp D))

private theorem bigger {δ w2 x2 y2 z2 a b : ℝ} (hn : w2 + x2 + y2 + z2 = 1) (ha : x2 - y2 + δ ≥ 0) (hb : x2 - z2 + δ ≥ 0) (hw : w2 ≤ 43 / 1000) (hδ : δ ≤ 1 / 100) : 312 / 1000 ≤ x2 := by
  linarith

private theorem small_bound {δ u t : ℝ} (hδ : 0 ≤ δ) (hu : 0 ≤ u) (ht : 312 / 1000 ≤ t) : (3 * δ + 36 * u) / t ≤ 10 * δ + 116 * u := by
  rw [div_le_iff₀ (by linarith)]; nlinarith

set_option maxHeartbeats 1600000 in
private theorem core (hF : Spec.Usual F) (hD : Spec.Usual D) (hw : Spec.Wider F D) {sq : Fp F → Fp D} (hsq : Spec.SqrtFn sq) (cfg : Cfg) {eps : Fp D} (ef : eps.Finite)
    (e0 : 0 ≤ eps.val) (e8 : eps.val ≤ 1 / 8) (self : Quat (Fp F)) (hd : 3 ≤ d) (m : Mat d d (Fp F)) {Q : Quaternion ℝ} (hQ : ‖Q‖ = 1) {δ : ℝ} (hδ : 0 ≤ δ) (hδ1 : δ ≤ 1 / 100)
    (hm : Spec.NearRot hd m Q δ) :
    ∃ r, self.setMatrixFp sq cfg eps m = .ok r ∧ |(tr D hd m).val - 4 * Q.re ^ 2| ≤ Spec.traceErr F δ ∧
      (eps.val < (tr D hd m).val → Spec.traceErr F δ ≤ Q.re ^ 2 / 2 →
        Spec.QClose r Q ((3 * δ + 36 * F.u) / Q.re ^ 2) ∨ Spec.QClose r (-Q) ((3 * δ + 36 * F.u) / Q.re ^ 2)) ∧
      ((tr D hd m).val ≤ eps.val → ∃ P, (P = Q ∨ P = Spec.flipRe Q) ∧ (Spec.QClose r P (10 * δ + 116 * F.u) ∨ Spec.QClose r (-P) (10 * δ + 116 * F.u))) := by
  obtain ⟨wp, we⟩ := wider_p hw
  have hu := F.u_pos
  have hu10 := Usual.u hF
  have hn := hnorm_sq Q
  rw [hQ] at hn
  obtain ⟨H00, H11, H22, H01, H10, H02, H20, H12, H21⟩ := hrot_entries Q
  have fin : ∀ i j : Fin 3, (m.get (i.castLE hd) (j.castLE hd)).Finite := fun i j => (hm i j).1
  have near : ∀ i j : Fin 3, |(m.get (i.castLE hd) (j.castLE hd)).val - Spec.hrot Q i j| ≤ δ := fun i j => (hm i j).2
  have le : ∀ i j : Fin 3, |(m.get (i.castLE hd) (j.castLE hd)).val| ≤ 101 / 100 := by
    intro i j
    have h1 := near i j
    have h2 := hrot_le hQ i j
    rw [abs_le] at *
    constructor <;> linarith
  obtain ⟨g, hg⟩ : ∃ g : Fin 3 → Fin 3 → Fp F, ∀ i j, g i j = m.get (i.castLE hd) (j.castLE hd) := ⟨_, fun _ _ => rfl⟩
  simp only [← hg] at fin near le
  have at' : ∀ i j : Fin 3, m.atGet cfg i.1 j.1 = .ok (g i j) := by
    intro i j
    rw [Mat.atGet_lt cfg m (by omega) (by omega), hg]; rfl
  have e00 : m.atGet cfg 0 0 = .ok _ := at' 0 0
  have e01 : m.atGet cfg 0 1 = .ok _ := at' 0 1
  have e02 : m.atGet cfg 0 2 = .ok _ := at' 0 2
  have e10 : m.atGet cfg 1 0 = .ok _ := at' 1 0
  have e11 : m.atGet cfg 1 1 = .ok _ := at' 1 1
  have e12 : m.atGet cfg 1 2 = .ok _ := at' 1 2
  have e20 : m.atGet cfg 2 0 = .ok _ := at' 2 0
  have e21 : m.atGet cfg 2 1 = .ok _ := at' 2 1
  have e22 : m.atGet cfg 2 2 = .ok _ := at' 2 2
  have trg : tr D hd m = Fp.convert F (Fp.convert D (g 0 0 + g 1 1 + g 2 2) + (1 : Fp D)) := by
    rw [tr, hg, hg, hg]; rfl
  obtain ⟨tf, te⟩ := trace_fp hF hD hw (fin 0 0) (fin 1 1) (fin 2 2) (le 0 0) (le 1 1) (le 2 2)
  rw [← trg] at tf te
  have n00 := near 0 0
  have n11 := near 1 1
  have n22 := near 2 2
  rw [H00] at n00
  rw [H11] at n11
  rw [H22] at n22
  have hT : |(tr D hd m).val - 4 * Q.re ^ 2| ≤ Spec.traceErr F δ := by
    unfold Spec.traceErr
    rw [abs_le] at *
    constructor <;> linarith
  have dcl : ∀ (i j k l : Fin 3) (τ v : ℝ), (Spec.hrot Q i j - Spec.hrot Q k l = 4 * τ * v → |(g i j - g k l).val - 4 * τ * v| ≤ 2 * δ + 3 * F.u) ∧
      (Spec.hrot Q i j + Spec.hrot Q k l = 4 * τ * v → |(g i j + g k l).val - 4 * τ * v| ≤ 2 * δ + 3 * F.u) := by
    intro i j k l τ v
    obtain ⟨⟨-, h1⟩, -, h2⟩ := diff_fp hF (fin i j) (fin k l) (le i j) (le k l)
    have h3 := near i j
    have h4 := near k l
    constructor
    · intro h; rw [← h]; rw [abs_le] at *; constructor <;> linarith
    · intro h; rw [← h]; rw [abs_le] at *; constructor <;> linarith
  have dfm : ∀ (i j k l : Fin 3), (g i j - g k l).Finite ∧ (g i j + g k l).Finite := by
    intro i j k l
    obtain ⟨⟨h1, -⟩, h2, -⟩ := diff_fp hF (fin i j) (fin k l) (le i j) (le k l)
    exact ⟨h1, h2⟩
  have lw : |Q.re| ≤ 1 := le1 (by nlinarith [sq_nonneg Q.imI, sq_nonneg Q.imJ, sq_nonneg Q.imK])
  have lx : |Q.imI| ≤ 1 := le1 (by nlinarith [sq_nonneg Q.re, sq_nonneg Q.imJ, sq_nonneg Q.imK])
  have ly : |Q.imJ| ≤ 1 := le1 (by nlinarith [sq_nonneg Q.re, sq_nonneg Q.imI, sq_nonneg Q.imK])
  have lz : |Q.imK| ≤ 1 := le1 (by nlinarith [sq_nonneg Q.re, sq_nonneg Q.imI, sq_nonneg Q.imJ])
  have lw' : |-Q.re| ≤ 1 := by rwa [abs_neg]
  have sq1 : ∀ x : ℝ, |x| ≤ 1 → x ^ 2 ≤ 1 := by
    intro x hx; rw [← sq_abs]; nlinarith [abs_nonneg x]
  obtain ⟨ctf, ctv⟩ := Fp.widen_fin wp we (Usual.pos hF) tf
  have cmp : eps < Fp.convert D (tr D hd m) ↔ eps.val < (tr D hd m).val := by rw [Fp.lt_val ef ctf, ctv]
  unfold setMatrixFp
  simp only [e00, e01, e02, e10, e11, e12, e20, e21, e22, Vmml.bind_ok, ← trg]
  by_cases hc : eps.val < (tr D hd m).val
  · rw [if_pos (cmp.2 hc)]
    refine ⟨_, rfl, hT, ?_, fun h => absurd hc (not_lt.2 h)⟩
    intro _ he
    obtain ⟨rf, rv⟩ := hsq _ tf (lt_of_le_of_lt e0 hc)
    obtain ⟨σ, hσ, pf, pe, po⟩ := quad hF hD hw hδ (sq1 _ lw) hT he rf rv
    obtain ⟨xf, xe⟩ := po _ Q.imI (dfm 2 1 1 2).1 lx ((dcl 2 1 1 2 Q.re Q.imI).1 (by rw [H21, H12]; ring))
    obtain ⟨yf, ye⟩ := po _ Q.imJ (dfm 0 2 2 0).1 ly ((dcl 0 2 2 0 Q.re Q.imJ).1 (by rw [H02, H20]; ring))
    obtain ⟨zf, ze⟩ := po _ Q.imK (dfm 1 0 0 1).1 lz ((dcl 1 0 0 1 Q.re Q.imK).1 (by rw [H10, H01]; ring))
    exact close_of hσ ⟨pf, xf, yf, zf⟩ pe xe ye ze
  · rw [if_neg (fun h => hc (cmp.1 h))]
    have hle := not_lt.1 hc
    have w2 : Q.re ^ 2 ≤ 43 / 1000 := by
      have := (abs_le.1 hT).1
      unfold Spec.traceErr at this
      linarith
    have eT : Spec.traceErr F δ ≤ 312 / 1000 / 2 := by unfold Spec.traceErr; linarith
    obtain ⟨k, hk, h1, -, -, h2⟩ := C123_max (M := 3) (by norm_num) (#v[g 0 0, g 1 1, g 2 2] : Vec 3 (Fp F))
    obtain ⟨-, h2, -⟩ := h2 (by simpa using (fin 0 0).ne_nan)
    have c0 := h2 0 (by norm_num) (by simpa using (fin 0 0).ne_nan)
    have c1 := h2 1 (by norm_num) (by simpa using (fin 1 1).ne_nan)
    have c2 := h2 2 (by norm_num) (by simpa using (fin 2 2).ne_nan)
    simp only [h1, Vmml.bind_ok]
    obtain rfl | rfl | rfl : k = 0 ∨ k = 1 ∨ k = 2 := by omega
    · simp at c0 c1 c2
      rw [Fp.ereal_val (fin 0 0), Fp.ereal_val (fin 1 1), EReal.coe_le_coe_iff] at c1
      rw [Fp.ereal_val (fin 0 0), Fp.ereal_val (fin 2 2), EReal.coe_le_coe_iff] at c2
      have big : 312 / 1000 ≤ Q.imI ^ 2 := by
        rw [abs_le] at n00 n11 n22; linarith
      simp only [if_true, pure_ok]
      obtain ⟨Tf, Te⟩ := trace2_fp hF hD hw (fin 0 0) (fin 1 1) (fin 2 2) (le 0 0) (le 1 1) (le 2 2)
      have hT2 : |((1 : Fp D) + Fp.convert D (g 0 0) - Fp.convert D (g 1 1) - Fp.convert D (g 2 2)).val - 4 * Q.imI ^ 2| ≤ Spec.traceErr F δ := by
        unfold Spec.traceErr
        rw [abs_le] at *
        constructor <;> linarith
      obtain ⟨rf, rv⟩ := sqrt_acc hF hD hw Tf (by have := (abs_le.1 hT2).1; linarith)
      obtain ⟨σ, hσ, pf, pe, po⟩ := quad hF hD hw hδ (sq1 _ lx) hT2 (by linarith) rf rv
      have bd := small_bound hδ hu.le big
      obtain ⟨yf, ye⟩ := po _ Q.imJ (dfm 0 1 1 0).2 ly ((dcl 0 1 1 0 Q.imI Q.imJ).2 (by rw [H01, H10]; ring))
      obtain ⟨zf, ze⟩ := po _ Q.imK (dfm 0 2 2 0).2 lz ((dcl 0 2 2 0 Q.imI Q.imK).2 (by rw [H02, H20]; ring))
      obtain ⟨vf, ve⟩ := po _ (-Q.re) (dfm 1 2 2 1).1 lw' ((dcl 1 2 2 1 Q.imI (-Q.re)).1 (by rw [H12, H21]; ring))
      refine ⟨_, rfl, hT, fun h => absurd h hc, fun _ => ⟨Spec.flipRe Q, Or.inr rfl, ?_⟩⟩
      exact close_of hσ ⟨vf, pf, yf, zf⟩ (ve.trans bd) (pe.trans bd) (ye.trans bd) (ze.trans bd)
    · simp at c0 c1 c2
      rw [Fp.ereal_val (fin 0 0), Fp.ereal_val (fin 1 1), EReal.coe_le_coe_iff] at c0
      rw [Fp.ereal_val (fin 1 1), Fp.ereal_val (fin 2 2), EReal.coe_le_coe_iff] at c2
      have big : 312 / 1000 ≤ Q.imJ ^ 2 := by
        rw [abs_le] at n00 n11 n22; linarith
      simp only [if_true, if_false, one_ne_zero, pure_ok]
      obtain ⟨Tf, Te⟩ := trace2_fp hF hD hw (fin 1 1) (fin 0 0) (fin 2 2) (le 1 1) (le 0 0) (le 2 2)
      have hT2 : |((1 : Fp D) + Fp.convert D (g 1 1) - Fp.convert D (g 0 0) - Fp.convert D (g 2 2)).val - 4 * Q.imJ ^ 2| ≤ Spec.traceErr F δ := by
        unfold Spec.traceErr
        rw [abs_le] at *
        constructor <;> linarith
      obtain ⟨rf, rv⟩ := sqrt_acc hF hD hw Tf (by have := (abs_le.1 hT2).1; linarith)
      obtain ⟨σ, hσ, pf, pe, po⟩ := quad hF hD hw hδ (sq1 _ ly) hT2 (by linarith) rf rv
      have bd := small_bound hδ hu.le big
      obtain ⟨xf, xe⟩ := po _ Q.imI (dfm 0 1 1 0).2 lx ((dcl 0 1 1 0 Q.imJ Q.imI).2 (by rw [H01, H10]; ring))
      obtain ⟨zf, ze⟩ := po _ Q.imK (dfm 1 2 2 1).2 lz ((dcl 1 2 2 1 Q.imJ Q.imK).2 (by rw [H12, H21]; ring))
      obtain ⟨vf, ve⟩ := po _ Q.re (dfm 0 2 2 0).1 lw ((dcl 0 2 2 0 Q.imJ Q.re).1 (by rw [H02, H20]; ring))
      refine ⟨_, rfl, hT, fun h => absurd h hc, fun _ => ⟨Q, Or.inl rfl, ?_⟩⟩
      exact close_of hσ ⟨vf, xf, pf, zf⟩ (ve.trans bd) (xe.trans bd) (pe.trans bd) (ze.trans bd)
    · simp at c0 c1 c2
      rw [Fp.ereal_val (fin 0 0), Fp.ereal_val (fin 2 2), EReal.coe_le_coe_iff] at c0
      rw [Fp.ereal_val (fin 1 1), Fp.ereal_val (fin 2 2), EReal.coe_le_coe_iff] at c1
      have big : 312 / 1000 ≤ Q.imK ^ 2 := by
        rw [abs_le] at n00 n11 n22; linarith
      simp only [if_true, if_false, OfNat.ofNat_ne_zero, show ¬ (2 = 1) from by decide, pure_ok]
      obtain ⟨Tf, Te⟩ := trace2_fp hF hD hw (fin 2 2) (fin 0 0) (fin 1 1) (le 2 2) (le 0 0) (le 1 1)
      have hT2 : |((1 : Fp D) + Fp.convert D (g 2 2) - Fp.convert D (g 0 0) - Fp.convert D (g 1 1)).val - 4 * Q.imK ^ 2| ≤ Spec.traceErr F δ := by
        unfold Spec.traceErr
        rw [abs_le] at *
        constructor <;> linarith
      obtain ⟨rf, rv⟩ := sqrt_acc hF hD hw Tf (by have := (abs_le.1 hT2).1; linarith)
      obtain ⟨σ, hσ, pf, pe, po⟩ := quad hF hD hw hδ (sq1 _ lz) hT2 (by linarith) rf rv
      have bd := small_bound hδ hu.le big
      obtain ⟨xf, xe⟩ := po _ Q.imI (dfm 0 2 2 0).2 lx ((dcl 0 2 2 0 Q.imK Q.imI).2 (by rw [H02, H20]; ring))
      obtain ⟨yf, ye⟩ := po _ Q.imJ (dfm 1 2 2 1).2 ly ((dcl 1 2 2 1 Q.imK Q.imJ).2 (by rw [H12, H21]; ring))
      obtain ⟨vf, ve⟩ := po _ (-Q.re) (dfm 0 1 1 0).1 lw' ((dcl 0 1 1 0 Q.imK (-Q.re)).1 (by rw [H01, H10]; ring))
      refine ⟨_, rfl, hT, fun h => absurd h hc, fun _ => ⟨Spec.flipRe Q, Or.inr rfl, ?_⟩⟩
      exact close_of hσ ⟨vf, xf, yf, pf⟩ (ve.trans bd) (xe.trans bd) (ye.trans bd) (pe.trans bd)

/-! ## C141 -/

section
variable (hF : Spec.Usual F) (hD : Spec.Usual D) (hw : Spec.Wider F D) {sq : Fp F → Fp D} (hsq : Spec.SqrtFn sq) (cfg : Cfg) {eps : Fp D} (ef : eps.Finite)
  (e0 : 0 ≤ eps.val) (e8 : eps.val ≤ 1 / 8) (self : Quat (Fp F)) (hd : 3 ≤ d) (m : Mat d d (Fp F)) {Q : Quaternion ℝ} (hQ : ‖Q‖ = 1) {δ : ℝ} (hδ : 0 ≤ δ) (hδ1 : δ ≤ 1 / 100)
  (hm : Spec.NearRot hd m Q δ)
include hF hD hw hsq ef e0 e8 hQ hδ hδ1 hm

/-- **C141** The quaternion read from a matrix that is within `δ` of the rotation by the unit quaternion `Q` is `Q` or `-Q` up to `( 3 δ + 36 u ) / w²`, if the angle is not too close to a half turn. -/
theorem C141_recover (hc : eps.val + Spec.traceErr F δ < 4 * Q.re ^ 2) (he : Spec.traceErr F δ ≤ Q.re ^ 2 / 2) :
    ∃ r, self.setMatrixFp sq cfg eps m = .ok r ∧ (Spec.QClose r Q ((3 * δ + 36 * F.u) / Q.re ^ 2) ∨ Spec.QClose r (-Q) ((3 * δ + 36 * F.u) / Q.re ^ 2)) := by
  obtain ⟨r, h1, h2, h3, -⟩ := core hF hD hw hsq cfg ef e0 e8 self hd m hQ hδ hδ1 hm
  exact ⟨r, h1, h3 (by have := (abs_le.1 h2).1; linarith) he⟩

/-- **C141** For rotations by nearly a half turn the error of the vector part is bounded independently of `Q`, and the real part is right up to the same bound and its sign. -/
theorem C141_half_turn (hc : 4 * Q.re ^ 2 ≤ eps.val - Spec.traceErr F δ) :
    ∃ r, self.setMatrixFp sq cfg eps m = .ok r ∧
      ∃ P, (P = Q ∨ P = Spec.flipRe Q) ∧ (Spec.QClose r P (10 * δ + 116 * F.u) ∨ Spec.QClose r (-P) (10 * δ + 116 * F.u)) := by
  obtain ⟨r, h1, h2, -, h3⟩ := core hF hD hw hsq cfg ef e0 e8 self hd m hQ hδ hδ1 hm
  exact ⟨r, h1, h3 (by have := (abs_le.1 h2).2; linarith)⟩

/-- **C141** In the range where the trace is too close to the threshold to say which case is taken, the result is one or the other. -/
theorem C141_either (he : Spec.traceErr F δ ≤ Q.re ^ 2 / 2) :
    ∃ r, self.setMatrixFp sq cfg eps m = .ok r ∧ ((Spec.QClose r Q ((3 * δ + 36 * F.u) / Q.re ^ 2) ∨ Spec.QClose r (-Q) ((3 * δ + 36 * F.u) / Q.re ^ 2)) ∨
      ∃ P, (P = Q ∨ P = Spec.flipRe Q) ∧ (Spec.QClose r P (10 * δ + 116 * F.u) ∨ Spec.QClose r (-P) (10 * δ + 116 * F.u))) := by
  obtain ⟨r, h1, h2, h3, h4⟩ := core hF hD hw hsq cfg ef e0 e8 self hd m hQ hδ hδ1 hm
  refine ⟨r, h1, ?_⟩
  rcases lt_or_ge eps.val (tr D hd m).val with h | h
  · exact Or.inl (h3 h he)
  · exact Or.inr (h4 h)

/-- **C141** So for rotations by nearly a half turn the result is `Q` or `-Q` up to the bound of `C141_half_turn` and the square root of the threshold. -/
theorem C141_half_turn_bound (hc : 4 * Q.re ^ 2 ≤ eps.val - Spec.traceErr F δ) :
    ∃ r, self.setMatrixFp sq cfg eps m = .ok r ∧
      (Spec.QClose r Q (10 * δ + 116 * F.u + Real.sqrt eps.val) ∨ Spec.QClose r (-Q) (10 * δ + 116 * F.u + Real.sqrt eps.val)) := by
  obtain ⟨r, h1, P, hP, h⟩ := C141_half_turn hF hD hw hsq cfg ef e0 e8 self hd m hQ hδ hδ1 hm hc
  refine ⟨r, h1, ?_⟩
  have hu := F.u_pos
  have hs : 2 * |Q.re| ≤ Real.sqrt eps.val := by
    refine Real.le_sqrt_of_sq_le ?_
    rw [mul_pow, sq_abs]
    have : 0 ≤ Spec.traceErr F δ := by unfold Spec.traceErr; positivity
    linarith
  have hw2 : ∀ a : ℝ, |a - -Q.re| ≤ 10 * δ + 116 * F.u → |a - Q.re| ≤ 10 * δ + 116 * F.u + Real.sqrt eps.val := by
    intro a ha
    have e1 : a - Q.re = (a - -Q.re) + -(2 * Q.re) := by ring
    rw [e1]
    refine (abs_add_le _ _).trans ?_
    rw [abs_neg, abs_mul, abs_of_pos (by norm_num : (0 : ℝ) < 2)]
    linarith
  have hw3 : ∀ a : ℝ, |a - Q.re| ≤ 10 * δ + 116 * F.u → |a - -Q.re| ≤ 10 * δ + 116 * F.u + Real.sqrt eps.val := by
    intro a ha
    have e1 : a - -Q.re = (a - Q.re) + 2 * Q.re := by ring
    rw [e1]
    refine (abs_add_le _ _).trans ?_
    rw [abs_mul, abs_of_pos (by norm_num : (0 : ℝ) < 2)]
    linarith
  have hs0 := Real.sqrt_nonneg eps.val
  rcases hP with rfl | rfl
  · rcases h with ⟨a, b, c, e, f⟩ | ⟨a, b, c, e, f⟩
    · exact Or.inl ⟨a, by linarith, by linarith, by linarith, by linarith⟩
    · exact Or.inr ⟨a, by linarith, by linarith, by linarith, by linarith⟩
  · rcases h with ⟨a, b, c, e, f⟩ | ⟨a, b, c, e, f⟩
    · refine Or.inl ⟨a, hw2 _ b, ?_, ?_, ?_⟩
      · simp only [Spec.flipRe] at c; linarith
      · simp only [Spec.flipRe] at e; linarith
      · simp only [Spec.flipRe] at f; linarith
    · refine Or.inr ⟨a, ?_, ?_, ?_, ?_⟩
      · rw [Quaternion.re_neg]; refine hw3 _ ?_; rw [Quaternion.re_neg] at b; simpa [Spec.flipRe] using b
      · rw [Quaternion.imI_neg] at c ⊢; simp only [Spec.flipRe] at c; linarith
      · rw [Quaternion.imJ_neg] at e ⊢; simp only [Spec.flipRe] at e; linarith
      · rw [Quaternion.imK_neg] at f ⊢; simp only [Spec.flipRe] at f; linarith

end

/-- **C141** Both readings of the unqualified `sqrt( trace )`, the function for `double` and the overload for the component type, are accurate enough. -/
theorem C141_sqrt (hF : Spec.Usual F) (hD : Spec.Usual D) (hw : Spec.Wider F D) :
    Spec.SqrtFn (fun t : Fp F => (CMath.sqrt (Fp.convert D t) : Fp D)) ∧ Spec.SqrtFn (fun t : Fp F => Fp.convert D (CMath.sqrt t)) := by
  obtain ⟨wp, we⟩ := wider_p hw
  constructor
  · intro t tf t0
    obtain ⟨cf, cv⟩ := Fp.widen_fin wp we (Usual.pos hF) tf
    have := sqrt_acc hF hD hw cf (by rw [cv]; exact t0.le)
    rwa [cv] at this
  · intro t tf t0
    obtain ⟨sf, sv⟩ := sqrt_acc hF hF (Or.inl rfl) tf t0.le
    obtain ⟨cf, cv⟩ := Fp.widen_fin wp we (Usual.pos hF) sf
    exact ⟨cf, by rw [cv]; exact sv⟩

/-- **C141** Quaternion to matrix to quaternion, all in IEEE arithmetic: a quaternion of nearly unit length comes back, up to the sign and a stated error. -/
theorem C141_round_trip (hF : Spec.Usual F) (hD : Spec.Usual D) (hw : Spec.Wider F D) {sq : Fp F → Fp D} (hsq : Spec.SqrtFn sq) (cfg : Cfg) {eps : Fp D} (ef : eps.Finite)
    (e0 : 0 ≤ eps.val) (e8 : eps.val ≤ 1 / 8) (self : Quat (Fp F)) (hd : 3 ≤ d) (m0 : Mat d d (Fp F)) (q : Quat (Fp F)) (hq : Spec.QFinite q) {N δ : ℝ}
    (hN : N = ‖Spec.fhval q‖ ^ 2) (hδ : δ = Spec.rotErr F N + |N - 1|) (hδ1 : δ ≤ 1 / 100)
    (hc : eps.val + Spec.traceErr F δ < 4 * (q.w.val ^ 2 / N)) (he : Spec.traceErr F δ ≤ q.w.val ^ 2 / N / 2) :
    ∃ m r, q.getRotationMatrixTo cfg m0 = .ok m ∧ self.setMatrixFp sq cfg eps m = .ok r ∧
      (Spec.QClose r (Spec.fhval q) ((3 * δ + 36 * F.u) / (q.w.val ^ 2 / N) + |N - 1|) ∨ Spec.QClose r (-Spec.fhval q) ((3 * δ + 36 * F.u) / (q.w.val ^ 2 / N) + |N - 1|)) := by
  have hu := F.u_pos
  have hu10 := Usual.u hF
  have ht0 := F.tiny_pos
  have ht1 := tiny_le_one (Usual.pos hF)
  have N0 : 0 ≤ N := by rw [hN]; positivity
  have p4 : 0 ≤ (1 + F.u) ^ 4 - 1 := by have := one_le_pow₀ (M₀ := ℝ) (a := 1 + F.u) (by linarith) (n := 4); linarith
  have rE : 0 ≤ Spec.rotErr F N := by unfold Spec.rotErr; exact mul_nonneg p4 (by positivity)
  have hδ0 : 0 ≤ δ := by rw [hδ]; positivity
  have hN1 : |N - 1| ≤ 1 / 100 := by linarith
  obtain ⟨n1, n2⟩ := abs_le.1 hN1
  have Np : 0 < N := by linarith
  have lp : 0 < ‖Spec.fhval q‖ := by
    rcases (norm_nonneg (Spec.fhval q)).eq_or_lt with h | h
    · rw [← h] at hN; norm_num at hN; linarith
    · exact h
  obtain ⟨m, hm1, hm2, -⟩ := C115_block hd (by have := hF.digits; have := hF.range; omega) cfg q m0
  rw [← hN] at hm2
  have room : (1 + F.u) ^ 4 * (N + 5 * F.tiny) ≤ F.maxFinite := by
    refine Usual.max hF ?_
    have h1 : (1 + F.u) ^ 4 ≤ 2 := by
      have : (1 + F.u) ^ 4 ≤ (1 + 1 / 1024) ^ 4 := pow_le_pow_left₀ (by linarith) (by linarith) 4
      exact this.trans (by norm_num)
    have h2 : (1 + F.u) ^ 4 * (N + 5 * F.tiny) ≤ 2 * 7 := mul_le_mul h1 (by linarith) (by positivity) (by norm_num)
    nlinarith
  obtain ⟨Q, hQ⟩ : ∃ Q, Q = ‖Spec.fhval q‖⁻¹ • Spec.fhval q := ⟨_, rfl⟩
  have Qn : ‖Q‖ = 1 := by rw [hQ, norm_smul, norm_inv, norm_norm, inv_mul_cancel₀ lp.ne']
  have back : Spec.fhval q = ‖Spec.fhval q‖ • Q := by rw [hQ, smul_smul, mul_inv_cancel₀ lp.ne', one_smul]
  have near : Spec.NearRot hd m Q δ := by
    intro i j
    have f := (hm2 i j).2 hq room
    refine ⟨f, ?_⟩
    have h1 := ((hm2 i j).1 f).2
    rw [back, hrot_smul, ← hN] at h1
    have h2 := hrot_le Qn i j
    have e1 : (m.get (i.castLE hd) (j.castLE hd)).val - Spec.hrot Q i j
        = ((m.get (i.castLE hd) (j.castLE hd)).val - N * Spec.hrot Q i j) + (N - 1) * Spec.hrot Q i j := by ring
    rw [e1]
    refine (abs_add_le _ _).trans ?_
    rw [abs_mul, hδ]
    have : |N - 1| * |Spec.hrot Q i j| ≤ |N - 1| * 1 := mul_le_mul_of_nonneg_left h2 (abs_nonneg _)
    linarith
  have re2 : Q.re ^ 2 = q.w.val ^ 2 / N := by
    have : Q.re = ‖Spec.fhval q‖⁻¹ * q.w.val := by rw [hQ, Quaternion.re_smul]; rfl
    rw [this, hN, mul_pow, inv_pow, inv_mul_eq_div]
  rw [← re2] at hc he ⊢
  obtain ⟨r, hr, hcl⟩ := C141_recover hF hD hw hsq cfg ef e0 e8 self hd m Qn hδ0 hδ1 near hc he
  refine ⟨m, r, hm1, hr, ?_⟩
  have hl : |‖Spec.fhval q‖ - 1| ≤ |N - 1| := by
    have : N - 1 = (‖Spec.fhval q‖ - 1) * (‖Spec.fhval q‖ + 1) := by rw [hN]; ring
    rw [this, abs_mul, abs_of_pos (by linarith : 0 < ‖Spec.fhval q‖ + 1)]
    have := abs_nonneg (‖Spec.fhval q‖ - 1)
    nlinarith
  have hn := hnorm_sq Q
  rw [Qn] at hn
  have lw : |Q.re| ≤ 1 := le1 (by nlinarith [sq_nonneg Q.imI, sq_nonneg Q.imJ, sq_nonneg Q.imK])
  have lx : |Q.imI| ≤ 1 := le1 (by nlinarith [sq_nonneg Q.re, sq_nonneg Q.imJ, sq_nonneg Q.imK])
  have ly : |Q.imJ| ≤ 1 := le1 (by nlinarith [sq_nonneg Q.re, sq_nonneg Q.imI, sq_nonneg Q.imK])
  have lz : |Q.imK| ≤ 1 := le1 (by nlinarith [sq_nonneg Q.re, sq_nonneg Q.imI, sq_nonneg Q.imJ])
  obtain ⟨L, hL⟩ : ∃ L, L = ‖Spec.fhval q‖ := ⟨_, rfl⟩
  rw [← hL] at hl back
  have move : ∀ a c E : ℝ, |c| ≤ 1 → |a - c| ≤ E → |a - L * c| ≤ E + |N - 1| := by
    intro a c E h1 h2
    have e1 : a - L * c = (a - c) + -((L - 1) * c) := by ring
    rw [e1]
    refine (abs_add_le _ _).trans ?_
    rw [abs_neg, abs_mul]
    have : |L - 1| * |c| ≤ |N - 1| * 1 := mul_le_mul hl h1 (abs_nonneg _) (abs_nonneg _)
    linarith
  rw [back]
  rcases hcl with ⟨a, b, c, e, f⟩ | ⟨a, b, c, e, f⟩
  · left
    exact ⟨a, by simpa using move _ _ _ lw b, by simpa using move _ _ _ lx c, by simpa using move _ _ _ ly e, by simpa using move _ _ _ lz f⟩
  · right
    rw [Quaternion.re_neg] at b
    rw [Quaternion.imI_neg] at c
    rw [Quaternion.imJ_neg] at e
    rw [Quaternion.imK_neg] at f
    refine ⟨a, ?_, ?_, ?_, ?_⟩
    · simpa using move _ _ _ (by rwa [abs_neg]) b
    · simpa using move _ _ _ (by rwa [abs_neg]) c
    · simpa using move _ _ _ (by rwa [abs_neg]) e
    · simpa using move _ _ _ (by rwa [abs_neg]) f

/-! ## Instances -/

theorem usual_single : Spec.Usual single := ⟨by norm_num, by norm_num⟩
theorem usual_double : Spec.Usual double := ⟨by norm_num, by norm_num⟩

/-- `C141_round_trip`, `C141_recover`: the `float` quaternion `( 1 + i + j + k ) / 2` meets the hypotheses, with the threshold `1e-5` of the code, and comes back up to `300 u`. -/
example (cfg : Cfg) (self : Quat (Fp single)) (m0 : Mat 4 4 (Fp single)) :
    let h : Fp single := .round false (1 / 2)
    let q : Quat (Fp single) := ⟨h, h, h, h⟩
    ∃ m r, q.getRotationMatrixTo cfg m0 = .ok m ∧ self.setMatrixFp (fun t => (CMath.sqrt (Fp.convert double t) : Fp double)) cfg (.round false (1 / 100000)) m = .ok r ∧
      (Spec.QClose r (Spec.fhval q) (300 * single.u) ∨ Spec.QClose r (-Spec.fhval q) (300 * single.u)) := by
  intro h q
  obtain ⟨hf, hv⟩ := half_lit (F := single) (by norm_num)
  have hN : ‖Spec.fhval q‖ ^ 2 = 1 := by
    rw [hnorm_sq]; simp only [Spec.fhval, q, h, hv]; norm_num
  have hu : single.u = 1 / 2 ^ 24 := by unfold u; norm_num
  have ht : single.tiny ≤ 1 / 64 := by
    have : single.tiny ≤ (2 : ℝ) ^ (-6 : Int) := zpow_le_zpow_right₀ (by norm_num) (by decide)
    refine this.trans (by norm_num [zpow_neg])
  have ht0 := single.tiny_pos
  have rE : Spec.rotErr single 1 ≤ 5 * single.u := by
    unfold Spec.rotErr
    rw [hu]
    have : ((1 + 1 / 2 ^ 24 : ℝ) ^ 4 - 1) * (1 + 5 * single.tiny) ≤ ((1 + 1 / 2 ^ 24 : ℝ) ^ 4 - 1) * (1 + 5 * (1 / 64)) :=
      mul_le_mul_of_nonneg_left (by linarith) (by norm_num)
    refine this.trans (by norm_num)
  obtain ⟨ef, ev⟩ := Fp.round_signed (F := double) (x := 1 / 100000) (s := false) (by norm_num) (by intro _; simp) (by
    have := one_le_max (F := double) (by norm_num)
    rw [abs_of_pos (by norm_num)]; linarith)
  rw [abs_of_pos (by norm_num)] at ef ev
  have ee := rnd_err_le (F := double) (x := 1 / 100000) (X := 1) (by rw [abs_of_pos (by norm_num)]; norm_num) (tiny_le_one (by norm_num))
  rw [← ev] at ee
  have du : double.u ≤ 1 / 2 ^ 24 := by rw [← hu]; exact u_le (by norm_num)
  obtain ⟨ee1, ee2⟩ := abs_le.1 ee
  have tE : Spec.traceErr single (Spec.rotErr single 1) ≤ 31 * single.u := by unfold Spec.traceErr; linarith
  have hwv : q.w.val ^ 2 / 1 = 1 / 4 := by simp only [q, h, hv]; norm_num
  obtain ⟨m, r, h1, h2, h3⟩ := C141_round_trip usual_single usual_double wider_single (C141_sqrt usual_single usual_double wider_single).1 cfg ef (by linarith) (by linarith) self
    (by norm_num) m0 q ⟨hf, hf, hf, hf⟩ (N := 1) (δ := Spec.rotErr single 1) hN.symm (by simp) (by rw [hu] at rE; linarith) (by rw [hwv]; rw [hu] at tE; linarith)
    (by rw [hwv]; rw [hu] at tE; linarith)
  refine ⟨m, r, h1, h2, ?_⟩
  have hE : (3 * Spec.rotErr single 1 + 36 * single.u) / (q.w.val ^ 2 / 1) + |(1 : ℝ) - 1| ≤ 300 * single.u := by
    rw [hwv, sub_self, abs_zero]; linarith
  have mono : ∀ P E, E ≤ 300 * single.u → Spec.QClose r P E → Spec.QClose r P (300 * single.u) := by
    rintro P E hE ⟨a, b, c, e, f⟩
    exact ⟨a, b.trans hE, c.trans hE, e.trans hE, f.trans hE⟩
  exact h3.imp (mono _ _ hE) (mono _ _ hE)

/-- `C141_half_turn`, `C141_half_turn_bound`: the half turn about the first axis, `diag( 1, -1, -1 )` in `float`, meets the hypotheses with `δ = 0`. -/
example (cfg : Cfg) (self : Quat (Fp single)) (m : Mat 3 3 (Fp single)) (hm : m = Mat.ofFn fun i j => if i = j then (if i = 0 then 1 else -1) else 0) :
    ∃ r, self.setMatrixFp (fun t => (CMath.sqrt (Fp.convert double t) : Fp double)) cfg (.round false (1 / 100000)) m = .ok r ∧
      ∃ P, (P = (⟨0, 1, 0, 0⟩ : Quaternion ℝ) ∨ P = Spec.flipRe ⟨0, 1, 0, 0⟩) ∧ (Spec.QClose r P (10 * 0 + 116 * single.u) ∨ Spec.QClose r (-P) (10 * 0 + 116 * single.u)) := by
  obtain ⟨of, ov⟩ := Fp.one_fin (F := single) (by norm_num)
  have hu : single.u = 1 / 2 ^ 24 := by unfold u; norm_num
  obtain ⟨ef, ev⟩ := Fp.round_signed (F := double) (x := 1 / 100000) (s := false) (by norm_num) (by intro _; simp) (by
    have := one_le_max (F := double) (by norm_num)
    rw [abs_of_pos (by norm_num)]; linarith)
  rw [abs_of_pos (by norm_num)] at ef ev
  have ee := rnd_err_le (F := double) (x := 1 / 100000) (X := 1) (by rw [abs_of_pos (by norm_num)]; norm_num) (tiny_le_one (by norm_num))
  rw [← ev] at ee
  have du : double.u ≤ 1 / 2 ^ 24 := by rw [← hu]; exact u_le (by norm_num)
  obtain ⟨ee1, ee2⟩ := abs_le.1 ee
  refine C141_half_turn usual_single usual_double wider_single (C141_sqrt usual_single usual_double wider_single).1 cfg ef (by linarith) (by linarith) self (by norm_num) m (Q := ⟨0, 1, 0, 0⟩) ?_
    le_rfl (by norm_num) ?_ ?_
  · have := hnorm_sq (⟨0, 1, 0, 0⟩ : Quaternion ℝ)
    norm_num at this
    rcases this with h | h
    · exact h
    · have := @norm_nonneg (Quaternion ℝ) _ ⟨0, 1, 0, 0⟩; exact absurd h (by intro h; rw [h] at this; norm_num at this)
  · obtain ⟨H00, H11, H22, H01, H10, H02, H20, H12, H21⟩ := hrot_entries (⟨0, 1, 0, 0⟩ : Quaternion ℝ)
    intro i j
    subst hm
    have zf : (0 : Fp single).Finite ∧ (0 : Fp single).val = 0 := ⟨Fp.finite_zero, Fp.val_zero⟩
    have nf : (-1 : Fp single).Finite ∧ (-1 : Fp single).val = -1 := ⟨Fp.finite_neg of, by rw [Fp.val_neg, ov]⟩
    rw [Mat.get_ofFn]
    fin_cases i <;> fin_cases j <;> simp at H00 H11 H22 H01 H10 H02 H20 H12 H21 ⊢ <;> simp [*]
  · unfold Spec.traceErr; rw [hu]; norm_num; linarith

end Vmml
