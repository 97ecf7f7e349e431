import Verif.Model.VectorFloat
import Verif.Props.FloatQuantize

/-!
# C138: `scale_to` in IEEE 754 arithmetic
-/

namespace Vmml
open Format Mat
variable {F D : Format} {M : Nat}

/-! ## Specification -/

/-- A range `-a .. a` and a greatest code `R` that can be handled: four digits of the format are left for the rounding, and neither `1 / ( 2 a )` underflows nor the scale overflows. -/
structure Spec.ScaleFits (R : Int) (a : Fp F) : Prop where
  fin : a.Finite
  pos : 0 < a.val
  one_le : 1 ≤ R
  digits : 16 * R ≤ 2 ^ (F.p + 1)
  large : 2 * a.val ≤ (2 : ℝ) ^ ((F.emax : Int) - 1)
  small : 4 * (R : ℝ) ≤ 2 * a.val * F.maxFinite

/-! ## Rounding at a known exponent -/

/-- Rounding a number in `[2 ^ E, 2 ^ ( E + 1 ))` close to a multiple of the spacing there. -/
theorem rnd_at {x : ℝ} {E k : Int} (hE : F.emin ≤ E) (h1 : (2 : ℝ) ^ E ≤ x) (h2 : x < (2 : ℝ) ^ (E + 1)) (hk : |x - k * (2 : ℝ) ^ (E - F.p)| < 1 / 2 * (2 : ℝ) ^ (E - F.p)) :
    F.rnd x = k * (2 : ℝ) ^ (E - F.p) := by
  have hx : 0 < x := lt_of_lt_of_le (by positivity) h1
  have hl : Int.log 2 |x| = E := by
    rw [abs_of_pos hx]
    apply le_antisymm
    · have : Int.log 2 x < E + 1 := by rw [← Int.lt_zpow_iff_log_lt (by norm_num) hx]; exact_mod_cast h2
      omega
    · rw [← Int.zpow_le_iff_le_log (by norm_num) hx]; exact_mod_cast h1
  have hle : F.lastExp x = E - F.p := by unfold lastExp; rw [hl, max_eq_left hE]
  unfold rnd
  rw [hle]
  have hpos : (0 : ℝ) < (2 : ℝ) ^ (E - F.p) := by positivity
  obtain ⟨y, hy⟩ : ∃ y, y = x / (2 : ℝ) ^ (E - F.p) := ⟨_, rfl⟩
  have hyx : x = y * (2 : ℝ) ^ (E - F.p) := by rw [hy]; field_simp
  rw [← hy]
  have hyk : |y - k| < 1 / 2 := by
    rw [hyx, ← sub_mul, abs_mul, abs_of_pos hpos] at hk
    exact lt_of_mul_lt_mul_right hk hpos.le
  have := nearest_err y
  have hlt : |((nearest y - k : Int) : ℝ)| < 1 := by
    push_cast
    have := abs_add_le ((nearest y : ℝ) - y) (y - k)
    rw [sub_add_sub_cancel] at this
    linarith
  have : |nearest y - k| < 1 := by exact_mod_cast hlt
  have : nearest y = k := by rw [Int.abs_lt_one_iff] at this; omega
  rw [this]

/-! ## The computation in real numbers -/

private theorem pow4_up {u : ℝ} (hu0 : 0 < u) (hu : u ≤ 1 / 64) : (1 + u) ^ 4 ≤ 1 + 4.5 * u := by
  have h2 : u * u ≤ 1 / 64 * u := mul_le_mul_of_nonneg_right hu hu0.le
  have h3 : u * (u * u) ≤ 1 / 64 * (u * u) := mul_le_mul_of_nonneg_right hu (by positivity)
  have h4 : u * (u * (u * u)) ≤ 1 / 64 * (u * (u * u)) := mul_le_mul_of_nonneg_right hu (by positivity)
  have e : (1 + u) ^ 4 = 1 + 4 * u + 6 * (u * u) + 4 * (u * (u * u)) + u * (u * (u * u)) := by ring
  rw [e]
  linarith
private theorem pow4_down {u : ℝ} (hu0 : 0 < u) (hu : u ≤ 1 / 64) : 1 - 4 * u ≤ (1 - u) ^ 4 := by
  have h2 : 0 ≤ u * u := by positivity
  have h3 : u * (u * u) ≤ 1 / 64 * (u * u) := mul_le_mul_of_nonneg_right hu (by positivity)
  have h4 : 0 ≤ u * (u * (u * u)) := by positivity
  have e : (1 - u) ^ 4 = 1 - 4 * u + 6 * (u * u) - 4 * (u * (u * u)) + u * (u * (u * u)) := by ring
  rw [e]
  linarith

set_option maxHeartbeats 800000 in
private theorem scale_err {u η a R x q1 q2 s d v : ℝ} (hu0 : 0 < u) (hu : u ≤ 1 / 64) (hη : 0 ≤ η) (hηu : η ≤ u) (ha : 0 < a) (hR : 1 ≤ R) (hx0 : -a ≤ x) (hx1 : x ≤ a)
    (e1 : |q1 - 1 / (2 * a)| ≤ u * (1 / (2 * a))) (e2 : |q2 - q1 * R| ≤ u * |q1 * R|) (e3 : |s - q2| ≤ u * |q2|) (e4 : |d - (x + a)| ≤ u * (x + a)) (e5 : |v - d * s| ≤ u * |d * s| + η) :
    0 ≤ q1 ∧ |q1 * R| ≤ 2 * R / (2 * a) ∧ |q2| ≤ 2 * R / (2 * a) ∧ 0 ≤ s ∧ 0 ≤ d ∧ |d * s| ≤ 2 * R ∧ |v - (x + a) * R / (2 * a)| ≤ 7 * u * R := by
  obtain ⟨b, hb⟩ : ∃ b, b = 1 / (2 * a) := ⟨_, rfl⟩
  have hb0 : 0 < b := by rw [hb]; positivity
  have hab : 2 * a * b = 1 := by rw [hb]; field_simp
  have g1 : 2 * R / (2 * a) = 2 * (b * R) := by rw [hb]; ring
  have g2 : (x + a) * R / (2 * a) = (x + a) * (b * R) := by rw [hb]; ring
  rw [g1, g2]
  rw [← hb] at e1
  have hR0 : 0 < R := by linarith
  obtain ⟨a1, a2⟩ := abs_le.1 e1
  have p1 : b * (1 - u) ≤ q1 := by linarith
  have p1' : q1 ≤ b * (1 + u) := by linarith
  have q10 : 0 ≤ q1 := (mul_nonneg hb0.le (by linarith)).trans p1
  have q1R : 0 ≤ q1 * R := mul_nonneg q10 hR0.le
  rw [abs_of_nonneg q1R] at e2 ⊢
  obtain ⟨b1, b2⟩ := abs_le.1 e2
  have w1 : b * (1 - u) * R ≤ q1 * R := mul_le_mul_of_nonneg_right p1 hR0.le
  have w1' : q1 * R ≤ b * (1 + u) * R := mul_le_mul_of_nonneg_right p1' hR0.le
  obtain ⟨c, hc⟩ : ∃ c, c = b * R := ⟨_, rfl⟩
  have hc0 : 0 < c := by rw [hc]; positivity
  have w2 : c * (1 - u) ≤ q1 * R := by rw [hc]; linarith
  have w2' : q1 * R ≤ c * (1 + u) := by rw [hc]; linarith
  rw [← hc]
  have r1 : c * (1 - u) * (1 - u) ≤ q2 := by
    have := mul_le_mul_of_nonneg_right w2 (by linarith : 0 ≤ 1 - u)
    linarith
  have r1' : q2 ≤ c * (1 + u) * (1 + u) := by
    have := mul_le_mul_of_nonneg_right w2' (by linarith : 0 ≤ 1 + u)
    linarith
  have hm0 : 0 < 1 - u := by linarith
  have q20 : 0 ≤ q2 := (by positivity : (0:ℝ) ≤ c * (1 - u) * (1 - u)).trans r1
  rw [abs_of_nonneg q20] at e3 ⊢
  obtain ⟨c1, c2⟩ := abs_le.1 e3
  have s1 : c * (1 - u) * (1 - u) * (1 - u) ≤ s := by
    have := mul_le_mul_of_nonneg_right r1 hm0.le
    linarith
  have s1' : s ≤ c * (1 + u) * (1 + u) * (1 + u) := by
    have := mul_le_mul_of_nonneg_right r1' (by linarith : 0 ≤ 1 + u)
    linarith
  have s0 : 0 ≤ s := (by positivity : (0:ℝ) ≤ c * (1 - u) * (1 - u) * (1 - u)).trans s1
  obtain ⟨y, hy⟩ : ∃ y, y = x + a := ⟨_, rfl⟩
  have hy0 : 0 ≤ y := by linarith
  have hyc : y * c ≤ R := by
    have h1 : y * c ≤ 2 * a * c := mul_le_mul_of_nonneg_right (by linarith) hc0.le
    have h2 : 2 * a * c = R := by rw [hc, ← mul_assoc, hab, one_mul]
    linarith
  rw [← hy] at e4 ⊢
  obtain ⟨d1, d2⟩ := abs_le.1 e4
  have t1 : y * (1 - u) ≤ d := by linarith
  have t1' : d ≤ y * (1 + u) := by linarith
  have d0 : 0 ≤ d := (by positivity : 0 ≤ y * (1 - u)).trans t1
  have ds0 : 0 ≤ d * s := by positivity
  rw [abs_of_nonneg ds0] at e5 ⊢
  obtain ⟨f1, f2⟩ := abs_le.1 e5
  have z0 : 0 ≤ y * c := by positivity
  have m1 : y * c * (1 - u) ^ 4 ≤ d * s := by
    have := mul_le_mul t1 s1 (by positivity) d0
    calc y * c * (1 - u) ^ 4 = y * (1 - u) * (c * (1 - u) * (1 - u) * (1 - u)) := by ring
      _ ≤ _ := this
  have m1' : d * s ≤ y * c * (1 + u) ^ 4 := by
    have := mul_le_mul t1' s1' s0 (by positivity)
    calc d * s ≤ y * (1 + u) * (c * (1 + u) * (1 + u) * (1 + u)) := this
      _ = _ := by ring
  have k1 := pow4_up hu0 hu
  have k2 := pow4_down hu0 hu
  have n1 : y * c * (1 - 4 * u) ≤ d * s := (mul_le_mul_of_nonneg_left k2 z0).trans m1
  have n1' : d * s ≤ y * c * (1 + 4.5 * u) := m1'.trans (mul_le_mul_of_nonneg_left k1 z0)
  have uz : u * (y * c) ≤ u * R := mul_le_mul_of_nonneg_left hyc hu0.le
  have uR : u ≤ u * R := le_mul_of_one_le_right hu0.le hR
  have uds : u * (d * s) ≤ u * (y * c * (1 + 4.5 * u)) := mul_le_mul_of_nonneg_left n1' hu0.le
  have uu : u * (u * (y * c)) ≤ 1 / 64 * (u * (y * c)) := mul_le_mul_of_nonneg_right hu (by positivity)
  have u1 : (1 + u) * (1 + u) ≤ 2 := by nlinarith only [hu, hu0]
  refine ⟨q10, ?_, ?_, s0, d0, ?_, ?_⟩
  · have := mul_le_mul_of_nonneg_left (by linarith : 1 + u ≤ 2) hc0.le
    linarith
  · have := mul_le_mul_of_nonneg_left u1 hc0.le
    linarith
  · have : u * (y * c) ≤ 1 / 64 * (y * c) := mul_le_mul_of_nonneg_right hu z0
    linarith
  · rw [abs_le]
    constructor <;> linarith

/-- What the code computes before truncating, in real numbers. -/
private noncomputable def scl (F D : Format) (R a : ℝ) : ℝ := F.rnd (D.rnd (D.rnd (1 / (2 * a)) * R))
private noncomputable def elt (F D : Format) (R a x : ℝ) : ℝ := F.rnd (F.rnd (x + a) * scl F D R a)

private theorem u64 (h5 : 5 ≤ F.p) : F.u ≤ 1 / 64 := by
  unfold Format.u
  calc (2 : ℝ)⁻¹ ^ (F.p + 1) ≤ (2 : ℝ)⁻¹ ^ 6 := pow_le_pow_of_le_one (by norm_num) (by norm_num) (by omega)
    _ = _ := by norm_num

private theorem wide (hD : Spec.Wider F D) : F.p ≤ D.p ∧ F.emax ≤ D.emax := by
  rcases hD with rfl | ⟨h1, h2⟩
  · exact ⟨le_rfl, le_rfl⟩
  · exact ⟨h1, h2.le⟩

private theorem toCode_ok {tt : IntType} {a : Fp F} (ha : a.Finite) (h0 : 0 ≤ a.val) (h1 : tt.min ≤ ⌊a.val⌋) (h2 : ⌊a.val⌋ ≤ tt.max) : Fp.toCode tt a = .ok ⌊a.val⌋ := by
  obtain ⟨s, m, hm, rfl⟩ := Fp.finite_cases ha
  unfold Fp.toCode
  simp only
  rw [if_pos h0, if_pos ⟨h1, h2⟩]

private theorem toCode_ub {tt : IntType} {a : Fp F} (ha : a.Finite) (h0 : 0 ≤ a.val) (h2 : tt.max < ⌊a.val⌋) : Fp.toCode tt a = .error .ub := by
  obtain ⟨s, m, hm, rfl⟩ := Fp.finite_cases ha
  unfold Fp.toCode
  simp only
  rw [if_pos h0, if_neg fun h => absurd h.2 (not_le.2 h2)]

/-- The two constants of the loop. -/
private theorem consts (hD : Spec.Wider F D) (hF : F.p + 2 ≤ F.emax) {R : Int} {a : Fp F} (ha : a.Finite) (hpos : 0 < a.val) (hlarge : 2 * a.val ≤ (2 : ℝ) ^ ((F.emax : Int) - 1))
    (hov1 : 1 / (2 * a.val) ≤ D.maxFinite) (hRf : (Fp.ofReal (R : ℝ) : Fp F).Finite) (hov2 : |D.rnd (1 / (2 * a.val)) * (Fp.ofReal (R : ℝ) : Fp F).val| ≤ D.maxFinite)
    (hov3 : |D.rnd (D.rnd (1 / (2 * a.val)) * (Fp.ofReal (R : ℝ) : Fp F).val)| ≤ F.maxFinite) :
    (Fp.convert F (Fp.convert D (a - -a) * (Fp.ofReal (1 / 2) : Fp D))).Finite ∧ (Fp.convert F (Fp.convert D (a - -a) * (Fp.ofReal (1 / 2) : Fp D))).val = a.val ∧
    (Fp.convert F ((1 / Fp.convert D (a - -a)) * Fp.convert D (Fp.ofReal (R : ℝ) : Fp F))).Finite ∧
    (Fp.convert F ((1 / Fp.convert D (a - -a)) * Fp.convert D (Fp.ofReal (R : ℝ) : Fp F))).val = scl F D (Fp.ofReal (R : ℝ) : Fp F).val a.val := by
  obtain ⟨hp, he⟩ := wide hD
  have hmax : 2 * a.val ≤ F.maxFinite := hlarge.trans ((zpow_le_zpow_right₀ (by norm_num) (by omega)).trans pow_emax_le)
  have hna : (-a).Finite := Fp.finite_neg ha
  have e0 : a.val - (-a).val = 2 * a.val := by rw [Fp.val_neg]; ring
  obtain ⟨w1, w2⟩ := Fp.sub_fin (F := F) (by omega) ha hna (by rw [e0, abs_of_pos (by linarith)]; exact hmax)
  have hrep2 : F.Rep (2 * a.val) := by
    obtain ⟨k, e, h1, h2, h3⟩ := Fp.rep_val ha
    exact ⟨k, e + 1, by omega, h2, by rw [h3, zpow_add₀ (by norm_num)]; ring⟩
  rw [e0, hrep2.rnd_eq] at w2
  obtain ⟨c1, c2⟩ := Fp.widen_fin hp he (by omega) w1
  rw [w2] at c2
  have hh : (Fp.ofReal (1 / 2) : Fp D).Finite ∧ (Fp.ofReal (1 / 2) : Fp D).val = 1 / 2 := by
    have := Fp.ofReal_fin (F := D) (x := 1 / 2) (by omega) (by
      have := one_le_max (F := D) (by omega)
      rw [abs_of_pos (by norm_num)]; linarith)
    rwa [(rep_half (F := D) (by omega)).rnd_eq] at this
  have e1 : 2 * a.val * (1 / 2) = a.val := by ring
  have haF := Fp.abs_val_le a
  obtain ⟨m1, m2⟩ := Fp.mul_fin (F := D) (by omega) c1 hh.1 (by rw [c2, hh.2, e1]; exact haF.trans (max_widen hp he))
  rw [c2, hh.2, e1, (rep_widen hp he (Fp.rep_val ha)).rnd_eq] at m2
  obtain ⟨k1, k2⟩ := Fp.convert_fin (G := F) (by omega) m1 (by rw [m2]; exact haF)
  rw [m2, (Fp.rep_val ha).rnd_eq] at k2
  obtain ⟨o1, o2⟩ := Fp.one_fin (F := D) (by omega)
  have hb0 : 0 < 1 / (2 * a.val) := by positivity
  obtain ⟨q1, q2⟩ := Fp.div_fin (F := D) (by omega) o1 c1 (by rw [c2]; positivity) (by rw [o2, c2, abs_of_pos hb0]; exact hov1)
  rw [o2, c2] at q2
  obtain ⟨r1, r2⟩ := Fp.widen_fin hp he (by omega) hRf
  obtain ⟨s1, s2⟩ := Fp.mul_fin (F := D) (by omega) q1 r1 (by rw [q2, r2]; exact hov2)
  rw [q2, r2] at s2
  obtain ⟨t1, t2⟩ := Fp.convert_fin (G := F) (by omega) s1 (by rw [s2]; exact hov3)
  rw [s2] at t2
  exact ⟨k1, k2, t1, t2⟩

private theorem ofReal_int (hF : F.p < F.emax) {k : Int} (hk : |k| ≤ 2 ^ (F.p + 1)) : (Fp.ofReal (k : ℝ) : Fp F).Finite ∧ (Fp.ofReal (k : ℝ) : Fp F).val = k := by
  have hrep : F.Rep (k : ℝ) := ⟨k, 0, by unfold emin; omega, hk, by simp⟩
  have hle : |(k : ℝ)| ≤ F.maxFinite := by
    have h1 : |(k : ℝ)| ≤ (2 : ℝ) ^ ((F.p : Int) + 1) := by exact_mod_cast hk
    refine h1.trans (le_trans ?_ pow_emax_le)
    exact zpow_le_zpow_right₀ (by norm_num) (by omega)
  have := Fp.ofReal_fin (F := F) (by omega) hle
  rwa [hrep.rnd_eq] at this

/-- One element. -/
private theorem scale_one (hD : Spec.Wider F D) (h5 : 5 ≤ F.p) (hF : F.p + 2 ≤ F.emax) {R : Int} {a x : Fp F} (h : Spec.ScaleFits R a) (hx : x.Finite) (hx0 : -a.val ≤ x.val) (hx1 : x.val ≤ a.val) :
    ((x + Fp.convert F (Fp.convert D (a - -a) * (Fp.ofReal (1 / 2) : Fp D))) * Fp.convert F ((1 / Fp.convert D (a - -a)) * Fp.convert D (Fp.ofReal (R : ℝ) : Fp F))).Finite ∧
    ((x + Fp.convert F (Fp.convert D (a - -a) * (Fp.ofReal (1 / 2) : Fp D))) * Fp.convert F ((1 / Fp.convert D (a - -a)) * Fp.convert D (Fp.ofReal (R : ℝ) : Fp F))).val = elt F D R a.val x.val ∧
    0 ≤ elt F D R a.val x.val ∧ |elt F D R a.val x.val - (x.val + a.val) * R / (2 * a.val)| ≤ 7 * F.u * R ∧ 0 ≤ scl F D R a.val := by
  obtain ⟨hp, he⟩ := wide hD
  have hu := u_pos (F := F)
  have hu6 := u64 h5
  have hη := eta_pos (F := F)
  have hηu : F.eta ≤ F.u := by
    rw [Format.eta_eq_tiny]
    have := Vmml.tiny_le_one (F := F) (by omega)
    nlinarith
  have hR : (1 : ℝ) ≤ R := by exact_mod_cast h.one_le
  have hpos := h.pos
  have hm0 := maxFinite_pos (F := F)
  have hm1 := one_le_max (F := F) (by omega)
  have hmD := max_widen hp he
  have hdig : (16 : ℝ) * R ≤ (2 : ℝ) ^ ((F.p : Int) + 1) := by exact_mod_cast h.digits
  have hRmax : 16 * (R : ℝ) ≤ F.maxFinite := hdig.trans ((zpow_le_zpow_right₀ (by norm_num) (by omega)).trans pow_emax_le)
  obtain ⟨r1, r2⟩ := ofReal_int (F := F) (by omega) (k := R) (by
    have := h.digits
    have := h.one_le
    rw [abs_of_nonneg (by omega)]; omega)
  -- the reciprocal is normal
  have hnorm : (2 : ℝ) ^ F.emin ≤ 1 / (2 * a.val) := by
    rw [le_div_iff₀ (by linarith)]
    calc (2 : ℝ) ^ F.emin * (2 * a.val) ≤ (2 : ℝ) ^ F.emin * (2 : ℝ) ^ ((F.emax : Int) - 1) := mul_le_mul_of_nonneg_left h.large (by positivity)
      _ = 1 := by rw [← zpow_add₀ (by norm_num)]; unfold emin; norm_num
  have hminD : (2 : ℝ) ^ D.emin ≤ (2 : ℝ) ^ F.emin := zpow_le_zpow_right₀ (by norm_num) (by unfold emin; omega)
  have hb0 : 0 < 1 / (2 * a.val) := by positivity
  have e1 : |D.rnd (1 / (2 * a.val)) - 1 / (2 * a.val)| ≤ F.u * (1 / (2 * a.val)) := by
    have := rnd_err_normal (F := D) (x := 1 / (2 * a.val)) (by rw [abs_of_pos hb0]; exact hminD.trans hnorm)
    rw [abs_of_pos hb0] at this
    exact this.trans (mul_le_mul_of_nonneg_right (u_le hp) hb0.le)
  have hn1 : (2 : ℝ) ^ F.emin ≤ D.rnd (1 / (2 * a.val)) := le_rnd_pow (by unfold emin; omega) hnorm
  have hn2 : (2 : ℝ) ^ F.emin ≤ D.rnd (1 / (2 * a.val)) * R := hn1.trans (le_mul_of_one_le_right ((by positivity : (0:ℝ) ≤ (2 : ℝ) ^ F.emin).trans hn1) hR)
  have hp2 : 0 < D.rnd (1 / (2 * a.val)) * R := lt_of_lt_of_le (by positivity) hn2
  have e2 : |D.rnd (D.rnd (1 / (2 * a.val)) * R) - D.rnd (1 / (2 * a.val)) * R| ≤ F.u * |D.rnd (1 / (2 * a.val)) * R| :=
    (rnd_err_normal (F := D) (by rw [abs_of_pos hp2]; exact hminD.trans hn2)).trans (mul_le_mul_of_nonneg_right (u_le hp) (abs_nonneg _))
  have hn3 : (2 : ℝ) ^ F.emin ≤ D.rnd (D.rnd (1 / (2 * a.val)) * R) := le_rnd_pow (by unfold emin; omega) hn2
  have hp3 : 0 < D.rnd (D.rnd (1 / (2 * a.val)) * R) := lt_of_lt_of_le (by positivity) hn3
  have e3 := rnd_err_normal (F := F) (x := D.rnd (D.rnd (1 / (2 * a.val)) * R)) (by rw [abs_of_pos hp3]; exact hn3)
  have e4 := ((Fp.rep_val hx).grid.add (Fp.rep_val h.fin).grid).rnd_err
  have hxa : 0 ≤ x.val + a.val := by linarith
  rw [abs_of_nonneg hxa] at e4
  have e5 := rnd_err_add (F := F) (F.rnd (x.val + a.val) * scl F D R a.val)
  obtain ⟨g1, g2, g3, g4, g5, g6, g7⟩ := scale_err hu hu6 hη.le hηu hpos hR hx0 hx1 e1 e2 e3 e4 e5
  have hsm : 2 * (R : ℝ) / (2 * a.val) ≤ F.maxFinite := by
    rw [div_le_iff₀ (by linarith)]
    have := h.small
    linarith
  have hov1 : 1 / (2 * a.val) ≤ D.maxFinite := by
    refine le_trans ?_ (hsm.trans hmD)
    gcongr
    linarith
  have := consts hD hF (R := R) h.fin hpos h.large hov1 r1 (by rw [r2]; exact (g2.trans hsm).trans hmD) (by rw [r2]; exact g3.trans hsm)
  obtain ⟨k1, k2, k3, k4⟩ := this
  rw [r2] at k4
  obtain ⟨d1, d2⟩ := Fp.add_fin (F := F) (by omega) hx k1 (by
    rw [k2, abs_of_nonneg hxa]
    refine le_trans ?_ ((h.large).trans ((zpow_le_zpow_right₀ (by norm_num) (by omega)).trans pow_emax_le))
    linarith)
  rw [k2] at d2
  obtain ⟨v1, v2⟩ := Fp.mul_fin (F := F) (by omega) d1 k3 (by rw [d2, k4]; unfold scl; linarith)
  rw [d2, k4] at v2
  exact ⟨v1, v2, rnd_nonneg (mul_nonneg g5 g4), g7, g4⟩

private theorem elt_mono {R a x y : ℝ} (hs : 0 ≤ scl F D R a) (h : x ≤ y) : elt F D R a x ≤ elt F D R a y := by
  unfold elt
  apply rnd_mono
  apply mul_le_mul_of_nonneg_right _ hs
  apply rnd_mono
  linarith

/-! ## The theorems -/

/-- The elements are finite and between `-a` and `a`. -/
def Spec.Between (v : Vec M (Fp F)) (a : Fp F) : Prop := ∀ i : Fin M, (v[i]).Finite ∧ -a.val ≤ (v[i]).val ∧ (v[i]).val ≤ a.val

section
variable (hD : Spec.Wider F D) (h5 : 5 ≤ F.p) (hF : F.p + 2 ≤ F.emax) (cfg : Cfg) {tt : IntType} (hmin : tt.min ≤ 0) {a : Fp F} (h : Spec.ScaleFits tt.max a) (v : Vec M (Fp F)) (hv : Spec.Between v a) (r : Vec M Int)
include hD h5 hF hmin h hv

private theorem scaleToFp_eq : v.scaleToFp D cfg tt r (-a) a = .ok (Vector.ofFn fun i => ⌊elt F D tt.max a.val (v[i]).val⌋) ∧ ∀ i : Fin M, 0 ≤ ⌊elt F D tt.max a.val (v[i]).val⌋ ∧ ⌊elt F D tt.max a.val (v[i]).val⌋ ≤ tt.max := by
  have hR : (1 : ℝ) ≤ tt.max := by exact_mod_cast h.one_le
  have hu := u_pos (F := F)
  have hdig : 7 * F.u * tt.max < 1 := by
    have h1 : (16 : ℝ) * tt.max ≤ (2 : ℝ) ^ (F.p + 1) := by exact_mod_cast h.digits
    have h2 : F.u * (2 : ℝ) ^ (F.p + 1) = 1 := by unfold u; rw [← mul_pow]; norm_num
    have h3 := mul_le_mul_of_nonneg_left h1 hu.le
    rw [h2] at h3
    nlinarith
  have key : ∀ i : Fin M, 0 ≤ ⌊elt F D tt.max a.val (v[i]).val⌋ ∧ ⌊elt F D tt.max a.val (v[i]).val⌋ ≤ tt.max := by
    intro i
    obtain ⟨e1, e2, e3⟩ := hv i
    obtain ⟨-, -, f3, f4, -⟩ := scale_one hD h5 hF h e1 e2 e3
    refine ⟨Int.floor_nonneg.2 f3, ?_⟩
    have := (abs_le.1 f4).2
    have hz : ((v[i]).val + a.val) * tt.max / (2 * a.val) ≤ tt.max := by
      rw [div_le_iff₀ (by have := h.pos; linarith), mul_comm (tt.max : ℝ)]
      exact mul_le_mul_of_nonneg_right (by linarith) (by linarith)
    have : ⌊elt F D tt.max a.val (v[i]).val⌋ < tt.max + 1 := by
      rw [Int.floor_lt]; push_cast; linarith
    omega
  refine ⟨?_, key⟩
  unfold Vec.scaleToFp
  simp only
  apply loop_set
  intro i hi u' hu'
  obtain ⟨e1, e2, e3⟩ := hv ⟨i, hi⟩
  obtain ⟨f1, f2, f3, f4, -⟩ := scale_one hD h5 hF h e1 e2 e3
  obtain ⟨k1, k2⟩ := key ⟨i, hi⟩
  rw [Vec.atGet_lt cfg v hi, Vmml.bind_ok]
  have : Fp.toCode tt ((v[i] + Fp.convert F (Fp.convert D (a - -a) * (Fp.ofReal (1 / 2) : Fp D))) * Fp.convert F ((1 / Fp.convert D (a - -a)) * Fp.convert D (Fp.ofReal (tt.max : ℝ) : Fp F))) =
      .ok ⌊elt F D tt.max a.val (v[i]).val⌋ := by
    have := toCode_ok (tt := tt) f1 (by rw [f2]; exact f3) (by rw [f2]; omega) (by rw [f2]; exact k2)
    rw [f2] at this
    exact this
  rw [this, Vmml.bind_ok, Vec.atSet_lt cfg u' _ hi]
  rfl

/-- C138. `scale_to` with a symmetric range `-a .. a` and an integer type that leaves four digits of the format unused (for `float`: up to 20 bits): the cast is always defined, every code is between 0 and the greatest code,
and differs from the place of the element on the scale by less than one and the roundings. -/
theorem C138_codes : ∃ r', v.scaleToFp D cfg tt r (-a) a = .ok r' ∧ ∀ i : Fin M, 0 ≤ r'[i] ∧ r'[i] ≤ tt.max ∧
    ((v[i]).val + a.val) * tt.max / (2 * a.val) - 7 * F.u * tt.max - 1 < (r'[i] : ℝ) ∧ (r'[i] : ℝ) ≤ ((v[i]).val + a.val) * tt.max / (2 * a.val) + 7 * F.u * tt.max := by
  obtain ⟨e, k⟩ := scaleToFp_eq hD h5 hF cfg hmin h v hv r
  refine ⟨_, e, fun i => ?_⟩
  obtain ⟨e1, e2, e3⟩ := hv i
  obtain ⟨-, -, -, f4, -⟩ := scale_one hD h5 hF h e1 e2 e3
  have e : (Vector.ofFn fun i : Fin M => ⌊elt F D tt.max a.val (v[i]).val⌋)[i] = ⌊elt F D tt.max a.val (v[i]).val⌋ := by simp
  rw [e]
  obtain ⟨g1, g2⟩ := abs_le.1 f4
  have l1 := Int.floor_le (elt F D tt.max a.val (v[i]).val)
  have l2 := Int.lt_floor_add_one (elt F D tt.max a.val (v[i]).val)
  exact ⟨(k i).1, (k i).2, by linarith, by linarith⟩

/-- C138. A larger element never gets a smaller code. -/
theorem C138_monotone : ∃ r', v.scaleToFp D cfg tt r (-a) a = .ok r' ∧ ∀ i j : Fin M, (v[i]).val ≤ (v[j]).val → r'[i] ≤ r'[j] := by
  obtain ⟨e, k⟩ := scaleToFp_eq hD h5 hF cfg hmin h v hv r
  refine ⟨_, e, fun i j hij => ?_⟩
  obtain ⟨e1, e2, e3⟩ := hv i
  obtain ⟨-, -, -, -, f5⟩ := scale_one hD h5 hF h e1 e2 e3
  have := Int.floor_le_floor (elt_mono f5 hij)
  simpa using this

/-- C138. The lower end of the range gets the code 0, the upper end the greatest code or the one below it (which of the two: `C138_top_violated`, `C138_power_of_two`). -/
theorem C138_ends : ∃ r', v.scaleToFp D cfg tt r (-a) a = .ok r' ∧ ∀ i : Fin M, ((v[i]).val = -a.val → r'[i] = 0) ∧ ((v[i]).val = a.val → tt.max - 1 ≤ r'[i]) := by
  obtain ⟨r', e, k⟩ := C138_codes hD h5 hF cfg hmin h v hv r
  have hR : (1 : ℝ) ≤ tt.max := by exact_mod_cast h.one_le
  have hu := u_pos (F := F)
  have hpos := h.pos
  have hdig : 7 * F.u * tt.max < 1 := by
    have h1 : (16 : ℝ) * tt.max ≤ (2 : ℝ) ^ (F.p + 1) := by exact_mod_cast h.digits
    have h2 : F.u * (2 : ℝ) ^ (F.p + 1) = 1 := by unfold u; rw [← mul_pow]; norm_num
    have h3 := mul_le_mul_of_nonneg_left h1 hu.le
    rw [h2] at h3
    nlinarith
  refine ⟨r', e, fun i => ⟨fun hi => ?_, fun hi => ?_⟩⟩
  · obtain ⟨k0, -, -, k1⟩ := k i
    rw [hi, neg_add_cancel, zero_mul, zero_div, zero_add] at k1
    have : (r'[i] : ℝ) < 1 := by linarith
    have : r'[i] < 1 := by exact_mod_cast this
    omega
  · obtain ⟨-, -, k2, -⟩ := k i
    have e0 : (a.val + a.val) * tt.max / (2 * a.val) = tt.max := by field_simp; ring
    rw [hi, e0] at k2
    have : ((tt.max - 2 : Int) : ℝ) < r'[i] := by push_cast; linarith
    have : tt.max - 2 < r'[i] := by exact_mod_cast this
    omega

end

/-- C138. If the range is `-2 ^ e .. 2 ^ e`, as the default `-1 .. 1`, the upper end gets the greatest code. -/
theorem C138_power_of_two (hD : Spec.Wider F D) (h5 : 5 ≤ F.p) (hF : F.p + 2 ≤ F.emax) (cfg : Cfg) {tt : IntType} (hmin : tt.min ≤ 0) {a : Fp F} (h : Spec.ScaleFits tt.max a) {e : Int} (ha : a.val = (2 : ℝ) ^ e)
    (v : Vec M (Fp F)) (hv : Spec.Between v a) (r : Vec M Int) :
    ∃ r', v.scaleToFp D cfg tt r (-a) a = .ok r' ∧ ∀ i : Fin M, (v[i]).val = a.val → r'[i] = tt.max := by
  obtain ⟨hp, he⟩ := wide hD
  refine ⟨_, (scaleToFp_eq hD h5 hF cfg hmin h v hv r).1, fun i hi => ?_⟩
  have hl := h.large
  have he2 : 2 * a.val = (2 : ℝ) ^ (e + 1) := by rw [ha, zpow_add₀ (by norm_num)]; ring
  rw [he2] at hl
  have hee : e + 1 ≤ (F.emax : Int) - 1 := (zpow_le_zpow_iff_right₀ (by norm_num)).1 hl
  have e1 : 1 / (2 * a.val) = (2 : ℝ) ^ (-e - 1) := by
    rw [he2, one_div, ← zpow_neg]; congr 1; ring
  have hr1 : D.Rep ((2 : ℝ) ^ (-e - 1)) := rep_pow (by unfold emin; omega)
  have hr2 : F.Rep ((2 : ℝ) ^ (-e - 1) * tt.max) := ⟨tt.max, -e - 1, by unfold emin; omega, by
    have := h.digits
    have := h.one_le
    rw [abs_of_nonneg (by omega)]; omega, by ring⟩
  have hr3 : F.Rep ((2 : ℝ) ^ (e + 1)) := by
    obtain ⟨k, e', h1, h2, h3⟩ := Fp.rep_val h.fin
    rw [← he2]
    exact ⟨k, e' + 1, by omega, h2, by rw [h3, zpow_add₀ (by norm_num)]; ring⟩
  have hr4 : F.Rep (tt.max : ℝ) := ⟨tt.max, 0, by unfold emin; omega, by
    have := h.digits
    have := h.one_le
    rw [abs_of_nonneg (by omega)]; omega, by simp⟩
  have key : elt F D tt.max a.val a.val = tt.max := by
    unfold elt scl
    rw [e1, hr1.rnd_eq, (rep_widen hp he hr2).rnd_eq, hr2.rnd_eq, ← two_mul, he2, hr3.rnd_eq, ← mul_assoc, ← zpow_add₀ (by norm_num)]
    rw [show e + 1 + (-e - 1) = 0 by ring, zpow_zero, one_mul, hr4.rnd_eq]
  have : (Vector.ofFn fun i : Fin M => ⌊elt F D tt.max a.val (v[i]).val⌋)[i] = ⌊elt F D tt.max a.val (v[i]).val⌋ := by simp
  rw [this, hi, key, Int.floor_intCast]

/-- C138, violated: `static_cast< T >( numeric_limits< TT >::max() )` rounds `2 ^ n - 1` up to `2 ^ n` if the type has three more digits than the format (`float` to 32-bit integers, `double` to 64-bit integers), and the upper end of the
default range is converted to `TT` out of its range: undefined behaviour. -/
theorem C138_wide_violated (hD : Spec.Wider F D) (hF : F.p + 2 ≤ F.emax) (cfg : Cfg) {tt : IntType} {n : ℕ} (hn : F.p + 3 ≤ n) (hne : n < F.emax) (htt : tt.max = 2 ^ n - 1) (r : Vec 1 Int) :
    Vec.scaleToFp D cfg tt (#v[(1 : Fp F)] : Vec 1 (Fp F)) r (-1) 1 = .error .ub := by
  obtain ⟨hp, he⟩ := wide hD
  obtain ⟨o1, o2⟩ := Fp.one_fin (F := F) (by omega)
  have hpow : (2 : ℝ) ^ (n : Int) ≤ F.maxFinite := (zpow_le_zpow_right₀ (by norm_num) (by omega)).trans pow_emax_le
  have hR : F.rnd (tt.max : ℝ) = (2 : ℝ) ^ (n : Int) := by
    have h1 : (tt.max : ℝ) = (2 : ℝ) ^ (n : Int) - 1 := by rw [htt]; push_cast; rw [zpow_natCast]
    have hsp : (4 : ℝ) ≤ (2 : ℝ) ^ ((n : Int) - 1 - F.p) := by
      calc (4 : ℝ) = (2 : ℝ) ^ (2 : Int) := by norm_num
        _ ≤ _ := zpow_le_zpow_right₀ (by norm_num) (by omega)
    have hsplit : (2 : ℝ) ^ (n : Int) = ((2 ^ (F.p + 1) : Int) : ℝ) * (2 : ℝ) ^ ((n : Int) - 1 - F.p) := by
      push_cast
      rw [← zpow_natCast, ← zpow_add₀ (by norm_num)]
      congr 1; push_cast; ring
    have hhalf : (2 : ℝ) ^ (n : Int) = 2 * (2 : ℝ) ^ ((n : Int) - 1) := by
      rw [show (n : Int) = 1 + ((n : Int) - 1) by ring, zpow_add₀ (by norm_num), zpow_one]
      norm_num
    have hge : (1 : ℝ) ≤ (2 : ℝ) ^ ((n : Int) - 1) := one_le_zpow₀ (by norm_num) (by omega)
    have h2 := rnd_at (F := F) (x := (tt.max : ℝ)) (E := (n : Int) - 1) (k := 2 ^ (F.p + 1)) (by unfold emin; omega) (by rw [h1, hhalf]; linarith) (by rw [h1, sub_add_cancel]; linarith) (by
      rw [← hsplit, h1, sub_sub_cancel_left, abs_neg, abs_one]; linarith)
    rw [h2, ← hsplit]
  obtain ⟨r1, r2⟩ := Fp.ofReal_fin (F := F) (x := (tt.max : ℝ)) (by omega) (by
    have h1 : (tt.max : ℝ) = (2 : ℝ) ^ (n : Int) - 1 := by rw [htt]; push_cast; rw [zpow_natCast]
    have : (1 : ℝ) ≤ (2 : ℝ) ^ (n : Int) := one_le_zpow₀ (by norm_num) (by omega)
    rw [h1, abs_of_nonneg (by linarith)]; linarith)
  rw [hR] at r2
  have hhr : D.Rep (1 / 2 : ℝ) := rep_half (by omega)
  have hm1 := one_le_max (F := F) (by omega)
  have hmD := max_widen hp he
  have e12 : (1 : ℝ) / (2 * (1 : Fp F).val) = 1 / 2 := by rw [o2]; norm_num
  have e13 : (1 : ℝ) / 2 * (2 : ℝ) ^ (n : Int) = (2 : ℝ) ^ ((n : Int) - 1) := by rw [zpow_sub₀ (by norm_num)]; norm_num; ring
  have hrF : F.Rep ((2 : ℝ) ^ ((n : Int) - 1)) := rep_pow (by unfold emin; omega)
  have hle1 : (2 : ℝ) ^ ((n : Int) - 1) ≤ F.maxFinite := (zpow_le_zpow_right₀ (by norm_num) (by omega)).trans hpow
  have := consts hD hF (R := tt.max) (a := 1) o1 (by rw [o2]; norm_num) (by
      rw [o2]
      calc (2 : ℝ) * 1 = (2 : ℝ) ^ (1 : Int) := by norm_num
        _ ≤ _ := zpow_le_zpow_right₀ (by norm_num) (by omega)) (by rw [e12]; linarith) r1
    (by rw [e12, hhr.rnd_eq, r2, e13, abs_of_pos (by positivity)]; linarith)
    (by rw [e12, hhr.rnd_eq, r2, e13, (rep_widen hp he hrF).rnd_eq, abs_of_pos (by positivity)]; exact hle1)
  obtain ⟨k1, k2, k3, k4⟩ := this
  have hscl : scl F D (Fp.ofReal (tt.max : ℝ) : Fp F).val (1 : Fp F).val = (2 : ℝ) ^ ((n : Int) - 1) := by
    unfold scl
    rw [e12, hhr.rnd_eq, r2, e13, (rep_widen hp he hrF).rnd_eq, hrF.rnd_eq]
  rw [hscl] at k4
  have hr2 : F.Rep (2 : ℝ) := by have := rep_pow (F := F) (e := 1) (by unfold emin; omega); simpa using this
  have h2max : (2 : ℝ) ≤ F.maxFinite := by
    refine le_trans ?_ (pow_emax_le (F := F))
    calc (2 : ℝ) = (2 : ℝ) ^ (1 : Int) := by norm_num
      _ ≤ _ := zpow_le_zpow_right₀ (by norm_num) (by omega)
  obtain ⟨d1, d2⟩ := Fp.add_fin (F := F) (by omega) o1 k1 (by rw [k2, o2]; norm_num; exact h2max)
  rw [k2, o2, show (1 : ℝ) + 1 = 2 by norm_num, hr2.rnd_eq] at d2
  have e2n : 2 * (2 : ℝ) ^ ((n : Int) - 1) = (2 : ℝ) ^ (n : Int) := by rw [← e13]; ring
  have hrn : F.Rep ((2 : ℝ) ^ (n : Int)) := rep_pow (by unfold emin; omega)
  obtain ⟨v1, v2⟩ := Fp.mul_fin (F := F) (by omega) d1 k3 (by rw [d2, k4, e2n, abs_of_pos (by positivity)]; exact hpow)
  rw [d2, k4, e2n, hrn.rnd_eq] at v2
  unfold Vec.scaleToFp
  simp only
  rw [loop_succ, loop_zero, Vmml.bind_ok, Vec.atGet_lt cfg _ (by decide : 0 < 1), Vmml.bind_ok]
  have : (#v[(1 : Fp F)] : Vec 1 (Fp F))[0] = (1 : Fp F) := rfl
  rw [this, toCode_ub v1 (by rw [v2]; positivity) (by
    rw [v2, zpow_natCast, htt]
    have : ⌊(2 : ℝ) ^ n⌋ = 2 ^ n := by
      have : ((2 ^ n : Int) : ℝ) = (2 : ℝ) ^ n := by push_cast; rfl
      rw [← this, Int.floor_intCast]
    rw [this]; omega)]
  rfl

/-- C138, violated: with `float` elements, the range `-7 .. 7` and bytes, the upper end gets the code 254 instead of 255. -/
theorem C138_top_violated (cfg : Cfg) (seven : Fp single) (h7 : seven.Finite ∧ seven.val = 7) (r : Vec 1 Int) :
    Vec.scaleToFp double cfg ⟨0, 255, false⟩ (#v[seven] : Vec 1 (Fp single)) r (-seven) seven = .ok #v[254] := by
  have hmax : (2 : ℝ) ^ ((single.emax : Int)) ≤ single.maxFinite := pow_emax_le
  have hbig : (2 : ℝ) ^ (16 : Int) ≤ single.maxFinite := (zpow_le_zpow_right₀ (by norm_num) (by decide)).trans hmax
  have hfit : Spec.ScaleFits (255 : Int) seven := by
    refine ⟨h7.1, by rw [h7.2]; norm_num, by norm_num, by norm_num, ?_, ?_⟩
    · rw [h7.2]
      calc (2 : ℝ) * 7 ≤ (2 : ℝ) ^ (4 : Int) := by norm_num
        _ ≤ _ := zpow_le_zpow_right₀ (by norm_num) (by decide)
    · rw [h7.2]; norm_num at hbig ⊢; linarith
  have hb : Spec.Between (#v[seven] : Vec 1 (Fp single)) seven := by
    intro i
    match i with
    | 0 =>
      show seven.Finite ∧ -seven.val ≤ seven.val ∧ seven.val ≤ seven.val
      exact ⟨h7.1, by rw [h7.2]; norm_num, le_rfl⟩
  rw [(scaleToFp_eq (tt := ⟨0, 255, false⟩) wider_single (by norm_num) (by norm_num) cfg le_rfl hfit _ hb r).1]
  have hkey : ⌊elt single double 255 7 7⌋ = 254 := by
    have e1 := rnd_err_normal (F := double) (x := 1 / (2 * 7)) (by
      rw [abs_of_pos (by norm_num)]
      calc (2 : ℝ) ^ double.emin ≤ (2 : ℝ) ^ (-4 : Int) := zpow_le_zpow_right₀ (by norm_num) (by unfold emin; norm_num)
        _ ≤ _ := by norm_num)
    have hu : double.u ≤ (2 : ℝ)⁻¹ ^ 40 := by
      unfold u
      exact pow_le_pow_of_le_one (by norm_num) (by norm_num) (by norm_num)
    rw [abs_of_pos (show (0 : ℝ) < 1 / (2 * 7) by norm_num)] at e1
    obtain ⟨q, hq⟩ : ∃ q, q = double.rnd (1 / (2 * 7)) := ⟨_, rfl⟩
    rw [← hq] at e1
    have hu0 := u_pos (F := double)
    have e1' : |q - 1 / 14| ≤ 1 / 14 / 2 ^ 40 := by
      have : double.u * (1 / (2 * 7)) ≤ (2 : ℝ)⁻¹ ^ 40 * (1 / (2 * 7)) := mul_le_mul_of_nonneg_right hu (by norm_num)
      rw [show (1 : ℝ) / 14 = 1 / (2 * 7) by norm_num]
      refine e1.trans (this.trans (le_of_eq ?_))
      norm_num
    obtain ⟨a1, a2⟩ := abs_le.1 e1'
    have hq0 : 255 / 14 - 255 / 14 / 2 ^ 40 ≤ q * 255 := by linarith
    have hq1 : q * 255 ≤ 255 / 14 + 255 / 14 / 2 ^ 40 := by linarith
    have hqp : (16 : ℝ) ≤ q * 255 := by norm_num at hq0; linarith
    have e2 := rnd_err_normal (F := double) (x := q * 255) (by
      rw [abs_of_pos (by linarith)]
      calc (2 : ℝ) ^ double.emin ≤ (2 : ℝ) ^ (4 : Int) := zpow_le_zpow_right₀ (by norm_num) (by unfold emin; norm_num)
        _ ≤ _ := by norm_num; exact hqp)
    rw [abs_of_pos (show (0 : ℝ) < q * 255 by linarith)] at e2
    obtain ⟨s, hs⟩ : ∃ s, s = double.rnd (q * 255) := ⟨_, rfl⟩
    rw [← hs] at e2
    have e2' : |s - q * 255| ≤ 32 / 2 ^ 40 := by
      have : double.u * (q * 255) ≤ (2 : ℝ)⁻¹ ^ 40 * 32 := mul_le_mul hu (by norm_num at hq1; linarith) (by linarith) (by positivity)
      refine e2.trans (this.trans (le_of_eq ?_))
      norm_num
    obtain ⟨b1, b2⟩ := abs_le.1 e2'
    norm_num at hq0 hq1 b1 b2
    have e3 : single.rnd s = ((9549531 : Int) : ℝ) * (2 : ℝ) ^ ((4 : Int) - single.p) := by
      apply rnd_at (by unfold emin; norm_num)
      · norm_num; linarith
      · norm_num; linarith
      · rw [abs_lt]; norm_num; constructor <;> linarith
    have e14 : single.rnd (7 + 7) = 14 := by
      have : single.Rep (14 : ℝ) := ⟨14, 0, by unfold emin; norm_num, by norm_num, by norm_num⟩
      rw [show (7 : ℝ) + 7 = 14 by norm_num, this.rnd_eq]
    have e4 : single.rnd (14 * (((9549531 : Int) : ℝ) * (2 : ℝ) ^ ((4 : Int) - single.p))) = ((16711679 : Int) : ℝ) * (2 : ℝ) ^ ((7 : Int) - single.p) := by
      apply rnd_at (by unfold emin; norm_num)
      · norm_num
      · norm_num
      · rw [abs_lt]; norm_num
    unfold elt scl
    rw [← hq, ← hs, e3, e14, e4, Int.floor_eq_iff]
    norm_num
  congr 1
  ext i hi
  have hi0 : i = 0 := by omega
  subst hi0
  have : (Vector.ofFn fun i : Fin 1 => ⌊elt single double ((255 : Int) : ℝ) seven.val ((#v[seven] : Vec 1 (Fp single))[i]).val⌋)[0] = ⌊elt single double ((255 : Int) : ℝ) seven.val seven.val⌋ := by simp
  refine this.trans ?_
  rw [h7.2]
  exact_mod_cast hkey

/-- There is a 7. -/
example : ∃ seven : Fp single, seven.Finite ∧ seven.val = 7 :=
  ⟨_, ofReal_int (F := single) (k := 7) (by norm_num) (by norm_num) |>.imp id fun h => by exact_mod_cast h⟩

/-- The hypotheses can be met: bytes, the default range and the `float` vector `( 1, 0 )`. -/
example (cfg : Cfg) : ∃ r' : Vec 2 Int, Vec.scaleToFp double cfg ⟨0, 255, false⟩ (#v[1, 0] : Vec 2 (Fp single)) #v[0, 0] (-1) 1 = .ok r' ∧ r'[0] = 255 ∧ 126 ≤ r'[1] ∧ r'[1] ≤ 128 := by
  have h1 := Fp.one_fin (F := single) (by norm_num)
  have hmax : (2 : ℝ) ^ ((single.emax : Int)) ≤ single.maxFinite := pow_emax_le
  have hbig : (2 : ℝ) ^ (16 : Int) ≤ single.maxFinite := (zpow_le_zpow_right₀ (by norm_num) (by decide)).trans hmax
  have hfit : Spec.ScaleFits (255 : Int) (1 : Fp single) := by
    refine ⟨h1.1, by rw [h1.2]; norm_num, by norm_num, by norm_num, ?_, ?_⟩
    · rw [h1.2]
      calc (2 : ℝ) * 1 ≤ (2 : ℝ) ^ (4 : Int) := by norm_num
        _ ≤ _ := zpow_le_zpow_right₀ (by norm_num) (by decide)
    · rw [h1.2]; norm_num at hbig ⊢; linarith
  have hb : Spec.Between (#v[1, 0] : Vec 2 (Fp single)) 1 := by
    intro i
    match i with
    | 0 =>
      show (1 : Fp single).Finite ∧ -(1 : Fp single).val ≤ (1 : Fp single).val ∧ (1 : Fp single).val ≤ (1 : Fp single).val
      exact ⟨h1.1, by rw [h1.2]; norm_num, le_rfl⟩
    | 1 =>
      show (0 : Fp single).Finite ∧ -(1 : Fp single).val ≤ (0 : Fp single).val ∧ (0 : Fp single).val ≤ (1 : Fp single).val
      exact ⟨Fp.finite_zero, by rw [h1.2, Fp.val_zero]; norm_num, by rw [h1.2, Fp.val_zero]; norm_num⟩
  obtain ⟨r', e, k⟩ := C138_power_of_two (tt := ⟨0, 255, false⟩) (D := double) wider_single (by norm_num) (by norm_num) cfg le_rfl hfit (e := 0) (by rw [h1.2]; norm_num) _ hb #v[0, 0]
  obtain ⟨r'', e', k'⟩ := C138_codes (tt := ⟨0, 255, false⟩) (D := double) wider_single (by norm_num) (by norm_num) cfg le_rfl hfit _ hb #v[0, 0]
  obtain rfl : r' = r'' := Except.ok.inj (e.symm.trans e')
  refine ⟨r', e, k 0 rfl, ?_⟩
  obtain ⟨-, -, c1, c2⟩ := k' 1
  have e0 : ((#v[1, 0] : Vec 2 (Fp single))[(1 : Fin 2)]) = (0 : Fp single) := rfl
  have hu : single.u ≤ 1 / 2 ^ 20 := by
    unfold u
    calc (2 : ℝ)⁻¹ ^ (single.p + 1) ≤ (2 : ℝ)⁻¹ ^ 20 := pow_le_pow_of_le_one (by norm_num) (by norm_num) (by norm_num)
      _ = _ := by norm_num
  have hu0 := u_pos (F := single)
  rw [e0, h1.2, Fp.val_zero] at c1 c2
  simp only at c1 c2
  have d1 : ((125 : Int) : ℝ) < (r'[(1 : Fin 2)] : ℝ) := by push_cast at c1 ⊢; linarith
  have d2 : (r'[(1 : Fin 2)] : ℝ) < ((129 : Int) : ℝ) := by push_cast at c2 ⊢; linarith
  have d1 : (125 : Int) < r'[(1 : Fin 2)] := by exact_mod_cast d1
  have d2 : r'[(1 : Fin 2)] < 129 := by exact_mod_cast d2
  exact ⟨by show 126 ≤ r'[(1 : Fin 2)]; omega, by show r'[(1 : Fin 2)] ≤ 128; omega⟩

end Vmml
