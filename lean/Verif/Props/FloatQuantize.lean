import Verif.Model.QuantizeFloat
import Verif.Props.FloatSums
import Verif.Props.FloatSetup
import Verif.Props.FloatLaws
import Verif.Props.MatrixQuantize

/-!
# C137: quantisation and back, in IEEE 754 arithmetic
-/

namespace Vmml
open Format Mat
variable {F D : Format} {M N : Nat}

/-! ## Real arithmetic -/

theorem Quant.code_err {u η w X R wh d p q s : ℝ} (hu0 : 0 < u) (hu : u ≤ 1 / 64) (hη : 0 ≤ η) (hηu : η ≤ u) (hw : 0 < w) (hX0 : 0 ≤ X) (hXw : X ≤ w) (hR : 1 ≤ R)
    (e1 : |wh - w| ≤ u * w) (e2 : |d - X| ≤ u * X) (e3 : |p - d * R| ≤ u * (d * R)) (e4 : |q - p / wh| ≤ u * (p / wh) + η) (e5 : |s - (q + 1 / 2)| ≤ u * |q + 1 / 2|) :
    |s - (X * R / w + 1 / 2)| ≤ 8 * u * R ∧ 0 < wh ∧ wh ≤ 2 * w ∧ |d * R| ≤ 2 * (w * R) ∧ |p / wh| ≤ 2 * R ∧ |q + 1 / 2| ≤ 2 * R ∧ 0 ≤ s ∧ |s| ≤ 3 * R := by
  obtain ⟨a1, a2⟩ := abs_le.1 e1
  obtain ⟨b1, b2⟩ := abs_le.1 e2
  obtain ⟨c1, c2⟩ := abs_le.1 e3
  obtain ⟨g1, g2⟩ := abs_le.1 e4
  have hR0 : 0 < R := by linarith
  have wh1 : w * (1 - u) ≤ wh := by linarith
  have wh2 : wh ≤ w * (1 + u) := by linarith
  have hwh : 0 < wh := lt_of_lt_of_le (mul_pos hw (by linarith)) wh1
  have d0 : X * (1 - u) ≤ d := by linarith
  have d1 : d ≤ X * (1 + u) := by linarith
  have dd : 0 ≤ d := (mul_nonneg hX0 (by linarith)).trans d0
  have p0 : X * R * (1 - u) ^ 2 ≤ p := by
    have h1 : X * (1 - u) * R ≤ d * R := mul_le_mul_of_nonneg_right d0 hR0.le
    have h2 : X * (1 - u) * R * (1 - u) ≤ d * R * (1 - u) := mul_le_mul_of_nonneg_right h1 (by linarith)
    linarith
  have p1 : p ≤ X * R * (1 + u) ^ 2 := by
    have h1 : d * R ≤ X * (1 + u) * R := mul_le_mul_of_nonneg_right d1 hR0.le
    have h2 : d * R * (1 + u) ≤ X * (1 + u) * R * (1 + u) := mul_le_mul_of_nonneg_right h1 (by linarith)
    linarith
  obtain ⟨z, hz⟩ : ∃ z, z = X * R / w := ⟨_, rfl⟩
  have hzw : z * w = X * R := by rw [hz]; field_simp
  have hz0 : 0 ≤ z := by rw [hz]; positivity
  have hzR : z ≤ R := by
    rw [hz, div_le_iff₀ hw]
    calc X * R ≤ w * R := mul_le_mul_of_nonneg_right hXw hR0.le
      _ = R * w := by ring
  rw [← hzw] at p0 p1
  -- the quotient
  have k1 : p / wh ≤ z * (1 + 4 * u) := by
    rw [div_le_iff₀ hwh]
    have t1 : z * (1 + 4 * u) * (w * (1 - u)) ≤ z * (1 + 4 * u) * wh := mul_le_mul_of_nonneg_left wh1 (by positivity)
    have t2 : (1 + u) ^ 2 ≤ (1 + 4 * u) * (1 - u) := by nlinarith
    have t3 := mul_le_mul_of_nonneg_left t2 (mul_nonneg hz0 hw.le)
    linarith
  have k0 : z * (1 - 4 * u) ≤ p / wh := by
    rw [le_div_iff₀ hwh]
    have t1 : z * (1 - 4 * u) * wh ≤ z * (1 - 4 * u) * (w * (1 + u)) := mul_le_mul_of_nonneg_left wh2 (mul_nonneg hz0 (by linarith))
    have t2 : (1 - 4 * u) * (1 + u) ≤ (1 - u) ^ 2 := by nlinarith
    have t3 := mul_le_mul_of_nonneg_left t2 (mul_nonneg hz0 hw.le)
    linarith
  have hpq : 0 ≤ p / wh := (mul_nonneg hz0 (by linarith)).trans k0
  have uz : u * z ≤ u * R := mul_le_mul_of_nonneg_left hzR hu0.le
  have uR : u ≤ u * R := le_mul_of_one_le_right hu0.le hR
  have uR2 : u * R ≤ 1 / 64 * R := mul_le_mul_of_nonneg_right hu hR0.le
  have upq : u * (p / wh) ≤ u * (z * (1 + 4 * u)) := mul_le_mul_of_nonneg_left k1 hu0.le
  have uuz : u * (z * (1 + 4 * u)) ≤ 2 * (u * z) := by
    have : u * z * (1 + 4 * u) ≤ u * z * 2 := mul_le_mul_of_nonneg_left (by linarith) (by positivity)
    linarith
  have upq' : u * (p / wh) ≤ u * z * (1 + 4 * u) := by linarith
  have sm : u * z * (1 + 4 * u) ≤ u * z * (17 / 16) := mul_le_mul_of_nonneg_left (by linarith) (by positivity)
  have q1 : q ≤ z + 5.5 * (u * z) + η := by linarith
  have q0 : z - 5.5 * (u * z) - η ≤ q := by linarith
  have uz' : u * z ≤ 1 / 64 * z := mul_le_mul_of_nonneg_right hu hz0
  have qh0 : 0 ≤ q + 1 / 2 := by linarith
  rw [abs_of_nonneg qh0] at e5 ⊢
  obtain ⟨f1, f2⟩ := abs_le.1 e5
  have qle : q + 1 / 2 ≤ 2 * R := by linarith
  have uq : u * (q + 1 / 2) ≤ u * (2 * R) := mul_le_mul_of_nonneg_left qle hu0.le
  have uq2 : u * (q + 1 / 2) ≤ u * (1.6 * R) := mul_le_mul_of_nonneg_left (by linarith) hu0.le
  have fin : |s - (z + 1 / 2)| ≤ 8 * u * R := by
    rw [abs_le]
    constructor <;> linarith
  have uq0 : u * (q + 1 / 2) ≤ 1 * (q + 1 / 2) := mul_le_mul_of_nonneg_right (by linarith only [hu]) qh0
  have hs0 : 0 ≤ s := by linarith only [uq0, f1]
  rw [hz] at fin
  have uw : w * (1 + u) ≤ w * 2 := mul_le_mul_of_nonneg_left (by linarith only [hu]) hw.le
  refine ⟨fin, hwh, by linarith only [uw, wh2], ?_, ?_, qle, hs0, ?_⟩
  · rw [abs_of_nonneg (by positivity)]
    have : d * R ≤ X * (1 + u) * R := mul_le_mul_of_nonneg_right d1 hR0.le
    have h2 : X * (1 + u) ≤ w * 2 := mul_le_mul hXw (by linarith) (by linarith) hw.le
    have h3 := mul_le_mul_of_nonneg_right h2 hR0.le
    linarith
  · rw [abs_of_nonneg hpq]; linarith only [k1, uz', hzR, hz0, hR0]
  · rw [abs_of_nonneg hs0]; linarith

private theorem value_err {u η w X R wh c z e t v lo B : ℝ} (hu0 : 0 < u) (hu : u ≤ 1 / 64) (hη : 0 ≤ η) (hw : 0 < w) (hR : 1 ≤ R) (hz : z = X * R / w) (hc0 : 0 ≤ c) (hcR : c ≤ R)
    (hc : |c - z| ≤ 1 / 2 + 8 * u * R) (e1 : |wh - w| ≤ u * w) (e2 : |e - c / R| ≤ u * (c / R)) (e3 : |t - e * wh| ≤ u * |e * wh| + η) (hlo : |lo| ≤ B) (hhi : |lo + w| ≤ B) :
    |e * wh| ≤ 2 * w ∧ |t + lo| ≤ B + 4 * u * w + η ∧ (|v - (t + lo)| ≤ u * |t + lo| → |v - (lo + X)| ≤ w / (2 * R) + 13 * u * w + u * B + 2 * η) := by
  have hR0 : 0 < R := by linarith
  obtain ⟨y, hy⟩ : ∃ y, y = c / R := ⟨_, rfl⟩
  have hy0 : 0 ≤ y := by rw [hy]; positivity
  have hy1 : y ≤ 1 := by rw [hy, div_le_one hR0]; exact hcR
  rw [← hy] at e2
  obtain ⟨a1, a2⟩ := abs_le.1 e1
  obtain ⟨b1, b2⟩ := abs_le.1 e2
  have wh1 : w * (1 - u) ≤ wh := by linarith
  have wh2 : wh ≤ w * (1 + u) := by linarith
  have hwh : 0 ≤ wh := (mul_nonneg hw.le (by linarith)).trans wh1
  have e0 : y * (1 - u) ≤ e := by linarith
  have e0' : e ≤ y * (1 + u) := by linarith
  have he0 : 0 ≤ e := (mul_nonneg hy0 (by linarith)).trans e0
  have m1 : e * wh ≤ y * (1 + u) * (w * (1 + u)) := mul_le_mul e0' wh2 hwh (by positivity)
  have m0 : y * (1 - u) * (w * (1 - u)) ≤ e * wh := mul_le_mul e0 wh1 (mul_nonneg hw.le (by linarith)) he0
  have hyw : 0 ≤ y * w := by positivity
  have hyw1 : y * w ≤ w := mul_le_of_le_one_left hw.le hy1
  have uyw : u * (y * w) ≤ u * w := mul_le_mul_of_nonneg_left hyw1 hu0.le
  have uyw0 : 0 ≤ u * (y * w) := by positivity
  have uu : u * (u * (y * w)) ≤ 1 / 64 * (u * (y * w)) := mul_le_mul_of_nonneg_right hu uyw0
  have hew0 : 0 ≤ e * wh := by positivity
  have n1 : e * wh ≤ y * w + 2 * (u * (y * w)) + u * (u * (y * w)) := by linarith [m1]
  have n0 : y * w - 2 * (u * (y * w)) ≤ e * wh := by nlinarith [m0]
  have hewle : e * wh ≤ 2 * w := by nlinarith
  rw [abs_of_nonneg hew0] at e3
  have ue : u * (e * wh) ≤ u * (y * w + 2 * (u * (y * w)) + u * (u * (y * w))) := mul_le_mul_of_nonneg_left n1 hu0.le
  have uuu : u * (u * (u * (y * w))) ≤ 1 / 64 * (u * (u * (y * w))) := mul_le_mul_of_nonneg_right hu (by positivity)
  obtain ⟨c1, c2⟩ := abs_le.1 e3
  have ht : |t - y * w| ≤ 4 * u * w + η := by
    rw [abs_le]
    constructor <;> linarith
  obtain ⟨d1, d2⟩ := abs_le.1 ht
  obtain ⟨l1, l2⟩ := abs_le.1 hlo
  obtain ⟨h1, h2⟩ := abs_le.1 hhi
  have htl : |t + lo| ≤ B + 4 * u * w + η := by
    rw [abs_le]
    constructor <;> linarith
  refine ⟨by rw [abs_of_nonneg hew0]; exact hewle, htl, fun hv => ?_⟩
  have hX : X = z * w / R := by rw [hz]; field_simp
  have hyX : |y * w - X| ≤ w / (2 * R) + 8 * u * w := by
    have : y * w - X = (c - z) * (w / R) := by rw [hy, hX]; ring
    rw [this, abs_mul, abs_of_pos (div_pos hw hR0)]
    calc |c - z| * (w / R) ≤ (1 / 2 + 8 * u * R) * (w / R) := mul_le_mul_of_nonneg_right hc (by positivity)
      _ = _ := by field_simp
  have hut : u * |t + lo| ≤ u * (B + 4 * u * w + η) := mul_le_mul_of_nonneg_left htl hu0.le
  have r1 : u * (4 * u * w) ≤ 1 / 64 * (4 * u * w) := mul_le_mul_of_nonneg_right hu (by positivity)
  have r2 : u * η ≤ 1 * η := mul_le_mul_of_nonneg_right (by linarith) hη
  have r3 : 0 ≤ u * w := by positivity
  calc |v - (lo + X)| = |(v - (t + lo)) + ((t - y * w) + (y * w - X))| := by congr 1; ring
    _ ≤ |v - (t + lo)| + (|t - y * w| + |y * w - X|) := (abs_add_le _ _).trans (by linarith [abs_add_le (t - y * w) (y * w - X)])
    _ ≤ _ := by linarith

/-! ## Specification -/

/-- A range of values and a number `R` of steps that can be handled: the ends are finite and different, `R` is at most `2 ^ ( p + 1 )` (every code is a number of the format) and of 32 bits, and `R` times the
largest magnitude, four times over, does not overflow. -/
structure Spec.QuantFits (R : Int) (lo hi : Fp F) : Prop where
  lo_fin : lo.Finite
  hi_fin : hi.Finite
  lt : lo.val < hi.val
  pos : 1 ≤ R
  digits : R ≤ 2 ^ (F.p + 1)
  bits : R < 2 ^ 32
  room : 4 * (R : ℝ) * (|lo.val| + |hi.val| + 1) ≤ F.maxFinite

/-- Half a step, and the rounding of the operations. -/
noncomputable def Spec.quantErr (F : Format) (R : Int) (lo hi : ℝ) : ℝ :=
  (hi - lo) / (2 * R) + 13 * F.u * (hi - lo) + F.u * max |lo| |hi| + 2 * F.eta

/-! ## One element -/

theorem Fp.ofReal_fin (h0 : 0 < F.emax) {x : ℝ} (h : |x| ≤ F.maxFinite) : (Fp.ofReal x : Fp F).Finite ∧ (Fp.ofReal x : Fp F).val = F.rnd x :=
  Fp.round_signed (F := F) (x := x) (s := @decide (x < 0) (Classical.propDecidable _)) h0 (fun _ => @decide_eq_true_iff _ (Classical.propDecidable _)) h

theorem Quant.ofReal_int (hF : F.p < F.emax) {k : Int} (hk : |k| ≤ 2 ^ (F.p + 1)) : (Fp.ofReal (k : ℝ) : Fp F).Finite ∧ (Fp.ofReal (k : ℝ) : Fp F).val = k := by
  have hrep : F.Rep (k : ℝ) := ⟨k, 0, by unfold emin; omega, hk, by simp⟩
  have hle : |(k : ℝ)| ≤ F.maxFinite := by
    have h1 : |(k : ℝ)| ≤ (2 : ℝ) ^ ((F.p : Int) + 1) := by exact_mod_cast hk
    refine h1.trans (le_trans ?_ pow_emax_le)
    exact zpow_le_zpow_right₀ (by norm_num) (by omega)
  have := Fp.ofReal_fin (F := F) (by omega) hle
  rwa [hrep.rnd_eq] at this

theorem Quant.mul_int {x : ℝ} (hx : F.Grid x) (k : Int) : F.Grid (x * k) := by
  obtain ⟨l, rfl⟩ := hx
  exact ⟨l * k, by push_cast; ring⟩

/-- What the code computes before truncating. -/
private noncomputable def pre (F D : Format) (R : Int) (wh X : ℝ) : ℝ := D.rnd (F.rnd (F.rnd (F.rnd X * R) / wh) + 1 / 2)

private theorem pre_mono {R : Int} (hR : 0 ≤ R) {wh X Y : ℝ} (hw : 0 ≤ wh) (h : X ≤ Y) : pre F D R wh X ≤ pre F D R wh Y := by
  have hR' : (0 : ℝ) ≤ R := by exact_mod_cast hR
  unfold pre
  apply rnd_mono
  gcongr
  apply rnd_mono
  gcongr
  apply rnd_mono
  gcongr
  exact rnd_mono h

private theorem toLong_ok {a : Fp D} (ha : a.Finite) (h0 : 0 ≤ a.val) (h1 : a.val < 2 ^ 63) : Fp.toLong a = .ok ⌊a.val⌋ := by
  obtain ⟨s, m, hm, rfl⟩ := Fp.finite_cases ha
  unfold Fp.toLong
  simp only
  rw [if_pos h0, if_pos]
  constructor
  · have : 0 ≤ ⌊(Fp.fin s m hm).val⌋ := Int.floor_nonneg.2 h0
    omega
  · rw [Int.floor_lt]; exact_mod_cast h1

theorem Quant.u64 (h5 : 5 ≤ F.p) : F.u ≤ 1 / 64 := by
  unfold Format.u
  calc (2 : ℝ)⁻¹ ^ (F.p + 1) ≤ (2 : ℝ)⁻¹ ^ 6 := pow_le_pow_of_le_one (by norm_num) (by norm_num) (by omega)
    _ = _ := by norm_num

theorem Quant.wide (hD : Spec.Wider F D) : F.p ≤ D.p ∧ F.emax ≤ D.emax := by
  rcases hD with rfl | ⟨h1, h2⟩
  · exact ⟨le_rfl, le_rfl⟩
  · exact ⟨h1, h2.le⟩

variable (hD : Spec.Wider F D) (h5 : 5 ≤ F.p) (hF : F.p + 2 ≤ F.emax)

theorem Quant.width {R : Int} {lo hi : Fp F} (hF : F.p + 2 ≤ F.emax) (h : Spec.QuantFits R lo hi) : (hi - lo).Finite ∧ (hi - lo).val = F.rnd (hi.val - lo.val) ∧
    |F.rnd (hi.val - lo.val) - (hi.val - lo.val)| ≤ F.u * (hi.val - lo.val) := by
  have hR : (1 : ℝ) ≤ R := by exact_mod_cast h.pos
  have hroom := h.room
  have a1 := abs_nonneg lo.val
  have a2 := abs_nonneg hi.val
  have hw : |hi.val - lo.val| ≤ F.maxFinite := by
    have := abs_sub hi.val lo.val
    nlinarith
  obtain ⟨w1, w2⟩ := Fp.sub_fin (by omega) h.hi_fin h.lo_fin hw
  refine ⟨w1, w2, ?_⟩
  have := ((Fp.rep_val h.hi_fin).grid.add (Fp.rep_val h.lo_fin).grid.neg).rnd_err
  rw [← sub_eq_add_neg, abs_of_pos (sub_pos.2 h.lt)] at this
  exact this

include hD h5 hF in
private theorem code_one {R : Int} {lo hi x : Fp F} (h : Spec.QuantFits R lo hi) (hx : x.Finite) (hlo : lo.val ≤ x.val) (hhi : x.val ≤ hi.val) :
    Fp.toLong (Fp.convert D ((x - lo) * Fp.ofReal (R : ℝ) / (hi - lo)) + (Fp.ofReal (1 / 2) : Fp D)) = .ok ⌊pre F D R (F.rnd (hi.val - lo.val)) (x.val - lo.val)⌋ ∧
    |pre F D R (F.rnd (hi.val - lo.val)) (x.val - lo.val) - ((x.val - lo.val) * R / (hi.val - lo.val) + 1 / 2)| ≤ 8 * F.u * R ∧ 0 ≤ pre F D R (F.rnd (hi.val - lo.val)) (x.val - lo.val) := by
  obtain ⟨hp, he⟩ := Quant.wide hD
  have hu := u_pos (F := F)
  have hu6 := Quant.u64 h5
  have hη := eta_pos (F := F)
  have hηu : F.eta ≤ F.u := by
    rw [Format.eta_eq_tiny]
    have := Vmml.tiny_le_one (F := F) (by omega)
    nlinarith
  have hR : (1 : ℝ) ≤ R := by exact_mod_cast h.pos
  have hroom := h.room
  have a1 := abs_nonneg lo.val
  have a2 := abs_nonneg hi.val
  obtain ⟨w1, w2, w3⟩ := Quant.width hF h
  have hw0 : 0 < hi.val - lo.val := sub_pos.2 h.lt
  have hX0 : 0 ≤ x.val - lo.val := by linarith
  have hXw : x.val - lo.val ≤ hi.val - lo.val := by linarith
  have hwle : hi.val - lo.val ≤ |lo.val| + |hi.val| := by
    have h1 := neg_abs_le lo.val
    have h2 := le_abs_self hi.val
    linarith
  have hRA : 0 ≤ (R : ℝ) * (|lo.val| + |hi.val|) := by positivity
  have hRw : (R : ℝ) * (hi.val - lo.val) ≤ R * (|lo.val| + |hi.val|) := mul_le_mul_of_nonneg_left hwle (by linarith)
  have hAR : |lo.val| + |hi.val| ≤ R * (|lo.val| + |hi.val|) := le_mul_of_one_le_left (by positivity) hR
  obtain ⟨d1, d2⟩ := Fp.sub_fin (F := F) (by omega) hx h.lo_fin (by rw [abs_of_nonneg hX0]; linarith)
  have d3 := ((Fp.rep_val hx).grid.add (Fp.rep_val h.lo_fin).grid.neg).rnd_err
  rw [← sub_eq_add_neg, abs_of_nonneg hX0] at d3
  obtain ⟨r1, r2⟩ := Quant.ofReal_int (F := F) (by omega) (k := R) (by rw [abs_of_nonneg (by have := h.pos; omega)]; exact h.digits)
  have e3 : |F.rnd (F.rnd (x.val - lo.val) * R) - F.rnd (x.val - lo.val) * R| ≤ F.u * (F.rnd (x.val - lo.val) * R) := by
    have := (Quant.mul_int (rnd_rep (F := F) (x.val - lo.val)).grid R).rnd_err
    rwa [abs_of_nonneg (mul_nonneg (rnd_nonneg hX0) (by linarith))] at this
  have hwh0 : 0 ≤ F.rnd (hi.val - lo.val) := rnd_nonneg hw0.le
  have e4 : |F.rnd (F.rnd (F.rnd (x.val - lo.val) * R) / F.rnd (hi.val - lo.val)) - F.rnd (F.rnd (x.val - lo.val) * R) / F.rnd (hi.val - lo.val)| ≤
      F.u * (F.rnd (F.rnd (x.val - lo.val) * R) / F.rnd (hi.val - lo.val)) + F.eta := by
    have := rnd_err_add (F := F) (F.rnd (F.rnd (x.val - lo.val) * R) / F.rnd (hi.val - lo.val))
    rwa [abs_of_nonneg (div_nonneg (rnd_nonneg (mul_nonneg (rnd_nonneg hX0) (by linarith))) hwh0)] at this
  have hq := rnd_rep (F := F) (F.rnd (F.rnd (x.val - lo.val) * R) / F.rnd (hi.val - lo.val))
  have e5 : |pre F D R (F.rnd (hi.val - lo.val)) (x.val - lo.val) - (F.rnd (F.rnd (F.rnd (x.val - lo.val) * R) / F.rnd (hi.val - lo.val)) + 1 / 2)| ≤
      F.u * |F.rnd (F.rnd (F.rnd (x.val - lo.val) * R) / F.rnd (hi.val - lo.val)) + 1 / 2| := by
    have := ((rep_widen hp he hq).grid.add (rep_half (F := D) (by omega)).grid).rnd_err
    refine this.trans (mul_le_mul_of_nonneg_right ?_ (abs_nonneg _))
    exact u_le hp
  obtain ⟨g1, g2, g3, g4, g5, g6, g7, g8⟩ := Quant.code_err hu hu6 hη.le hηu hw0 hX0 hXw hR w3 d3 e3 e4 e5
  refine ⟨?_, g1, g7⟩
  have f0 : (x - lo).Finite := d1
  obtain ⟨p1, p2⟩ := Fp.mul_fin (F := F) (by omega) d1 r1 (by rw [d2, r2]; linarith)
  rw [d2, r2] at p2
  obtain ⟨q1, q2⟩ := Fp.div_fin (F := F) (by omega) p1 w1 (by rw [w2]; exact g2.ne') (by rw [p2, w2]; linarith)
  rw [p2, w2] at q2
  obtain ⟨c1, c2⟩ := Fp.widen_fin hp he (by omega) q1
  rw [q2] at c2
  have hh : (Fp.ofReal (1 / 2) : Fp D).Finite ∧ (Fp.ofReal (1 / 2) : Fp D).val = 1 / 2 := by
    have := Fp.ofReal_fin (F := D) (x := 1 / 2) (by omega) (by
      have := one_le_max (F := D) (by omega)
      rw [abs_of_pos (by norm_num)]; linarith)
    rwa [(rep_half (F := D) (by omega)).rnd_eq] at this
  obtain ⟨s1, s2⟩ := Fp.add_fin (F := D) (by omega) c1 hh.1 (by
    rw [c2, hh.2]
    refine g6.trans ((?_ : _ ≤ F.maxFinite).trans (max_widen hp he))
    linarith)
  rw [c2, hh.2] at s2
  have s2 : _ = pre F D R (F.rnd (hi.val - lo.val)) (x.val - lo.val) := s2
  rw [toLong_ok s1 (by rw [s2]; exact g7) (by
    rw [s2]
    refine (le_abs_self _).trans_lt (g8.trans_lt ?_)
    have : (R : ℝ) < 2 ^ 32 := by exact_mod_cast h.bits
    linarith), s2]


/-! ## The value of a code -/

theorem Quant.clamp_near {lo v hi x : Fp F} (hl : lo.Finite) (hv : v.Finite) (hh : hi.Finite) (h1 : lo.val ≤ x.val) (h2 : x.val ≤ hi.val) :
    (clampT lo v hi).Finite ∧ lo.val ≤ (clampT lo v hi).val ∧ (clampT lo v hi).val ≤ hi.val ∧ |(clampT lo v hi).val - x.val| ≤ |v.val - x.val| := by
  unfold clampT
  simp only
  have key : ∀ y : Fp F, y.Finite → lo.val ≤ y.val → |y.val - x.val| ≤ |v.val - x.val| →
      (if hi < y then hi else y).Finite ∧ lo.val ≤ (if hi < y then hi else y).val ∧ (if hi < y then hi else y).val ≤ hi.val ∧ |(if hi < y then hi else y).val - x.val| ≤ |v.val - x.val| := by
    intro y hy hy1 hyx
    by_cases h : hi < y
    · rw [if_pos h]
      rw [Fp.lt_val hh hy] at h
      refine ⟨hh, h1.trans h2, le_rfl, ?_⟩
      rw [abs_of_nonneg (by linarith)]
      exact (by linarith : hi.val - x.val ≤ y.val - x.val).trans ((le_abs_self _).trans hyx)
    · rw [if_neg h]
      rw [Fp.lt_val hh hy] at h
      exact ⟨hy, hy1, not_lt.1 h, hyx⟩
  by_cases h : lo < v
  · rw [if_pos h]
    rw [Fp.lt_val hl hv] at h
    exact key v hv h.le le_rfl
  · rw [if_neg h]
    rw [Fp.lt_val hl hv] at h
    refine key lo hl le_rfl ?_
    rw [abs_sub_comm, abs_of_nonneg (by linarith)]
    exact (by linarith : x.val - lo.val ≤ -(v.val - x.val)).trans (neg_le_abs _)

private theorem decode_one (h5 : 5 ≤ F.p) (hF : F.p + 2 ≤ F.emax) {R c : Int} {lo hi x : Fp F} (h : Spec.QuantFits R lo hi) (hc0 : 0 ≤ c) (hcR : c ≤ R)
    (hlo : lo.val ≤ x.val) (hhi : x.val ≤ hi.val) (hc : |(c : ℝ) - (x.val - lo.val) * R / (hi.val - lo.val)| ≤ 1 / 2 + 8 * F.u * R) :
    (clampT lo ((Fp.ofReal (c : ℝ) : Fp F) / Fp.ofReal (R : ℝ) * (hi - lo) + lo) hi).Finite ∧
    lo.val ≤ (clampT lo ((Fp.ofReal (c : ℝ) : Fp F) / Fp.ofReal (R : ℝ) * (hi - lo) + lo) hi).val ∧
    (clampT lo ((Fp.ofReal (c : ℝ) : Fp F) / Fp.ofReal (R : ℝ) * (hi - lo) + lo) hi).val ≤ hi.val ∧
    |(clampT lo ((Fp.ofReal (c : ℝ) : Fp F) / Fp.ofReal (R : ℝ) * (hi - lo) + lo) hi).val - x.val| ≤ Spec.quantErr F R lo.val hi.val := by
  have hu := u_pos (F := F)
  have hu6 := Quant.u64 h5
  have hη := eta_pos (F := F)
  have hηu : F.eta ≤ F.u := by
    rw [Format.eta_eq_tiny]
    have := Vmml.tiny_le_one (F := F) (by omega)
    nlinarith
  have hR : (1 : ℝ) ≤ R := by exact_mod_cast h.pos
  have hroom := h.room
  have a1 := abs_nonneg lo.val
  have a2 := abs_nonneg hi.val
  obtain ⟨w1, w2, w3⟩ := Quant.width hF h
  have hw0 : 0 < hi.val - lo.val := sub_pos.2 h.lt
  have hwle : hi.val - lo.val ≤ |lo.val| + |hi.val| := by
    have h1 := neg_abs_le lo.val
    have h2 := le_abs_self hi.val
    linarith
  have hAR : |lo.val| + |hi.val| ≤ R * (|lo.val| + |hi.val|) := le_mul_of_one_le_left (by positivity) hR
  obtain ⟨r1, r2⟩ := Quant.ofReal_int (F := F) (by omega) (k := R) (by rw [abs_of_nonneg (by have := h.pos; omega)]; exact h.digits)
  obtain ⟨c1, c2⟩ := Quant.ofReal_int (F := F) (by omega) (k := c) (by rw [abs_of_nonneg hc0]; exact hcR.trans h.digits)
  have hc0' : (0 : ℝ) ≤ c := by exact_mod_cast hc0
  have hcR' : (c : ℝ) ≤ R := by exact_mod_cast hcR
  have hy0 : 0 ≤ (c : ℝ) / R := by positivity
  have hy1 : (c : ℝ) / R ≤ 1 := by rw [div_le_one (by linarith)]; exact hcR'
  have hm1 := one_le_max (F := F) (by omega)
  obtain ⟨q1, q2⟩ := Fp.div_fin (F := F) (by omega) c1 r1 (by rw [r2]; positivity) (by rw [c2, r2, abs_of_nonneg hy0]; linarith)
  rw [c2, r2] at q2
  have e2 : |F.rnd ((c : ℝ) / R) - c / R| ≤ F.u * (c / R) := by
    rcases hc0.eq_or_lt with h0 | h0
    · rw [← h0]; simp [rnd_zero]
    · have hc1 : (1 : ℝ) ≤ c := by exact_mod_cast h0
      have := rnd_err_normal (F := F) (x := (c : ℝ) / R) (by
        rw [abs_of_nonneg hy0, le_div_iff₀ (by linarith)]
        have hd : (R : ℝ) ≤ (2 : ℝ) ^ ((F.p : Int) + 1) := by exact_mod_cast h.digits
        calc (2 : ℝ) ^ F.emin * R ≤ (2 : ℝ) ^ F.emin * (2 : ℝ) ^ ((F.p : Int) + 1) := mul_le_mul_of_nonneg_left hd (by positivity)
          _ = (2 : ℝ) ^ (F.emin + ((F.p : Int) + 1)) := (zpow_add₀ (by norm_num) _ _).symm
          _ ≤ 1 := zpow_le_one_of_nonpos₀ (by norm_num) (by unfold emin; omega)
          _ ≤ c := hc1)
      rwa [abs_of_nonneg hy0] at this
  have e3 := rnd_err_add (F := F) (F.rnd ((c : ℝ) / R) * F.rnd (hi.val - lo.val))
  obtain ⟨k1, k2, k3⟩ := value_err (v := F.rnd (F.rnd (F.rnd ((c : ℝ) / R) * F.rnd (hi.val - lo.val)) + lo.val)) (X := x.val - lo.val) (lo := lo.val) (B := max |lo.val| |hi.val|)
    hu hu6 hη.le hw0 hR rfl hc0' hcR' hc w3 e2 e3 (le_max_left _ _) (by rw [add_sub_cancel]; exact le_max_right _ _)
  have hB : max |lo.val| |hi.val| ≤ |lo.val| + |hi.val| := max_le (by linarith) (by linarith)
  have uw : F.u * (hi.val - lo.val) ≤ 1 / 64 * (hi.val - lo.val) := mul_le_mul_of_nonneg_right hu6 hw0.le
  obtain ⟨t1, t2⟩ := Fp.mul_fin (F := F) (by omega) q1 w1 (by rw [q2, w2]; linarith)
  rw [q2, w2] at t2
  obtain ⟨v1, v2⟩ := Fp.add_fin (F := F) (by omega) t1 h.lo_fin (by rw [t2]; linarith)
  rw [t2] at v2
  have hv := k3 (((rnd_rep _).grid.add (Fp.rep_val h.lo_fin).grid).rnd_err)
  obtain ⟨z1, z2, z3, z4⟩ := Quant.clamp_near h.lo_fin v1 h.hi_fin hlo hhi
  refine ⟨z1, z2, z3, z4.trans ?_⟩
  rw [v2]
  rw [add_sub_cancel] at hv
  exact hv

/-! ## The matrices -/

/-- A range of values that is handed to `quantize_to`, and the elements in it. -/
def Spec.InBounds (m : Mat M N (Fp F)) (lo hi : Fp F) : Prop := ∀ i j, (m.toMat i j).Finite ∧ lo.val ≤ (m.toMat i j).val ∧ (m.toMat i j).val ≤ hi.val

/-- The place of a value on the scale of codes: `lo` is `0` and `hi` is `R`. -/
noncomputable def Spec.place (R : Int) (lo hi x : ℝ) : ℝ := (x - lo) * R / (hi - lo)

private theorem quantizeTo_eq (hD : Spec.Wider F D) (h5 : 5 ≤ F.p) (hF : F.p + 2 ≤ F.emax) {tt : IntType} (hs : tt.signed = false) (hmin : tt.min = 0) {lo hi : Fp F} (h : Spec.QuantFits tt.max lo hi) (m : Mat M N (Fp F))
    (hm : Spec.InBounds m lo hi) (q : Mat M N Int) :
    m.quantizeToFp D tt q lo hi = .ok (ofFn fun i j => clampLong 0 ⌊pre F D tt.max (F.rnd (hi.val - lo.val)) ((m.get i j).val - lo.val)⌋ tt.max) := by
  unfold quantizeToFp
  simp only [hs, hmin, Bool.false_eq_true, if_false, sub_zero]
  rw [loop_flat (fun i => clampLong 0 ⌊pre F D tt.max (F.rnd (hi.val - lo.val)) (m.array[i].val - lo.val)⌋ tt.max) (by
    intro i hi' m' _
    obtain ⟨e1, e2, e3⟩ : (m.array[i]).Finite ∧ lo.val ≤ (m.array[i]).val ∧ (m.array[i]).val ≤ hi.val := by
      obtain ⟨r, c, hrc⟩ := Mat.array_get m i hi'
      rw [hrc]
      exact hm r c
    rw [rawGet_lt m hi', bind_ok, (code_one hD h5 hF h e1 e2 e3).1, bind_ok, rawSet_lt m' _ hi']
    rfl)]
  congr 1; ext r c; rw [get_mk_ofFn, get_ofFn]; rfl

private theorem dequantize_eq {tt : IntType} (hs : tt.signed = false) (hmin : tt.min = 0) (q : Mat M N Int) (d : Mat M N (Fp F)) (lo hi : Fp F) :
    q.dequantizeFp tt d lo hi = .ok (ofFn fun i j => clampT lo ((Fp.ofReal (q.get i j : ℝ) : Fp F) / Fp.ofReal (tt.max : ℝ) * (hi - lo) + lo) hi) := by
  unfold dequantizeFp dequantize
  simp only [hs, hmin, Bool.false_eq_true, if_false, sub_zero]
  rw [loop_flat (fun i => clampT lo ((Fp.ofReal (q.array[i] : ℝ) : Fp F) / Fp.ofReal (tt.max : ℝ) * (hi - lo) + lo) hi) (by
    intro i hi' m' _
    rw [rawGet_lt q hi', bind_ok, rawSet_lt m' _ hi']
    rfl)]
  congr 1; ext r c; rw [get_mk_ofFn, get_ofFn]; rfl

private theorem code_near {u s z : ℝ} {R : Int} (hR : 0 ≤ R) (hz0 : 0 ≤ z) (hzR : z ≤ R) (hs : |s - (z + 1 / 2)| ≤ 8 * u * R) :
    |(clampLong 0 ⌊s⌋ R : ℝ) - z| ≤ 1 / 2 + 8 * u * R := by
  obtain ⟨a, b⟩ := abs_le.1 hs
  have f1 := Int.floor_le s
  have f2 := Int.lt_floor_add_one s
  rw [abs_le]
  unfold clampLong
  simp only
  have p0 := (abs_nonneg _).trans hs
  split_ifs with h1 h2 h2
  · have : (R : ℝ) < ⌊s⌋ := by exact_mod_cast h2
    constructor <;> linarith
  · constructor <;> linarith
  · omega
  · have : (⌊s⌋ : ℝ) ≤ 0 := by exact_mod_cast not_lt.1 h1
    simp only [Int.cast_zero]
    constructor <;> linarith

private theorem place_mem {R : Int} (hR : 0 ≤ R) {lo hi x : ℝ} (h : lo < hi) (h1 : lo ≤ x) (h2 : x ≤ hi) : 0 ≤ Spec.place R lo hi x ∧ Spec.place R lo hi x ≤ R := by
  have hR' : (0 : ℝ) ≤ R := by exact_mod_cast hR
  unfold Spec.place
  refine ⟨div_nonneg (mul_nonneg (by linarith) hR') (by linarith), ?_⟩
  rw [div_le_iff₀ (by linarith), mul_comm (R : ℝ)]
  exact mul_le_mul_of_nonneg_right (by linarith) hR'

section
variable (hD : Spec.Wider F D) (h5 : 5 ≤ F.p) (hF : F.p + 2 ≤ F.emax) {tt : IntType} (hs : tt.signed = false) (hmin : tt.min = 0) {lo hi : Fp F} (h : Spec.QuantFits tt.max lo hi) (m : Mat M N (Fp F))
  (hm : Spec.InBounds m lo hi)
include hD h5 hF hs hmin h hm

/-- C137. `quantize_to` with an unsigned code type and elements between `min_value` and `max_value`: the conversion to `long` is defined, and every code is one of the codes of the type nearest to the place of the
element, up to `8 u R` for the roundings (`R` is the number of steps). -/
theorem C137_codes (q : Mat M N Int) :
    ∃ q', m.quantizeToFp D tt q lo hi = .ok q' ∧ ∀ i j, 0 ≤ q'.toMat i j ∧ q'.toMat i j ≤ tt.max ∧
      |(q'.toMat i j : ℝ) - Spec.place tt.max lo.val hi.val (m.toMat i j).val| ≤ 1 / 2 + 8 * F.u * tt.max := by
  have hR := h.pos
  refine ⟨_, quantizeTo_eq hD h5 hF hs hmin h m hm q, fun i j => ?_⟩
  obtain ⟨e1, e2, e3⟩ := hm i j
  obtain ⟨p1, p2⟩ := place_mem (R := tt.max) (by omega) h.lt e2 e3
  simp only [toMat, Matrix.of_apply, get_ofFn] at *
  refine ⟨(clampLong_mem (by omega) _).1, (clampLong_mem (by omega) _).2, ?_⟩
  exact code_near (by omega) p1 p2 (code_one hD h5 hF h e1 e2 e3).2.1

/-- C137. Quantisation keeps the order: a larger element never gets a smaller code, whatever the roundings; equal values get equal codes. -/
theorem C137_monotone (q : Mat M N Int) :
    ∃ q', m.quantizeToFp D tt q lo hi = .ok q' ∧ ∀ i j k l, (m.toMat i j).val ≤ (m.toMat k l).val → q'.toMat i j ≤ q'.toMat k l := by
  have hR := h.pos
  refine ⟨_, quantizeTo_eq hD h5 hF hs hmin h m hm q, fun i j k l hle => ?_⟩
  simp only [toMat, Matrix.of_apply, get_ofFn] at *
  have := Int.floor_le_floor (pre_mono (F := F) (D := D) (R := tt.max) (by omega) (rnd_nonneg (F := F) (sub_pos.2 h.lt).le) (sub_le_sub_right hle lo.val))
  unfold clampLong
  simp only
  split_ifs <;> omega

/-- C137. If `8 u R < 1 / 2` (for `float`: up to 20 bit codes), elements equal to `min_value` get the code 0 and elements equal to `max_value` the largest code. -/
theorem C137_endpoints (hfew : 8 * F.u * tt.max < 1 / 2) (q : Mat M N Int) :
    ∃ q', m.quantizeToFp D tt q lo hi = .ok q' ∧ ∀ i j, ((m.toMat i j).val = lo.val → q'.toMat i j = 0) ∧ ((m.toMat i j).val = hi.val → q'.toMat i j = tt.max) := by
  obtain ⟨q', e, hq⟩ := C137_codes hD h5 hF hs hmin h m hm q
  refine ⟨q', e, fun i j => ?_⟩
  obtain ⟨c0, c1, c2⟩ := hq i j
  have hw := sub_pos.2 h.lt
  constructor
  · intro hx
    rw [hx] at c2
    have : Spec.place tt.max lo.val hi.val lo.val = 0 := by simp [Spec.place]
    rw [this, sub_zero] at c2
    have : (q'.toMat i j : ℝ) < 1 := by linarith [le_abs_self (q'.toMat i j : ℝ)]
    have : q'.toMat i j < 1 := by exact_mod_cast this
    omega
  · intro hx
    rw [hx] at c2
    have : Spec.place tt.max lo.val hi.val hi.val = tt.max := by unfold Spec.place; field_simp
    rw [this, abs_sub_comm] at c2
    have : (tt.max : ℝ) < q'.toMat i j + 1 := by linarith [le_abs_self ((tt.max : ℝ) - q'.toMat i j)]
    have : tt.max < q'.toMat i j + 1 := by exact_mod_cast this
    omega

/-- C137. Quantising and dequantising with the same range returns every element up to half a step and the roundings, and never leaves the range. -/
theorem C137_round_trip (q : Mat M N Int) (d : Mat M N (Fp F)) :
    ∃ q' d', m.quantizeToFp D tt q lo hi = .ok q' ∧ q'.dequantizeFp tt d lo hi = .ok d' ∧
      ∀ i j, (d'.toMat i j).Finite ∧ lo.val ≤ (d'.toMat i j).val ∧ (d'.toMat i j).val ≤ hi.val ∧ |(d'.toMat i j).val - (m.toMat i j).val| ≤ Spec.quantErr F tt.max lo.val hi.val := by
  obtain ⟨q', e, hq⟩ := C137_codes hD h5 hF hs hmin h m hm q
  refine ⟨q', _, e, dequantize_eq hs hmin q' d lo hi, fun i j => ?_⟩
  obtain ⟨c0, c1, c2⟩ := hq i j
  obtain ⟨e1, e2, e3⟩ := hm i j
  have := decode_one h5 hF h c0 c1 e2 e3 c2
  simpa [toMat] using this

end

/-! ## `quantize()`, which finds the range itself -/

private theorem min_fin (m : Mat M N (Fp F)) (hM : 0 < M) (hN : 0 < N) (hm : ∀ i j, (m.toMat i j).Finite) {maxT : Fp F} (hT : maxT.Finite) (hTm : ∀ i j, (m.toMat i j).val ≤ maxT.val) :
    ∃ x, m.getMin maxT = .ok x ∧ x.Finite ∧ (∀ i j, x.val ≤ (m.toMat i j).val) ∧ ∃ i j, x.val = (m.toMat i j).val := by
  obtain ⟨x, e, hn, hx, hmin⟩ := (C123_matrix_min_max m maxT hT.ne_nan).1
  have hle : ∀ i j, Spec.ereal x ≤ ((m.toMat i j).val : EReal) := fun i j =>
    hmin (Or.inr ⟨i, j, (hm i j).ne_nan, Fp.ereal_val (hm i j)⟩)
  have hx' : ∃ i j, Spec.ereal x = ((m.toMat i j).val : EReal) := by
    rcases hx with hx | ⟨i, j, h1, h2⟩
    · refine ⟨⟨0, hM⟩, ⟨0, hN⟩, le_antisymm (hle _ _) ?_⟩
      rw [hx, Fp.ereal_val hT]
      exact_mod_cast hTm _ _
    · exact ⟨i, j, by rw [← h2]; exact Fp.ereal_val (hm i j)⟩
  have hf : x.Finite := by
    obtain ⟨i, j, h⟩ := hx'
    cases x with
    | nan => exact absurd rfl hn
    | inf s => cases s <;> simp [Spec.ereal, Fp.ext] at h
    | fin s a b => trivial
  rw [Fp.ereal_val hf] at hle hx'
  exact ⟨x, e, hf, fun i j => by exact_mod_cast hle i j, by obtain ⟨i, j, h⟩ := hx'; exact ⟨i, j, by exact_mod_cast h⟩⟩

private theorem max_fin (m : Mat M N (Fp F)) (hm : ∀ i j, (m.toMat i j).Finite) :
    ∃ x, m.getMax = .ok x ∧ x.Finite ∧ 0 ≤ x.val ∧ (∀ i j, (m.toMat i j).val ≤ x.val) ∧ (x.val = 0 ∨ ∃ i j, x.val = (m.toMat i j).val) := by
  obtain ⟨x, e, hn, hx, hmax⟩ := (C123_matrix_min_max m (0 : Fp F) Fp.finite_zero.ne_nan).2
  have hle : ∀ i j, ((m.toMat i j).val : EReal) ≤ Spec.ereal x := fun i j =>
    hmax (Or.inr ⟨i, j, (hm i j).ne_nan, Fp.ereal_val (hm i j)⟩)
  have h0 : ((0 : ℝ) : EReal) ≤ Spec.ereal x := hmax (Or.inl rfl)
  have hx' : Spec.ereal x = ((0 : ℝ) : EReal) ∨ ∃ i j, Spec.ereal x = ((m.toMat i j).val : EReal) := by
    rcases hx with hx | ⟨i, j, h1, h2⟩
    · exact Or.inl hx
    · exact Or.inr ⟨i, j, by rw [← h2]; exact Fp.ereal_val (hm i j)⟩
  have hf : x.Finite := by
    have : ∃ r : ℝ, Spec.ereal x = (r : EReal) := by
      rcases hx' with h | ⟨i, j, h⟩
      · exact ⟨_, h⟩
      · exact ⟨_, h⟩
    obtain ⟨r, h⟩ := this
    cases x with
    | nan => exact absurd rfl hn
    | inf s => cases s <;> simp [Spec.ereal, Fp.ext] at h
    | fin s a b => trivial
  rw [Fp.ereal_val hf] at hle hx' h0
  refine ⟨x, e, hf, by exact_mod_cast h0, fun i j => by exact_mod_cast hle i j, ?_⟩
  rcases hx' with h | ⟨i, j, h⟩
  · left; exact_mod_cast h
  · right; exact ⟨i, j, by exact_mod_cast h⟩

/-- C137. `quantize()` of finite elements that are not all equal to one number `≥ 0`, and `dequantize()` with the range it reports: the range is the least element and the largest of 0 and the elements (the flaw of `get_max`, C40, only
costs accuracy here), and every element comes back up to half a step and the roundings. -/
theorem C137_quantize (hD : Spec.Wider F D) (h5 : 5 ≤ F.p) (hF : F.p + 2 ≤ F.emax) {tt : IntType} (hs : tt.signed = false) (hmin : tt.min = 0) (hpos : 1 ≤ tt.max) (hdig : tt.max ≤ 2 ^ (F.p + 1)) (hbits : tt.max < 2 ^ 32)
    {maxT : Fp F} (hT : maxT.Finite ∧ maxT.val = F.maxFinite) (m : Mat M N (Fp F)) (hM : 0 < M) (hN : 0 < N) {B : ℝ} (hB : ∀ i j, (m.toMat i j).Finite ∧ |(m.toMat i j).val| ≤ B)
    (hroom : 4 * (tt.max : ℝ) * (2 * B + 1) ≤ F.maxFinite) (hne : (∃ i j, (m.toMat i j).val < 0) ∨ ∃ i j k l, (m.toMat i j).val ≠ (m.toMat k l).val) (q : Mat M N Int) (d : Mat M N (Fp F)) :
    ∃ q' lo hi d', m.quantizeFp D tt maxT q = .ok (q', lo, hi) ∧ q'.dequantizeFp tt d lo hi = .ok d' ∧
      IsLeast {x | ∃ i j, x = (m.toMat i j).val} lo.val ∧ IsGreatest {x | x = 0 ∨ ∃ i j, x = (m.toMat i j).val} hi.val ∧
      ∀ i j, 0 ≤ q'.toMat i j ∧ q'.toMat i j ≤ tt.max ∧ (d'.toMat i j).Finite ∧ |(d'.toMat i j).val - (m.toMat i j).val| ≤ Spec.quantErr F tt.max lo.val hi.val := by
  obtain ⟨lo, e1, l1, l2, l3⟩ := min_fin m hM hN (fun i j => (hB i j).1) hT.1 (fun i j => by
    rw [hT.2]; exact (le_abs_self _).trans (Fp.abs_val_le (m.toMat i j)))
  obtain ⟨hi, e2, k1, k2, k3, k4⟩ := max_fin m (fun i j => (hB i j).1)
  have hlt : lo.val < hi.val := by
    rcases hne with ⟨i, j, h⟩ | ⟨i, j, k, l, h⟩
    · linarith [l2 i j]
    · rcases lt_or_gt_of_ne h with h | h
      · linarith [l2 i j, k3 k l]
      · linarith [l2 k l, k3 i j]
  have hB0 : 0 ≤ B := (abs_nonneg _).trans (hB ⟨0, hM⟩ ⟨0, hN⟩).2
  have hlB : |lo.val| ≤ B := by obtain ⟨i, j, h⟩ := l3; rw [h]; exact (hB i j).2
  have hhB : |hi.val| ≤ B := by
    rcases k4 with h | ⟨i, j, h⟩
    · rw [h, abs_zero]; exact hB0
    · rw [h]; exact (hB i j).2
  have hR : (1 : ℝ) ≤ tt.max := by exact_mod_cast hpos
  have hfit : Spec.QuantFits tt.max lo hi := ⟨l1, k1, hlt, hpos, hdig, hbits, le_trans (mul_le_mul_of_nonneg_left (by linarith) (by linarith)) hroom⟩
  have hin : Spec.InBounds m lo hi := fun i j => ⟨(hB i j).1, l2 i j, k3 i j⟩
  obtain ⟨q', d', a1, a2, a3⟩ := C137_round_trip hD h5 hF hs hmin hfit m hin q d
  obtain ⟨q'', b1, b2⟩ := C137_codes hD h5 hF hs hmin hfit m hin q
  obtain rfl : q' = q'' := Except.ok.inj (a1.symm.trans b1)
  refine ⟨q', lo, hi, d', ?_, a2, ⟨l3, ?_⟩, ⟨k4, ?_⟩, fun i j => ⟨(b2 i j).1, (b2 i j).2.1, (a3 i j).1, (a3 i j).2.2.2⟩⟩
  · unfold quantizeFp
    rw [e1, e2, bind_ok, bind_ok, a1]
    rfl
  · rintro _ ⟨i, j, rfl⟩; exact l2 i j
  · rintro _ (rfl | ⟨i, j, rfl⟩)
    · exact k2
    · exact k3 i j

private theorem first_ub {σ : Type} {n : Nat} {body : Nat → σ → Res σ} {s : σ} (hn : 0 < n) (h : body 0 s = .error .ub) : loop n body s = .error .ub := by
  induction n with
  | zero => omega
  | succ n ih =>
    rw [loop_succ]
    cases n with
    | zero => rw [loop_zero]; exact h
    | succ n => rw [ih (by omega)]; rfl

/-- C137, violated: `quantize()` of a matrix all of whose elements are one number `c ≥ 0` divides zero by zero and converts the NaN to `long`, which is undefined behaviour - for every unsigned code type, element type and size. -/
theorem C137_constant_violated (hF : F.p < F.emax) {tt : IntType} (hR : |tt.max - tt.min| ≤ 2 ^ (F.p + 1)) (hs : tt.signed = false)
    {maxT : Fp F} (hT : maxT.Finite ∧ maxT.val = F.maxFinite) (m : Mat M N (Fp F)) (hM : 0 < M) (hN : 0 < N) {c : ℝ} (hc : 0 ≤ c) (hm : ∀ i j, (m.toMat i j).Finite ∧ (m.toMat i j).val = c) (q : Mat M N Int) :
    m.quantizeFp D tt maxT q = .error .ub := by
  obtain ⟨lo, e1, l1, l2, i0, j0, l3⟩ := min_fin m hM hN (fun i j => (hm i j).1) hT.1 (fun i j => by
    rw [hT.2]; exact (le_abs_self _).trans (Fp.abs_val_le (m.toMat i j)))
  obtain ⟨hi, e2, k1, k2, k3, k4⟩ := max_fin m (fun i j => (hm i j).1)
  rw [(hm i0 j0).2] at l3
  have hhi : hi.val = c := by
    have := k3 i0 j0
    rw [(hm i0 j0).2] at this
    rcases k4 with h | ⟨i, j, h⟩
    · linarith
    · rw [h, (hm i j).2]
  have h0 := maxFinite_pos (F := F)
  have hpos : 0 < M * N := Nat.mul_pos hM hN
  unfold quantizeFp
  rw [e1, e2, bind_ok, bind_ok]
  have : m.quantizeToFp D tt q lo hi = .error .ub := by
    unfold quantizeToFp
    simp only [hs, Bool.false_eq_true, if_false]
    refine first_ub hpos ?_
    rw [rawGet_lt m hpos, bind_ok]
    obtain ⟨r, s, hrs⟩ := Mat.array_get m 0 hpos
    obtain ⟨f1, f2⟩ := hm r s
    have f1 : (m.array[0]).Finite := by rw [hrs]; exact f1
    have f2 : (m.array[0]).val = c := by rw [hrs]; exact f2
    obtain ⟨x, hx⟩ : ∃ x, x = m.array[0] := ⟨_, rfl⟩
    rw [← hx] at f1 f2 ⊢
    obtain ⟨d1, d2⟩ := Fp.sub_fin (F := F) (by omega) f1 l1 (by rw [f2, l3, sub_self, abs_zero]; exact h0.le)
    obtain ⟨w1, w2⟩ := Fp.sub_fin (F := F) (by omega) k1 l1 (by rw [hhi, l3, sub_self, abs_zero]; exact h0.le)
    rw [f2, l3, sub_self, rnd_zero] at d2
    rw [hhi, l3, sub_self, rnd_zero] at w2
    obtain ⟨r1, r2⟩ := Quant.ofReal_int (F := F) hF hR
    obtain ⟨p1, p2⟩ := Fp.mul_fin (F := F) (by omega) d1 r1 (by rw [d2, zero_mul, abs_zero]; exact h0.le)
    rw [d2, zero_mul, rnd_zero] at p2
    have key : ∀ a b : Fp F, a.Finite → b.Finite → a.val = 0 → b.val = 0 → a / b = .nan := by
      intro a b ha hb ha0 hb0
      obtain ⟨s, m, hm, rfl⟩ := Fp.finite_cases ha
      obtain ⟨t, n, hn, rfl⟩ := Fp.finite_cases hb
      have hm0 : m = 0 := by cases s <;> simpa [Fp.val] using ha0
      have hn0 : n = 0 := by cases t <;> simpa [Fp.val] using hb0
      show (if n = 0 then (if m = 0 then Fp.nan else _) else _) = _
      rw [if_pos hn0, if_pos hm0]
    rw [key _ _ p1 w1 p2 w2]
    rfl
  rw [this]
  rfl

/-- The hypotheses can be met: bytes, and the `float` matrix with the elements 0 and 1. -/
example : ∃ (q' : Mat 1 2 Int) (lo hi : Fp Format.single), (⟨#v[0, 1]⟩ : Mat 1 2 (Fp Format.single)).quantizeFp Format.double ⟨0, 255, false⟩ (.fin false Format.single.maxFinite ⟨(maxFinite_pos).le, rep_max (by decide), le_rfl⟩) (ofFn fun _ _ => 0) = .ok (q', lo, hi) ∧
    lo.val = 0 ∧ hi.val = 1 := by
  have h1 := Fp.one_fin (F := Format.single) (by decide)
  have e0 : (⟨#v[0, 1]⟩ : Mat 1 2 (Fp Format.single)).toMat 0 0 = 0 := rfl
  have e1 : (⟨#v[0, 1]⟩ : Mat 1 2 (Fp Format.single)).toMat 0 1 = 1 := rfl
  have hmax : (2 : ℝ) ^ ((Format.single.emax : Int)) ≤ Format.single.maxFinite := pow_emax_le
  have hbig : (4 * (255 : Int) * (2 * 1 + 1) : ℝ) ≤ Format.single.maxFinite := by
    refine le_trans ?_ hmax
    show _ ≤ (2 : ℝ) ^ (127 : Int)
    norm_num
  obtain ⟨q', lo, hi, d', a, -, hl, hh, -⟩ := C137_quantize (F := Format.single) (D := Format.double) (tt := ⟨0, 255, false⟩) (B := 1) wider_single (by decide) (by decide) rfl rfl (by decide) (by decide) (by decide)
    (maxT := .fin false Format.single.maxFinite ⟨(maxFinite_pos).le, rep_max (by decide), le_rfl⟩) ⟨trivial, rfl⟩ (⟨#v[0, 1]⟩ : Mat 1 2 (Fp Format.single)) (by decide) (by decide)
    (by
      intro i j
      match i, j with
      | 0, 0 => rw [e0]; exact ⟨Fp.finite_zero, by rw [Fp.val_zero]; norm_num⟩
      | 0, 1 => rw [e1]; exact ⟨h1.1, by rw [h1.2]; norm_num⟩) hbig (Or.inr ⟨0, 0, 0, 1, by rw [e0, e1, Fp.val_zero, h1.2]; norm_num⟩) (ofFn fun _ _ => 0) (ofFn fun _ _ => 0)
  refine ⟨q', lo, hi, a, ?_, ?_⟩
  · obtain ⟨i, j, h⟩ := hl.1
    have := hl.2 ⟨0, 0, rfl⟩
    rw [e0, Fp.val_zero] at this
    match i, j with
    | 0, 0 => rwa [e0, Fp.val_zero] at h
    | 0, 1 => rw [e1, h1.2] at h; linarith
  · have := hh.2 (Or.inr ⟨0, 1, rfl⟩)
    rw [e1, h1.2] at this
    rcases hh.1 with h | ⟨i, j, h⟩
    · linarith
    · match i, j with
      | 0, 0 => rw [e0, Fp.val_zero] at h; linarith
      | 0, 1 => rwa [e1, h1.2] at h

end Vmml
