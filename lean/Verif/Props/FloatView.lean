import Verif.Props.FloatEndToEnd
import Verif.Props.FloatPerspective

/-!
# C155: from the arguments of set_perspective to the culling verdict in IEEE arithmetic

`set_perspective`, `compute_matrix`, `frustum_culler::setup` and the test of a sphere or box, for everyday ranges of the arguments and without any hypothesis about intermediate
results. `set_perspective` ignores the near distance in the extents of the frustum (C63), so the view volume it describes has the slope `tan( fov / 2 ) / ( 2 near )`; it has the requested
angle if the near distance is 1/2.
-/

namespace Vmml
open Format Culler
variable {F D : Format}

/-! ## Specification -/

/-- Formats with the precision and range of `float` at least: `double` and wider ones too. -/
structure Spec.Roomy (F : Format) : Prop where
  digits : 20 ≤ F.p
  order : F.p < F.emax
  range : 100 ≤ F.emax

/-- The arguments of `set_perspective`: angles from 1 to 170 degrees, aspect ratios from 1/16 to 16, near distances from 1/16 to 16, and a far distance of 2 to 16384 times
the near distance. -/
structure Spec.Everyday (fov aspect n fa : Fp F) : Prop where
  finite : fov.Finite ∧ aspect.Finite ∧ n.Finite ∧ fa.Finite
  angle : 1 ≤ fov.val ∧ fov.val ≤ 170
  ratio : 1 / 16 ≤ aspect.val ∧ aspect.val ≤ 16
  near : 1 / 16 ≤ n.val ∧ n.val ≤ 16
  far : 2 * n.val ≤ fa.val ∧ fa.val ≤ 16384 * n.val

/-- The slope of the upper plane of the view volume that `set_perspective` describes. -/
noncomputable def Spec.slope (fov n : ℝ) : ℝ := Real.tan (Spec.halfAngle fov) / (2 * n)

/-- The point `(x, y, z)` is in the pyramid with the slopes `aspect * S` and `S` about the negative z axis, between the distances `n` and `fa`, and farther than `e 0`, ..., `e 3` from
leaving it: horizontally, vertically, to the near side and to the far side. -/
def Spec.DeepInView (S aspect n fa : ℝ) (e : Fin 4 → ℝ) (x y z : ℝ) : Prop :=
  |x| + e 0 < aspect * S * -z ∧ |y| + e 1 < S * -z ∧ n + e 2 < -z ∧ -z + e 3 < fa
/-- The point `(x, y, z)` is outside of the same volume by no more than `e 0`, ..., `e 3`. -/
def Spec.NearlyInView (S aspect n fa : ℝ) (e : Fin 4 → ℝ) (x y z : ℝ) : Prop :=
  |x| ≤ aspect * S * -z + e 0 ∧ |y| ≤ S * -z + e 1 ∧ n ≤ -z + e 2 ∧ -z ≤ fa + e 3

/-- The relative error of the slopes: that of the top of the frustum (C148) and three roundings. -/
noncomputable def Spec.slopeErr (F D : Format) (τ fov : ℝ) : ℝ := Spec.topErr F D τ fov + 3 * F.u

/-- The margins, for points with coordinates of at most `X`, `Y`, `Z` in absolute value and the slope `S`. -/
noncomputable def Spec.viewMargin (F : Format) (κ S aspect n fa X Y Z : ℝ) : Fin 4 → ℝ :=
  ![32 * F.u * (X + aspect * S * Z + 1 / 2 ^ 30) + κ * (aspect * S) * Z, 32 * F.u * (Y + S * Z + 1 / 2 ^ 30) + κ * S * Z,
    32 * F.u * (Z + n), 32 * F.u * fa * (Z / n + 1)]

/-! ## Sizes -/

private theorem big_max (hF : Spec.Roomy F) : (2 : ℝ) ^ (100 : ℕ) ≤ F.maxFinite := by
  refine le_trans ?_ pow_emax_le
  rw [← zpow_natCast]
  exact zpow_le_zpow_right₀ (by norm_num) (by have := hF.range; push_cast; omega)

private theorem small_u (hF : Spec.Roomy F) : F.u ≤ 1 / 2 ^ 21 := by
  unfold u
  calc ((2 : ℝ)⁻¹) ^ (F.p + 1) ≤ ((2 : ℝ)⁻¹) ^ 21 := pow_le_pow_of_le_one (by norm_num) (by norm_num) (by have := hF.digits; omega)
    _ = 1 / 2 ^ 21 := by norm_num

private theorem small_tiny (hF : Spec.Roomy F) : F.tiny ≤ 1 / 2 ^ 99 := by
  unfold Format.tiny emin
  have : (2 : ℝ) ^ (1 - (F.emax : Int)) ≤ (2 : ℝ) ^ (-99 : Int) := zpow_le_zpow_right₀ (by norm_num) (by have := hF.range; omega)
  refine le_trans this (le_of_eq ?_)
  rw [zpow_neg, one_div]
  norm_cast

private theorem small_eta (hF : Spec.Roomy F) : F.eta ≤ F.u / 2 ^ 99 := by
  have h := small_tiny hF
  have hu := F.u_pos
  rw [eta_eq_tiny]
  calc _ ≤ F.u * (1 / 2 ^ 99) := by gcongr
    _ = _ := by ring

/-! ## The tangent of everyday angles -/

private theorem trig_bounds {v : ℝ} (h1 : 1 ≤ v) (h2 : v ≤ 170) :
    1 / 12 ≤ Real.cos (Spec.halfAngle v) ∧ 1 / 128 ≤ Real.tan (Spec.halfAngle v) ∧ Real.tan (Spec.halfAngle v) ≤ 12 := by
  have p3 := Real.pi_gt_d2
  have p4 := Real.pi_lt_d2
  have hθ : 1 / 115 ≤ Spec.halfAngle v ∧ Spec.halfAngle v ≤ 85 * Real.pi / 180 := by
    unfold Spec.halfAngle
    constructor
    · nlinarith
    · nlinarith
  have hc : 1 / 12 ≤ Real.cos (Spec.halfAngle v) := by
    have e : Real.cos (85 * Real.pi / 180) = Real.sin (Real.pi / 36) := by
      rw [← Real.cos_pi_div_two_sub]; congr 1; ring
    have hx : 0.087 < Real.pi / 36 := by linarith
    have hx1 : Real.pi / 36 ≤ 0.0876 := by linarith
    have hs : Real.pi / 36 - (Real.pi / 36) ^ 3 / 6 < Real.sin (Real.pi / 36) := Real.sin_gt_sub_cube (by linarith)
    have hq : (Real.pi / 36) ^ 3 ≤ 0.0876 ^ 3 := pow_le_pow_left₀ (by linarith) hx1 3
    have hm : Real.cos (85 * Real.pi / 180) ≤ Real.cos (Spec.halfAngle v) :=
      Real.cos_le_cos_of_nonneg_of_le_pi (by linarith) (by linarith) hθ.2
    rw [e] at hm
    norm_num at hq hx ⊢
    linarith
  refine ⟨hc, ?_, ?_⟩
  · have := Real.lt_tan (x := Spec.halfAngle v) (by linarith) (by linarith)
    linarith
  · rw [Real.tan_eq_sin_div_cos, div_le_iff₀ (by linarith)]
    have := Real.sin_le_one (Spec.halfAngle v)
    linarith

/-! ## The frustum of `set_perspective` -/

private theorem shape (hF : Spec.Roomy F) (hp : F.p ≤ D.p) (he : F.emax ≤ D.emax) (hD62 : D.p ≤ 62) {tan : Fp D → Fp D} {τ : ℝ} (hτ0 : 0 ≤ τ) (hτ : τ ≤ 1 / 1024)
    (htan : Spec.TanLib tan τ) (f : Frustum (Fp F)) (fov aspect n fa : Fp F) (h : Spec.Everyday fov aspect n fa) :
    let g := f.setPerspectiveMixed D tan fov aspect n fa
    let T := Real.tan (Spec.halfAngle fov.val)
    let κ := Spec.slopeErr F D τ fov.val
    0 ≤ κ ∧ κ ≤ 1 / 100 ∧ 1 / 128 ≤ T ∧ T ≤ 12 ∧ g.top.Finite ∧ g.right.Finite ∧ g.left.val = -g.right.val ∧ g.bottom.val = -g.top.val ∧
      |2 * g.top.val - T| ≤ κ * T ∧ |2 * g.right.val - aspect.val * T| ≤ κ * (aspect.val * T) ∧ g.nearPlane = n ∧ g.farPlane = fa := by
  intro g T κ
  obtain ⟨hc, hT1, hT2⟩ := trig_bounds h.angle.1 h.angle.2
  have hu := F.u_pos
  have hus := small_u hF
  have hDu := D.u_pos
  have hDF : D.u ≤ F.u := u_le hp
  have hη := F.eta_pos
  have hηs := small_eta hF
  have big := big_max hF
  have hFU : Spec.Usual F := ⟨by have := hF.digits; omega, hF.order⟩
  have hDU : Spec.Usual D := ⟨by have := hF.digits; omega, by have := hF.range; omega⟩
  obtain ⟨t1, t2, t3⟩ := C148_top hFU hp he hDU hD62 hτ0 hτ htan f fov aspect n fa h.finite.1
    (le_trans (by
      have : (2 : ℝ) ^ (D.emin + 9) ≤ (2 : ℝ) ^ (0 : ℤ) := zpow_le_zpow_right₀ (by norm_num) (by unfold emin; have := hF.range; omega)
      simpa using this) h.angle.1) (by linarith [h.angle.2]) (by norm_num at hus; linarith) (by norm_num at big; linarith)
  have hδ : Spec.topErr F D τ fov.val ≤ 200 * F.u + 2 * τ := by
    unfold Spec.topErr
    have : 16 * D.u / Real.cos (Spec.halfAngle fov.val) ≤ 192 * D.u := by
      rw [div_le_iff₀ (by linarith)]; nlinarith
    linarith
  have hδ0 : 0 ≤ Spec.topErr F D τ fov.val := by
    unfold Spec.topErr
    have : 0 ≤ 16 * D.u / Real.cos (Spec.halfAngle fov.val) := div_nonneg (by positivity) (by linarith)
    positivity
  have hκ : κ = Spec.topErr F D τ fov.val + 3 * F.u := rfl
  generalize Spec.topErr F D τ fov.val = δ at *
  have a1 := h.ratio.1
  have a2 := h.ratio.2
  have t3' : |2 * g.top.val - T| ≤ δ * T + 2 * F.eta := by
    have : 2 * g.top.val - T = 2 * (g.top.val - T / 2) := by ring
    rw [this, abs_mul, abs_two]
    have t3'' : |g.top.val - T / 2| ≤ δ * (T / 2) + F.eta := t3
    linarith
  have hηs' : 1000000 * F.eta ≤ F.u := by norm_num at hηs; linarith
  have hT1' : 1 / 128 ≤ T := hT1
  have hT2' : T ≤ 12 := hT2
  have hδ1 : δ ≤ 1 / 200 := by norm_num at hus; linarith
  have htop : g.top.val ≤ 7 := by
    have := (abs_le.1 t3').2
    norm_num at hus
    nlinarith
  have t2' : 0 ≤ g.top.val := t2
  have hfit : |g.top.val * aspect.val| ≤ F.maxFinite := by
    rw [abs_of_nonneg (mul_nonneg t2' (by linarith))]
    norm_num at big
    nlinarith
  obtain ⟨r1, -, r3, r4, r5⟩ := C148_sides (by have := hF.range; omega) tan f fov aspect n fa h.finite.2.1 t1 hfit
  have r5' : |g.right.val - g.top.val * aspect.val| ≤ F.u * (g.top.val * aspect.val) + F.eta := by
    rw [abs_of_nonneg (mul_nonneg t2' (by linarith))] at r5; exact r5
  obtain ⟨-, -, -, e4, e5⟩ := C127_perspective tan f fov aspect n fa
  refine ⟨by linarith, by norm_num at hus; linarith, hT1, hT2, t1, r1, r3, r4, ?_, ?_, e4, e5⟩
  · rw [hκ]
    nlinarith
  · have hs : |2 * g.right.val - aspect.val * T| ≤ 2 * (F.u * (g.top.val * aspect.val) + F.eta) + aspect.val * (δ * T + 2 * F.eta) := by
      have e : 2 * g.right.val - aspect.val * T = 2 * (g.right.val - g.top.val * aspect.val) + aspect.val * (2 * g.top.val - T) := by ring
      rw [e]
      refine le_trans (abs_add_le _ _) ?_
      rw [abs_mul, abs_mul, abs_two, abs_of_nonneg (by linarith : (0 : ℝ) ≤ aspect.val)]
      gcongr
    refine le_trans hs ?_
    have hA : 1 / 2048 ≤ aspect.val * T := by nlinarith
    have h2t : 2 * g.top.val ≤ 2 * T := by
      have := (abs_le.1 t3').2
      norm_num at hus
      nlinarith
    have h1 : 2 * (F.u * (g.top.val * aspect.val)) ≤ 2 * F.u * (aspect.val * T) := by
      have := mul_le_mul_of_nonneg_left h2t (by linarith : (0 : ℝ) ≤ aspect.val)
      nlinarith
    have h2 : 2 * F.eta + aspect.val * (2 * F.eta) ≤ F.u * (aspect.val * T) := by
      have q1 : aspect.val * (2 * F.eta) ≤ 16 * (2 * F.eta) := mul_le_mul_of_nonneg_right a2 (by linarith only [hη])
      have q2 : F.u * (1 / 2048) ≤ F.u * (aspect.val * T) := mul_le_mul_of_nonneg_left hA hu.le
      linarith only [q1, q2, hηs', hη]
    have h3 : κ * (aspect.val * T) = aspect.val * (δ * T) + 3 * (F.u * (aspect.val * T)) := by rw [hκ]; ring
    rw [h3, mul_add, mul_add]
    linarith only [h1, h2]

/-- The projection matrix for the slopes `1 / ix` and `1 / iy` and `B = far / (far - n)`. -/
noncomputable def viewMat (ix iy n B : ℝ) : Fin 4 → Fin 4 → ℝ := !![ix, 0, 0, 0; 0, iy, 0, 0; 0, 0, -(2 * B - 1), -(2 * n * B); 0, 0, -1, 0]

private theorem proj_view (g : Frustum (Fp F)) (hl : g.left.val = -g.right.val) (hb : g.bottom.val = -g.top.val) (hn : 0 < g.nearPlane.val) (hf : 2 * g.nearPlane.val ≤ g.farPlane.val)
    (hr : 0 < g.right.val) (ht : 0 < g.top.val) :
    Spec.proj g = viewMat (1 / (g.right.val / g.nearPlane.val)) (1 / (g.top.val / g.nearPlane.val)) g.nearPlane.val (g.farPlane.val / (g.farPlane.val - g.nearPlane.val)) := by
  unfold Spec.proj Spec.perspective viewMat
  rw [hl, hb]
  generalize g.nearPlane.val = n at *
  generalize g.farPlane.val = f at *
  generalize g.right.val = r at *
  generalize g.top.val = t at *
  have h1 : f - n ≠ 0 := by intro h; linarith
  have e1 : 2 * n / (r - -r) = 1 / (r / n) := by rw [show r - -r = 2 * r by ring]; field_simp
  have e2 : 2 * n / (t - -t) = 1 / (t / n) := by rw [show t - -t = 2 * t by ring]; field_simp
  have e3 : (r + -r) / (r - -r) = 0 := by simp
  have e4 : (t + -t) / (t - -t) = 0 := by simp
  have e5 : -(f + n) / (f - n) = -(2 * (f / (f - n)) - 1) := by rw [div_eq_iff h1, neg_mul, sub_mul, mul_assoc, div_mul_cancel₀ _ h1]; ring
  have e6 : -(2 * f * n) / (f - n) = -(2 * n * (f / (f - n))) := by field_simp
  rw [e1, e2, e3, e4, e5, e6]

/-- The length of the normals of the planes. -/
theorem view_normal {ix iy n B : ℝ} (hx0 : 0 ≤ ix) (hx : ix ≤ 131072) (hy0 : 0 ≤ iy) (hy : iy ≤ 131072) (hB1 : 1 + 1 / 16384 ≤ B) (hB2 : B ≤ 2) {σ : ℝ} {i : Fin 4} (hσ : |σ| = 1) (hi : i ≠ 3) :
    1 / 2 ^ 26 ≤ Spec.normalLen (viewMat ix iy n B) σ i ^ 2 ∧ Spec.normalLen (viewMat ix iy n B) σ i ^ 2 ≤ 2 ^ 35 := by
  have hσ2 : σ ^ 2 = 1 := by rw [← sq_abs, hσ, one_pow]
  have hσl : -1 ≤ σ := by have := neg_abs_le σ; linarith
  have hσu : σ ≤ 1 := by have := le_abs_self σ; linarith
  unfold Spec.normalLen
  rw [Real.sq_sqrt (by positivity)]
  match i, hi with
  | 3, h => exact absurd rfl h
  | 0, _ =>
    simp [viewMat, Spec.both, Spec.absEntries]
    constructor
    · rw [mul_pow, hσ2]; nlinarith [sq_nonneg ix]
    · rw [mul_pow, hσ2]; nlinarith
  | 1, _ =>
    simp [viewMat]
    constructor
    · rw [mul_pow, hσ2]; nlinarith [sq_nonneg iy]
    · rw [mul_pow, hσ2]; nlinarith
  | 2, _ =>
    simp [viewMat]
    have e : (-1 + σ * (1 - 2 * B)) ^ 2 = 1 - 2 * σ * (1 - 2 * B) + (1 - 2 * B) ^ 2 := by
      have : (-1 + σ * (1 - 2 * B)) ^ 2 = 1 - 2 * σ * (1 - 2 * B) + σ ^ 2 * (1 - 2 * B) ^ 2 := by ring
      rw [this, hσ2, one_mul]
    rw [e]
    constructor
    · nlinarith [mul_nonneg (by linarith : (0 : ℝ) ≤ 1 + σ) (by linarith : (0 : ℝ) ≤ 2 * B - 1), sq_nonneg (B - 1 - 1 / 16384)]
    · nlinarith [mul_nonneg (by linarith : (0 : ℝ) ≤ 1 - σ) (by linarith : (0 : ℝ) ≤ 2 * B - 1)]

theorem view_both {ix iy n B : ℝ} (hx0 : 0 ≤ ix) (hx : ix ≤ 131072) (hy0 : 0 ≤ iy) (hy : iy ≤ 131072) (hn1 : 0 ≤ n) (hn16 : n ≤ 16) (hB1 : 1 + 1 / 16384 ≤ B) (hB2 : B ≤ 2) (i : Fin 4) :
    ∀ j, 0 ≤ Spec.both (Spec.absEntries (viewMat ix iy n B)) i j ∧ Spec.both (Spec.absEntries (viewMat ix iy n B)) i j ≤ 131073 := by
  intro j
  unfold Spec.both Spec.absEntries
  constructor
  · positivity
  · have h3 : |viewMat ix iy n B 3 j| ≤ 1 := by fin_cases j <;> simp [viewMat]
    have h1 : |viewMat ix iy n B i j| ≤ 131072 := by
      have q1 : |ix| ≤ 131072 := by rw [abs_of_nonneg hx0]; exact hx
      have q2 : |iy| ≤ 131072 := by rw [abs_of_nonneg hy0]; exact hy
      have q3 : |1 - 2 * B| ≤ 131072 := by rw [abs_le]; constructor <;> linarith
      have q4 : |2 * n * B| ≤ 131072 := by rw [abs_le]; constructor <;> nlinarith
      have q5 : |2| * |n| * |B| ≤ 131072 := by rw [← abs_mul, ← abs_mul]; exact q4
      have q6 : 2 * |n| * |B| ≤ 131072 := by rw [abs_two] at q5; exact q5
      fin_cases i <;> fin_cases j <;> simp [viewMat] <;> assumption
    linarith

private theorem view_fits (hF : Spec.Roomy F) {ix iy n B X Y Z : ℝ} (hx0 : 0 ≤ ix) (hx : ix ≤ 131072) (hy0 : 0 ≤ iy) (hy : iy ≤ 131072) (hn1' : 0 ≤ n) (hn16 : n ≤ 16) (hB1 : 1 + 1 / 16384 ≤ B) (hB2 : B ≤ 2)
    (hX0 : 0 ≤ X) (hY0 : 0 ≤ Y) (hZ0 : 0 ≤ Z) (hX : X ≤ 2 ^ 40) (hY : Y ≤ 2 ^ 40) (hZ : Z ≤ 2 ^ 40) (σ : ℝ) (i : Fin 4) (hσ : |σ| = 1) (hi : i ≠ 3) :
    Spec.Normalizable F (3 * F.eta) (viewMat ix iy n B) (Spec.absEntries (viewMat ix iy n B)) σ i ∧
      Spec.ValuesFit F (3 * F.eta) (viewMat ix iy n B) (Spec.absEntries (viewMat ix iy n B)) σ i X Y Z := by
  have big := big_max hF
  have hu := F.u_pos
  have hus := small_u hF
  have hη := F.eta_pos
  have hηs := small_eta hF
  have ht := F.tiny_pos
  have hts := small_tiny hF
  have hσ2 : σ ^ 2 = 1 := by rw [← sq_abs, hσ, one_pow]
  have hσl : -1 ≤ σ := by have := neg_abs_le σ; linarith
  have hσu : σ ≤ 1 := by have := le_abs_self σ; linarith
  have hn2 := view_normal (n := n) hx0 hx hy0 hy hB1 hB2 hσ hi
  have hn0 : 0 ≤ Spec.normalLen (viewMat ix iy n B) σ i := Real.sqrt_nonneg _
  have hn1 : 1 / 2 ^ 13 ≤ Spec.normalLen (viewMat ix iy n B) σ i := by
    by_contra hc
    push Not at hc
    have : Spec.normalLen (viewMat ix iy n B) σ i ^ 2 < (1 / 2 ^ 13) ^ 2 := pow_lt_pow_left₀ hc hn0 (by norm_num)
    norm_num at this hn2
    linarith [hn2.1]
  have hb := view_both hx0 hx hy0 hy hn1' hn16 hB1 hB2 i
  obtain ⟨b0, c0⟩ := hb 0
  obtain ⟨b1, c1⟩ := hb 1
  obtain ⟨b2, c2⟩ := hb 2
  obtain ⟨b3, c3⟩ := hb 3
  have hη1 : F.eta ≤ 1 / 1000000 := by norm_num at hηs hus; linarith
  have hbig : (2 : ℝ) ^ 100 = 1267650600228229401496703205376 := by norm_num
  rw [hbig] at big
  unfold Spec.Normalizable Spec.ValuesFit
  generalize Spec.normalLen (viewMat ix iy n B) σ i = N at *
  generalize Spec.both (Spec.absEntries (viewMat ix iy n B)) i 0 = d0 at *
  generalize Spec.both (Spec.absEntries (viewMat ix iy n B)) i 1 = d1 at *
  generalize Spec.both (Spec.absEntries (viewMat ix iy n B)) i 2 = d2 at *
  generalize Spec.both (Spec.absEntries (viewMat ix iy n B)) i 3 = d3 at *
  have hM : F.maxFinite * (1 / 2 ^ 13) ≤ F.maxFinite * N := mul_le_mul_of_nonneg_left hn1 (by linarith)
  refine ⟨⟨?_, ?_, ?_, ?_⟩, ?_⟩
  · have : (2 : ℝ) ^ F.emin = F.tiny := rfl
    rw [this]
    norm_num at hts hn2
    linarith [hn2.1]
  · norm_num at hn2; linarith [hn2.2]
  · linarith
  · norm_num at hM; linarith
  · unfold Spec.grow
    have hX' : X ≤ 1099511627776 := by norm_num at hX; exact hX
    have hY' : Y ≤ 1099511627776 := by norm_num at hY; exact hY
    have hZ' : Z ≤ 1099511627776 := by norm_num at hZ; exact hZ
    have g1 : (d0 + 3 * F.eta) * X ≤ 131074 * 1099511627776 := mul_le_mul (by linarith) hX' hX0 (by norm_num)
    have g2 : (d1 + 3 * F.eta) * Y ≤ 131074 * 1099511627776 := mul_le_mul (by linarith) hY' hY0 (by norm_num)
    have g3 : (d2 + 3 * F.eta) * Z ≤ 131074 * 1099511627776 := mul_le_mul (by linarith) hZ' hZ0 (by norm_num)
    have g4 : F.eta * (X + Y + Z + 1) ≤ 1 * 3298534883329 := mul_le_mul (by linarith) (by linarith) (by linarith) (by norm_num)
    have g5 : 8 * ((d0 + 3 * F.eta) * X + (d1 + 3 * F.eta) * Y + (d2 + 3 * F.eta) * Z + (d3 + 3 * F.eta)) / N ≤ 8 * (131074 * 3298534883329) * 8192 := by
      rw [div_le_iff₀ (lt_of_lt_of_le (by norm_num) hn1)]
      norm_num at hn1
      nlinarith
    have g6 : (1 + F.u) ^ 8 ≤ 2 := by
      calc (1 + F.u) ^ 8 ≤ (1 + 1 / 2 ^ 21) ^ 8 := by gcongr
        _ ≤ 2 := by norm_num
    have hts' : F.tiny ≤ 1 := by norm_num at hts; linarith
    refine le_trans (mul_le_mul g6 (add_le_add (add_le_add g5 g4) (mul_le_mul_of_nonneg_left hts' (by norm_num : (0 : ℝ) ≤ 25))) (by positivity) (by norm_num)) ?_
    norm_num
    linarith

private theorem ready (hF : Spec.Roomy F) (hp : F.p ≤ D.p) (he : F.emax ≤ D.emax) (g : Frustum (Fp F)) (hl : g.left = -g.right) (hb : g.bottom = -g.top)
    (h1 : g.top.Finite) (h2 : g.right.Finite) (h3 : g.nearPlane.Finite) (h4 : g.farPlane.Finite) (hn1 : 1 / 16 ≤ g.nearPlane.val) (hn2 : g.nearPlane.val ≤ 16) (hf1 : 2 * g.nearPlane.val ≤ g.farPlane.val)
    (hf2 : g.farPlane.val ≤ 16384 * g.nearPlane.val)
    (hr1 : 1 / 4096 ≤ 2 * g.right.val) (hr2 : 2 * g.right.val ≤ 256) (ht1 : 1 / 4096 ≤ 2 * g.top.val) (ht2 : 2 * g.top.val ≤ 16) :
    Spec.Projects F D g ∧ Spec.NotTooWide g ∧ Spec.proj g = viewMat (1 / (g.right.val / g.nearPlane.val)) (1 / (g.top.val / g.nearPlane.val)) g.nearPlane.val (g.farPlane.val / (g.farPlane.val - g.nearPlane.val)) ∧
      1 + 1 / 16384 ≤ g.farPlane.val / (g.farPlane.val - g.nearPlane.val) ∧ g.farPlane.val / (g.farPlane.val - g.nearPlane.val) ≤ 2 ∧ 1 / (g.right.val / g.nearPlane.val) ≤ 131072 ∧ 1 / (g.top.val / g.nearPlane.val) ≤ 131072 := by
  have big := big_max hF
  have hbig : (2 : ℝ) ^ 100 = 1267650600228229401496703205376 := by norm_num
  rw [hbig] at big
  have hus := small_u hF
  have hu := F.u_pos
  have vl : g.left.val = -g.right.val := by rw [hl, Fp.val_neg]
  have vb : g.bottom.val = -g.top.val := by rw [hb, Fp.val_neg]
  have hP := proj_view g vl vb (by linarith) hf1 (by linarith) (by linarith)
  have hd : 0 < g.farPlane.val - g.nearPlane.val := by linarith
  have hB1 : 1 + 1 / 16384 ≤ g.farPlane.val / (g.farPlane.val - g.nearPlane.val) := by rw [le_div_iff₀ hd]; linarith
  have hB2 : g.farPlane.val / (g.farPlane.val - g.nearPlane.val) ≤ 2 := by rw [div_le_iff₀ hd]; linarith
  have hx : 1 / (g.right.val / g.nearPlane.val) ≤ 131072 := by rw [one_div_div, div_le_iff₀ (by linarith)]; linarith
  have hy : 1 / (g.top.val / g.nearPlane.val) ≤ 131072 := by rw [one_div_div, div_le_iff₀ (by linarith)]; linarith
  have hx0 : 0 < 1 / (g.right.val / g.nearPlane.val) := one_div_pos.2 (div_pos (by linarith) (by linarith))
  have hy0 : 0 < 1 / (g.top.val / g.nearPlane.val) := one_div_pos.2 (div_pos (by linarith) (by linarith))
  have hDm : F.maxFinite ≤ D.maxFinite := max_widen hp he
  refine ⟨⟨⟨?_, ?_, ?_, ?_, ?_⟩, ?_, ?_, ?_, ?_, ?_⟩, ?_, hP, hB1, hB2, hx, hy⟩
  · intro i
    match i with
    | 0 => show g.left.Finite; rw [hl]; exact Fp.finite_neg h2
    | 1 => exact h2
    | 2 => show g.bottom.Finite; rw [hb]; exact Fp.finite_neg h1
    | 3 => exact h1
    | 4 => exact h3
    | 5 => exact h4
  · rw [vl]; linarith
  · rw [vb]; linarith
  · linarith
  · linarith
  · unfold Spec.SumsFit
    rw [vl, vb, add_neg_cancel, add_neg_cancel, abs_zero, abs_of_nonneg (by linarith : (0 : ℝ) ≤ g.farPlane.val + g.nearPlane.val)]
    refine ⟨?_, ?_, ?_, ?_, ?_, ?_⟩ <;> linarith
  · intro i j
    rw [hP]
    have : |viewMat (1 / (g.right.val / g.nearPlane.val)) (1 / (g.top.val / g.nearPlane.val)) g.nearPlane.val (g.farPlane.val / (g.farPlane.val - g.nearPlane.val)) i j| ≤ 131072 := by
      generalize 1 / (g.right.val / g.nearPlane.val) = ix at *
      generalize 1 / (g.top.val / g.nearPlane.val) = iy at *
      generalize g.farPlane.val / (g.farPlane.val - g.nearPlane.val) = B at *
      generalize g.nearPlane.val = n at *
      have q1 : |ix| ≤ 131072 := by rw [abs_of_pos hx0]; exact hx
      have q2 : |iy| ≤ 131072 := by rw [abs_of_pos hy0]; exact hy
      have q3 : |1 - 2 * B| ≤ 131072 := by rw [abs_le]; constructor <;> linarith
      have q4 : |2 * n * B| ≤ 131072 := by rw [abs_le]; constructor <;> nlinarith
      have q6 : 2 * |n| * |B| ≤ 131072 := by rw [abs_mul, abs_mul, abs_two] at q4; exact q4
      fin_cases i <;> fin_cases j <;> simp [viewMat] <;> assumption
    linarith
  · have : (2 : ℝ) ^ D.emin ≤ (2 : ℝ) ^ (-10 : ℤ) := zpow_le_zpow_right₀ (by norm_num) (by unfold emin; have := hF.range; omega)
    norm_num at this
    nlinarith
  · nlinarith
  · linarith
  · unfold Spec.NotTooWide
    rw [vl, vb, abs_neg, abs_neg, abs_of_nonneg (by linarith : (0 : ℝ) ≤ g.right.val), abs_of_nonneg (by linarith : (0 : ℝ) ≤ g.top.val)]
    norm_num at hus
    refine ⟨?_, ?_, ?_⟩ <;> nlinarith

/-! ## Margins -/

theorem side_core {c C s T κ u q y z Y Z : ℝ} (hc0 : 0 ≤ c) (hc : 101 / 100 * c ≤ C) (hs : |s - T| ≤ κ * T) (hκ0 : 0 ≤ κ) (hκ : κ ≤ 1 / 100) (hT : 0 < T) (hu : 0 < u) (hq : s * q ≤ C * u * (1 / 2 ^ 30))
    (hY : 0 ≤ Y) (hZ : |z| ≤ Z) :
    (|y| + (C * u * (Y + T * Z + 1 / 2 ^ 30) + κ * T * Z) < T * -z → |1 / s * y| + (c * u * (1 / s * Y + Z) + q) < -z) ∧
    (|1 / s * y| ≤ -z + (c * u * (1 / s * Y + Z) + q) → |y| ≤ T * -z + (C * u * (Y + T * Z + 1 / 2 ^ 30) + κ * T * Z)) := by
  obtain ⟨a, b⟩ := abs_le.1 hs
  have hκT : κ * T ≤ 1 / 100 * T := mul_le_mul_of_nonneg_right hκ hT.le
  have hs0 : 0 < s := by linarith
  have hZ0 : 0 ≤ Z := le_trans (abs_nonneg _) hZ
  have e1 : |1 / s * y| = |y| / s := by rw [abs_mul, abs_of_pos (one_div_pos.2 hs0)]; ring
  have e2 : s * (c * u * (1 / s * Y + Z) + q) = c * u * (Y + s * Z) + s * q := by field_simp
  have hsz : |(s - T) * z| ≤ κ * T * Z := by
    rw [abs_mul]; exact mul_le_mul hs hZ (abs_nonneg _) (by positivity)
  obtain ⟨c', d⟩ := abs_le.1 hsz
  have hsZ : c * u * (Y + s * Z) ≤ C * u * (Y + T * Z) := by
    have : s * Z ≤ 101 / 100 * T * Z := mul_le_mul_of_nonneg_right (by linarith) hZ0
    have hTZ : 0 ≤ T * Z := by positivity
    have h' : c * (Y + s * Z) ≤ C * (Y + T * Z) := by
      have h1 := mul_le_mul_of_nonneg_left this hc0
      have h2 := mul_le_mul_of_nonneg_right hc (add_nonneg hY hTZ)
      have h3 : 0 ≤ c * Y := mul_nonneg hc0 hY
      linarith only [h1, h2, h3]
    have := mul_le_mul_of_nonneg_left h' hu.le
    linarith
  constructor
  · intro h
    rw [e1, ← sub_pos]
    have : 0 < s * (-z - (|y| / s + (c * u * (1 / s * Y + Z) + q))) := by
      have e3 : s * (-z - (|y| / s + (c * u * (1 / s * Y + Z) + q))) = s * -z - |y| - s * (c * u * (1 / s * Y + Z) + q) := by field_simp; ring
      rw [e3, e2]
      nlinarith
    exact pos_of_mul_pos_right this hs0.le
  · intro h
    rw [e1, div_le_iff₀ hs0] at h
    have e4 : (-z + (c * u * (1 / s * Y + Z) + q)) * s = s * -z + s * (c * u * (1 / s * Y + Z) + q) := by ring
    rw [e4, e2] at h
    nlinarith

theorem depth_core {c C B n f u q z Z : ℝ} (hc0 : 0 ≤ c) (hc : c + 1 ≤ C) (hn : 1 / 16 ≤ n) (hf : 2 * n ≤ f) (hB : B = f / (f - n)) (hu : 0 < u) (hq0 : 0 ≤ q) (hq : q ≤ u / 8) (hZ : 0 ≤ Z) :
    (n + C * u * (Z + n) < -z → -z + C * u * f * (Z / n + 1) < f → |-(2 * B - 1) * z + -(2 * n * B)| + (c * u * (2 * B * Z + 2 * n * B) + q) < -z) ∧
    (|-(2 * B - 1) * z + -(2 * n * B)| ≤ -z + (c * u * (2 * B * Z + 2 * n * B) + q) → n ≤ -z + C * u * (Z + n) ∧ -z ≤ f + C * u * f * (Z / n + 1)) := by
  have hn0 : 0 < n := by linarith
  have hd : 0 < f - n := by linarith
  have hBf : B * (f - n) = f := by rw [hB]; exact div_mul_cancel₀ _ hd.ne'
  have hB1 : 1 ≤ B := by nlinarith
  have hW : c * u * (2 * B * Z + 2 * n * B) = B * (2 * c * u * (Z + n)) := by ring
  have hp : u / 16 ≤ u * (Z + n) := by nlinarith
  have hE : n * (C * u * f * (Z / n + 1)) = C * u * f * (Z + n) := by field_simp
  have hEf : f * q ≤ f * (2 * (u * (Z + n))) := mul_le_mul_of_nonneg_left (by linarith) (by linarith)
  have hcB : (c + 1) * (B * (u * (Z + n))) ≤ C * (B * (u * (Z + n))) := mul_le_mul_of_nonneg_right hc (by positivity)
  have hcf : (c + 1) * (f * (u * (Z + n))) ≤ C * (f * (u * (Z + n))) := mul_le_mul_of_nonneg_right hc (mul_nonneg (by linarith) (by positivity))
  rw [hW]
  generalize C * u * f * (Z / n + 1) = E at *
  constructor
  · intro h1 h2
    rw [← lt_sub_iff_add_lt, abs_lt]
    constructor
    · have h3 : 0 < 2 * B * (-z - n - C * u * (Z + n)) := by
        apply mul_pos <;> linarith
      have h4 : u * (Z + n) ≤ B * (u * (Z + n)) := le_mul_of_one_le_left (by positivity) hB1
      linarith
    · have k : 0 < (f - n) * (-z - (B * (2 * c * u * (Z + n)) + q) - (-(2 * B - 1) * z + -(2 * n * B))) := by
        have e : (f - n) * (-z - (B * (2 * c * u * (Z + n)) + q) - (-(2 * B - 1) * z + -(2 * n * B))) =
            2 * z * (B * (f - n)) - 2 * z * (f - n) + 2 * n * (B * (f - n)) - B * (f - n) * (2 * c * u * (Z + n)) - (f - n) * q := by ring
        rw [e, hBf]
        have h3 : 0 < 2 * n * (f - -z - E) := by
          apply mul_pos <;> linarith
        have h5 : n * q ≥ 0 := by positivity
        have h6 : 0 ≤ f * (u * (Z + n)) := mul_nonneg (by linarith) (by positivity)
        linarith
      have := pos_of_mul_pos_right k hd.le
      linarith
  · intro h
    obtain ⟨h1, h2⟩ := abs_le.1 h
    constructor
    · by_contra hc
      push Not at hc
      have h3 : 0 < 2 * B * (n - (-z + C * u * (Z + n))) := by
        apply mul_pos <;> linarith
      have h4 : u * (Z + n) ≤ B * (u * (Z + n)) := le_mul_of_one_le_left (by positivity) hB1
      linarith
    · have k : 0 ≤ (f - n) * (-z + (B * (2 * c * u * (Z + n)) + q) - (-(2 * B - 1) * z + -(2 * n * B))) := mul_nonneg hd.le (by linarith)
      have e : (f - n) * (-z + (B * (2 * c * u * (Z + n)) + q) - (-(2 * B - 1) * z + -(2 * n * B))) =
          2 * z * (B * (f - n)) - 2 * z * (f - n) + 2 * n * (B * (f - n)) + B * (f - n) * (2 * c * u * (Z + n)) + (f - n) * q := by ring
      rw [e, hBf] at k
      by_contra hc
      push Not at hc
      have h3 : 0 < 2 * n * (-z - f - E) := by
        apply mul_pos <;> linarith
      have h5 : n * q ≥ 0 := by positivity
      have h6 : 0 ≤ f * (u * (Z + n)) := mul_nonneg (by linarith) (by positivity)
      linarith

theorem view_coords (ix iy n B x y z : ℝ) :
    Spec.coord (viewMat ix iy n B) 0 x y z = ix * x ∧ Spec.coord (viewMat ix iy n B) 1 x y z = iy * y ∧ Spec.coord (viewMat ix iy n B) 2 x y z = -(2 * B - 1) * z + -(2 * n * B) ∧
      Spec.coord (viewMat ix iy n B) 3 x y z = -z := by
  refine ⟨?_, ?_, ?_, ?_⟩ <;> simp [Spec.coord, viewMat]

private theorem view_margins {ix iy n B : ℝ} (hx : 0 ≤ ix) (hy : 0 ≤ iy) (hn : 0 ≤ n) (hB : 1 ≤ B) (X Y Z : ℝ) :
    let m := fun i => Spec.clipMargin F (5 * F.u) (3 * F.eta) (Spec.absEntries (viewMat ix iy n B)) i X Y Z
    m 0 = 28 * F.u * (ix * X + Z) + (9 * F.eta + 300 * F.eta * (ix + 1)) * (X + Y + Z + 1) ∧
    m 1 = 28 * F.u * (iy * Y + Z) + (9 * F.eta + 300 * F.eta * (iy + 1)) * (X + Y + Z + 1) ∧
    m 2 = 28 * F.u * (2 * B * Z + 2 * n * B) + (9 * F.eta + 300 * F.eta * (2 * B)) * (X + Y + Z + 1) := by
  have e1 : |ix| = ix := abs_of_nonneg hx
  have e2 : |iy| = iy := abs_of_nonneg hy
  have e3 : |1 - 2 * B| = 2 * B - 1 := by rw [abs_sub_comm]; exact abs_of_nonneg (by linarith)
  have e4 : |B| = B := abs_of_nonneg (by linarith)
  have e5 : |n| = n := abs_of_nonneg hn
  refine ⟨?_, ?_, ?_⟩ <;> simp [Spec.clipMargin, Spec.both, Spec.absEntries, viewMat, e1, e2, e3, e4, e5] <;> ring

private theorem translate (hF : Spec.Roomy F) {sx sy A T κ n f X Y Z x y z : ℝ} (hκ0 : 0 ≤ κ) (hκ : κ ≤ 1 / 100) (hA : 0 < A) (hT : 0 < T)
    (h1 : |sx - A| ≤ κ * A) (h2 : |sy - T| ≤ κ * T) (hx : sx ≤ 4096) (hy : sy ≤ 4096) (hx0 : 0 < sx) (hy0 : 0 < sy) (hn : 1 / 16 ≤ n) (hf : 2 * n ≤ f)
    (hX0 : 0 ≤ X) (hY0 : 0 ≤ Y) (hzZ : |z| ≤ Z) (hX : X ≤ 2 ^ 40) (hY : Y ≤ 2 ^ 40) (hZ : Z ≤ 2 ^ 40) :
    let P := viewMat (1 / sx) (1 / sy) n (f / (f - n))
    let m := fun i => Spec.clipMargin F (5 * F.u) (3 * F.eta) (Spec.absEntries P) i X Y Z
    (|x| + (32 * F.u * (X + A * Z + 1 / 2 ^ 30) + κ * A * Z) < A * -z ∧ |y| + (32 * F.u * (Y + T * Z + 1 / 2 ^ 30) + κ * T * Z) < T * -z ∧
        n + 32 * F.u * (Z + n) < -z ∧ -z + 32 * F.u * f * (Z / n + 1) < f →
      ∀ i : Fin 4, i ≠ 3 → |Spec.coord P i x y z| + m i < Spec.coord P 3 x y z) ∧
    ((∀ i : Fin 4, i ≠ 3 → |Spec.coord P i x y z| ≤ Spec.coord P 3 x y z + m i) →
      |x| ≤ A * -z + (32 * F.u * (X + A * Z + 1 / 2 ^ 30) + κ * A * Z) ∧ |y| ≤ T * -z + (32 * F.u * (Y + T * Z + 1 / 2 ^ 30) + κ * T * Z) ∧
        n ≤ -z + 32 * F.u * (Z + n) ∧ -z ≤ f + 32 * F.u * f * (Z / n + 1)) := by
  intro P m
  have hu := F.u_pos
  have hη := F.eta_pos
  have hηs := small_eta hF
  have hZ0 : 0 ≤ Z := le_trans (abs_nonneg _) hzZ
  have hd : 0 < f - n := by linarith
  have hB1 : 1 ≤ f / (f - n) := by rw [le_div_iff₀ hd]; linarith
  have hB2 : f / (f - n) ≤ 2 := by rw [div_le_iff₀ hd]; linarith
  obtain ⟨c0, c1, c2, c3⟩ := view_coords (1 / sx) (1 / sy) n (f / (f - n)) x y z
  obtain ⟨m0, m1, m2⟩ := view_margins (F := F) (one_div_nonneg.2 hx0.le) (one_div_nonneg.2 hy0.le) (by linarith : 0 ≤ n) hB1 X Y Z
  have hS : X + Y + Z + 1 ≤ 2 ^ 42 := by norm_num at *; linarith
  have hS0 : 0 ≤ X + Y + Z + 1 := by linarith
  have tinyS : ∀ s : ℝ, 0 < s → s ≤ 4096 → s * ((9 * F.eta + 300 * F.eta * (1 / s + 1)) * (X + Y + Z + 1)) ≤ 32 * F.u * (1 / 2 ^ 30) := by
    intro s hs0 hs
    have e : s * ((9 * F.eta + 300 * F.eta * (1 / s + 1)) * (X + Y + Z + 1)) = F.eta * ((309 * s + 300) * (X + Y + Z + 1)) := by field_simp; ring
    rw [e]
    have b1 : (309 * s + 300) * (X + Y + Z + 1) ≤ 2 ^ 21 * 2 ^ 42 := mul_le_mul (by norm_num; linarith) hS hS0 (by norm_num)
    calc _ ≤ F.u / 2 ^ 99 * (2 ^ 21 * 2 ^ 42) := mul_le_mul hηs b1 (by positivity) (by positivity)
      _ ≤ _ := by norm_num; linarith
  obtain ⟨sx1, sx2⟩ := side_core (c := 28) (C := 32) (y := x) (z := z) (by norm_num) (by norm_num) h1 hκ0 hκ hA hu (tinyS sx hx0 hx) hX0 hzZ
  obtain ⟨sy1, sy2⟩ := side_core (c := 28) (C := 32) (y := y) (z := z) (by norm_num) (by norm_num) h2 hκ0 hκ hT hu (tinyS sy hy0 hy) hY0 hzZ
  have tinyD : (9 * F.eta + 300 * F.eta * (2 * (f / (f - n)))) * (X + Y + Z + 1) ≤ F.u / 8 := by
    have e : (9 * F.eta + 300 * F.eta * (2 * (f / (f - n)))) * (X + Y + Z + 1) = F.eta * ((9 + 600 * (f / (f - n))) * (X + Y + Z + 1)) := by ring
    rw [e]
    have b1 : (9 + 600 * (f / (f - n))) * (X + Y + Z + 1) ≤ 2 ^ 11 * 2 ^ 42 := mul_le_mul (by norm_num; linarith) hS hS0 (by norm_num)
    calc _ ≤ F.u / 2 ^ 99 * (2 ^ 11 * 2 ^ 42) := mul_le_mul hηs b1 (mul_nonneg (by linarith) hS0) (by positivity)
      _ ≤ _ := by norm_num; linarith
  have hq0 : 0 ≤ (9 * F.eta + 300 * F.eta * (2 * (f / (f - n)))) * (X + Y + Z + 1) := by
    have : 0 ≤ f / (f - n) := by linarith
    positivity
  obtain ⟨d1, d2⟩ := depth_core (c := 28) (C := 32) (z := z) (by norm_num) (by norm_num) hn hf rfl hu hq0 tinyD hZ0
  have m0' : m 0 = _ := m0
  have m1' : m 1 = _ := m1
  have m2' : m 2 = _ := m2
  constructor
  · rintro ⟨i1, i2, i3, i4⟩ i hi
    match i, hi with
    | 3, h => exact absurd rfl h
    | 0, _ => rw [m0', c0, c3]; exact sx1 i1
    | 1, _ => rw [m1', c1, c3]; exact sy1 i2
    | 2, _ => rw [m2', c2, c3]; exact d1 i3 i4
  · intro h
    have g0 := h 0 (by decide)
    have g1 := h 1 (by decide)
    have g2 := h 2 (by decide)
    rw [m0', c0, c3] at g0
    rw [m1', c1, c3] at g1
    rw [m2', c2, c3] at g2
    exact ⟨sx2 g0, sy2 g1, d2 g2⟩

/-! ## The chain -/

/-- What the arguments of `set_perspective` make of the frustum: its projection matrix can be computed, and its slopes are those described up to the relative error `κ`. -/
theorem view_setup (hF : Spec.Roomy F) (hp : F.p ≤ D.p) (he : F.emax ≤ D.emax) (h62 : D.p ≤ 62) {tan : Fp D → Fp D} {τ : ℝ} (hτ0 : 0 ≤ τ) (hτ : τ ≤ 1 / 1024)
    (htan : Spec.TanLib tan τ) (f : Frustum (Fp F)) (fov aspect n fa : Fp F) (h : Spec.Everyday fov aspect n fa) :
    let g := f.setPerspectiveMixed D tan fov aspect n fa
    let S := Spec.slope fov.val n.val
    let κ := Spec.slopeErr F D τ fov.val
    Spec.Projects F D g ∧ Spec.NotTooWide g ∧ 0 ≤ κ ∧ κ ≤ 1 / 100 ∧ 0 < S ∧ 0 < aspect.val * S ∧
    ∃ sx sy : ℝ, Spec.proj g = viewMat (1 / sx) (1 / sy) n.val (fa.val / (fa.val - n.val)) ∧ 1 + 1 / 16384 ≤ fa.val / (fa.val - n.val) ∧ fa.val / (fa.val - n.val) ≤ 2 ∧
      1 / sx ≤ 131072 ∧ 1 / sy ≤ 131072 ∧ 0 < sx ∧ 0 < sy ∧ sx ≤ 4096 ∧ sy ≤ 4096 ∧ |sx - aspect.val * S| ≤ κ * (aspect.val * S) ∧ |sy - S| ≤ κ * S := by
  intro g S κ'
  obtain ⟨k0, k1, t1, t2, q1, q2, -, -, q5, q6, q7, q8⟩ := shape hF hp he h62 hτ0 hτ htan f fov aspect n fa h
  obtain ⟨l1, l2, -, -, -⟩ := C127_perspective tan f fov aspect n fa
  have hgn : g.nearPlane = n := q7
  have hgf : g.farPlane = fa := q8
  have a1 := h.ratio.1
  have a2 := h.ratio.2
  obtain ⟨T', eT⟩ : ∃ T', T' = Real.tan (Spec.halfAngle fov.val) := ⟨_, rfl⟩
  obtain ⟨κ, eκ⟩ : ∃ κ, κ = Spec.slopeErr F D τ fov.val := ⟨_, rfl⟩
  have k0' : 0 ≤ κ := eκ ▸ k0
  have k1' : κ ≤ 1 / 100 := eκ ▸ k1
  have t1' : 1 / 128 ≤ T' := eT ▸ t1
  have t2' : T' ≤ 12 := eT ▸ t2
  have q5' : |2 * g.top.val - T'| ≤ κ * T' := by rw [eT, eκ]; exact q5
  have q6' : |2 * g.right.val - aspect.val * T'| ≤ κ * (aspect.val * T') := by rw [eT, eκ]; exact q6
  have hA1 : 1 / 2048 ≤ aspect.val * T' := by nlinarith
  have hA2 : aspect.val * T' ≤ 192 := by nlinarith
  obtain ⟨u1, u2⟩ := abs_le.1 q5'
  obtain ⟨v1, v2⟩ := abs_le.1 q6'
  have w1 : κ * T' ≤ 1 / 100 * T' := mul_le_mul_of_nonneg_right k1' (by linarith)
  have w2 : κ * (aspect.val * T') ≤ 1 / 100 * (aspect.val * T') := mul_le_mul_of_nonneg_right k1' (by linarith)
  have n1 := h.near.1
  have n2 := h.near.2
  have f1 := h.far.1
  have f2 := h.far.2
  obtain ⟨r1, r2, r3, r4, r5, r6, r7⟩ := ready (D := D) hF hp he g l1 l2 q1 q2 (by rw [hgn]; exact h.finite.2.2.1) (by rw [hgf]; exact h.finite.2.2.2) (by rw [hgn]; exact n1) (by rw [hgn]; exact n2)
    (by rw [hgn, hgf]; exact f1) (by rw [hgn, hgf]; exact f2) (by linarith) (by linarith) (by linarith) (by linarith)
  have hn0 : 0 < n.val := by linarith
  have hS : S = T' / (2 * n.val) := by rw [eT]; rfl
  have hS0 : 0 < S := by rw [hS]; exact div_pos (by linarith) (by linarith)
  have hSa : 0 < aspect.val * S := mul_pos (by linarith) hS0
  rw [hgn, hgf] at r3 r4 r5
  rw [hgn] at r6 r7
  have sy : |g.top.val / n.val - S| ≤ κ * S := by
    have e : g.top.val / n.val - S = (2 * g.top.val - T') / (2 * n.val) := by rw [hS]; field_simp
    rw [e, abs_div, abs_of_pos (by linarith : 0 < 2 * n.val), hS, ← mul_div_assoc]
    exact div_le_div_of_nonneg_right q5' (by linarith)
  have sx : |g.right.val / n.val - aspect.val * S| ≤ κ * (aspect.val * S) := by
    have e : g.right.val / n.val - aspect.val * S = (2 * g.right.val - aspect.val * T') / (2 * n.val) := by rw [hS]; field_simp
    have e2 : κ * (aspect.val * S) = κ * (aspect.val * T') / (2 * n.val) := by rw [hS]; ring
    rw [e, abs_div, abs_of_pos (by linarith : 0 < 2 * n.val), e2]
    exact div_le_div_of_nonneg_right q6' (by linarith)
  have bx : g.right.val / n.val ≤ 4096 := by rw [div_le_iff₀ hn0]; linarith
  have bt : g.top.val / n.val ≤ 4096 := by rw [div_le_iff₀ hn0]; linarith
  have px : 0 < g.right.val / n.val := div_pos (by linarith) hn0
  have pt : 0 < g.top.val / n.val := div_pos (by linarith) hn0
  exact ⟨r1, r2, k0, k1, hS0, hSa, _, _, r3, r4, r5, r6, r7, px, pt, bx, bt, by rw [show κ' = κ from eκ.symm]; exact sx, by rw [show κ' = κ from eκ.symm]; exact sy⟩

private theorem chain (hF : Spec.Roomy F) (hp : F.p ≤ D.p) (he : F.emax ≤ D.emax) (h62 : D.p ≤ 62) {tan : Fp D → Fp D} {τ : ℝ} (hτ0 : 0 ≤ τ) (hτ : τ ≤ 1 / 1024)
    (htan : Spec.TanLib tan τ) (f : Frustum (Fp F)) (fov aspect n fa : Fp F) (h : Spec.Everyday fov aspect n fa) {X Y Z : ℝ}
    (hX0 : 0 ≤ X) (hY0 : 0 ≤ Y) (hZ0 : 0 ≤ Z) (hX : X ≤ 2 ^ 40) (hY : Y ≤ 2 ^ 40) (hZ : Z ≤ 2 ^ 40) :
    let g := f.setPerspectiveMixed D tan fov aspect n fa
    let S := Spec.slope fov.val n.val
    let e := Spec.viewMargin F (Spec.slopeErr F D τ fov.val) S aspect.val n.val fa.val X Y Z
    let m := fun i => Spec.clipMargin F (5 * F.u) (3 * F.eta) (Spec.absEntries (Spec.proj g)) i X Y Z
    Spec.Projects F D g ∧ Spec.NotTooWide g ∧
    (∀ (σ : ℝ) (i : Fin 4), |σ| = 1 → i ≠ 3 → Spec.Normalizable F (3 * F.eta) (Spec.proj g) (Spec.absEntries (Spec.proj g)) σ i ∧
      Spec.ValuesFit F (3 * F.eta) (Spec.proj g) (Spec.absEntries (Spec.proj g)) σ i X Y Z) ∧
    ∀ x y z : ℝ, |z| ≤ Z →
      (Spec.DeepInView S aspect.val n.val fa.val e x y z → ∀ i : Fin 4, i ≠ 3 → |Spec.coord (Spec.proj g) i x y z| + m i < Spec.coord (Spec.proj g) 3 x y z) ∧
      ((∀ i : Fin 4, i ≠ 3 → |Spec.coord (Spec.proj g) i x y z| ≤ Spec.coord (Spec.proj g) 3 x y z + m i) → Spec.NearlyInView S aspect.val n.val fa.val e x y z) := by
  intro g S e m
  obtain ⟨r1, r2, k0', k1', hS0, hSa, _, _, r3, r4, r5, r6, r7, px, pt, bx, bt, sx, sy⟩ := view_setup hF hp he h62 hτ0 hτ htan f fov aspect n fa h
  have n1 := h.near.1
  have n2 := h.near.2
  have hn0 : 0 < n.val := by linarith
  refine ⟨r1, r2, ?_, ?_⟩
  · intro σ i h1 h2
    rw [r3]
    exact view_fits hF (one_div_nonneg.2 px.le) r6 (one_div_nonneg.2 pt.le) r7 hn0.le n2 r4 r5 hX0 hY0 hZ0 hX hY hZ σ i h1 h2
  · intro x y z hz
    have key := translate hF (x := x) (y := y) k0' k1' hSa hS0 sx sy bx bt px pt n1 h.far.1 hX0 hY0 hz hX hY hZ
    rw [← r3] at key
    exact key

/-- **C155** A sphere, from the arguments to the verdict. For all everyday arguments of `set_perspective`, the chain `set_perspective`, `compute_matrix`, `setup`, `test_sphere`, every step of
it rounded, succeeds, and the sphere is not culled if one of its points is in the described pyramid by more than the margins, and is reported fully visible only if all of its points are
in the described pyramid up to the margins. -/
theorem C155_sphere (hF : Spec.Roomy F) (hQ : Spec.Quotients F D) (hp : F.p ≤ D.p) (he : F.emax ≤ D.emax) (h62 : D.p ≤ 62) {tan : Fp D → Fp D} {τ : ℝ} (hτ0 : 0 ≤ τ) (hτ : τ ≤ 1 / 1024)
    (htan : Spec.TanLib tan τ) (cfg : Cfg) (f : Frustum (Fp F)) (m0 : Mat 4 4 (Fp F)) (fov aspect n fa : Fp F) (h : Spec.Everyday fov aspect n fa)
    (s : Vec 4 (Fp F)) (hs : Spec.VFinite s) (hr : (0 : ℝ) ≤ s[3].val) {X Y Z : ℝ} (hX : |s[0].val| + s[3].val ≤ X) (hY : |s[1].val| + s[3].val ≤ Y) (hZ : |s[2].val| + s[3].val ≤ Z)
    (hX2 : X ≤ 2 ^ 40) (hY2 : Y ≤ 2 ^ 40) (hZ2 : Z ≤ 2 ^ 40) :
    let S := Spec.slope fov.val n.val
    let e := Spec.viewMargin F (Spec.slopeErr F D τ fov.val) S aspect.val n.val fa.val X Y Z
    ∃ P k, (f.setPerspectiveMixed D tan fov aspect n fa).computeMatrixMixed D cfg m0 = .ok P ∧ setupMatrixMixed D cfg P = .ok k ∧
      ∀ x y z : ℝ, (x - s[0].val) ^ 2 + (y - s[1].val) ^ 2 + (z - s[2].val) ^ 2 ≤ s[3].val ^ 2 →
        (Spec.DeepInView S aspect.val n.val fa.val e x y z → testSphere k s ≠ .none) ∧ (testSphere k s = .full → Spec.NearlyInView S aspect.val n.val fa.val e x y z) := by
  intro S e
  have hX0 : 0 ≤ X := by linarith [abs_nonneg s[0].val]
  have hY0 : 0 ≤ Y := by linarith [abs_nonneg s[1].val]
  have hZ0 : 0 ≤ Z := by linarith [abs_nonneg s[2].val]
  obtain ⟨c1, c2, c3, c4⟩ := chain hF hp he h62 hτ0 hτ htan f fov aspect n fa h hX0 hY0 hZ0 hX2 hY2 hZ2
  obtain ⟨P, k, hP, hk, hv⟩ := C132_frustum_sphere hQ hp he hF.order (by have := hF.digits; omega) cfg _ m0 c1 c2 s hs hr hX hY hZ c3
  refine ⟨P, k, hP, hk, fun x y z hxyz => ?_⟩
  have hz : |z| ≤ Z := by
    have : |z - s[2].val| ≤ s[3].val := abs_le_of_sq_le_sq (by nlinarith [sq_nonneg (x - s[0].val), sq_nonneg (y - s[1].val)]) hr
    have h2 : |z| ≤ |z - s[2].val| + |s[2].val| := by
      have := abs_add_le (z - s[2].val) s[2].val
      rwa [sub_add_cancel] at this
    linarith
  obtain ⟨d1, d2⟩ := c4 x y z hz
  obtain ⟨v1, v2⟩ := hv x y z hxyz
  exact ⟨fun hd => v1 (d1 hd), fun hfull => d2 (v2 hfull)⟩

/-- **C155** The same for an axis-aligned box. -/
theorem C155_box (hF : Spec.Roomy F) (hQ : Spec.Quotients F D) (hp : F.p ≤ D.p) (he : F.emax ≤ D.emax) (h62 : D.p ≤ 62) {tan : Fp D → Fp D} {τ : ℝ} (hτ0 : 0 ≤ τ) (hτ : τ ≤ 1 / 1024)
    (htan : Spec.TanLib tan τ) (cfg : Cfg) (f : Frustum (Fp F)) (m0 : Mat 4 4 (Fp F)) (fov aspect n fa : Fp F) (h : Spec.Everyday fov aspect n fa)
    (half : Fp F) (hh : half.Finite) (hv : half.val = 1 / 2) (bx by' bz : Vec 2 (Fp F)) (hx : Spec.VFinite bx) (hy : Spec.VFinite by') (hz : Spec.VFinite bz)
    (hX : Spec.span bx ≤ 2 ^ 40) (hY : Spec.span by' ≤ 2 ^ 40) (hZ : Spec.span bz ≤ 2 ^ 40) :
    let S := Spec.slope fov.val n.val
    let e := Spec.viewMargin F (Spec.slopeErr F D τ fov.val) S aspect.val n.val fa.val (Spec.span bx) (Spec.span by') (Spec.span bz)
    ∃ P k v, (f.setPerspectiveMixed D tan fov aspect n fa).computeMatrixMixed D cfg m0 = .ok P ∧ setupMatrixMixed D cfg P = .ok k ∧ testAabb cfg half k bx by' bz = .ok v ∧
      ∀ x y z : ℝ, Spec.FBoxHas bx by' bz x y z →
        (Spec.DeepInView S aspect.val n.val fa.val e x y z → v ≠ .none) ∧ (v = .full → Spec.NearlyInView S aspect.val n.val fa.val e x y z) := by
  intro S e
  have sp0 : ∀ w : Vec 2 (Fp F), 0 ≤ Spec.span w := fun w => by unfold Spec.span; positivity
  obtain ⟨c1, c2, c3, c4⟩ := chain hF hp he h62 hτ0 hτ htan f fov aspect n fa h (sp0 bx) (sp0 by') (sp0 bz) hX hY hZ
  have big := big_max hF
  have hu := F.u_pos
  have hus := small_u hF
  have hts := small_tiny hF
  have ht := F.tiny_pos
  have room : ∀ w : Vec 2 (Fp F), Spec.span w ≤ 2 ^ 40 → Spec.grow F 2 (Spec.span w + F.tiny) ≤ F.maxFinite := by
    intro w hw
    unfold Spec.grow
    have g6 : (1 + F.u) ^ 2 ≤ 2 := by
      calc (1 + F.u) ^ 2 ≤ (1 + 1 / 2 ^ 21) ^ 2 := by gcongr
        _ ≤ 2 := by norm_num
    have := sp0 w
    calc _ ≤ 2 * (2 ^ 40 + 1 / 2 ^ 99) := mul_le_mul g6 (add_le_add hw hts) (by linarith) (by norm_num)
      _ ≤ _ := by norm_num at big ⊢; linarith
  obtain ⟨P, k, v, hP, hk, hr, hvv⟩ := C132_frustum_box hQ hp he hF.order (by have := hF.digits; omega) cfg _ m0 c1 c2 half hh hv bx by' bz hx hy hz
    (by
      intro w hw
      simp only [List.mem_cons, List.not_mem_nil, or_false] at hw
      rcases hw with rfl | rfl | rfl
      · exact room _ hX
      · exact room _ hY
      · exact room _ hZ) c3
  refine ⟨P, k, v, hP, hk, hr, fun x y z hxyz => ?_⟩
  have hzz : |z| ≤ Spec.span bz := by
    have h1 := hxyz.2.2
    unfold Spec.span
    rcases Set.mem_uIcc.1 h1 with ⟨p, q⟩ | ⟨p, q⟩ <;> rw [abs_le] <;>
      constructor <;> linarith [neg_abs_le bz[0].val, le_abs_self bz[0].val, neg_abs_le bz[1].val, le_abs_self bz[1].val, abs_nonneg bz[0].val, abs_nonneg bz[1].val]
  obtain ⟨d1, d2⟩ := c4 x y z hzz
  obtain ⟨v1, v2⟩ := hvv x y z hxyz
  exact ⟨fun hd => v1 (d1 hd), fun hfull => d2 (v2 hfull)⟩

/-- **C155** The size of the margins: the relative error of the slopes is at most `203 u + 2 τ` for all everyday angles, with `u` of the element type: `1.3e-5` in `float` with a good tangent. -/
theorem C155_slope (hp : F.p ≤ D.p) {τ : ℝ} (fov aspect n fa : Fp F) (h : Spec.Everyday fov aspect n fa) : Spec.slopeErr F D τ fov.val ≤ 203 * F.u + 2 * τ := by
  have hc := (trig_bounds h.angle.1 h.angle.2).1
  have hDF : D.u ≤ F.u := u_le hp
  have hD := D.u_pos
  unfold Spec.slopeErr Spec.topErr
  have : 16 * D.u / Real.cos (Spec.halfAngle fov.val) ≤ 192 * D.u := by
    rw [div_le_iff₀ (by linarith)]; nlinarith
  linarith

/-- **C155** With the near plane at 1/2 the pyramid is the requested one: the angle between its upper and lower plane is `fov` degrees. -/
theorem C155_angle (fov aspect n fa : Fp F) (h : Spec.Everyday fov aspect n fa) (hn : n.val = 1 / 2) : 2 * Real.arctan (Spec.slope fov.val n.val) * 180 / Real.pi = fov.val := by
  have hπ := Real.pi_pos
  have h1 := h.angle.1
  have h2 := h.angle.2
  have e : Spec.slope fov.val n.val = Real.tan (Spec.halfAngle fov.val) := by unfold Spec.slope; rw [hn]; norm_num
  rw [e, Real.arctan_tan]
  · unfold Spec.halfAngle; field_simp
  · unfold Spec.halfAngle; nlinarith
  · unfold Spec.halfAngle; nlinarith

/-- `float` elements and `double` literals, and `double` elements, meet the hypotheses on the formats. -/
example : Spec.Roomy single ∧ Spec.Roomy double ∧ Spec.Quotients single double ∧ Spec.Quotients double double ∧ single.p ≤ double.p ∧ single.emax ≤ double.emax ∧ double.p ≤ 62 :=
  ⟨⟨by norm_num, by norm_num, by norm_num⟩, ⟨by norm_num, by norm_num, by norm_num⟩, Or.inr (by norm_num), Or.inl rfl, by norm_num, by norm_num, by norm_num⟩

/-- A correctly rounded tangent meets the hypothesis on the library. -/
example : ∃ (tan : Fp double → Fp double) (τ : ℝ), 0 ≤ τ ∧ τ ≤ 1 / 1024 ∧ Spec.TanLib tan τ :=
  ⟨_, double.u, double.u_pos.le, by unfold u; norm_num, C148_library (by norm_num)⟩

private theorem num_single (k : Int) (hk : |k| ≤ 2 ^ 24) : ∃ a : Fp single, a.Finite ∧ a.val = k := by
  have h := Quant.ofReal_int (F := single) (by norm_num) (k := k) hk
  exact ⟨_, h⟩

/-- Everyday arguments in `float`: 90 degrees, aspect ratio 2, near plane at 1/2 and far plane at 100; and the point `(1, 2, -10)` of a sphere of radius 3 about `(0, 0, -10)` is deep in view. -/
example : ∃ fov aspect n fa : Fp single, Spec.Everyday fov aspect n fa ∧ fov.val = 90 ∧ aspect.val = 2 ∧ fa.val = 100 ∧ ∃ s : Vec 4 (Fp single), Spec.VFinite s ∧ s[3].val = 3 ∧
    ((1 : ℝ) - s[0].val) ^ 2 + (2 - s[1].val) ^ 2 + (-10 - s[2].val) ^ 2 ≤ s[3].val ^ 2 ∧
    n.val = 1 / 2 ∧ Spec.DeepInView (Spec.slope fov.val n.val) aspect.val n.val fa.val
      (Spec.viewMargin single (Spec.slopeErr single double double.u fov.val) (Spec.slope fov.val n.val) aspect.val n.val fa.val 3 3 13) 1 2 (-10) := by
  obtain ⟨a1, f1, v1⟩ := num_single 1 (by norm_num)
  obtain ⟨a2, f2, v2⟩ := num_single 2 (by norm_num)
  obtain ⟨a3, f3, v3⟩ := num_single 3 (by norm_num)
  obtain ⟨a10, f10, v10⟩ := num_single 10 (by norm_num)
  obtain ⟨a90, f90, v90⟩ := num_single 90 (by norm_num)
  obtain ⟨a100, f100, v100⟩ := num_single 100 (by norm_num)
  push_cast at v1 v2 v3 v10 v90 v100
  obtain ⟨hh, fh, vh⟩ : ∃ a : Fp single, a.Finite ∧ a.val = 1 / 2 := by
    have hrep := rep_half (F := single) (by norm_num)
    obtain ⟨p, q⟩ := Fp.ofReal_fin (F := single) (by norm_num) (x := 1 / 2) (by
      rw [abs_of_pos (by norm_num)]
      exact le_trans (by norm_num) (one_le_max (F := single) (by norm_num)))
    exact ⟨_, p, by rw [q]; exact hrep.rnd_eq⟩
  have hev : Spec.Everyday a90 a2 hh a100 := ⟨⟨f90, f2, fh, f100⟩, by rw [v90]; norm_num, by rw [v2]; norm_num, by rw [vh]; norm_num, by rw [v100, vh]; norm_num⟩
  refine ⟨a90, a2, hh, a100, hev, v90, v2, v100, #v[0, 0, -a10, a3], ?_, v3, ?_, ?_⟩
  · intro i
    match i with
    | 0 => exact Fp.finite_zero
    | 1 => exact Fp.finite_zero
    | 2 => exact Fp.finite_neg f10
    | 3 => exact f3
  · show ((1 : ℝ) - (0 : Fp single).val) ^ 2 + (2 - (0 : Fp single).val) ^ 2 + (-10 - (-a10).val) ^ 2 ≤ a3.val ^ 2
    rw [Fp.val_zero, Fp.val_neg, v10, v3]; norm_num
  · refine ⟨vh, ?_⟩
    have hT : Spec.slope a90.val hh.val = 1 := by
      unfold Spec.slope
      rw [vh, show (2 : ℝ) * (1 / 2) = 1 by norm_num, div_one, v90, ← Real.tan_pi_div_four]; congr 1; unfold Spec.halfAngle; ring
    have hκ := C155_slope (F := single) (D := double) (by norm_num) (τ := double.u) a90 a2 hh a100 hev
    have hu : single.u ≤ 1 / 10000000 := by unfold u; norm_num
    have hu2 : double.u ≤ 1 / 10000000 := by unfold u; norm_num
    have hu0 := single.u_pos
    rw [hT, v2, v100, vh]
    generalize Spec.slopeErr single double double.u a90.val = κ at *
    unfold Spec.DeepInView Spec.viewMargin
    simp only [Matrix.cons_val_zero, Matrix.cons_val_one, Matrix.cons_val]
    norm_num
    refine ⟨?_, ?_, ?_, ?_⟩ <;> linarith
end Vmml
