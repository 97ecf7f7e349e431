import Verif.Props.FloatView

/-!
# C157: culling in world coordinates, from the arguments of `set_perspective` and a model-view matrix to the verdict

As C155, with a model-view matrix between the world and the camera: `set_perspective`, `compute_matrix`, `projection * modelview`, `setup`, `test_sphere` or `test_aabb`, every step rounded.
-/

namespace Vmml
open Format Culler
variable {F D : Format}

/-! ## Specification -/

/-- A model-view matrix that places the camera: the last row is `0 0 0 1`, the rotation part is orthonormal up to 1/8 in the scalar products of its rows (a matrix computed in any reasonable way
is far closer than that), and the translation is at most `2 ^ 35`. -/
structure Spec.Placement (V : Mat 4 4 (Fp F)) : Prop where
  finite : ∀ i j, (V.get i j).Finite
  last : ∀ j, (V.get 3 j).val = if j = 3 then 1 else 0
  rotation : ∀ i k : Fin 4, i ≠ 3 → k ≠ 3 →
    |(V.get i 0).val * (V.get k 0).val + (V.get i 1).val * (V.get k 1).val + (V.get i 2).val * (V.get k 2).val - if i = k then 1 else 0| ≤ 1 / 8
  shift : ∀ i : Fin 4, |(V.get i 3).val| ≤ 2 ^ 35

/-- Coordinate `k` of the world point `(x, y, z)` as the camera sees it, in exact arithmetic. -/
def Spec.seen (V : Mat 4 4 (Fp F)) (k : Fin 4) (x y z : ℝ) : ℝ := Spec.coord (fun i j => (V.get i j).val) k x y z
/-- A bound of that coordinate for points with world coordinates of at most `X`, `Y`, `Z` in absolute value. -/
def Spec.reach (V : Mat 4 4 (Fp F)) (k : Fin 4) (X Y Z : ℝ) : ℝ := Spec.coord (fun i j => |(V.get i j).val|) k X Y Z

/-- The margins, for points with view coordinates of at most `X`, `Y`, `Z` in absolute value and the slope `S`. -/
noncomputable def Spec.worldMargin (F : Format) (κ S aspect n fa X Y Z : ℝ) : Fin 4 → ℝ :=
  ![40 * F.u * (X + aspect * S * Z + 1 / 2 ^ 30) + κ * (aspect * S) * Z, 40 * F.u * (Y + S * Z + 1 / 2 ^ 30) + κ * S * Z,
    40 * F.u * (Z + n), 40 * F.u * fa * (Z / n + 1)]

/-! ## Sizes -/

private theorem max_120 (h : 120 ≤ F.emax) : (2 : ℝ) ^ (120 : ℕ) ≤ F.maxFinite := by
  refine le_trans ?_ pow_emax_le
  rw [← zpow_natCast]
  exact zpow_le_zpow_right₀ (by norm_num) (by push_cast; omega)

private theorem tiny_119 (h : 120 ≤ F.emax) : F.tiny ≤ 1 / 2 ^ 119 := by
  unfold Format.tiny emin
  have : (2 : ℝ) ^ (1 - (F.emax : Int)) ≤ (2 : ℝ) ^ (-119 : Int) := zpow_le_zpow_right₀ (by norm_num) (by omega)
  refine le_trans this (le_of_eq ?_)
  rw [zpow_neg, one_div]
  norm_cast

private theorem eta_119 (h : 120 ≤ F.emax) : F.eta ≤ F.u / 2 ^ 119 := by
  have h := tiny_119 h
  have hu := F.u_pos
  rw [eta_eq_tiny]
  calc _ ≤ F.u * (1 / 2 ^ 119) := by gcongr
    _ = _ := by ring

private theorem u_21 (hF : Spec.Roomy F) : F.u ≤ 1 / 2 ^ 21 := by
  unfold u
  calc ((2 : ℝ)⁻¹) ^ (F.p + 1) ≤ ((2 : ℝ)⁻¹) ^ 21 := pow_le_pow_of_le_one (by norm_num) (by norm_num) (by have := hF.digits; omega)
    _ = 1 / 2 ^ 21 := by norm_num

/-! ## Rotations -/

/-- The matrices in exact arithmetic. -/
private noncomputable def mulM (P W : Fin 4 → Fin 4 → ℝ) : Fin 4 → Fin 4 → ℝ := fun i j => ∑ k, P i k * W k j
private noncomputable def magM (P W : Fin 4 → Fin 4 → ℝ) : Fin 4 → Fin 4 → ℝ := fun i j => ∑ k, |P i k| * |W k j|

private structure Rigid (W : Fin 4 → Fin 4 → ℝ) : Prop where
  last : ∀ j, W 3 j = if j = 3 then 1 else 0
  rotation : ∀ i k : Fin 4, i ≠ 3 → k ≠ 3 → |W i 0 * W k 0 + W i 1 * W k 1 + W i 2 * W k 2 - if i = k then 1 else 0| ≤ 1 / 8
  shift : ∀ i : Fin 4, |W i 3| ≤ 2 ^ 35

private theorem cross {a b e : ℝ} (he : |e| ≤ 1 / 8) : |2 * a * b * e| ≤ (a ^ 2 + b ^ 2) / 8 := by
  rw [abs_mul]
  have h1 : |2 * a * b| ≤ a ^ 2 + b ^ 2 := by rw [abs_le]; constructor <;> nlinarith [sq_nonneg (a + b), sq_nonneg (a - b)]
  have := mul_le_mul h1 he (abs_nonneg _) (by positivity)
  linarith

private theorem rotate_len {W : Fin 4 → Fin 4 → ℝ} (hW : Rigid W) (a b c : ℝ) :
    5 / 8 * (a ^ 2 + b ^ 2 + c ^ 2) ≤ (a * W 0 0 + b * W 1 0 + c * W 2 0) ^ 2 + (a * W 0 1 + b * W 1 1 + c * W 2 1) ^ 2 + (a * W 0 2 + b * W 1 2 + c * W 2 2) ^ 2 ∧
    (a * W 0 0 + b * W 1 0 + c * W 2 0) ^ 2 + (a * W 0 1 + b * W 1 1 + c * W 2 1) ^ 2 + (a * W 0 2 + b * W 1 2 + c * W 2 2) ^ 2 ≤ 11 / 8 * (a ^ 2 + b ^ 2 + c ^ 2) := by
  have r := hW.rotation
  have r00 := r 0 0 (by decide) (by decide)
  have r11 := r 1 1 (by decide) (by decide)
  have r22 := r 2 2 (by decide) (by decide)
  have r01 := r 0 1 (by decide) (by decide)
  have r02 := r 0 2 (by decide) (by decide)
  have r12 := r 1 2 (by decide) (by decide)
  rw [if_pos rfl] at r00 r11 r22
  rw [if_neg (by decide), sub_zero] at r01 r02 r12
  have x01 := cross (a := a) (b := b) r01
  have x02 := cross (a := a) (b := c) r02
  have x12 := cross (a := b) (b := c) r12
  have d : ∀ {t e : ℝ}, |e| ≤ 1 / 8 → |t ^ 2 * e| ≤ t ^ 2 / 8 := by
    intro t e he
    rw [abs_mul, abs_of_nonneg (sq_nonneg t)]
    have := mul_le_mul_of_nonneg_left he (sq_nonneg t)
    linarith
  have x00 := d (t := a) r00
  have x11 := d (t := b) r11
  have x22 := d (t := c) r22
  rw [abs_le] at x00 x11 x22 x01 x02 x12
  constructor <;> nlinarith only [x00, x11, x22, x01, x02, x12]

private theorem rotate_entries {W : Fin 4 → Fin 4 → ℝ} (hW : Rigid W) (k : Fin 4) (hk : k ≠ 3) : |W k 0| + |W k 1| + |W k 2| ≤ 2 := by
  have r := hW.rotation k k hk hk
  rw [if_pos rfl] at r
  obtain ⟨-, r⟩ := abs_le.1 r
  have e0 := sq_abs (W k 0)
  have e1 := sq_abs (W k 1)
  have e2 := sq_abs (W k 2)
  generalize |W k 0| = a at *
  generalize |W k 1| = b at *
  generalize |W k 2| = c at *
  apply le_of_sq_le_sq _ (by norm_num)
  nlinarith only [r, e0, e1, e2, sq_nonneg (a - b), sq_nonneg (a - c), sq_nonneg (b - c)]

private theorem normal_world {W : Fin 4 → Fin 4 → ℝ} (hW : Rigid W) (P : Fin 4 → Fin 4 → ℝ) (σ : ℝ) (i : Fin 4) :
    5 / 8 * Spec.normalLen P σ i ^ 2 ≤ Spec.normalLen (mulM P W) σ i ^ 2 ∧ Spec.normalLen (mulM P W) σ i ^ 2 ≤ 11 / 8 * Spec.normalLen P σ i ^ 2 := by
  unfold Spec.normalLen
  rw [Real.sq_sqrt (by positivity), Real.sq_sqrt (by positivity)]
  have e : ∀ j : Fin 4, j ≠ 3 → mulM P W 3 j + σ * mulM P W i j = (P 3 0 + σ * P i 0) * W 0 j + (P 3 1 + σ * P i 1) * W 1 j + (P 3 2 + σ * P i 2) * W 2 j := by
    intro j hj
    have := hW.last j
    rw [if_neg hj] at this
    unfold mulM
    simp only [Fin.sum_univ_four, this]
    ring
  rw [e 0 (by decide), e 1 (by decide), e 2 (by decide)]
  exact rotate_len hW _ _ _

private theorem both_world (P W : Fin 4 → Fin 4 → ℝ) (i j : Fin 4) : Spec.both (magM P W) i j = ∑ k, Spec.both (Spec.absEntries P) i k * |W k j| := by
  unfold Spec.both magM Spec.absEntries
  rw [← Finset.sum_add_distrib]
  exact Finset.sum_congr rfl fun k _ => by ring

private theorem coord_world {W : Fin 4 → Fin 4 → ℝ} (hW : Rigid W) (P : Fin 4 → Fin 4 → ℝ) (i : Fin 4) (x y z : ℝ) :
    Spec.coord (mulM P W) i x y z = Spec.coord P i (Spec.coord W 0 x y z) (Spec.coord W 1 x y z) (Spec.coord W 2 x y z) := by
  have h0 := hW.last 0
  have h1 := hW.last 1
  have h2 := hW.last 2
  have h3 := hW.last 3
  simp only [Fin.reduceEq, if_true, if_false] at h0 h1 h2 h3
  unfold Spec.coord mulM
  simp only [Fin.sum_univ_four, h0, h1, h2, h3]
  ring

/-! ## The planes in world coordinates -/

section planes
variable {ix iy n B : ℝ} {W : Fin 4 → Fin 4 → ℝ}

private theorem both_sum (hW : Rigid W) {b : Fin 4 → ℝ} (hb : ∀ k, 0 ≤ b k) :
    (∑ k, b k * |W k 0|) + (∑ k, b k * |W k 1|) + (∑ k, b k * |W k 2|) ≤ 2 * (b 0 + b 1 + b 2) := by
  have h0 := hW.last 0
  have h1 := hW.last 1
  have h2 := hW.last 2
  simp only [Fin.reduceEq, if_false] at h0 h1 h2
  have e0 := mul_le_mul_of_nonneg_left (rotate_entries hW 0 (by decide)) (hb 0)
  have e1 := mul_le_mul_of_nonneg_left (rotate_entries hW 1 (by decide)) (hb 1)
  have e2 := mul_le_mul_of_nonneg_left (rotate_entries hW 2 (by decide)) (hb 2)
  simp only [Fin.sum_univ_four, h0, h1, h2, abs_zero, mul_zero, add_zero]
  linarith only [e0, e1, e2]

private theorem entry_le (hW : Rigid W) (k j : Fin 4) : |W k j| ≤ 2 ^ 35 := by
  by_cases hj : j = 3
  · rw [hj]; exact hW.shift k
  · by_cases hk : k = 3
    · rw [hk, hW.last j, if_neg hj, abs_zero]; norm_num
    · have := rotate_entries hW k hk
      have h0 := abs_nonneg (W k 0)
      have h1 := abs_nonneg (W k 1)
      have h2 := abs_nonneg (W k 2)
      have : |W k j| ≤ 2 := by
        match j, hj with
        | 3, h => exact absurd rfl h
        | 0, _ => linarith
        | 1, _ => linarith
        | 2, _ => linarith
      exact this.trans (by norm_num)

private theorem column_le (hW : Rigid W) (j : Fin 4) : ∑ k, |W k j| ≤ 2 ^ 37 := by
  rw [Fin.sum_univ_four]
  have a := entry_le hW 0 j
  have b := entry_le hW 1 j
  have c := entry_le hW 2 j
  have d := entry_le hW 3 j
  norm_num at *
  linarith

private theorem weighted_le (hW : Rigid W) {b : Fin 4 → ℝ} (hb : ∀ k, 0 ≤ b k ∧ b k ≤ 131073) (j : Fin 4) : 0 ≤ ∑ k, b k * |W k j| ∧ ∑ k, b k * |W k j| ≤ 131073 * 2 ^ 37 := by
  constructor
  · exact Finset.sum_nonneg fun k _ => mul_nonneg (hb k).1 (abs_nonneg _)
  · calc ∑ k, b k * |W k j| ≤ ∑ k, 131073 * |W k j| := Finset.sum_le_sum fun k _ => mul_le_mul_of_nonneg_right (hb k).2 (abs_nonneg _)
      _ = 131073 * ∑ k, |W k j| := by rw [Finset.mul_sum]
      _ ≤ _ := by have := column_le hW j; linarith

/-- The normals are not small compared to their terms. -/
private theorem flat (hx0 : 0 ≤ ix) (hy0 : 0 ≤ iy) (hB1 : 1 + 1 / 16384 ≤ B) {σ : ℝ} {i : Fin 4} (hσ : |σ| = 1) (hi : i ≠ 3) :
    Spec.both (Spec.absEntries (viewMat ix iy n B)) i 0 + Spec.both (Spec.absEntries (viewMat ix iy n B)) i 1 + Spec.both (Spec.absEntries (viewMat ix iy n B)) i 2 ≤
      2 ^ 15 * Spec.normalLen (viewMat ix iy n B) σ i := by
  have hσ2 : σ ^ 2 = 1 := by rw [← sq_abs, hσ, one_pow]
  have h0 : 0 ≤ Spec.normalLen (viewMat ix iy n B) σ i := Real.sqrt_nonneg _
  have hs : Spec.normalLen (viewMat ix iy n B) σ i ^ 2 = _ := Real.sq_sqrt (by positivity)
  have e1 : |ix| = ix := abs_of_nonneg hx0
  have e2 : |iy| = iy := abs_of_nonneg hy0
  have e3 : |1 - 2 * B| = 2 * B - 1 := by rw [abs_sub_comm]; exact abs_of_nonneg (by linarith)
  generalize Spec.normalLen (viewMat ix iy n B) σ i = N at *
  match i, hi with
  | 3, h => exact absurd rfl h
  | 0, _ =>
    simp [viewMat, mul_pow, hσ2] at hs
    simp [viewMat, Spec.both, Spec.absEntries, e1]
    have : ix + 1 ≤ 2 * N := by
      apply le_of_sq_le_sq _ (by linarith)
      nlinarith only [hs, sq_nonneg (ix - 1), sq_nonneg ix]
    linarith
  | 1, _ =>
    simp [viewMat, mul_pow, hσ2] at hs
    simp [viewMat, Spec.both, Spec.absEntries, e2]
    have : iy + 1 ≤ 2 * N := by
      apply le_of_sq_le_sq _ (by linarith)
      nlinarith only [hs, sq_nonneg (iy - 1), sq_nonneg iy]
    linarith
  | 2, _ =>
    simp [viewMat] at hs
    simp [viewMat, Spec.both, Spec.absEntries, e3]
    have : 2 * B - 2 ≤ N := by
      rcases abs_eq (by norm_num : (0 : ℝ) ≤ 1) |>.1 hσ with h | h
      · rw [h] at hs
        apply le_of_sq_le_sq _ h0
        nlinarith only [hs, hB1]
      · rw [h] at hs
        apply le_of_sq_le_sq _ h0
        nlinarith only [hs, hB1]
    linarith

private theorem world_fits (hF : Spec.Roomy F) (h120 : 120 ≤ F.emax) (hW : Rigid W) (hx0 : 0 ≤ ix) (hx : ix ≤ 131072) (hy0 : 0 ≤ iy) (hy : iy ≤ 131072) (hn1 : 0 ≤ n) (hn16 : n ≤ 16)
    (hB1 : 1 + 1 / 16384 ≤ B) (hB2 : B ≤ 2) {X Y Z : ℝ} (hX0 : 0 ≤ X) (hY0 : 0 ≤ Y) (hZ0 : 0 ≤ Z) (hX : X ≤ 2 ^ 35) (hY : Y ≤ 2 ^ 35) (hZ : Z ≤ 2 ^ 35) (σ : ℝ) (i : Fin 4) (hσ : |σ| = 1) (hi : i ≠ 3) :
    Spec.Robust F (10 * F.u) (F.eta * (4 * 2 ^ 37 + 5)) (mulM (viewMat ix iy n B) W) (magM (viewMat ix iy n B) W) σ i ∧
      Spec.ValuesFit F (F.eta * (4 * 2 ^ 37 + 5)) (mulM (viewMat ix iy n B) W) (magM (viewMat ix iy n B) W) σ i X Y Z := by
  have big := max_120 h120
  have hu := F.u_pos
  have hus := u_21 hF
  have hη := F.eta_pos
  have hηs := eta_119 h120
  have ht := F.tiny_pos
  have hts := tiny_119 h120
  obtain ⟨l1, l2⟩ := view_normal (n := n) hx0 hx hy0 hy hB1 hB2 hσ hi
  obtain ⟨w1, w2⟩ := normal_world hW (viewMat ix iy n B) σ i
  have hfl := flat (n := n) hx0 hy0 hB1 hσ hi
  have hb := view_both hx0 hx hy0 hy hn1 hn16 hB1 hB2 i
  have hbs := both_sum hW fun k => (hb k).1
  have N0 : 0 ≤ Spec.normalLen (viewMat ix iy n B) σ i := Real.sqrt_nonneg _
  have M0 : 0 ≤ Spec.normalLen (mulM (viewMat ix iy n B) W) σ i := Real.sqrt_nonneg _
  obtain ⟨p0, p0'⟩ := weighted_le hW hb 0
  obtain ⟨p1, p1'⟩ := weighted_le hW hb 1
  obtain ⟨p2, p2'⟩ := weighted_le hW hb 2
  obtain ⟨p3, p3'⟩ := weighted_le hW hb 3
  unfold Spec.Robust Spec.ValuesFit
  simp only [both_world]
  generalize Spec.normalLen (viewMat ix iy n B) σ i = N at *
  generalize Spec.normalLen (mulM (viewMat ix iy n B) W) σ i = M at *
  generalize (∑ k, Spec.both (Spec.absEntries (viewMat ix iy n B)) i k * |W k 0|) = d0 at *
  generalize (∑ k, Spec.both (Spec.absEntries (viewMat ix iy n B)) i k * |W k 1|) = d1 at *
  generalize (∑ k, Spec.both (Spec.absEntries (viewMat ix iy n B)) i k * |W k 2|) = d2 at *
  generalize (∑ k, Spec.both (Spec.absEntries (viewMat ix iy n B)) i k * |W k 3|) = d3 at *
  generalize Spec.both (Spec.absEntries (viewMat ix iy n B)) i 0 + Spec.both (Spec.absEntries (viewMat ix iy n B)) i 1 + Spec.both (Spec.absEntries (viewMat ix iy n B)) i 2 = b at *
  have hMN : 3 / 4 * N ≤ M := by
    apply le_of_sq_le_sq _ M0
    nlinarith only [w1, sq_nonneg N]
  have hN1 : 1 / 2 ^ 13 ≤ N := by
    apply le_of_sq_le_sq _ N0
    norm_num at l1 ⊢; linarith only [l1]
  have hM1 : 1 / 2 ^ 14 ≤ M := by norm_num at hN1 ⊢; linarith only [hN1, hMN]
  obtain ⟨t, ht'⟩ : ∃ t, t = F.eta * (4 * 2 ^ 37 + 5) := ⟨_, rfl⟩
  rw [← ht']
  have t0 : 0 ≤ t := by rw [ht']; positivity
  have tu : t ≤ 1 / 2 ^ 79 := by
    rw [ht']
    calc F.eta * (4 * 2 ^ 37 + 5) ≤ (F.u / 2 ^ 119) * 2 ^ 40 := mul_le_mul hηs (by norm_num) (by norm_num) (by positivity)
      _ ≤ ((1 / 2 ^ 21) / 2 ^ 119) * 2 ^ 40 := by gcongr
      _ ≤ _ := by norm_num
  have t1 : t ≤ 1 / 2 ^ 30 := tu.trans (by norm_num)
  have hMm : F.maxFinite * (1 / 2 ^ 14) ≤ F.maxFinite * M := mul_le_mul_of_nonneg_left hM1 (le_trans (by positivity) big)
  have big2 : (2 : ℝ) ^ 106 ≤ F.maxFinite * M := by
    refine le_trans ?_ hMm
    calc (2 : ℝ) ^ 106 = 2 ^ 120 * (1 / 2 ^ 14) := by norm_num
      _ ≤ _ := by gcongr
  refine ⟨⟨?_, ?_, ?_, ?_, ?_⟩, ?_⟩
  · have h1 : 10 * F.u * (d0 + d1 + d2) ≤ 10 * F.u * (2 * (2 ^ 15 * N)) := mul_le_mul_of_nonneg_left (by linarith only [hbs, hfl]) (by positivity)
    have h2 : F.u * N ≤ 1 / 2 ^ 21 * N := mul_le_mul_of_nonneg_right hus N0
    norm_num at h1 h2 hN1 t1 ⊢
    linarith only [h1, h2, hN1, t1, hMN]
  · have : (2 : ℝ) ^ F.emin = F.tiny := rfl
    rw [this]
    norm_num at hts l1
    linarith only [hts, l1, w1]
  · have : (2 : ℝ) ^ 40 ≤ 2 ^ 120 := by norm_num
    norm_num at l2 this
    norm_num at big
    linarith only [big, l2, w2]
  · norm_num at big p3' t1
    linarith only [big, p3', t1]
  · norm_num at big2 p3' t1
    linarith only [big2, p3', t1]
  · unfold Spec.grow
    have q0 : (d0 + t) * X ≤ 2 ^ 55 * 2 ^ 35 := mul_le_mul (by norm_num at p0' t1 ⊢; linarith only [p0', t1]) hX hX0 (by positivity)
    have q1 : (d1 + t) * Y ≤ 2 ^ 55 * 2 ^ 35 := mul_le_mul (by norm_num at p1' t1 ⊢; linarith only [p1', t1]) hY hY0 (by positivity)
    have q2 : (d2 + t) * Z ≤ 2 ^ 55 * 2 ^ 35 := mul_le_mul (by norm_num at p2' t1 ⊢; linarith only [p2', t1]) hZ hZ0 (by positivity)
    have q3 : d3 + t ≤ 2 ^ 55 := by norm_num at p3' t1 ⊢; linarith only [p3', t1]
    have g5 : 8 * ((d0 + t) * X + (d1 + t) * Y + (d2 + t) * Z + (d3 + t)) / M ≤ 2 ^ 110 := by
      rw [div_le_iff₀ (lt_of_lt_of_le (by norm_num) hM1)]
      have : (2 : ℝ) ^ 110 * (1 / 2 ^ 14) ≤ 2 ^ 110 * M := mul_le_mul_of_nonneg_left hM1 (by positivity)
      refine le_trans ?_ this
      norm_num at q0 q1 q2 q3 ⊢
      linarith only [q0, q1, q2, q3]
    have hη1 : F.eta ≤ 1 := by
      refine hηs.trans ?_
      rw [div_le_iff₀ (by positivity)]
      refine hus.trans (by norm_num)
    have g4 : F.eta * (X + Y + Z + 1) ≤ 1 * 2 ^ 37 := mul_le_mul hη1 (by norm_num at hX hY hZ ⊢; linarith only [hX, hY, hZ]) (by linarith only [hX0, hY0, hZ0]) (by norm_num)
    have g6 : (1 + F.u) ^ 8 ≤ 2 := by
      calc (1 + F.u) ^ 8 ≤ (1 + 1 / 2 ^ 21) ^ 8 := by gcongr
        _ ≤ 2 := by norm_num
    have hts' : F.tiny ≤ 1 := hts.trans (by norm_num)
    refine le_trans (mul_le_mul g6 (add_le_add (add_le_add g5 g4) (mul_le_mul_of_nonneg_left hts' (by norm_num : (0 : ℝ) ≤ 25))) (by positivity) (by norm_num)) ?_
    refine le_trans ?_ big
    norm_num

/-- The margin in terms of the view coordinates that can be reached. -/
private theorem margin_world (hW : Rigid W) (P : Fin 4 → Fin 4 → ℝ) (t : ℝ) (i : Fin 4) (X Y Z : ℝ) :
    Spec.clipMargin F (10 * F.u) t (magM P W) i X Y Z =
      33 * F.u * (Spec.both (Spec.absEntries P) i 0 * Spec.coord (Spec.absEntries W) 0 X Y Z + Spec.both (Spec.absEntries P) i 1 * Spec.coord (Spec.absEntries W) 1 X Y Z +
        Spec.both (Spec.absEntries P) i 2 * Spec.coord (Spec.absEntries W) 2 X Y Z + Spec.both (Spec.absEntries P) i 3) +
      (3 * t + 300 * F.eta * ((∑ k, Spec.both (Spec.absEntries P) i k * |W k 0|) + (∑ k, Spec.both (Spec.absEntries P) i k * |W k 1|) + (∑ k, Spec.both (Spec.absEntries P) i k * |W k 2|))) *
        (X + Y + Z + 1) := by
  have h0 := hW.last 0
  have h1 := hW.last 1
  have h2 := hW.last 2
  have h3 := hW.last 3
  simp only [Fin.reduceEq, if_true, if_false] at h0 h1 h2 h3
  unfold Spec.clipMargin
  simp only [both_world]
  generalize Spec.both (Spec.absEntries P) i = b
  unfold Spec.coord Spec.absEntries
  simp only [Fin.sum_univ_four, h0, h1, h2, h3, abs_zero, abs_one]
  ring

private theorem small_rest (h120 : 120 ≤ F.emax) {X Y Z G m : ℝ} (hm : G ≤ m) (hm2 : m ≤ 2 ^ 14) (hG : 0 ≤ G) (hX0 : 0 ≤ X) (hY0 : 0 ≤ Y) (hZ0 : 0 ≤ Z) (hX : X ≤ 2 ^ 35) (hY : Y ≤ 2 ^ 35)
    (hZ : Z ≤ 2 ^ 35) {s : ℝ} (hs0 : 0 ≤ s) (hs : s ≤ 4096) : (3 * (F.eta * (4 * 2 ^ 37 + 5)) * s + 300 * F.eta * G) * (X + Y + Z + 1) ≤ F.u / 2 ^ 28 := by
  have hη := F.eta_pos
  have hu := F.u_pos
  have hηs := eta_119 h120
  have e : (3 * (F.eta * (4 * 2 ^ 37 + 5)) * s + 300 * F.eta * G) * (X + Y + Z + 1) = F.eta * ((3 * (4 * 2 ^ 37 + 5) * s + 300 * G) * (X + Y + Z + 1)) := by ring
  rw [e]
  have b0 : 3 * (4 * 2 ^ 37 + 5) * s + 300 * G ≤ (2 : ℝ) ^ 54 := by norm_num at *; linarith
  have b1 : X + Y + Z + 1 ≤ 2 ^ 37 := by norm_num at *; linarith
  have b2 := mul_le_mul b0 b1 (by linarith) (by norm_num)
  have hp : 0 ≤ X + Y + Z + 1 := by linarith
  calc _ ≤ F.u / 2 ^ 119 * (2 ^ 54 * 2 ^ 37) := mul_le_mul hηs b2 (by positivity) (by positivity)
    _ ≤ _ := by norm_num; linarith

private theorem reach_le (k : Fin 4) {x y z X Y Z : ℝ} (hx : |x| ≤ X) (hy : |y| ≤ Y) (hz : |z| ≤ Z) : |Spec.coord W k x y z| ≤ Spec.coord (Spec.absEntries W) k X Y Z := by
  unfold Spec.coord Spec.absEntries
  have t : ∀ {w v V : ℝ}, |v| ≤ V → |w * v| ≤ |w| * V := fun h => by rw [abs_mul]; exact mul_le_mul_of_nonneg_left h (abs_nonneg _)
  have a := t (w := W k 0) hx
  have b := t (w := W k 1) hy
  have c := t (w := W k 2) hz
  rw [abs_le] at a b c ⊢
  have d := le_abs_self (W k 3)
  have d' := neg_abs_le (W k 3)
  constructor <;> linarith

private theorem world_translate (h120 : 120 ≤ F.emax) (hW : Rigid W) {sx sy A T κ n f X Y Z x y z : ℝ} (hκ0 : 0 ≤ κ) (hκ : κ ≤ 1 / 100) (hA : 0 < A) (hT : 0 < T)
    (h1 : |sx - A| ≤ κ * A) (h2 : |sy - T| ≤ κ * T) (hx : sx ≤ 4096) (hy : sy ≤ 4096) (hx0 : 0 < sx) (hy0 : 0 < sy) (hn : 1 / 16 ≤ n) (hf : 2 * n ≤ f)
    (hxX : |x| ≤ X) (hyY : |y| ≤ Y) (hzZ : |z| ≤ Z) (hX : X ≤ 2 ^ 35) (hY : Y ≤ 2 ^ 35) (hZ : Z ≤ 2 ^ 35) :
    let P := viewMat (1 / sx) (1 / sy) n (f / (f - n))
    let m := fun i => Spec.clipMargin F (10 * F.u) (F.eta * (4 * 2 ^ 37 + 5)) (magM P W) i X Y Z
    let a := Spec.coord W 0 x y z
    let b := Spec.coord W 1 x y z
    let c := Spec.coord W 2 x y z
    let R := fun k => Spec.coord (Spec.absEntries W) k X Y Z
    (|a| + (40 * F.u * (R 0 + A * R 2 + 1 / 2 ^ 30) + κ * A * R 2) < A * -c ∧ |b| + (40 * F.u * (R 1 + T * R 2 + 1 / 2 ^ 30) + κ * T * R 2) < T * -c ∧
        n + 40 * F.u * (R 2 + n) < -c ∧ -c + 40 * F.u * f * (R 2 / n + 1) < f →
      ∀ i : Fin 4, i ≠ 3 → |Spec.coord (mulM P W) i x y z| + m i < Spec.coord (mulM P W) 3 x y z) ∧
    ((∀ i : Fin 4, i ≠ 3 → |Spec.coord (mulM P W) i x y z| ≤ Spec.coord (mulM P W) 3 x y z + m i) →
      |a| ≤ A * -c + (40 * F.u * (R 0 + A * R 2 + 1 / 2 ^ 30) + κ * A * R 2) ∧ |b| ≤ T * -c + (40 * F.u * (R 1 + T * R 2 + 1 / 2 ^ 30) + κ * T * R 2) ∧
        n ≤ -c + 40 * F.u * (R 2 + n) ∧ -c ≤ f + 40 * F.u * f * (R 2 / n + 1)) := by
  intro P m a b c R
  have hu := F.u_pos
  have hη := F.eta_pos
  have hX0 : 0 ≤ X := le_trans (abs_nonneg _) hxX
  have hY0 : 0 ≤ Y := le_trans (abs_nonneg _) hyY
  have hZ0 : 0 ≤ Z := le_trans (abs_nonneg _) hzZ
  have hR0 : |a| ≤ R 0 := reach_le 0 hxX hyY hzZ
  have hR1 : |b| ≤ R 1 := reach_le 1 hxX hyY hzZ
  have hR2 : |c| ≤ R 2 := reach_le 2 hxX hyY hzZ
  have hd : 0 < f - n := by linarith
  have hB1 : 1 ≤ f / (f - n) := by rw [le_div_iff₀ hd]; linarith
  have hB2 : f / (f - n) ≤ 2 := by rw [div_le_iff₀ hd]; linarith
  obtain ⟨c0, c1, c2, c3⟩ := view_coords (1 / sx) (1 / sy) n (f / (f - n)) a b c
  have k0 : Spec.coord (mulM P W) 0 x y z = 1 / sx * a := (coord_world hW P 0 x y z).trans c0
  have k1 : Spec.coord (mulM P W) 1 x y z = 1 / sy * b := (coord_world hW P 1 x y z).trans c1
  have k2 : Spec.coord (mulM P W) 2 x y z = -(2 * (f / (f - n)) - 1) * c + -(2 * n * (f / (f - n))) := (coord_world hW P 2 x y z).trans c2
  have k3 : Spec.coord (mulM P W) 3 x y z = -c := (coord_world hW P 3 x y z).trans c3
  have hb0 : ∀ i k, 0 ≤ Spec.both (Spec.absEntries P) i k := fun i k => by unfold Spec.both Spec.absEntries; positivity
  have S0 : ∀ i, 0 ≤ (∑ k, Spec.both (Spec.absEntries P) i k * |W k 0|) + (∑ k, Spec.both (Spec.absEntries P) i k * |W k 1|) + (∑ k, Spec.both (Spec.absEntries P) i k * |W k 2|) := by
    intro i
    have : ∀ j, 0 ≤ ∑ k, Spec.both (Spec.absEntries P) i k * |W k j| := fun j => Finset.sum_nonneg fun k _ => mul_nonneg (hb0 i k) (abs_nonneg _)
    linarith [this 0, this 1, this 2]
  have S1 := fun i => both_sum hW (hb0 i)
  have mm := fun i => margin_world (F := F) hW P (F.eta * (4 * 2 ^ 37 + 5)) i X Y Z
  have e1 : |sx|⁻¹ = sx⁻¹ := by rw [abs_of_pos hx0]
  have e2 : |sy|⁻¹ = sy⁻¹ := by rw [abs_of_pos hy0]
  have e3 : |1 - 2 * (f / (f - n))| = 2 * (f / (f - n)) - 1 := by rw [abs_sub_comm]; exact abs_of_nonneg (by linarith)
  have e4 : |2 * n * (f / (f - n))| = 2 * n * (f / (f - n)) := abs_of_nonneg (mul_nonneg (by linarith) (by linarith))
  have v00 : Spec.both (Spec.absEntries P) 0 0 = 1 / sx := by simp [P, Spec.both, Spec.absEntries, viewMat, e1]
  have v01 : Spec.both (Spec.absEntries P) 0 1 = 0 := by simp [P, Spec.both, Spec.absEntries, viewMat]
  have v02 : Spec.both (Spec.absEntries P) 0 2 = 1 := by simp [P, Spec.both, Spec.absEntries, viewMat]
  have v03 : Spec.both (Spec.absEntries P) 0 3 = 0 := by simp [P, Spec.both, Spec.absEntries, viewMat]
  have v10 : Spec.both (Spec.absEntries P) 1 0 = 0 := by simp [P, Spec.both, Spec.absEntries, viewMat]
  have v11 : Spec.both (Spec.absEntries P) 1 1 = 1 / sy := by simp [P, Spec.both, Spec.absEntries, viewMat, e2]
  have v12 : Spec.both (Spec.absEntries P) 1 2 = 1 := by simp [P, Spec.both, Spec.absEntries, viewMat]
  have v13 : Spec.both (Spec.absEntries P) 1 3 = 0 := by simp [P, Spec.both, Spec.absEntries, viewMat]
  have v20 : Spec.both (Spec.absEntries P) 2 0 = 0 := by simp [P, Spec.both, Spec.absEntries, viewMat]
  have v21 : Spec.both (Spec.absEntries P) 2 1 = 0 := by simp [P, Spec.both, Spec.absEntries, viewMat]
  have v22 : Spec.both (Spec.absEntries P) 2 2 = 2 * (f / (f - n)) := by
    show |(-1 : ℝ)| + |-(2 * (f / (f - n)) - 1)| = _
    rw [abs_neg, abs_neg, abs_one, ← abs_sub_comm, e3]; ring
  have v23 : Spec.both (Spec.absEntries P) 2 3 = 2 * n * (f / (f - n)) := by
    show |(0 : ℝ)| + |-(2 * n * (f / (f - n)))| = _
    rw [abs_zero, abs_neg, e4, zero_add]
  obtain ⟨Q, hQ⟩ : ∃ Q : Fin 4 → ℝ, Q = fun i => (3 * (F.eta * (4 * 2 ^ 37 + 5)) + 300 * F.eta * ((∑ k, Spec.both (Spec.absEntries P) i k * |W k 0|) +
      (∑ k, Spec.both (Spec.absEntries P) i k * |W k 1|) + (∑ k, Spec.both (Spec.absEntries P) i k * |W k 2|))) * (X + Y + Z + 1) := ⟨_, rfl⟩
  have hQs : ∀ i s, 0 ≤ s → s ≤ 4096 → s * (2 * (Spec.both (Spec.absEntries P) i 0 + Spec.both (Spec.absEntries P) i 1 + Spec.both (Spec.absEntries P) i 2)) ≤ 2 ^ 14 → s * Q i ≤ F.u / 2 ^ 28 := by
    intro i s hs0 hs hle
    have := small_rest (X := X) (Y := Y) (Z := Z) h120 (mul_le_mul_of_nonneg_left (S1 i) hs0) hle (mul_nonneg hs0 (S0 i)) hX0 hY0 hZ0 hX hY hZ hs0 hs
    rw [hQ]
    refine le_trans (le_of_eq ?_) this
    ring
  have Q0 : ∀ i, 0 ≤ Q i := by
    intro i
    rw [hQ]
    have := S0 i
    positivity
  have m0 : m 0 = 33 * F.u * (1 / sx * R 0 + R 2) + Q 0 := by
    refine (mm 0).trans ?_
    rw [hQ, v00, v01, v02, v03]; ring
  have m1 : m 1 = 33 * F.u * (1 / sy * R 1 + R 2) + Q 1 := by
    refine (mm 1).trans ?_
    rw [hQ, v10, v11, v12, v13]; ring
  have m2 : m 2 = 33 * F.u * (2 * (f / (f - n)) * R 2 + 2 * n * (f / (f - n))) + Q 2 := by
    refine (mm 2).trans ?_
    rw [hQ, v20, v21, v22, v23]; ring
  have q0 : sx * Q 0 ≤ 40 * F.u * (1 / 2 ^ 30) := by
    refine (hQs 0 sx hx0.le hx ?_).trans ?_
    · rw [v00, v01, v02]
      have : sx * (2 * (1 / sx + 0 + 1)) = 2 + 2 * sx := by field_simp; ring
      rw [this]; norm_num; linarith
    · norm_num; linarith
  have q1 : sy * Q 1 ≤ 40 * F.u * (1 / 2 ^ 30) := by
    refine (hQs 1 sy hy0.le hy ?_).trans ?_
    · rw [v10, v11, v12]
      have : sy * (2 * (0 + 1 / sy + 1)) = 2 + 2 * sy := by field_simp; ring
      rw [this]; norm_num; linarith
    · norm_num; linarith
  have q2 : Q 2 ≤ F.u / 8 := by
    have := hQs 2 1 (by norm_num) (by norm_num) (by rw [v20, v21, v22]; norm_num; linarith)
    rw [one_mul] at this
    refine this.trans ?_
    norm_num; linarith
  obtain ⟨sx1, sx2⟩ := side_core (c := 33) (C := 40) (y := a) (z := c) (by norm_num) (by norm_num) h1 hκ0 hκ hA hu q0 (le_trans (abs_nonneg _) hR0) hR2
  obtain ⟨sy1, sy2⟩ := side_core (c := 33) (C := 40) (y := b) (z := c) (by norm_num) (by norm_num) h2 hκ0 hκ hT hu q1 (le_trans (abs_nonneg _) hR1) hR2
  obtain ⟨d1, d2⟩ := depth_core (c := 33) (C := 40) (z := c) (by norm_num) (by norm_num) hn hf rfl hu (Q0 2) q2 (le_trans (abs_nonneg _) hR2)
  constructor
  · rintro ⟨i1, i2, i3, i4⟩ i hi
    match i, hi with
    | 3, h => exact absurd rfl h
    | 0, _ => rw [m0, k0, k3]; exact sx1 i1
    | 1, _ => rw [m1, k1, k3]; exact sy1 i2
    | 2, _ => rw [m2, k2, k3]; exact d1 i3 i4
  · intro h
    have g0 := h 0 (by decide)
    have g1 := h 1 (by decide)
    have g2 := h 2 (by decide)
    rw [m0, k0, k3] at g0
    rw [m1, k1, k3] at g1
    rw [m2, k2, k3] at g2
    exact ⟨sx2 g0, sy2 g1, d2 g2⟩
end planes

/-! ## The chain -/

private theorem rigid {V : Mat 4 4 (Fp F)} (hV : Spec.Placement V) : Rigid (fun i j => (V.get i j).val) := ⟨hV.last, hV.rotation, hV.shift⟩

private theorem world_chain (hF : Spec.Roomy F) (h120 : 120 ≤ F.emax) (hp : F.p ≤ D.p) (he : F.emax ≤ D.emax) (h62 : D.p ≤ 62) {tan : Fp D → Fp D} {τ : ℝ} (hτ0 : 0 ≤ τ) (hτ : τ ≤ 1 / 1024)
    (htan : Spec.TanLib tan τ) (f : Frustum (Fp F)) (fov aspect n fa : Fp F) (h : Spec.Everyday fov aspect n fa) (V : Mat 4 4 (Fp F)) (hV : Spec.Placement V) {X Y Z : ℝ}
    (hX0 : 0 ≤ X) (hY0 : 0 ≤ Y) (hZ0 : 0 ≤ Z) (hX : X ≤ 2 ^ 35) (hY : Y ≤ 2 ^ 35) (hZ : Z ≤ 2 ^ 35) :
    let g := f.setPerspectiveMixed D tan fov aspect n fa
    let S := Spec.slope fov.val n.val
    let e := Spec.worldMargin F (Spec.slopeErr F D τ fov.val) S aspect.val n.val fa.val (Spec.reach V 0 X Y Z) (Spec.reach V 1 X Y Z) (Spec.reach V 2 X Y Z)
    let m := fun i => Spec.clipMargin F (10 * F.u) (F.eta * (4 * 2 ^ 37 + 5)) (Spec.projViewMag g V) i X Y Z
    Spec.Projects F D g ∧ (∀ i j, 4 * Spec.projViewMag g V i j + 8 * F.eta * (2 ^ 37 + 1) ≤ F.maxFinite) ∧ (∀ j, ∑ k, |(V.get k j).val| ≤ 2 ^ 37) ∧
    (∀ (σ : ℝ) (i : Fin 4), |σ| = 1 → i ≠ 3 → Spec.Robust F (10 * F.u) (F.eta * (4 * 2 ^ 37 + 5)) (Spec.projView g V) (Spec.projViewMag g V) σ i ∧
      Spec.ValuesFit F (F.eta * (4 * 2 ^ 37 + 5)) (Spec.projView g V) (Spec.projViewMag g V) σ i X Y Z) ∧
    ∀ x y z : ℝ, |x| ≤ X → |y| ≤ Y → |z| ≤ Z →
      (Spec.DeepInView S aspect.val n.val fa.val e (Spec.seen V 0 x y z) (Spec.seen V 1 x y z) (Spec.seen V 2 x y z) →
        ∀ i : Fin 4, i ≠ 3 → |Spec.coord (Spec.projView g V) i x y z| + m i < Spec.coord (Spec.projView g V) 3 x y z) ∧
      ((∀ i : Fin 4, i ≠ 3 → |Spec.coord (Spec.projView g V) i x y z| ≤ Spec.coord (Spec.projView g V) 3 x y z + m i) →
        Spec.NearlyInView S aspect.val n.val fa.val e (Spec.seen V 0 x y z) (Spec.seen V 1 x y z) (Spec.seen V 2 x y z)) := by
  intro g S e m
  obtain ⟨r1, -, k0', k1', hS0, hSa, sx', sy', r3, r4, r5, r6, r7, px, pt, bx, bt, sx, sy⟩ := view_setup hF hp he h62 hτ0 hτ htan f fov aspect n fa h
  have n1 := h.near.1
  have n2 := h.near.2
  have hn0 : 0 < n.val := by linarith
  have hW := rigid hV
  have eA : Spec.projView g V = mulM (viewMat (1 / sx') (1 / sy') n.val (fa.val / (fa.val - n.val))) fun i j => (V.get i j).val := by
    unfold Spec.projView mulM; rw [r3]
  have eB : Spec.projViewMag g V = magM (viewMat (1 / sx') (1 / sy') n.val (fa.val / (fa.val - n.val))) fun i j => (V.get i j).val := by
    unfold Spec.projViewMag magM; rw [r3]
  refine ⟨r1, ?_, column_le hW, ?_, ?_⟩
  · intro i j
    have hb := view_both (one_div_nonneg.2 px.le) r6 (one_div_nonneg.2 pt.le) r7 hn0.le n2 r4 r5 i
    have hle : ∀ k, 0 ≤ |viewMat (1 / sx') (1 / sy') n.val (fa.val / (fa.val - n.val)) i k| ∧ |viewMat (1 / sx') (1 / sy') n.val (fa.val / (fa.val - n.val)) i k| ≤ 131073 := by
      intro k
      refine ⟨abs_nonneg _, le_trans ?_ (hb k).2⟩
      unfold Spec.both Spec.absEntries
      exact le_add_of_nonneg_left (abs_nonneg _)
    have := (weighted_le hW hle j).2
    rw [eB]
    have big := max_120 h120
    have hηs := eta_119 h120
    have hu := u_21 hF
    have : magM (viewMat (1 / sx') (1 / sy') n.val (fa.val / (fa.val - n.val))) (fun i j => (V.get i j).val) i j ≤ 131073 * 2 ^ 37 := this
    have hη1 : F.eta ≤ 1 := by
      refine hηs.trans ?_
      rw [div_le_iff₀ (by positivity)]
      exact hu.trans (by norm_num)
    norm_num at *
    linarith
  · intro σ i a b
    rw [eA, eB]
    exact world_fits hF h120 hW (one_div_nonneg.2 px.le) r6 (one_div_nonneg.2 pt.le) r7 hn0.le n2 r4 r5 hX0 hY0 hZ0 hX hY hZ σ i a b
  · intro x y z hx hy hz
    have key := world_translate (F := F) h120 hW k0' k1' hSa hS0 sx sy bx bt px pt n1 h.far.1 hx hy hz hX hY hZ
    rw [eA]
    simp only [m, eB]
    exact key

/-- **C157** A sphere in world coordinates, from the arguments to the verdict. For all everyday arguments of `set_perspective` and all camera placements, the chain `set_perspective`,
`compute_matrix`, `projection * modelview`, `setup`, `test_sphere`, every step of it rounded, succeeds, and the sphere is not culled if the camera sees one of its points in the described
pyramid by more than the margins, and is reported fully visible only if the camera sees all of its points in the described pyramid up to the margins. -/
theorem C157_sphere (hF : Spec.Roomy F) (h120 : 120 ≤ F.emax) (hQ : Spec.Quotients F D) (hp : F.p ≤ D.p) (he : F.emax ≤ D.emax) (h62 : D.p ≤ 62) {tan : Fp D → Fp D} {τ : ℝ} (hτ0 : 0 ≤ τ)
    (hτ : τ ≤ 1 / 1024) (htan : Spec.TanLib tan τ) (cfg : Cfg) (f : Frustum (Fp F)) (m0 V : Mat 4 4 (Fp F)) (fov aspect n fa : Fp F) (h : Spec.Everyday fov aspect n fa) (hV : Spec.Placement V)
    (s : Vec 4 (Fp F)) (hs : Spec.VFinite s) (hr : (0 : ℝ) ≤ s[3].val) {X Y Z : ℝ} (hX : |s[0].val| + s[3].val ≤ X) (hY : |s[1].val| + s[3].val ≤ Y) (hZ : |s[2].val| + s[3].val ≤ Z)
    (hX2 : X ≤ 2 ^ 35) (hY2 : Y ≤ 2 ^ 35) (hZ2 : Z ≤ 2 ^ 35) :
    let S := Spec.slope fov.val n.val
    let e := Spec.worldMargin F (Spec.slopeErr F D τ fov.val) S aspect.val n.val fa.val (Spec.reach V 0 X Y Z) (Spec.reach V 1 X Y Z) (Spec.reach V 2 X Y Z)
    ∃ P M k, (f.setPerspectiveMixed D tan fov aspect n fa).computeMatrixMixed D cfg m0 = .ok P ∧ P.mul cfg V = .ok M ∧ setupMatrixMixed D cfg M = .ok k ∧
      ∀ x y z : ℝ, (x - s[0].val) ^ 2 + (y - s[1].val) ^ 2 + (z - s[2].val) ^ 2 ≤ s[3].val ^ 2 →
        (Spec.DeepInView S aspect.val n.val fa.val e (Spec.seen V 0 x y z) (Spec.seen V 1 x y z) (Spec.seen V 2 x y z) → testSphere k s ≠ .none) ∧
        (testSphere k s = .full → Spec.NearlyInView S aspect.val n.val fa.val e (Spec.seen V 0 x y z) (Spec.seen V 1 x y z) (Spec.seen V 2 x y z)) := by
  intro S e
  have hX0 : 0 ≤ X := by linarith [abs_nonneg s[0].val]
  have hY0 : 0 ≤ Y := by linarith [abs_nonneg s[1].val]
  have hZ0 : 0 ≤ Z := by linarith [abs_nonneg s[2].val]
  obtain ⟨c1, c2, c3, c4, c5⟩ := world_chain hF h120 hp he h62 hτ0 hτ htan f fov aspect n fa h V hV hX0 hY0 hZ0 hX2 hY2 hZ2
  obtain ⟨P, M, k, hP, hM, hk, hv⟩ := C132_world_sphere hQ hp he hF.order (by have := hF.digits; omega) cfg _ m0 V c1 hV.finite c3 c2 s hs hr hX hY hZ c4
  refine ⟨P, M, k, hP, hM, hk, fun x y z hxyz => ?_⟩
  have near : ∀ {a b t W : ℝ}, t ^ 2 ≤ b ^ 2 → 0 ≤ b → |a| + b ≤ W → |a + t| ≤ W := by
    intro a b t W ht hb hW
    have h1 : |t| ≤ b := abs_le_of_sq_le_sq ht hb
    exact (abs_add_le _ _).trans (by linarith)
  have hx : |x| ≤ X := by
    have := near (a := s[0].val) (t := x - s[0].val) (b := s[3].val) (by nlinarith [sq_nonneg (y - s[1].val), sq_nonneg (z - s[2].val)]) hr hX
    rwa [add_sub_cancel] at this
  have hy : |y| ≤ Y := by
    have := near (a := s[1].val) (t := y - s[1].val) (b := s[3].val) (by nlinarith [sq_nonneg (x - s[0].val), sq_nonneg (z - s[2].val)]) hr hY
    rwa [add_sub_cancel] at this
  have hz : |z| ≤ Z := by
    have := near (a := s[2].val) (t := z - s[2].val) (b := s[3].val) (by nlinarith [sq_nonneg (y - s[1].val), sq_nonneg (x - s[0].val)]) hr hZ
    rwa [add_sub_cancel] at this
  obtain ⟨d1, d2⟩ := c5 x y z hx hy hz
  obtain ⟨v1, v2⟩ := hv x y z hxyz
  exact ⟨fun hd => v1 (d1 hd), fun hfull => d2 (v2 hfull)⟩

/-- **C157** The same for an axis-aligned box in world coordinates. -/
theorem C157_box (hF : Spec.Roomy F) (h120 : 120 ≤ F.emax) (hQ : Spec.Quotients F D) (hp : F.p ≤ D.p) (he : F.emax ≤ D.emax) (h62 : D.p ≤ 62) {tan : Fp D → Fp D} {τ : ℝ} (hτ0 : 0 ≤ τ)
    (hτ : τ ≤ 1 / 1024) (htan : Spec.TanLib tan τ) (cfg : Cfg) (f : Frustum (Fp F)) (m0 V : Mat 4 4 (Fp F)) (fov aspect n fa : Fp F) (h : Spec.Everyday fov aspect n fa) (hV : Spec.Placement V)
    (half : Fp F) (hh : half.Finite) (hv : half.val = 1 / 2) (bx by' bz : Vec 2 (Fp F)) (hx : Spec.VFinite bx) (hy : Spec.VFinite by') (hz : Spec.VFinite bz)
    (hX : Spec.span bx ≤ 2 ^ 35) (hY : Spec.span by' ≤ 2 ^ 35) (hZ : Spec.span bz ≤ 2 ^ 35) :
    let S := Spec.slope fov.val n.val
    let R := fun k => Spec.reach V k (Spec.span bx) (Spec.span by') (Spec.span bz)
    let e := Spec.worldMargin F (Spec.slopeErr F D τ fov.val) S aspect.val n.val fa.val (R 0) (R 1) (R 2)
    ∃ P M k v, (f.setPerspectiveMixed D tan fov aspect n fa).computeMatrixMixed D cfg m0 = .ok P ∧ P.mul cfg V = .ok M ∧ setupMatrixMixed D cfg M = .ok k ∧ testAabb cfg half k bx by' bz = .ok v ∧
      ∀ x y z : ℝ, Spec.FBoxHas bx by' bz x y z →
        (Spec.DeepInView S aspect.val n.val fa.val e (Spec.seen V 0 x y z) (Spec.seen V 1 x y z) (Spec.seen V 2 x y z) → v ≠ .none) ∧
        (v = .full → Spec.NearlyInView S aspect.val n.val fa.val e (Spec.seen V 0 x y z) (Spec.seen V 1 x y z) (Spec.seen V 2 x y z)) := by
  intro S R e
  have sp0 : ∀ w : Vec 2 (Fp F), 0 ≤ Spec.span w := fun w => by unfold Spec.span; positivity
  obtain ⟨c1, c2, c3, c4, c5⟩ := world_chain hF h120 hp he h62 hτ0 hτ htan f fov aspect n fa h V hV (sp0 bx) (sp0 by') (sp0 bz) hX hY hZ
  have big := max_120 h120
  have hu := F.u_pos
  have hus := u_21 hF
  have hts := tiny_119 h120
  have ht := F.tiny_pos
  have room : ∀ w : Vec 2 (Fp F), Spec.span w ≤ 2 ^ 35 → Spec.grow F 2 (Spec.span w + F.tiny) ≤ F.maxFinite := by
    intro w hw
    unfold Spec.grow
    have g6 : (1 + F.u) ^ 2 ≤ 2 := by
      calc (1 + F.u) ^ 2 ≤ (1 + 1 / 2 ^ 21) ^ 2 := by gcongr
        _ ≤ 2 := by norm_num
    have := sp0 w
    calc _ ≤ 2 * (2 ^ 35 + 1 / 2 ^ 119) := mul_le_mul g6 (add_le_add hw hts) (by linarith) (by norm_num)
      _ ≤ _ := by norm_num at big ⊢; linarith
  obtain ⟨P, M, k, v, hP, hM, hk, hr, hvv⟩ := C132_world_box hQ hp he hF.order (by have := hF.digits; omega) cfg _ m0 V c1 hV.finite c3 c2 half hh hv bx by' bz hx hy hz
    (by
      intro w hw
      simp only [List.mem_cons, List.not_mem_nil, or_false] at hw
      rcases hw with rfl | rfl | rfl
      · exact room _ hX
      · exact room _ hY
      · exact room _ hZ) c4
  refine ⟨P, M, k, v, hP, hM, hk, hr, fun x y z hxyz => ?_⟩
  have inside : ∀ {w : Vec 2 (Fp F)} {t : ℝ}, t ∈ Set.uIcc w[0].val w[1].val → |t| ≤ Spec.span w := by
    intro w t h1
    unfold Spec.span
    rcases Set.mem_uIcc.1 h1 with ⟨p, q⟩ | ⟨p, q⟩ <;> rw [abs_le] <;>
      constructor <;> linarith [neg_abs_le w[0].val, le_abs_self w[0].val, neg_abs_le w[1].val, le_abs_self w[1].val, abs_nonneg w[0].val, abs_nonneg w[1].val]
  obtain ⟨d1, d2⟩ := c5 x y z (inside hxyz.1) (inside hxyz.2.1) (inside hxyz.2.2)
  obtain ⟨v1, v2⟩ := hvv x y z hxyz
  exact ⟨fun hd => v1 (d1 hd), fun hfull => d2 (v2 hfull)⟩

/-- The formats meet the additional hypothesis. -/
example : 120 ≤ single.emax ∧ 120 ≤ double.emax := ⟨by norm_num, by norm_num⟩

private theorem num_w (k : Int) (hk : |k| ≤ 2 ^ 24) : ∃ a : Fp single, a.Finite ∧ a.val = k := by
  have h := Quant.ofReal_int (F := single) (by norm_num) (k := k) hk
  exact ⟨_, h⟩

/-- A camera placement in `float`: a quarter turn about the y axis and the shift `(1, 1, -5)`. -/
theorem quarter_turn : ∃ V : Mat 4 4 (Fp single), Spec.Placement V ∧ ∀ i j, (V.get i j).val = (!![0, 0, 1, 1; 0, 1, 0, 1; -1, 0, 0, -5; 0, 0, 0, 1] : Fin 4 → Fin 4 → ℝ) i j := by
  obtain ⟨a0, f0, v0⟩ := num_w 0 (by norm_num)
  obtain ⟨a1, f1, v1⟩ := num_w 1 (by norm_num)
  obtain ⟨b1, g1, w1⟩ := num_w (-1) (by norm_num)
  obtain ⟨b5, g5, w5⟩ := num_w (-5) (by norm_num)
  push_cast at v0 v1 w1 w5
  obtain ⟨V, hVf, hVv⟩ : ∃ V : Mat 4 4 (Fp single), (∀ i j, (V.get i j).Finite) ∧ ∀ i j, (V.get i j).val = (!![0, 0, 1, 1; 0, 1, 0, 1; -1, 0, 0, -5; 0, 0, 0, 1] : Fin 4 → Fin 4 → ℝ) i j := by
    refine ⟨Mat.ofFn fun i j => ![![a0, a0, a1, a1], ![a0, a1, a0, a1], ![b1, a0, a0, b5], ![a0, a0, a0, a1]] i j, ?_, ?_⟩
    · intro i j
      rw [Mat.get_ofFn]
      fin_cases i <;> fin_cases j <;> assumption
    · intro i j
      rw [Mat.get_ofFn]
      fin_cases i <;> fin_cases j <;> simp [v0, v1, w1, w5]
  have hpl : Spec.Placement V := by
    refine ⟨hVf, ?_, ?_, ?_⟩
    · intro j; rw [hVv]; fin_cases j <;> simp
    · intro i k hi hk
      simp only [hVv]
      fin_cases i <;> fin_cases k <;> simp_all
    · intro i
      rw [hVv]
      fin_cases i <;> simp <;> norm_num
  exact ⟨V, hpl, hVv⟩

/-- A camera placement and everyday arguments in `float`: a quarter turn about the y axis and the shift `(1, 1, -5)`; 90 degrees, aspect ratio 2, near plane at 1/2 and far plane at 100.
The camera sees the centre `(10, 2, -1)` of a sphere of radius 3 at `(0, 3, -15)`, which is deep in view. -/
example : ∃ (V : Mat 4 4 (Fp single)) (fov aspect n fa : Fp single) (s : Vec 4 (Fp single)), Spec.Placement V ∧ Spec.Everyday fov aspect n fa ∧ Spec.VFinite s ∧ (0 : ℝ) ≤ s[3].val ∧
    |s[0].val| + s[3].val ≤ 13 ∧ |s[1].val| + s[3].val ≤ 5 ∧ |s[2].val| + s[3].val ≤ 4 ∧
    ((10 : ℝ) - s[0].val) ^ 2 + ((2 : ℝ) - s[1].val) ^ 2 + ((-1 : ℝ) - s[2].val) ^ 2 ≤ s[3].val ^ 2 ∧ Spec.seen V 0 10 2 (-1) = 0 ∧ Spec.seen V 1 10 2 (-1) = 3 ∧ Spec.seen V 2 10 2 (-1) = -15 ∧
    Spec.DeepInView (Spec.slope fov.val n.val) aspect.val n.val fa.val
      (Spec.worldMargin single (Spec.slopeErr single double double.u fov.val) (Spec.slope fov.val n.val) aspect.val n.val fa.val (Spec.reach V 0 13 5 4) (Spec.reach V 1 13 5 4) (Spec.reach V 2 13 5 4))
      (Spec.seen V 0 10 2 (-1)) (Spec.seen V 1 10 2 (-1)) (Spec.seen V 2 10 2 (-1)) := by
  obtain ⟨b1, g1, w1⟩ := num_w (-1) (by norm_num)
  obtain ⟨a2, f2, v2⟩ := num_w 2 (by norm_num)
  obtain ⟨a3, f3, v3⟩ := num_w 3 (by norm_num)
  obtain ⟨a10, f10, v10⟩ := num_w 10 (by norm_num)
  obtain ⟨a90, f90, v90⟩ := num_w 90 (by norm_num)
  obtain ⟨a100, f100, v100⟩ := num_w 100 (by norm_num)
  push_cast at w1 v2 v3 v10 v90 v100
  obtain ⟨hh, fh, vh⟩ : ∃ a : Fp single, a.Finite ∧ a.val = 1 / 2 := by
    have hrep := rep_half (F := single) (by norm_num)
    obtain ⟨p, q⟩ := Fp.ofReal_fin (F := single) (by norm_num) (x := 1 / 2) (by
      rw [abs_of_pos (by norm_num)]
      exact le_trans (by norm_num) (one_le_max (F := single) (by norm_num)))
    exact ⟨_, p, by rw [q]; exact hrep.rnd_eq⟩
  have hev : Spec.Everyday a90 a2 hh a100 := ⟨⟨f90, f2, fh, f100⟩, by rw [v90]; norm_num, by rw [v2]; norm_num, by rw [vh]; norm_num, by rw [v100, vh]; norm_num⟩
  obtain ⟨V, hpl, hVv⟩ := quarter_turn
  have s0 : Spec.seen V 0 10 2 (-1) = 0 := by unfold Spec.seen Spec.coord; simp [hVv]
  have s1 : Spec.seen V 1 10 2 (-1) = 3 := by unfold Spec.seen Spec.coord; simp [hVv]; norm_num
  have s2 : Spec.seen V 2 10 2 (-1) = -15 := by unfold Spec.seen Spec.coord; simp [hVv]; norm_num
  have r0 : Spec.reach V 0 13 5 4 = 5 := by unfold Spec.reach Spec.coord; simp [hVv]; norm_num
  have r1 : Spec.reach V 1 13 5 4 = 6 := by unfold Spec.reach Spec.coord; simp [hVv]; norm_num
  have r2 : Spec.reach V 2 13 5 4 = 18 := by unfold Spec.reach Spec.coord; simp [hVv]; norm_num
  refine ⟨V, a90, a2, hh, a100, #v[a10, a2, b1, a3], hpl, hev, ?_, ?_, ?_, ?_, ?_, ?_, s0, s1, s2, ?_⟩
  · intro i
    match i with
    | 0 => exact f10
    | 1 => exact f2
    | 2 => exact g1
    | 3 => exact f3
  · show (0 : ℝ) ≤ a3.val
    rw [v3]; norm_num
  · show |a10.val| + a3.val ≤ 13
    rw [v10, v3]; norm_num
  · show |a2.val| + a3.val ≤ 5
    rw [v2, v3]; norm_num
  · show |b1.val| + a3.val ≤ 4
    rw [w1, v3]; norm_num
  · show ((10 : ℝ) - a10.val) ^ 2 + (2 - a2.val) ^ 2 + (-1 - b1.val) ^ 2 ≤ a3.val ^ 2
    rw [v10, v2, w1, v3]; norm_num
  · have hT : Spec.slope a90.val hh.val = 1 := by
      unfold Spec.slope
      rw [vh, show (2 : ℝ) * (1 / 2) = 1 by norm_num, div_one, v90, ← Real.tan_pi_div_four]; congr 1; unfold Spec.halfAngle; ring
    have hκ := C155_slope (F := single) (D := double) (by norm_num) (τ := double.u) a90 a2 hh a100 hev
    have hu : single.u ≤ 1 / 10000000 := by unfold u; norm_num
    have hu2 : double.u ≤ 1 / 10000000 := by unfold u; norm_num
    have hu0 := single.u_pos
    rw [hT, v2, v100, vh, s0, s1, s2, r0, r1, r2]
    generalize Spec.slopeErr single double double.u a90.val = κ at *
    unfold Spec.DeepInView Spec.worldMargin
    simp only [Matrix.cons_val_zero, Matrix.cons_val_one, Matrix.cons_val]
    norm_num
    refine ⟨?_, ?_, ?_, ?_⟩ <;> linarith
end Vmml
