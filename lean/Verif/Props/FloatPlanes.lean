import Verif.Props.FloatSetup

/-!
# C118: from the matrix to the verdict in IEEE 754 arithmetic
-/

namespace Vmml
open Format Culler
variable {F D : Format}

/-- Relative error of the planes, about `11 u`. -/
noncomputable def Spec.setupErr (F : Format) : ℝ := (1 + F.u) ^ 3 / ((1 - F.u) * (1 - Spec.flenErr F 3)) - 1
/-- The length of the normal of a plane. -/
noncomputable def Spec.planeLen (q : Vec 4 ℝ) : ℝ := Real.sqrt (q[0] ^ 2 + q[1] ^ 2 + q[2] ^ 2)
/-- The plane can be normalised in the format: the squared length of its normal is in the normal range, its distance from the origin fits. -/
def Spec.PlaneFits (F : Format) (q : Vec 4 ℝ) : Prop :=
  2 * (2 : ℝ) ^ F.emin ≤ Spec.planeLen q ^ 2 ∧ 2 * Spec.planeLen q ^ 2 + 1 ≤ F.maxFinite ∧ |q[3]| ≤ F.maxFinite ∧ (2 : ℝ) * |q[3]| ≤ F.maxFinite * Spec.planeLen q
/-- The plane `row 3 + s * row i` on the represented numbers, in exact arithmetic. -/
def Spec.exactPlane (m : Mat 4 4 (Fp F)) (s : ℝ) (i : Fin 4) : Vec 4 ℝ := Vector.ofFn fun j : Fin 4 => (m.get 3 j).val + s * (m.get i j).val
/-- The six planes of the view frustum of a matrix: left, right, bottom, top, near, far. -/
def Spec.exactPlanes (m : Mat 4 4 (Fp F)) : List (Vec 4 ℝ) :=
  [Spec.exactPlane m 1 0, Spec.exactPlane m (-1) 0, Spec.exactPlane m 1 1, Spec.exactPlane m (-1) 1, Spec.exactPlane m 1 2, Spec.exactPlane m (-1) 2]

/-- The relative error of a normalised component. -/
private theorem rel_factor {u κ t d1 d2 : ℝ} (hu : 0 < u) (hu1 : u < 1) (hκ : 1 ≤ κ) (ht : |t - 1| ≤ κ - 1) (h1 : |d1| ≤ u) (h2 : |d2| ≤ u) :
    |t * (1 + d1) / (1 + d2) - 1| ≤ κ * (1 + u) / (1 - u) - 1 := by
  obtain ⟨t1, t2⟩ := abs_le.1 ht
  obtain ⟨a1, a2⟩ := abs_le.1 h1
  obtain ⟨b1, b2⟩ := abs_le.1 h2
  have hd : 0 < 1 + d2 := by linarith
  have hu' : 0 < 1 - u := by linarith
  rw [abs_le]
  constructor
  · rw [neg_le_sub_iff_le_add, ← sub_le_iff_le_add, le_div_iff₀ hd]
    have e : (1 - (κ * (1 + u) / (1 - u) - 1)) * (1 + d2) * (1 - u) = (2 * (1 - u) - κ * (1 + u)) * (1 + d2) := by field_simp; ring
    have key : (1 - (κ * (1 + u) / (1 - u) - 1)) * (1 + d2) * (1 - u) ≤ t * (1 + d1) * (1 - u) := by
      rw [e]
      by_cases hn : 2 * (1 - u) - κ * (1 + u) ≤ 0
      · by_cases ht0 : 0 ≤ t
        · nlinarith [mul_nonneg (mul_nonneg ht0 (by linarith : 0 ≤ 1 + d1)) hu'.le, mul_nonneg (neg_nonneg.2 hn) hd.le]
        · push Not at ht0
          -- t ≥ 2 - κ
          have s1 : (2 * (1 - u) - κ * (1 + u)) * (1 + d2) ≤ (2 * (1 - u) - κ * (1 + u)) * (1 - u) := by nlinarith
          have s2 : t * (1 + u) ≤ t * (1 + d1) := by nlinarith
          have s3 : (2 * (1 - u) - κ * (1 + u)) ≤ t * (1 + u) := by nlinarith
          nlinarith
      · push Not at hn
        have ht0 : 0 ≤ t := by nlinarith
        have s1 : (2 * (1 - u) - κ * (1 + u)) * (1 + d2) ≤ (2 * (1 - u) - κ * (1 + u)) * (1 + u) := by nlinarith
        have s2 : t * (1 - u) * (1 - u) ≤ t * (1 + d1) * (1 - u) := by
          apply mul_le_mul_of_nonneg_right _ hu'.le
          apply mul_le_mul_of_nonneg_left _ ht0
          linarith
        have s3 : (2 - κ) * (1 - u) * (1 - u) ≤ t * (1 - u) * (1 - u) := by
          apply mul_le_mul_of_nonneg_right _ hu'.le
          apply mul_le_mul_of_nonneg_right _ hu'.le
          linarith
        nlinarith [mul_nonneg (sub_nonneg.2 hκ) hu.le]
    have := le_of_mul_le_mul_right key hu'
    linarith
  · rw [sub_le_sub_iff_right, div_le_div_iff₀ hd hu']
    have hκ0 : 0 ≤ κ := by linarith
    have s1 : t * (1 + d1) * (1 - u) ≤ κ * (1 + u) * (1 - u) := by
      apply mul_le_mul_of_nonneg_right _ hu'.le
      nlinarith
    have s2 : κ * (1 + u) * (1 - u) ≤ κ * (1 + u) * (1 + d2) := by
      apply mul_le_mul_of_nonneg_left _ (by positivity)
      linarith
    linarith

theorem Format.u_small (h5 : 5 ≤ F.p) : F.u ≤ 1 / 64 := by
  unfold u
  calc ((2 : ℝ)⁻¹) ^ (F.p + 1) ≤ ((2 : ℝ)⁻¹) ^ 6 := pow_le_pow_of_le_one (by norm_num) (by norm_num) (by omega)
    _ = 1 / 64 := by norm_num

theorem Format.flenErr_small (h5 : 5 ≤ F.p) : 0 ≤ Spec.flenErr F 3 ∧ Spec.flenErr F 3 ≤ 1 / 8 := by
  have hu := F.u_pos
  have h := F.u_small h5
  unfold Spec.flenErr Spec.gamma
  have h3 : (0 : ℝ) < 1 - (3 : Nat) * F.u := by push_cast; linarith
  have g0 : 0 ≤ (3 : Nat) * F.u / (1 - (3 : Nat) * F.u) := div_nonneg (by positivity) h3.le
  have g1 : (3 : Nat) * F.u / (1 - (3 : Nat) * F.u) ≤ 1 / 20 := by
    rw [div_le_iff₀ h3]; push_cast; linarith
  obtain ⟨g, hg⟩ : ∃ g, g = (3 : Nat) * F.u / (1 - (3 : Nat) * F.u) := ⟨_, rfl⟩
  rw [← hg] at g0 g1 ⊢
  constructor <;> nlinarith

private theorem norm_near {u a0 a1 a2 r0 r1 r2 : ℝ} (hu : 0 ≤ u) (h0 : |a0 - r0| ≤ u * |r0|) (h1 : |a1 - r1| ≤ u * |r1|) (h2 : |a2 - r2| ≤ u * |r2|) (hu1 : u ≤ 1) :
    (1 - u) ^ 2 * (r0 ^ 2 + r1 ^ 2 + r2 ^ 2) ≤ a0 ^ 2 + a1 ^ 2 + a2 ^ 2 ∧ a0 ^ 2 + a1 ^ 2 + a2 ^ 2 ≤ (1 + u) ^ 2 * (r0 ^ 2 + r1 ^ 2 + r2 ^ 2) := by
  have key : ∀ {a r : ℝ}, |a - r| ≤ u * |r| → (1 - u) ^ 2 * r ^ 2 ≤ a ^ 2 ∧ a ^ 2 ≤ (1 + u) ^ 2 * r ^ 2 := by
    intro a r h
    have l1 : (1 - u) * |r| ≤ |a| := by
      have := abs_sub_abs_le_abs_sub r a
      rw [abs_sub_comm] at this
      linarith
    have l2 : |a| ≤ (1 + u) * |r| := by
      have := abs_sub_abs_le_abs_sub a r
      linarith
    rw [← sq_abs a, ← sq_abs r, ← mul_pow, ← mul_pow]
    exact ⟨pow_le_pow_left₀ (mul_nonneg (by linarith) (abs_nonneg _)) l1 2, pow_le_pow_left₀ (abs_nonneg _) l2 2⟩
  have k0 := key h0
  have k1 := key h1
  have k2 := key h2
  constructor <;> linarith [k0.1, k0.2, k1.1, k1.2, k2.1, k2.2]

/-- A plane whose components are correctly rounded sums or differences. -/
private theorem plane_norm (hpe : F.p < F.emax) (h5 : 5 ≤ F.p) (cfg : Cfg) (p : Vec 4 (Fp F)) (q : Vec 4 ℝ) (hp : Spec.VFinite p)
    (hq : ∀ j : Fin 4, |p[j].val - q[j]| ≤ F.u * |q[j]|) (hfit : Spec.PlaneFits F q) :
    ∃ w, normalizePlane cfg p = .ok w ∧ ∀ j : Fin 4, w[j].Finite ∧ |w[j].val - q[j] / Spec.planeLen q| ≤ Spec.setupErr F * |q[j] / Spec.planeLen q| + F.eta := by
  have h0 : 0 < F.emax := by omega
  have hu := F.u_pos
  have hu64 := F.u_small h5
  obtain ⟨hε0, hε1⟩ := F.flenErr_small h5
  obtain ⟨f1, f2, f3, f4⟩ := hfit
  have hmin : (0 : ℝ) < (2 : ℝ) ^ F.emin := by positivity
  have hL2 : Spec.planeLen q ^ 2 = q[0] ^ 2 + q[1] ^ 2 + q[2] ^ 2 := Real.sq_sqrt (by positivity)
  have hL0 : 0 ≤ Spec.planeLen q := Real.sqrt_nonneg _
  obtain ⟨L, hL⟩ : ∃ L, L = Spec.planeLen q := ⟨_, rfl⟩
  rw [← hL] at f1 f2 f4 hL2 hL0 ⊢
  have hLpos : 0 < L := by
    rcases hL0.lt_or_eq with h | h
    · exact h
    · rw [← h] at f1; norm_num at f1; linarith
  obtain ⟨n1, n2⟩ := norm_near hu.le (hq 0) (hq 1) (hq 2) (by linarith)
  have hS : ∑ i : Fin 3, (#v[p[0], p[1], p[2]] : Vec 3 (Fp F))[i].val ^ 2 = p[0].val ^ 2 + p[1].val ^ 2 + p[2].val ^ 2 := by
    rw [Fin.sum_univ_three]; rfl
  have m1 : ((1 : ℝ) - F.u) ^ 2 * L ^ 2 ≤ p[0].val ^ 2 + p[1].val ^ 2 + p[2].val ^ 2 := by rw [hL2]; exact n1
  have m2 : p[0].val ^ 2 + p[1].val ^ 2 + p[2].val ^ 2 ≤ ((1 : ℝ) + F.u) ^ 2 * L ^ 2 := by rw [hL2]; exact n2
  obtain ⟨S, hSd⟩ : ∃ S, S = p[0].val ^ 2 + p[1].val ^ 2 + p[2].val ^ 2 := ⟨_, rfl⟩
  rw [← hSd] at hS m1 m2
  have heta : F.eta ≤ 1 / 8 := by
    rw [eta_eq_tiny]
    have := tiny_le_one h0
    nlinarith only [F.tiny_pos, this, hu, hu64]
  have hlo : (2 : ℝ) ^ F.emin ≤ S := by
    have b0 : (1 / 2 : ℝ) ≤ (1 - F.u) ^ 2 := by nlinarith only [hu, hu64]
    have b1 := mul_le_mul_of_nonneg_right b0 (sq_nonneg L)
    linarith only [b1, m1, f1]
  have hhi : S + (3 : Nat) * F.eta ≤ (1 - (3 : Nat) * F.u) * F.maxFinite := by
    push_cast
    have b1 : (1 + F.u) ^ 2 * L ^ 2 ≤ 11 / 10 * L ^ 2 := mul_le_mul_of_nonneg_right (by nlinarith only [hu, hu64]) (sq_nonneg L)
    have b2 : (19 / 20 : ℝ) * F.maxFinite ≤ (1 - 3 * F.u) * F.maxFinite := mul_le_mul_of_nonneg_right (by linarith) maxFinite_pos.le
    linarith only [sq_nonneg L, b1, b2, m2, heta, f2]
  obtain ⟨len, hl1, -, -, t1, -, -, hfl, hT, h4⟩ := recip_length hpe (by omega) (#v[p[0], p[1], p[2]] : Vec 3 (Fp F)) (by push_cast; linarith) (by linarith)
    (by intro i; fin_cases i <;> [exact hp 0; exact hp 1; exact hp 2]) (by rw [hS]; exact hlo) (by rw [hS]; exact hhi)
  obtain ⟨len', hl2, e⟩ := normalizePlane_gen cfg p
  obtain rfl : len = len' := Except.ok.inj (hl1.symm.trans hl2)
  refine ⟨_, e, fun j => ?_⟩
  have hflv : Spec.flen (#v[p[0], p[1], p[2]] : Vec 3 (Fp F)) = Real.sqrt S := by unfold Spec.flen; rw [hS]
  rw [hflv] at hT hfl
  -- the computed length of the rounded normal
  have s1 : (1 - F.u) * L ≤ Real.sqrt S := by
    apply Real.le_sqrt_of_sq_le; rw [mul_pow]; exact m1
  have s2 : Real.sqrt S ≤ (1 + F.u) * L := by
    rw [Real.sqrt_le_left (by positivity), mul_pow]; exact m2
  obtain ⟨fl, hfld⟩ : ∃ fl, fl = Real.sqrt S := ⟨_, rfl⟩
  rw [← hfld] at hT hfl s1 s2
  obtain ⟨T, hTd⟩ : ∃ T, T = (1 / len : Fp F).val := ⟨_, rfl⟩
  rw [← hTd] at hT
  obtain ⟨κ, hκd⟩ : ∃ κ, κ = (1 + F.u) / (1 - Spec.flenErr F 3) := ⟨_, rfl⟩
  rw [← hκd] at hT
  have hκ1 : 1 ≤ κ := by rw [hκd, le_div_iff₀ (by linarith)]; linarith
  have hκ2 : κ ≤ 6 / 5 := by rw [hκd, div_le_iff₀ (by linarith)]; linarith
  obtain ⟨K, hK⟩ : ∃ K, K = κ * (1 + F.u) / (1 - F.u) := ⟨_, rfl⟩
  have hK2 : K ≤ 2 := by rw [hK, div_le_iff₀ (by linarith only [hu64])]; nlinarith only [hu, hu64, hκ1, hκ2]
  have hK1 : 1 ≤ K := by rw [hK, le_div_iff₀ (by linarith only [hu64])]; nlinarith only [hu, hu64, hκ1]
  have hE : Spec.setupErr F = (1 + F.u) * K - 1 := by
    rw [hK, hκd]; unfold Spec.setupErr
    have : 1 - F.u ≠ 0 := by linarith
    have : 1 - Spec.flenErr F 3 ≠ 0 := by linarith
    field_simp
  have main : ∀ (a : Fp F) (r : ℝ), a.Finite → |a.val - r| ≤ F.u * |r| → 2 * |r| ≤ F.maxFinite * L →
      (a * (1 / len)).Finite ∧ |(a * (1 / len)).val - r / L| ≤ Spec.setupErr F * |r / L| + F.eta := by
    intro a r ha har hr
    have hx : |a.val * T - r / L| ≤ (K - 1) * |r / L| := by
      obtain ⟨d1, hd1, ed1⟩ : ∃ d1, |d1| ≤ F.u ∧ a.val = r * (1 + d1) := by
        by_cases hr0 : r = 0
        · subst hr0
          rw [abs_zero, mul_zero, sub_zero, abs_nonpos_iff] at har
          exact ⟨0, by simpa using hu.le, by simp [har]⟩
        · refine ⟨a.val / r - 1, ?_, by field_simp; ring⟩
          rw [show a.val / r - 1 = (a.val - r) / r by field_simp, abs_div, div_le_iff₀ (abs_pos.2 hr0)]
          exact har
      have hd2 : |fl / L - 1| ≤ F.u := by
        rw [show fl / L - 1 = (fl - L) / L by field_simp, abs_div, abs_of_pos hLpos, div_le_iff₀ hLpos, abs_le]
        constructor <;> linarith
      have := rel_factor (d1 := d1) (d2 := fl / L - 1) (t := T * fl) hu (by linarith) hκ1 hT hd1 hd2
      rw [← hK] at this
      have e2 : a.val * T - r / L = (T * fl * (1 + d1) / (1 + (fl / L - 1)) - 1) * (r / L) := by
        rw [ed1, show 1 + (fl / L - 1) = fl / L by ring]; field_simp
      rw [e2, abs_mul]
      exact mul_le_mul_of_nonneg_right this (abs_nonneg _)
    have hx2 : |a.val * T| ≤ K * |r / L| := by
      have := abs_sub_abs_le_abs_sub (a.val * T) (r / L)
      linarith
    have hx3 : K * |r / L| ≤ F.maxFinite := by
      rw [abs_div, abs_of_pos hLpos, ← mul_div_assoc, div_le_iff₀ hLpos]
      refine le_trans ?_ hr
      exact mul_le_mul_of_nonneg_right hK2 (abs_nonneg _)
    obtain ⟨g1, g2⟩ := Fp.mul_fin h0 ha t1 (by rw [← hTd]; exact hx2.trans hx3)
    rw [← hTd] at g2
    refine ⟨g1, ?_⟩
    have g3 := rnd_err_add (F := F) (a.val * T)
    rw [← g2] at g3
    have e3 : (a * (1 / len)).val - r / L = ((a * (1 / len)).val - a.val * T) + (a.val * T - r / L) := by ring
    rw [e3, hE]
    refine (abs_add_le _ _).trans ?_
    linarith only [mul_le_mul_of_nonneg_left hx2 hu.le, g3, hx]
  have hle : ∀ r : ℝ, r ^ 2 ≤ L ^ 2 → 2 * |r| ≤ F.maxFinite * L := by
    intro r hr
    have : |r| ≤ L := abs_le_of_sq_le_sq hr hLpos.le
    nlinarith only [this, h4, hLpos]
  have q0 := sq_nonneg q[0]
  have q1 := sq_nonneg q[1]
  have q2 := sq_nonneg q[2]
  have g0 := hle q[0] (by linarith only [hL2, q0, q1, q2])
  have g1 := hle q[1] (by linarith only [hL2, q0, q1, q2])
  have g2 := hle q[2] (by linarith only [hL2, q0, q1, q2])
  simp only [Fin.getElem_fin, Vector.getElem_ofFn]
  refine main _ _ (hp j) (hq j) ?_
  match j with
  | 0 => exact g0
  | 1 => exact g1
  | 2 => exact g2
  | 3 => exact f4

private theorem comp_le (q : Vec 4 ℝ) (h : Spec.PlaneFits F q) (j : Fin 4) : |q[j]| ≤ F.maxFinite := by
  obtain ⟨-, f2, f3, -⟩ := h
  have hL2 : Spec.planeLen q ^ 2 = q[0] ^ 2 + q[1] ^ 2 + q[2] ^ 2 := Real.sq_sqrt (by positivity)
  have hL0 : 0 ≤ Spec.planeLen q := Real.sqrt_nonneg _
  have q0 := sq_nonneg q[0]
  have q1 := sq_nonneg q[1]
  have q2 := sq_nonneg q[2]
  have key : ∀ r : ℝ, r ^ 2 ≤ Spec.planeLen q ^ 2 → |r| ≤ F.maxFinite := by
    intro r hr
    have h1 := abs_le_of_sq_le_sq hr hL0
    nlinarith only [h1, f2, hL0]
  have g0 := key q[0] (by linarith only [hL2, q0, q1, q2])
  have g1 := key q[1] (by linarith only [hL2, q0, q1, q2])
  have g2 := key q[2] (by linarith only [hL2, q0, q1, q2])
  match j with
  | 0 => exact g0
  | 1 => exact g1
  | 2 => exact g2
  | 3 => exact f3

/-- `w` is the normalised plane `q` up to rounding. -/
def Spec.PlaneNear (F : Format) (q : Vec 4 ℝ) (w : Vec 4 (Fp F)) : Prop :=
  ∀ j : Fin 4, w[j].Finite ∧ |w[j].val - q[j] / Spec.planeLen q| ≤ Spec.setupErr F * |q[j] / Spec.planeLen q| + F.eta

/-- **C118** `setup( proj_modelview )` in IEEE arithmetic, for a finite matrix whose six planes can be normalised: each of the six planes is finite and, component by component, the exact
normalised plane of the matrix up to a relative error of about `11 u` (and the underflow of a tiny component). The literals are of type `double`. -/
theorem C118_setup (hD : Spec.Quotients F D) (hpe : F.p < F.emax) (h5 : 5 ≤ F.p) (cfg : Cfg) (m : Mat 4 4 (Fp F)) (hm : ∀ i j, (m.get i j).Finite)
    (hfit : ∀ q ∈ Spec.exactPlanes m, Spec.PlaneFits F q) :
    ∃ k, setupMatrixMixed D cfg m = .ok k ∧ List.Forall₂ (Spec.PlaneNear F) (Spec.exactPlanes m) (Spec.six k) := by
  have h0 : 0 < F.emax := by omega
  have sum : ∀ i, Spec.PlaneFits F (Spec.exactPlane m 1 i) → ∀ w, normalizePlane cfg (rowSum m i) = .ok w → Spec.PlaneNear F (Spec.exactPlane m 1 i) w := by
    intro i hi w hw
    have hfin : ∀ j : Fin 4, (m.get 3 j + m.get i j).Finite ∧ (m.get 3 j + m.get i j).val = F.rnd ((m.get 3 j).val + (m.get i j).val) := by
      intro j
      refine Fp.add_fin h0 (hm 3 j) (hm i j) ?_
      have := comp_le _ hi j
      simpa [Spec.exactPlane] using this
    obtain ⟨w', e, hn⟩ := plane_norm hpe h5 cfg (rowSum m i) (Spec.exactPlane m 1 i) (fun j => by simpa [rowSum] using (hfin j).1)
      (fun j => by
        have := ((Fp.rep_val (hm 3 j)).grid.add (Fp.rep_val (hm i j)).grid).rnd_err
        simpa [rowSum, Spec.exactPlane, (hfin j).2] using this) hi
    obtain rfl := Except.ok.inj (hw.symm.trans e)
    exact hn
  have diff : ∀ i, Spec.PlaneFits F (Spec.exactPlane m (-1) i) → ∀ w, normalizePlane cfg (rowDiff m i) = .ok w → Spec.PlaneNear F (Spec.exactPlane m (-1) i) w := by
    intro i hi w hw
    have hfin : ∀ j : Fin 4, (m.get 3 j - m.get i j).Finite ∧ (m.get 3 j - m.get i j).val = F.rnd ((m.get 3 j).val - (m.get i j).val) := by
      intro j
      refine Fp.sub_fin h0 (hm 3 j) (hm i j) ?_
      have := comp_le _ hi j
      simpa [Spec.exactPlane, ← sub_eq_add_neg] using this
    obtain ⟨w', e, hn⟩ := plane_norm hpe h5 cfg (rowDiff m i) (Spec.exactPlane m (-1) i) (fun j => by simpa [rowDiff] using (hfin j).1)
      (fun j => by
        have := ((Fp.rep_val (hm 3 j)).grid.add (Fp.rep_val (hm i j)).grid.neg).rnd_err
        simpa [rowDiff, Spec.exactPlane, (hfin j).2, ← sub_eq_add_neg] using this) hi
    obtain rfl := Except.ok.inj (hw.symm.trans e)
    exact hn
  obtain ⟨k, hk, e1, e2, e3, e4, e5, e6⟩ := setupMatrix_gen cfg m
  refine ⟨k, ?_, ?_⟩
  · rw [(C116_literals hD (by omega) cfg).2.2.1]; exact hk
  · refine .cons (sum 0 (hfit _ ?_) _ e1) (.cons (diff 0 (hfit _ ?_) _ e2) (.cons (sum 1 (hfit _ ?_) _ e3) (.cons (diff 1 (hfit _ ?_) _ e4)
      (.cons (sum 2 (hfit _ ?_) _ e5) (.cons (diff 2 (hfit _ ?_) _ e6) .nil))))) <;> simp [Spec.exactPlanes]

/-! ## Verdicts -/

/-- The signed distance of a point from a plane (positive in front), in exact arithmetic. -/
noncomputable def Spec.signedDist (q : Vec 4 ℝ) (x y z : ℝ) : ℝ := (q[0] * x + q[1] * y + q[2] * z + q[3]) / Spec.planeLen q
/-- The magnitude of the terms of the signed distance for points with coordinates of at most `x`, `y`, `z` in absolute value. -/
noncomputable def Spec.distMag (q : Vec 4 ℝ) (x y z : ℝ) : ℝ := (|q[0]| * x + |q[1]| * y + |q[2]| * z + |q[3]|) / Spec.planeLen q

/-- Plane values with the computed plane and with the exact one. -/
private theorem plane_value {E η w0 w1 w2 w3 n0 n1 n2 n3 x y z X Y Z : ℝ} (h0 : |w0 - n0| ≤ E * |n0| + η) (h1 : |w1 - n1| ≤ E * |n1| + η)
    (h2 : |w2 - n2| ≤ E * |n2| + η) (h3 : |w3 - n3| ≤ E * |n3| + η) (hx : |x| ≤ X) (hy : |y| ≤ Y) (hz : |z| ≤ Z) :
    |(w0 * x + w1 * y + w2 * z + w3) - (n0 * x + n1 * y + n2 * z + n3)| ≤ E * (|n0| * X + |n1| * Y + |n2| * Z + |n3|) + η * (X + Y + Z + 1) ∧
    |w0| * X + |w1| * Y + |w2| * Z + |w3| ≤ (1 + E) * (|n0| * X + |n1| * Y + |n2| * Z + |n3|) + η * (X + Y + Z + 1) := by
  have key : ∀ {w n a A : ℝ}, |w - n| ≤ E * |n| + η → |a| ≤ A → |(w - n) * a| ≤ (E * |n| + η) * A := by
    intro w n a A h ha
    rw [abs_mul]
    exact mul_le_mul h ha (abs_nonneg _) ((abs_nonneg _).trans h)
  have big : ∀ {w n A : ℝ}, |w - n| ≤ E * |n| + η → 0 ≤ A → |w| * A ≤ ((1 + E) * |n| + η) * A := by
    intro w n A h hA
    apply mul_le_mul_of_nonneg_right _ hA
    have := abs_sub_abs_le_abs_sub w n
    linarith
  constructor
  · have e : (w0 * x + w1 * y + w2 * z + w3) - (n0 * x + n1 * y + n2 * z + n3) = (w0 - n0) * x + (w1 - n1) * y + (w2 - n2) * z + (w3 - n3) := by ring
    rw [e]
    have k0 := abs_le.1 (key h0 hx)
    have k1 := abs_le.1 (key h1 hy)
    have k2 := abs_le.1 (key h2 hz)
    have k3 := abs_le.1 h3
    rw [abs_le]
    constructor <;> linarith only [k0.1, k0.2, k1.1, k1.2, k2.1, k2.2, k3.1, k3.2]
  · have k0 := big h0 ((abs_nonneg _).trans hx)
    have k1 := big h1 ((abs_nonneg _).trans hy)
    have k2 := big h2 ((abs_nonneg _).trans hz)
    have k3 := big (A := 1) h3 zero_le_one
    linarith only [k0, k1, k2, k3]

/-- The rounding error of the planes at a point, and the magnitude of the plane equation with the computed plane. -/
private theorem near_value (q : Vec 4 ℝ) (w : Vec 4 (Fp F)) (h : Spec.PlaneNear F q w) {x y z X Y Z : ℝ} (hx : |x| ≤ X) (hy : |y| ≤ Y) (hz : |z| ≤ Z) :
    |Spec.fplane w x y z - Spec.signedDist q x y z| ≤ Spec.setupErr F * Spec.distMag q X Y Z + F.eta * (X + Y + Z + 1) ∧
    |w[0].val| * X + |w[1].val| * Y + |w[2].val| * Z + |w[3].val| ≤ (1 + Spec.setupErr F) * Spec.distMag q X Y Z + F.eta * (X + Y + Z + 1) := by
  have hL : |Spec.planeLen q| = Spec.planeLen q := abs_of_nonneg (Real.sqrt_nonneg _)
  have := plane_value (h 0).2 (h 1).2 (h 2).2 (h 3).2 hx hy hz
  have e1 : ∀ a b c d L : ℝ, a / L * x + b / L * y + c / L * z + d / L = (a * x + b * y + c * z + d) / L := by intros; ring
  have e2 : ∀ a b c d L : ℝ, |L| = L → |a / L| * X + |b / L| * Y + |c / L| * Z + |d / L| = (|a| * X + |b| * Y + |c| * Z + |d|) / L := by
    intro a b c d L h; simp only [abs_div, h]; ring
  rw [e1, e2 _ _ _ _ _ hL] at this
  exact this

/-- The magnitude of the computed plane values for a sphere. -/
noncomputable def Spec.sphereMag (F : Format) (q : Vec 4 ℝ) (x y z : ℝ) : ℝ :=
  (1 + Spec.setupErr F) * Spec.distMag q |x| |y| |z| + F.eta * (|x| + |y| + |z| + 1) + 3 * F.tiny
/-- The rounding error of the distance of the centre of a sphere from a plane, about `15 u` times the magnitude of the terms. -/
noncomputable def Spec.sphereErr (F : Format) (q : Vec 4 ℝ) (x y z : ℝ) : ℝ :=
  Spec.setupErr F * Spec.distMag q |x| |y| |z| + F.eta * (|x| + |y| + |z| + 1) + Spec.cullErr F.u * Spec.sphereMag F q x y z

private theorem forall2_left {α β : Type} {R : α → β → Prop} {l : List α} {l' : List β} (h : List.Forall₂ R l l') : ∀ a ∈ l, ∃ b ∈ l', R a b := by
  induction h with
  | nil => simp
  | cons h1 _ ih =>
    intro a ha
    rcases List.mem_cons.1 ha with rfl | ha
    · exact ⟨_, List.mem_cons_self, h1⟩
    · obtain ⟨b, hb, hr⟩ := ih a ha
      exact ⟨b, List.mem_cons_of_mem _ hb, hr⟩

private theorem forall2_right {α β : Type} {R : α → β → Prop} {l : List α} {l' : List β} (h : List.Forall₂ R l l') : ∀ b ∈ l', ∃ a ∈ l, R a b := by
  induction h with
  | nil => simp
  | cons h1 _ ih =>
    intro b hb
    rcases List.mem_cons.1 hb with rfl | hb
    · exact ⟨_, List.mem_cons_self, h1⟩
    · obtain ⟨a, ha, hr⟩ := ih b hb
      exact ⟨a, List.mem_cons_of_mem _ ha, hr⟩

private theorem dist_ball (q : Vec 4 ℝ) (hq : 0 < Spec.planeLen q) {c0 c1 c2 r x y z : ℝ} (hr : 0 ≤ r) (hb : (x - c0) ^ 2 + (y - c1) ^ 2 + (z - c2) ^ 2 ≤ r ^ 2) :
    |Spec.signedDist q x y z - Spec.signedDist q c0 c1 c2| ≤ r := by
  have hL2 : Spec.planeLen q ^ 2 = q[0] ^ 2 + q[1] ^ 2 + q[2] ^ 2 := Real.sq_sqrt (by positivity)
  unfold Spec.signedDist
  obtain ⟨L, hL⟩ : ∃ L, L = Spec.planeLen q := ⟨_, rfl⟩
  rw [← hL] at hL2 hq ⊢
  obtain ⟨a, ha⟩ : ∃ a, a = q[0] := ⟨_, rfl⟩
  obtain ⟨b, hb'⟩ : ∃ b, b = q[1] := ⟨_, rfl⟩
  obtain ⟨c, hc⟩ : ∃ c, c = q[2] := ⟨_, rfl⟩
  rw [← ha, ← hb', ← hc] at hL2 ⊢
  rw [← sub_div, abs_div, abs_of_pos hq, div_le_iff₀ hq]
  rw [show a * x + b * y + c * z + q[3] - (a * c0 + b * c1 + c * c2 + q[3]) = a * (x - c0) + b * (y - c1) + c * (z - c2) by ring]
  obtain ⟨X, hX⟩ : ∃ X, X = x - c0 := ⟨_, rfl⟩
  obtain ⟨Y, hY⟩ : ∃ Y, Y = y - c1 := ⟨_, rfl⟩
  obtain ⟨Z, hZ⟩ : ∃ Z, Z = z - c2 := ⟨_, rfl⟩
  rw [← hX, ← hY, ← hZ] at hb ⊢
  apply abs_le_of_sq_le_sq _ (by positivity)
  rw [mul_pow, hL2]
  have cs : (a * X + b * Y + c * Z) ^ 2 ≤ (X ^ 2 + Y ^ 2 + Z ^ 2) * (a ^ 2 + b ^ 2 + c ^ 2) := by
    nlinarith only [sq_nonneg (a * Y - b * X), sq_nonneg (a * Z - c * X), sq_nonneg (b * Z - c * Y)]
  exact cs.trans (mul_le_mul_of_nonneg_right hb (by positivity))

private theorem planeLen_pos {q : Vec 4 ℝ} (h : Spec.PlaneFits F q) : 0 < Spec.planeLen q := by
  have f1 := h.1
  have hmin : (0 : ℝ) < (2 : ℝ) ^ F.emin := by positivity
  have hL0 : 0 ≤ Spec.planeLen q := Real.sqrt_nonneg _
  rcases hL0.lt_or_eq with h | h
  · exact h
  · rw [← h] at f1; norm_num at f1; linarith

/-- **C118** From the matrix to the verdict on a sphere, all in IEEE arithmetic: `setup` followed by `test_sphere`. The distances are exact distances from the exact planes of the matrix. If
a point of the ball is in front of every plane by more than the rounding error, the sphere is not culled; if the sphere is reported fully visible, no point of the ball
is behind a plane by more than the rounding error. -/
theorem C118_sphere (hD : Spec.Quotients F D) (hpe : F.p < F.emax) (h5 : 5 ≤ F.p) (cfg : Cfg) (m : Mat 4 4 (Fp F)) (hm : ∀ i j, (m.get i j).Finite)
    (hfit : ∀ q ∈ Spec.exactPlanes m, Spec.PlaneFits F q) (s : Vec 4 (Fp F)) (hs : Spec.VFinite s) (hr : (0 : ℝ) ≤ s[3].val)
    (hroom : ∀ q ∈ Spec.exactPlanes m, Spec.grow F 4 (Spec.sphereMag F q s[0].val s[1].val s[2].val) ≤ F.maxFinite) :
    ∃ k, setupMatrixMixed D cfg m = .ok k ∧ ∀ x y z : ℝ, (x - s[0].val) ^ 2 + (y - s[1].val) ^ 2 + (z - s[2].val) ^ 2 ≤ s[3].val ^ 2 →
      ((∀ q ∈ Spec.exactPlanes m, Spec.sphereErr F q s[0].val s[1].val s[2].val < Spec.signedDist q x y z) → testSphere k s ≠ .none) ∧
      (testSphere k s = .full → ∀ q ∈ Spec.exactPlanes m, -Spec.sphereErr F q s[0].val s[1].val s[2].val ≤ Spec.signedDist q x y z) := by
  have h0 : 0 < F.emax := by omega
  obtain ⟨k, hk, hall⟩ := C118_setup hD hpe h5 cfg m hm hfit
  refine ⟨k, hk, fun x y z hb => ?_⟩
  have hcull : 0 ≤ Spec.cullErr F.u := by
    unfold Spec.cullErr
    have : (1 : ℝ) ≤ (1 + F.u) ^ 4 := one_le_pow₀ (by linarith [F.u_pos])
    linarith
  have hmag : ∀ q w, Spec.PlaneNear F q w → Spec.fplaneMag w s[0].val s[1].val s[2].val ≤ Spec.sphereMag F q s[0].val s[1].val s[2].val := by
    intro q w h
    have := (near_value q w h (le_refl |s[0].val|) (le_refl |s[1].val|) (le_refl |s[2].val|)).2
    unfold Spec.fplaneMag Spec.sphereMag
    linarith only [this]
  have hgrow : ∀ {a b : ℝ}, a ≤ b → Spec.grow F 4 a ≤ Spec.grow F 4 b := by
    intro a b h
    exact mul_le_mul_of_nonneg_left h (pow_nonneg (by linarith [F.u_pos]) 4)
  obtain ⟨c1, c2, -, -⟩ := C117_sphere h0 k s
    (fun w hw => by obtain ⟨q, -, h⟩ := forall2_right hall w hw; exact fun j => (h j).1) hs
    (fun w hw => by obtain ⟨q, hq, h⟩ := forall2_right hall w hw; exact (hgrow (hmag q w h)).trans (hroom q hq))
  have hval : ∀ q w, Spec.PlaneNear F q w → |Spec.fplane w s[0].val s[1].val s[2].val - Spec.signedDist q s[0].val s[1].val s[2].val| +
      Spec.cullErr F.u * Spec.fplaneMag w s[0].val s[1].val s[2].val ≤ Spec.sphereErr F q s[0].val s[1].val s[2].val := by
    intro q w h
    have a := (near_value q w h (le_refl |s[0].val|) (le_refl |s[1].val|) (le_refl |s[2].val|)).1
    have b := mul_le_mul_of_nonneg_left (hmag q w h) hcull
    unfold Spec.sphereErr
    linarith only [a, b]
  constructor
  · intro hfront hn
    obtain ⟨w, hw, hle⟩ := c1 hn
    obtain ⟨q, hq, h⟩ := forall2_right hall w hw
    have a := hval q w h
    have b := abs_le.1 (le_refl |Spec.fplane w s[0].val s[1].val s[2].val - Spec.signedDist q s[0].val s[1].val s[2].val|)
    have c := abs_le.1 (dist_ball q (planeLen_pos (hfit q hq)) hr hb)
    have d := hfront q hq
    linarith only [a, b.1, b.2, c.1, c.2, d, hle]
  · intro hf q hq
    obtain ⟨w, hw, h⟩ := forall2_left hall q hq
    have a := hval q w h
    have b := abs_le.1 (le_refl |Spec.fplane w s[0].val s[1].val s[2].val - Spec.signedDist q s[0].val s[1].val s[2].val|)
    have c := abs_le.1 (dist_ball q (planeLen_pos (hfit q hq)) hr hb)
    have d := (c2 hf w hw).1
    linarith only [a, b.1, b.2, c.1, c.2, d]

/-- The magnitude of the computed plane values for a box. -/
noncomputable def Spec.boxMagF (F : Format) (q : Vec 4 ℝ) (X Y Z : ℝ) : ℝ :=
  (1 + Spec.setupErr F) * Spec.distMag q X Y Z + F.eta * (X + Y + Z + 1) + (6 * (1 + Spec.setupErr F + F.eta) + 7) * F.tiny
/-- The rounding error for a box, about `19 u` times the magnitude of the terms. -/
noncomputable def Spec.boxErrF (F : Format) (q : Vec 4 ℝ) (X Y Z : ℝ) : ℝ :=
  Spec.setupErr F * Spec.distMag q X Y Z + F.eta * (X + Y + Z + 1) + Spec.boxErr F.u * Spec.boxMagF F q X Y Z
/-- The sum of the absolute values of the ends of an interval. -/
noncomputable def Spec.span (x : Vec 2 (Fp F)) : ℝ := |x[0].val| + |x[1].val|

private theorem in_span (x : Vec 2 (Fp F)) {a : ℝ} (h : a ∈ Set.uIcc x[0].val x[1].val) : |a| ≤ Spec.span x := by
  unfold Spec.span
  obtain ⟨p, hp⟩ : ∃ p, p = x[0].val := ⟨_, rfl⟩
  obtain ⟨r, hr⟩ : ∃ r, r = x[1].val := ⟨_, rfl⟩
  rw [← hp, ← hr] at h ⊢
  have p1 := neg_abs_le p
  have p2 := le_abs_self p
  have r1 := neg_abs_le r
  have r2 := le_abs_self r
  have p0 := abs_nonneg p
  have r0 := abs_nonneg r
  rw [abs_le]
  rcases Set.mem_uIcc.1 h with ⟨h1, h2⟩ | ⟨h1, h2⟩ <;> constructor <;> linarith

private theorem normal_le (q : Vec 4 ℝ) (hq : 0 < Spec.planeLen q) : |q[0] / Spec.planeLen q| ≤ 1 ∧ |q[1] / Spec.planeLen q| ≤ 1 ∧ |q[2] / Spec.planeLen q| ≤ 1 := by
  have hL2 : Spec.planeLen q ^ 2 = q[0] ^ 2 + q[1] ^ 2 + q[2] ^ 2 := Real.sq_sqrt (by positivity)
  have q0 := sq_nonneg q[0]
  have q1 := sq_nonneg q[1]
  have q2 := sq_nonneg q[2]
  have key : ∀ r : ℝ, r ^ 2 ≤ Spec.planeLen q ^ 2 → |r / Spec.planeLen q| ≤ 1 := by
    intro r hr
    rw [abs_div, abs_of_pos hq, div_le_one hq]
    exact abs_le_of_sq_le_sq hr hq.le
  exact ⟨key _ (by linarith only [hL2, q0, q1, q2]), key _ (by linarith only [hL2, q0, q1, q2]), key _ (by linarith only [hL2, q0, q1, q2])⟩

/-- **C118** From the matrix to the verdict on a box, all in IEEE arithmetic: `setup` followed by `test_aabb`. If a point of the box is in front of every plane by more than the rounding error, the
box is not culled; if the box is reported fully visible, no point of it is behind a plane by more than the rounding error. -/
theorem C118_box (hD : Spec.Quotients F D) (hpe : F.p < F.emax) (h5 : 5 ≤ F.p) (cfg : Cfg) (m : Mat 4 4 (Fp F)) (hm : ∀ i j, (m.get i j).Finite)
    (hfit : ∀ q ∈ Spec.exactPlanes m, Spec.PlaneFits F q) (half : Fp F) (hh : half.Finite) (hv : half.val = 1 / 2) (x y z : Vec 2 (Fp F))
    (hx : Spec.VFinite x) (hy : Spec.VFinite y) (hz : Spec.VFinite z)
    (hroom : ∀ q ∈ Spec.exactPlanes m, Spec.grow F 8 (Spec.boxMagF F q (Spec.span x) (Spec.span y) (Spec.span z)) ≤ F.maxFinite)
    (hbox : ∀ w ∈ [x, y, z], Spec.grow F 2 (Spec.span w + F.tiny) ≤ F.maxFinite) :
    let e := fun q : Vec 4 ℝ => Spec.boxErrF F q (Spec.span x) (Spec.span y) (Spec.span z)
    ∃ k r, setupMatrixMixed D cfg m = .ok k ∧ testAabb cfg half k x y z = .ok r ∧
      (∀ a b c, Spec.FBoxHas x y z a b c → (∀ q ∈ Spec.exactPlanes m, e q < Spec.signedDist q a b c) → r ≠ .none) ∧
      (r = .full → ∀ a b c, Spec.FBoxHas x y z a b c → ∀ q ∈ Spec.exactPlanes m, -e q ≤ Spec.signedDist q a b c) := by
  intro e
  have h0 : 0 < F.emax := by omega
  have ht := F.tiny_pos
  obtain ⟨k, hk, hall⟩ := C118_setup hD hpe h5 cfg m hm hfit
  have hberr : 0 ≤ Spec.boxErr F.u := by
    unfold Spec.boxErr
    have : (1 : ℝ) ≤ (1 + F.u) ^ 8 := one_le_pow₀ (by linarith [F.u_pos])
    linarith
  have hE : 0 ≤ 1 + Spec.setupErr F := by
    obtain ⟨hε0, hε1⟩ := F.flenErr_small h5
    have hu64 := F.u_small h5
    have hu := F.u_pos
    unfold Spec.setupErr
    have : 0 ≤ (1 + F.u) ^ 3 / ((1 - F.u) * (1 - Spec.flenErr F 3)) := div_nonneg (by positivity) (mul_nonneg (by linarith) (by linarith))
    linarith
  have sx : 0 ≤ Spec.span x := add_nonneg (abs_nonneg _) (abs_nonneg _)
  have sy : 0 ≤ Spec.span y := add_nonneg (abs_nonneg _) (abs_nonneg _)
  have sz : 0 ≤ Spec.span z := add_nonneg (abs_nonneg _) (abs_nonneg _)
  have hmag : ∀ q ∈ Spec.exactPlanes m, ∀ w, Spec.PlaneNear F q w → Spec.fboxMag w x y z ≤ Spec.boxMagF F q (Spec.span x) (Spec.span y) (Spec.span z) := by
    intro q hq w h
    have a := (near_value q w h (le_of_eq (abs_of_nonneg sx)) (le_of_eq (abs_of_nonneg sy)) (le_of_eq (abs_of_nonneg sz))).2
    obtain ⟨n0, n1, n2⟩ := normal_le q (planeLen_pos (hfit q hq))
    have big : ∀ {w n : ℝ}, |w - n| ≤ Spec.setupErr F * |n| + F.eta → |n| ≤ 1 → |w| ≤ 1 + Spec.setupErr F + F.eta := by
      intro w n h1 h2
      have h3 := abs_sub_abs_le_abs_sub w n
      nlinarith only [h1, h2, h3, hE]
    have b0 := big (h 0).2 n0
    have b1 := big (h 1).2 n1
    have b2 := big (h 2).2 n2
    have c : ∀ w0 w1 w2 w3 X Y Z R B : ℝ, w0 * X + w1 * Y + w2 * Z + w3 ≤ R → w0 ≤ B → w1 ≤ B → w2 ≤ B →
        w0 * X + w1 * Y + w2 * Z + w3 + (2 * (w0 + w1 + w2) + 7) * F.tiny ≤ R + (6 * B + 7) * F.tiny := by
      intro w0 w1 w2 w3 X Y Z R B h1 h2 h3 h4
      have : (2 * (w0 + w1 + w2) + 7) * F.tiny ≤ (6 * B + 7) * F.tiny := mul_le_mul_of_nonneg_right (by linarith only [h2, h3, h4]) ht.le
      linarith only [h1, this]
    exact c _ _ _ _ _ _ _ _ _ a b0 b1 b2
  have hgrow : ∀ {a b : ℝ}, a ≤ b → Spec.grow F 8 a ≤ Spec.grow F 8 b := by
    intro a b h
    exact mul_le_mul_of_nonneg_left h (pow_nonneg (by linarith [F.u_pos]) 8)
  obtain ⟨r, hr, c1, c2⟩ := C117_box h0 cfg half hh hv k x y z
    (fun w hw => by obtain ⟨q, -, h⟩ := forall2_right hall w hw; exact fun j => (h j).1) hx hy hz
    (fun w hw => by obtain ⟨q, hq, h⟩ := forall2_right hall w hw; exact (hgrow (hmag q hq w h)).trans (hroom q hq)) hbox
  have hval : ∀ a b c, Spec.FBoxHas x y z a b c → ∀ q ∈ Spec.exactPlanes m, ∀ w, Spec.PlaneNear F q w →
      |Spec.fplane w a b c - Spec.signedDist q a b c| + Spec.boxErr F.u * Spec.fboxMag w x y z ≤ e q := by
    intro a b c hin q hq w h
    have k1 := (near_value q w h (in_span x hin.1) (in_span y hin.2.1) (in_span z hin.2.2)).1
    have k2 := mul_le_mul_of_nonneg_left (hmag q hq w h) hberr
    show _ ≤ Spec.boxErrF F q (Spec.span x) (Spec.span y) (Spec.span z)
    unfold Spec.boxErrF
    linarith only [k1, k2]
  refine ⟨k, r, hk, hr, ?_, ?_⟩
  · intro a b c hin hfront
    refine c1 a b c hin fun w hw => ?_
    obtain ⟨q, hq, h⟩ := forall2_right hall w hw
    have k1 := hval a b c hin q hq w h
    have k2 := abs_le.1 (le_refl |Spec.fplane w a b c - Spec.signedDist q a b c|)
    have k3 := hfront q hq
    show Spec.boxErr F.u * Spec.fboxMag w x y z < _
    linarith only [k1, k2.1, k2.2, k3]
  · intro hf a b c hin q hq
    obtain ⟨w, hw, h⟩ := forall2_left hall q hq
    have k1 := hval a b c hin q hq w h
    have k2 := abs_le.1 (le_refl |Spec.fplane w a b c - Spec.signedDist q a b c|)
    have k3 : -(Spec.boxErr F.u * Spec.fboxMag w x y z) ≤ _ := c2 hf a b c hin w hw
    linarith only [k1, k2.1, k2.2, k3]

/-- **C118** The errors in terms of the unit roundoff `u`, for formats with at least eleven bits (IEEE half precision): `12 u` for a plane, `18 u` for a sphere, `22 u` for a box. -/
theorem C118_bounds (h10 : 10 ≤ F.p) (h0 : 0 < F.emax) : Spec.setupErr F ≤ 12 * F.u ∧
    (∀ q x y z, Spec.sphereErr F q x y z ≤ 18 * F.u * Spec.distMag q |x| |y| |z| + 17 * F.eta * (|x| + |y| + |z| + 1)) ∧
    (∀ q X Y Z, 0 ≤ X → 0 ≤ Y → 0 ≤ Z → Spec.boxErrF F q X Y Z ≤ 22 * F.u * Spec.distMag q X Y Z + 200 * F.eta * (X + Y + Z + 1)) := by
  have hu := F.u_pos
  have hu2 : F.u ≤ 1 / 2048 := by
    unfold u
    calc ((2 : ℝ)⁻¹) ^ (F.p + 1) ≤ ((2 : ℝ)⁻¹) ^ 11 := pow_le_pow_of_le_one (by norm_num) (by norm_num) (by omega)
      _ = 1 / 2048 := by norm_num
  have hη := eta_pos (F := F)
  have ht := F.tiny_pos
  have het : F.eta = F.u * F.tiny := eta_eq_tiny
  have ht1 := tiny_le_one h0
  obtain ⟨u, hud⟩ : ∃ u, u = F.u := ⟨_, rfl⟩
  rw [← hud] at hu hu2 het ⊢
  have hε : Spec.flenErr F 3 ≤ 15 / 2 * u := by
    unfold Spec.flenErr Spec.gamma
    rw [← hud]
    push_cast
    have h3 : (0 : ℝ) < 1 - 3 * u := by linarith
    have g : 3 * u / (1 - 3 * u) ≤ 301 / 100 * u := by rw [div_le_iff₀ h3]; nlinarith
    nlinarith
  have hE : Spec.setupErr F ≤ 12 * u := by
    unfold Spec.setupErr
    rw [← hud, sub_le_iff_le_add, div_le_iff₀ (mul_pos (by linarith) (by linarith))]
    have a : (1 - u) * (1 - 15 / 2 * u) ≤ (1 - u) * (1 - Spec.flenErr F 3) := mul_le_mul_of_nonneg_left (by linarith) (by linarith)
    have b := mul_le_mul_of_nonneg_left a (by linarith : 0 ≤ 12 * u + 1)
    refine le_trans ?_ b
    nlinarith [mul_nonneg hu.le hu.le, mul_nonneg (mul_nonneg hu.le hu.le) hu.le, mul_nonneg (mul_nonneg hu.le hu.le) (sub_nonneg.2 hu2)]
  have hc : Spec.cullErr u ≤ 41 / 10 * u := by
    unfold Spec.cullErr
    nlinarith [mul_nonneg hu.le hu.le, mul_nonneg (mul_nonneg hu.le hu.le) (sub_nonneg.2 hu2), mul_nonneg hu.le (sub_nonneg.2 hu2),
      mul_nonneg (mul_nonneg (mul_nonneg hu.le hu.le) hu.le) (sub_nonneg.2 hu2)]
  have hc0 : 0 ≤ Spec.cullErr u := by
    unfold Spec.cullErr
    have : (1 : ℝ) ≤ (1 + u) ^ 4 := one_le_pow₀ (by linarith)
    linarith
  have hb : Spec.boxErr u ≤ 9 * u := by
    unfold Spec.boxErr
    have e : (1 + u) ^ 8 = ((1 + u) ^ 4) ^ 2 := by ring
    have h4 : (1 + u) ^ 4 ≤ 1 + 41 / 10 * u := by unfold Spec.cullErr at hc; linarith
    have h4' : 0 ≤ (1 + u) ^ 4 := by positivity
    rw [e]
    nlinarith
  have hb0 : 0 ≤ Spec.boxErr u := by
    unfold Spec.boxErr
    have : (1 : ℝ) ≤ (1 + u) ^ 8 := one_le_pow₀ (by linarith)
    linarith
  have hmag : ∀ (q : Vec 4 ℝ) (X Y Z : ℝ), 0 ≤ X → 0 ≤ Y → 0 ≤ Z → 0 ≤ Spec.distMag q X Y Z := by
    intro q X Y Z hX hY hZ
    unfold Spec.distMag
    have : 0 ≤ Spec.planeLen q := Real.sqrt_nonneg _
    positivity
  refine ⟨hE, fun q x y z => ?_, fun q X Y Z hX hY hZ => ?_⟩
  · have hM := hmag q |x| |y| |z| (abs_nonneg _) (abs_nonneg _) (abs_nonneg _)
    have hT : 1 ≤ |x| + |y| + |z| + 1 := by linarith [abs_nonneg x, abs_nonneg y, abs_nonneg z]
    unfold Spec.sphereErr Spec.sphereMag
    rw [← hud]
    obtain ⟨M, hMd⟩ : ∃ M, M = Spec.distMag q |x| |y| |z| := ⟨_, rfl⟩
    obtain ⟨T, hTd⟩ : ∃ T, T = |x| + |y| + |z| + 1 := ⟨_, rfl⟩
    rw [← hMd] at hM ⊢
    rw [← hTd] at hT ⊢
    have a : Spec.setupErr F * M ≤ 12 * u * M := mul_le_mul_of_nonneg_right hE hM
    have b : Spec.cullErr u * ((1 + Spec.setupErr F) * M + F.eta * T + 3 * F.tiny) ≤ 41 / 10 * u * ((1 + 12 * u) * M + F.eta * T + 3 * F.tiny) := by
      refine le_trans (mul_le_mul_of_nonneg_left ?_ hc0) (mul_le_mul_of_nonneg_right hc (by positivity))
      nlinarith only [a, hM]
    have c : u * (12 * u * M) ≤ 12 / 2048 * (u * M) := by nlinarith only [mul_nonneg hu.le hM, hu2]
    have d : u * (F.eta * T) ≤ 1 / 2048 * (F.eta * T) := mul_le_mul_of_nonneg_right hu2 (by positivity)
    have e : F.eta ≤ F.eta * T := le_mul_of_one_le_right hη.le hT
    have f := mul_nonneg hu.le hM
    refine (add_le_add (add_le_add a le_rfl) b).trans ?_
    rw [het] at d e ⊢
    have g : 0 ≤ u * F.tiny * T := by positivity
    linarith only [c, d, e, f, g]
  · have hM := hmag q X Y Z hX hY hZ
    have hT : 1 ≤ X + Y + Z + 1 := by linarith
    unfold Spec.boxErrF Spec.boxMagF
    rw [← hud]
    obtain ⟨M, hMd⟩ : ∃ M, M = Spec.distMag q X Y Z := ⟨_, rfl⟩
    obtain ⟨T, hTd⟩ : ∃ T, T = X + Y + Z + 1 := ⟨_, rfl⟩
    rw [← hMd] at hM ⊢
    rw [← hTd] at hT ⊢
    have a : Spec.setupErr F * M ≤ 12 * u * M := mul_le_mul_of_nonneg_right hE hM
    have hηu : F.eta ≤ 1 := by rw [het]; nlinarith only [hu, hu2, ht, ht1]
    have hk : (6 * (1 + Spec.setupErr F + F.eta) + 7) * F.tiny ≤ 20 * F.tiny := by
      apply mul_le_mul_of_nonneg_right _ ht.le
      linarith only [hE, hu2, hηu]
    have b : Spec.boxErr u * ((1 + Spec.setupErr F) * M + F.eta * T + (6 * (1 + Spec.setupErr F + F.eta) + 7) * F.tiny) ≤
        9 * u * ((1 + 12 * u) * M + F.eta * T + 20 * F.tiny) := by
      refine le_trans (mul_le_mul_of_nonneg_left ?_ hb0) (mul_le_mul_of_nonneg_right hb (by positivity))
      nlinarith only [a, hM, hk]
    have c : u * (12 * u * M) ≤ 12 / 2048 * (u * M) := by nlinarith only [mul_nonneg hu.le hM, hu2]
    have d : u * (F.eta * T) ≤ 1 / 2048 * (F.eta * T) := mul_le_mul_of_nonneg_right hu2 (by positivity)
    have e : F.eta ≤ F.eta * T := le_mul_of_one_le_right hη.le hT
    have f := mul_nonneg hu.le hM
    refine (add_le_add (add_le_add a le_rfl) b).trans ?_
    rw [het] at d e ⊢
    have g : 0 ≤ u * F.tiny * T := by positivity
    linarith only [c, d, e, f, g]

/-- The identity matrix as `float` (the cube `[-1, 1]³`) meets the hypotheses, with the sphere of radius 1 about `(0, 1, -1)` and the cube itself as box. -/
example : let m : Mat 4 4 (Fp single) := Mat.ofFn fun i j => if i = j then 1 else 0
    let s : Vec 4 (Fp single) := #v[0, 1, -1, 1]
    let x : Vec 2 (Fp single) := #v[-1, 1]
    (∀ i j, (m.get i j).Finite) ∧ (∀ q ∈ Spec.exactPlanes m, Spec.PlaneFits single q) ∧
    (∀ q ∈ Spec.exactPlanes m, Spec.grow single 4 (Spec.sphereMag single q s[0].val s[1].val s[2].val) ≤ single.maxFinite) ∧
    (∀ q ∈ Spec.exactPlanes m, Spec.grow single 8 (Spec.boxMagF single q (Spec.span x) (Spec.span x) (Spec.span x)) ≤ single.maxFinite) := by
  intro m s x
  have h0 : 0 < single.emax := by norm_num
  have o := Fp.one_fin h0
  have nv : (-1 : Fp single).val = -1 := by rw [Fp.val_neg, o.2]
  have zv : (0 : Fp single).val = 0 := Fp.val_zero
  have hE := (C118_bounds (F := single) (by norm_num) h0).1
  have hu := single.u_pos
  have hu1 : single.u ≤ 1 / 64 := single.u_small (by norm_num)
  have ht : single.tiny ≤ 1 := tiny_le_one h0
  have ht0 := single.tiny_pos
  have hη := eta_pos (F := single)
  have hη1 : single.eta ≤ 1 := by rw [eta_eq_tiny]; nlinarith
  have hmax : (2 : ℝ) ^ 20 ≤ single.maxFinite := by
    refine le_trans ?_ (pow_emax_le (F := single))
    rw [← zpow_natCast]
    exact zpow_le_zpow_right₀ (by norm_num) (by norm_num)
  have hE0 : 0 ≤ 1 + Spec.setupErr single := by
    obtain ⟨hε0, hε1⟩ := single.flenErr_small (by norm_num)
    unfold Spec.setupErr
    have : 0 ≤ (1 + single.u) ^ 3 / ((1 - single.u) * (1 - Spec.flenErr single 3)) := div_nonneg (by positivity) (mul_nonneg (by linarith) (by linarith))
    linarith
  have g : ∀ k : Nat, ∀ y : ℝ, k ≤ 8 → 0 ≤ y → y ≤ 100 → Spec.grow single k y ≤ single.maxFinite := by
    intro m y hm hy0 hy
    refine le_trans ?_ hmax
    unfold Spec.grow
    have h1 : (1 + single.u) ^ m ≤ 2 ^ 8 :=
      (pow_le_pow_left₀ (by linarith) (by linarith : 1 + single.u ≤ 2) m).trans (pow_le_pow_right₀ (by norm_num) hm)
    calc (1 + single.u) ^ m * y ≤ 2 ^ 8 * 100 := mul_le_mul h1 hy hy0 (by positivity)
      _ ≤ _ := by norm_num
  have hm : ∀ i j, (m.get i j).Finite ∧ (m.get i j).val = if i = j then 1 else 0 := by
    intro i j
    simp only [m, Mat.get_ofFn]
    split_ifs
    · exact o
    · exact ⟨Fp.finite_zero, zv⟩
  have hq : ∀ q ∈ Spec.exactPlanes m, Spec.planeLen q = 1 ∧ (q[3] = (1 : ℝ)) ∧ |q[0]| ≤ (1 : ℝ) ∧ |q[1]| ≤ (1 : ℝ) ∧ |q[2]| ≤ (1 : ℝ) := by
    intro q hq
    simp only [Spec.exactPlanes, List.mem_cons, List.not_mem_nil, or_false] at hq
    rcases hq with rfl | rfl | rfl | rfl | rfl | rfl <;> simp [Spec.planeLen, Spec.exactPlane, hm]
  have hmag : ∀ q ∈ Spec.exactPlanes m, ∀ X Y Z : ℝ, 0 ≤ X → 0 ≤ Y → 0 ≤ Z → X ≤ 2 → Y ≤ 2 → Z ≤ 2 → 0 ≤ Spec.distMag q X Y Z ∧ Spec.distMag q X Y Z ≤ 7 := by
    intro q h X Y Z a b c a' b' c'
    obtain ⟨h1, h2, h3, h4, h5⟩ := hq q h
    unfold Spec.distMag
    rw [h1, h2, div_one, abs_one]
    have k1 := mul_le_mul h3 a' a zero_le_one
    have k2 := mul_le_mul h4 b' b zero_le_one
    have k3 := mul_le_mul h5 c' c zero_le_one
    have l1 := mul_nonneg (abs_nonneg q[0]) a
    have l2 := mul_nonneg (abs_nonneg q[1]) b
    have l3 := mul_nonneg (abs_nonneg q[2]) c
    constructor <;> linarith
  refine ⟨fun i j => (hm i j).1, fun q h => ?_, fun q h => ?_, fun q h => ?_⟩
  · obtain ⟨h1, h2, -⟩ := hq q h
    unfold Spec.PlaneFits
    rw [h1, h2]
    refine ⟨by norm_num [emin], by linarith, by norm_num; linarith, by norm_num; linarith⟩
  · have hd := hmag q h |s[0].val| |s[1].val| |s[2].val| (abs_nonneg _) (abs_nonneg _) (abs_nonneg _) (by simp [s, zv]) (by simp [s, o.2]) (by simp [s, nv])
    have es : |s[0].val| + |s[1].val| + |s[2].val| + (1 : ℝ) = 3 := by simp [s, zv, o.2, nv]; norm_num
    have es' : |s[0].val| + |s[1].val| + |s[2].val| = (2 : ℝ) := by simp [s, zv, o.2, nv]; norm_num
    unfold Spec.sphereMag
    rw [es']
    have k := mul_le_mul (by linarith : 1 + Spec.setupErr single ≤ 2) hd.2 hd.1 (by norm_num)
    have k' := mul_nonneg hE0 hd.1
    refine g 4 _ (by norm_num) (by linarith) (by linarith)
  · have sx : Spec.span x = 2 := by simp [Spec.span, x, o.2, nv]; norm_num
    rw [sx]
    have hd := hmag q h 2 2 2 (by norm_num) (by norm_num) (by norm_num) le_rfl le_rfl le_rfl
    unfold Spec.boxMagF
    have k := mul_le_mul (by linarith : 1 + Spec.setupErr single ≤ 2) hd.2 hd.1 (by norm_num)
    have k' := mul_nonneg hE0 hd.1
    have l := mul_le_mul (by linarith : 6 * (1 + Spec.setupErr single + single.eta) + 7 ≤ 30) ht ht0.le (by norm_num)
    have l' := mul_nonneg (by linarith : 0 ≤ 6 * (1 + Spec.setupErr single + single.eta) + 7) ht0.le
    refine g 8 _ (by norm_num) (by linarith) (by linarith)

end Vmml
