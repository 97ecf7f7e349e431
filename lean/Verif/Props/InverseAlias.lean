import Verif.Props.MatrixInverse
import Verif.Model.MatrixAlias

/-!
# C30, C86: `inverse` for all sizes at once; `inverse` of a matrix into itself
-/
set_option linter.unusedSimpArgs false

namespace Vmml
open Mat
variable {α : Type}

/-- C30. All supported sizes in one statement: for a positive tolerance that is not exactly `|det|`, `inverse` reports
success exactly if `|det| > tol`, and then the target is the two-sided inverse. (At `|det| = tol` the sizes disagree,
see `C30_boundary`.) -/
theorem C30_inverse (cfg : Cfg) {n : Nat} (h2 : 2 ≤ n) (h4 : n ≤ 4) (m inv : Mat n n ℝ) (tol : ℝ) (ht : 0 < tol)
    (hne : |m.toMat.det| ≠ tol) :
    ∃ b r, m.inverse cfg inv tol = .ok (b, r) ∧ (b = true ↔ tol < |m.toMat.det|) ∧
      (b = true → IsInverse m.toMat r.toMat) := by
  match n, h2, h4, m, inv, hne with
  | 2, _, _, m, inv, hne =>
    obtain ⟨ha, hb⟩ := C30_inverse2_partial cfg m inv tol ht
    rcases lt_or_gt_of_ne hne with h | h
    · exact ⟨false, inv, ha h, by simp [h.le], by simp⟩
    · obtain ⟨r, h1, h2⟩ := hb (le_of_lt h)
      exact ⟨true, r, h1, by simpa using h, fun _ => h2⟩
  | 3, _, _, m, inv, hne =>
    obtain ⟨ha, hb⟩ := C30_inverse3 cfg m inv tol ht.le
    rcases lt_or_gt_of_ne hne with h | h
    · obtain ⟨r, h1, -⟩ := hb h.le
      exact ⟨false, r, h1, by simp [h.le], by simp⟩
    · obtain ⟨r, h1, h2⟩ := ha h
      exact ⟨true, r, h1, by simpa using h, fun _ => h2⟩
  | 4, _, _, m, inv, hne =>
    obtain ⟨ha, hb⟩ := C30_inverse4 m inv tol ht.le
    rcases lt_or_gt_of_ne hne with h | h
    · obtain ⟨r, h1, -⟩ := hb h.le
      exact ⟨false, r, h1, by simp [h.le], by simp⟩
    · obtain ⟨r, h1, h2⟩ := ha h
      exact ⟨true, r, h1, by simpa using h, fun _ => h2⟩

/-- C30. At the boundary `|det| = tol > 0` the 2x2 inverse is computed, the 3x3 and 4x4 ones are refused. -/
theorem C30_boundary (cfg : Cfg) {n : Nat} (h2 : 2 ≤ n) (h4 : n ≤ 4) (m inv : Mat n n ℝ) (ht : 0 < |m.toMat.det|) :
    ∃ r, m.inverse cfg inv |m.toMat.det| = .ok (decide (n = 2), r) := by
  match n, h2, h4, m, inv, ht with
  | 2, _, _, m, inv, ht =>
    obtain ⟨r, h1, -⟩ := (C30_inverse2_partial cfg m inv _ ht).2 le_rfl
    exact ⟨r, h1⟩
  | 3, _, _, m, inv, ht =>
    obtain ⟨r, h1, -⟩ := (C30_inverse3 cfg m inv _ ht.le).2 le_rfl
    exact ⟨r, h1⟩
  | 4, _, _, m, inv, ht =>
    obtain ⟨r, h1, -⟩ := (C30_inverse4 m inv _ ht.le).2 le_rfl
    exact ⟨r, h1⟩

/-- C30. Inverting twice gives the matrix back (tolerance below both determinants). -/
theorem C30_involutive (cfg : Cfg) {n : Nat} (h2 : 2 ≤ n) (h4 : n ≤ 4) (m i₁ i₂ : Mat n n ℝ) (tol : ℝ) (ht : 0 < tol)
    (hm : tol < |m.toMat.det|) (hm' : tol < |m.toMat.det|⁻¹) :
    ∃ r, m.inverse cfg i₁ tol = .ok (true, r) ∧ r.inverse cfg i₂ tol = .ok (true, m) := by
  obtain ⟨b, r, h1, hb, hi⟩ := C30_inverse cfg h2 h4 m i₁ tol ht (ne_of_gt hm)
  obtain rfl := hb.2 hm
  have hi := hi rfl
  have hd : |r.toMat.det| = |m.toMat.det|⁻¹ := by
    have := congrArg Matrix.det hi.1
    rw [Matrix.det_mul, Matrix.det_one] at this
    have h0 : m.toMat.det ≠ 0 := fun h => by rw [h, zero_mul] at this; exact zero_ne_one this
    rw [← abs_inv]; congr 1; field_simp; linarith
  obtain ⟨b', s, h3, hb', hi'⟩ := C30_inverse cfg h2 h4 r i₂ tol ht (by rw [hd]; exact ne_of_gt hm')
  obtain rfl := hb'.2 (by rw [hd]; exact hm')
  have hi' := hi' rfl
  refine ⟨r, h1, ?_⟩
  rw [h3]
  have : s.toMat = m.toMat := by
    calc s.toMat = (m.toMat * r.toMat) * s.toMat := by rw [hi.1, one_mul]
      _ = m.toMat * (r.toMat * s.toMat) := by rw [mul_assoc]
      _ = m.toMat := by rw [hi'.1, mul_one]
  rw [toMat_inj.1 this]

/-! ## C86: `m.inverse( m )` -/

theorem Mat.getAdjugateSelf2_eq (cfg : Cfg) (m : Mat 2 2 ℝ) :
    m.getAdjugateSelf (K := 1) cfg = .ok (ofFn fun r c => !![m.get 1 1, m.get 1 0; -m.get 1 0, m.get 1 1] r c) := by
  have e0 : (0 : Fin 2).succAbove 0 = 1 := rfl
  have e1 : (1 : Fin 2).succAbove 0 = 0 := rfl
  have k : ∀ (x : Mat 2 2 ℝ) (mn : Mat 1 1 ℝ) (r c : Fin 2), getMinor (K := 1) cfg x mn r.1 c.1 =
      .ok (ofFn fun i j => x.get (r.succAbove i) (c.succAbove j), x.get (r.succAbove 0) (c.succAbove 0)) := by
    intro x mn r c
    rw [getMinor_eq le_rfl (by omega)]
    simp
  have k00 := fun x mn => k x mn 0 0
  have k01 := fun x mn => k x mn 0 1
  have k10 := fun x mn => k x mn 1 0
  have k11 := fun x mn => k x mn 1 1
  simp only [Fin.val_zero, Fin.val_one] at k00 k01 k10 k11
  have h0 : 0 < 2 := by omega
  have h1 : 1 < 2 := by omega
  unfold getAdjugateSelf getCofactorsSelf
  simp only [ctor_eq, bind_ok, loop_succ, loop_zero, zero_add, Nat.reduceAdd, Nat.zero_add, k00, k01, k10, k11, atSet_lt cfg, h0, h1,
    pure_ok, transpose_eq, assign_eq, Fin.mk_zero, Fin.mk_one, Fin.zero_eta, e0, e1, Nat.reduceMod, Nat.zero_mod,
    one_ne_zero, zero_ne_one, if_true, if_false, Nat.mod_self, Nat.one_mod]
  congr 1
  ext r c
  fin_cases r <;> fin_cases c <;> simp [get_put]

/-- C86. The 2x2 adjugate into the matrix itself: right exactly for the matrices `[[a, b], [-b, a]]`. -/
theorem C86_adjugate2_self_violated (cfg : Cfg) (m : Mat 2 2 ℝ) :
    ∃ r, m.getAdjugateSelf (K := 1) cfg = .ok r ∧
      (r.toMat = m.toMat.adjugate ↔ m.toMat 0 0 = m.toMat 1 1 ∧ m.toMat 0 1 = -m.toMat 1 0) := by
  refine ⟨_, getAdjugateSelf2_eq cfg m, ?_⟩
  rw [Matrix.adjugate_fin_two]
  constructor
  · intro h
    have h1 := congrFun (congrFun h 1) 1
    have h2 := congrFun (congrFun h 0) 1
    simp at h1 h2
    constructor
    · simp [h1]
    · simp [h2]
  · rintro ⟨h1, h2⟩
    simp only [toMat_apply] at h1 h2
    ext r c
    fin_cases r <;> fin_cases c <;> simp [h1, h2]

/-- C86 fails for 2x2: `m.inverse( m )` succeeds exactly when `m.inverse( other )` does, but the matrix left in `m` is
the inverse only for the matrices `[[a, b], [-b, a]]`. -/
theorem C86_inverse2_self_violated (cfg : Cfg) (m : Mat 2 2 ℝ) (tol : ℝ) (ht : 0 < tol) :
    (|m.toMat.det| < tol → m.inverse2Self cfg tol = .ok (false, m)) ∧
    (tol ≤ |m.toMat.det| → ∃ r, m.inverse2Self cfg tol = .ok (true, r) ∧
      (IsInverse m.toMat r.toMat ↔ m.toMat 0 0 = m.toMat 1 1 ∧ m.toMat 0 1 = -m.toMat 1 0)) := by
  unfold inverse2Self
  rw [det2_eq, bind_ok]
  constructor
  · intro h; simp [h]
  · intro h
    obtain ⟨x, hx, hx'⟩ := C86_adjugate2_self_violated cfg m
    rw [if_neg (by simpa using h), hx]
    have hd : m.toMat.det ≠ 0 := fun h0 => by rw [h0, abs_zero] at h; linarith
    simp only [bind_ok, mulAssignS_eq, pure_ok]
    refine ⟨_, rfl, ?_⟩
    rw [← hx']
    constructor
    · intro hi
      have h1 : m.toMat.adjugate = m.toMat.adjugate * (m.toMat * (ofFn fun r c => x.get r c * (1 / m.toMat.det)).toMat) := by
        rw [hi.1, mul_one]
      rw [← mul_assoc, Matrix.adjugate_mul, Matrix.smul_mul, one_mul] at h1
      rw [h1]
      ext r c
      simp only [toMat_apply, Matrix.smul_apply, get_ofFn, smul_eq_mul]
      rw [← mul_assoc, mul_comm, ← mul_assoc, one_div, inv_mul_cancel₀ hd, one_mul]
    · intro hx''
      apply isInverse_of_adjugate hd
      intro i j
      rw [← hx'']
      simp

/-- C86. Concretely: `[[1, 1], [0, 1]]` inverted into itself becomes the identity. -/
theorem C86_inverse2_self_shear_violated (cfg : Cfg) :
    ∃ r, (⟨#v[1, 0, 1, 1]⟩ : Mat 2 2 ℝ).inverse2Self cfg (1 / 2) = .ok (true, r) ∧
      ¬ IsInverse (⟨#v[1, 0, 1, 1]⟩ : Mat 2 2 ℝ).toMat r.toMat := by
  have hd : (⟨#v[1, 0, 1, 1]⟩ : Mat 2 2 ℝ).toMat.det = 1 := by
    rw [Matrix.det_fin_two]; simp [Mat.get]
  obtain ⟨r, h1, h2⟩ := (C86_inverse2_self_violated cfg (⟨#v[1, 0, 1, 1]⟩ : Mat 2 2 ℝ) (1 / 2) (by norm_num)).2
    (by rw [hd]; norm_num)
  refine ⟨r, h1, fun h => ?_⟩
  have := (h2.1 h).2
  simp [Mat.get] at this

/-- The 3x3 diagonal matrix with entries `a`, `b`, `c`. -/
def diag3 (a b c : ℝ) : Mat 3 3 ℝ := ofFn fun i j => Matrix.diagonal ![a, b, c] i j

theorem diag3_ops (a b c x : ℝ) :
    (diag3 a b c).get 0 0 = a ∧ (diag3 a b c).get 1 1 = b ∧ (diag3 a b c).get 2 2 = c ∧
    (diag3 a b c).get 0 1 = 0 ∧ (diag3 a b c).get 0 2 = 0 ∧ (diag3 a b c).get 1 0 = 0 ∧
    (diag3 a b c).get 1 2 = 0 ∧ (diag3 a b c).get 2 0 = 0 ∧ (diag3 a b c).get 2 1 = 0 ∧
    (diag3 a b c).put 0 0 x = diag3 x b c ∧ (diag3 a b c).put 1 1 x = diag3 a x c ∧
    (diag3 a b c).put 2 2 x = diag3 a b x ∧
    (diag3 a b c).put 0 1 0 = diag3 a b c ∧ (diag3 a b c).put 0 2 0 = diag3 a b c ∧
    (diag3 a b c).put 1 0 0 = diag3 a b c ∧ (diag3 a b c).put 1 2 0 = diag3 a b c ∧
    (diag3 a b c).put 2 0 0 = diag3 a b c ∧ (diag3 a b c).put 2 1 0 = diag3 a b c := by
  refine ⟨by simp [diag3], by simp [diag3], by simp [diag3], by simp [diag3], by simp [diag3], by simp [diag3],
    by simp [diag3], by simp [diag3], by simp [diag3], ?_, ?_, ?_, ?_, ?_, ?_, ?_, ?_, ?_⟩ <;>
  · ext i j
    rw [get_put]
    fin_cases i <;> fin_cases j <;> simp [diag3]

/-- C86 (3x3), what `m.inverse( m )` leaves behind for a diagonal matrix `diag( a, b, c )`: `a` does not enter at all. -/
theorem Mat.inverse3Self_diag (cfg : Cfg) (a b c tol : ℝ) :
    (diag3 a b c).inverse3Self cfg tol = .ok (if |(b * c) ^ 2| ≤ tol then
        (false, diag3 (b * c) (b * c * c) (b * c * (b * c * c)))
      else (true, diag3 (b * c * (1 / (b * c) ^ 2)) (b * c * c * (1 / (b * c) ^ 2))
        (b * c * (b * c * c) * (1 / (b * c) ^ 2)))) := by
  have h0 : 0 < 3 := by omega
  have h1 : 1 < 3 := by omega
  have h2 : 2 < 3 := by omega
  have D := diag3_ops
  unfold inverse3Self
  simp only [atGet_lt cfg, atSet_lt cfg, h0, h1, h2, bind_ok, pure_ok, fabs_real, Fin.mk_zero, Fin.mk_one,
    Fin.reduceFinMk, Fin.zero_eta, (D _ _ _ 0).1, (D _ _ _ 0).2.1, (D _ _ _ 0).2.2.1, (D _ _ _ 0).2.2.2.1,
    (D _ _ _ 0).2.2.2.2.1, (D _ _ _ 0).2.2.2.2.2.1, (D _ _ _ 0).2.2.2.2.2.2.1, (D _ _ _ 0).2.2.2.2.2.2.2.1,
    (D _ _ _ 0).2.2.2.2.2.2.2.2.1, (D _ _ _ _).2.2.2.2.2.2.2.2.2.1, (D _ _ _ _).2.2.2.2.2.2.2.2.2.2.1,
    (D _ _ _ _).2.2.2.2.2.2.2.2.2.2.2.1, mul_zero, zero_mul, sub_self, sub_zero, add_zero,
    (D _ _ _ 0).2.2.2.2.2.2.2.2.2.2.2.2.1, (D _ _ _ 0).2.2.2.2.2.2.2.2.2.2.2.2.2.1,
    (D _ _ _ 0).2.2.2.2.2.2.2.2.2.2.2.2.2.2.1, (D _ _ _ 0).2.2.2.2.2.2.2.2.2.2.2.2.2.2.2.1,
    (D _ _ _ 0).2.2.2.2.2.2.2.2.2.2.2.2.2.2.2.2.1, (D _ _ _ 0).2.2.2.2.2.2.2.2.2.2.2.2.2.2.2.2.2]
  have hl : ∀ (X : Mat 3 3 ℝ) (d : ℝ), loop 3 (fun r m => loop 3 (fun c m => do m.atSet cfg r c ((← m.atGet cfg r c) * d)) m) X =
      .ok (ofFn fun r c => X.get r c * d) := by
    intro X d
    apply loop2_cell (M := 3) (N := 3) (fun _ _ x => x * d)
    intro r hr c hc m
    simp only [atGet_lt cfg m hr hc, atSet_lt cfg m _ hr hc, bind_ok]
  rw [← pow_two]
  split_ifs with ht
  · rfl
  · rw [hl]
    simp only [bind_ok, pure_ok]
    congr 2
    ext i j
    fin_cases i <;> fin_cases j <;> simp [diag3]

/-- C86 fails for 3x3, on all invertible diagonal matrices (with a tolerance below everything): success is reported,
but the result is the inverse only if `a = b * c` and `c = 1` or `c = -1`. -/
theorem C86_inverse3_self_violated (cfg : Cfg) (a b c tol : ℝ) (ht : 0 ≤ tol) (h : tol < (b * c) ^ 2) (ha : a ≠ 0) :
    ∃ r, (diag3 a b c).inverse3Self cfg tol = .ok (true, r) ∧
      (IsInverse (diag3 a b c).toMat r.toMat ↔ a = b * c ∧ c ^ 2 = 1) := by
  have hbc : b * c ≠ 0 := fun h0 => by rw [h0] at h; simp at h; linarith
  have hb : b ≠ 0 := left_ne_zero_of_mul hbc
  have hc : c ≠ 0 := right_ne_zero_of_mul hbc
  rw [inverse3Self_diag, if_neg (by rw [abs_of_nonneg (sq_nonneg _)]; exact not_le.2 h)]
  refine ⟨_, rfl, ?_⟩
  have hm : ∀ x y z, (diag3 x y z).toMat = Matrix.diagonal ![x, y, z] := by
    intro x y z; ext i j; simp [diag3]
  rw [IsInverse, hm, hm, Matrix.diagonal_mul_diagonal, Matrix.diagonal_mul_diagonal, ← Matrix.diagonal_one]
  constructor
  · rintro ⟨h1, -⟩
    have h1 := Matrix.diagonal_injective h1
    have e0 := congrFun h1 0
    have e2 := congrFun h1 2
    simp at e0 e2
    field_simp at e0 e2
    exact ⟨e0, e2⟩
  · rintro ⟨rfl, hc2⟩
    constructor <;>
    · congr 1
      ext i
      fin_cases i <;> simp <;> field_simp <;> linarith

/-- C86. A singular matrix inverted into itself is reported as inverted: `diag( 0, 1, 1 )`. -/
theorem C86_inverse3_self_singular_violated (cfg : Cfg) :
    ∃ r, (diag3 0 1 1).inverse3Self cfg (1 / 2) = .ok (true, r) ∧ (diag3 0 1 1).toMat.det = 0 := by
  rw [inverse3Self_diag, if_neg (by norm_num)]
  refine ⟨_, rfl, ?_⟩
  rw [Matrix.det_fin_three]
  simp [diag3]

/-- C86 fails for 4x4: `diag( 0, 1, 1, 1 )` is singular but `m.inverse( m )` reports success; `diag( 2, 1, 1, 1 )` gives
the identity instead of the inverse. -/
theorem C86_inverse4_self_violated (a : ℝ) :
    ∃ r, (⟨#v[a, 0, 0, 0, 0, 1, 0, 0, 0, 0, 1, 0, 0, 0, 0, 1]⟩ : Mat 4 4 ℝ).inverse4Self (1 / 2) = .ok (true, r) ∧
      r.toMat = 1 ∧ (IsInverse (⟨#v[a, 0, 0, 0, 0, 1, 0, 0, 0, 0, 1, 0, 0, 0, 0, 1]⟩ : Mat 4 4 ℝ).toMat r.toMat ↔ a = 1) := by
  have hc : comatrix4Self #v[a, 0, 0, 0, 0, 1, 0, 0, 0, 0, 1, 0, 0, 0, 0, 1] =
      #v[1, 0, 0, 0, 0, 1, 0, 0, 0, 0, 1, 0, 0, 0, 0, 1] := by
    simp [comatrix4Self]
  unfold inverse4Self
  simp only [hc]
  have hl : loop 16 (fun i inv => do inv.rawSet i ((← inv.rawGet i) * (1 / (1 : ℝ))))
      (⟨#v[1, 0, 0, 0, 0, 1, 0, 0, 0, 0, 1, 0, 0, 0, 0, 1]⟩ : Mat 4 4 ℝ) =
        .ok ⟨#v[1, 0, 0, 0, 0, 1, 0, 0, 0, 0, 1, 0, 0, 0, 0, 1]⟩ := by
    rw [flat_cell (M := 4) (N := 4) (fun _ x => x * (1 / 1))
        (by intro i hi m; simp [Mat.rawGet_lt, Mat.rawSet_lt, hi])]
    congr 1
    ext r c
    simp
  have hd : (#v[1, 0, 0, 0, 0, 1, 0, 0, 0, 0, 1, 0, 0, 0, 0, 1] : Vec 16 ℝ)[0] *
      (#v[1, 0, 0, 0, 0, 1, 0, 0, 0, 0, 1, 0, 0, 0, 0, 1] : Vec 16 ℝ)[0] = 1 := by simp
  have h1 : (⟨#v[1, 0, 0, 0, 0, 1, 0, 0, 0, 0, 1, 0, 0, 0, 0, 1]⟩ : Mat 4 4 ℝ).toMat = 1 := by
    ext i j
    fin_cases i <;> fin_cases j <;> simp [Mat.get]
  refine ⟨⟨#v[1, 0, 0, 0, 0, 1, 0, 0, 0, 0, 1, 0, 0, 0, 0, 1]⟩, ?_, h1, ?_⟩
  · simp only [div_self, ne_eq, one_ne_zero, not_false_eq_true, mul_one] at hl
    simp [hl]
    norm_num
  · rw [h1, IsInverse, mul_one, one_mul, and_self]
    constructor
    · intro h
      have := congrFun (congrFun h 0) 0
      simpa [Mat.get] using this
    · rintro rfl; exact h1

end Vmml
