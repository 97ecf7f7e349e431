import Verif.Props.FloatCast
import Verif.Props.FloatLaws
import Verif.Props.FloatCull
import Verif.Model.Quaternion

/-!
# C159: `Quaternion::is_akin` in IEEE arithmetic

`is_akin` takes the differences with `fabsf`, which is a function of `float`: with `double` components (`D`) the difference is rounded to `float` (`F`) before it is compared with the
tolerance. `F = D` is the case of `float` components.
-/

namespace Vmml
open Format
variable {F D : Format}

/-! ## Specification -/

/-- The test of one component: the difference, rounded to the element type and then to `float`, is finite and at most the tolerance. -/
def Spec.Akin (F : Format) (δ : ℝ) (a b : Fp D) : Prop :=
  D.rnd |a.val - b.val| ≤ D.maxFinite ∧ F.rnd (D.rnd |a.val - b.val|) ≤ F.maxFinite ∧ F.rnd (D.rnd |a.val - b.val|) ≤ δ

/-- The call `q.is_akin( a, δ )`: the argument of `fabsf` is converted to `float`, the result back to `T` for the comparison. -/
noncomputable def Spec.isAkin (F : Format) (q a : Quat (Fp D)) (δ : Fp D) : Bool := q.isAkin (fun x => Fp.convert D (Fp.convert F x)) a δ

/-- All components are finite. -/
def Spec.AllFinite (q : Quat (Fp D)) : Prop := q.x.Finite ∧ q.y.Finite ∧ q.z.Finite ∧ q.w.Finite

/-! ## Proofs -/

private theorem fabs_sub {a b : Fp D} (ha : a.Finite) (hb : b.Finite) : (CMath.fabs (a - b) : Fp D) = .round false |a.val - b.val| := by
  obtain ⟨s, m, hm, rfl⟩ := Fp.finite_cases ha
  obtain ⟨t, k, hk, rfl⟩ := Fp.finite_cases hb
  have hv : (Fp.fin s m hm : Fp D).val - (Fp.fin t k hk : Fp D).val = (Fp.fin s m hm : Fp D).val + (Fp.fin (!t) k hk : Fp D).val := by
    cases t <;> simp [Fp.val, sub_eq_add_neg]
  rw [hv]
  show CMath.fabs (Fp.fin s m hm + Fp.fin (!t) k hk) = _
  by_cases h0 : (Fp.fin s m hm : Fp D).val + (Fp.fin (!t) k hk : Fp D).val = 0
  · have : (Fp.fin s m hm + Fp.fin (!t) k hk : Fp D) = .fin (s && !t) 0 Format.mag_zero := by
      show (if _ = (0 : ℝ) then _ else _) = _
      rw [if_pos h0]
    rw [this, h0, abs_zero]
    have hr : (0 : ℝ) ≤ 0 ∧ D.rnd 0 ≤ D.maxFinite := ⟨le_rfl, by rw [rnd_zero]; exact D.maxFinite_pos.le⟩
    show Fp.fin false 0 _ = Fp.round false 0
    unfold Fp.round
    rw [dif_pos hr]
    simp only [rnd_zero]
  · have : (Fp.fin s m hm + Fp.fin (!t) k hk : Fp D) = .round (@decide ((Fp.fin s m hm : Fp D).val + (Fp.fin (!t) k hk : Fp D).val < 0) (Classical.propDecidable _)) |(Fp.fin s m hm : Fp D).val + (Fp.fin (!t) k hk : Fp D).val| := by
      show (if _ = (0 : ℝ) then _ else _) = _
      rw [if_neg h0]
    rw [this]
    unfold Fp.round
    split_ifs <;> rfl

private theorem fabs_convert {G H : Format} (x : Fp G) : (CMath.fabs (Fp.convert H x) : Fp H) = Fp.convert H (CMath.fabs x) := by
  cases x with
  | nan => rfl
  | inf s => rfl
  | fin s m hm =>
    show CMath.fabs (Fp.round s m : Fp H) = Fp.round false m
    unfold Fp.round
    split_ifs <;> rfl

private theorem component (hp : F.p ≤ D.p) (he : F.emax ≤ D.emax) {a b δ : Fp D} (ha : a.Finite) (hb : b.Finite) (hδ : δ.Finite) :
    ¬ δ < CMath.fabs (Fp.convert D (Fp.convert F (a - b))) ↔ Spec.Akin F δ.val a b := by
  have top : δ < (.inf false : Fp D) := by
    rw [Fp.lt_iff hδ.ne_nan (by simp), Fp.ereal_val hδ]
    exact EReal.coe_lt_top _
  rw [fabs_convert, fabs_convert, fabs_sub ha hb]
  unfold Spec.Akin
  have hd := abs_nonneg (a.val - b.val)
  generalize |a.val - b.val| = d at *
  by_cases h1 : D.rnd d ≤ D.maxFinite
  · have e1 : (Fp.round false d : Fp D) = .fin false (D.rnd d) (Format.mag_rnd hd h1) := dif_pos ⟨hd, h1⟩
    rw [e1]
    by_cases h2 : F.rnd (D.rnd d) ≤ F.maxFinite
    · have e2 : Fp.convert F (.fin false (D.rnd d) (Format.mag_rnd hd h1) : Fp D) = .fin false (F.rnd (D.rnd d)) (Format.mag_rnd (rnd_nonneg hd) h2) := dif_pos ⟨rnd_nonneg hd, h2⟩
      rw [e2]
      obtain ⟨hm, e3⟩ := Fp.convert_wide (s := false) hp he (Format.mag_rnd (F := F) (rnd_nonneg hd) h2)
      rw [e3, Fp.lt_val hδ (show (Fp.fin false (F.rnd (D.rnd d)) hm : Fp D).Finite from trivial), not_lt]
      exact ⟨fun h => ⟨h1, h2, h⟩, fun h => h.2.2⟩
    · have e2 : Fp.convert F (.fin false (D.rnd d) (Format.mag_rnd hd h1) : Fp D) = .inf false := dif_neg fun h => h2 h.2
      rw [e2]
      exact iff_of_false (not_not.2 top) fun h => h2 h.2.1
  · have e1 : (Fp.round false d : Fp D) = .inf false := dif_neg fun h => h1 h.2
    rw [e1]
    exact iff_of_false (not_not.2 top) fun h => h1 h.1

/-- **C159** The exact criterion, for all finite quaternions and a finite tolerance. -/
theorem C159_exact (hp : F.p ≤ D.p) (he : F.emax ≤ D.emax) (q a : Quat (Fp D)) (δ : Fp D) (hq : Spec.AllFinite q) (ha : Spec.AllFinite a) (hδ : δ.Finite) :
    Spec.isAkin F q a δ = true ↔ Spec.Akin F δ.val q.x a.x ∧ Spec.Akin F δ.val q.y a.y ∧ Spec.Akin F δ.val q.z a.z ∧ Spec.Akin F δ.val q.w a.w := by
  obtain ⟨q1, q2, q3, q4⟩ := hq
  obtain ⟨a1, a2, a3, a4⟩ := ha
  rw [← component hp he q1 a1 hδ, ← component hp he q2 a2 hδ, ← component hp he q3 a3 hδ, ← component hp he q4 a4 hδ]
  unfold Spec.isAkin Quat.isAkin
  simp only [Bool.if_false_left, Bool.and_true, Bool.not_eq_true', decide_eq_false_iff_not, Bool.or_eq_true, decide_eq_true_eq]
  tauto

/-- **C159** Accepted differences are at most the tolerance, up to the two roundings and the underflow in `float`. -/
theorem C159_sound (δ : ℝ) (a b : Fp D) (ha : a.Finite) (hb : b.Finite) (h : Spec.Akin F δ a b) : (1 - F.u) * ((1 - D.u) * |a.val - b.val|) - F.eta ≤ δ := by
  obtain ⟨-, -, h3⟩ := h
  have hg : D.Grid |a.val - b.val| := by
    have : D.Grid (a.val - b.val) := by rw [sub_eq_add_neg]; exact (Fp.rep_val ha).grid.add (Fp.rep_val hb).grid.neg
    rcases abs_choice (a.val - b.val) with e | e <;> rw [e]
    · exact this
    · exact this.neg
  have e1 := (abs_le.1 hg.rnd_err).1
  have e2 := (abs_le.1 (rnd_err_add (F := F) (D.rnd |a.val - b.val|))).1
  have hd := abs_nonneg (a.val - b.val)
  rw [abs_of_nonneg hd] at e1
  rw [abs_of_nonneg (rnd_nonneg hd)] at e2
  have hu : F.u ≤ 1 := u_le_one
  have : (1 - F.u) * ((1 - D.u) * |a.val - b.val|) ≤ (1 - F.u) * D.rnd |a.val - b.val| := mul_le_mul_of_nonneg_left (by linarith) (by linarith)
  linarith

/-- **C159** If the tolerance is a `float`, differences up to it are accepted. -/
theorem C159_complete (hp : F.p ≤ D.p) (he : F.emax ≤ D.emax) (δ : Fp F) (hδ : δ.Finite) (a b : Fp D) (h : |a.val - b.val| ≤ δ.val) : Spec.Akin F δ.val a b := by
  have r1 := Fp.rep_val hδ
  have m1 := (abs_le.1 (Fp.abs_val_le δ)).2
  have k1 : D.rnd |a.val - b.val| ≤ δ.val := rnd_le_rep (rep_widen hp he r1) h
  have k2 : F.rnd (D.rnd |a.val - b.val|) ≤ δ.val := rnd_le_rep r1 k1
  exact ⟨k1.trans (m1.trans (max_widen hp he)), k2.trans m1, k2⟩

/-- **C159** With any tolerance, differences are accepted that are below it by the roundings and the underflow, as long as they fit in a `float`. -/
theorem C159_complete_double (hp : F.p ≤ D.p) (he : F.emax ≤ D.emax) (h0 : 0 < F.emax) (δ : ℝ) (a b : Fp D) (ha : a.Finite) (hb : b.Finite) (hfit : |a.val - b.val| ≤ F.maxFinite)
    (h : (1 + F.u) * ((1 + D.u) * |a.val - b.val|) + F.eta ≤ δ) : Spec.Akin F δ a b := by
  have r1 : F.Rep F.maxFinite := rep_max h0
  have k1 : D.rnd |a.val - b.val| ≤ F.maxFinite := rnd_le_rep (rep_widen hp he r1) hfit
  refine ⟨k1.trans (max_widen hp he), rnd_le_rep r1 k1, ?_⟩
  have hg : D.Grid |a.val - b.val| := by
    have : D.Grid (a.val - b.val) := by rw [sub_eq_add_neg]; exact (Fp.rep_val ha).grid.add (Fp.rep_val hb).grid.neg
    rcases abs_choice (a.val - b.val) with e | e <;> rw [e]
    · exact this
    · exact this.neg
  have e1 := (abs_le.1 hg.rnd_err).2
  have e2 := (abs_le.1 (rnd_err_add (F := F) (D.rnd |a.val - b.val|))).2
  have hd := abs_nonneg (a.val - b.val)
  rw [abs_of_nonneg hd] at e1
  rw [abs_of_nonneg (rnd_nonneg hd)] at e2
  have hu := F.u_pos
  have : (1 + F.u) * D.rnd |a.val - b.val| ≤ (1 + F.u) * ((1 + D.u) * |a.val - b.val|) := mul_le_mul_of_nonneg_left (by linarith) (by linarith)
  linarith

private theorem component_zero (δ : ℝ) (h : 0 ≤ δ) : Spec.Akin F δ (0 : Fp D) 0 := by
  unfold Spec.Akin
  rw [Fp.val_zero, sub_zero, abs_zero, rnd_zero, rnd_zero]
  exact ⟨D.maxFinite_pos.le, F.maxFinite_pos.le, h⟩

/-- **C159** The flaw with `double` components, small differences: a difference `x` that is not zero but below half the smallest `float` is accepted with the tolerance zero. -/
theorem C159_tiny_violated (hp : F.p ≤ D.p) (he : F.emax ≤ D.emax) {x : ℝ} (hx : D.Mag x) (hpos : 0 < x) (hsmall : x < F.eta) :
    ∃ q a : Quat (Fp D), Spec.AllFinite q ∧ Spec.AllFinite a ∧ q.x.val - a.x.val = x ∧ Spec.isAkin F q a 0 = true := by
  have hq : Spec.AllFinite (⟨.fin false x hx, 0, 0, 0⟩ : Quat (Fp D)) := ⟨trivial, Fp.finite_zero, Fp.finite_zero, Fp.finite_zero⟩
  have ha : Spec.AllFinite (⟨0, 0, 0, 0⟩ : Quat (Fp D)) := ⟨Fp.finite_zero, Fp.finite_zero, Fp.finite_zero, Fp.finite_zero⟩
  refine ⟨⟨.fin false x hx, 0, 0, 0⟩, ⟨0, 0, 0, 0⟩, hq, ha, ?_, ?_⟩
  · show x - (0 : Fp D).val = x
    rw [Fp.val_zero, sub_zero]
  · rw [C159_exact hp he _ _ _ hq ha Fp.finite_zero, Fp.val_zero]
    refine ⟨?_, component_zero 0 le_rfl, component_zero 0 le_rfl, component_zero 0 le_rfl⟩
    show D.rnd |x - (0 : Fp D).val| ≤ _ ∧ F.rnd (D.rnd |x - (0 : Fp D).val|) ≤ _ ∧ F.rnd (D.rnd |x - (0 : Fp D).val|) ≤ 0
    rw [Fp.val_zero, sub_zero, abs_of_pos hpos, hx.2.1.rnd_eq, rnd_tiny hpos.le hsmall]
    exact ⟨hx.2.2, F.maxFinite_pos.le, le_rfl⟩

/-- **C159** The flaw with `double` components, large differences: a difference `x` beyond the range of `float` is not accepted even with the tolerance `x`. -/
theorem C159_huge_violated (hp : F.p ≤ D.p) (he : F.emax ≤ D.emax) {x : ℝ} (hx : D.Mag x) (hbig : (2 : ℝ) ^ ((F.emax : Int) + 1) ≤ x) :
    ∃ q a : Quat (Fp D), ∃ δ : Fp D, Spec.AllFinite q ∧ Spec.AllFinite a ∧ δ.Finite ∧ |q.x.val - a.x.val| ≤ δ.val ∧ |q.y.val - a.y.val| ≤ δ.val ∧ |q.z.val - a.z.val| ≤ δ.val ∧
      |q.w.val - a.w.val| ≤ δ.val ∧ Spec.isAkin F q a δ = false := by
  have hpos : 0 < x := lt_of_lt_of_le (by positivity) hbig
  have hq : Spec.AllFinite (⟨.fin false x hx, 0, 0, 0⟩ : Quat (Fp D)) := ⟨trivial, Fp.finite_zero, Fp.finite_zero, Fp.finite_zero⟩
  have ha : Spec.AllFinite (⟨0, 0, 0, 0⟩ : Quat (Fp D)) := ⟨Fp.finite_zero, Fp.finite_zero, Fp.finite_zero, Fp.finite_zero⟩
  have hz : |(0 : Fp D).val - (0 : Fp D).val| ≤ x := by rw [sub_self, abs_zero]; exact hpos.le
  have hv : |x - (0 : Fp D).val| = x := by rw [Fp.val_zero, sub_zero, abs_of_pos hpos]
  refine ⟨⟨.fin false x hx, 0, 0, 0⟩, ⟨0, 0, 0, 0⟩, .fin false x hx, hq, ha, trivial, hv.le, hz, hz, hz, ?_⟩
  rw [← Bool.not_eq_true, C159_exact hp he _ _ (.fin false x hx) hq ha trivial]
  rintro ⟨⟨-, h, -⟩, -⟩
  have h' : F.rnd (D.rnd |x - (0 : Fp D).val|) ≤ F.maxFinite := h
  rw [hv, hx.2.1.rnd_eq] at h'
  have : (2 : ℝ) ^ ((F.emax : Int) + 1) ≤ F.rnd x := rep_le_rnd (rep_pow (by unfold Format.emin; omega)) hbig
  linarith [F.maxFinite_lt]

/-- **C159** With `float` components the conversions change nothing: `is_akin` is the test with `fabs`. -/
theorem C159_float (q a : Quat (Fp F)) (δ : Fp F) : Spec.isAkin F q a δ = q.isAkin id a δ := by
  unfold Spec.isAkin
  congr 1
  funext x
  exact Fp.convert_back le_rfl le_rfl x

/-- `float` and `double` meet the hypotheses, with the differences `2 ^ -200` and `2 ^ 200`. -/
example : (∃ q a : Quat (Fp double), Spec.AllFinite q ∧ Spec.AllFinite a ∧ q.x.val - a.x.val = (2 : ℝ) ^ (-200 : Int) ∧ Spec.isAkin single q a 0 = true) ∧
    ∃ q a : Quat (Fp double), ∃ δ : Fp double, Spec.AllFinite q ∧ Spec.AllFinite a ∧ δ.Finite ∧ |q.x.val - a.x.val| ≤ δ.val ∧ |q.y.val - a.y.val| ≤ δ.val ∧ |q.z.val - a.z.val| ≤ δ.val ∧
      |q.w.val - a.w.val| ≤ δ.val ∧ Spec.isAkin single q a δ = false := by
  constructor
  · have hr : Format.double.Rep ((2 : ℝ) ^ (-200 : Int)) := rep_pow (by unfold Format.emin Format.double; norm_num)
    refine C159_tiny_violated (by decide) (by decide) ⟨by positivity, hr, ?_⟩ (by positivity) ?_
    · exact (zpow_le_one_of_nonpos₀ (by norm_num) (by norm_num)).trans (one_le_max (by decide))
    · have e : Format.single.emin - (Format.single.p : Int) = -149 := by decide
      unfold Format.eta
      rw [e, show (1 / 2 : ℝ) = (2 : ℝ) ^ (-1 : Int) by norm_num, ← zpow_add₀ (by norm_num : (2 : ℝ) ≠ 0)]
      exact zpow_lt_zpow_right₀ (by norm_num) (by norm_num)
  · have hr : Format.double.Rep ((2 : ℝ) ^ (200 : Int)) := rep_pow (by unfold Format.emin Format.double; norm_num)
    refine C159_huge_violated (F := single) (by decide) (by decide) (x := (2 : ℝ) ^ (200 : Int)) ⟨by positivity, hr, ?_⟩ ?_
    · refine le_trans ?_ (pow_emax_le (F := double))
      exact zpow_le_zpow_right₀ (by norm_num) (by unfold Format.double; norm_num)
    · exact zpow_le_zpow_right₀ (by norm_num) (by unfold Format.single; norm_num)
end Vmml
