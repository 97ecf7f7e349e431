import Verif.Model.MixedFloat
import Verif.Proofs.DoubleRounding

/-!
# C116: `double` literals in `float` code
-/

namespace Vmml
open Format
variable {M : Nat} {F D : Format}

/-- `D` has enough digits and range for quotients of `F`: `double` for `float`. Or the types are the same. -/
def Spec.Quotients (F D : Format) : Prop := D = F ∨ (2 * F.p + 2 ≤ D.p ∧ 2 * F.emax + F.p + 1 ≤ D.emax)

example : Spec.Quotients .single .double := Or.inr (by norm_num)

/-! ## Conversions -/

private theorem fin_congr {s : Bool} {m n : ℝ} {hm : F.Mag m} {hn : F.Mag n} (h : m = n) : (Fp.fin s m hm : Fp F) = .fin s n hn := by subst h; rfl

/-- Converting to a wider type keeps sign and value. -/
private theorem convert_wide (hp : F.p ≤ D.p) (he : F.emax ≤ D.emax) (s : Bool) (m : ℝ) (h : F.Mag m) :
    ∃ h', Fp.convert D (.fin s m h) = .fin s m h' := by
  have hr := rep_widen hp he h.2.1
  have hle : m ≤ D.maxFinite := h.2.2.trans (max_widen hp he)
  refine ⟨⟨h.1, hr, hle⟩, ?_⟩
  show Fp.round s m = _
  rw [Fp.round_eq h.1 (by rw [hr.rnd_eq]; exact hle)]
  exact fin_congr hr.rnd_eq

theorem Fp.convert_self (a : Fp F) : Fp.convert F a = a := by
  cases a with
  | nan => rfl
  | inf s => rfl
  | fin s m h =>
    obtain ⟨h', e⟩ := convert_wide (D := F) le_rfl le_rfl s m h
    exact e

private theorem ofReal_rep {c : ℝ} (hc : F.Rep c) (hm : |c| ≤ F.maxFinite) : ∃ s h, (Fp.ofReal c : Fp F) = .fin s |c| h ∧ (s = true ↔ c < 0) := by
  have hr : F.Rep |c| := by
    rcases abs_cases c with ⟨e, -⟩ | ⟨e, -⟩
    · rw [e]; exact hc
    · obtain ⟨k, i, h1, h2, h3⟩ := hc
      rw [e]
      exact ⟨-k, i, h1, by rwa [abs_neg], by rw [h3]; push_cast; ring⟩
  refine ⟨@decide (c < 0) (Classical.propDecidable _), ⟨abs_nonneg c, hr, hm⟩, ?_, by rw [decide_eq_true_iff]⟩
  show Fp.round _ |c| = _
  rw [Fp.round_eq (abs_nonneg c) (by rw [hr.rnd_eq]; exact hm)]
  exact fin_congr hr.rnd_eq

/-- A literal that is a number of `F` is the same number in `D`. -/
private theorem lit_eq (hp : F.p ≤ D.p) (he : F.emax ≤ D.emax) {c : ℝ} (hc : F.Rep c) (hm : |c| ≤ F.maxFinite) :
    Fp.lit D c = Fp.convert D (.ofReal c : Fp F) := by
  obtain ⟨s, h, e, hs⟩ := ofReal_rep hc hm
  obtain ⟨s', h', e', hs'⟩ := ofReal_rep (rep_widen hp he hc) (hm.trans (max_widen hp he))
  obtain ⟨h'', e''⟩ := convert_wide (D := D) hp he s |c| h
  rw [e, e'']
  unfold Fp.lit
  rw [e']
  have : s = s' := by
    cases s <;> cases s' <;> simp_all <;> linarith
  rw [this]

theorem pow_emax_le : (2 : ℝ) ^ (F.emax : Int) ≤ F.maxFinite := by
  unfold maxFinite
  have h2 : (1 : ℝ) ≤ (2 : ℝ) ^ F.p := one_le_pow₀ (by norm_num)
  have e : (2 : ℝ) ^ (F.emax : Int) = (2 : ℝ) ^ F.p * (2 : ℝ) ^ ((F.emax : Int) - F.p) := by
    rw [← zpow_natCast (2 : ℝ) F.p, ← zpow_add₀ (by norm_num)]; congr 1; ring
  rw [e, pow_succ]
  apply mul_le_mul_of_nonneg_right _ (by positivity)
  linarith

private theorem min_le {x : ℝ} (h : F.Mag x) (hx : x ≠ 0) : (2 : ℝ) ^ (F.emin - F.p) ≤ x := by
  obtain ⟨k, hk⟩ := h.2.1.grid
  have h2 : (0 : ℝ) < (2 : ℝ) ^ (F.emin - F.p) := by positivity
  have hk1 : 1 ≤ k := by
    by_contra hc
    have : (k : ℝ) ≤ 0 := by exact_mod_cast (by omega : k ≤ 0)
    have h3 := h.1
    apply hx
    nlinarith
  have hk2 : (1 : ℝ) ≤ k := by exact_mod_cast hk1
  rw [hk]
  exact le_mul_of_one_le_left h2.le hk2

/-- **C116** A quotient of two `float`s computed in `double` and converted back is the `float` quotient, for all operands, including zeros, subnormal numbers, infinities and
NaN, also where the quotient overflows or underflows. -/
theorem C116_quotient (hD : Spec.Quotients F D) (a x : Fp F) : Fp.convert F (Fp.convert D a / Fp.convert D x) = a / x := by
  rcases hD with rfl | ⟨hp, he⟩
  · simp only [Fp.convert_self]
  have hp1 : F.p ≤ D.p := by omega
  have he1 : F.emax ≤ D.emax := by omega
  cases a with
  | nan => cases x <;> rfl
  | inf s =>
    cases x with
    | nan => rfl
    | inf t => rfl
    | fin t n k =>
      obtain ⟨k', ek⟩ := convert_wide hp1 he1 t n k
      rw [ek]; rfl
  | fin s m h =>
    obtain ⟨h', eh⟩ := convert_wide hp1 he1 s m h
    rw [eh]
    cases x with
    | nan => rfl
    | inf t =>
      show Fp.convert F (.fin (s ^^ t) 0 mag_zero : Fp D) = .fin (s ^^ t) 0 mag_zero
      show Fp.round (s ^^ t) 0 = _
      rw [Fp.round_eq le_rfl (by rw [rnd_zero]; exact maxFinite_pos.le)]
      exact fin_congr rnd_zero
    | fin t n k =>
      obtain ⟨k', ek⟩ := convert_wide hp1 he1 t n k
      rw [ek]
      have key : ∀ (G : Format) (hm : G.Mag m) (hn : G.Mag n), (Fp.fin s m hm / Fp.fin t n hn : Fp G) =
          @ite _ (n = 0) (Classical.propDecidable _) (@ite _ (m = 0) (Classical.propDecidable _) .nan (.inf (s ^^ t))) (.round (s ^^ t) (m / n)) := fun _ _ _ => rfl
      rw [key, key]
      by_cases hn : n = 0
      · rw [if_pos hn, if_pos hn]
        by_cases hm : m = 0
        · rw [if_pos hm, if_pos hm]; rfl
        · rw [if_neg hm, if_neg hm]; rfl
      rw [if_neg hn, if_neg hn]
      have hn0 : 0 < n := lt_of_le_of_ne k.1 (Ne.symm hn)
      have conv : ∀ y : ℝ, 0 ≤ y → D.rnd y ≤ D.maxFinite → F.rnd (D.rnd y) = F.rnd y →
          Fp.convert F (.round (s ^^ t) y : Fp D) = (.round (s ^^ t) y : Fp F) := by
        intro y hy hle hr
        rw [Fp.round_eq hy hle]
        show Fp.round (s ^^ t) (D.rnd y) = _
        by_cases hf : F.rnd y ≤ F.maxFinite
        · rw [Fp.round_eq (rnd_nonneg hy) (by rw [hr]; exact hf), Fp.round_eq hy hf]
          exact fin_congr hr
        · push Not at hf
          rw [Fp.round_inf (by rw [hr]; exact hf), Fp.round_inf hf]
      by_cases hm : m = 0
      · rw [hm, zero_div]
        exact conv 0 le_rfl (by rw [rnd_zero]; exact maxFinite_pos.le) (by rw [rnd_zero])
      have hm0 : 0 < m := lt_of_le_of_ne h.1 (Ne.symm hm)
      have m1 := min_le h hm
      have n1 := min_le k hn
      have m2 : m < (2 : ℝ) ^ ((F.emax : Int) + 1) := lt_of_le_of_lt h.2.2 maxFinite_lt
      have n2 : n < (2 : ℝ) ^ ((F.emax : Int) + 1) := lt_of_le_of_lt k.2.2 maxFinite_lt
      have hq1 : m / n ≤ (2 : ℝ) ^ (D.emax : Int) := by
        rw [div_le_iff₀ hn0]
        calc m ≤ (2 : ℝ) ^ ((F.emax : Int) + 1) := m2.le
          _ ≤ (2 : ℝ) ^ ((D.emax : Int) + (F.emin - F.p)) := zpow_le_zpow_right₀ (by norm_num) (by unfold emin; omega)
          _ = (2 : ℝ) ^ (D.emax : Int) * (2 : ℝ) ^ (F.emin - F.p) := zpow_add₀ (by norm_num) _ _
          _ ≤ _ := mul_le_mul_of_nonneg_left n1 (by positivity)
      have hq2 : (2 : ℝ) ^ D.emin ≤ m / n := by
        rw [le_div_iff₀ hn0]
        calc (2 : ℝ) ^ D.emin * n ≤ (2 : ℝ) ^ D.emin * (2 : ℝ) ^ ((F.emax : Int) + 1) := mul_le_mul_of_nonneg_left n2.le (by positivity)
          _ = (2 : ℝ) ^ (D.emin + ((F.emax : Int) + 1)) := (zpow_add₀ (by norm_num) _ _).symm
          _ ≤ (2 : ℝ) ^ (F.emin - F.p) := zpow_le_zpow_right₀ (by norm_num) (by unfold emin; omega)
          _ ≤ _ := m1
      refine conv _ (by positivity) ?_ (rnd_quotient h.2.1 k.2.1 hm0 hn0 hp (by omega) hq2)
      exact rnd_le_rep (rep_max (by omega)) (hq1.trans pow_emax_le)

/-- A division with a literal of type `double` that is a number of `T`. -/
private theorem divLit_eq (hD : Spec.Quotients F D) {c : ℝ} (hc : F.Rep c) (hm : |c| ≤ F.maxFinite) (x : Fp F) :
    Fp.divLit D c x = .ofReal c / x := by
  have hp : F.p ≤ D.p ∧ F.emax ≤ D.emax := by
    rcases hD with rfl | ⟨h1, h2⟩
    · exact ⟨le_rfl, le_rfl⟩
    · constructor <;> omega
  unfold Fp.divLit
  rw [lit_eq hp.1 hp.2 hc hm, C116_quotient hD]

private theorem ofReal_one : (.ofReal 1 : Fp F) = 1 := by
  show Fp.round (@decide ((1 : ℝ) < 0) (Classical.propDecidable _)) |1| = Fp.round false 1
  rw [abs_one]
  congr 1
  rw [decide_eq_false_iff_not]; norm_num

private theorem ofReal_neg_two : (.ofReal (-2) : Fp F) = -2 := by
  show Fp.round (@decide ((-2 : ℝ) < 0) (Classical.propDecidable _)) |-2| = -(Fp.round (@decide ((2 : ℝ) < 0) (Classical.propDecidable _)) |2| : Fp F)
  have h1 : @decide ((-2 : ℝ) < 0) (Classical.propDecidable _) = true := by rw [decide_eq_true_iff]; norm_num
  have h2 : @decide ((2 : ℝ) < 0) (Classical.propDecidable _) = false := by rw [decide_eq_false_iff_not]; norm_num
  rw [h1, h2, abs_neg, abs_of_pos (by norm_num : (0 : ℝ) < 2)]
  by_cases hf : F.rnd 2 ≤ F.maxFinite
  · rw [Fp.round_eq (by norm_num) hf, Fp.round_eq (by norm_num) hf]; rfl
  · push Not at hf
    rw [Fp.round_inf hf, Fp.round_inf hf]; rfl

private theorem rep_two (h1 : 1 < F.emax) : F.Rep 2 ∧ |(2 : ℝ)| ≤ F.maxFinite ∧ F.Rep (-2) ∧ |(-2 : ℝ)| ≤ F.maxFinite := by
  have hr : F.Rep 2 := by simpa using rep_pow (F := F) (e := 1) (by unfold emin; omega)
  have hle : (2 : ℝ) ≤ F.maxFinite := by
    refine le_trans ?_ (pow_emax_le (F := F))
    calc (2 : ℝ) = (2 : ℝ) ^ (1 : Int) := by norm_num
      _ ≤ _ := zpow_le_zpow_right₀ (by norm_num) (by omega)
  refine ⟨hr, by simpa using hle, ?_, by simpa using hle⟩
  obtain ⟨k, e, a, b, c⟩ := hr
  exact ⟨-k, e, a, by rwa [abs_neg], by push_cast; linarith⟩

private theorem divLit_one (hD : Spec.Quotients F D) (h0 : 0 < F.emax) (x : Fp F) : Fp.divLit D 1 x = 1 / x := by
  rw [divLit_eq hD (by simpa using rep_pow (F := F) (e := 0) (by unfold emin; omega)) (by simpa using one_le_max h0), ofReal_one]

/-- **C116** `normalize`, `operator/` of quaternions, the setup of a frustum culler and the orthographic matrix have the same result whether their literals `1.0`, `2.0`, `-2.0` are
taken as `T` or, as the language has it, as `double`. So the theorems about these functions in a format `F`, stated with literals in `T`, are about the code with `T = float`. -/
theorem C116_literals (hD : Spec.Quotients F D) (h1 : 1 < F.emax) (cfg : Cfg) :
    (∀ {M : Nat} (v : Vec M (Fp F)), v.normalizeMixed D cfg = v.normalize cfg) ∧
    (∀ (q : Quat (Fp F)) (a : Fp F), q.divSMixed D cfg a = q.divS cfg a) ∧
    (∀ m : Mat 4 4 (Fp F), Culler.setupMatrixMixed D cfg m = Culler.setupMatrix cfg m) ∧
    (∀ (f : Frustum (Fp F)) (m : Mat 4 4 (Fp F)), f.computeOrthoMatrixMixed D cfg m = f.computeOrthoMatrix cfg m) := by
  have h0 : 0 < F.emax := by omega
  have d1 : ∀ x : Fp F, Fp.divLit D 1 x = 1 / x := divLit_one hD h0
  obtain ⟨r1, r2, r3, r4⟩ := rep_two h1
  have d2 : ∀ x : Fp F, Fp.divLit D 2 x = 2 / x := divLit_eq hD r1 r2
  have d3 : ∀ x : Fp F, Fp.divLit D (-2) x = -2 / x := fun x => by rw [divLit_eq hD r3 r4, ofReal_neg_two]
  refine ⟨fun v => ?_, fun q a => ?_, fun m => ?_, fun f m => ?_⟩
  · simp only [Vec.normalizeMixed, Vec.normalize, d1]
  · simp only [Quat.divSMixed, Quat.divS, d1]
  · simp only [Culler.setupMatrixMixed, Culler.setupMatrix, Culler.normalizePlaneMixed, Culler.normalizePlane, d1]
  · simp only [Frustum.computeOrthoMatrixMixed, Frustum.computeOrthoMatrix, d2, d3]

/-- `float` and `double`. -/
example (cfg : Cfg) (v : Vec 3 (Fp single)) : v.normalizeMixed .double cfg = v.normalize cfg :=
  (C116_literals (Or.inr (by norm_num)) (by norm_num) cfg).1 v

end Vmml
