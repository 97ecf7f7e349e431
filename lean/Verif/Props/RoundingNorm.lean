import Verif.Props.Rounding
import Mathlib.Tactic.Linarith
import Mathlib.Algebra.BigOperators.Field

/-!
# C90: rounding errors of length, distance and normalisation

As for C81, for an arbitrary rounding function with relative error at most `u` in every operation.
-/

namespace Vmml
variable {M : Nat} {u : ℝ} {ρ : Rounding u}

/-- The Euclidean length of the exact values of the components. -/
noncomputable def Spec.len (v : Vec M (Fl ρ)) : ℝ := Real.sqrt (∑ i : Fin M, v[i].val ^ 2)
/-- The Euclidean distance of the exact values. -/
noncomputable def Spec.dist (v w : Vec M (Fl ρ)) : ℝ := Real.sqrt (∑ i : Fin M, (v[i].val - w[i].val) ^ 2)

/-- The relative error bound of the length: accumulation and square root. -/
noncomputable def Spec.lenErr (u : ℝ) (M : Nat) : ℝ := (1 + Spec.gamma u M) * (1 + u) - 1
/-- The relative error bound of a normalised component: length, reciprocal and product. -/
noncomputable def Spec.normErr (u : ℝ) (M : Nat) : ℝ := (1 + u) ^ 2 / ((1 - Spec.gamma u M) * (1 - u)) - 1

theorem gamma_nonneg (hu : 0 ≤ u) (hM : M * u < 1) : 0 ≤ Spec.gamma u M := by
  unfold Spec.gamma
  have : 0 < 1 - (M : ℝ) * u := by linarith
  positivity

theorem gamma_lt_one (hM : 2 * (M * u) < 1) (hu : 0 ≤ u) : Spec.gamma u M < 1 := by
  unfold Spec.gamma
  have h0 : 0 ≤ (M : ℝ) * u := by positivity
  rw [div_lt_one (by linarith)]
  linarith

theorem rnd_bounds (ρ : Rounding u) {x : ℝ} (hx : 0 ≤ x) : (1 - u) * x ≤ ρ.rnd x ∧ ρ.rnd x ≤ (1 + u) * x := by
  have h := abs_le.1 (ρ.err x)
  rw [abs_of_nonneg hx] at h
  constructor <;> linarith [h.1, h.2]

/-- Square roots shrink relative errors. -/
theorem sqrt_bounds {s S g : ℝ} (h0 : 0 ≤ g) (h1 : g ≤ 1) (hS : 0 ≤ S) (h : |s - S| ≤ g * S) :
    (1 - g) * Real.sqrt S ≤ Real.sqrt s ∧ Real.sqrt s ≤ (1 + g) * Real.sqrt S := by
  have h := abs_le.1 h
  have hr := Real.sqrt_nonneg S
  have hq := Real.sq_sqrt hS
  constructor
  · apply Real.le_sqrt_of_sq_le
    have : ((1 - g) * Real.sqrt S) ^ 2 = (1 - g) ^ 2 * S := by rw [mul_pow, hq]
    nlinarith [mul_nonneg (mul_nonneg h0 (sub_nonneg.2 h1)) hS]
  · rw [Real.sqrt_le_iff]
    refine ⟨by positivity, ?_⟩
    have : ((1 + g) * Real.sqrt S) ^ 2 = (1 + g) ^ 2 * S := by rw [mul_pow, hq]
    nlinarith [mul_nonneg h0 hS, mul_nonneg (mul_nonneg h0 h0) hS]

private theorem length_bounds (v : Vec M (Fl ρ)) (hM : 2 * (M * u) < 1) (hu : u < 1) :
    ∃ d, v.length = .ok d ∧ (1 - Spec.gamma u M) * (1 - u) * Spec.len v ≤ d.val ∧ d.val ≤ (1 + Spec.gamma u M) * (1 + u) * Spec.len v := by
  have h0 := ρ.nonneg
  have hM' : (M : ℝ) * u < 1 := by nlinarith [mul_nonneg (Nat.cast_nonneg (α := ℝ) M) h0]
  have g0 := gamma_nonneg h0 hM'
  have g1 := gamma_lt_one hM h0
  obtain ⟨s, h1, h2⟩ := C81_squared_length v hM'
  refine ⟨_, by simp only [Vec.length, h1, bind_ok]; rfl, ?_⟩
  obtain ⟨a, b⟩ := sqrt_bounds g0 g1.le (Finset.sum_nonneg fun i _ => sq_nonneg _) h2
  obtain ⟨c, d⟩ := rnd_bounds ρ (Real.sqrt_nonneg s.val)
  rw [Fl.val_sqrt]
  constructor
  · refine le_trans ?_ c
    have := mul_le_mul_of_nonneg_left a (sub_nonneg.2 hu.le)
    unfold Spec.len
    linarith
  · refine le_trans d ?_
    have := mul_le_mul_of_nonneg_left b (show 0 ≤ 1 + u by linarith)
    unfold Spec.len
    linarith

/-- C90. `length()`: the relative error is at most `( 1 + γ_M ) ( 1 + u ) - 1`, for every dimension with `2 M u < 1`; the length is zero exactly for
the zero vector. -/
theorem C90_length (v : Vec M (Fl ρ)) (hM : 2 * (M * u) < 1) (hu : u < 1) :
    ∃ d, v.length = .ok d ∧ |d.val - Spec.len v| ≤ Spec.lenErr u M * Spec.len v ∧ (d.val = 0 ↔ ∀ i : Fin M, v[i].val = 0) := by
  have h0 := ρ.nonneg
  have hM' : (M : ℝ) * u < 1 := by nlinarith [mul_nonneg (Nat.cast_nonneg (α := ℝ) M) h0]
  have g0 := gamma_nonneg h0 hM'
  have g1 := gamma_lt_one hM h0
  obtain ⟨d, h1, h2, h3⟩ := length_bounds v hM hu
  have hl : 0 ≤ Spec.len v := Real.sqrt_nonneg _
  refine ⟨d, h1, ?_, ?_⟩
  · rw [abs_le, Spec.lenErr]
    constructor
    · have : -(((1 + Spec.gamma u M) * (1 + u) - 1) * Spec.len v) ≤ ((1 - Spec.gamma u M) * (1 - u) - 1) * Spec.len v := by
        rw [← neg_mul]
        apply mul_le_mul_of_nonneg_right _ hl
        nlinarith [mul_nonneg g0 h0]
      linarith
    · linarith
  · constructor
    · intro hd i
      rw [hd] at h2
      have hp : 0 < (1 - Spec.gamma u M) * (1 - u) := mul_pos (by linarith) (by linarith)
      have hz : Spec.len v = 0 := le_antisymm (by by_contra hc; push Not at hc; nlinarith [mul_pos hp hc]) hl
      rw [Spec.len, Real.sqrt_eq_zero (Finset.sum_nonneg fun i _ => sq_nonneg _),
        Finset.sum_eq_zero_iff_of_nonneg (fun i _ => sq_nonneg _)] at hz
      exact pow_eq_zero_iff (two_ne_zero) |>.1 (hz i (Finset.mem_univ _))
    · intro h
      have hz : Spec.len v = 0 := by
        unfold Spec.len
        rw [Finset.sum_eq_zero (fun i _ => by rw [h i]; ring), Real.sqrt_zero]
      rw [hz] at h2 h3
      linarith

/-- C90. `distance()`: the relative error is at most `( 1 + γ_M ) ( 1 + u )² - 1`: the subtractions do not cancel, because the operands are taken as
exact. -/
theorem C90_distance (cfg : Cfg) (v w : Vec M (Fl ρ)) (hM : 2 * (M * u) < 1) (hu : u < 1) :
    ∃ d, v.distance cfg w = .ok d ∧ |d.val - Spec.dist v w| ≤ ((1 + Spec.gamma u M) * (1 + u) ^ 2 - 1) * Spec.dist v w := by
  have h0 := ρ.nonneg
  have hM' : (M : ℝ) * u < 1 := by nlinarith [mul_nonneg (Nat.cast_nonneg (α := ℝ) M) h0]
  have g0 := gamma_nonneg h0 hM'
  have g1 := gamma_lt_one hM h0
  let x : Vec M (Fl ρ) := Vector.ofFn fun i => v[i] - w[i]
  have hx : v.subAssign cfg w = .ok x := by
    unfold Vec.subAssign
    apply loop_set
    intro i hi y hy
    simp [hi, hy]
  obtain ⟨d, h1, h2, h3⟩ := length_bounds x hM hu
  have hd : v.distance cfg w = .ok d := by
    simp only [Vec.distance, Vec.squaredDistance, hx, bind_ok]
    exact h1
  refine ⟨d, hd, ?_⟩
  have hl : 0 ≤ Spec.dist v w := Real.sqrt_nonneg _
  have hxi : ∀ i : Fin M, |x[i].val - (v[i].val - w[i].val)| ≤ u * |v[i].val - w[i].val| := by
    intro i
    simp only [x, Fin.getElem_fin, Vector.getElem_ofFn, Fl.val_sub]
    exact ρ.err _
  have hsq : ∀ i : Fin M, (1 - u) ^ 2 * (v[i].val - w[i].val) ^ 2 ≤ x[i].val ^ 2 ∧ x[i].val ^ 2 ≤ (1 + u) ^ 2 * (v[i].val - w[i].val) ^ 2 := by
    intro i
    have h := hxi i
    have a1 : |x[i].val| ≤ (1 + u) * |v[i].val - w[i].val| := by
      have := abs_add_le (x[i].val - (v[i].val - w[i].val)) (v[i].val - w[i].val)
      rw [sub_add_cancel] at this
      linarith
    have a2 : (1 - u) * |v[i].val - w[i].val| ≤ |x[i].val| := by
      have := abs_add_le ((v[i].val - w[i].val) - x[i].val) (x[i].val)
      rw [sub_add_cancel, abs_sub_comm (v[i].val - w[i].val) x[i].val] at this
      linarith
    have b1 := pow_le_pow_left₀ (abs_nonneg _) a1 2
    have b2 := pow_le_pow_left₀ (mul_nonneg (sub_nonneg.2 hu.le) (abs_nonneg _)) a2 2
    rw [mul_pow, sq_abs, sq_abs] at b1 b2
    exact ⟨b2, b1⟩
  have hxl : (1 - u) * Spec.dist v w ≤ Spec.len x ∧ Spec.len x ≤ (1 + u) * Spec.dist v w := by
    have hS : (0 : ℝ) ≤ ∑ i : Fin M, (v[i].val - w[i].val) ^ 2 := Finset.sum_nonneg fun i _ => sq_nonneg _
    have hq := Real.sq_sqrt hS
    constructor
    · apply Real.le_sqrt_of_sq_le
      rw [mul_pow, Spec.dist, hq, Finset.mul_sum]
      exact Finset.sum_le_sum fun i _ => (hsq i).1
    · unfold Spec.len
      rw [Real.sqrt_le_iff]
      refine ⟨mul_nonneg (by linarith) hl, ?_⟩
      rw [mul_pow, Spec.dist, hq, Finset.mul_sum]
      exact Finset.sum_le_sum fun i _ => (hsq i).2
  have up : d.val ≤ (1 + Spec.gamma u M) * (1 + u) ^ 2 * Spec.dist v w := by
    refine h3.trans ?_
    have := mul_le_mul_of_nonneg_left hxl.2 (show 0 ≤ (1 + Spec.gamma u M) * (1 + u) by positivity)
    linarith
  have lo : (1 - Spec.gamma u M) * (1 - u) ^ 2 * Spec.dist v w ≤ d.val := by
    refine le_trans ?_ h2
    have := mul_le_mul_of_nonneg_left hxl.1 (mul_nonneg (sub_nonneg.2 g1.le) (sub_nonneg.2 hu.le))
    linarith
  rw [abs_le]
  constructor
  · have : -(((1 + Spec.gamma u M) * (1 + u) ^ 2 - 1) * Spec.dist v w) ≤ ((1 - Spec.gamma u M) * (1 - u) ^ 2 - 1) * Spec.dist v w := by
      rw [← neg_mul]
      apply mul_le_mul_of_nonneg_right _ hl
      nlinarith [mul_nonneg g0 h0, mul_nonneg h0 h0]
    linarith
  · linarith

private theorem comp_bound {x y t L ε u : ℝ} (he : |y - x * t| ≤ u * (|x| * t)) (f2 : (1 + u) * t ≤ (1 + ε) / L)
    (hlo : (1 - ε) / L ≤ (1 - u) * t) : |y - x / L| ≤ ε * (|x| / L) := by
  have e1 : y - x / L = (y - x * t) + x * (t - 1 / L) := by ring
  have h1 : |y - x / L| ≤ u * (|x| * t) + |x| * |t - 1 / L| := by
    rw [e1, ← abs_mul]
    exact (abs_add_le _ _).trans (by linarith)
  have h2 : u * t + |t - 1 / L| ≤ ε * (1 / L) := by
    have r1 : (1 + ε) / L = 1 / L + ε * (1 / L) := by ring
    have r2 : (1 - ε) / L = 1 / L - ε * (1 / L) := by ring
    rw [r1] at f2
    rw [r2] at hlo
    rcases abs_cases (t - 1 / L) with ⟨h, _⟩ | ⟨h, _⟩ <;> rw [h] <;> linarith
  calc _ ≤ u * (|x| * t) + |x| * |t - 1 / L| := h1
    _ = |x| * (u * t + |t - 1 / L|) := by ring
    _ ≤ |x| * (ε * (1 / L)) := mul_le_mul_of_nonneg_left h2 (abs_nonneg _)
    _ = _ := by ring

/-- C90. `normalize()`: for every vector whose components are not all zero, each component is the exact normalised component up to the relative
error `normErr`, and the result's exact length differs from 1 by at most `normErr`. -/
theorem C90_normalize (cfg : Cfg) (v : Vec M (Fl ρ)) (hM : 2 * (M * u) < 1) (hu : u < 1) (hv : ∃ i : Fin M, v[i].val ≠ 0) :
    ∃ w l, v.normalize cfg = .ok (w, l) ∧ v.length = .ok l ∧
      (∀ i : Fin M, |w[i].val - v[i].val / Spec.len v| ≤ Spec.normErr u M * (|v[i].val| / Spec.len v)) ∧
      |Spec.len w - 1| ≤ Spec.normErr u M := by
  have h0 := ρ.nonneg
  have hM' : (M : ℝ) * u < 1 := by nlinarith [mul_nonneg (Nat.cast_nonneg (α := ℝ) M) h0]
  have g0 := gamma_nonneg h0 hM'
  have g1 := gamma_lt_one hM h0
  have hM1 : 1 ≤ M := by obtain ⟨i, _⟩ := hv; exact lt_of_le_of_lt (Nat.zero_le _) i.2
  have gu : u ≤ Spec.gamma u M := by
    unfold Spec.gamma
    rw [le_div_iff₀ (by linarith)]
    have : (1 : ℝ) ≤ M := by exact_mod_cast hM1
    nlinarith [mul_nonneg (Nat.cast_nonneg (α := ℝ) M) h0, mul_nonneg h0 h0]
  obtain ⟨l, h1, h2, h3⟩ := length_bounds v hM hu
  obtain ⟨l', h1', _, hz⟩ := C90_length v hM hu
  obtain rfl : l = l' := Except.ok.inj (h1.symm.trans h1')
  have hl0 : l.val ≠ 0 := by
    intro h
    obtain ⟨i, hi⟩ := hv
    exact hi (hz.1 h i)
  have hL : 0 < Spec.len v := by
    rcases (Real.sqrt_nonneg (∑ i : Fin M, v[i].val ^ 2)).lt_or_eq with h | h
    · exact h
    · exfalso
      have hz : Spec.len v = 0 := h.symm
      rw [hz] at h2 h3
      exact hl0 (by linarith)
  set L := Spec.len v with hLdef
  set g := Spec.gamma u M with hg
  have hp : 0 < (1 - g) * (1 - u) := mul_pos (by linarith) (by linarith)
  have hlp : 0 < l.val := lt_of_lt_of_le (mul_pos hp hL) h2
  let w : Vec M (Fl ρ) := Vector.ofFn fun i => v[i] * (1 / l)
  have hw : v.mulAssignS cfg (1 / l) = .ok w := by
    unfold Vec.mulAssignS
    apply loop_set
    intro i hi y hy
    simp [hi, hy]
  have hnb : (l == (0 : Fl ρ)) = false := by
    rw [← Bool.not_eq_true, Fl.beq_iff]
    exact hl0
  refine ⟨w, l, ?_, h1, ?_⟩
  · simp only [Vec.normalize, h1, bind_ok, hnb, Bool.false_eq_true, if_false, hw, pure_ok]
  -- the common factor
  set ε := Spec.normErr u M with hε
  have hεdef : 1 + ε = (1 + u) ^ 2 / ((1 - g) * (1 - u)) := by rw [hε, Spec.normErr]; ring
  have hfac : ∀ t : ℝ, (1 - u) / l.val ≤ t → t ≤ (1 + u) / l.val → (1 - u) * (1 - u) / ((1 + g) * (1 + u)) / L ≤ (1 - u) * t ∧
      (1 + u) * t ≤ (1 + ε) / L := by
    intro t ht1 ht2
    constructor
    · have : (1 - u) / ((1 + g) * (1 + u) * L) ≤ (1 - u) / l.val := by
        apply div_le_div_of_nonneg_left (by linarith) hlp h3
      calc (1 - u) * (1 - u) / ((1 + g) * (1 + u)) / L = (1 - u) * ((1 - u) / ((1 + g) * (1 + u) * L)) := by
            rw [div_div]; ring
        _ ≤ (1 - u) * t := by
            apply mul_le_mul_of_nonneg_left (this.trans ht1) (by linarith)
    · have : (1 + u) / l.val ≤ (1 + u) / ((1 - g) * (1 - u) * L) := by
        apply div_le_div_of_nonneg_left (by linarith) (mul_pos hp hL) h2
      calc (1 + u) * t ≤ (1 + u) * ((1 + u) / ((1 - g) * (1 - u) * L)) :=
            mul_le_mul_of_nonneg_left (ht2.trans this) (by linarith)
        _ = (1 + ε) / L := by rw [hεdef, div_div]; ring
  -- the lower factor is within ε of 1
  have hlow : 1 - ε ≤ (1 - u) * (1 - u) / ((1 + g) * (1 + u)) := by
    have hq : 0 < (1 + g) * (1 + u) := by positivity
    set a := (1 - u) * (1 - u) / ((1 + g) * (1 + u)) with ha
    have hap : 0 < a := div_pos (mul_pos (by linarith) (by linarith)) hq
    have hb : 0 < 1 + ε := by rw [hεdef]; positivity
    have hprod : 1 ≤ a * (1 + ε) := by
      rw [hεdef, ha, div_mul_div_comm, le_div_iff₀ (by positivity)]
      have : (1 - g ^ 2) ≤ 1 - u ^ 2 := by nlinarith
      nlinarith [mul_nonneg (show (0 : ℝ) ≤ (1 - u ^ 2) by nlinarith) (sub_nonneg.2 this)]
    nlinarith [sq_nonneg (a - (1 + ε))]
  have ht : (1 - u) / l.val ≤ (1 / l : Fl ρ).val ∧ (1 / l : Fl ρ).val ≤ (1 + u) / l.val := by
    obtain ⟨a, b⟩ := rnd_bounds ρ (show (0 : ℝ) ≤ 1 / l.val by positivity)
    rw [Fl.val_div, Fl.val_one]
    constructor
    · convert a using 1; ring
    · convert b using 1; ring
  obtain ⟨f1, f2⟩ := hfac _ ht.1 ht.2
  have hcomp : ∀ i : Fin M, |w[i].val - v[i].val / L| ≤ ε * (|v[i].val| / L) := by
    intro i
    have hwi : w[i].val = ρ.rnd (v[i].val * (1 / l : Fl ρ).val) := by
      simp only [w, Fin.getElem_fin, Vector.getElem_ofFn, Fl.val_mul]
    set t := (1 / l : Fl ρ).val with htd
    have ht0 : 0 ≤ t := le_trans (div_nonneg (by linarith) hlp.le) ht.1
    have he := ρ.err (v[i].val * t)
    rw [← hwi, abs_mul, abs_of_nonneg ht0] at he
    have hlo : (1 - ε) / L ≤ (1 - u) * t := by
      refine le_trans ?_ f1
      exact div_le_div_of_nonneg_right hlow hL.le
    exact comp_bound he f2 hlo
  refine ⟨hcomp, ?_⟩
  -- the length of the result
  have hε0 : 0 ≤ ε := by
    obtain ⟨i, hi⟩ := hv
    have h := (abs_nonneg _).trans (hcomp i)
    have hpos : 0 < |v[i].val| / L := div_pos (abs_pos.2 hi) hL
    by_contra hc
    push Not at hc
    nlinarith [mul_neg_of_neg_of_pos hc hpos]
  have hS : (0 : ℝ) ≤ ∑ i : Fin M, v[i].val ^ 2 := Finset.sum_nonneg fun i _ => sq_nonneg _
  have hone : ∑ i : Fin M, (v[i].val / L) ^ 2 = 1 := by
    simp only [div_pow]
    rw [← Finset.sum_div, hLdef, Spec.len, Real.sq_sqrt hS]
    apply div_self
    intro h
    rw [hLdef, Spec.len, h, Real.sqrt_zero] at hL
    exact lt_irrefl _ hL
  have habs : ∀ i : Fin M, |v[i].val| / L = |v[i].val / L| := fun i => by rw [abs_div, abs_of_pos hL]
  have up : Spec.len w ≤ 1 + ε := by
    unfold Spec.len
    rw [Real.sqrt_le_iff]
    refine ⟨by linarith, ?_⟩
    have hs : (1 + ε) ^ 2 = ∑ i : Fin M, (1 + ε) ^ 2 * (v[i].val / L) ^ 2 := by rw [← Finset.mul_sum, hone, mul_one]
    rw [hs]
    apply Finset.sum_le_sum
    intro i _
    have h := hcomp i
    rw [habs] at h
    have : |w[i].val| ≤ (1 + ε) * |v[i].val / L| := by
      have := abs_add_le (w[i].val - v[i].val / L) (v[i].val / L)
      rw [sub_add_cancel] at this
      linarith
    have h2 := pow_le_pow_left₀ (abs_nonneg _) this 2
    rw [mul_pow, sq_abs, sq_abs] at h2
    exact h2
  have lo : 1 - ε ≤ Spec.len w := by
    rcases le_total (1 - ε) 0 with hc | hc
    · exact hc.trans (Real.sqrt_nonneg _)
    · apply Real.le_sqrt_of_sq_le
      have hs : (1 - ε) ^ 2 = ∑ i : Fin M, (1 - ε) ^ 2 * (v[i].val / L) ^ 2 := by rw [← Finset.mul_sum, hone, mul_one]
      rw [hs]
      apply Finset.sum_le_sum
      intro i _
      have h := hcomp i
      rw [habs] at h
      have : (1 - ε) * |v[i].val / L| ≤ |w[i].val| := by
        have := abs_add_le (v[i].val / L - w[i].val) (w[i].val)
        rw [sub_add_cancel, abs_sub_comm (v[i].val / L) w[i].val] at this
        linarith
      have h2 := pow_le_pow_left₀ (mul_nonneg hc (abs_nonneg _)) this 2
      rw [mul_pow, sq_abs, sq_abs] at h2
      exact h2
  rw [abs_le]
  constructor <;> linarith

/-- In single precision and three dimensions the bound is below `5 · 10⁻⁷` (about eight units in the last place). -/
theorem C90_single_precision : Spec.normErr ((2 : ℝ)⁻¹ ^ (23 + 1)) 3 < 5 / 10 ^ 7 ∧ Spec.lenErr ((2 : ℝ)⁻¹ ^ (23 + 1)) 3 < 3 / 10 ^ 7 := by
  norm_num [Spec.normErr, Spec.lenErr, Spec.gamma]

example : ∃ w l, (Vec.normalize (M := 3) (α := Fl (binRounding 23)) ⟨true, true, true⟩ #v[Fl.of 1, Fl.of 2, Fl.of 3]) = .ok (w, l) ∧
    |Spec.len w - 1| ≤ 5 / 10 ^ 7 := by
  obtain ⟨w, l, h1, _, _, h2⟩ := C90_normalize (ρ := binRounding 23) ⟨true, true, true⟩ #v[Fl.of 1, Fl.of 2, Fl.of 3] (by norm_num) (by norm_num)
    ⟨0, one_ne_zero⟩
  exact ⟨w, l, h1, h2.trans C90_single_precision.1.le⟩

end Vmml
