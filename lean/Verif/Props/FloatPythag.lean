import Verif.Props.FloatOrder
import Verif.Model.Util

/-!
# C124: `pythag`, `squared` and `sign` in IEEE 754 arithmetic
-/

namespace Vmml
open Format MathH
variable {F : Format}

private theorem beq_zero {a : Fp F} (ha : a.Finite) : (a == 0) = true ↔ a.val = 0 := by
  have hb : (a == 0) = true ↔ Fp.eqP a 0 := by
    show @decide (Fp.eqP a 0) (Classical.propDecidable _) = true ↔ _
    exact @decide_eq_true_iff _ (Classical.propDecidable _)
  rw [hb]
  obtain ⟨s, m, hm, rfl⟩ := Fp.finite_cases ha
  constructor
  · rintro ⟨x, hx, y, hy, rfl⟩
    have e1 : ((Fp.fin s m hm).val : EReal) = x := Option.some.inj hx
    have e2 : ((Fp.val (0 : Fp F) : ℝ) : EReal) = x := Option.some.inj hy
    have : (Fp.fin s m hm).val = Fp.val (0 : Fp F) := by exact_mod_cast e1.trans e2.symm
    rw [this, Fp.val_zero]
  · intro h
    refine ⟨_, rfl, _, rfl, ?_⟩
    show ((Fp.fin s m hm).val : EReal) = ((Fp.val (0 : Fp F) : ℝ) : EReal)
    rw [h, Fp.val_zero]

/-- **C124** `squared( a )` of a finite number is 0 for 0 and otherwise the correctly rounded square, finite as long as the square is in range. -/
theorem C124_squared (h0 : 0 < F.emax) (a : Fp F) (ha : a.Finite) (h : a.val ^ 2 ≤ F.maxFinite) :
    (squared a).Finite ∧ (squared a).val = F.rnd (a.val ^ 2) := by
  unfold squared
  by_cases hz : (a == 0) = true
  · rw [if_pos hz, (beq_zero ha).1 hz]
    exact ⟨Fp.finite_zero, by rw [Fp.val_zero]; norm_num [rnd_zero]⟩
  · rw [if_neg hz, sq]
    exact Fp.mul_fin h0 ha ha (by rw [← sq, abs_of_nonneg (sq_nonneg _)]; exact h)

set_option maxHeartbeats 1600000 in
/-- The part of `pythag` after the choice of the larger leg. -/
private theorem leg (h0 : 1 < F.emax) (hu8 : F.u ≤ 1 / 8) (hη : 4 * F.eta ≤ 3 * F.u) {a b : Fp F} (ha : a.Finite) (hb : b.Finite) (hb0 : 0 ≤ b.val) (hba : b.val ≤ a.val) (ha0 : 0 < a.val) :
    let h := Real.sqrt (a.val ^ 2 + b.val ^ 2)
    (1 + F.u) ^ 5 * h ≤ F.maxFinite →
    (a * CMath.sqrt (1 + squared (b / a))).Finite ∧ |(a * CMath.sqrt (1 + squared (b / a))).val - h| ≤ ((1 + F.u) ^ 6 - 1) * h + F.eta := by
  intro h hfit
  have h0' : 0 < F.emax := by omega
  have hu := F.u_pos
  have hη0 := F.eta_pos
  have h1max := one_le_max (F := F) h0'
  have h2max : 4 ≤ 2 * F.maxFinite := by
    have : (2 : ℝ) ^ (1 : ℕ) ≤ F.maxFinite := by
      refine le_trans ?_ pow_emax_le
      rw [← zpow_natCast]
      exact zpow_le_zpow_right₀ (by norm_num) (by push_cast; omega)
    norm_num at this
    linarith
  -- the quotient
  obtain ⟨t, ht⟩ : ∃ t, t = b.val / a.val := ⟨_, rfl⟩
  have t0 : 0 ≤ t := by rw [ht]; positivity
  have t1 : t ≤ 1 := by rw [ht, div_le_one ha0]; exact hba
  obtain ⟨q1, q2⟩ := Fp.div_fin h0' hb ha ha0.ne' (by rw [← ht, abs_of_nonneg t0]; linarith)
  obtain ⟨q, hq⟩ : ∃ q, q = b / a := ⟨_, rfl⟩
  rw [← hq, ← ht] at q2
  rw [← hq] at q1 ⊢
  have qe := rnd_err_add (F := F) t
  rw [← q2, abs_of_nonneg t0] at qe
  have r1 : F.Rep 1 := by have o := Fp.one_fin (F := F) h0'; rw [← o.2]; exact Fp.rep_val o.1
  have qv0 : 0 ≤ q.val := by rw [q2]; exact rnd_nonneg t0
  have qv1 : q.val ≤ 1 := by rw [q2]; exact rnd_le_rep r1 t1
  -- its square
  have qsq1 : q.val ^ 2 ≤ 1 := by nlinarith
  obtain ⟨s1, s2⟩ := C124_squared h0' q q1 (qsq1.trans h1max)
  obtain ⟨s, hs⟩ : ∃ s, s = squared q := ⟨_, rfl⟩
  rw [← hs] at s1 s2 ⊢
  have se := rnd_err_add (F := F) (q.val ^ 2)
  rw [← s2, abs_of_nonneg (sq_nonneg q.val)] at se
  have sv0 : 0 ≤ s.val := by rw [s2]; exact rnd_nonneg (sq_nonneg _)
  have sv1 : s.val ≤ 1 := by rw [s2]; exact rnd_le_rep r1 qsq1
  have hη8 : F.eta ≤ 1 / 8 := by linarith
  -- the square against t²
  have e1 : |q.val ^ 2 - t ^ 2| ≤ ((1 + F.u) ^ 2 - 1) * t ^ 2 + (2 * (1 + F.u) * F.eta + F.eta ^ 2) := by
    obtain ⟨d1, d2⟩ := abs_le.1 qe
    have hx : |q.val - t| * (q.val + t) = |q.val ^ 2 - t ^ 2| := by
      rw [← abs_of_nonneg (show 0 ≤ q.val + t by linarith), ← abs_mul]
      congr 1; ring
    rw [← hx]
    have hsum : q.val + t ≤ (2 + F.u) * t + F.eta := by linarith
    calc |q.val - t| * (q.val + t) ≤ (F.u * t + F.eta) * ((2 + F.u) * t + F.eta) := mul_le_mul qe hsum (by linarith) (by positivity)
      _ ≤ _ := by
        have : F.eta * t * (2 + 2 * F.u) ≤ F.eta * 1 * (2 + 2 * F.u) := by gcongr
        nlinarith
  have e2 : |s.val - t ^ 2| ≤ ((1 + F.u) ^ 3 - 1) * t ^ 2 + 4 * F.eta := by
    have b1 : q.val ^ 2 ≤ (1 + F.u) ^ 2 * t ^ 2 + (2 * (1 + F.u) * F.eta + F.eta ^ 2) := by
      have := (abs_le.1 e1).2
      nlinarith
    have b2 := mul_le_mul_of_nonneg_left b1 hu.le
    calc |s.val - t ^ 2| = |(s.val - q.val ^ 2) + (q.val ^ 2 - t ^ 2)| := by congr 1; ring
      _ ≤ _ := abs_add_le _ _
      _ ≤ (F.u * q.val ^ 2 + F.eta) + (((1 + F.u) ^ 2 - 1) * t ^ 2 + (2 * (1 + F.u) * F.eta + F.eta ^ 2)) := add_le_add se e1
      _ ≤ ((1 + F.u) ^ 3 - 1) * t ^ 2 + ((1 + F.u) * (2 * (1 + F.u) * F.eta + F.eta ^ 2) + F.eta) := by nlinarith
      _ ≤ _ := by
        have c1 : (1 + F.u) * (2 * (1 + F.u) + F.eta) ≤ 3 := by
          calc (1 + F.u) * (2 * (1 + F.u) + F.eta) ≤ (1 + 1 / 8) * (2 * (1 + 1 / 8) + 1 / 8) := by gcongr
            _ ≤ 3 := by norm_num
        have c2 := mul_le_mul_of_nonneg_right c1 hη0.le
        nlinarith
  -- one plus
  obtain ⟨S, hS⟩ : ∃ S, S = 1 + t ^ 2 := ⟨_, rfl⟩
  have S1 : 1 ≤ S := by rw [hS]; nlinarith [sq_nonneg t]
  have e3 : |(1 + s.val) - S| ≤ ((1 + F.u) ^ 3 - 1) * S := by
    have : (1 + s.val) - S = s.val - t ^ 2 := by rw [hS]; ring
    rw [this, hS]
    have c : 4 * F.eta ≤ (1 + F.u) ^ 3 - 1 := by nlinarith [sq_nonneg F.u, mul_nonneg hu.le (sq_nonneg F.u)]
    linarith
  have o := Fp.one_fin (F := F) h0'
  obtain ⟨p1, p2⟩ := Fp.add_fin h0' o.1 s1 (by rw [o.2, abs_of_nonneg (by linarith)]; linarith)
  obtain ⟨p, hp⟩ : ∃ p, p = 1 + s := ⟨_, rfl⟩
  rw [← hp] at p1 p2 ⊢
  have pe := ((Fp.rep_val o.1).grid.add (Fp.rep_val s1).grid).rnd_err
  rw [← p2, o.2, abs_of_nonneg (show 0 ≤ 1 + s.val by linarith)] at pe
  have p0 : 1 ≤ p.val := by rw [p2, o.2]; exact rep_le_rnd r1 (by linarith)
  have e4 : |p.val - S| ≤ ((1 + F.u) ^ 4 - 1) * S := by
    have b1 : 1 + s.val ≤ (1 + F.u) ^ 3 * S := by have := (abs_le.1 e3).2; linarith
    have b2 := mul_le_mul_of_nonneg_left b1 hu.le
    calc |p.val - S| = |(p.val - (1 + s.val)) + ((1 + s.val) - S)| := by congr 1; ring
      _ ≤ _ := abs_add_le _ _
      _ ≤ F.u * (1 + s.val) + ((1 + F.u) ^ 3 - 1) * S := add_le_add pe e3
      _ ≤ _ := by nlinarith
  -- the root
  obtain ⟨w1, w2⟩ := Fp.sqrt_fin h0' p1 (by linarith)
  obtain ⟨w, hw⟩ : ∃ w, w = CMath.sqrt p := ⟨_, rfl⟩
  rw [← hw] at w1 w2 ⊢
  have root1 : 1 ≤ Real.sqrt p.val := by rw [Real.one_le_sqrt]; exact p0
  have rootS : 1 ≤ Real.sqrt S := by rw [Real.one_le_sqrt]; exact S1
  have we := rnd_err_normal (F := F) (x := Real.sqrt p.val) (by
    rw [abs_of_nonneg (by linarith)]
    refine le_trans (zpow_le_one_of_nonpos₀ (by norm_num) (by unfold emin; omega)) root1)
  rw [← w2, abs_of_nonneg (show 0 ≤ Real.sqrt p.val by linarith)] at we
  have e5 : |Real.sqrt p.val - Real.sqrt S| ≤ ((1 + F.u) ^ 4 - 1) * Real.sqrt S := by
    have hx : |Real.sqrt p.val - Real.sqrt S| * (Real.sqrt p.val + Real.sqrt S) = |p.val - S| := by
      rw [← abs_of_nonneg (show 0 ≤ Real.sqrt p.val + Real.sqrt S by linarith), ← abs_mul]
      congr 1
      have a1 := Real.mul_self_sqrt (show 0 ≤ p.val by linarith)
      have a2 := Real.mul_self_sqrt (show 0 ≤ S by linarith)
      nlinarith
    have hmul := Real.mul_self_sqrt (show 0 ≤ S by linarith)
    have : |Real.sqrt p.val - Real.sqrt S| * Real.sqrt S ≤ (((1 + F.u) ^ 4 - 1) * Real.sqrt S) * Real.sqrt S := by
      calc |Real.sqrt p.val - Real.sqrt S| * Real.sqrt S ≤ |Real.sqrt p.val - Real.sqrt S| * (Real.sqrt p.val + Real.sqrt S) := by
            apply mul_le_mul_of_nonneg_left _ (abs_nonneg _); linarith
        _ = |p.val - S| := hx
        _ ≤ _ := e4
        _ = _ := by rw [mul_assoc, hmul]
    exact le_of_mul_le_mul_right this (by linarith)
  have e6 : |w.val - Real.sqrt S| ≤ ((1 + F.u) ^ 5 - 1) * Real.sqrt S := by
    have b1 : Real.sqrt p.val ≤ (1 + F.u) ^ 4 * Real.sqrt S := by have := (abs_le.1 e5).2; linarith
    have b2 := mul_le_mul_of_nonneg_left b1 hu.le
    calc |w.val - Real.sqrt S| = |(w.val - Real.sqrt p.val) + (Real.sqrt p.val - Real.sqrt S)| := by congr 1; ring
      _ ≤ _ := abs_add_le _ _
      _ ≤ F.u * Real.sqrt p.val + ((1 + F.u) ^ 4 - 1) * Real.sqrt S := add_le_add we e5
      _ ≤ _ := by nlinarith
  -- the product
  have hh : h = a.val * Real.sqrt S := by
    have : a.val ^ 2 + b.val ^ 2 = a.val ^ 2 * S := by rw [hS, ht]; field_simp
    show Real.sqrt (a.val ^ 2 + b.val ^ 2) = _
    rw [this, Real.sqrt_mul (sq_nonneg _), Real.sqrt_sq ha0.le]
  have hpos : 0 ≤ h := Real.sqrt_nonneg _
  have e7 : |a.val * w.val - h| ≤ ((1 + F.u) ^ 5 - 1) * h := by
    rw [hh, ← mul_sub, abs_mul, abs_of_pos ha0]
    have := mul_le_mul_of_nonneg_left e6 ha0.le
    linarith
  have e8 : |a.val * w.val| ≤ (1 + F.u) ^ 5 * h := by
    calc |a.val * w.val| = |(a.val * w.val - h) + h| := by congr 1; ring
      _ ≤ _ := abs_add_le _ _
      _ ≤ _ := by rw [abs_of_nonneg hpos]; linarith
  obtain ⟨z1, z2⟩ := Fp.mul_fin h0' ha w1 (e8.trans hfit)
  refine ⟨z1, ?_⟩
  rw [z2]
  have ze := rnd_err_add (F := F) (a.val * w.val)
  have b2 := mul_le_mul_of_nonneg_left e8 hu.le
  calc |F.rnd (a.val * w.val) - h| = |(F.rnd (a.val * w.val) - a.val * w.val) + (a.val * w.val - h)| := by congr 1; ring
    _ ≤ _ := abs_add_le _ _
    _ ≤ (F.u * |a.val * w.val| + F.eta) + ((1 + F.u) ^ 5 - 1) * h := add_le_add ze e7
    _ ≤ _ := by nlinarith

/-- **C124** `pythag( a, b )` for all finite `a`, `b`: as long as the hypotenuse itself is in range (by a relative margin of five roundings), the result is finite and the hypotenuse up to six
roundings and one underflow of the result. The squares of the arguments may overflow or underflow. -/
theorem C124_pythag (h0 : 1 < F.emax) (hu8 : F.u ≤ 1 / 8) (hη : 4 * F.eta ≤ 3 * F.u) (a b : Fp F) (ha : a.Finite) (hb : b.Finite) :
    let h := Real.sqrt (a.val ^ 2 + b.val ^ 2)
    (1 + F.u) ^ 5 * h ≤ F.maxFinite → (pythag a b).Finite ∧ |(pythag a b).val - h| ≤ ((1 + F.u) ^ 6 - 1) * h + F.eta := by
  intro h hfit
  obtain ⟨a1, a2⟩ := Fp.fabs_fin ha
  obtain ⟨b1, b2⟩ := Fp.fabs_fin hb
  have hη0 := F.eta_pos
  have e1 : h = Real.sqrt ((CMath.fabs a : Fp F).val ^ 2 + (CMath.fabs b : Fp F).val ^ 2) := by rw [a2, b2, sq_abs, sq_abs]
  have e2 : h = Real.sqrt ((CMath.fabs b : Fp F).val ^ 2 + (CMath.fabs a : Fp F).val ^ 2) := by rw [e1, add_comm]
  unfold pythag
  simp only
  have an : 0 ≤ (CMath.fabs a : Fp F).val := by rw [a2]; exact abs_nonneg _
  have bn : 0 ≤ (CMath.fabs b : Fp F).val := by rw [b2]; exact abs_nonneg _
  by_cases hlt : (CMath.fabs b : Fp F) < CMath.fabs a
  · rw [if_pos hlt]
    have hlt' := (Fp.lt_val b1 a1).1 hlt
    have := leg h0 hu8 hη a1 b1 bn hlt'.le (by linarith)
    rw [← e1] at this
    exact this hfit
  · rw [if_neg hlt]
    have hge : (CMath.fabs a : Fp F).val ≤ (CMath.fabs b : Fp F).val := not_lt.1 fun hx => hlt ((Fp.lt_val b1 a1).2 hx)
    by_cases hz : ((CMath.fabs b : Fp F) == 0) = true
    · rw [if_pos hz]
      have hb0 := (beq_zero b1).1 hz
      have ha0 : (CMath.fabs a : Fp F).val = 0 := by linarith
      have : h = 0 := by rw [e1, ha0, hb0]; simp
      rw [this, Fp.val_zero]
      exact ⟨Fp.finite_zero, by simp [hη0.le]⟩
    · rw [if_neg hz]
      have hb0 : (CMath.fabs b : Fp F).val ≠ 0 := fun hx => hz ((beq_zero b1).2 hx)
      have := leg h0 hu8 hη b1 a1 an hge (lt_of_le_of_ne bn (Ne.symm hb0))
      rw [← e2] at this
      exact this hfit

private theorem fabs_signed (a : Fp F) (ha : a ≠ .nan) : ∀ b : Fp F, b ≠ .nan → Spec.ereal (CMath.fabs a) = Spec.ereal (CMath.fabs b) → (CMath.fabs a : Fp F) = CMath.fabs b := by
  intro b hb h
  cases a with
  | nan => exact absurd rfl ha
  | inf s => cases b with
    | nan => exact absurd rfl hb
    | inf t => rfl
    | fin t n hn =>
      have : (⊤ : EReal) = ((Fp.fin false n hn).val : EReal) := h
      exact absurd this (by simp)
  | fin s m hm => cases b with
    | nan => exact absurd rfl hb
    | inf t =>
      have : ((Fp.fin false m hm).val : EReal) = (⊤ : EReal) := h
      exact absurd this (by simp)
    | fin t n hn =>
      have : ((Fp.fin false m hm).val : EReal) = ((Fp.fin false n hn).val : EReal) := h
      have : (Fp.fin false m hm).val = (Fp.fin false n hn).val := by exact_mod_cast this
      have : m = n := by simpa using this
      subst this
      rfl

private theorem fabs_ne_nan {a : Fp F} (ha : a ≠ .nan) : (CMath.fabs a : Fp F) ≠ .nan := by
  cases a with
  | nan => exact absurd rfl ha
  | inf s => intro h; cases h
  | fin s m hm => intro h; cases h

/-- **C124** `pythag` does not depend on the signs or, NaN excluded, on the order of its arguments. -/
theorem C124_symmetric (a b : Fp F) : pythag (-a) b = pythag a b ∧ pythag a (-b) = pythag a b ∧ (a ≠ .nan → b ≠ .nan → pythag a b = pythag b a) := by
  have hneg : ∀ c : Fp F, (CMath.fabs (-c) : Fp F) = CMath.fabs c := by intro c; cases c <;> rfl
  refine ⟨?_, ?_, fun ha hb => ?_⟩
  · unfold pythag; rw [hneg]
  · unfold pythag; rw [hneg]
  · unfold pythag
    simp only
    have ha' := fabs_ne_nan ha
    have hb' := fabs_ne_nan hb
    rcases lt_trichotomy (Spec.ereal (CMath.fabs a : Fp F)) (Spec.ereal (CMath.fabs b)) with h | h | h
    · have hl := (Fp.lt_iff ha' hb').2 h
      have hn : ¬ (CMath.fabs b : Fp F) < CMath.fabs a := fun hx => absurd ((Fp.lt_iff hb' ha').1 hx) h.le.not_gt
      rw [if_neg hn, if_pos hl, if_neg]
      intro hz
      have hz' : Fp.eqP (CMath.fabs b) (0 : Fp F) := @of_decide_eq_true _ (Classical.propDecidable _) hz
      obtain ⟨x, hx, y, hy, rfl⟩ := hz'
      have e2 : ((Fp.val (0 : Fp F) : ℝ) : EReal) = x := Option.some.inj hy
      have e1 : Spec.ereal (CMath.fabs b : Fp F) = x := by unfold Spec.ereal; rw [hx]; rfl
      rw [e1, ← e2, Fp.val_zero] at h
      have hnn : (0 : EReal) ≤ Spec.ereal (CMath.fabs a : Fp F) := by
        cases a with
        | nan => exact absurd rfl ha
        | inf s => exact le_top
        | fin s m hm =>
          show (0 : EReal) ≤ ((Fp.fin false m hm).val : EReal)
          have : (0 : ℝ) ≤ (Fp.fin false m hm).val := by simpa using hm.1
          exact_mod_cast this
      exact absurd h (not_lt.2 hnn)
    · have := fabs_signed a ha b hb h
      rw [this]
    · have hl := (Fp.lt_iff hb' ha').2 h
      have hn : ¬ (CMath.fabs a : Fp F) < CMath.fabs b := fun hx => absurd ((Fp.lt_iff ha' hb').1 hx) h.le.not_gt
      rw [if_pos hl, if_neg hn, if_neg]
      intro hz
      have hz' : Fp.eqP (CMath.fabs a) (0 : Fp F) := @of_decide_eq_true _ (Classical.propDecidable _) hz
      obtain ⟨x, hx, y, hy, rfl⟩ := hz'
      have e2 : ((Fp.val (0 : Fp F) : ℝ) : EReal) = x := Option.some.inj hy
      have e1 : Spec.ereal (CMath.fabs a : Fp F) = x := by unfold Spec.ereal; rw [hx]; rfl
      rw [e1, ← e2, Fp.val_zero] at h
      have hnn : (0 : EReal) ≤ Spec.ereal (CMath.fabs b : Fp F) := by
        cases b with
        | nan => exact absurd rfl hb
        | inf s => exact le_top
        | fin s m hm =>
          show (0 : EReal) ≤ ((Fp.fin false m hm).val : EReal)
          have : (0 : ℝ) ≤ (Fp.fin false m hm).val := by simpa using hm.1
          exact_mod_cast this
      exact absurd h (not_lt.2 hnn)

/-- **C124** Special values of `pythag`, where it differs from a hypotenuse: with two infinities it is NaN, and a NaN in the first argument is lost when the second is zero: the result is then
0. With NaN in the second argument it is NaN. -/
theorem C124_special (a : Fp F) (s t : Bool) (z : Fp F) (hz : Spec.IsZero z) :
    pythag (.inf s) (.inf t : Fp F) = .nan ∧ pythag .nan z = 0 ∧ pythag a .nan = .nan := by
  refine ⟨?_, ?_, ?_⟩
  · unfold pythag
    have h1 : ¬ (.inf false : Fp F) < .inf false := by
      rw [Fp.lt_iff (by simp) (by simp)]; exact lt_irrefl _
    have h2 : ¬ ((.inf false : Fp F) == 0) = true := by
      intro h
      obtain ⟨x, hx, y, hy, rfl⟩ := (@of_decide_eq_true _ (Classical.propDecidable _) h : Fp.eqP (.inf false) (0 : Fp F))
      have e1 : (⊤ : EReal) = x := Option.some.inj hx
      have e2 : ((Fp.val (0 : Fp F) : ℝ) : EReal) = x := Option.some.inj hy
      exact absurd (e1.trans e2.symm) (by simp)
    show (if (.inf false : Fp F) < .inf false then _ else if ((.inf false : Fp F) == 0) = true then (0 : Fp F) else _) = _
    rw [if_neg h1, if_neg h2]
    have h3 : ¬ ((.inf false / .inf false : Fp F) == 0) = true := by
      intro h
      obtain ⟨x, hx, -⟩ := (@of_decide_eq_true _ (Classical.propDecidable _) h : Fp.eqP .nan (0 : Fp F))
      cases hx
    show (.inf false : Fp F) * CMath.sqrt (1 + squared (.inf false / .inf false)) = _
    unfold squared
    rw [if_neg h3]
    show (.inf false : Fp F) * CMath.sqrt (1 + .nan) = .nan
    have : (1 + .nan : Fp F) = .nan := by cases (1 : Fp F) <;> rfl
    rw [this]; rfl
  · unfold pythag
    have h1 : ¬ (CMath.fabs z : Fp F) < CMath.fabs .nan := Fp.not_lt_nan_right _
    simp only
    rw [if_neg h1, if_pos]
    obtain ⟨fz, vz⟩ : z.Finite ∧ z.val = 0 := hz
    obtain ⟨f1, f2⟩ := Fp.fabs_fin fz
    exact (beq_zero f1).2 (by rw [f2, vz, abs_zero])
  · unfold pythag
    have h1 : ¬ (CMath.fabs (.nan : Fp F) : Fp F) < CMath.fabs a := Fp.not_lt_nan_left _
    have h2 : ¬ ((CMath.fabs (.nan : Fp F) : Fp F) == 0) = true := by
      intro h
      obtain ⟨x, hx, -⟩ := (@of_decide_eq_true _ (Classical.propDecidable _) h : Fp.eqP .nan (0 : Fp F))
      cases hx
    simp only
    rw [if_neg h1, if_neg h2]
    rfl

/-- **C124** `sign( a, b )` is exact: the magnitude of `a` with a sign that is minus exactly if `b` is below zero or NaN; both zeros count as positive. -/
theorem C124_sign (a b : Fp F) (ha : a.Finite) :
    (sign a b).Finite ∧ |(sign a b).val| = |a.val| ∧ (b ≠ .nan → 0 ≤ Spec.ereal b → (sign a b).val = |a.val|) ∧ (b = .nan ∨ Spec.ereal b < 0 → (sign a b).val = -|a.val|) := by
  obtain ⟨f1, f2⟩ := Fp.fabs_fin ha
  have z : Spec.ereal (0 : Fp F) = 0 := by rw [Fp.ereal_val Fp.finite_zero, Fp.val_zero]; rfl
  have zn : (0 : Fp F) ≠ .nan := fun h => by cases h
  unfold sign
  by_cases hb : b = .nan
  · subst hb
    rw [if_neg (Fp.not_le_nan_right _)]
    exact ⟨Fp.finite_neg f1, by rw [Fp.val_neg, f2, abs_neg, abs_abs], fun h => absurd rfl h, fun _ => by rw [Fp.val_neg, f2]⟩
  · by_cases h : (0 : Fp F) ≤ b
    · rw [if_pos h]
      rw [Fp.le_iff zn hb, z] at h
      exact ⟨f1, by rw [f2, abs_abs], fun _ _ => f2, fun hx => hx.elim (fun e => absurd e hb) fun e => absurd e (not_lt.2 h)⟩
    · rw [if_neg h]
      rw [Fp.le_iff zn hb, z] at h
      exact ⟨Fp.finite_neg f1, by rw [Fp.val_neg, f2, abs_neg, abs_abs], fun _ h' => absurd h' h, fun _ => by rw [Fp.val_neg, f2]⟩

/-- In `float` the hypotheses of `C124_pythag` hold for the arguments `2^100`, `2^100`, whose squares overflow. -/
example : ∃ a : Fp single, a.Finite ∧ 1 < single.emax ∧ single.u ≤ 1 / 8 ∧ 4 * single.eta ≤ 3 * single.u ∧ single.maxFinite < a.val ^ 2 ∧
    (1 + single.u) ^ 5 * Real.sqrt (a.val ^ 2 + a.val ^ 2) ≤ single.maxFinite := by
  have h0 : 0 < single.emax := by norm_num
  have rk : single.Rep ((2 : ℝ) ^ 100) := by rw [← zpow_natCast]; exact rep_pow (by norm_num [emin])
  have hmax : (2 : ℝ) ^ 110 ≤ single.maxFinite := by
    refine le_trans ?_ (pow_emax_le (F := single))
    rw [← zpow_natCast]
    exact zpow_le_zpow_right₀ (by norm_num) (by norm_num)
  have hu : single.u ≤ 1 / 8 := by norm_num [Format.u]
  have hu0 := single.u_pos
  have hmag : single.Mag ((2 : ℝ) ^ 100) := ⟨by positivity, rk, le_trans (by norm_num) hmax⟩
  have hv : (Fp.fin false ((2 : ℝ) ^ 100) hmag : Fp single).val = (2 : ℝ) ^ 100 := by simp
  refine ⟨.fin false ((2 : ℝ) ^ 100) hmag, trivial, by norm_num, hu, ?_, ?_, ?_⟩
  · rw [eta_eq_tiny]
    have : single.tiny ≤ 1 / 4 := by
      unfold Format.tiny
      calc (2 : ℝ) ^ single.emin ≤ (2 : ℝ) ^ (-2 : Int) := zpow_le_zpow_right₀ (by norm_num) (by norm_num [emin])
        _ = 1 / 4 := by norm_num
    nlinarith
  · rw [hv]
    refine lt_of_lt_of_le maxFinite_lt ?_
    rw [← pow_mul, ← zpow_natCast]
    exact zpow_le_zpow_right₀ (by norm_num) (by norm_num)
  · rw [hv]
    have e1 : Real.sqrt (((2 : ℝ) ^ 100) ^ 2 + ((2 : ℝ) ^ 100) ^ 2) ≤ 2 * (2 : ℝ) ^ 100 := by
      rw [Real.sqrt_le_left (by positivity)]
      norm_num
    have e2 : (1 + single.u) ^ 5 ≤ 2 ^ 5 := by gcongr; linarith
    calc (1 + single.u) ^ 5 * Real.sqrt (((2 : ℝ) ^ 100) ^ 2 + ((2 : ℝ) ^ 100) ^ 2) ≤ 2 ^ 5 * (2 * (2 : ℝ) ^ 100) := by gcongr
      _ ≤ (2 : ℝ) ^ 110 := by norm_num
      _ ≤ _ := hmax

end Vmml
