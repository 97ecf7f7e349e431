import Verif.Props.FloatTurn
import Verif.Props.Rounding

/-!
# C134: single calls and histories of incremental rotations

The entry-by-entry bound is in `FloatTurn`; here it becomes a bound on the matrix, then on any history of calls.
-/

namespace Vmml
open Format
open scoped Matrix
variable {F : Format}
section
variable [L : CMath (Fp F)] {σ : ℝ}

omit L in
private theorem kappa_bounds (hσ : 0 ≤ σ) : 2 * F.u + F.u ^ 2 ≤ Spec.turnErr F σ := by
  have hu := u_pos (F := F)
  unfold Spec.turnErr; nlinarith [sq_nonneg F.u, mul_nonneg hu.le hσ, mul_nonneg (sq_nonneg F.u) hσ]

private theorem trig_nonneg (hL : Spec.Trig L σ) : 0 ≤ σ := (abs_nonneg _).trans (hL 0 Fp.finite_zero).1.2

/-- **C134** One call of `rotate_x`, `rotate_y`, `rotate_z`, `pre_rotate_x`, `pre_rotate_y` or `pre_rotate_z` on a matrix of finite entries (any matrix, not only a rotation), with a finite angle and a library
of accuracy `σ`: every entry of the result is finite and the matrix is within `2 ( ( 1 + u )² ( 1 + σ ) - 1 ) ( ‖m‖ + 4 tiny )` of the exact product with the rotation, in the Frobenius norm. -/
theorem C134_call (h0 : 0 < F.emax) (hL : Spec.Trig L σ) (t : Spec.Turn F) (ht : t.angle.Finite) (m : Mat 4 4 (Fp F)) (hm : ∀ i j, (m.get i j).Finite)
    (hroom : 2 * (1 + 2 * Spec.turnErr F σ) * (Spec.frob (Spec.fvals m) + 4 * F.tiny) ≤ F.maxFinite) :
    (∀ i j, ((t.call m).get i j).Finite) ∧ Spec.frob (Spec.fvals (t.call m) - t.exact (Spec.fvals m)) ≤ 2 * Spec.turnErr F σ * (Spec.frob (Spec.fvals m) + 4 * F.tiny) := by
  have hu := u_pos (F := F)
  have hu1 : F.u ≤ 1 := u_le_one
  have hσ := trig_nonneg hL
  have hk := kappa_bounds (F := F) hσ
  have ht0 := Format.tiny_pos (F := F)
  have hA := frob_nonneg (Spec.fvals m)
  obtain ⟨A, hAe⟩ : ∃ A, A = Spec.frob (Spec.fvals m) := ⟨_, rfl⟩
  obtain ⟨κ, hκe⟩ : ∃ κ, κ = Spec.turnErr F σ := ⟨_, rfl⟩
  have hκ0 : 0 ≤ κ := by rw [hκe]; nlinarith
  have p1 : 0 ≤ κ * A := by rw [hAe]; positivity
  have p2 : 0 ≤ κ * F.tiny := by positivity
  have p3 : F.u * F.tiny ≤ F.tiny := by nlinarith
  have p4 : F.u * F.u * F.tiny ≤ F.tiny := by nlinarith
  rw [← hAe, ← hκe] at hroom
  obtain ⟨g1, g2⟩ := turn_step h0 hL t ht m hm (by
    rw [Format.eta_eq_tiny, ← hAe, ← hκe]
    linarith)
  refine ⟨g1, g2.trans ?_⟩
  rw [Format.eta_eq_tiny, ← hAe, ← hκe]
  rw [← hκe] at hk
  have := mul_le_mul_of_nonneg_right hk ht0.le
  nlinarith

private theorem rot_orth (axis : Fin 3) (θ : ℝ) : Spec.rotXYZ axis θ * (Spec.rotXYZ axis θ)ᵀ = 1 ∧ (Spec.rotXYZ axis θ).det = 1 := by
  have h := Real.sin_sq_add_cos_sq θ
  constructor
  · match axis with
    | 0 => ext i j; fin_cases i <;> fin_cases j <;> simp [Spec.rotXYZ, Spec.rotX, Matrix.mul_apply, Fin.sum_univ_four] <;> nlinarith
    | 1 => ext i j; fin_cases i <;> fin_cases j <;> simp [Spec.rotXYZ, Spec.rotY, Matrix.mul_apply, Fin.sum_univ_four] <;> nlinarith
    | 2 => ext i j; fin_cases i <;> fin_cases j <;> simp [Spec.rotXYZ, Spec.rotZ, Matrix.mul_apply, Fin.sum_univ_four] <;> nlinarith
  · match axis with
    | 0 => simp [Spec.rotXYZ, Spec.rotX, Matrix.det_succ_row_zero, Fin.sum_univ_succ]; nlinarith
    | 1 => simp [Spec.rotXYZ, Spec.rotY, Matrix.det_succ_row_zero, Fin.sum_univ_succ, show Fin.succAbove (2 : Fin 4) (2 : Fin 3) = 3 from rfl, show Fin.succAbove (1 : Fin 4) (2 : Fin 3) = 3 from rfl]; nlinarith
    | 2 => simp [Spec.rotXYZ, Spec.rotZ, Matrix.det_succ_row_zero, Fin.sum_univ_succ, show Fin.succAbove (1 : Fin 4) (2 : Fin 3) = 3 from rfl]; nlinarith

omit L in
private theorem exact_frob (t : Spec.Turn F) (A : Matrix (Fin 4) (Fin 4) ℝ) : Spec.frob (t.exact A) = Spec.frob A := by
  unfold Spec.Turn.exact
  split_ifs
  · have o := (rot_orth t.axis (-t.angle.val)).1
    rw [← frob_transpose, Matrix.transpose_mul, frob_mul_orthogonal _ (by rw [Matrix.transpose_transpose]; exact mul_eq_one_comm.1 o), frob_transpose]
  · exact frob_mul_orthogonal _ (rot_orth _ _).1

omit L in
private theorem exact_sub (t : Spec.Turn F) (A B : Matrix (Fin 4) (Fin 4) ℝ) : t.exact A - t.exact B = t.exact (A - B) := by
  unfold Spec.Turn.exact
  split_ifs
  · rw [Matrix.mul_sub]
  · rw [Matrix.sub_mul]

/-- **C134** Any history of such calls, on any axes, by any finite angles, in both forms and any order: the drift from the exact product grows at most geometrically with the tiny rate `2 ( ( 1 + u )² ( 1 + σ ) - 1 )`.
`E` is the exact matrix that the starting matrix stands for, `d` how far the starting matrix is from it. -/
theorem C134_history (h0 : 0 < F.emax) (hL : Spec.Trig L σ) (ts : List (Spec.Turn F)) (hts : ∀ t ∈ ts, t.angle.Finite) (m : Mat 4 4 (Fp F)) (hm : ∀ i j, (m.get i j).Finite)
    (E : Matrix (Fin 4) (Fin 4) ℝ) (d : ℝ) (hd : Spec.frob (Spec.fvals m - E) ≤ d)
    (hroom : 2 * (1 + 2 * Spec.turnErr F σ) ^ ts.length * (Spec.frob E + d + 4 * F.tiny) ≤ F.maxFinite) :
    (∀ i j, ((ts.foldl (fun m t => t.call m) m).get i j).Finite) ∧
    Spec.frob (Spec.fvals (ts.foldl (fun m t => t.call m) m) - ts.foldl (fun A t => t.exact A) E) ≤
      (1 + 2 * Spec.turnErr F σ) ^ ts.length * (Spec.frob E + d + 4 * F.tiny) - (Spec.frob E + 4 * F.tiny) := by
  have hk : 0 ≤ Spec.turnErr F σ := by
    have := kappa_bounds (F := F) (trig_nonneg hL)
    have hu := u_pos (F := F)
    nlinarith
  have ht0 := Format.tiny_pos (F := F)
  induction ts generalizing m E d with
  | nil =>
    refine ⟨hm, ?_⟩
    simp only [List.foldl_nil, List.length_nil, pow_zero, one_mul]
    linarith
  | cons t ts ih =>
    have htri : Spec.frob (Spec.fvals m) ≤ Spec.frob E + d := by
      have := frob_add (Spec.fvals m - E) E
      rw [sub_add_cancel] at this
      linarith
    have hE := frob_nonneg E
    have hd0 : 0 ≤ d := (frob_nonneg _).trans hd
    obtain ⟨κ, hκe⟩ : ∃ κ, κ = Spec.turnErr F σ := ⟨_, rfl⟩
    rw [← hκe] at hroom hk ⊢
    have one : (1 : ℝ) ≤ (1 + 2 * κ) ^ ts.length := one_le_pow₀ (by linarith)
    have S0 : 0 ≤ Spec.frob E + d + 4 * F.tiny := by linarith
    rw [List.length_cons, pow_succ] at hroom ⊢
    have r1 : 2 * (1 + 2 * κ) * (Spec.frob (Spec.fvals m) + 4 * F.tiny) ≤ F.maxFinite := by
      refine le_trans ?_ hroom
      calc _ ≤ 2 * (1 + 2 * κ) * (Spec.frob E + d + 4 * F.tiny) := mul_le_mul_of_nonneg_left (by linarith) (by linarith)
        _ = 2 * (1 * (1 + 2 * κ)) * (Spec.frob E + d + 4 * F.tiny) := by ring
        _ ≤ _ := by gcongr
    obtain ⟨g1, g2⟩ := C134_call h0 hL t (hts t (List.mem_cons_self)) m hm (by rw [← hκe]; exact r1)
    rw [← hκe] at g2
    have hd' : Spec.frob (Spec.fvals (t.call m) - t.exact E) ≤ d + 2 * κ * (Spec.frob E + d + 4 * F.tiny) := by
      calc _ = Spec.frob ((Spec.fvals (t.call m) - t.exact (Spec.fvals m)) + t.exact (Spec.fvals m - E)) := by rw [← exact_sub]; congr 1; abel
        _ ≤ _ := frob_add _ _
        _ ≤ 2 * κ * (Spec.frob (Spec.fvals m) + 4 * F.tiny) + d := add_le_add g2 (by rw [exact_frob]; exact hd)
        _ ≤ 2 * κ * (Spec.frob E + d + 4 * F.tiny) + d := by
            have := mul_le_mul_of_nonneg_left (show Spec.frob (Spec.fvals m) + 4 * F.tiny ≤ Spec.frob E + d + 4 * F.tiny by linarith) (by linarith : 0 ≤ 2 * κ)
            linarith
        _ = _ := by ring
    have e : Spec.frob (t.exact E) + (d + 2 * κ * (Spec.frob E + d + 4 * F.tiny)) + 4 * F.tiny = (1 + 2 * κ) * (Spec.frob E + d + 4 * F.tiny) := by rw [exact_frob]; ring
    obtain ⟨k1, k2⟩ := ih (fun t h => hts t (List.mem_cons_of_mem _ h)) (t.call m) g1 (t.exact E) _ hd' (by
      rw [← hκe, e]
      calc _ = 2 * ((1 + 2 * κ) ^ ts.length * (1 + 2 * κ)) * (Spec.frob E + d + 4 * F.tiny) := by ring
        _ ≤ _ := hroom)
    refine ⟨k1, ?_⟩
    rw [← hκe, e, exact_frob] at k2
    simp only [List.foldl_cons]
    refine k2.trans (le_of_eq ?_)
    ring

omit L in
private theorem fold_orth (ts : List (Spec.Turn F)) (R : Matrix (Fin 4) (Fin 4) ℝ) (hR : R * Rᵀ = 1) (hdet : R.det = 1) :
    ts.foldl (fun A t => t.exact A) R * (ts.foldl (fun A t => t.exact A) R)ᵀ = 1 ∧ (ts.foldl (fun A t => t.exact A) R).det = 1 := by
  induction ts generalizing R with
  | nil => exact ⟨hR, hdet⟩
  | cons t ts ih =>
    rw [List.foldl_cons]
    apply ih
    · unfold Spec.Turn.exact
      split_ifs
      · rw [Matrix.transpose_mul, Matrix.mul_assoc, ← Matrix.mul_assoc R, hR, Matrix.one_mul, (rot_orth _ _).1]
      · rw [Matrix.transpose_mul, Matrix.mul_assoc, ← Matrix.mul_assoc (Spec.rotXYZ _ _), (rot_orth _ _).1, Matrix.one_mul, hR]
    · unfold Spec.Turn.exact
      split_ifs
      · rw [Matrix.det_mul, hdet, (rot_orth _ _).2, mul_one]
      · rw [Matrix.det_mul, hdet, (rot_orth _ _).2, mul_one]

/-- **C134** Starting from a rotation (for instance the identity matrix), the matrix stays close to a rotation: after any history of `n` calls there is an orthogonal matrix of determinant one, the exact result,
within `( ( 1 + 2 κ )ⁿ - 1 ) ( 2 + 4 tiny )`. -/
theorem C134_stays_rotation (h0 : 0 < F.emax) (hL : Spec.Trig L σ) (ts : List (Spec.Turn F)) (hts : ∀ t ∈ ts, t.angle.Finite) (m : Mat 4 4 (Fp F)) (hm : ∀ i j, (m.get i j).Finite)
    (horth : Spec.fvals m * (Spec.fvals m)ᵀ = 1) (hdet : (Spec.fvals m).det = 1) (hroom : 2 * (1 + 2 * Spec.turnErr F σ) ^ ts.length * (2 + 4 * F.tiny) ≤ F.maxFinite) :
    (∀ i j, ((ts.foldl (fun m t => t.call m) m).get i j).Finite) ∧ ∃ R : Matrix (Fin 4) (Fin 4) ℝ, R * Rᵀ = 1 ∧ R.det = 1 ∧ R = ts.foldl (fun A t => t.exact A) (Spec.fvals m) ∧
      Spec.frob (Spec.fvals (ts.foldl (fun m t => t.call m) m) - R) ≤ ((1 + 2 * Spec.turnErr F σ) ^ ts.length - 1) * (2 + 4 * F.tiny) := by
  have hf : Spec.frob (Spec.fvals m) = 2 := by
    rw [frob_orthogonal horth]
    rw [show ((4 : ℕ) : ℝ) = 2 ^ 2 by norm_num]
    exact Real.sqrt_sq (by norm_num)
  obtain ⟨g1, g2⟩ := C134_history h0 hL ts hts m hm (Spec.fvals m) 0 (by simp [Spec.frob]) (by rw [hf, add_zero]; exact hroom)
  obtain ⟨o1, o2⟩ := fold_orth ts _ horth hdet
  refine ⟨g1, _, o1, o2, rfl, ?_⟩
  rw [hf, add_zero] at g2
  refine g2.trans (le_of_eq ?_)
  ring

end

/-- A library whose sine and cosine are correctly rounded is accurate to `u + η`. -/
theorem C134_correctly_rounded (h0 : 0 < F.emax) : Spec.Trig (inferInstance : CMath (Fp F)) (F.u + F.eta) := by
  have key : ∀ x : ℝ, |x| ≤ 1 → (Fp.ofReal x : Fp F).Finite ∧ |(Fp.ofReal x : Fp F).val - x| ≤ F.u + F.eta := by
    intro x hx
    obtain ⟨f, v⟩ := Fp.round_signed (F := F) (x := x) (s := @decide (x < 0) (Classical.propDecidable _)) h0 (fun _ => @decide_eq_true_iff _ (Classical.propDecidable _)) (hx.trans (one_le_max h0))
    have f : (Fp.ofReal x : Fp F).Finite := f
    have v : (Fp.ofReal x : Fp F).val = F.rnd x := v
    refine ⟨f, ?_⟩
    rw [v]
    have := rnd_err_add (F := F) x
    have hu := u_pos (F := F)
    nlinarith
  intro a _
  exact ⟨key _ (Real.abs_sin_le_one _), key _ (Real.abs_cos_le_one _)⟩

/-- **C134** In numbers: with `float` and a library accurate to `2⁻²³`, after any thousand calls from a rotation matrix the result is within `1 / 1000` of the exact rotation. -/
theorem C134_single [L : CMath (Fp Format.single)] (hL : Spec.Trig L ((2 : ℝ)⁻¹ ^ 23)) (ts : List (Spec.Turn Format.single)) (hn : ts.length ≤ 1000) (hts : ∀ t ∈ ts, t.angle.Finite)
    (m : Mat 4 4 (Fp Format.single)) (hm : ∀ i j, (m.get i j).Finite) (horth : Spec.fvals m * (Spec.fvals m)ᵀ = 1) (hdet : (Spec.fvals m).det = 1) :
    (∀ i j, ((ts.foldl (fun m t => t.call m) m).get i j).Finite) ∧ ∃ R : Matrix (Fin 4) (Fin 4) ℝ, R * Rᵀ = 1 ∧ R.det = 1 ∧ R = ts.foldl (fun A t => t.exact A) (Spec.fvals m) ∧
      Spec.frob (Spec.fvals (ts.foldl (fun m t => t.call m) m) - R) ≤ 1 / 1000 := by
  have ht : Format.single.tiny ≤ 1 / 100000 := by
    unfold Format.tiny
    rw [show Format.single.emin = -126 by decide]
    norm_num
  have ht0 := Format.tiny_pos (F := Format.single)
  have hκ : 2 * Spec.turnErr Format.single ((2 : ℝ)⁻¹ ^ 23) ≤ 477 / 10 ^ 9 := by
    unfold Spec.turnErr Format.u
    rw [show Format.single.p = 23 by decide]
    norm_num
  have hκ0 : 0 ≤ 2 * Spec.turnErr Format.single ((2 : ℝ)⁻¹ ^ 23) := by
    have := kappa_bounds (F := Format.single) (σ := (2 : ℝ)⁻¹ ^ 23) (by positivity)
    have hu := u_pos (F := Format.single)
    nlinarith
  obtain ⟨κ, hκe⟩ : ∃ κ, κ = 2 * Spec.turnErr Format.single ((2 : ℝ)⁻¹ ^ 23) := ⟨_, rfl⟩
  have hpow : (1 + κ) ^ ts.length - 1 ≤ 4773 / 10 ^ 7 := by
    rw [← hκe] at hκ hκ0
    have hl : (ts.length : ℝ) ≤ 1000 := by exact_mod_cast hn
    have hx : ts.length * κ ≤ 477 / 10 ^ 6 := by
      calc _ ≤ 1000 * (477 / 10 ^ 9 : ℝ) := mul_le_mul hl hκ hκ0 (by norm_num)
        _ = _ := by norm_num
    refine (pow_le_gamma hκ0 _ (by linarith)).trans ?_
    unfold Spec.gamma
    rw [div_le_iff₀ (by linarith)]
    linarith
  have hmax : (8 : ℝ) ≤ Format.single.maxFinite := by
    unfold Format.maxFinite
    rw [show ((Format.single.emax : Int) - Format.single.p) = 104 by decide, show Format.single.p = 23 by decide]
    norm_num
  obtain ⟨g1, R, o1, o2, o3, g2⟩ := C134_stays_rotation (F := Format.single) (by decide) hL ts hts m hm horth hdet (by
    rw [← hκe]
    have : (1 + κ) ^ ts.length ≤ 3 / 2 := by linarith
    calc 2 * (1 + κ) ^ ts.length * (2 + 4 * Format.single.tiny) ≤ 2 * (3 / 2) * (2 + 4 * Format.single.tiny) := by gcongr
      _ ≤ _ := by linarith)
  refine ⟨g1, R, o1, o2, o3, g2.trans ?_⟩
  rw [← hκe]
  calc _ ≤ 4773 / 10 ^ 7 * (2 + 4 * Format.single.tiny) := mul_le_mul_of_nonneg_right hpow (by linarith)
    _ ≤ _ := by linarith

/-- A case: the identity of `float`s, turned by two finite angles. -/
example [L : CMath (Fp Format.single)] (hL : Spec.Trig L ((2 : ℝ)⁻¹ ^ 23)) (α β : Fp Format.single) (hα : α.Finite) (hβ : β.Finite) :
    let m : Mat 4 4 (Fp Format.single) := Mat.ofFn fun i j => if i = j then 1 else 0
    Spec.frob (Spec.fvals ((m.rotateX α).preRotateZ β) - Spec.rotZ (-β.val) * (1 * Spec.rotX α.val)) ≤ 1 / 1000 := by
  intro m
  have e : Spec.fvals m = 1 := by
    ext i j
    show (m.get i j).val = _
    simp only [m, Mat.get_ofFn, Matrix.one_apply]
    split_ifs
    · exact (Fp.one_fin (by decide)).2
    · exact Fp.val_zero
  obtain ⟨-, R, -, -, h, g⟩ := C134_single hL [⟨false, 0, α⟩, ⟨true, 2, β⟩] (by simp only [List.length_cons, List.length_nil]; omega) (by simp [hα, hβ]) m (by
    intro i j
    simp only [m, Mat.get_ofFn]
    split_ifs
    · exact (Fp.one_fin (by decide)).1
    · exact Fp.finite_zero) (by rw [e]; simp) (by rw [e]; simp)
  rw [h, e] at g
  clear_value m
  simpa only [List.foldl_cons, List.foldl_nil, Spec.Turn.call, Spec.Turn.exact, Spec.rotXYZ, if_true, Bool.false_eq_true, if_false] using g
end Vmml
