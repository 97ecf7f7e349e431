import Verif.Model.QuatFloat
import Verif.Proofs.FApprox
import Verif.Props.FloatNorm
import Verif.Props.FloatFilter
import Mathlib.Analysis.Quaternion

/-!
# C114: quaternions in IEEE 754 arithmetic, with overflow and underflow
-/

namespace Vmml
open Format
variable {F D : Format}

/-- `D` is the type of the literal `0.5`: the type of the components itself, or one with more digits and a larger exponent range (`float` and `double`). -/
def Spec.Wider (F D : Format) : Prop := D = F ∨ (F.p ≤ D.p ∧ F.emax < D.emax)

/-- The quaternion of the represented numbers (0 for infinities and NaN). -/
def Spec.fhval (q : Quat (Fp F)) : Quaternion ℝ := ⟨q.w.val, q.x.val, q.y.val, q.z.val⟩
/-- The sum of the magnitudes of the components. -/
def Spec.ftaxi (q : Quat (Fp F)) : ℝ := |q.w.val| + |q.x.val| + |q.y.val| + |q.z.val|
/-- Neither infinities nor NaN. -/
def Spec.QFinite (q : Quat (Fp F)) : Prop := q.w.Finite ∧ q.x.Finite ∧ q.y.Finite ∧ q.z.Finite

/-! ## Halving -/

theorem rep_half (h0 : 1 < F.emax) : F.Rep (1 / 2) := by
  have := rep_pow (F := F) (e := -1) (by unfold emin; omega)
  simpa using this

theorem half_lit (h0 : 1 < F.emax) : (Fp.round false (1 / 2) : Fp F).Finite ∧ (Fp.round false (1 / 2) : Fp F).val = 1 / 2 := by
  have h := Fp.round_signed (F := F) (x := 1 / 2) (s := false) (by omega) (by intro _; simp) (by
    have := one_le_max (F := F) (by omega)
    rw [abs_of_pos (by norm_num)]; linarith)
  rw [abs_of_pos (by norm_num), (rep_half h0).rnd_eq] at h
  exact h

theorem half_widen (he : F.emax < D.emax) (hp : F.p ≤ D.p) {x : ℝ} (h : F.Rep x) : D.Rep (1 / 2 * x) := by
  obtain ⟨k, e, h1, h2, rfl⟩ := h
  refine ⟨k, e - 1, ?_, h2.trans ?_, ?_⟩
  · unfold emin at *; omega
  · exact pow_le_pow_right₀ (by norm_num) (by omega)
  · rw [zpow_sub₀ (by norm_num)]; ring

theorem Fp.half_fin (hD : Spec.Wider F D) (h0 : 1 < F.emax) {s : Fp F} (hs : s.Finite) :
    (Fp.half D s).Finite ∧ (Fp.half D s).val = F.rnd (1 / 2 * s.val) := by
  have hpe : F.p ≤ D.p ∧ F.emax ≤ D.emax := by
    rcases hD with rfl | ⟨h1, h2⟩
    · exact ⟨le_rfl, le_rfl⟩
    · exact ⟨h1, h2.le⟩
  obtain ⟨c1, c2⟩ := Fp.widen_fin hpe.1 hpe.2 (by omega) hs
  obtain ⟨l1, l2⟩ := half_lit (F := D) (by omega)
  have hle : |1 / 2 * s.val| ≤ F.maxFinite := by
    rw [abs_mul, abs_of_pos (by norm_num)]
    have := Fp.abs_val_le s
    have := abs_nonneg s.val
    linarith
  obtain ⟨m1, m2⟩ := Fp.mul_fin (F := D) (by omega) l1 c1 (by rw [l2, c2]; exact hle.trans (max_widen hpe.1 hpe.2))
  rw [l2, c2] at m2
  have hr : |D.rnd (1 / 2 * s.val)| ≤ F.maxFinite ∧ F.rnd (D.rnd (1 / 2 * s.val)) = F.rnd (1 / 2 * s.val) := by
    rcases hD with rfl | ⟨h1, h2⟩
    · refine ⟨?_, (rnd_rep _).rnd_eq⟩
      rw [← m2]; exact Fp.abs_val_le _
    · rw [(half_widen h2 h1 (Fp.rep_val hs)).rnd_eq]
      exact ⟨hle, rfl⟩
  obtain ⟨f1, f2⟩ := Fp.convert_fin (G := F) (by omega) m1 (by rw [m2]; exact hr.1)
  exact ⟨f1, by show (Fp.convert F _).val = _; rw [f2, m2, hr.2]⟩

theorem Fp.half_finite {s : Fp F} (h : (Fp.half D s).Finite) : s.Finite := by
  cases s with
  | fin => trivial
  | nan =>
    have e : Fp.half D (.nan : Fp F) = .nan := by
      show Fp.convert F ((.round false (1 / 2) : Fp D) * .nan) = .nan
      cases (Fp.round false (1 / 2) : Fp D) <;> rfl
    rw [e] at h; exact h
  | inf s =>
    exfalso
    unfold Fp.half at h
    change (Fp.convert F ((.round false (1 / 2) : Fp D) * .inf s)).Finite at h
    generalize (Fp.round false (1 / 2) : Fp D) = c at h
    cases c with
    | nan => exact h
    | inf t => exact h
    | fin t m hm =>
      have e : (Fp.fin t m hm * .inf s : Fp D) = @ite _ (m = 0) (Classical.propDecidable _) .nan (.inf (t ^^ s)) := rfl
      rw [e] at h
      split_ifs at h <;> exact h

theorem FBoth.half (hD : Spec.Wider F D) (h0 : 1 < F.emax) {H S : Prop} {n : Nat} {a : Fp F} {A m M : ℝ} (h : FBoth H S n a A m M) :
    FBoth H S (n + 1) (Fp.half D a) (1 / 2 * A) (1 / 2 * m + F.tiny) (1 / 2 * M + F.tiny) := by
  have hu := u_pos (F := F)
  have ht := F.tiny_pos
  refine ⟨fun hf => ?_, fun hH => ?_⟩
  · have ha := Fp.half_finite hf
    refine ⟨(h.approx ha).1, ?_⟩
    have e : |(1 / 2 : ℝ)| = 1 / 2 := by norm_num
    have := Approx.mul_pad (r := (Fp.half D a).val) hu.le ht.le (Approx.exact (u := F.u) (1 / 2 : ℝ)) (h.approx ha).2 (by
      rw [(Fp.half_fin hD h0 ha).2]; exact rnd_err_tiny _)
    rw [zero_add, e] at this
    exact this
  · have hb := h.bound hH
    obtain ⟨f1, f2⟩ := Fp.half_fin hD h0 hb.finite
    refine ⟨f1, ?_⟩
    rw [f2]
    have h1 := rnd_err_tiny (F := F) (1 / 2 * a.val)
    have h2 : |1 / 2 * a.val| = 1 / 2 * |a.val| := by rw [abs_mul, abs_of_pos (by norm_num)]
    have h3 : |F.rnd (1 / 2 * a.val)| ≤ (1 + F.u) * |1 / 2 * a.val| + F.u * F.tiny := by
      have := abs_sub_abs_le_abs_sub (F.rnd (1 / 2 * a.val)) (1 / 2 * a.val)
      linarith
    have h4 : (1 + F.u) * |1 / 2 * a.val| ≤ (1 + F.u) * (1 / 2 * ((1 + F.u) ^ n * M)) := by
      rw [h2]
      exact mul_le_mul_of_nonneg_left (by linarith [hb.bound]) (by linarith)
    have h5 : (1 : ℝ) ≤ (1 + F.u) ^ n := one_le_pow₀ (by linarith)
    have h6 : F.u * F.tiny ≤ (1 + F.u) ^ (n + 1) * F.tiny := by
      refine mul_le_mul_of_nonneg_right ?_ ht.le
      rw [pow_succ]
      nlinarith
    calc _ ≤ (1 + F.u) * (1 / 2 * ((1 + F.u) ^ n * M)) + (1 + F.u) ^ (n + 1) * F.tiny := by linarith
      _ = _ := by rw [pow_succ]; ring

/-! ## The product -/

/-- Error of one component of a product of quaternions whose components sum to `S` and `T` in magnitude. -/
noncomputable def Spec.qmulErr (F : Format) (S T : ℝ) : ℝ := ((1 + F.u) ^ 9 - 1) * (6 * (S * T) + 7 * F.tiny)

/-- **C114** `operator*=` and `operator*` in IEEE arithmetic: if a component of the result is finite, it is within `qmulErr` of the component of the Hamilton
product of the operands, which are finite; and if the operands are finite and `( 1 + u )^9 ( 6 |p|₁ |q|₁ + 7 tiny )` is within the range of the format,
all components are finite. -/
theorem C114_product (hD : Spec.Wider F D) (h0 : 1 < F.emax) (p q : Quat (Fp F)) :
    let r := p.mulAssign (Fp.half D) (.other q)
    let b := Spec.qmulErr F (Spec.ftaxi p) (Spec.ftaxi q)
    let R := Spec.fhval p * Spec.fhval q
    p.mul (Fp.half D) q = r ∧
    (r.w.Finite → Spec.QFinite p ∧ Spec.QFinite q ∧ |r.w.val - R.re| ≤ b) ∧
    (r.x.Finite → Spec.QFinite p ∧ Spec.QFinite q ∧ |r.x.val - R.imI| ≤ b) ∧
    (r.y.Finite → Spec.QFinite p ∧ Spec.QFinite q ∧ |r.y.val - R.imJ| ≤ b) ∧
    (r.z.Finite → Spec.QFinite p ∧ Spec.QFinite q ∧ |r.z.val - R.imK| ≤ b) ∧
    (Spec.QFinite p → Spec.QFinite q → Spec.ftaxi p ≤ F.maxFinite → Spec.ftaxi q ≤ F.maxFinite →
      (1 + F.u) ^ 9 * (6 * (Spec.ftaxi p * Spec.ftaxi q) + 7 * F.tiny) ≤ F.maxFinite → Spec.QFinite r) := by
  intro r b R
  have hu := u_pos (F := F)
  have ht := F.tiny_pos
  have h1 : 0 < F.emax := by omega
  set S := Spec.ftaxi p with hS
  set T := Spec.ftaxi q with hT
  have hS0 : 0 ≤ S := by unfold S Spec.ftaxi; positivity
  have hT0 : 0 ≤ T := by unfold T Spec.ftaxi; positivity
  have hST : 0 ≤ S * T := mul_nonneg hS0 hT0
  let H : Prop := Spec.QFinite p ∧ Spec.QFinite q ∧ S ≤ F.maxFinite ∧ T ≤ F.maxFinite ∧ (1 + F.u) ^ 9 * (6 * (S * T) + 7 * F.tiny) ≤ F.maxFinite
  have room {k : Nat} {M : ℝ} (hk : k ≤ 9) (hM0 : 0 ≤ M) (hM : M ≤ 6 * (S * T) + 7 * F.tiny) (hH : H) : (1 + F.u) ^ k * M ≤ F.maxFinite :=
    (mul_le_mul (pow_le_pow_right₀ (by linarith) hk) hM hM0 (by positivity)).trans hH.2.2.2.2
  have a1 := abs_nonneg p.w.val
  have a2 := abs_nonneg p.x.val
  have a3 := abs_nonneg p.y.val
  have a4 := abs_nonneg p.z.val
  have b1 := abs_nonneg q.w.val
  have b2 := abs_nonneg q.x.val
  have b3 := abs_nonneg q.y.val
  have b4 := abs_nonneg q.z.val
  have E (x : Fp F) (hx : H → x.Finite) : FBoth H x.Finite 0 x x.val |x.val| |x.val| := ⟨FApprox.exact x, fun h => ⟨hx h, by simp⟩⟩
  have A {x y : Fp F} (hx : H → x.Finite) (hy : H → y.Finite) (h : |x.val| + |y.val| ≤ S) : FBoth H (x.Finite ∧ y.Finite) 1 (x + y) (x.val + y.val) S S :=
    ((E x hx).add h1 (E y hy) (fun hH => by simpa using h.trans hH.2.2.1)).conv (by decide) rfl h h id
  have B {x y : Fp F} (hx : H → x.Finite) (hy : H → y.Finite) (h : |x.val| + |y.val| ≤ S) : FBoth H (x.Finite ∧ y.Finite) 1 (x - y) (x.val - y.val) S S :=
    ((E x hx).sub h1 (E y hy) (fun hH => by simpa using h.trans hH.2.2.1)).conv (by decide) rfl h h id
  have A' {x y : Fp F} (hx : H → x.Finite) (hy : H → y.Finite) (h : |x.val| + |y.val| ≤ T) : FBoth H (x.Finite ∧ y.Finite) 1 (x + y) (x.val + y.val) T T :=
    ((E x hx).add h1 (E y hy) (fun hH => by simpa using h.trans hH.2.2.2.1)).conv (by decide) rfl h h id
  have B' {x y : Fp F} (hx : H → x.Finite) (hy : H → y.Finite) (h : |x.val| + |y.val| ≤ T) : FBoth H (x.Finite ∧ y.Finite) 1 (x - y) (x.val - y.val) T T :=
    ((E x hx).sub h1 (E y hy) (fun hH => by simpa using h.trans hH.2.2.2.1)).conv (by decide) rfl h h id
  have pw : H → p.w.Finite := fun h => h.1.1
  have px : H → p.x.Finite := fun h => h.1.2.1
  have py : H → p.y.Finite := fun h => h.1.2.2.1
  have pz : H → p.z.Finite := fun h => h.1.2.2.2
  have qw : H → q.w.Finite := fun h => h.2.1.1
  have qx : H → q.x.Finite := fun h => h.2.1.2.1
  have qy : H → q.y.Finite := fun h => h.2.1.2.2.1
  have qz : H → q.z.Finite := fun h => h.2.1.2.2.2
  have rp : ∀ hH : H, (1 + F.u) ^ (1 + 1) * (S * T) ≤ F.maxFinite := fun hH => room (by decide) hST (by linarith) hH
  have t0 := (B pz py (by simp only [hS, Spec.ftaxi]; linarith)).mul h1 (B' qy qz (by simp only [hT, Spec.ftaxi]; linarith)) rp
  have t1 := (A pw px (by simp only [hS, Spec.ftaxi]; linarith)).mul h1 (A' qw qx (by simp only [hT, Spec.ftaxi]; linarith)) rp
  have t2 := (B pw px (by simp only [hS, Spec.ftaxi]; linarith)).mul h1 (A' qy qz (by simp only [hT, Spec.ftaxi]; linarith)) rp
  have t3 := (A py pz (by simp only [hS, Spec.ftaxi]; linarith)).mul h1 (B' qw qx (by simp only [hT, Spec.ftaxi]; linarith)) rp
  have t4 := (B pz px (by simp only [hS, Spec.ftaxi]; linarith)).mul h1 (B' qx qy (by simp only [hT, Spec.ftaxi]; linarith)) rp
  have t5 := (A pz px (by simp only [hS, Spec.ftaxi]; linarith)).mul h1 (A' qx qy (by simp only [hT, Spec.ftaxi]; linarith)) rp
  have t6 := (A pw py (by simp only [hS, Spec.ftaxi]; linarith)).mul h1 (B' qw qz (by simp only [hT, Spec.ftaxi]; linarith)) rp
  have t7 := (B pw py (by simp only [hS, Spec.ftaxi]; linarith)).mul h1 (A' qw qz (by simp only [hT, Spec.ftaxi]; linarith)) rp
  have t8 := (t5.add h1 t6 (room (by decide) (by linarith) (by linarith))).add h1 t7 (room (by decide) (by linarith) (by linarith))
  have t9 := (t4.add h1 t8 (room (by decide) (by linarith) (by linarith))).half hD h0
  have rw' := (t0.add h1 t9 (room (by decide) (by linarith) (by linarith))).sub h1 t5 (room (by decide) (by linarith) (by linarith))
  have rx' := (t1.add h1 t9 (room (by decide) (by linarith) (by linarith))).sub h1 t8 (room (by decide) (by linarith) (by linarith))
  have ry' := (t2.add h1 t9 (room (by decide) (by linarith) (by linarith))).sub h1 t7 (room (by decide) (by linarith) (by linarith))
  have rz' := (t3.add h1 t9 (room (by decide) (by linarith) (by linarith))).sub h1 t6 (room (by decide) (by linarith) (by linarith))
  have fw := rw'.conv (k := 9) (A' := R.re) (m' := 6 * (S * T) + 7 * F.tiny) (M' := 6 * (S * T) + 7 * F.tiny) (S' := Spec.QFinite p ∧ Spec.QFinite q)
    (by decide) (by show _ = (Spec.fhval p * Spec.fhval q).re; rw [Quaternion.re_mul]; simp only [Spec.fhval]; ring) (by linarith) (by linarith) (by unfold Spec.QFinite; grind)
  have fx := rx'.conv (k := 9) (A' := R.imI) (m' := 6 * (S * T) + 7 * F.tiny) (M' := 6 * (S * T) + 7 * F.tiny) (S' := Spec.QFinite p ∧ Spec.QFinite q)
    (by decide) (by show _ = (Spec.fhval p * Spec.fhval q).imI; rw [Quaternion.imI_mul]; simp only [Spec.fhval]; ring) (by linarith) (by linarith) (by unfold Spec.QFinite; grind)
  have fy := ry'.conv (k := 9) (A' := R.imJ) (m' := 6 * (S * T) + 7 * F.tiny) (M' := 6 * (S * T) + 7 * F.tiny) (S' := Spec.QFinite p ∧ Spec.QFinite q)
    (by decide) (by show _ = (Spec.fhval p * Spec.fhval q).imJ; rw [Quaternion.imJ_mul]; simp only [Spec.fhval]; ring) (by linarith) (by linarith) (by unfold Spec.QFinite; grind)
  have fz := rz'.conv (k := 9) (A' := R.imK) (m' := 6 * (S * T) + 7 * F.tiny) (M' := 6 * (S * T) + 7 * F.tiny) (S' := Spec.QFinite p ∧ Spec.QFinite q)
    (by decide) (by show _ = (Spec.fhval p * Spec.fhval q).imK; rw [Quaternion.imK_mul]; simp only [Spec.fhval]; ring) (by linarith) (by linarith) (by unfold Spec.QFinite; grind)
  have fin {a : Fp F} {V : ℝ} (f : FBoth H (Spec.QFinite p ∧ Spec.QFinite q) 9 a V (6 * (S * T) + 7 * F.tiny) (6 * (S * T) + 7 * F.tiny)) (h : a.Finite) :
      Spec.QFinite p ∧ Spec.QFinite q ∧ |a.val - V| ≤ b := ⟨(f.approx h).1.1, (f.approx h).1.2, (f.approx h).2.err⟩
  exact ⟨rfl, fin fw, fin fx, fin fy, fin fz, fun c1 c2 c3 c4 c5 => ⟨(fw.bound ⟨c1, c2, c3, c4, c5⟩).finite, (fx.bound ⟨c1, c2, c3, c4, c5⟩).finite,
    (fy.bound ⟨c1, c2, c3, c4, c5⟩).finite, (fz.bound ⟨c1, c2, c3, c4, c5⟩).finite⟩⟩

/-! ## Norms -/

theorem hnorm_sq (a : Quaternion ℝ) : ‖a‖ ^ 2 = a.re ^ 2 + a.imI ^ 2 + a.imJ ^ 2 + a.imK ^ 2 := by
  rw [sq, ← Quaternion.normSq_eq_norm_mul_self, Quaternion.normSq_def']

/-- The sum of the magnitudes of the components is at most twice the length. -/
theorem hsum_le (a : Quaternion ℝ) : |a.re| + |a.imI| + |a.imJ| + |a.imK| ≤ 2 * ‖a‖ := by
  apply le_of_sq_le_sq _ (by positivity)
  rw [mul_pow, hnorm_sq, ← sq_abs a.re, ← sq_abs a.imI, ← sq_abs a.imJ, ← sq_abs a.imK]
  nlinarith [sq_nonneg (|a.re| - |a.imI|), sq_nonneg (|a.re| - |a.imJ|), sq_nonneg (|a.re| - |a.imK|), sq_nonneg (|a.imI| - |a.imJ|),
    sq_nonneg (|a.imI| - |a.imK|), sq_nonneg (|a.imJ| - |a.imK|)]

theorem ftaxi_le (q : Quat (Fp F)) : Spec.ftaxi q ≤ 2 * ‖Spec.fhval q‖ := hsum_le (Spec.fhval q)

/-- Errors relative to the components of `c`, and absolute ones. -/
theorem hnorm_le {a c : Quaternion ℝ} {e η : ℝ} (he : 0 ≤ e) (hη : 0 ≤ η) (h1 : |a.re| ≤ e * |c.re| + η) (h2 : |a.imI| ≤ e * |c.imI| + η)
    (h3 : |a.imJ| ≤ e * |c.imJ| + η) (h4 : |a.imK| ≤ e * |c.imK| + η) : ‖a‖ ≤ e * ‖c‖ + 2 * η := by
  apply le_of_sq_le_sq _ (by positivity)
  have hs := hsum_le c
  have e1 : ‖c‖ ^ 2 = |c.re| ^ 2 + |c.imI| ^ 2 + |c.imJ| ^ 2 + |c.imK| ^ 2 := by simp only [sq_abs]; exact hnorm_sq c
  have g1 := pow_le_pow_left₀ (abs_nonneg _) h1 2
  have g2 := pow_le_pow_left₀ (abs_nonneg _) h2 2
  have g3 := pow_le_pow_left₀ (abs_nonneg _) h3 2
  have g4 := pow_le_pow_left₀ (abs_nonneg _) h4 2
  have g5 := mul_le_mul_of_nonneg_left hs (show 0 ≤ 2 * e * η by positivity)
  have e2 : ‖a‖ ^ 2 = |a.re| ^ 2 + |a.imI| ^ 2 + |a.imJ| ^ 2 + |a.imK| ^ 2 := by simp only [sq_abs]; exact hnorm_sq a
  have e3 : (e * ‖c‖ + 2 * η) ^ 2 = e ^ 2 * ‖c‖ ^ 2 + 2 * e * η * (2 * ‖c‖) + 4 * η ^ 2 := by ring
  rw [e2, e3, e1]
  linarith [show (e * |c.re| + η) ^ 2 + (e * |c.imI| + η) ^ 2 + (e * |c.imJ| + η) ^ 2 + (e * |c.imK| + η) ^ 2 =
    e ^ 2 * (|c.re| ^ 2 + |c.imI| ^ 2 + |c.imJ| ^ 2 + |c.imK| ^ 2) + 2 * e * η * (|c.re| + |c.imI| + |c.imJ| + |c.imK|) + 4 * η ^ 2 by ring]

/-- The product, in terms of lengths. -/
theorem product_norm (hD : Spec.Wider F D) (h0 : 1 < F.emax) (p q : Quat (Fp F)) (hp : Spec.QFinite p) (hq : Spec.QFinite q) {a b : ℝ}
    (ha : ‖Spec.fhval p‖ ≤ a) (hb : ‖Spec.fhval q‖ ≤ b) (ha1 : 1 ≤ a) (hb1 : 1 ≤ b) (hroom : (1 + F.u) ^ 9 * (24 * (a * b) + 7 * F.tiny) ≤ F.maxFinite) :
    Spec.QFinite (p.mul (Fp.half D) q) ∧
    ‖Spec.fhval (p.mul (Fp.half D) q) - Spec.fhval p * Spec.fhval q‖ ≤ 2 * (((1 + F.u) ^ 9 - 1) * (24 * (a * b) + 7 * F.tiny)) := by
  obtain ⟨-, h2, h3, h4, h5, h6⟩ := C114_product hD h0 p q
  have hu := u_pos (F := F)
  have ht := F.tiny_pos
  have hP : (1 : ℝ) ≤ (1 + F.u) ^ 9 := one_le_pow₀ (by linarith)
  have hS : Spec.ftaxi p ≤ 2 * a := (ftaxi_le p).trans (by linarith)
  have hT : Spec.ftaxi q ≤ 2 * b := (ftaxi_le q).trans (by linarith)
  have hS0 : 0 ≤ Spec.ftaxi p := by unfold Spec.ftaxi; positivity
  have hT0 : 0 ≤ Spec.ftaxi q := by unfold Spec.ftaxi; positivity
  have hST : Spec.ftaxi p * Spec.ftaxi q ≤ 4 * (a * b) := by
    calc _ ≤ (2 * a) * (2 * b) := mul_le_mul hS hT hT0 (by linarith)
      _ = _ := by ring
  have hab : a ≤ a * b := le_mul_of_one_le_right (by linarith) hb1
  have hba : b ≤ a * b := le_mul_of_one_le_left (by linarith) ha1
  have hm : 24 * (a * b) + 7 * F.tiny ≤ F.maxFinite := by
    refine le_trans ?_ hroom
    exact le_mul_of_one_le_left (by linarith) hP
  have hf := h6 hp hq (by linarith) (by linarith) (by
    refine le_trans (mul_le_mul_of_nonneg_left ?_ (by linarith)) hroom
    linarith)
  refine ⟨hf, ?_⟩
  have hb' : Spec.qmulErr F (Spec.ftaxi p) (Spec.ftaxi q) ≤ ((1 + F.u) ^ 9 - 1) * (24 * (a * b) + 7 * F.tiny) := by
    unfold Spec.qmulErr
    exact mul_le_mul_of_nonneg_left (by linarith) (by linarith)
  have hb0 : 0 ≤ ((1 + F.u) ^ 9 - 1) * (24 * (a * b) + 7 * F.tiny) := mul_nonneg (by linarith) (by linarith)
  have := hnorm_le (a := Spec.fhval (p.mul (Fp.half D) q) - Spec.fhval p * Spec.fhval q) (c := 0) (e := 0) le_rfl hb0
    (by rw [zero_mul, zero_add]; exact ((h2 hf.1).2.2).trans hb') (by rw [zero_mul, zero_add]; exact ((h3 hf.2.1).2.2).trans hb') (by rw [zero_mul, zero_add]; exact ((h4 hf.2.2.1).2.2).trans hb')
    (by rw [zero_mul, zero_add]; exact ((h5 hf.2.2.2).2.2).trans hb')
  simpa using this

/-! ## Accumulated products -/

/-- Relative growth of the error with every product of quaternions within `δ` of unit ones. -/
noncomputable def Spec.qdriftRate (F : Format) (δ : ℝ) : ℝ := δ + 2 * (((1 + F.u) ^ 9 - 1) * (24 * (1 + δ) + 7 * F.tiny))

/-- **C114** Accumulating rotations: multiplying a quaternion within `e₀` of a unit quaternion by any number of quaternions within `δ` of unit quaternions, all
components stay finite and the result is within `( 1 + ε )ⁿ ( 1 + e₀ ) - 1` of the exact product, and so is its length of 1, as long as this is at most 1. -/
theorem C114_drift (hD : Spec.Wider F D) (h0 : 1 < F.emax) (δ e0 : ℝ) (hδ : 0 ≤ δ) (hroom : (1 + F.u) ^ 9 * (48 * (1 + δ) + 7 * F.tiny) ≤ F.maxFinite)
    (as : List (Quat (Fp F) × Quaternion ℝ)) (has : ∀ a ∈ as, Spec.QFinite a.1 ∧ ‖a.2‖ = 1 ∧ ‖Spec.fhval a.1 - a.2‖ ≤ δ)
    (r : Quat (Fp F)) (R : Quaternion ℝ) (hr : Spec.QFinite r) (hR : ‖R‖ = 1) (hrR : ‖Spec.fhval r - R‖ ≤ e0)
    (hsmall : (1 + Spec.qdriftRate F δ) ^ as.length * (1 + e0) ≤ 2) :
    let m := as.foldl (fun m a => m.mul (Fp.half D) a.1) r
    let P := as.foldl (fun P a => P * a.2) R
    let e := (1 + Spec.qdriftRate F δ) ^ as.length * (1 + e0) - 1
    Spec.QFinite m ∧ ‖Spec.fhval m - P‖ ≤ e ∧ |‖Spec.fhval m‖ - 1| ≤ e := by
  have hu := u_pos (F := F)
  have ht := F.tiny_pos
  have hP : (1 : ℝ) ≤ (1 + F.u) ^ 9 := one_le_pow₀ (by linarith)
  have hrate : 0 ≤ Spec.qdriftRate F δ := by
    unfold Spec.qdriftRate
    have := mul_nonneg (show 0 ≤ (1 + F.u) ^ 9 - 1 by linarith) (show 0 ≤ 24 * (1 + δ) + 7 * F.tiny by linarith)
    linarith
  induction as generalizing r R e0 with
  | nil =>
    have h : ‖Spec.fhval r - R‖ ≤ (1 + Spec.qdriftRate F δ) ^ 0 * (1 + e0) - 1 := by rw [pow_zero]; linarith
    refine ⟨hr, h, ?_⟩
    have := abs_norm_sub_norm_le (Spec.fhval r) R
    rw [hR] at this
    exact this.trans h
  | cons a as ih =>
    obtain ⟨a1, a2, a3⟩ := has a (by simp)
    have he0 : 0 ≤ e0 := (norm_nonneg _).trans hrR
    have hone : (1 : ℝ) ≤ (1 + Spec.qdriftRate F δ) ^ (a :: as).length := one_le_pow₀ (by linarith)
    have he1 : 1 + e0 ≤ 2 := (le_mul_of_one_le_left (by linarith) hone).trans hsmall
    have hrn : ‖Spec.fhval r‖ ≤ 1 + e0 := by
      have := norm_sub_norm_le (Spec.fhval r) R
      linarith
    have han : ‖Spec.fhval a.1‖ ≤ 1 + δ := by
      have := norm_sub_norm_le (Spec.fhval a.1) a.2
      linarith
    have hprod : (1 + e0) * (1 + δ) ≤ 2 * (1 + δ) := mul_le_mul_of_nonneg_right he1 (by linarith)
    obtain ⟨f1, f2⟩ := product_norm hD h0 r a.1 hr a1 hrn han (by linarith) (by linarith) (by
      refine le_trans (mul_le_mul_of_nonneg_left ?_ (by linarith)) hroom
      linarith)
    have hstep : ‖Spec.fhval (r.mul (Fp.half D) a.1) - R * a.2‖ ≤ (1 + e0) * (1 + Spec.qdriftRate F δ) - 1 := by
      have e1 : Spec.fhval (r.mul (Fp.half D) a.1) - R * a.2 = (Spec.fhval (r.mul (Fp.half D) a.1) - Spec.fhval r * Spec.fhval a.1) +
          ((Spec.fhval r - R) * Spec.fhval a.1 + R * (Spec.fhval a.1 - a.2)) := by noncomm_ring
      rw [e1]
      have n1 := norm_add_le (Spec.fhval (r.mul (Fp.half D) a.1) - Spec.fhval r * Spec.fhval a.1)
        ((Spec.fhval r - R) * Spec.fhval a.1 + R * (Spec.fhval a.1 - a.2))
      have n2 := norm_add_le ((Spec.fhval r - R) * Spec.fhval a.1) (R * (Spec.fhval a.1 - a.2))
      rw [norm_mul, norm_mul, hR, one_mul] at n2
      have n3 : ‖Spec.fhval r - R‖ * ‖Spec.fhval a.1‖ ≤ e0 * (1 + δ) := mul_le_mul hrR han (norm_nonneg _) he0
      have n4 : ((1 + F.u) ^ 9 - 1) * (24 * ((1 + e0) * (1 + δ)) + 7 * F.tiny) ≤ (1 + e0) * (((1 + F.u) ^ 9 - 1) * (24 * (1 + δ) + 7 * F.tiny)) := by
        calc _ ≤ ((1 + F.u) ^ 9 - 1) * ((1 + e0) * (24 * (1 + δ) + 7 * F.tiny)) := by
              refine mul_le_mul_of_nonneg_left ?_ (by linarith)
              have : 0 ≤ e0 * F.tiny := by positivity
              linarith
          _ = _ := by ring
      have e2 : (1 + e0) * (1 + Spec.qdriftRate F δ) - 1 =
          2 * ((1 + e0) * (((1 + F.u) ^ 9 - 1) * (24 * (1 + δ) + 7 * F.tiny))) + (e0 * (1 + δ) + δ) := by unfold Spec.qdriftRate; ring
      rw [e2]
      linarith
    have e3 : (1 + Spec.qdriftRate F δ) ^ as.length * (1 + ((1 + e0) * (1 + Spec.qdriftRate F δ) - 1)) =
        (1 + Spec.qdriftRate F δ) ^ (a :: as).length * (1 + e0) := by rw [List.length_cons, pow_succ]; ring
    have := ih ((1 + e0) * (1 + Spec.qdriftRate F δ) - 1) (fun b hb => has b (List.mem_cons_of_mem _ hb)) (r.mul (Fp.half D) a.1) (R * a.2) f1
      (by rw [norm_mul, hR, a2, one_mul]) hstep (by rw [e3]; exact hsmall)
    rw [e3] at this
    exact this

/-! ## Normalisation -/

private theorem zero_add_fin (m : ℝ) (hm : F.Mag m) : (0 + Fp.fin false m hm : Fp F) = Fp.fin false m hm := by
  have e : (0 + Fp.fin false m hm : Fp F) = @ite _ ((0 : Fp F).val + (Fp.fin false m hm).val = 0) (Classical.propDecidable _) (Fp.fin (false && false) 0 mag_zero)
    (Fp.round (@decide ((0 : Fp F).val + (Fp.fin false m hm).val < 0) (Classical.propDecidable _)) |(0 : Fp F).val + (Fp.fin false m hm).val|) := rfl
  have e2 : (0 : Fp F).val + (Fp.fin false m hm).val = m := by simp
  rw [e2] at e
  rw [e]
  split_ifs with h
  · subst h; rfl
  · have hd : @decide (m < 0) (Classical.propDecidable _) = false := by
      rw [decide_eq_false_iff_not]; exact not_lt.2 hm.1
    rw [hd, abs_of_nonneg hm.1, Fp.round_eq hm.1 (by rw [hm.2.1.rnd_eq]; exact hm.2.2)]
    simp only [hm.2.1.rnd_eq]

private theorem zero_add_sq (x : Fp F) : 0 + x * x = x * x := by
  cases x with
  | nan => rfl
  | inf s => rfl
  | fin s m hm =>
    have e : (Fp.fin s m hm * Fp.fin s m hm : Fp F) = Fp.round false (m * m) := by
      show Fp.round (s ^^ s) (m * m) = _
      rw [Bool.xor_self]
    rw [e]
    have h0 : 0 ≤ m * m := mul_self_nonneg m
    by_cases hle : F.rnd (m * m) ≤ F.maxFinite
    · rw [Fp.round_eq h0 hle]; exact zero_add_fin _ _
    · rw [Fp.round_inf (not_le.1 hle)]; rfl

private def fvec (q : Quat (Fp F)) : Vec 4 (Fp F) := #v[q.x, q.y, q.z, q.w]

private theorem fsq_eq (q : Quat (Fp F)) : (fvec q).squaredLength = .ok q.squaredAbs := by
  unfold Vec.squaredLength
  simp only [loop_succ, loop_zero, bind_ok, pure_ok, Vec.rawGet_lt (fvec q) (show 0 < 4 by omega), Vec.rawGet_lt (fvec q) (show 1 < 4 by omega),
    Vec.rawGet_lt (fvec q) (show 2 < 4 by omega), Vec.rawGet_lt (fvec q) (show 3 < 4 by omega)]
  change Except.ok ((0 : Fp F) + q.x * q.x + q.y * q.y + q.z * q.z + q.w * q.w) = _
  rw [zero_add_sq]
  rfl

private theorem fnorm_eq (cfg : Cfg) (q : Quat (Fp F)) : ∃ l, (fvec q).normalize cfg = .ok (fvec q.normalize.1, l) := by
  have hl : (fvec q).length = .ok q.abs := by
    simp only [Vec.length, fsq_eq, bind_ok, pure_ok]; rfl
  have hw : (fvec q).mulAssignS cfg (1 / q.abs) = .ok (fvec (q.mulAssignS (1 / q.abs))) := by
    have : (fvec q).mulAssignS cfg (1 / q.abs) = .ok (Vector.ofFn fun i => (fvec q)[i] * (1 / q.abs)) := by
      unfold Vec.mulAssignS
      apply loop_set
      intro i hi y hy
      simp [hi, hy]
    rw [this]
    congr 1
  simp only [Vec.normalize, hl, bind_ok]
  unfold Quat.normalize
  by_cases h : (q.abs == 0) = true
  · simp only [h, if_true, pure_ok]; exact ⟨_, rfl⟩
  · simp only [h, Bool.false_eq_true, if_false, hw, bind_ok, pure_ok]; exact ⟨_, rfl⟩

private theorem flen_fvec (q : Quat (Fp F)) : Spec.flen (fvec q) = ‖Spec.fhval q‖ := by
  unfold Spec.flen
  rw [← Real.sqrt_sq (norm_nonneg (Spec.fhval q)), hnorm_sq, Fin.sum_univ_four]
  congr 1
  show q.x.val ^ 2 + q.y.val ^ 2 + q.z.val ^ 2 + q.w.val ^ 2 = q.w.val ^ 2 + q.x.val ^ 2 + q.y.val ^ 2 + q.z.val ^ 2
  ring

/-- **C114** `normalize()` of a quaternion whose squared length is a normal number that does not overflow: every component is finite, and the result is within
`( 1 + u )² / ( 1 - flenErr ) - 1 + 2 η` (about `11 u`) of the exact unit quaternion in the same direction; so its length is as close to 1. -/
theorem C114_normalize (hp : F.p < F.emax) (h5 : 5 ≤ F.emax) (hM : 4 * F.u < 1) (hε : Spec.flenErr F 4 ≤ 1 / 2) (q : Quat (Fp F)) (hq : Spec.QFinite q)
    (hlo : F.tiny ≤ ‖Spec.fhval q‖ ^ 2) (hhi : ‖Spec.fhval q‖ ^ 2 + 4 * F.eta ≤ (1 - 4 * F.u) * F.maxFinite) :
    let n := q.normalize.1
    let e := (1 + F.u) ^ 2 / (1 - Spec.flenErr F 4) - 1 + 2 * F.eta
    Spec.QFinite n ∧ ‖Spec.fhval n - ‖Spec.fhval q‖⁻¹ • Spec.fhval q‖ ≤ e ∧ |‖Spec.fhval n‖ - 1| ≤ e := by
  intro n e
  have hs : ∑ i : Fin 4, (fvec q)[i].val ^ 2 = ‖Spec.fhval q‖ ^ 2 := by
    rw [hnorm_sq, Fin.sum_univ_four]
    show q.x.val ^ 2 + q.y.val ^ 2 + q.z.val ^ 2 + q.w.val ^ 2 = q.w.val ^ 2 + q.x.val ^ 2 + q.y.val ^ 2 + q.z.val ^ 2
    ring
  obtain ⟨l, h1⟩ := fnorm_eq ⟨true, true, true⟩ q
  obtain ⟨w, l', h2, -, h3⟩ := C109_normalize hp h5 ⟨true, true, true⟩ (fvec q) (by push_cast; linarith) hε (by
    obtain ⟨q1, q2, q3, q4⟩ := hq
    intro i
    fin_cases i
    · exact q2
    · exact q3
    · exact q4
    · exact q1) (by rw [hs]; exact hlo) (by rw [hs]; push_cast; exact hhi)
  obtain rfl : fvec n = w := congrArg Prod.fst (Except.ok.inj (h1.symm.trans h2))
  rw [flen_fvec] at h3
  have hpos : 0 < ‖Spec.fhval q‖ := by
    have := F.tiny_pos
    by_contra hc
    have : ‖Spec.fhval q‖ = 0 := le_antisymm (not_lt.1 hc) (norm_nonneg _)
    rw [this] at hlo
    norm_num at hlo
    linarith
  have hu := u_pos (F := F)
  have hη := F.eta_pos
  have hk0 : 0 ≤ (1 + F.u) ^ 2 / (1 - Spec.flenErr F 4) - 1 := by
    have hf : 0 ≤ Spec.flenErr F 4 := by
      unfold Spec.flenErr
      have : 0 ≤ Spec.gamma F.u 4 := by unfold Spec.gamma; exact div_nonneg (by positivity) (by push_cast; linarith)
      nlinarith
    rw [sub_nonneg, le_div_iff₀ (by linarith)]
    nlinarith
  have hd (x : ℝ) : x / ‖Spec.fhval q‖ = ‖Spec.fhval q‖⁻¹ * x := by rw [div_eq_inv_mul]
  have key := hnorm_le (a := Spec.fhval n - ‖Spec.fhval q‖⁻¹ • Spec.fhval q) (c := ‖Spec.fhval q‖⁻¹ • Spec.fhval q) hk0 hη.le
    (by have := (h3 3).2; rw [hd] at this; exact this) (by have := (h3 0).2; rw [hd] at this; exact this)
    (by have := (h3 1).2; rw [hd] at this; exact this) (by have := (h3 2).2; rw [hd] at this; exact this)
  have hone : ‖‖Spec.fhval q‖⁻¹ • Spec.fhval q‖ = 1 := by
    rw [norm_smul, norm_inv, norm_norm, inv_mul_cancel₀ hpos.ne']
  rw [hone, mul_one] at key
  refine ⟨⟨(h3 3).1, (h3 0).1, (h3 1).1, (h3 2).1⟩, key, ?_⟩
  have := abs_norm_sub_norm_le (Spec.fhval n) (‖Spec.fhval q‖⁻¹ • Spec.fhval q)
  rw [hone] at this
  exact this.trans key

/-! ## Multiply and normalise -/

private theorem small_u (hp : 14 ≤ F.p) : F.u ≤ 1 / 32768 := by
  unfold u
  calc (2 : ℝ)⁻¹ ^ (F.p + 1) ≤ (2 : ℝ)⁻¹ ^ 15 := pow_le_pow_of_le_one (by norm_num) (by norm_num) (by omega)
    _ = _ := by norm_num

private theorem small_tiny (he : 15 ≤ F.emax) : F.tiny ≤ 1 / 4 := by
  unfold Format.tiny
  calc (2 : ℝ) ^ F.emin ≤ (2 : ℝ) ^ (-2 : Int) := zpow_le_zpow_right₀ (by norm_num) (by unfold emin; omega)
    _ = _ := by norm_num

private theorem big_max (he : 15 ≤ F.emax) : 64 ≤ F.maxFinite := by
  unfold maxFinite
  have h1 : (2 : ℝ) ^ (F.p + 1) - 1 ≥ (2 : ℝ) ^ F.p := by
    have : (1 : ℝ) ≤ (2 : ℝ) ^ F.p := one_le_pow₀ (by norm_num)
    rw [pow_succ]; linarith
  calc (64 : ℝ) = (2 : ℝ) ^ (6 : Int) := by norm_num
    _ ≤ (2 : ℝ) ^ (F.emax : Int) := zpow_le_zpow_right₀ (by norm_num) (by omega)
    _ = (2 : ℝ) ^ F.p * (2 : ℝ) ^ ((F.emax : Int) - F.p) := by rw [← zpow_natCast, ← zpow_add₀ (by norm_num)]; congr 1; ring
    _ ≤ _ := mul_le_mul_of_nonneg_right h1 (by positivity)

private theorem small_pow (hp : 14 ≤ F.p) : (1 + F.u) ^ 9 - 1 ≤ 10 * F.u := by
  have h := small_u hp
  have hu := u_pos (F := F)
  have h9 := pow_le_gamma hu.le 9 (by push_cast; linarith)
  refine h9.trans ?_
  unfold Spec.gamma
  push_cast
  rw [div_le_iff₀ (by linarith)]
  nlinarith

private theorem small_err (hp : 14 ≤ F.p) (he : 15 ≤ F.emax) : 0 ≤ Spec.flenErr F 4 ∧ Spec.flenErr F 4 ≤ 1 / 2 ∧
    (1 + F.u) ^ 2 / (1 - Spec.flenErr F 4) - 1 + 2 * F.eta ≤ 12 * F.u := by
  have h := small_u hp
  have hu := u_pos (F := F)
  have ht := small_tiny he
  have hg : Spec.gamma F.u 4 ≤ 4.001 * F.u := by
    unfold Spec.gamma
    push_cast
    rw [div_le_iff₀ (by linarith)]
    nlinarith
  have hg0 : 0 ≤ Spec.gamma F.u 4 := by unfold Spec.gamma; exact div_nonneg (by positivity) (by push_cast; linarith)
  have hf : Spec.flenErr F 4 ≤ 9.01 * F.u := by
    unfold Spec.flenErr
    have := mul_le_mul_of_nonneg_right hg hu.le
    have := mul_le_mul_of_nonneg_left h hu.le
    nlinarith
  have hf0 : 0 ≤ Spec.flenErr F 4 := by
    unfold Spec.flenErr
    nlinarith
  refine ⟨hf0, by linarith, ?_⟩
  have h1 : (1 + F.u) ^ 2 / (1 - Spec.flenErr F 4) ≤ 1 + 11.5 * F.u := by
    rw [div_le_iff₀ (by linarith)]
    have := mul_le_mul_of_nonneg_left hf (show 0 ≤ 1 + 11.5 * F.u by linarith)
    have := mul_le_mul_of_nonneg_left h hu.le
    nlinarith
  have h2 : F.eta ≤ F.u * (1 / 4) := by rw [Format.eta_eq_tiny]; exact mul_le_mul_of_nonneg_left ht hu.le
  linarith

/-- One step: multiply and normalise. -/
private theorem renorm_step (hD : Spec.Wider F D) (hp : 14 ≤ F.p) (he : F.p < F.emax) (r a : Quat (Fp F)) (hr : Spec.QFinite r) (ha : Spec.QFinite a)
    (hrn : |‖Spec.fhval r‖ - 1| ≤ 1 / 4) (han : |‖Spec.fhval a‖ - 1| ≤ 1 / 4) :
    let x := Spec.fhval (r.mul (Fp.half D) a)
    let n := (r.mul (Fp.half D) a).normalize.1
    Spec.QFinite n ∧ |‖Spec.fhval n‖ - 1| ≤ 12 * F.u ∧ ‖x - Spec.fhval r * Spec.fhval a‖ ≤ 800 * F.u ∧ 0 < ‖x‖ ∧
      ‖Spec.fhval n - ‖x‖⁻¹ • x‖ ≤ 12 * F.u := by
  intro x n
  have h := small_u hp
  have hu := u_pos (F := F)
  have ht := small_tiny (F := F) (by omega)
  have ht0 := F.tiny_pos
  have hk := small_pow hp
  have hmax := big_max (F := F) (by omega)
  obtain ⟨e0, e1, e2⟩ := small_err (F := F) hp (by omega)
  have r1 := abs_le.1 hrn
  have a1 := abs_le.1 han
  obtain ⟨f1, f2⟩ := product_norm (a := 5 / 4) (b := 5 / 4) hD (by omega) r a hr ha (by linarith [r1.2]) (by linarith [a1.2]) (by norm_num) (by norm_num) (by
    refine le_trans (mul_le_mul (show (1 + F.u) ^ 9 ≤ 1.1 by linarith) (show 24 * ((5 / 4 : ℝ) * (5 / 4)) + 7 * F.tiny ≤ 40 by linarith) (by positivity) (by norm_num)) ?_
    linarith)
  have hP : (1 : ℝ) ≤ (1 + F.u) ^ 9 := one_le_pow₀ (by linarith)
  have f3 : ‖x - Spec.fhval r * Spec.fhval a‖ ≤ 800 * F.u := by
    refine f2.trans ?_
    have := mul_le_mul hk (show 24 * ((5 / 4 : ℝ) * (5 / 4)) + 7 * F.tiny ≤ 40 by linarith) (by positivity) (by linarith)
    linarith
  have hP1 : ‖Spec.fhval r‖ * ‖Spec.fhval a‖ ≤ 5 / 4 * (5 / 4) := mul_le_mul (by linarith [r1.2]) (by linarith [a1.2]) (norm_nonneg _) (by norm_num)
  have hP2 : 3 / 4 * (3 / 4) ≤ ‖Spec.fhval r‖ * ‖Spec.fhval a‖ := mul_le_mul (by linarith [r1.1]) (by linarith [a1.1]) (by norm_num) (norm_nonneg _)
  have f4 := abs_le.1 ((abs_norm_sub_norm_le x (Spec.fhval r * Spec.fhval a)).trans f3)
  rw [norm_mul] at f4
  have x1 : 1 / 2 ≤ ‖x‖ := by linarith [f4.1]
  have x2 : ‖x‖ ≤ 1.6 := by linarith [f4.2]
  have h2 : F.eta ≤ F.u * (1 / 4) := by rw [Format.eta_eq_tiny]; exact mul_le_mul_of_nonneg_left ht hu.le
  obtain ⟨n1, n2, n3⟩ := C114_normalize he (by omega) (by linarith) e1 (r.mul (Fp.half D) a) f1
    (by have := pow_le_pow_left₀ (by norm_num) x1 2; change F.tiny ≤ ‖x‖ ^ 2; linarith)
    (by
      have := pow_le_pow_left₀ (norm_nonneg _) x2 2
      change ‖x‖ ^ 2 + 4 * F.eta ≤ _
      have h3 := mul_le_mul (show (1 / 2 : ℝ) ≤ 1 - 4 * F.u by linarith) hmax (by norm_num) (by linarith)
      linarith)
  exact ⟨n1, n3.trans e2, f3, by linarith, n2.trans e2⟩

/-- **C114** Multiplying by any number of quaternions of length about 1 and normalising after each product (formats with at least 14 digits): all components
stay finite and the length is within `12 u` of 1, however long the history. -/
theorem C114_renormalized (hD : Spec.Wider F D) (hp : 14 ≤ F.p) (he : F.p < F.emax) (as : List (Quat (Fp F)))
    (has : ∀ a ∈ as, Spec.QFinite a ∧ |‖Spec.fhval a‖ - 1| ≤ 1 / 4) (r : Quat (Fp F)) (hr : Spec.QFinite r) (hrn : |‖Spec.fhval r‖ - 1| ≤ 12 * F.u) :
    let m := as.foldl (fun m a => (m.mul (Fp.half D) a).normalize.1) r
    Spec.QFinite m ∧ |‖Spec.fhval m‖ - 1| ≤ 12 * F.u := by
  induction as generalizing r with
  | nil => exact ⟨hr, hrn⟩
  | cons a as ih =>
    obtain ⟨h1, h2⟩ := has a (by simp)
    have h := small_u hp
    obtain ⟨n1, n2, -⟩ := renorm_step hD hp he r a hr h1 (by linarith) h2
    exact ih (fun b hb => has b (List.mem_cons_of_mem _ hb)) _ n1 n2

/-- **C114** The same history compared with the exact product of unit quaternions that the stored ones approximate within `δ`: the error grows linearly with the number
of products. -/
theorem C114_renormalized_drift (hD : Spec.Wider F D) (hp : 14 ≤ F.p) (he : F.p < F.emax) (δ e0 : ℝ) (hδ4 : δ ≤ 1 / 4)
    (as : List (Quat (Fp F) × Quaternion ℝ)) (has : ∀ a ∈ as, Spec.QFinite a.1 ∧ ‖a.2‖ = 1 ∧ ‖Spec.fhval a.1 - a.2‖ ≤ δ)
    (r : Quat (Fp F)) (R : Quaternion ℝ) (hr : Spec.QFinite r) (hrn : |‖Spec.fhval r‖ - 1| ≤ 12 * F.u) (hR : ‖R‖ = 1) (hrR : ‖Spec.fhval r - R‖ ≤ e0) (hδ : 0 ≤ δ) :
    let m := as.foldl (fun m a => (m.mul (Fp.half D) a.1).normalize.1) r
    let P := as.foldl (fun P a => P * a.2) R
    ‖Spec.fhval m - P‖ ≤ (1 + δ) ^ as.length * (e0 + as.length * (3 * δ + 1640 * F.u)) := by
  have h := small_u hp
  have hu := u_pos (F := F)
  induction as generalizing r R e0 with
  | nil => simpa using hrR
  | cons a as ih =>
    obtain ⟨a1, a2, a3⟩ := has a (by simp)
    have he0 : 0 ≤ e0 := (norm_nonneg _).trans hrR
    have han : |‖Spec.fhval a.1‖ - 1| ≤ δ := by
      have := abs_norm_sub_norm_le (Spec.fhval a.1) a.2
      rw [a2] at this
      linarith
    obtain ⟨n1, n2, n3, n4, n5⟩ := renorm_step hD hp he r a.1 hr a1 (by linarith) (by linarith)
    set x := Spec.fhval (r.mul (Fp.half D) a.1) with hx
    set n := (r.mul (Fp.half D) a.1).normalize.1 with hn
    have r1 := abs_le.1 hrn
    have a4 := abs_le.1 han
    -- the length of the computed product
    have hxl : |‖x‖ - 1| ≤ 812 * F.u + 5 / 4 * δ := by
      have m1 := abs_le.1 ((abs_norm_sub_norm_le x (Spec.fhval r * Spec.fhval a.1)).trans n3)
      rw [norm_mul] at m1
      have m2 : ‖Spec.fhval r‖ * ‖Spec.fhval a.1‖ ≤ (1 + 12 * F.u) * (1 + δ) := mul_le_mul (by linarith) (by linarith) (norm_nonneg _) (by linarith)
      have m3 : (1 - 12 * F.u) * (1 - δ) ≤ ‖Spec.fhval r‖ * ‖Spec.fhval a.1‖ := mul_le_mul (by linarith) (by linarith) (by linarith) (norm_nonneg _)
      have m4 : 12 * F.u * δ ≤ 1 / 4 * δ := mul_le_mul_of_nonneg_right (by linarith) hδ
      have m5 : 0 ≤ 12 * F.u * δ := by positivity
      rw [abs_le]
      constructor <;> nlinarith
    have hnx : ‖‖x‖⁻¹ • x - x‖ = |‖x‖ - 1| := by
      have : ‖x‖⁻¹ • x - x = (‖x‖⁻¹ - 1) • x := by rw [sub_smul, one_smul]
      have e2 : |‖x‖⁻¹ - 1| * ‖x‖ = |(‖x‖⁻¹ - 1) * ‖x‖| := by rw [abs_mul, abs_of_pos n4]
      rw [this, norm_smul, Real.norm_eq_abs, e2, sub_mul, inv_mul_cancel₀ n4.ne', one_mul, abs_sub_comm]
    have hstep : ‖Spec.fhval n - R * a.2‖ ≤ (1 + δ) * (e0 + (3 * δ + 1640 * F.u)) := by
      have e1 : Spec.fhval n - R * a.2 = (Spec.fhval n - ‖x‖⁻¹ • x) + ((‖x‖⁻¹ • x - x) + ((x - Spec.fhval r * Spec.fhval a.1) +
          ((Spec.fhval r - R) * Spec.fhval a.1 + R * (Spec.fhval a.1 - a.2)))) := by
        simp only [sub_mul, mul_sub]; abel
      have k1 := norm_add_le (Spec.fhval n - ‖x‖⁻¹ • x) ((‖x‖⁻¹ • x - x) + ((x - Spec.fhval r * Spec.fhval a.1) +
          ((Spec.fhval r - R) * Spec.fhval a.1 + R * (Spec.fhval a.1 - a.2))))
      have k2 := norm_add_le (‖x‖⁻¹ • x - x) ((x - Spec.fhval r * Spec.fhval a.1) + ((Spec.fhval r - R) * Spec.fhval a.1 + R * (Spec.fhval a.1 - a.2)))
      have k3 := norm_add_le (x - Spec.fhval r * Spec.fhval a.1) ((Spec.fhval r - R) * Spec.fhval a.1 + R * (Spec.fhval a.1 - a.2))
      have k4 := norm_add_le ((Spec.fhval r - R) * Spec.fhval a.1) (R * (Spec.fhval a.1 - a.2))
      rw [norm_mul, norm_mul, hR, one_mul] at k4
      have k5 : ‖Spec.fhval r - R‖ * ‖Spec.fhval a.1‖ ≤ e0 * (1 + δ) := mul_le_mul hrR (by linarith) (norm_nonneg _) he0
      rw [hnx] at k2
      rw [e1]
      have k6 : 0 ≤ δ * (3 * δ + 1640 * F.u) := by positivity
      nlinarith
    have := ih ((1 + δ) * (e0 + (3 * δ + 1640 * F.u))) (fun b hb => has b (List.mem_cons_of_mem _ hb)) n (R * a.2) n1 n2 (by rw [norm_mul, hR, a2, one_mul]) hstep
    refine this.trans ?_
    rw [List.length_cons, pow_succ]
    push_cast
    have c0 : 0 ≤ (as.length : ℝ) * (3 * δ + 1640 * F.u) := by positivity
    have c1 : 0 ≤ δ * ((as.length : ℝ) * (3 * δ + 1640 * F.u)) := by positivity
    have c2 : (0 : ℝ) ≤ (1 + δ) ^ as.length := by positivity
    rw [mul_assoc]
    refine mul_le_mul_of_nonneg_left ?_ c2
    nlinarith

/-! ## Instances -/

theorem wider_single : Spec.Wider single double := Or.inr ⟨by norm_num, by norm_num⟩
theorem wider_double : Spec.Wider double double := Or.inl rfl

private theorem identity_ok : Spec.QFinite (Quat.ctor : Quat (Fp single)) ∧ Spec.fhval (Quat.ctor : Quat (Fp single)) = 1 := by
  have o := Fp.one_fin (F := single) (by norm_num)
  refine ⟨⟨o.1, trivial, trivial, trivial⟩, ?_⟩
  show (⟨(1 : Fp single).val, (0 : Fp single).val, (0 : Fp single).val, (0 : Fp single).val⟩ : Quaternion ℝ) = 1
  rw [o.2, Fp.val_zero]
  rfl

/-- A million products of `float` quaternions of length about 1, normalised after each: the length is off by less than `10⁻⁶`. -/
example (as : List (Quat (Fp single))) (_hl : as.length = 1000000) (has : ∀ a ∈ as, Spec.QFinite a ∧ |‖Spec.fhval a‖ - 1| ≤ 1 / 4) :
    |‖Spec.fhval (as.foldl (fun m a => (m.mul (Fp.half double) a).normalize.1) Quat.ctor)‖ - 1| ≤ 1 / 10 ^ 6 := by
  refine (C114_renormalized wider_single (by norm_num) (by norm_num) as has Quat.ctor identity_ok.1 ?_).2.trans (by norm_num [u])
  rw [identity_ok.2, norm_one, sub_self, abs_zero]
  norm_num [u]

/-- Ten products of `float` quaternions stored with an error of up to `10⁻⁷` without normalising: the result is within 0.001 of the exact product. -/
example (as : List (Quat (Fp single) × Quaternion ℝ)) (hl : as.length = 10) (has : ∀ a ∈ as, Spec.QFinite a.1 ∧ ‖a.2‖ = 1 ∧ ‖Spec.fhval a.1 - a.2‖ ≤ 1 / 10 ^ 7) :
    ‖Spec.fhval (as.foldl (fun m a => m.mul (Fp.half double) a.1) Quat.ctor) - as.foldl (fun P a => P * a.2) 1‖ ≤ 1 / 1000 := by
  have hk := small_pow (F := single) (by norm_num)
  have ht : single.tiny ≤ 1 / 1000 := by unfold Format.tiny emin; norm_num
  have ht0 := single.tiny_pos
  have hu0 := u_pos (F := single)
  have hP : (1 : ℝ) ≤ (1 + single.u) ^ 9 := one_le_pow₀ (by linarith)
  have hu : single.u ≤ 6 / 10 ^ 8 := by norm_num [u]
  have hmax := big_max (F := single) (by norm_num)
  have hrate : Spec.qdriftRate single (1 / 10 ^ 7) ≤ 3.1 / 10 ^ 5 := by
    unfold Spec.qdriftRate
    have := mul_le_mul (hk.trans (show 10 * single.u ≤ 6 / 10 ^ 7 by linarith))
      (show 24 * (1 + 1 / 10 ^ 7) + 7 * single.tiny ≤ 24.1 by norm_num at ht ⊢; linarith) (by positivity) (by norm_num)
    norm_num at this ⊢
    linarith
  have hrate0 : 0 ≤ Spec.qdriftRate single (1 / 10 ^ 7) := by
    unfold Spec.qdriftRate
    have := mul_nonneg (show 0 ≤ (1 + single.u) ^ 9 - 1 by linarith) (show 0 ≤ 24 * (1 + 1 / 10 ^ 7) + 7 * single.tiny by positivity)
    positivity
  have hpow : (1 + Spec.qdriftRate single (1 / 10 ^ 7)) ^ as.length * (1 + 0) ≤ 1.0009 := by
    rw [hl, add_zero, mul_one]
    calc _ ≤ ((1 : ℝ) + 3.1 / 10 ^ 5) ^ 10 := by gcongr
      _ ≤ _ := by norm_num
  have := (C114_drift wider_single (by norm_num) (1 / 10 ^ 7) 0 (by norm_num) (by
    refine le_trans (mul_le_mul (show (1 + single.u) ^ 9 ≤ 1.1 by linarith) (show 48 * (1 + 1 / 10 ^ 7) + 7 * single.tiny ≤ 50 by norm_num at ht ⊢; linarith)
      (by positivity) (by norm_num)) ?_
    linarith) as has Quat.ctor 1 identity_ok.1 norm_one (by rw [identity_ok.2]; simp) (hpow.trans (by norm_num))).2.1
  refine this.trans ?_
  linarith

/-- Normalising `( 1, 1, 1, 1 )` in `double`. -/
example : |‖Spec.fhval ((⟨1, 1, 1, 1⟩ : Quat (Fp double)).normalize.1)‖ - 1| ≤ 1 / 10 ^ 14 := by
  have o := Fp.one_fin (F := double) (by norm_num)
  have hn : ‖Spec.fhval (⟨1, 1, 1, 1⟩ : Quat (Fp double))‖ ^ 2 = 4 := by
    rw [hnorm_sq]; simp only [Spec.fhval, o.2]; norm_num
  obtain ⟨-, e1, e2⟩ := small_err (F := double) (by norm_num) (by norm_num)
  have hu : double.u ≤ 1 / 32768 := small_u (by norm_num)
  have hmax := big_max (F := double) (by norm_num)
  have ht := small_tiny (F := double) (by norm_num)
  have h2 : double.eta ≤ double.u * (1 / 4) := by rw [Format.eta_eq_tiny]; exact mul_le_mul_of_nonneg_left ht u_pos.le
  refine ((C114_normalize (F := double) (by norm_num) (by norm_num) (by linarith) e1 ⟨1, 1, 1, 1⟩ ⟨o.1, o.1, o.1, o.1⟩ (by rw [hn]; linarith) ?_).2.2.trans e2).trans ?_
  · rw [hn]
    have h3 := mul_le_mul (show (1 / 2 : ℝ) ≤ 1 - 4 * double.u by linarith) hmax (by norm_num) (by linarith)
    linarith
  · norm_num [u]

end Vmml
