import Mathlib.Analysis.SpecialFunctions.Trigonometric.Bounds
import Verif.Props.FloatTurnHistory
import Verif.Props.FloatQuatMatrix
import Verif.Props.FloatQuantize
import Verif.Props.FloatNorm
import Verif.Proofs.FClose

/-!
# C142: `rotate( angle, axis )` in IEEE 754 arithmetic, with an inexact sine, cosine and power

As in C134 the mathematical library is a parameter: only the accuracy `σ` of the instance argument `L : CMath ( Fp F )` enters.
-/

set_option linter.unusedSimpArgs false
set_option linter.unusedVariables false

namespace Vmml
open Format Quat
variable {F D : Format}

/-! ## Specification -/

/-- `std::pow( a, 2 )` is finite and within `σ` of the square, for `|a| <= 2`. -/
def Spec.Square (L : CMath (Fp F)) (σ : ℝ) : Prop :=
  ∀ a t : Fp F, a.Finite → |a.val| ≤ 2 → t.Finite → t.val = 2 → (L.pow a t).Finite ∧ |(L.pow a t).val - a.val ^ 2| ≤ σ

/-- The components of the axis are finite and within `α` of those of `n`. -/
def Spec.NearAxis (axis : Vec 3 (Fp F)) (n : Fin 3 → ℝ) (α : ℝ) : Prop := ∀ i : Fin 3, axis[i].Finite ∧ |axis[i].val - n i| ≤ α

/-- The unit quaternion of the rotation by `θ` about `n`. -/
noncomputable def Spec.axisQuat (n : Fin 3 → ℝ) (θ : ℝ) : Quaternion ℝ :=
  ⟨Real.cos (θ / 2), Real.sin (θ / 2) * n 0, Real.sin (θ / 2) * n 1, Real.sin (θ / 2) * n 2⟩

/-! ## The sixteen entries -/

private theorem rotate_get [CMath (Fp F)] (m : Mat 4 4 (Fp F)) (θ : Fp F) (a : Vec 3 (Fp F)) :
    ((m.rotate θ a).get 0 0 = CMath.cos θ + ((1 : Fp F) - CMath.cos θ) * CMath.pow a[0] ((1 : Fp F) + 1) ∧
     (m.rotate θ a).get 1 0 = ((1 : Fp F) - CMath.cos θ) * a[0] * a[1] + CMath.sin θ * a[2] ∧
     (m.rotate θ a).get 2 0 = ((1 : Fp F) - CMath.cos θ) * a[0] * a[2] - CMath.sin θ * a[1] ∧
     (m.rotate θ a).get 0 1 = ((1 : Fp F) - CMath.cos θ) * a[0] * a[1] - CMath.sin θ * a[2] ∧
     (m.rotate θ a).get 1 1 = CMath.cos θ + ((1 : Fp F) - CMath.cos θ) * CMath.pow a[1] ((1 : Fp F) + 1) ∧
     (m.rotate θ a).get 2 1 = ((1 : Fp F) - CMath.cos θ) * a[1] * a[2] + CMath.sin θ * a[0] ∧
     (m.rotate θ a).get 0 2 = ((1 : Fp F) - CMath.cos θ) * a[0] * a[2] + CMath.sin θ * a[1] ∧
     (m.rotate θ a).get 1 2 = ((1 : Fp F) - CMath.cos θ) * a[1] * a[2] - CMath.sin θ * a[0] ∧
     (m.rotate θ a).get 2 2 = CMath.cos θ + ((1 : Fp F) - CMath.cos θ) * CMath.pow a[2] ((1 : Fp F) + 1)) ∧
    ∀ i : Fin 3, (m.rotate θ a).get 3 i.castSucc = 0 ∧ (m.rotate θ a).get i.castSucc 3 = 0 ∧ (m.rotate θ a).get 3 3 = 1 := by
  refine ⟨?_, ?_⟩
  · simp [Mat.get, Mat.rotate, Vector.getElem_set]
  · intro i
    fin_cases i <;> simp [Mat.get, Mat.rotate, Vector.getElem_set]

private theorem two_fin (hF : Spec.Usual F) : ((1 : Fp F) + 1).Finite ∧ ((1 : Fp F) + 1).val = 2 := by
  obtain ⟨of, ov⟩ := Fp.one_fin (F := F) (Usual.pos hF)
  obtain ⟨f, e⟩ := Fp.add_fin (Usual.pos hF) of of (by
    rw [ov]
    refine Usual.max hF ?_
    have := Usual.u hF
    rw [abs_of_pos (by norm_num)]; linarith)
  refine ⟨f, ?_⟩
  rw [e, ov]
  have hr : F.Rep 2 := by simpa using rep_pow (F := F) (e := 1) (by unfold emin; have := Usual.pos hF; omega)
  rw [show (1 : ℝ) + 1 = 2 by norm_num, hr.rnd_eq]

private theorem rodrigues_get (n : Fin 3 → ℝ) (θ : ℝ) :
    Spec.rotAxis n θ 0 0 = Real.cos θ + (1 - Real.cos θ) * n 0 ^ 2 ∧
    Spec.rotAxis n θ 1 0 = (1 - Real.cos θ) * n 0 * n 1 + Real.sin θ * n 2 ∧
    Spec.rotAxis n θ 2 0 = (1 - Real.cos θ) * n 0 * n 2 - Real.sin θ * n 1 ∧
    Spec.rotAxis n θ 0 1 = (1 - Real.cos θ) * n 0 * n 1 - Real.sin θ * n 2 ∧
    Spec.rotAxis n θ 1 1 = Real.cos θ + (1 - Real.cos θ) * n 1 ^ 2 ∧
    Spec.rotAxis n θ 2 1 = (1 - Real.cos θ) * n 1 * n 2 + Real.sin θ * n 0 ∧
    Spec.rotAxis n θ 0 2 = (1 - Real.cos θ) * n 0 * n 2 + Real.sin θ * n 1 ∧
    Spec.rotAxis n θ 1 2 = (1 - Real.cos θ) * n 1 * n 2 - Real.sin θ * n 0 ∧
    Spec.rotAxis n θ 2 2 = Real.cos θ + (1 - Real.cos θ) * n 2 ^ 2 := by
  refine ⟨?_, ?_, ?_, ?_, ?_, ?_, ?_, ?_, ?_⟩ <;> simp [Spec.rotAxis, Spec.rodrigues] <;> ring

private theorem unit_le {n : Fin 3 → ℝ} (hn : Spec.IsUnit3 n) : ∀ i, |n i| ≤ 1 := by
  intro i
  unfold Spec.IsUnit3 at hn
  have h0 := sq_nonneg (n 0)
  have h1 := sq_nonneg (n 1)
  have h2 := sq_nonneg (n 2)
  have : n i ^ 2 ≤ 1 := by
    fin_cases i
    · show n 0 ^ 2 ≤ 1; linarith
    · show n 1 ^ 2 ≤ 1; linarith
    · show n 2 ^ 2 ≤ 1; linarith
  exact (sq_le_one_iff_abs_le_one _).1 this

theorem axisQuat_norm {n : Fin 3 → ℝ} (hn : Spec.IsUnit3 n) (θ : ℝ) : ‖Spec.axisQuat n θ‖ = 1 := by
  have h := hnorm_sq (Spec.axisQuat n θ)
  unfold Spec.IsUnit3 at hn
  have e : ‖Spec.axisQuat n θ‖ ^ 2 = 1 := by
    rw [h]
    show Real.cos (θ / 2) ^ 2 + (Real.sin (θ / 2) * n 0) ^ 2 + (Real.sin (θ / 2) * n 1) ^ 2 + (Real.sin (θ / 2) * n 2) ^ 2 = 1
    linear_combination Real.sin_sq_add_cos_sq (θ / 2) + Real.sin (θ / 2) ^ 2 * hn
  exact (pow_eq_one_iff_of_nonneg (norm_nonneg _) (by norm_num)).1 e

/-- The matrix of the quaternion is the one of Rodrigues' formula. -/
theorem axisQuat_hrot {n : Fin 3 → ℝ} (hn : Spec.IsUnit3 n) (θ : ℝ) (i j : Fin 3) : Spec.hrot (Spec.axisQuat n θ) i j = Spec.rotAxis n θ i.castSucc j.castSucc := by
  have hc : Real.cos θ = Real.cos (θ / 2) ^ 2 - Real.sin (θ / 2) ^ 2 := by
    have h2 := Real.cos_two_mul (θ / 2)
    rw [show 2 * (θ / 2) = θ by ring] at h2
    linarith [Real.sin_sq_add_cos_sq (θ / 2)]
  have hs : Real.sin θ = 2 * Real.sin (θ / 2) * Real.cos (θ / 2) := by
    have h2 := Real.sin_two_mul (θ / 2)
    rwa [show 2 * (θ / 2) = θ by ring] at h2
  have h1 := Real.sin_sq_add_cos_sq (θ / 2)
  obtain ⟨a, b, c, e, f, g, k, l, o⟩ := hrot_entries (Spec.axisQuat n θ)
  obtain ⟨r00, r10, r20, r01, r11, r21, r02, r12, r22⟩ := rodrigues_get n θ
  unfold Spec.IsUnit3 at hn
  rw [hc] at r00 r10 r20 r01 r11 r21 r02 r12 r22
  rw [hs] at r10 r20 r01 r21 r02 r12
  simp only [Spec.axisQuat] at a b c e f g k l o
  fin_cases i <;> fin_cases j
  · exact a.trans (Eq.trans (by linear_combination (n 0 * n 0) * h1 - Real.sin (θ / 2) ^ 2 * hn) r00.symm)
  · exact e.trans (Eq.trans (by linear_combination (n 0 * n 1) * h1) r01.symm)
  · exact g.trans (Eq.trans (by linear_combination (n 0 * n 2) * h1) r02.symm)
  · exact f.trans (Eq.trans (by linear_combination (n 0 * n 1) * h1) r10.symm)
  · exact b.trans (Eq.trans (by linear_combination (n 1 * n 1) * h1 - Real.sin (θ / 2) ^ 2 * hn) r11.symm)
  · exact l.trans (Eq.trans (by linear_combination (n 1 * n 2) * h1) r12.symm)
  · exact k.trans (Eq.trans (by linear_combination (n 0 * n 2) * h1) r20.symm)
  · exact o.trans (Eq.trans (by linear_combination (n 1 * n 2) * h1) r21.symm)
  · exact c.trans (Eq.trans (by linear_combination (n 2 * n 2) * h1 - Real.sin (θ / 2) ^ 2 * hn) r22.symm)

private theorem square_close [L : CMath (Fp F)] {σ α ε : ℝ} (hF : Spec.Usual F) (hP : Spec.Square L σ) (σ0 : 0 ≤ σ) (α0 : 0 ≤ α) (hε : ε = σ + α + F.u) (hs : ε ≤ 1 / 100)
    {a : Fp F} {n : ℝ} (f : a.Finite) (e : |a.val - n| ≤ α) (n1 : |n| ≤ 1) : FClose ε 2.01 1 (CMath.pow a ((1 : Fp F) + 1)) (n ^ 2) := by
  have u0 := F.u_pos
  have hd : |a.val ^ 2 - n ^ 2| ≤ 2.01 * α := by
    have b : |a.val + n| ≤ 2.01 := by
      have : |a.val + n| ≤ |a.val - n| + |2 * n| := by
        calc _ = |(a.val - n) + 2 * n| := by congr 1; ring
          _ ≤ _ := abs_add_le _ _
      rw [abs_mul, abs_of_pos (by norm_num : (0 : ℝ) < 2)] at this
      norm_num; linarith
    calc _ = |a.val + n| * |a.val - n| := by rw [← abs_mul]; congr 1; ring
      _ ≤ _ := mul_le_mul b e (abs_nonneg _) (by norm_num)
  have hb : |a.val| ≤ 2 := by
    have : |a.val| ≤ |a.val - n| + |n| := by simpa using abs_add_le (a.val - n) n
    linarith
  obtain ⟨pf, pe⟩ := hP a _ f hb (two_fin hF).1 (two_fin hF).2
  refine ⟨pf, ?_, ?_⟩
  · calc _ = |((L.pow a ((1 : Fp F) + 1)).val - a.val ^ 2) + (a.val ^ 2 - n ^ 2)| := by congr 1; ring
      _ ≤ _ := abs_add_le _ _
      _ ≤ _ := by norm_num at hd ⊢; linarith
  · rw [abs_of_nonneg (sq_nonneg _), ← sq_abs]
    exact pow_le_one₀ (abs_nonneg _) n1

/-- **C142** The previous content of the matrix does not matter. -/
theorem C142_overwrites [CMath (Fp F)] (m m' : Mat 4 4 (Fp F)) (θ : Fp F) (axis : Vec 3 (Fp F)) : m.rotate θ axis = m'.rotate θ axis := by
  apply Mat.ext
  intro i j
  obtain ⟨⟨a, b, c, d, e, f, g, h, k⟩, l⟩ := rotate_get m θ axis
  obtain ⟨⟨a', b', c', d', e', f', g', h', k'⟩, l'⟩ := rotate_get m' θ axis
  fin_cases i <;> fin_cases j
  · exact a.trans a'.symm
  · exact d.trans d'.symm
  · exact g.trans g'.symm
  · exact (l 0).2.1.trans (l' 0).2.1.symm
  · exact b.trans b'.symm
  · exact e.trans e'.symm
  · exact h.trans h'.symm
  · exact (l 1).2.1.trans (l' 1).2.1.symm
  · exact c.trans c'.symm
  · exact f.trans f'.symm
  · exact k.trans k'.symm
  · exact (l 2).2.1.trans (l' 2).2.1.symm
  · exact (l 0).1.trans (l' 0).1.symm
  · exact (l 1).1.trans (l' 1).1.symm
  · exact (l 2).1.trans (l' 2).1.symm
  · exact (l 0).2.2.trans (l' 0).2.2.symm

section
variable [L : CMath (Fp F)] {σ α : ℝ} {n : Fin 3 → ℝ} {θ : Fp F} {axis : Vec 3 (Fp F)} (hF : Spec.Usual F) (hT : Spec.Trig L σ) (hP : Spec.Square L σ) (hθ : θ.Finite)
  (hn : Spec.IsUnit3 n) (ha : Spec.NearAxis axis n α) (hs : σ + α + F.u ≤ 1 / 100)
include hF hT hP hθ hn ha hs

set_option maxHeartbeats 1000000 in
/-- **C142** For every angle and every axis that is a unit vector up to `α`, all entries of the matrix `rotate` gives are finite and within `18 ( σ + α + u )` of those of the rotation by the
angle about the axis; the last row and column are exactly those of the identity. -/
theorem C142_rotate (m : Mat 4 4 (Fp F)) :
    (∀ i j : Fin 3, ((m.rotate θ axis).get i.castSucc j.castSucc).Finite ∧
      |((m.rotate θ axis).get i.castSucc j.castSucc).val - Spec.rotAxis n θ.val i.castSucc j.castSucc| ≤ 18 * (σ + α + F.u)) ∧
    ∀ i : Fin 3, (m.rotate θ axis).get 3 i.castSucc = 0 ∧ (m.rotate θ axis).get i.castSucc 3 = 0 ∧ (m.rotate θ axis).get 3 3 = 1 := by
  obtain ⟨⟨g00, g10, g20, g01, g11, g21, g02, g12, g22⟩, gl⟩ := rotate_get m θ axis
  obtain ⟨r00, r10, r20, r01, r11, r21, r02, r12, r22⟩ := rodrigues_get n θ.val
  refine ⟨?_, gl⟩
  have u0 := F.u_pos
  obtain ⟨⟨sf, se⟩, cf, ce⟩ := hT θ hθ
  have σ0 : 0 ≤ σ := (abs_nonneg _).trans se
  have α0 : 0 ≤ α := (abs_nonneg _).trans (ha 0).2
  obtain ⟨ε, hε⟩ : ∃ ε, ε = σ + α + F.u := ⟨_, rfl⟩
  rw [← hε] at hs ⊢
  have hu : F.u ≤ ε := by linarith
  have n1 := unit_le hn
  have S : FClose ε 1 1 (CMath.sin θ) (Real.sin θ.val) := ⟨sf, by refine se.trans ?_; linarith, Real.abs_sin_le_one _⟩
  have C : FClose ε 1 1 (CMath.cos θ) (Real.cos θ.val) := ⟨cf, by refine ce.trans ?_; linarith, Real.abs_cos_le_one _⟩
  have A : ∀ i : Fin 3, FClose ε 1 1 axis[i] (n i) := fun i => ⟨(ha i).1, by refine (ha i).2.trans ?_; linarith, n1 i⟩
  obtain ⟨of, ov⟩ := Fp.one_fin (F := F) (Usual.pos hF)
  have O : FClose ε 0 1 (1 : Fp F) (1 : ℝ) := ⟨of, by rw [ov]; simp, by simp⟩
  have Q := FClose.sub hF hu hs (k' := 3.01) O C (by norm_num) (by norm_num) (by norm_num) (by norm_num) (by norm_num)
  have P : ∀ i j : Fin 3, FClose ε 11.26 (((1 + 1) * 1) * 1) (((1 : Fp F) - CMath.cos θ) * axis[i] * axis[j]) ((1 - Real.cos θ.val) * n i * n j) := by
    intro i j
    have h1 := FClose.mul hF hu hs (k' := 7.091) Q (A i) (by norm_num) (by norm_num) (by norm_num) (by norm_num) (by norm_num) (by norm_num) (by norm_num)
    exact FClose.mul hF hu hs (k' := 11.26) h1 (A j) (by norm_num) (by norm_num) (by norm_num) (by norm_num) (by norm_num) (by norm_num) (by norm_num)
  have R : ∀ i : Fin 3, FClose ε 3.04 (1 * 1) (CMath.sin θ * axis[i]) (Real.sin θ.val * n i) := fun i =>
    FClose.mul hF hu hs (k' := 3.04) S (A i) (by norm_num) (by norm_num) (by norm_num) (by norm_num) (by norm_num) (by norm_num) (by norm_num)
  have W : ∀ i : Fin 3, FClose ε 2.01 1 (CMath.pow axis[i] ((1 : Fp F) + 1)) (n i ^ 2) := fun i =>
    square_close hF hP σ0 α0 hε hs (ha i).1 (ha i).2 (n1 i)
  have G : ∀ i : Fin 3, FClose ε 18 (1 + (1 + 1) * 1) (CMath.cos θ + ((1 : Fp F) - CMath.cos θ) * CMath.pow axis[i] ((1 : Fp F) + 1)) (Real.cos θ.val + (1 - Real.cos θ.val) * n i ^ 2) := by
    intro i
    have h1 := FClose.mul hF hu hs (k' := 9.17) Q (W i) (by norm_num) (by norm_num) (by norm_num) (by norm_num) (by norm_num) (by norm_num) (by norm_num)
    exact FClose.add hF hu hs (k' := 18) C h1 (by norm_num) (by norm_num) (by norm_num) (by norm_num) (by norm_num)
  have X : ∀ i j k : Fin 3, FClose ε 18 (((1 + 1) * 1) * 1 + 1 * 1) (((1 : Fp F) - CMath.cos θ) * axis[i] * axis[j] + CMath.sin θ * axis[k]) ((1 - Real.cos θ.val) * n i * n j + Real.sin θ.val * n k) :=
    fun i j k => FClose.add hF hu hs (k' := 18) (P i j) (R k) (by norm_num) (by norm_num) (by norm_num) (by norm_num) (by norm_num)
  have Y : ∀ i j k : Fin 3, FClose ε 18 (((1 + 1) * 1) * 1 + 1 * 1) (((1 : Fp F) - CMath.cos θ) * axis[i] * axis[j] - CMath.sin θ * axis[k]) ((1 - Real.cos θ.val) * n i * n j - Real.sin θ.val * n k) :=
    fun i j k => FClose.sub hF hu hs (k' := 18) (P i j) (R k) (by norm_num) (by norm_num) (by norm_num) (by norm_num) (by norm_num)
  intro i j
  fin_cases i <;> fin_cases j
  · show ((m.rotate θ axis).get 0 0).Finite ∧ |((m.rotate θ axis).get 0 0).val - Spec.rotAxis n θ.val 0 0| ≤ _
    rw [g00, r00]; exact ⟨(G 0).1, (G 0).2.1⟩
  · show ((m.rotate θ axis).get 0 1).Finite ∧ |((m.rotate θ axis).get 0 1).val - Spec.rotAxis n θ.val 0 1| ≤ _
    rw [g01, r01]; exact ⟨(Y 0 1 2).1, (Y 0 1 2).2.1⟩
  · show ((m.rotate θ axis).get 0 2).Finite ∧ |((m.rotate θ axis).get 0 2).val - Spec.rotAxis n θ.val 0 2| ≤ _
    rw [g02, r02]; exact ⟨(X 0 2 1).1, (X 0 2 1).2.1⟩
  · show ((m.rotate θ axis).get 1 0).Finite ∧ |((m.rotate θ axis).get 1 0).val - Spec.rotAxis n θ.val 1 0| ≤ _
    rw [g10, r10]; exact ⟨(X 0 1 2).1, (X 0 1 2).2.1⟩
  · show ((m.rotate θ axis).get 1 1).Finite ∧ |((m.rotate θ axis).get 1 1).val - Spec.rotAxis n θ.val 1 1| ≤ _
    rw [g11, r11]; exact ⟨(G 1).1, (G 1).2.1⟩
  · show ((m.rotate θ axis).get 1 2).Finite ∧ |((m.rotate θ axis).get 1 2).val - Spec.rotAxis n θ.val 1 2| ≤ _
    rw [g12, r12]; exact ⟨(Y 1 2 0).1, (Y 1 2 0).2.1⟩
  · show ((m.rotate θ axis).get 2 0).Finite ∧ |((m.rotate θ axis).get 2 0).val - Spec.rotAxis n θ.val 2 0| ≤ _
    rw [g20, r20]; exact ⟨(Y 0 2 1).1, (Y 0 2 1).2.1⟩
  · show ((m.rotate θ axis).get 2 1).Finite ∧ |((m.rotate θ axis).get 2 1).val - Spec.rotAxis n θ.val 2 1| ≤ _
    rw [g21, r21]; exact ⟨(X 1 2 0).1, (X 1 2 0).2.1⟩
  · show ((m.rotate θ axis).get 2 2).Finite ∧ |((m.rotate θ axis).get 2 2).val - Spec.rotAxis n θ.val 2 2| ≤ _
    rw [g22, r22]; exact ⟨(G 2).1, (G 2).2.1⟩

/-- **C142** The unit quaternion read from the matrix `rotate` gives (`Quaternion( matrix )`) is the quaternion of the rotation about the axis, up to its sign and a bound that depends on how far
the angle is from a half turn. -/
theorem C142_quaternion (hD : Spec.Usual D) (hw : Spec.Wider F D) {sq : Fp F → Fp D} (hsq : Spec.SqrtFn sq) (cfg : Cfg) {eps : Fp D} (ef : eps.Finite)
    (e0 : 0 ≤ eps.val) (e8 : eps.val ≤ 1 / 8) (self : Quat (Fp F)) (m : Mat 4 4 (Fp F)) {δ : ℝ} (hδ : δ = 18 * (σ + α + F.u)) (hδ1 : δ ≤ 1 / 100)
    (hc : eps.val + Spec.traceErr F δ < 4 * Real.cos (θ.val / 2) ^ 2) (he : Spec.traceErr F δ ≤ Real.cos (θ.val / 2) ^ 2 / 2) :
    ∃ r, self.setMatrixFp sq cfg eps (m.rotate θ axis) = .ok r ∧
      (Spec.QClose r (Spec.axisQuat n θ.val) ((3 * δ + 36 * F.u) / Real.cos (θ.val / 2) ^ 2) ∨
        Spec.QClose r (-Spec.axisQuat n θ.val) ((3 * δ + 36 * F.u) / Real.cos (θ.val / 2) ^ 2)) := by
  obtain ⟨h, -⟩ := C142_rotate hF hT hP hθ hn ha hs m
  have σ0 : 0 ≤ σ := (abs_nonneg _).trans (hT θ hθ).1.2
  have α0 : 0 ≤ α := (abs_nonneg _).trans (ha 0).2
  have u0 := F.u_pos
  have h1 : ‖Spec.axisQuat n θ.val‖ = 1 := axisQuat_norm hn θ.val
  refine C141_recover hF hD hw hsq cfg ef e0 e8 self (by norm_num : 3 ≤ 4) (m.rotate θ axis) (Q := Spec.axisQuat n θ.val) h1 (by rw [hδ]; positivity) hδ1 ?_ hc he
  intro i j
  rw [hδ, axisQuat_hrot hn]
  exact h i j

end

/-! ## Exact cases, a correctly rounded library, and axes that come from `normalize` -/

/-- **C142** If the library returns sine 0 and cosine 1, the result has exactly the values of the identity matrix, for every axis of finite numbers. -/
theorem C142_identity [L : CMath (Fp F)] (hF : Spec.Usual F) {θ : Fp F} {axis : Vec 3 (Fp F)} (sf : (L.sin θ).Finite) (s0 : (L.sin θ).val = 0) (cf : (L.cos θ).Finite) (c1 : (L.cos θ).val = 1)
    (ha : ∀ i : Fin 3, axis[i].Finite ∧ (L.pow axis[i] ((1 : Fp F) + 1)).Finite) (m : Mat 4 4 (Fp F)) (i j : Fin 4) :
    ((m.rotate θ axis).get i j).Finite ∧ ((m.rotate θ axis).get i j).val = if i = j then 1 else 0 := by
  have h0 := Usual.pos hF
  have hm := one_le_max (F := F) h0
  obtain ⟨of, ov⟩ := Fp.one_fin (F := F) h0
  have Z : ∀ a b : Fp F, Fp.Is a 0 → b.Finite → Fp.Is (a * b) 0 := by
    intro a b ha hb
    obtain ⟨f, e⟩ := Fp.mul_fin h0 ha.1 hb (by rw [ha.2, zero_mul, abs_zero]; linarith)
    exact ⟨f, by rw [e, ha.2, zero_mul, rnd_zero]⟩
  have P : ∀ a b : Fp F, ∀ x, Fp.Is a x → Fp.Is b 0 → (x = 0 ∨ x = 1) → Fp.Is (a + b) x ∧ Fp.Is (a - b) x := by
    intro a b x ha hb hx
    have hx1 : |x| ≤ F.maxFinite := by rcases hx with rfl | rfl <;> simp <;> linarith
    have hr : F.rnd x = x := by
      rcases hx with rfl | rfl
      · exact rnd_zero
      · have hr : F.Rep 1 := by simpa using rep_pow (F := F) (e := 0) (by unfold emin; omega)
        exact hr.rnd_eq
    constructor
    · obtain ⟨f, e⟩ := Fp.add_fin h0 ha.1 hb.1 (by rw [ha.2, hb.2, add_zero]; exact hx1)
      exact ⟨f, by rw [e, ha.2, hb.2, add_zero, hr]⟩
    · obtain ⟨f, e⟩ := Fp.sub_fin h0 ha.1 hb.1 (by rw [ha.2, hb.2, sub_zero]; exact hx1)
      exact ⟨f, by rw [e, ha.2, hb.2, sub_zero, hr]⟩
  have Q : Fp.Is ((1 : Fp F) - CMath.cos θ) 0 := by
    obtain ⟨f, e⟩ := Fp.sub_fin h0 of cf (by rw [ov, c1]; simp; linarith)
    exact ⟨f, by rw [e, ov, c1, sub_self, rnd_zero]⟩
  have C : Fp.Is (CMath.cos θ : Fp F) 1 := ⟨cf, c1⟩
  have S : Fp.Is (CMath.sin θ : Fp F) 0 := ⟨sf, s0⟩
  have G : ∀ i : Fin 3, Fp.Is (CMath.cos θ + ((1 : Fp F) - CMath.cos θ) * CMath.pow axis[i] ((1 : Fp F) + 1)) 1 := fun i => (P _ _ 1 C (Z _ _ Q (ha i).2) (Or.inr rfl)).1
  have X : ∀ i j k : Fin 3, Fp.Is (((1 : Fp F) - CMath.cos θ) * axis[i] * axis[j] + CMath.sin θ * axis[k]) 0 ∧ Fp.Is (((1 : Fp F) - CMath.cos θ) * axis[i] * axis[j] - CMath.sin θ * axis[k]) 0 :=
    fun i j k => P _ _ 0 (Z _ _ (Z _ _ Q (ha i).1) (ha j).1) (Z _ _ S (ha k).1) (Or.inl rfl)
  have z : Fp.Is (0 : Fp F) 0 := ⟨Fp.finite_zero, Fp.val_zero⟩
  have o : Fp.Is (1 : Fp F) 1 := ⟨of, ov⟩
  obtain ⟨⟨g00, g10, g20, g01, g11, g21, g02, g12, g22⟩, gl⟩ := rotate_get m θ axis
  have key : ∀ {a b : Fp F} {x : ℝ}, a = b → Fp.Is b x → a.Finite ∧ a.val = x := by rintro a _ x rfl h; exact h
  fin_cases i <;> fin_cases j
  · exact key g00 (G 0)
  · exact key g01 (X 0 1 2).2
  · exact key g02 (X 0 2 1).1
  · exact key (gl 0).2.1 z
  · exact key g10 (X 0 1 2).1
  · exact key g11 (G 1)
  · exact key g12 (X 1 2 0).2
  · exact key (gl 1).2.1 z
  · exact key g20 (X 0 2 1).2
  · exact key g21 (X 1 2 0).1
  · exact key g22 (G 2)
  · exact key (gl 2).2.1 z
  · exact key (gl 0).1 z
  · exact key (gl 1).1 z
  · exact key (gl 2).1 z
  · exact key (gl 0).2.2 o

/-- **C142** A library that rounds correctly meets the requirements with `σ = 4 u`. -/
theorem C142_correctly_rounded (hF : Spec.Usual F) : Spec.Trig (inferInstance : CMath (Fp F)) (4 * F.u) ∧ Spec.Square (inferInstance : CMath (Fp F)) (4 * F.u) := by
  have u0 := F.u_pos
  have h0 := Usual.pos hF
  refine ⟨?_, ?_⟩
  · intro a ha
    have he : F.eta ≤ F.u := by
      rw [Format.eta_eq_tiny]; exact mul_le_of_le_one_right u0.le (tiny_le_one h0)
    obtain ⟨⟨f1, e1⟩, f2, e2⟩ := C134_correctly_rounded h0 a ha
    exact ⟨⟨f1, e1.trans (by linarith)⟩, f2, e2.trans (by linarith)⟩
  · intro a t fa ha ft ht
    have e : (CMath.pow a t : Fp F) = Fp.ofReal (a.val ^ 2) := by
      show Fp.ofReal (a.val ^ t.val) = _
      rw [ht, ← Real.rpow_natCast]; norm_num
    have hb : |a.val ^ 2| ≤ 4 := by
      rw [abs_pow]
      have := abs_nonneg a.val
      nlinarith
    obtain ⟨f, v⟩ := Fp.ofReal_fin (F := F) h0 (x := a.val ^ 2) (hb.trans (Usual.max hF (by have := Usual.u hF; linarith)))
    show (CMath.pow a t : Fp F).Finite ∧ |(CMath.pow a t : Fp F).val - _| ≤ _
    rw [e]
    refine ⟨f, ?_⟩
    rw [v, mul_comm]
    exact rnd_err_le hb ((tiny_le_one h0).trans (by norm_num))

private theorem norm_const {u e : ℝ} (u0 : 0 < u) (u1 : u ≤ 1 / 1024) (he : e = (1 + 2 * Spec.gamma u 3) * (1 + u) - 1) : 0 ≤ e ∧ e ≤ 1 / 2 ∧ (1 + u) ^ 2 / (1 - e) - 1 ≤ 10 * u ∧ 0 ≤ (1 + u) ^ 2 / (1 - e) - 1 := by
  have g0 : 0 ≤ Spec.gamma u 3 := by unfold Spec.gamma; exact div_nonneg (by positivity) (by push_cast; linarith)
  have g1 : Spec.gamma u 3 ≤ 3.01 * u := by
    unfold Spec.gamma
    rw [div_le_iff₀ (by push_cast; linarith)]
    push_cast; nlinarith
  have e0 : 0 ≤ e := by rw [he]; nlinarith
  have e1 : e ≤ 7.03 * u := by rw [he]; nlinarith
  have d : 0 < 1 - e := by linarith
  refine ⟨e0, by linarith, ?_, ?_⟩
  · rw [sub_le_iff_le_add, div_le_iff₀ d]; nlinarith
  · rw [sub_nonneg, le_div_iff₀ d]; nlinarith

/-- **C142** An axis that is the result of `normalize` is the direction of the vector up to `11 u`, for every vector `v` whose length neither overflows nor underflows. -/
theorem C142_normalize (hF : Spec.Usual F) (cfg : Cfg) (v : Vec 3 (Fp F)) (hv : ∀ i : Fin 3, v[i].Finite) (hlo : (2 : ℝ) ^ F.emin ≤ ∑ i : Fin 3, v[i].val ^ 2)
    (hhi : ∑ i : Fin 3, v[i].val ^ 2 + 3 * F.eta ≤ (1 - 3 * F.u) * F.maxFinite) :
    ∃ w len, v.normalize cfg = .ok (w, len) ∧ Spec.IsUnit3 (fun i => v[i].val / Spec.flen v) ∧ Spec.NearAxis w (fun i => v[i].val / Spec.flen v) (11 * F.u) := by
  have u0 := F.u_pos
  have u1 := Usual.u hF
  obtain ⟨e0, e1, e2, e3⟩ := norm_const (e := Spec.flenErr F 3) u0 u1 rfl
  obtain ⟨w, len, h1, -, h2⟩ := C109_normalize hF.range (by have := hF.digits; have := hF.range; omega) cfg v (by push_cast; linarith) e1 hv hlo (by push_cast; exact hhi)
  have hpos : 0 < ∑ i : Fin 3, v[i].val ^ 2 := lt_of_lt_of_le (by positivity) hlo
  have hf : Spec.flen v ^ 2 = ∑ i : Fin 3, v[i].val ^ 2 := Real.sq_sqrt hpos.le
  have hf0 : 0 < Spec.flen v := Real.sqrt_pos.2 hpos
  have hU : Spec.IsUnit3 (fun i => v[i].val / Spec.flen v) := by
    unfold Spec.IsUnit3
    rw [Fin.sum_univ_three] at hf
    simp only [div_pow]
    rw [← add_div, ← add_div, ← hf]
    exact div_self (by positivity)
  refine ⟨w, len, h1, hU, fun i => ⟨(h2 i).1, (h2 i).2.trans ?_⟩⟩
  have a := unit_le hU i
  have he : F.eta ≤ F.u := by
    rw [Format.eta_eq_tiny]; exact mul_le_of_le_one_right u0.le (tiny_le_one (Usual.pos hF))
  have := mul_le_mul e2 a (abs_nonneg _) (by linarith)
  linarith

/-- **C142** So with a library that rounds correctly, `rotate( angle, normalize( v ) )` is within `288 u` of the rotation by the angle about the direction of `v`. -/
theorem C142_normalized (hF : Spec.Usual F) (h16 : 16 * F.u ≤ 1 / 100) {θ : Fp F} (hθ : θ.Finite) (cfg : Cfg)
    (v : Vec 3 (Fp F)) (hv : ∀ i : Fin 3, v[i].Finite) (hlo : (2 : ℝ) ^ F.emin ≤ ∑ i : Fin 3, v[i].val ^ 2)
    (hhi : ∑ i : Fin 3, v[i].val ^ 2 + 3 * F.eta ≤ (1 - 3 * F.u) * F.maxFinite) (m : Mat 4 4 (Fp F)) :
    ∃ w len, v.normalize cfg = .ok (w, len) ∧ (∀ i j : Fin 3, ((m.rotate θ w).get i.castSucc j.castSucc).Finite ∧
      |((m.rotate θ w).get i.castSucc j.castSucc).val - Spec.rotAxis (fun i => v[i].val / Spec.flen v) θ.val i.castSucc j.castSucc| ≤ 288 * F.u) ∧
      ∀ i : Fin 3, (m.rotate θ w).get 3 i.castSucc = 0 ∧ (m.rotate θ w).get i.castSucc 3 = 0 ∧ (m.rotate θ w).get 3 3 = 1 := by
  obtain ⟨w, len, h1, h2, h3⟩ := C142_normalize hF cfg v hv hlo hhi
  obtain ⟨hT, hP⟩ := C142_correctly_rounded hF
  obtain ⟨g, l⟩ := C142_rotate hF hT hP hθ h2 h3 (by linarith) m
  exact ⟨w, len, h1, fun i j => ⟨(g i j).1, (g i j).2.trans_eq (by ring)⟩, l⟩

/-! ## Examples -/

/-- `C142_normalized`, `C142_rotate`: a `float` rotation about the vector `( 1, 1, 1 )`. -/
example (cfg : Cfg) (m : Mat 4 4 (Fp single)) : ∃ w len, Vec.normalize cfg (#v[1, 1, 1] : Vec 3 (Fp single)) = .ok (w, len) ∧ ∀ i j : Fin 3,
    |((m.rotate (1 : Fp single) w).get i.castSucc j.castSucc).val - Spec.rotAxis (fun _ => 1 / Real.sqrt 3) 1 i.castSucc j.castSucc| ≤ 1 / 50000 := by
  obtain ⟨of, ov⟩ := Fp.one_fin (F := single) (by norm_num)
  have hu : single.u = 1 / 2 ^ 24 := by unfold u; norm_num
  have hv : ∀ i : Fin 3, (#v[1, 1, 1] : Vec 3 (Fp single))[i] = 1 := by intro i; fin_cases i <;> rfl
  have hsum : ∑ i : Fin 3, (#v[1, 1, 1] : Vec 3 (Fp single))[i].val ^ 2 = 3 := by
    rw [Fin.sum_univ_three, hv, hv, hv, ov]; norm_num
  have hflen : Spec.flen (#v[1, 1, 1] : Vec 3 (Fp single)) = Real.sqrt 3 := by unfold Spec.flen; rw [hsum]
  have he : single.eta ≤ single.u := by
    rw [Format.eta_eq_tiny]; exact mul_le_of_le_one_right single.u_pos.le (tiny_le_one (by norm_num))
  have hmax : (1000 : ℝ) ≤ single.maxFinite := Usual.max usual_single (by rw [hu]; norm_num)
  obtain ⟨w, len, h1, h2, -⟩ := C142_normalized usual_single (by rw [hu]; norm_num) (θ := (1 : Fp single)) of cfg #v[1, 1, 1] (fun i => by rw [hv]; exact of)
    (by rw [hsum]; exact (tiny_le_one (F := single) (by norm_num)).trans (by norm_num)) (by rw [hsum]; rw [hu] at he ⊢; nlinarith) m
  refine ⟨w, len, h1, fun i j => ?_⟩
  have := (h2 i j).2
  simp only [hflen, hv, ov] at this
  rw [hu] at this
  exact this.trans (by norm_num)

/-- `C142_quaternion`: a rotation by one radian about the x axis, with the threshold `1e-5` of the code. -/
example (cfg : Cfg) (self : Quat (Fp single)) (m : Mat 4 4 (Fp single)) :
    ∃ r E, self.setMatrixFp (fun t => (CMath.sqrt (Fp.convert double t) : Fp double)) cfg (.round false (1 / 100000)) (m.rotate (1 : Fp single) #v[1, 0, 0]) = .ok r ∧ E ≤ 1 / 10000 ∧
      (Spec.QClose r (Spec.axisQuat ![1, 0, 0] 1) E ∨ Spec.QClose r (-Spec.axisQuat ![1, 0, 0] 1) E) := by
  obtain ⟨of, ov⟩ := Fp.one_fin (F := single) (by norm_num)
  have hu : single.u = 1 / 2 ^ 24 := by unfold u; norm_num
  obtain ⟨ef, ev⟩ := Fp.round_signed (F := double) (x := 1 / 100000) (s := false) (by norm_num) (by intro _; simp) (by
    have := one_le_max (F := double) (by norm_num)
    rw [abs_of_pos (by norm_num)]; linarith)
  rw [abs_of_pos (by norm_num)] at ef ev
  have ee := rnd_err_le (F := double) (x := 1 / 100000) (X := 1) (by rw [abs_of_pos (by norm_num)]; norm_num) (tiny_le_one (by norm_num))
  rw [← ev] at ee
  have du : double.u ≤ 1 / 2 ^ 24 := by rw [← hu]; exact u_le (by norm_num)
  obtain ⟨ee1, ee2⟩ := abs_le.1 ee
  obtain ⟨hT, hP⟩ := C142_correctly_rounded usual_single
  have hc : 3 / 4 ≤ Real.cos (1 / 2) ^ 2 := by
    have := Real.one_sub_sq_div_two_le_cos (x := 1 / 2)
    nlinarith
  have hn : Spec.IsUnit3 ![1, 0, 0] := by simp [Spec.IsUnit3]
  have ha : Spec.NearAxis (#v[1, 0, 0] : Vec 3 (Fp single)) ![1, 0, 0] 0 := by
    intro i
    fin_cases i
    · exact ⟨of, by show |(1 : Fp single).val - 1| ≤ 0; rw [ov]; simp⟩
    · exact ⟨Fp.finite_zero, by show |(0 : Fp single).val - 0| ≤ 0; rw [Fp.val_zero]; simp⟩
    · exact ⟨Fp.finite_zero, by show |(0 : Fp single).val - 0| ≤ 0; rw [Fp.val_zero]; simp⟩
  obtain ⟨r, h1, h2⟩ := C142_quaternion usual_single hT hP of hn ha (by rw [hu]; norm_num) usual_double wider_single (C141_sqrt usual_single usual_double wider_single).1 cfg ef
    (by linarith) (by linarith) self m (δ := 18 * (4 * single.u + 0 + single.u)) rfl (by rw [hu]; norm_num) (by rw [ov]; unfold Spec.traceErr; rw [hu]; linarith)
    (by rw [ov]; unfold Spec.traceErr; rw [hu]; linarith)
  rw [ov] at h2
  refine ⟨r, _, h1, ?_, h2⟩
  rw [hu, div_le_iff₀ (by linarith)]
  linarith

/-- `C142_identity`: the angle 0 with a library that rounds correctly. -/
example (axis : Vec 3 (Fp single)) (ha : ∀ i : Fin 3, axis[i].Finite ∧ |axis[i].val| ≤ 2) (m : Mat 4 4 (Fp single)) (i j : Fin 4) :
    ((m.rotate 0 axis).get i j).val = if i = j then 1 else 0 := by
  have h0 : 0 < single.emax := by norm_num
  have r1 : single.rnd 1 = 1 := by
    have hr : single.Rep 1 := by simpa using rep_pow (F := single) (e := 0) (by unfold emin; omega)
    exact hr.rnd_eq
  obtain ⟨sf, sv⟩ := Fp.ofReal_fin (F := single) h0 (x := 0) (by simp; exact maxFinite_pos.le)
  obtain ⟨cf, cv⟩ := Fp.ofReal_fin (F := single) h0 (x := 1) (by simp; exact one_le_max h0)
  have es : (CMath.sin (0 : Fp single)) = Fp.ofReal 0 := by show Fp.ofReal (Real.sin (0 : Fp single).val) = _; rw [Fp.val_zero, Real.sin_zero]
  have ec : (CMath.cos (0 : Fp single)) = Fp.ofReal 1 := by show Fp.ofReal (Real.cos (0 : Fp single).val) = _; rw [Fp.val_zero, Real.cos_zero]
  obtain ⟨tf, tv⟩ := two_fin usual_single
  exact (C142_identity usual_single (θ := 0) (axis := axis) (by rw [es]; exact sf) (by rw [es, sv, rnd_zero]) (by rw [ec]; exact cf) (by rw [ec, cv, r1])
    (fun i => ⟨(ha i).1, ((C142_correctly_rounded usual_single).2 _ _ (ha i).1 (ha i).2 tf tv).1⟩) m i j).2

end Vmml
