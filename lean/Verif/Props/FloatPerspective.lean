import Verif.Props.FloatBuilders
import Verif.Props.FloatDct
import Verif.Props.FloatEndToEnd
import Verif.Props.Frustum
import Verif.Props.Constants

/-!
# C148: `set_perspective` in IEEE 754 arithmetic

The top of the frustum is half the tangent of half the angle. The argument of the tangent is computed with the literals `0.5`, `M_PI` and `180.0`, so it carries the
errors of three operations and of the constant; near 90 degrees the tangent magnifies them by the reciprocal of the cosine.
-/

namespace Vmml
open Format Real Const
variable {F D : Format}

/-! ## Specification -/

/-- A library tangent of relative accuracy `τ` on the normal numbers below a right angle whose tangent is not beyond the largest number. -/
def Spec.TanLib (tan : Fp D → Fp D) (τ : ℝ) : Prop :=
  ∀ a : Fp D, a.Finite → (2 : ℝ) ^ D.emin ≤ a.val → a.val < Real.pi / 2 → Real.tan a.val ≤ D.maxFinite →
    (tan a).Finite ∧ |(tan a).val - Real.tan a.val| ≤ τ * Real.tan a.val

/-- Half the vertical angle, in radians. -/
noncomputable def Spec.halfAngle (fov : ℝ) : ℝ := fov / 2 * Real.pi / 180

/-- The computed argument of the tangent: `0.5 * fov * M_PI / 180.0`, each operation rounded. -/
noncomputable def Spec.arg (D : Format) (fov : ℝ) : ℝ := D.rnd (D.rnd (D.rnd (1 / 2 * fov) * D.rnd mPi) / 180)

/-- The relative error of the top of the frustum. -/
noncomputable def Spec.topErr (F D : Format) (τ fov : ℝ) : ℝ := 16 * D.u / Real.cos (Spec.halfAngle fov) + 2 * (τ + D.u + F.u)

/-! ## The tangent of a perturbed angle -/

private theorem tan_rel {θ θ' δ : ℝ} (h0 : 0 < θ) (h1 : θ < π / 2) (hδ : 4 * δ ≤ cos θ) (hd : |θ' - θ| ≤ δ * θ) :
    0 < θ' ∧ θ' < π / 2 ∧ |tan θ' - tan θ| ≤ π * δ / cos θ * tan θ := by
  have hπ := Real.pi_lt_d2
  have hπ0 := Real.pi_pos
  have hc : 0 < cos θ := Real.cos_pos_of_mem_Ioo ⟨by linarith, h1⟩
  have hc1 : cos θ ≤ 1 := Real.cos_le_one _
  have hδ0 : 0 ≤ δ := by
    have := (abs_nonneg _).trans hd
    exact nonneg_of_mul_nonneg_left this h0
  have hsmall : δ * θ ≤ 2 * δ := by nlinarith
  obtain ⟨d1, d2⟩ := abs_le.1 hd
  have p0 : 0 < θ' := by nlinarith
  have hcc : cos θ ≤ π / 2 - θ := by
    rw [← Real.sin_pi_div_two_sub]; exact Real.sin_le (by linarith)
  have p1 : θ' < π / 2 := by linarith
  have hcl := (abs_le.1 (Real.abs_cos_sub_cos_le θ' θ)).1
  have hc' : cos θ / 2 ≤ cos θ' := by linarith
  have hc'0 : 0 < cos θ' := by linarith
  refine ⟨p0, p1, ?_⟩
  have e : tan θ' - tan θ = sin (θ' - θ) / (cos θ' * cos θ) := by
    rw [Real.tan_eq_sin_div_cos, Real.tan_eq_sin_div_cos, Real.sin_sub]; field_simp
  have hs : |sin (θ' - θ)| ≤ δ * θ := by
    have := Real.abs_sin_sub_sin_le (θ' - θ) 0
    simp only [Real.sin_zero, sub_zero] at this
    exact this.trans hd
  have hj : 2 * θ ≤ π * sin θ := by
    have := Real.mul_le_sin h0.le h1.le
    calc 2 * θ = π * (2 / π * θ) := by field_simp
      _ ≤ _ := by gcongr
  have hsin : 0 < sin θ := Real.sin_pos_of_pos_of_lt_pi h0 (by linarith)
  rw [e, abs_div, abs_of_pos (mul_pos hc'0 hc), div_le_iff₀ (mul_pos hc'0 hc), Real.tan_eq_sin_div_cos]
  refine hs.trans ?_
  have e2 : π * δ / cos θ * (sin θ / cos θ) * (cos θ' * cos θ) = δ * (π * sin θ) * (cos θ' / cos θ) := by field_simp
  rw [e2]
  have h3 : 1 / 2 ≤ cos θ' / cos θ := by rw [le_div_iff₀ hc]; linarith
  calc δ * θ = δ * (2 * θ) * (1 / 2) := by ring
    _ ≤ δ * (π * sin θ) * (cos θ' / cos θ) := by gcongr

/-! ## The argument of the tangent -/

private theorem arg_final {v X A Q B C : ℝ} (hv0 : 0 < v) (hv : v ≤ 1 / 1024) (hX : 0 < X) (aL : X / 2 * (1 - v) ≤ A) (aU : A ≤ X / 2 * (1 + v))
    (qL : π * (1 - 8 / 7 * v) ≤ Q) (qU : Q ≤ π * (1 + 8 / 7 * v)) (bL : A * Q * (1 - v) ≤ B) (bU : B ≤ A * Q * (1 + v))
    (cL : B / 180 * (1 - v) ≤ C) (cU : C ≤ B / 180 * (1 + v)) : |C - Spec.halfAngle X| ≤ 5 * v * Spec.halfAngle X := by
  have hπ := Real.pi_pos
  have e : Spec.halfAngle X = X / 2 * π / 180 := rfl
  have hθ : 0 < X / 2 * π / 180 := by positivity
  have hA0 : 0 ≤ A := le_trans (by nlinarith) aL
  have hQ0 : 0 ≤ Q := le_trans (by nlinarith) qL
  have p1 : A * Q ≤ X / 2 * (1 + v) * (π * (1 + 8 / 7 * v)) := mul_le_mul aU qU hQ0 (by positivity)
  have p2 : X / 2 * (1 - v) * (π * (1 - 8 / 7 * v)) ≤ A * Q := mul_le_mul aL qL (by nlinarith) hA0
  have U : C ≤ X / 2 * π / 180 * ((1 + v) ^ 3 * (1 + 8 / 7 * v)) := by
    calc C ≤ B / 180 * (1 + v) := cU
      _ ≤ A * Q * (1 + v) / 180 * (1 + v) := by gcongr
      _ ≤ X / 2 * (1 + v) * (π * (1 + 8 / 7 * v)) * (1 + v) / 180 * (1 + v) := by gcongr
      _ = _ := by ring
  have h1v : 0 ≤ 1 - v := by linarith
  have L : X / 2 * π / 180 * ((1 - v) ^ 3 * (1 - 8 / 7 * v)) ≤ C := by
    calc X / 2 * π / 180 * ((1 - v) ^ 3 * (1 - 8 / 7 * v)) = X / 2 * (1 - v) * (π * (1 - 8 / 7 * v)) * (1 - v) / 180 * (1 - v) := by ring
      _ ≤ A * Q * (1 - v) / 180 * (1 - v) := by gcongr
      _ ≤ B / 180 * (1 - v) := by gcongr
      _ ≤ C := cL
  have pU : (1 + v) ^ 3 * (1 + 8 / 7 * v) ≤ 1 + 5 * v := by nlinarith [mul_pos hv0 hv0, mul_pos (mul_pos hv0 hv0) hv0, mul_pos (mul_pos (mul_pos hv0 hv0) hv0) hv0, mul_le_mul_of_nonneg_left hv hv0.le, mul_le_mul_of_nonneg_left hv (mul_pos hv0 hv0).le, mul_le_mul_of_nonneg_left hv (mul_pos (mul_pos hv0 hv0) hv0).le]
  have pL : 1 - 5 * v ≤ (1 - v) ^ 3 * (1 - 8 / 7 * v) := by nlinarith [mul_pos hv0 hv0, mul_pos (mul_pos hv0 hv0) hv0, mul_pos (mul_pos (mul_pos hv0 hv0) hv0) hv0, mul_le_mul_of_nonneg_left hv hv0.le, mul_le_mul_of_nonneg_left hv (mul_pos hv0 hv0).le, mul_le_mul_of_nonneg_left hv (mul_pos (mul_pos hv0 hv0) hv0).le]
  have U' := mul_le_mul_of_nonneg_left pU hθ.le
  have L' := mul_le_mul_of_nonneg_left pL hθ.le
  rw [e, abs_le]
  constructor <;> linarith

set_option maxHeartbeats 1000000 in
/-- `0.5 * fov * M_PI / 180.0`. -/
private theorem arg_err (hD : Spec.Usual D) (h62 : D.p ≤ 62) {x : Fp D} (hx : x.Finite) (h0 : (2 : ℝ) ^ (D.emin + 8) ≤ x.val) (h1 : x.val ≤ 180) :
    ∃ a, a = Fp.lit D (1 / 2) * x * Fp.lit D mPi / Fp.lit D 180 ∧ a.Finite ∧ a.val = Spec.arg D x.val ∧
      |a.val - Spec.halfAngle x.val| ≤ 5 * D.u * Spec.halfAngle x.val := by
  have hu0 := u_pos (F := D)
  have hu := Usual.u hD
  have he : 0 < D.emax := Usual.pos hD
  have hu20 : (1e-19 : ℝ) ≤ D.u := by
    unfold u
    calc (1e-19 : ℝ) ≤ (2 : ℝ)⁻¹ ^ 63 := by norm_num
      _ ≤ _ := pow_le_pow_of_le_one (by norm_num) (by norm_num) (by omega)
  have big : (1024 : ℝ) ≤ D.maxFinite := by
    refine le_trans ?_ (pow_emax_le (F := D))
    calc (1024 : ℝ) = (2 : ℝ) ^ (10 : Int) := by norm_num
      _ ≤ _ := zpow_le_zpow_right₀ (by norm_num) (by have := hD.digits; have := hD.range; omega)
  obtain ⟨E, hE⟩ : ∃ E, E = (2 : ℝ) ^ D.emin := ⟨_, rfl⟩
  have hE0 : 0 < E := by rw [hE]; positivity
  have hE1 : E ≤ 1 := by rw [hE]; exact zpow_le_one_of_nonpos₀ (by norm_num) (by unfold emin; omega)
  have h8 : 256 * E ≤ x.val := by
    rw [hE]; rw [zpow_add₀ (by norm_num)] at h0
    calc 256 * (2 : ℝ) ^ D.emin = (2 : ℝ) ^ D.emin * 2 ^ (8 : Int) := by norm_num; ring
      _ ≤ _ := h0
  have hmpi : |mPi - Real.pi| < 1e-20 := C106_constants.1
  have mpi1 : 3 ≤ mPi ∧ mPi ≤ 63 / 20 := by unfold mPi; norm_num
  have hπ := Real.pi_lt_d2
  have hπ3 := Real.pi_gt_three
  obtain ⟨pi1, pi2⟩ := Fp.ofReal_fin (F := D) (x := mPi) he (by rw [abs_of_pos (by linarith [mpi1.1])]; linarith [mpi1.2])
  have piE : |D.rnd mPi - Real.pi| ≤ D.u * Real.pi + 2 / 5 * D.u := by
    have a1 := rnd_err_normal (F := D) (x := mPi) (by rw [abs_of_pos (by linarith [mpi1.1]), ← hE]; linarith [mpi1.1])
    rw [abs_of_pos (by linarith [mpi1.1] : 0 < mPi)] at a1
    have a3 := abs_add_le (D.rnd mPi - mPi) (mPi - Real.pi)
    rw [sub_add_sub_cancel] at a3
    have a4 := (abs_lt.1 hmpi).2
    have a5 : D.u * mPi ≤ D.u * (Real.pi + 1e-20) := mul_le_mul_of_nonneg_left (by linarith) hu0.le
    have a6 : D.u * (1e-20 : ℝ) ≤ 1e-20 := by nlinarith
    norm_num at a4 a5 a6 hu20 hmpi ⊢
    linarith only [a1, a3, a4, a5, a6, hu20, hmpi]
  obtain ⟨t1, t2⟩ := Quant.ofReal_int (F := D) hD.range (k := 180) (by
    rw [abs_of_pos (by norm_num)]
    calc (180 : Int) ≤ 2 ^ 8 := by norm_num
      _ ≤ _ := pow_le_pow_right₀ (by norm_num) (by have := hD.digits; omega))
  have t1' : (Fp.lit D 180).Finite := by simpa [Fp.lit] using t1
  have t2' : (Fp.lit D 180).val = 180 := by simpa [Fp.lit] using t2
  have hr := rep_half (F := D) (by have := hD.digits; have := hD.range; omega)
  obtain ⟨g1, g2⟩ := Fp.ofReal_fin (F := D) (x := 1 / 2) he (by rw [abs_of_pos (by norm_num)]; linarith)
  rw [hr.rnd_eq] at g2
  obtain ⟨X, hX⟩ : ∃ X, X = x.val := ⟨_, rfl⟩
  rw [← hX] at h8 h1
  have hX0 : 0 < X := by linarith
  -- half the angle in degrees
  obtain ⟨a1, a2⟩ := Fp.mul_fin he (a := Fp.lit D (1 / 2)) (b := x) g1 hx (by
    rw [show (Fp.lit D (1 / 2)).val = 1 / 2 from g2, ← hX, abs_of_pos (by linarith)]; linarith)
  rw [show (Fp.lit D (1 / 2)).val = 1 / 2 from g2, ← hX] at a2
  have aE := rnd_err_normal (F := D) (x := 1 / 2 * X) (by rw [← hE, abs_of_pos (by linarith)]; linarith)
  rw [abs_of_pos (by linarith : (0 : ℝ) < 1 / 2 * X), ← a2] at aE
  obtain ⟨A, hA⟩ : ∃ A, A = (Fp.lit D (1 / 2) * x).val := ⟨_, rfl⟩
  rw [← hA] at aE
  obtain ⟨aE1, aE2⟩ := abs_le.1 aE
  have hA0 : 127 / 256 * X ≤ A := by nlinarith
  have hA1 : A ≤ 129 / 256 * X := by nlinarith
  -- times π
  obtain ⟨Q, hQ⟩ : ∃ Q, Q = D.rnd mPi := ⟨_, rfl⟩
  rw [← hQ] at piE
  have q2 : (Fp.lit D mPi).val = Q := by rw [hQ]; exact pi2
  obtain ⟨qE1, qE2⟩ := abs_le.1 piE
  have hQ0 : 3 ≤ Q := by nlinarith [Real.pi_gt_d2]
  have hQ1 : Q ≤ 4 := by nlinarith
  have hAQ : 7 / 5 * X ≤ A * Q := by nlinarith
  have hAQ1 : A * Q ≤ 400 := by nlinarith
  obtain ⟨b1, b2⟩ := Fp.mul_fin he (b := Fp.lit D mPi) a1 pi1 (by rw [← hA, q2, abs_of_pos (by linarith)]; linarith)
  rw [← hA, q2] at b2
  have bE := rnd_err_normal (F := D) (x := A * Q) (by rw [← hE, abs_of_pos (by linarith)]; linarith)
  rw [abs_of_pos (by linarith : (0 : ℝ) < A * Q), ← b2] at bE
  obtain ⟨B, hB⟩ : ∃ B, B = (Fp.lit D (1 / 2) * x * Fp.lit D mPi).val := ⟨_, rfl⟩
  rw [← hB] at bE
  obtain ⟨bE1, bE2⟩ := abs_le.1 bE
  have hB0 : 1023 / 1024 * (A * Q) ≤ B := by nlinarith
  have hB1 : B ≤ 1025 / 1024 * (A * Q) := by nlinarith
  -- divided by 180
  obtain ⟨c1, c2⟩ := Fp.div_fin he (b := Fp.lit D 180) b1 t1' (by rw [t2']; norm_num) (by
    rw [← hB, t2', abs_of_pos (by linarith : (0 : ℝ) < B / 180)]; linarith)
  rw [← hB, t2'] at c2
  have cE := rnd_err_normal (F := D) (x := B / 180) (by
    rw [← hE, abs_of_pos (by linarith)]
    linarith)
  rw [abs_of_pos (by linarith : (0 : ℝ) < B / 180), ← c2] at cE
  obtain ⟨cE1, cE2⟩ := abs_le.1 cE
  refine ⟨_, rfl, c1, ?_, ?_⟩
  · rw [c2, hB, b2, hA, a2, hQ, hX]; rfl
  rw [← hX]
  generalize (Fp.lit D (1 / 2) * x * Fp.lit D mPi / Fp.lit D 180).val = C at *
  have qU : Q ≤ π * (1 + 8 / 7 * D.u) := by linarith [mul_le_mul_of_nonneg_left hπ3.le hu0.le]
  have qL : π * (1 - 8 / 7 * D.u) ≤ Q := by linarith [mul_le_mul_of_nonneg_left hπ3.le hu0.le]
  have aU : A ≤ X / 2 * (1 + D.u) := by linarith
  have aL : X / 2 * (1 - D.u) ≤ A := by linarith
  exact arg_final (B := B) hu0 hu hX0 aL aU qL qU (by linarith) (by linarith) (by linarith) (by linarith)

/-! ## The theorems -/

private theorem top_final {T V W U κ τ d f : ℝ} (hT : 0 < T) (hκ0 : 0 ≤ κ) (hκ : κ ≤ 2 / 5) (hτ0 : 0 ≤ τ) (hτ : τ ≤ 1 / 1024) (hd0 : 0 ≤ d) (hd : d ≤ 1 / 1024) (hf0 : 0 ≤ f)
    (hf : f ≤ 1 / 1024) (hU : |U - 2 * T| ≤ κ * (2 * T)) (hV : |V - U| ≤ τ * U) (hW : |W - V / 2| ≤ d * (V / 2)) :
    0 < W ∧ W ≤ 3 / 2 * T ∧ |W - T| + f * W ≤ (κ + 2 * (τ + d + f)) * T := by
  obtain ⟨u1, u2⟩ := abs_le.1 hU
  obtain ⟨v1, v2⟩ := abs_le.1 hV
  obtain ⟨w1, w2⟩ := abs_le.1 hW
  have hκT : κ * T ≤ 2 / 5 * T := mul_le_mul_of_nonneg_right hκ hT.le
  have hU0 : 0 < U := by linarith
  have hU1 : U ≤ 14 / 5 * T := by linarith
  have hτU : τ * U ≤ 1 / 1024 * U := mul_le_mul_of_nonneg_right hτ hU0.le
  have hV0 : 0 < V := by linarith
  have hV1 : V ≤ 1025 / 1024 * U := by linarith
  have hdV : d * (V / 2) ≤ 1 / 1024 * (V / 2) := mul_le_mul_of_nonneg_right hd (by linarith)
  have hW0 : 0 < W := by linarith
  have hW1 : W ≤ 3 / 2 * T := by linarith
  refine ⟨hW0, hW1, ?_⟩
  have t1 : τ * U ≤ τ * (14 / 5 * T) := mul_le_mul_of_nonneg_left hU1 hτ0
  have t2 : d * (V / 2) ≤ d * (3 / 2 * T) := mul_le_mul_of_nonneg_left (by linarith) hd0
  have t3 : f * W ≤ f * (3 / 2 * T) := mul_le_mul_of_nonneg_left hW1 hf0
  have n1 := mul_nonneg hτ0 hT.le
  have n2 := mul_nonneg hd0 hT.le
  have n3 := mul_nonneg hf0 hT.le
  have hWT : |W - T| ≤ κ * T + τ * (14 / 10 * T) + d * (3 / 2 * T) := by
    rw [abs_le]; constructor <;> linarith
  linarith

set_option maxHeartbeats 1000000 in
private theorem top_core (hF : Spec.Usual F) (hp : F.p ≤ D.p) (he : F.emax ≤ D.emax) (hD : Spec.Usual D) (h62 : D.p ≤ 62) {tan : Fp D → Fp D} {τ : ℝ} (hτ0 : 0 ≤ τ) (hτ : τ ≤ 1 / 1024)
    (htan : Spec.TanLib tan τ) (f : Frustum (Fp F)) (fov aspect n fa : Fp F) (hf : fov.Finite) (h0 : (2 : ℝ) ^ (D.emin + 9) ≤ fov.val) (h1 : fov.val < 180)
    (hc : 40 * D.u ≤ Real.cos (Spec.halfAngle fov.val)) (hroom : 2 * Real.tan (Spec.halfAngle fov.val) ≤ F.maxFinite) :
    let g := f.setPerspectiveMixed D tan fov aspect n fa
    let T := Real.tan (Spec.halfAngle fov.val) / 2
    (∃ a : Fp D, a.Finite ∧ 0 < a.val ∧ a.val < Real.pi / 2 ∧ a.val = Spec.arg D fov.val ∧ (tan a).Finite ∧ g.top.val = F.rnd (D.rnd ((tan a).val * (1 / 2)))) ∧
      g.top.Finite ∧ 0 ≤ g.top.val ∧ |g.top.val - T| ≤ Spec.topErr F D τ fov.val * T + F.eta := by
  intro g T
  obtain ⟨t, ht, ht2⟩ := perspective_fields tan f fov aspect n fa
  have hg : g.top = t := by show (f.setPerspectiveMixed D tan fov aspect n fa).top = t; rw [ht]; rfl
  rw [hg]
  have hF0 := Usual.pos hF
  have hD0 := Usual.pos hD
  have hu0 := u_pos (F := D)
  have hu := Usual.u hD
  have huF := Usual.u hF
  obtain ⟨x1, x2⟩ := Fp.widen_fin hp he hF0 hf
  rw [← x2] at h0 h1
  obtain ⟨a, ha, a1, a3, a2⟩ := arg_err hD h62 x1 ((zpow_le_zpow_right₀ (by norm_num) (by omega)).trans h0) h1.le
  rw [← ha] at ht2
  rw [x2] at a2 a3 h0 h1
  obtain ⟨θ, hθ⟩ : ∃ θ, θ = Spec.halfAngle fov.val := ⟨_, rfl⟩
  have hE := (by positivity : (0 : ℝ) < (2 : ℝ) ^ D.emin)
  have h8 : 512 * (2 : ℝ) ^ D.emin ≤ fov.val := by
    rw [zpow_add₀ (by norm_num)] at h0
    calc 512 * (2 : ℝ) ^ D.emin = (2 : ℝ) ^ D.emin * 2 ^ (9 : Int) := by norm_num; ring
      _ ≤ _ := h0
  have hπ0 := Real.pi_pos
  have hπ3 := Real.pi_gt_three
  have eθ : θ = fov.val * Real.pi / 360 := by rw [hθ]; unfold Spec.halfAngle; ring
  have θ0 : 0 < θ := by rw [eθ]; have : 0 < fov.val := by linarith
                        positivity
  have θ1 : θ < Real.pi / 2 := by rw [eθ]; nlinarith
  have θL : 4 * (2 : ℝ) ^ D.emin ≤ θ := by rw [eθ]; nlinarith
  have eT : T = Real.tan θ / 2 := by rw [hθ]
  unfold Spec.topErr
  rw [← hθ] at hc hroom a2 ⊢
  obtain ⟨p0, p1, p2⟩ := tan_rel θ0 θ1 (δ := 5 * D.u) (by linarith) a2
  have hT0 : 0 < Real.tan θ := Real.tan_pos_of_pos_of_lt_pi_div_two θ0 θ1
  have hcos : 0 < Real.cos θ := by linarith
  obtain ⟨κ, hκ⟩ : ∃ κ, κ = 16 * D.u / Real.cos θ := ⟨_, rfl⟩
  have κ0 : 0 ≤ κ := by rw [hκ]; positivity
  have κ1 : κ ≤ 2 / 5 := by rw [hκ, div_le_iff₀ hcos]; linarith
  have p3 : |Real.tan a.val - 2 * T| ≤ κ * (2 * T) := by
    have : Real.pi * (5 * D.u) / Real.cos θ ≤ κ := by
      rw [hκ]; exact div_le_div_of_nonneg_right (by nlinarith [Real.pi_lt_d2]) hcos.le
    rw [show 2 * T = Real.tan θ by rw [eT]; ring]
    exact p2.trans (mul_le_mul_of_nonneg_right this hT0.le)
  rw [← hκ]
  have hT : 0 < T := by rw [eT]; linarith
  have hmax := max_widen hp he
  have hU1 : Real.tan a.val ≤ 14 / 5 * T := by
    have := (abs_le.1 p3).2
    have : κ * T ≤ 2 / 5 * T := mul_le_mul_of_nonneg_right κ1 hT.le
    linarith
  have haL : (2 : ℝ) ^ D.emin * 3 ≤ a.val := by
    have := (abs_le.1 a2).1
    have h2 : D.u * θ ≤ 1 / 1024 * θ := mul_le_mul_of_nonneg_right hu θ0.le
    linarith
  obtain ⟨v1, v2⟩ := htan a a1 (by linarith) p1 (by linarith)
  have hta : a.val ≤ Real.tan a.val := (Real.lt_tan p0 p1).le
  have hVL : 2 * (2 : ℝ) ^ D.emin ≤ (tan a).val := by
    have h3 := (abs_le.1 v2).1
    have h4 : τ * Real.tan a.val ≤ 1 / 1024 * Real.tan a.val := mul_le_mul_of_nonneg_right hτ (by linarith)
    linarith
  have hVU : (tan a).val ≤ 2 * Real.tan θ := by
    have h3 := (abs_le.1 v2).2
    have h4 : τ * Real.tan a.val ≤ 1 / 1024 * Real.tan a.val := mul_le_mul_of_nonneg_right hτ (by linarith)
    linarith
  have hr := rep_half (F := D) (by have := hD.digits; have := hD.range; omega)
  obtain ⟨g1, g2⟩ := Fp.ofReal_fin (F := D) (x := 1 / 2) hD0 (by rw [abs_of_pos (by norm_num)]; linarith [one_le_max hD0])
  rw [hr.rnd_eq] at g2
  obtain ⟨w1, w2⟩ := Fp.mul_fin hD0 (a := tan a) (b := Fp.lit D (1 / 2)) v1 g1 (by
    rw [show (Fp.lit D (1 / 2)).val = 1 / 2 from g2, abs_of_pos (by linarith)]; linarith)
  rw [show (Fp.lit D (1 / 2)).val = 1 / 2 from g2] at w2
  have wE := rnd_err_normal (F := D) (x := (tan a).val * (1 / 2)) (by rw [abs_of_pos (by linarith)]; linarith)
  rw [← w2, abs_of_pos (by linarith : 0 < (tan a).val * (1 / 2)), mul_one_div] at wE
  obtain ⟨W, hW⟩ : ∃ W, W = (tan a * Fp.lit D (1 / 2)).val := ⟨_, rfl⟩
  rw [← hW] at wE
  obtain ⟨r1, r2, r3⟩ := top_final hT κ0 κ1 hτ0 hτ hu0.le hu (u_pos (F := F)).le huF p3 v2 wE
  obtain ⟨c1, c2⟩ := Fp.convert_fin (G := F) hF0 w1 (by rw [← hW, abs_of_pos r1]; linarith)
  rw [← ht2, ← hW] at c2
  rw [← ht2] at c1
  have cE := rnd_err_add (F := F) W
  rw [← c2, abs_of_pos r1] at cE
  refine ⟨⟨a, a1, p0, p1, a3, v1, by rw [c2, hW, w2]⟩, c1, by rw [c2]; exact rnd_nonneg r1.le, ?_⟩
  have := abs_sub_le t.val W T
  linarith

/-- C148. The top of the frustum of `set_perspective` is half the tangent of half the angle, up to the stated relative error (and the smallest number, where the tangent is that small);
the other sides follow from it. The error is a few units of the element type, as long as the angle is not too close to 180 degrees. -/
theorem C148_top (hF : Spec.Usual F) (hp : F.p ≤ D.p) (he : F.emax ≤ D.emax) (hD : Spec.Usual D) (h62 : D.p ≤ 62) {tan : Fp D → Fp D} {τ : ℝ} (hτ0 : 0 ≤ τ) (hτ : τ ≤ 1 / 1024)
    (htan : Spec.TanLib tan τ) (f : Frustum (Fp F)) (fov aspect n fa : Fp F) (hf : fov.Finite) (h0 : (2 : ℝ) ^ (D.emin + 9) ≤ fov.val) (h1 : fov.val < 180)
    (hc : 40 * D.u ≤ Real.cos (Spec.halfAngle fov.val)) (hroom : 2 * Real.tan (Spec.halfAngle fov.val) ≤ F.maxFinite) :
    let g := f.setPerspectiveMixed D tan fov aspect n fa
    let T := Real.tan (Spec.halfAngle fov.val) / 2
    g.top.Finite ∧ 0 ≤ g.top.val ∧ |g.top.val - T| ≤ Spec.topErr F D τ fov.val * T + F.eta := by
  exact (top_core hF hp he hD h62 hτ0 hτ htan f fov aspect n fa hf h0 h1 hc hroom).2

/-- C148. The sides: `bottom` is `-top` and `left` is `-right` exactly, and `right` is the exact product of the computed top and the aspect ratio, rounded once. -/
theorem C148_sides (h0 : 0 < F.emax) (tan : Fp D → Fp D) (f : Frustum (Fp F)) (fov aspect n fa : Fp F) (ha : aspect.Finite) :
    let g := f.setPerspectiveMixed D tan fov aspect n fa
    g.top.Finite → |g.top.val * aspect.val| ≤ F.maxFinite →
      g.right.Finite ∧ g.right.val = F.rnd (g.top.val * aspect.val) ∧ g.left.val = -g.right.val ∧ g.bottom.val = -g.top.val ∧
        |g.right.val - g.top.val * aspect.val| ≤ F.u * |g.top.val * aspect.val| + F.eta := by
  intro g ht hroom
  obtain ⟨e1, e2, e3, -, -⟩ := C127_perspective tan f fov aspect n fa
  obtain ⟨r1, r2⟩ := Fp.mul_fin h0 ht ha hroom
  have e3' : g.right = g.top * aspect := e3
  rw [← e3'] at r1 r2
  refine ⟨r1, r2, ?_, ?_, by rw [r2]; exact rnd_err_add _⟩
  · rw [show g.left = -g.right from e1, Fp.val_neg]
  · rw [show g.bottom = -g.top from e2, Fp.val_neg]

private theorem arctan_lip (x y : ℝ) : |Real.arctan x - Real.arctan y| ≤ |x - y| := by
  have h : LipschitzWith 1 Real.arctan := lipschitzWith_of_nnnorm_deriv_le Real.differentiable_arctan fun x => by
    rw [Real.deriv_arctan, ← NNReal.coe_le_coe, coe_nnnorm, Real.norm_eq_abs, NNReal.coe_one, abs_of_nonneg (by positivity), div_le_one (by positivity)]
    nlinarith [sq_nonneg x]
  simpa [Real.dist_eq] using h.dist_le_mul x y

/-- C148. With the near plane at 1/2 (the only distance for which the code produces the requested angle, see C63), the vertical angle of the computed frustum is the requested one, in degrees,
up to 230 times the error of the top. -/
theorem C148_angle (hF : Spec.Usual F) (hp : F.p ≤ D.p) (he : F.emax ≤ D.emax) (hD : Spec.Usual D) (h62 : D.p ≤ 62) {tan : Fp D → Fp D} {τ : ℝ} (hτ0 : 0 ≤ τ) (hτ : τ ≤ 1 / 1024)
    (htan : Spec.TanLib tan τ) (f : Frustum (Fp F)) (fov aspect n fa : Fp F) (hf : fov.Finite) (h0 : (2 : ℝ) ^ (D.emin + 9) ≤ fov.val) (h1 : fov.val < 180)
    (hc : 40 * D.u ≤ Real.cos (Spec.halfAngle fov.val)) (hroom : 2 * Real.tan (Spec.halfAngle fov.val) ≤ F.maxFinite) (hn : n.val = 1 / 2) :
    let g := f.setPerspectiveMixed D tan fov aspect n fa
    |2 * Real.arctan (g.top.val / g.nearPlane.val) * 180 / Real.pi - fov.val| ≤
      230 * (Spec.topErr F D τ fov.val * (Real.tan (Spec.halfAngle fov.val) / 2) + F.eta) := by
  intro g
  obtain ⟨-, -, h⟩ := C148_top hF hp he hD h62 hτ0 hτ htan f fov aspect n fa hf h0 h1 hc hroom
  have en : g.nearPlane.val = 1 / 2 := by rw [show g.nearPlane = n from (C127_perspective tan f fov aspect n fa).2.2.2.1, hn]
  have hpos : 0 < fov.val := lt_of_lt_of_le (by positivity) h0
  have hπ := Real.pi_pos
  have hπ3 := Real.pi_gt_d2
  have hat : Real.arctan (Real.tan (Spec.halfAngle fov.val)) = Spec.halfAngle fov.val := by
    apply Real.arctan_tan
    · unfold Spec.halfAngle; linarith [(by positivity : 0 < fov.val / 2 * Real.pi / 180)]
    · unfold Spec.halfAngle; nlinarith
  have hl := arctan_lip (g.top.val / (1 / 2)) (Real.tan (Spec.halfAngle fov.val))
  rw [hat] at hl
  rw [en]
  generalize hE : Spec.topErr F D τ fov.val * (Real.tan (Spec.halfAngle fov.val) / 2) + F.eta = E at *
  have h' : |g.top.val / (1 / 2) - Real.tan (Spec.halfAngle fov.val)| ≤ 2 * E := by
    have e : g.top.val / (1 / 2) - Real.tan (Spec.halfAngle fov.val) = 2 * (g.top.val - Real.tan (Spec.halfAngle fov.val) / 2) := by ring
    rw [e, abs_mul, abs_two]
    exact mul_le_mul_of_nonneg_left h (by norm_num)
  have e : 2 * Real.arctan (g.top.val / (1 / 2)) * 180 / Real.pi - fov.val = 360 / Real.pi * (Real.arctan (g.top.val / (1 / 2)) - Spec.halfAngle fov.val) := by
    unfold Spec.halfAngle; field_simp; ring
  have hE0 : 0 ≤ E := by have := (abs_nonneg _).trans h'; linarith
  rw [e, abs_mul, abs_of_pos (by positivity)]
  calc 360 / Real.pi * |Real.arctan (g.top.val / (1 / 2)) - Spec.halfAngle fov.val| ≤ 360 / Real.pi * (2 * E) := by
        gcongr; exact hl.trans h'
    _ ≤ 115 * (2 * E) := by
        gcongr; rw [div_le_iff₀ hπ]; norm_num at hπ3 ⊢; linarith
    _ = 230 * E := by ring

/-- C148. A larger angle never gives a smaller frustum, if the library tangent is monotone. -/
theorem C148_monotone (hF : Spec.Usual F) (hp : F.p ≤ D.p) (he : F.emax ≤ D.emax) (hD : Spec.Usual D) (h62 : D.p ≤ 62) {tan : Fp D → Fp D} {τ : ℝ} (hτ0 : 0 ≤ τ) (hτ : τ ≤ 1 / 1024)
    (htan : Spec.TanLib tan τ)
    (hmono : ∀ a b : Fp D, a.Finite → b.Finite → 0 < a.val → a.val ≤ b.val → b.val < Real.pi / 2 → (tan b).Finite → (tan a).val ≤ (tan b).val)
    (f : Frustum (Fp F)) (fov fov' aspect n fa : Fp F) (hf : fov.Finite) (hf' : fov'.Finite) (h0 : (2 : ℝ) ^ (D.emin + 9) ≤ fov.val) (hle : fov.val ≤ fov'.val) (h1 : fov'.val < 180)
    (hc : 40 * D.u ≤ Real.cos (Spec.halfAngle fov'.val)) (hroom : 2 * Real.tan (Spec.halfAngle fov'.val) ≤ F.maxFinite) :
    (f.setPerspectiveMixed D tan fov aspect n fa).top.val ≤ (f.setPerspectiveMixed D tan fov' aspect n fa).top.val := by
  have hpos : 0 < fov.val := lt_of_lt_of_le (by positivity) h0
  have hπ := Real.pi_pos
  have hθ : Spec.halfAngle fov.val ≤ Spec.halfAngle fov'.val := by unfold Spec.halfAngle; gcongr
  have hθ0 : 0 < Spec.halfAngle fov.val := by unfold Spec.halfAngle; positivity
  have hθ1 : Spec.halfAngle fov'.val < Real.pi / 2 := by unfold Spec.halfAngle; nlinarith
  obtain ⟨⟨a, a1, a2, a3, a4, a5, a6⟩, -⟩ := top_core hF hp he hD h62 hτ0 hτ htan f fov aspect n fa hf h0 (hle.trans_lt h1)
    (hc.trans (Real.cos_le_cos_of_nonneg_of_le_pi hθ0.le (by linarith) hθ))
    (le_trans (by
      have := Real.strictMonoOn_tan.monotoneOn (a := Spec.halfAngle fov.val) (b := Spec.halfAngle fov'.val) ⟨by linarith, by linarith⟩ ⟨by linarith, by linarith⟩ hθ
      linarith) hroom)
  obtain ⟨⟨b, b1, b2, b3, b4, b5, b6⟩, -⟩ := top_core hF hp he hD h62 hτ0 hτ htan f fov' aspect n fa hf' (h0.trans hle) h1 hc hroom
  have hmp : 0 ≤ D.rnd mPi := rnd_nonneg (by unfold mPi; norm_num)
  have hab : a.val ≤ b.val := by
    rw [a4, b4]
    unfold Spec.arg
    apply rnd_mono
    apply div_le_div_of_nonneg_right _ (by norm_num)
    apply rnd_mono
    apply mul_le_mul_of_nonneg_right _ hmp
    apply rnd_mono
    linarith
  rw [a6, b6]
  apply rnd_mono
  apply rnd_mono
  exact mul_le_mul_of_nonneg_right (hmono a b a1 b1 a2 hab b3 b5) (by norm_num)

/-- C148. A library that rounds the tangent correctly has the accuracy `u`. -/
theorem C148_library (h0 : 0 < D.emax) : Spec.TanLib (fun a : Fp D => Fp.ofReal (Real.tan a.val)) D.u := by
  intro a ha hL hU hm
  have hE := (by positivity : (0 : ℝ) < (2 : ℝ) ^ D.emin)
  have hp : 0 < a.val := lt_of_lt_of_le hE hL
  have ht : a.val ≤ Real.tan a.val := (Real.lt_tan hp hU).le
  obtain ⟨t1, t2⟩ := Fp.ofReal_fin (F := D) (x := Real.tan a.val) h0 (by rw [abs_of_pos (by linarith)]; exact hm)
  refine ⟨t1, ?_⟩
  have := rnd_err_normal (F := D) (x := Real.tan a.val) (by rw [abs_of_pos (by linarith)]; linarith)
  rw [abs_of_pos (by linarith : 0 < Real.tan a.val)] at this
  rw [t2]
  exact this

/-- 90 degrees, `float` elements: the hypotheses hold, and the top is 1/2 up to less than `2^-21`. -/
example (f : Frustum (Fp single)) (aspect n fa : Fp single) :
    let g := f.setPerspectiveMixed double (fun a => Fp.ofReal (Real.tan a.val)) (Fp.ofReal 90) aspect n fa
    g.top.Finite ∧ |g.top.val - 1 / 2| ≤ 1 / 2 ^ 21 := by
  obtain ⟨x1, x2⟩ := Quant.ofReal_int (F := single) (by norm_num) (k := 90) (by norm_num)
  have e : ((90 : ℤ) : ℝ) = 90 := by norm_num
  rw [e] at x1 x2
  have hθ : Spec.halfAngle 90 = Real.pi / 4 := by unfold Spec.halfAngle; ring
  have hs : (1 : ℝ) / 2 ≤ Real.cos (Real.pi / 4) := by
    rw [Real.cos_pi_div_four]; have := Real.one_le_sqrt (x := 2) |>.2 (by norm_num); linarith
  obtain ⟨t1, -, t2⟩ := C148_top (F := single) (D := double) usual_single (by norm_num) (by norm_num) usual_double (by norm_num) (τ := double.u) (u_pos).le
    (by norm_num [u]) (C148_library (by norm_num)) f (Fp.ofReal 90) aspect n fa x1 (by
      rw [x2]
      calc (2 : ℝ) ^ (double.emin + 9) ≤ (2 : ℝ) ^ (0 : ℤ) := zpow_le_zpow_right₀ (by norm_num) (by norm_num [emin])
        _ ≤ 90 := by norm_num)
    (by rw [x2]; norm_num) (by rw [x2, hθ]; refine le_trans ?_ hs; norm_num [u]) (by rw [x2, hθ, Real.tan_pi_div_four]; norm_num [maxFinite])
  refine ⟨t1, ?_⟩
  rw [x2, hθ, Real.tan_pi_div_four] at t2
  refine t2.trans ?_
  have h1 : 16 * double.u / Real.cos (Real.pi / 4) ≤ 16 * double.u / (1 / 2) := by
    have := u_pos (F := double)
    gcongr
  unfold Spec.topErr
  rw [hθ]
  have h2 : 16 * double.u / (1 / 2) + 2 * (double.u + double.u + single.u) + 2 * single.eta ≤ 1 / 2 ^ 20 := by norm_num [u, eta, emin]
  linarith

end Vmml
