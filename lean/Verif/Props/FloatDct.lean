import Verif.Model.DctFloat
import Verif.Props.FloatQuantize
import Verif.Props.FloatRay
import Verif.Props.FloatAxis
import Verif.Props.MatrixSignal
import Verif.Props.Constants

/-!
# C145: the DCT matrix in IEEE arithmetic
-/

namespace Vmml
open Format Mat Const
variable {F D : Format} {M N : Nat}

/-! ## Real arithmetic -/

private theorem dct_arg {u η y pi p1 p2 M2 B : ℝ} (hu0 : 0 < u) (hu : u ≤ 1 / 1024) (hηu : η ≤ u) (hM : 0 < M2) (hy0 : 0 ≤ y) (hyB : y ≤ B) (hB : 1 ≤ B) (hpi : |pi - Real.pi| ≤ 5 * u)
    (e1 : |p1 - y * M2 * pi| ≤ u * |y * M2 * pi|) (e2 : |p2 - p1 / M2| ≤ u * |p1 / M2| + η) : |p1 / M2| ≤ 4 * B ∧ |y * M2 * pi| ≤ 4 * B * M2 ∧ |p2 - y * Real.pi| ≤ 13 * B * u := by
  have hπ := Real.pi_lt_d4
  have hπ0 := Real.pi_gt_three
  obtain ⟨a, b⟩ := abs_le.1 hpi
  have pi1 : pi ≤ 63 / 20 := by norm_num at hπ; linarith
  have pi0 : 0 < pi := by linarith
  have hq : |p1 / M2 - y * pi| ≤ u * (y * pi) := by
    have : p1 / M2 - y * pi = (p1 - y * M2 * pi) / M2 := by field_simp
    rw [this, abs_div, abs_of_pos hM, div_le_iff₀ hM]
    refine e1.trans (le_of_eq ?_)
    rw [abs_of_nonneg (by positivity)]
    ring
  have ypi : y * pi ≤ 63 / 20 * y := by
    have := mul_le_mul_of_nonneg_left pi1 hy0
    linarith
  have ypi0 : 0 ≤ y * pi := by positivity
  have uy : u * (y * pi) ≤ u * (63 / 20 * y) := mul_le_mul_of_nonneg_left ypi hu0.le
  have uyB : u * y ≤ u * B := mul_le_mul_of_nonneg_left hyB hu0.le
  have uy1 : u * (y * pi) ≤ 1 / 1024 * (y * pi) := mul_le_mul_of_nonneg_right hu ypi0
  have hq1 : |p1 / M2| ≤ 16 / 5 * y := by
    have := abs_add_le (p1 / M2 - y * pi) (y * pi)
    rw [sub_add_cancel, abs_of_nonneg ypi0] at this
    linarith
  have uq : u * |p1 / M2| ≤ u * (16 / 5 * y) := mul_le_mul_of_nonneg_left hq1 hu0.le
  have uB : u ≤ u * B := le_mul_of_one_le_right hu0.le hB
  have hpy : |y * pi - y * Real.pi| ≤ 5 * (u * y) := by
    rw [← mul_sub, abs_mul, abs_of_nonneg hy0]
    have := mul_le_mul_of_nonneg_left hpi hy0
    linarith
  have s1 := abs_add_le (p2 - p1 / M2) (p1 / M2 - y * pi)
  rw [sub_add_sub_cancel] at s1
  have s2 := abs_add_le (p2 - y * pi) (y * pi - y * Real.pi)
  rw [sub_add_sub_cancel] at s2
  refine ⟨by linarith, ?_, by linarith⟩
  rw [abs_of_nonneg (by positivity)]
  have : y * M2 * pi = y * pi * M2 := by ring
  rw [this]
  exact mul_le_mul_of_nonneg_right (by linarith) hM.le

private theorem dct_weight {u x x' w : ℝ} (hu0 : 0 < u) (hu : u ≤ 1 / 1024) (hx0 : 0 < x) (hx1 : x ≤ 1) (e1 : |x' - x| ≤ u * |x|) (e2 : |w - Real.sqrt x'| ≤ u * Real.sqrt x') :
    0 ≤ x' ∧ Real.sqrt x' ≤ 2 ∧ |w - Real.sqrt x| ≤ 3 * u := by
  rw [abs_of_pos hx0] at e1
  have ux : u * x ≤ 1 / 1024 * x := mul_le_mul_of_nonneg_right hu hx0.le
  obtain ⟨a, b⟩ := abs_le.1 e1
  have x0' : 0 ≤ x' := by linarith
  have hs : 0 < Real.sqrt x := Real.sqrt_pos.2 hx0
  have hs1 : Real.sqrt x ≤ 1 := by rw [← Real.sqrt_one]; exact Real.sqrt_le_sqrt hx1
  have hs' := Real.sqrt_nonneg x'
  have key : |Real.sqrt x' - Real.sqrt x| ≤ u := by
    have h : (Real.sqrt x' - Real.sqrt x) * (Real.sqrt x' + Real.sqrt x) = x' - x := by
      have h1 := Real.mul_self_sqrt x0'
      have h2 := Real.mul_self_sqrt hx0.le
      linear_combination h1 - h2
    have h3 : |Real.sqrt x' - Real.sqrt x| * (Real.sqrt x' + Real.sqrt x) ≤ u * x := by
      rw [← h, abs_mul, abs_of_nonneg (by linarith : 0 ≤ Real.sqrt x' + Real.sqrt x)] at e1
      exact e1
    have h4 : |Real.sqrt x' - Real.sqrt x| * Real.sqrt x ≤ u * Real.sqrt x * Real.sqrt x := by
      refine le_trans (mul_le_mul_of_nonneg_left (by linarith) (abs_nonneg _)) (h3.trans (le_of_eq ?_))
      rw [mul_assoc, Real.mul_self_sqrt hx0.le]
    exact (le_of_mul_le_mul_right h4 hs).trans (mul_le_of_le_one_right hu0.le hs1)
  have hsx : Real.sqrt x' ≤ 2 := by have := (abs_le.1 key).2; linarith
  refine ⟨x0', hsx, ?_⟩
  have := abs_add_le (w - Real.sqrt x') (Real.sqrt x' - Real.sqrt x)
  rw [sub_add_sub_cancel] at this
  have := mul_le_mul_of_nonneg_left hsx hu0.le
  linarith

private theorem dct_prod {u E C c w w' f η : ℝ} (hu0 : 0 < u) (hu : u ≤ 1 / 1024) (hηu : η ≤ u) (hE : E ≤ 1) (hC : |C - c| ≤ E) (hc : |c| ≤ 1) (hw0 : 0 ≤ w) (hw1 : w ≤ 1) (hw : |w' - w| ≤ 3 * u)
    (hf : |f - C * w'| ≤ u * |C * w'| + η) : |C * w'| ≤ 3 ∧ |f| ≤ 4 ∧ |f - c * w| ≤ E + 10 * u := by
  have E0 := (abs_nonneg _).trans hC
  have uE : u * E ≤ u * 1 := mul_le_mul_of_nonneg_left hE hu0.le
  have hw' : |w'| ≤ 1 + 3 * u := by
    have := abs_add_le (w' - w) w
    rw [sub_add_cancel, abs_of_nonneg hw0] at this
    linarith
  have hC' : |C| ≤ 1 + E := by
    have := abs_add_le (C - c) c
    rw [sub_add_cancel] at this
    linarith
  have hP : |C * w'| ≤ (1 + E) * (1 + 3 * u) := by
    rw [abs_mul]; exact mul_le_mul hC' hw' (abs_nonneg _) (by linarith)
  have hP3 : |C * w'| ≤ 3 := by linarith
  have hd : |C * w' - c * w| ≤ E * (1 + 3 * u) + 3 * u := by
    have : C * w' - c * w = (C - c) * w' + c * (w' - w) := by ring
    rw [this]
    refine (abs_add_le _ _).trans ?_
    rw [abs_mul, abs_mul]
    have h1 := mul_le_mul hC hw' (abs_nonneg _) E0
    have h2 := mul_le_mul hc hw (abs_nonneg _) zero_le_one
    linarith
  have uP : u * |C * w'| ≤ u * 3 := mul_le_mul_of_nonneg_left hP3 hu0.le
  have s := abs_add_le (f - C * w') (C * w' - c * w)
  rw [sub_add_sub_cancel] at s
  have s2 := abs_add_le (f - C * w') (C * w')
  rw [sub_add_cancel] at s2
  exact ⟨hP3, by linarith, by linarith⟩

/-! ## One entry -/

/-- The weight of a row: `sqrt( 1 / M )` or `sqrt( 2 / M )`. -/
noncomputable def Spec.dctWeight (M r : Nat) : ℝ := if r = 0 then Real.sqrt (1 / M) else Real.sqrt (2 / M)

theorem Spec.dct_eq (M r c : Nat) : Spec.dct M r c = Real.cos (((2 * c + 1) * r : Nat) / (2 * M : Nat) * Real.pi) * Spec.dctWeight M r := by
  unfold Spec.dct Spec.dctWeight
  congr 2
  push_cast
  ring

/-- How far an entry may be off: `σ` for the cosine, the rounding of its argument, which can be as large as `N π`, and the rest. -/
noncomputable def Spec.dctErr (F D : Format) (N : Nat) (σ : ℝ) : ℝ := σ + (13 * N + 10) * D.u + 6 * F.u

private theorem eta_le_u (h : 0 < F.emax) : F.eta ≤ F.u := by
  rw [Format.eta_eq_tiny]
  exact mul_le_of_le_one_right u_pos.le (tiny_le_one h)

section
variable (hF : Spec.Usual F) (hD : Spec.Usual D) [L : CMath (Fp D)] {σ : ℝ} (hT : Spec.Trig L σ) (hL : L.sqrt = (Fp.instCMath.sqrt : Fp D → Fp D)) (hpi : 1e-20 ≤ D.u) (hroom : D.p + 3 ≤ D.emax)
  (hsize : 2 * N * M ≤ 2 ^ (D.p + 1)) (hsize' : 2 * M ≤ 2 ^ (D.p + 1)) (hE : Spec.dctErr F D N σ ≤ 1)
include hF hD hT hL hpi hroom hsize hsize' hE

private theorem dct_one {r c : Nat} (hr : r < M) (hc : c < N) :
    (Fp.convert F (CMath.cos ((Fp.ofReal (((2 * c + 1) * r : Nat) : ℝ) : Fp D) * Fp.ofReal mPi / Fp.ofReal ((2 * M : Nat) : ℝ)) *
      (if r = 0 then CMath.sqrt ((Fp.ofReal ((1 : Nat) : ℝ) : Fp D) / Fp.ofReal (M : ℝ)) else CMath.sqrt ((Fp.ofReal ((2 : Nat) : ℝ) : Fp D) / Fp.ofReal (M : ℝ)))) : Fp F).Finite ∧
    |(Fp.convert F (CMath.cos ((Fp.ofReal (((2 * c + 1) * r : Nat) : ℝ) : Fp D) * Fp.ofReal mPi / Fp.ofReal ((2 * M : Nat) : ℝ)) *
      (if r = 0 then CMath.sqrt ((Fp.ofReal ((1 : Nat) : ℝ) : Fp D) / Fp.ofReal (M : ℝ)) else CMath.sqrt ((Fp.ofReal ((2 : Nat) : ℝ) : Fp D) / Fp.ofReal (M : ℝ)))) : Fp F).val - Spec.dct M r c| ≤
      Spec.dctErr F D N σ := by
  have u0 := u_pos (F := D)
  have uF0 := u_pos (F := F)
  have hu := Usual.u hD
  have huF := Usual.u hF
  have h0 := Usual.pos hD
  have hηu := eta_le_u (F := D) (by exact Usual.pos hD)
  have hηF := eta_le_u (F := F) (by exact (Usual.pos hF))
  have hp : D.p < D.emax := hD.range
  have nat : ∀ k : Nat, k ≤ 2 ^ (D.p + 1) → (Fp.ofReal (k : ℝ) : Fp D).Finite ∧ (Fp.ofReal (k : ℝ) : Fp D).val = k := fun k hk => by
    have := Quant.ofReal_int (F := D) hp (k := (k : Int)) (by rw [abs_of_nonneg (by omega)]; exact_mod_cast hk)
    exact_mod_cast this
  have hN1 : (1 : ℝ) ≤ N := by exact_mod_cast (by omega : 1 ≤ N)
  have hM0 : (0 : ℝ) < (2 * M : Nat) := by exact_mod_cast (by omega : 0 < 2 * M)
  have hM1 : (1 : ℝ) ≤ M := by exact_mod_cast (by omega : 1 ≤ M)
  -- the numbers
  have hn : (2 * c + 1) * r ≤ 2 ^ (D.p + 1) := le_trans (by nlinarith) hsize
  obtain ⟨n1, n2⟩ := nat _ hn
  obtain ⟨m1, m2⟩ := nat _ hsize'
  obtain ⟨k1, k2⟩ := nat M (by omega)
  have hmax : (2 : ℝ) ^ (D.emax : Int) ≤ D.maxFinite := pow_emax_le
  have big : (2 : ℝ) ^ ((D.p : Int) + 1) ≤ D.maxFinite := (zpow_le_zpow_right₀ (by norm_num) (by omega)).trans hmax
  have big9 : (1024 : ℝ) ≤ D.maxFinite := by
    refine le_trans ?_ big
    calc (1024 : ℝ) = (2 : ℝ) ^ (10 : Int) := by norm_num
      _ ≤ _ := zpow_le_zpow_right₀ (by norm_num) (by have := hD.digits; omega)
  have bigF : (2 : ℝ) ^ ((F.p : Int) + 1) ≤ F.maxFinite := (zpow_le_zpow_right₀ (by norm_num) (by have := hF.range; omega)).trans (pow_emax_le (F := F))
  have big9F : (1024 : ℝ) ≤ F.maxFinite := by
    refine le_trans ?_ bigF
    calc (1024 : ℝ) = (2 : ℝ) ^ (10 : Int) := by norm_num
      _ ≤ _ := zpow_le_zpow_right₀ (by norm_num) (by have := hF.digits; omega)
  have hmpi : |mPi - Real.pi| < 1e-20 := C106_constants.1
  have hπ := Real.pi_lt_d2
  have hπ3 := Real.pi_gt_three
  have mpi1 : 3 ≤ mPi ∧ mPi ≤ 63 / 20 := by unfold mPi; norm_num
  obtain ⟨pi1, pi2⟩ := Fp.ofReal_fin (F := D) (x := mPi) h0 (by rw [abs_of_pos (by linarith [mpi1.1])]; linarith [mpi1.2])
  have piE : |(Fp.ofReal mPi : Fp D).val - Real.pi| ≤ 5 * D.u := by
    have h1 := rnd_err_normal (F := D) (x := mPi) (by
      rw [abs_of_pos (by linarith [mpi1.1])]
      have : (2 : ℝ) ^ D.emin ≤ 1 := zpow_le_one_of_nonpos₀ (by norm_num) (by unfold emin; omega)
      linarith [mpi1.1])
    rw [abs_of_pos (by linarith [mpi1.1] : 0 < mPi)] at h1
    have h2 := mul_le_mul_of_nonneg_left mpi1.2 u0.le
    have h3 := abs_add_le (D.rnd mPi - mPi) (mPi - Real.pi)
    rw [sub_add_sub_cancel] at h3
    rw [pi2]
    linarith
  obtain ⟨y, hy⟩ : ∃ y : ℝ, y = ((2 * c + 1) * r : Nat) / (2 * M : Nat) := ⟨_, rfl⟩
  have hyn : (((2 * c + 1) * r : Nat) : ℝ) = y * (2 * M : Nat) := by rw [hy]; field_simp
  have hy0 : 0 ≤ y := by rw [hy]; positivity
  have hyN : y ≤ N := by
    rw [hy, div_le_iff₀ hM0]
    have : (2 * c + 1) * r ≤ N * (2 * M) := by nlinarith
    exact_mod_cast this
  have e1 : |D.rnd (y * (2 * M : Nat) * (Fp.ofReal mPi : Fp D).val) - y * (2 * M : Nat) * (Fp.ofReal mPi : Fp D).val| ≤ D.u * |y * (2 * M : Nat) * (Fp.ofReal mPi : Fp D).val| := by
    have := (Quant.mul_int (Fp.rep_val pi1).grid (((2 * c + 1) * r : Nat) : Int)).rnd_err
    rw [Int.cast_natCast, hyn, mul_comm (Fp.ofReal mPi : Fp D).val] at this
    exact this
  have e2 := rnd_err_add (F := D) (D.rnd (y * (2 * M : Nat) * (Fp.ofReal mPi : Fp D).val) / (2 * M : Nat))
  obtain ⟨a1, a2, a3⟩ := dct_arg u0 hu hηu hM0 hy0 hyN hN1 piE e1 e2
  have hNM : (4 * N * (2 * M : Nat) : ℝ) ≤ 4 * (2 : ℝ) ^ ((D.p : Int) + 1) := by
    have : ((2 * N * M : Nat) : ℝ) ≤ (2 : ℝ) ^ ((D.p : Int) + 1) := by exact_mod_cast hsize
    push_cast at this ⊢
    linarith
  have big4 : 4 * (2 : ℝ) ^ ((D.p : Int) + 1) ≤ D.maxFinite := by
    refine le_trans (le_of_eq ?_) ((zpow_le_zpow_right₀ (by norm_num) (by omega : (D.p : Int) + 3 ≤ D.emax)).trans hmax)
    rw [show (D.p : Int) + 3 = 2 + ((D.p : Int) + 1) by ring, zpow_add₀ (by norm_num) 2 ((D.p : Int) + 1), show (2 : ℝ) ^ (2 : Int) = 4 by norm_num]
  obtain ⟨q1, q2⟩ := Fp.mul_fin (F := D) h0 n1 pi1 (by rw [n2, hyn]; linarith)
  have q2 : (Fp.ofReal (((2 * c + 1) * r : Nat) : ℝ) * Fp.ofReal mPi : Fp D).val = D.rnd (y * (2 * M : Nat) * (Fp.ofReal mPi : Fp D).val) := by rw [q2, n2, hyn]
  obtain ⟨a4, a5⟩ := Fp.div_fin (F := D) h0 q1 m1 (by rw [m2]; exact hM0.ne') (by
    rw [q2, m2]
    refine a1.trans (le_trans ?_ (hNM.trans big4))
    exact le_mul_of_one_le_right (by linarith) (by exact_mod_cast (by omega : 1 ≤ 2 * M)))
  rw [q2, m2] at a5
  obtain ⟨-, c1, c2⟩ := hT _ a4
  rw [a5] at c2
  obtain ⟨C, hC⟩ : ∃ C, C = L.cos ((Fp.ofReal (((2 * c + 1) * r : Nat) : ℝ) : Fp D) * Fp.ofReal mPi / Fp.ofReal ((2 * M : Nat) : ℝ)) := ⟨_, rfl⟩
  rw [← hC] at c1 c2 ⊢
  have c3 : |C.val - Real.cos (y * Real.pi)| ≤ σ + 13 * N * D.u := by
    have h1 := abs_add_le (C.val - Real.cos (D.rnd (D.rnd (y * (2 * M : Nat) * (Fp.ofReal mPi : Fp D).val) / (2 * M : Nat)))) (Real.cos (D.rnd (D.rnd (y * (2 * M : Nat) * (Fp.ofReal mPi : Fp D).val) / (2 * M : Nat))) - Real.cos (y * Real.pi))
    rw [sub_add_sub_cancel] at h1
    have h2 := Real.abs_cos_sub_cos_le (D.rnd (D.rnd (y * (2 * M : Nat) * (Fp.ofReal mPi : Fp D).val) / (2 * M : Nat))) (y * Real.pi)
    linarith
  -- the weight
  have weight : ∀ k : Nat, 1 ≤ k → k ≤ M → k ≤ 2 → ((CMath.sqrt ((Fp.ofReal (k : ℝ) : Fp D) / Fp.ofReal (M : ℝ)) : Fp D)).Finite ∧
      |(CMath.sqrt ((Fp.ofReal (k : ℝ) : Fp D) / Fp.ofReal (M : ℝ)) : Fp D).val - Real.sqrt (k / M)| ≤ 3 * D.u ∧ Real.sqrt ((k : ℝ) / M) ≤ 1 := by
    intro k k0 kM k2'
    have kr : (1 : ℝ) ≤ k := by exact_mod_cast k0
    have kMr : (k : ℝ) ≤ M := by exact_mod_cast kM
    have kp : (k : ℝ) / M ≤ 1 := by rw [div_le_one (by linarith)]; exact kMr
    have kp0 : 0 < (k : ℝ) / M := by positivity
    obtain ⟨j1, j2⟩ := nat k (by omega)
    obtain ⟨d1, d2⟩ := Fp.div_fin (F := D) h0 j1 k1 (by rw [k2]; positivity) (by rw [j2, k2, abs_of_pos kp0]; linarith)
    rw [j2, k2] at d2
    have d3 := rnd_err_normal (F := D) (x := (k : ℝ) / M) (by
      rw [abs_of_pos kp0, le_div_iff₀ (by linarith)]
      have hd : (M : ℝ) ≤ (2 : ℝ) ^ ((D.p : Int) + 1) := by exact_mod_cast (by omega : M ≤ 2 ^ (D.p + 1))
      calc (2 : ℝ) ^ D.emin * M ≤ (2 : ℝ) ^ D.emin * (2 : ℝ) ^ ((D.p : Int) + 1) := mul_le_mul_of_nonneg_left hd (by positivity)
        _ = (2 : ℝ) ^ (D.emin + ((D.p : Int) + 1)) := (zpow_add₀ (by norm_num) _ _).symm
        _ ≤ 1 := zpow_le_one_of_nonpos₀ (by norm_num) (by unfold emin; omega)
        _ ≤ k := kr)
    have d4 : 0 ≤ D.rnd ((k : ℝ) / M) := rnd_nonneg kp0.le
    have d5 := sqrt_rel (F := D) hp (rnd_rep ((k : ℝ) / M)) d4
    obtain ⟨w0, w1, w2⟩ := dct_weight u0 hu kp0 kp d3 d5
    obtain ⟨s1, s2⟩ := Fp.sqrt_fin (F := D) h0 d1 (by rw [d2]; exact d4)
    show (L.sqrt _).Finite ∧ |(L.sqrt _).val - _| ≤ _ ∧ _
    rw [hL]
    rw [d2] at s2
    refine ⟨s1, ?_, ?_⟩
    · rw [s2]; exact w2
    · rw [← Real.sqrt_one]; exact Real.sqrt_le_sqrt kp
  obtain ⟨w, hw⟩ : ∃ w, w = if r = 0 then CMath.sqrt ((Fp.ofReal ((1 : Nat) : ℝ) : Fp D) / Fp.ofReal (M : ℝ)) else CMath.sqrt ((Fp.ofReal ((2 : Nat) : ℝ) : Fp D) / Fp.ofReal (M : ℝ)) := ⟨_, rfl⟩
  have hw3 : w.Finite ∧ |w.val - Spec.dctWeight M r| ≤ 3 * D.u ∧ Spec.dctWeight M r ≤ 1 := by
    rw [hw]
    unfold Spec.dctWeight
    split_ifs with hr0
    · simpa using weight 1 le_rfl (by omega) (by omega)
    · simpa using weight 2 (by omega) (by omega) le_rfl
  have hwt0 : 0 ≤ Spec.dctWeight M r := by unfold Spec.dctWeight; split_ifs <;> exact Real.sqrt_nonneg _
  show (Fp.convert F (C * _)).Finite ∧ |(Fp.convert F (C * _)).val - _| ≤ _
  rw [← hw]
  obtain ⟨wf, we, w1⟩ := hw3
  unfold Spec.dctErr at hE ⊢
  have hE1 : σ + 13 * N * D.u ≤ 1 := by linarith
  have f1 := rnd_err_add (F := D) (C.val * w.val)
  obtain ⟨b1, b2, b3⟩ := dct_prod u0 hu hηu hE1 c3 (Real.abs_cos_le_one _) hwt0 w1 we f1
  obtain ⟨g1, g2⟩ := Fp.mul_fin (F := D) h0 c1 wf (by linarith)
  rw [← g2] at b2 b3
  obtain ⟨t1, t2⟩ := Fp.convert_fin (G := F) (Usual.pos hF) g1 (by linarith)
  refine ⟨t1, ?_⟩
  have t3 := rnd_err_add (F := F) (C * w).val
  have t4 := mul_le_mul_of_nonneg_left b2 uF0.le
  rw [t2, Spec.dct_eq, ← hy]
  have t5 := abs_add_le (F.rnd (C * w).val - (C * w).val) ((C * w).val - Real.cos (y * Real.pi) * Spec.dctWeight M r)
  rw [sub_add_sub_cancel] at t5
  linarith

/-- **C145** `set_dct()`, for every size for which the integers involved have at most `p + 1` binary digits: every entry is finite and within `σ + ( 13 N + 10 ) u + 6 u'` of the entry of the orthonormal DCT-II basis, `u` for `double`, `u'` for
the element type and `σ` for the cosine of the library. -/
theorem C145_entries (cfg : Cfg) (m : Mat M N (Fp F)) :
    ∃ d, m.setDctFp D cfg = .ok d ∧ ∀ r c, (d.toMat r c).Finite ∧ |(d.toMat r c).val - Spec.dct M r.1 c.1| ≤ Spec.dctErr F D N σ := by
  refine ⟨ofFn fun r c => Fp.convert F (CMath.cos ((Fp.ofReal (((2 * c.1 + 1) * r.1 : Nat) : ℝ) : Fp D) * Fp.ofReal mPi / Fp.ofReal ((2 * M : Nat) : ℝ)) *
      (if r.1 = 0 then CMath.sqrt ((Fp.ofReal ((1 : Nat) : ℝ) : Fp D) / Fp.ofReal (M : ℝ)) else CMath.sqrt ((Fp.ofReal ((2 : Nat) : ℝ) : Fp D) / Fp.ofReal (M : ℝ)))), ?_, fun r c => ?_⟩
  · unfold setDctFp setDct
    simp only
    apply loop2_full
    intro r hr c hc m _
    rw [atSet_lt cfg m _ hr hc]
  · simp only [toMat, Matrix.of_apply, get_ofFn]
    exact dct_one hF hD hT hL hpi hroom hsize hsize' hE r.2 c.2

end

private theorem dct_le_one (M r c : Nat) (hr : r < M) : |Spec.dct M r c| ≤ 1 := by
  unfold Spec.dct
  rw [abs_mul]
  have hM : (1 : ℝ) ≤ M := by exact_mod_cast (by omega : 1 ≤ M)
  refine mul_le_one₀ (Real.abs_cos_le_one _) (abs_nonneg _) ?_
  split_ifs with h
  · rw [abs_of_nonneg (Real.sqrt_nonneg _), Real.sqrt_le_left zero_le_one, one_pow, div_le_one (by linarith)]
    exact hM
  · have hM2 : (2 : ℝ) ≤ M := by exact_mod_cast (by omega : 2 ≤ M)
    rw [abs_of_nonneg (Real.sqrt_nonneg _), Real.sqrt_le_left zero_le_one, one_pow, div_le_one (by linarith)]
    exact hM2

private theorem gram_close {M : Nat} {f g : Fin M → Fin M → ℝ} {E : ℝ} (hE0 : 0 ≤ E) (hE : E ≤ 1) (h : ∀ i j, |f i j - g i j| ≤ E) (hg : ∀ i j, |g i j| ≤ 1) (i j : Fin M) :
    |∑ c, f i c * f j c - ∑ c, g i c * g j c| ≤ 3 * M * E := by
  rw [← Finset.sum_sub_distrib]
  refine (Finset.abs_sum_le_sum_abs _ _).trans ?_
  have : ∀ c ∈ Finset.univ, |f i c * f j c - g i c * g j c| ≤ 3 * E := by
    intro c _
    have e : f i c * f j c - g i c * g j c = (f i c - g i c) * (f j c - g j c) + (g i c * (f j c - g j c) + (f i c - g i c) * g j c) := by ring
    rw [e]
    refine (abs_add_le _ _).trans ?_
    have t := abs_add_le (g i c * (f j c - g j c)) ((f i c - g i c) * g j c)
    rw [abs_mul, abs_mul] at t
    rw [abs_mul]
    have a1 := mul_le_mul (h i c) (h j c) (abs_nonneg _) hE0
    have a2 := mul_le_mul (hg i c) (h j c) (abs_nonneg _) zero_le_one
    have a3 := mul_le_mul (h i c) (hg j c) (abs_nonneg _) hE0
    have a4 := mul_le_mul_of_nonneg_left hE hE0
    linarith
  refine (Finset.sum_le_sum this).trans (le_of_eq ?_)
  rw [Finset.sum_const, Finset.card_univ, Fintype.card_fin, nsmul_eq_mul]
  ring

/-- **C145** The rows and the columns of the matrix that `set_dct()` makes of a square matrix are orthonormal up to `3 M` times the error of an entry: transforming with it and with its transpose is undone up to that. -/
theorem C145_orthonormal (hF : Spec.Usual F) (hD : Spec.Usual D) [L : CMath (Fp D)] {σ : ℝ} (hT : Spec.Trig L σ) (hL : L.sqrt = (Fp.instCMath.sqrt : Fp D → Fp D)) (hpi : 1e-20 ≤ D.u) (hroom : D.p + 3 ≤ D.emax)
    (hsize : 2 * M * M ≤ 2 ^ (D.p + 1)) (hE : Spec.dctErr F D M σ ≤ 1) (cfg : Cfg) (m : Mat M M (Fp F)) :
    ∃ d, m.setDctFp D cfg = .ok d ∧ ∀ i j : Fin M,
      |∑ c, (d.toMat i c).val * (d.toMat j c).val - (if i = j then 1 else 0)| ≤ 3 * M * Spec.dctErr F D M σ ∧
      |∑ r, (d.toMat r i).val * (d.toMat r j).val - (if i = j then 1 else 0)| ≤ 3 * M * Spec.dctErr F D M σ := by
  rcases Nat.eq_zero_or_pos M with hM0 | hM0
  · subst hM0
    refine ⟨m, ?_, fun i => i.elim0⟩
    unfold setDctFp setDct
    simp [loop_zero]
  obtain ⟨d, hd, h⟩ := C145_entries hF hD hT hL hpi hroom hsize (le_trans (Nat.le_mul_of_pos_right _ hM0) hsize) hE cfg m
  refine ⟨d, hd, fun i j => ?_⟩
  have hE0 : 0 ≤ Spec.dctErr F D M σ := (abs_nonneg _).trans (h i j).2
  obtain ⟨e, -, he, h1, h2⟩ := C45_dct cfg (ofFn fun _ _ => 0 : Mat M M ℝ)
  constructor
  · have := gram_close (f := fun i c => (d.toMat i c).val) (g := fun i c => Spec.dct M i.1 c.1) hE0 hE (fun i c => (h i c).2) (fun i c => dct_le_one M i.1 c.1 i.2) i j
    rwa [dct_orthonormal] at this
  · have := gram_close (f := fun i r => (d.toMat r i).val) (g := fun i r => Spec.dct M r.1 i.1) hE0 hE (fun i c => (h c i).2) (fun i c => dct_le_one M c.1 i.1 c.2) i j
    have e2 : ∑ c : Fin M, Spec.dct M c.1 i.1 * Spec.dct M c.1 j.1 = if i = j then 1 else 0 := by
      have := congrFun (congrFun h2 i) j
      rw [Matrix.mul_apply, Matrix.one_apply] at this
      rw [← this]
      exact Finset.sum_congr rfl fun c _ => by rw [Matrix.transpose_apply, he, he]
    rwa [e2] at this

/-- The hypotheses can be met: a 64 x 64 `float` matrix computed in `double` with a correctly rounded library. -/
example (cfg : Cfg) (m : Mat 64 64 (Fp Format.single)) : ∃ d, m.setDctFp Format.double cfg = .ok d ∧ ∀ i j : Fin 64,
    |∑ c, (d.toMat i c).val * (d.toMat j c).val - (if i = j then 1 else 0)| ≤ 1e-4 := by
  have hu : Format.double.u = (2 : ℝ)⁻¹ ^ 53 := rfl
  have hu' : Format.single.u = (2 : ℝ)⁻¹ ^ 24 := rfl
  have hη := eta_le_u (F := Format.double) (by decide)
  have hE : Spec.dctErr Format.single Format.double 64 (Format.double.u + Format.double.eta) ≤ 5e-7 := by
    unfold Spec.dctErr
    rw [hu] at hη ⊢
    rw [hu']
    norm_num at hη ⊢
    linarith
  obtain ⟨d, h1, h2⟩ := C145_orthonormal (F := Format.single) (D := Format.double) usual_single usual_double (C134_correctly_rounded (by decide)) rfl (by rw [hu]; norm_num) (by decide) (by decide) (hE.trans (by norm_num)) cfg m
  refine ⟨d, h1, fun i j => (h2 i j).1.trans ?_⟩
  push_cast
  norm_num at hE ⊢
  linarith

end Vmml
