import Verif.Model.FilterFloat
import Verif.Proofs.FApprox
import Verif.Props.FloatBox
import Verif.Props.LowpassFilter

/-!
# C112: the low-pass filter in IEEE 754 arithmetic
-/

namespace Vmml
open Format Lowpass
variable {F D : Format}

/-! ## Conversions -/

theorem u_le (h : F.p ≤ D.p) : D.u ≤ F.u := by
  unfold u
  exact pow_le_pow_of_le_one (by norm_num) (by norm_num) (by omega)

theorem rep_widen (hp : F.p ≤ D.p) (he : F.emax ≤ D.emax) {x : ℝ} (h : F.Rep x) : D.Rep x := by
  obtain ⟨k, e, h1, h2, rfl⟩ := h
  refine ⟨k, e, ?_, h2.trans ?_, rfl⟩
  · unfold emin at *; omega
  · exact pow_le_pow_right₀ (by norm_num) (by omega)

theorem max_widen (hp : F.p ≤ D.p) (he : F.emax ≤ D.emax) : F.maxFinite ≤ D.maxFinite := by
  have key : ∀ G : Format, G.maxFinite = (2 - (2 : ℝ)⁻¹ ^ G.p) * (2 : ℝ) ^ (G.emax : Int) := by
    intro G
    unfold maxFinite
    rw [zpow_sub₀ (by norm_num), zpow_natCast, zpow_natCast, pow_succ, inv_pow]
    field_simp
  rw [key, key]
  have h1 : (2 : ℝ)⁻¹ ^ D.p ≤ (2 : ℝ)⁻¹ ^ F.p := pow_le_pow_of_le_one (by norm_num) (by norm_num) hp
  have h2 : (2 : ℝ)⁻¹ ^ F.p ≤ 1 := pow_le_one₀ (by norm_num) (by norm_num)
  have h3 : (2 : ℝ) ^ (F.emax : Int) ≤ (2 : ℝ) ^ (D.emax : Int) := zpow_le_zpow_right₀ (by norm_num) (by omega)
  have h4 : (0 : ℝ) < (2 : ℝ) ^ (F.emax : Int) := by positivity
  exact mul_le_mul (by linarith) h3 h4.le (by linarith)

theorem tiny_widen (he : F.emax ≤ D.emax) : D.tiny ≤ F.tiny := by
  unfold Format.tiny
  exact zpow_le_zpow_right₀ (by norm_num) (by unfold emin; omega)

theorem Fp.convert_fin {G : Format} (h0 : 0 < G.emax) {a : Fp F} (ha : a.Finite) (h : |a.val| ≤ G.maxFinite) :
    (Fp.convert G a).Finite ∧ (Fp.convert G a).val = G.rnd a.val := by
  obtain ⟨s, m, hm, rfl⟩ := Fp.finite_cases ha
  have hm0 := hm.1
  have e : |(Fp.fin s m hm).val| = m := by cases s <;> simp [abs_of_nonneg hm0]
  have := Fp.round_signed (s := s) h0 (x := (Fp.fin s m hm).val) (by
    intro hne
    cases s
    · simp [hm0]
    · simp at hne ⊢; exact lt_of_le_of_ne hm0 (Ne.symm hne)) h
  rw [e] at this
  exact this

theorem Fp.widen_fin (hp : F.p ≤ D.p) (he : F.emax ≤ D.emax) (h0 : 0 < F.emax) {a : Fp F} (ha : a.Finite) :
    (Fp.convert D a).Finite ∧ (Fp.convert D a).val = a.val := by
  obtain ⟨h1, h2⟩ := Fp.convert_fin (G := D) (by omega) ha ((Fp.abs_val_le a).trans (max_widen hp he))
  rw [(rep_widen hp he (Fp.rep_val ha)).rnd_eq] at h2
  exact ⟨h1, h2⟩

theorem rnd_err_le {x X : ℝ} (h : |x| ≤ X) (hX : F.tiny ≤ X) : |F.rnd x - x| ≤ F.u * X := by
  rcases lt_or_ge |x| ((2 : ℝ) ^ F.emin) with hs | hs
  · refine (rnd_err_small hs).trans ?_
    rw [Format.eta_eq_tiny]
    exact mul_le_mul_of_nonneg_left hX u_pos.le
  · exact (rnd_err_normal hs).trans (mul_le_mul_of_nonneg_left h u_pos.le)

theorem tiny_le_one (h0 : 0 < F.emax) : F.tiny ≤ 1 := by
  unfold Format.tiny
  exact zpow_le_one_of_nonpos₀ (by norm_num) (by unfold emin; omega)

/-! ## One step -/

/-- The errors of one step, in real numbers. -/
private theorem step_real {u K B E c w W v V x a1 a2 s r : ℝ} (hu : 0 ≤ u) (hu4 : u ≤ 1 / 4) (hK : 0 ≤ K) (hB : 0 ≤ B) (hE : 0 ≤ E)
    (hc0 : 0 ≤ c) (hc1 : c ≤ 1) (hw0 : 0 ≤ w) (hc : |c - (1 - w)| ≤ u) (hw : |w - W| ≤ K * u) (hv : |v - V| ≤ E) (hV : |V| ≤ B) (hx : |x| ≤ B)
    (h1 : |a1 - v * c| ≤ u * (B + E)) (h2 : |a2 - x * w| ≤ u * B) (h3 : |s - (a1 + a2)| ≤ u * |a1 + a2|)
    (h4 : |r - s| ≤ u * ((1 + u) * ((1 + 3 * u) * B + (1 + u) * E))) :
    |a1 + a2| ≤ (1 + 3 * u) * B + (1 + u) * E ∧ |s| ≤ (1 + u) * ((1 + 3 * u) * B + (1 + u) * E) ∧
    |r - ((1 - W) * V + W * x)| ≤ (1 + u) ^ 3 * E + u * (7 + 2 * K) * B := by
  have hva : |v| ≤ B + E := by
    calc |v| = |V + (v - V)| := by congr 1; ring
      _ ≤ _ := abs_add_le _ _
      _ ≤ _ := by linarith
  have hcw : c + w ≤ 1 + u := by linarith [(abs_le.1 hc).2]
  have hsum : |a1 + a2| ≤ (1 + 3 * u) * B + (1 + u) * E := by
    have e1 : |v * c| ≤ (B + E) * c := by rw [abs_mul, abs_of_nonneg hc0]; exact mul_le_mul_of_nonneg_right hva hc0
    have e2 : |x * w| ≤ B * w := by rw [abs_mul, abs_of_nonneg hw0]; exact mul_le_mul_of_nonneg_right hx hw0
    have e3 : |a1 + a2| ≤ |a1 - v * c| + |a2 - x * w| + (|v * c| + |x * w|) := by
      calc |a1 + a2| = |((a1 - v * c) + (a2 - x * w)) + (v * c + x * w)| := by congr 1; ring
        _ ≤ _ := (abs_add_le _ _).trans (add_le_add (abs_add_le _ _) (abs_add_le _ _))
    have e4 : E * c ≤ E := by nlinarith
    have e5 : B * (c + w) ≤ B * (1 + u) := mul_le_mul_of_nonneg_left hcw hB
    nlinarith
  have hs : |s| ≤ (1 + u) * ((1 + 3 * u) * B + (1 + u) * E) := by
    calc |s| = |(s - (a1 + a2)) + (a1 + a2)| := by congr 1; ring
      _ ≤ _ := abs_add_le _ _
      _ ≤ u * |a1 + a2| + |a1 + a2| := by linarith
      _ = (1 + u) * |a1 + a2| := by ring
      _ ≤ _ := mul_le_mul_of_nonneg_left hsum (by linarith)
  refine ⟨hsum, hs, ?_⟩
  have e1 : |v * c + x * w - ((1 - W) * V + W * x)| ≤ E + (u + K * u) * B + K * u * B := by
    have i1 : |c - (1 - W)| ≤ u + K * u := by
      calc |c - (1 - W)| = |(c - (1 - w)) + -(w - W)| := by congr 1; ring
        _ ≤ _ := abs_add_le _ _
        _ ≤ _ := by rw [abs_neg]; linarith
    calc _ = |(v - V) * c + (c - (1 - W)) * V + (w - W) * x| := by congr 1; ring
      _ ≤ |(v - V) * c| + |(c - (1 - W)) * V| + |(w - W) * x| := (abs_add_le _ _).trans (add_le_add (abs_add_le _ _) le_rfl)
      _ ≤ _ := by
        have j1 : |(v - V) * c| ≤ E := by
          rw [abs_mul, abs_of_nonneg hc0]
          calc |v - V| * c ≤ |v - V| * 1 := mul_le_mul_of_nonneg_left hc1 (abs_nonneg _)
            _ ≤ E := by linarith
        have j2 : |(c - (1 - W)) * V| ≤ (u + K * u) * B := by rw [abs_mul]; exact mul_le_mul i1 hV (abs_nonneg _) (by positivity)
        have j3 : |(w - W) * x| ≤ K * u * B := by rw [abs_mul]; exact mul_le_mul hw hx (abs_nonneg _) (by positivity)
        linarith
  have e2 : |r - ((1 - W) * V + W * x)| ≤ |r - s| + |s - (a1 + a2)| + |a1 - v * c| + |a2 - x * w| + |v * c + x * w - ((1 - W) * V + W * x)| := by
    calc _ = |(r - s) + (s - (a1 + a2)) + (a1 - v * c) + (a2 - x * w) + (v * c + x * w - ((1 - W) * V + W * x))| := by congr 1; ring
      _ ≤ _ := (abs_add_le _ _).trans (add_le_add ((abs_add_le _ _).trans (add_le_add ((abs_add_le _ _).trans (add_le_add (abs_add_le _ _) le_rfl)) le_rfl)) le_rfl)
  have e3 : u * |a1 + a2| ≤ u * ((1 + 3 * u) * B + (1 + u) * E) := mul_le_mul_of_nonneg_left hsum hu
  have e4 : (2 + u) * (1 + 3 * u) ≤ 4 := by nlinarith
  have e5 : u * ((2 + u) * (1 + 3 * u)) * B ≤ u * 4 * B := mul_le_mul_of_nonneg_right (mul_le_mul_of_nonneg_left e4 hu) hB
  nlinarith

/-- The weights of the code: in `[0, 1]`, and at most `k` rounding errors from the power (at most `1 / ( 1 - f )` for factors below 1). -/
private theorem weight_step (h0 : 0 < D.emax) {f w : Fp D} (hf : f.Finite) (f0 : 0 ≤ f.val) (f1 : f.val ≤ 1) (hw : w.Finite) (w0 : 0 ≤ w.val) (w1 : w.val ≤ 1) :
    (w * f).Finite ∧ 0 ≤ (w * f).val ∧ (w * f).val ≤ 1 ∧ ∀ W : ℝ, |(w * f).val - W * f.val| ≤ f.val * |w.val - W| + D.u := by
  have p0 : 0 ≤ w.val * f.val := mul_nonneg w0 f0
  have p1 : w.val * f.val ≤ 1 := mul_le_one₀ w1 f0 f1
  obtain ⟨g1, g2⟩ := Fp.mul_fin h0 hw hf (by rw [abs_of_nonneg p0]; exact p1.trans (one_le_max h0))
  have hone : D.Rep 1 := by simpa using rep_pow (F := D) (e := 0) (by unfold emin; omega)
  refine ⟨g1, ?_, ?_, fun W => ?_⟩
  · rw [g2]; exact rnd_nonneg p0
  · rw [g2]; exact rnd_le_rep hone p1
  · rw [g2]
    have h1 := rnd_err_le (F := D) (x := w.val * f.val) (X := 1) (by rw [abs_of_nonneg p0]; exact p1) (tiny_le_one h0)
    calc |D.rnd (w.val * f.val) - W * f.val| = |(D.rnd (w.val * f.val) - w.val * f.val) + f.val * (w.val - W)| := by congr 1; ring
      _ ≤ _ := abs_add_le _ _
      _ ≤ _ := by rw [abs_mul f.val, abs_of_nonneg f0]; linarith

private theorem blend_step (hp : F.p ≤ D.p) (he : F.emax ≤ D.emax) (h0 : 0 < F.emax) (hp1 : 1 ≤ F.p) {B E K V W : ℝ} {v x : Fp F} {w : Fp D}
    (hv : v.Finite) (hx : x.Finite) (hw : w.Finite) (w0 : 0 ≤ w.val) (w1 : w.val ≤ 1) (hK : 0 ≤ K) (hB : F.tiny ≤ B) (hB4 : 4 * B ≤ F.maxFinite)
    (hE0 : 0 ≤ E) (hEB : E ≤ B) (hwW : |w.val - W| ≤ K * F.u) (hvV : |v.val - V| ≤ E) (hV : |V| ≤ B) (hxB : |x.val| ≤ B) :
    (Blend.lin v (1 - w) x w : Fp F).Finite ∧
    |(Blend.lin v (1 - w) x w : Fp F).val - ((1 - W) * V + W * x.val)| ≤ (1 + F.u) ^ 3 * E + F.u * (7 + 2 * K) * B := by
  have hu := F.u_pos
  have hud := D.u_pos
  have hule := u_le hp
  have hB0 : 0 < B := lt_of_lt_of_le Format.tiny_pos hB
  have hu4 : F.u ≤ 1 / 4 := by
    unfold u
    calc (2 : ℝ)⁻¹ ^ (F.p + 1) ≤ (2 : ℝ)⁻¹ ^ 2 := pow_le_pow_of_le_one (by norm_num) (by norm_num) (by omega)
      _ = 1 / 4 := by norm_num
  have hd0 : 0 < D.emax := by omega
  have hmax := max_widen hp he
  have hBD : D.tiny ≤ B := (tiny_widen he).trans hB
  obtain ⟨o1, o2⟩ := Fp.one_fin hd0
  have hone : D.Rep 1 := by simpa using rep_pow (F := D) (e := 0) (by unfold emin; omega)
  obtain ⟨c1, c2⟩ := Fp.sub_fin hd0 o1 hw (by rw [o2, abs_of_nonneg (by linarith)]; linarith [one_le_max hd0])
  rw [o2] at c2
  have hc0 : 0 ≤ (1 - w).val := by rw [c2]; exact rnd_nonneg (by linarith)
  have hc1 : (1 - w).val ≤ 1 := by rw [c2]; exact rnd_le_rep hone (by linarith)
  have hc : |(1 - w).val - (1 - w.val)| ≤ F.u := by
    rw [c2]
    refine (rnd_err_le (X := 1) (by rw [abs_of_nonneg (by linarith)]; linarith) (tiny_le_one hd0)).trans (by linarith)
  have hva : |v.val| ≤ B + E := by
    calc |v.val| = |V + (v.val - V)| := by congr 1; ring
      _ ≤ _ := abs_add_le _ _
      _ ≤ _ := by linarith
  obtain ⟨v1, v2⟩ := Fp.widen_fin hp he h0 hv
  obtain ⟨x1, x2⟩ := Fp.widen_fin hp he h0 hx
  have q1 : |v.val * (1 - w).val| ≤ B + E := by
    rw [abs_mul, abs_of_nonneg hc0]
    exact (mul_le_of_le_one_right (abs_nonneg _) hc1).trans hva
  have q2 : |x.val * w.val| ≤ B := by
    rw [abs_mul, abs_of_nonneg w0]
    exact (mul_le_of_le_one_right (abs_nonneg _) w1).trans hxB
  obtain ⟨a1, a2⟩ := Fp.mul_fin hd0 v1 c1 (by rw [v2]; linarith)
  obtain ⟨b1, b2⟩ := Fp.mul_fin hd0 x1 hw (by rw [x2]; linarith)
  rw [v2] at a2
  rw [x2] at b2
  have k1 : |(Fp.convert D v * (1 - w)).val - v.val * (1 - w).val| ≤ F.u * (B + E) := by
    rw [a2]
    exact (rnd_err_le q1 (by linarith)).trans (mul_le_mul_of_nonneg_right hule (by linarith))
  have k2 : |(Fp.convert D x * w).val - x.val * w.val| ≤ F.u * B := by
    rw [b2]
    exact (rnd_err_le q2 hBD).trans (mul_le_mul_of_nonneg_right hule hB0.le)
  -- the sum
  have ksum := (step_real (s := (Fp.convert D v * (1 - w)).val + (Fp.convert D x * w).val)
    (r := (Fp.convert D v * (1 - w)).val + (Fp.convert D x * w).val) hu.le hu4 hK hB0.le hE0 hc0 hc1 w0 hc hwW hvV hV hxB k1 k2
    (by simpa using mul_nonneg hu.le (abs_nonneg _)) (by rw [sub_self, abs_zero]; positivity)).1
  have k3 : (1 + 3 * F.u) * B + (1 + F.u) * E ≤ 3 * B := by
    have i1 : F.u * B ≤ 1 / 4 * B := mul_le_mul_of_nonneg_right hu4 hB0.le
    have i2 : F.u * E ≤ 1 / 4 * E := mul_le_mul_of_nonneg_right hu4 hE0
    linarith
  obtain ⟨s1, s2⟩ := Fp.add_fin hd0 a1 b1 (by linarith)
  have ks : |(Fp.convert D v * (1 - w) + Fp.convert D x * w).val - ((Fp.convert D v * (1 - w)).val + (Fp.convert D x * w).val)| ≤
      F.u * |(Fp.convert D v * (1 - w)).val + (Fp.convert D x * w).val| := by
    rw [s2]
    exact ((Fp.rep_val a1).grid.add (Fp.rep_val b1).grid).rnd_err.trans (mul_le_mul_of_nonneg_right hule (abs_nonneg _))
  have kS := (step_real (r := (Fp.convert D v * (1 - w) + Fp.convert D x * w).val) hu.le hu4 hK hB0.le hE0 hc0 hc1 w0 hc hwW hvV hV hxB k1 k2 ks
    (by rw [sub_self, abs_zero]; positivity)).2.1
  have k4 : (1 + F.u) * ((1 + 3 * F.u) * B + (1 + F.u) * E) ≤ 4 * B := by
    have := mul_le_mul_of_nonneg_left k3 (show 0 ≤ 1 + F.u by linarith)
    have h : F.u * B ≤ 1 / 4 * B := mul_le_mul_of_nonneg_right hu4 hB0.le
    linarith
  have k5 : B ≤ (1 + F.u) * ((1 + 3 * F.u) * B + (1 + F.u) * E) := by
    have : 0 ≤ F.u * B := by positivity
    have : 0 ≤ F.u * E := by positivity
    have i3 : B ≤ (1 + 3 * F.u) * B + (1 + F.u) * E := by linarith
    exact i3.trans (le_mul_of_one_le_left (hB0.le.trans i3) (by linarith))
  obtain ⟨r1, r2⟩ := Fp.convert_fin (G := F) h0 s1 (by linarith)
  refine ⟨r1, ?_⟩
  refine (step_real hu.le hu4 hK hB0.le hE0 hc0 hc1 w0 hc hwW hvV hV hxB k1 k2 ks ?_).2.2
  show |(Fp.convert F (Fp.convert D v * (1 - w) + Fp.convert D x * w)).val - _| ≤ _
  rw [r2]
  exact rnd_err_le kS (by linarith)

/-- The error bound of the filtered value of `n` samples of magnitude `B`. -/
noncomputable def Spec.filterErr (F : Format) (n : Nat) (K B : ℝ) : ℝ := n * (7 + 2 * K) * F.u * (1 + F.u) ^ (3 * n) * B

private theorem filterErr_succ {K B : ℝ} (hK : 0 ≤ K) (hB : 0 ≤ B) (n : Nat) :
    (1 + F.u) ^ 3 * Spec.filterErr F n K B + F.u * (7 + 2 * K) * B ≤ Spec.filterErr F (n + 1) K B := by
  have hu := F.u_pos
  unfold Spec.filterErr
  have e : (1 + F.u) ^ (3 * (n + 1)) = (1 + F.u) ^ 3 * (1 + F.u) ^ (3 * n) := by rw [← pow_add]; congr 1; ring
  have h1 : (1 : ℝ) ≤ (1 + F.u) ^ (3 * (n + 1)) := one_le_pow₀ (by linarith)
  have h2 : F.u * (7 + 2 * K) * B * 1 ≤ F.u * (7 + 2 * K) * B * (1 + F.u) ^ (3 * (n + 1)) := mul_le_mul_of_nonneg_left h1 (by positivity)
  rw [e] at h2 ⊢
  push_cast
  nlinarith

private theorem filterErr_mono {K B : ℝ} (hK : 0 ≤ K) (hB : 0 ≤ B) {n m : Nat} (h : n ≤ m) : Spec.filterErr F n K B ≤ Spec.filterErr F m K B := by
  have hu := F.u_pos
  unfold Spec.filterErr
  have h1 : (1 + F.u) ^ (3 * n) ≤ (1 + F.u) ^ (3 * m) := pow_le_pow_right₀ (by linarith) (by omega)
  have h2 : (n : ℝ) ≤ m := by exact_mod_cast h
  gcongr

private theorem blend_err (hp : F.p ≤ D.p) (he : F.emax ≤ D.emax) (h0 : 0 < F.emax) (hp1 : 1 ≤ F.p) {f : Fp D} (hf : f.Finite) (f0 : 0 ≤ f.val) (f1 : f.val ≤ 1)
    {B K : ℝ} (hB : F.tiny ≤ B) (hB4 : 4 * B ≤ F.maxFinite) (hK0 : 0 ≤ K) (N : Nat) (hK : (N : ℝ) ≤ K + 1 ∨ 1 ≤ K * (1 - f.val))
    (hsmall : Spec.filterErr F N K B ≤ B) (rest : List (Fp F)) (hrest : ∀ y ∈ rest, y.Finite ∧ |y.val| ≤ B) (win : List ℝ) (hwin : win ≠ [])
    (hN : win.length + rest.length ≤ N) (v : Fp F) (hv : v.Finite) (w : Fp D) (hw : w.Finite) (w0 : 0 ≤ w.val) (w1 : w.val ≤ 1)
    (hwW : |w.val - f.val ^ win.length| ≤ K * F.u ∧ ((N : ℝ) ≤ K + 1 → |w.val - f.val ^ win.length| ≤ (win.length - 1) * F.u))
    (hvV : |v.val - Spec.filtered f.val win| ≤ Spec.filterErr F (win.length - 1) K B) (hV : |Spec.filtered f.val win| ≤ B) :
    (blend f rest v w).Finite ∧
    |(blend f rest v w).val - Spec.filtered f.val (win ++ rest.map Fp.val)| ≤ Spec.filterErr F (win.length + rest.length - 1) K B ∧
    |Spec.filtered f.val (win ++ rest.map Fp.val)| ≤ B := by
  have hu := F.u_pos
  have hB0 : 0 < B := lt_of_lt_of_le Format.tiny_pos hB
  induction rest generalizing win v w with
  | nil => simpa [blend] using ⟨hv, hvV, hV⟩
  | cons x rest ih =>
    obtain ⟨hxf, hxB⟩ := hrest x (by simp)
    have hl : 1 ≤ win.length := List.length_pos_iff.2 hwin
    have hl' : win.length + (rest.length + 1) ≤ N := by simpa using hN
    rw [blend]
    have hEB : Spec.filterErr F (win.length - 1) K B ≤ B := (filterErr_mono hK0 hB0.le (by omega)).trans hsmall
    have hE0 : 0 ≤ Spec.filterErr F (win.length - 1) K B := by unfold Spec.filterErr; positivity
    obtain ⟨g1, g2⟩ := blend_step hp he h0 hp1 hv hxf hw w0 w1 hK0 hB hB4 hE0 hEB hwW.1 hvV hV hxB
    obtain ⟨m1, m2, m3, m4⟩ := weight_step (by omega) hf f0 f1 hw w0 w1
    have hfa := filtered_append f.val win x.val
    simp only [smul_eq_mul] at hfa
    have hW0 : 0 ≤ f.val ^ win.length := by positivity
    have hW1 : f.val ^ win.length ≤ 1 := pow_le_one₀ f0 f1
    have := ih (fun y hy => hrest y (by simp [hy])) (win ++ [x.val]) (by simp) (by simp; omega) _ g1 _ m1 m2 m3 ?_ ?_ ?_
    · simpa [add_assoc, add_comm 1] using this
    · have h4 := m4 (f.val ^ win.length)
      rw [← pow_succ] at h4
      have hud := u_le hp
      have key2 : (N : ℝ) ≤ K + 1 → |(w * f).val - f.val ^ (win.length + 1)| ≤ win.length * F.u := by
        intro hh
        have a1 := hwW.2 hh
        have a2 : f.val * |w.val - f.val ^ win.length| ≤ |w.val - f.val ^ win.length| := mul_le_of_le_one_left (abs_nonneg _) f1
        linarith
      refine ⟨?_, by simpa using key2⟩
      rw [List.length_append, List.length_singleton]
      rcases hK with hh | hh
      · refine (key2 hh).trans (mul_le_mul_of_nonneg_right ?_ hu.le)
        have : ((win.length + 1 : Nat) : ℝ) ≤ N := by exact_mod_cast (by omega : win.length + 1 ≤ N)
        push_cast at this
        linarith
      · have a1 : f.val * |w.val - f.val ^ win.length| ≤ f.val * (K * F.u) := mul_le_mul_of_nonneg_left hwW.1 f0
        nlinarith
    · rw [hfa]
      have e : (win ++ [x.val]).length - 1 = (win.length - 1) + 1 := by simp; omega
      rw [e]
      exact g2.trans (filterErr_succ hK0 hB0.le _)
    · rw [hfa]
      calc _ ≤ |(1 - f.val ^ win.length) * Spec.filtered f.val win| + |f.val ^ win.length * x.val| := abs_add_le _ _
        _ ≤ (1 - f.val ^ win.length) * B + f.val ^ win.length * B := by
          rw [abs_mul, abs_mul, abs_of_nonneg (show 0 ≤ 1 - f.val ^ win.length by linarith), abs_of_nonneg hW0]
          exact add_le_add (mul_le_mul_of_nonneg_left hV (by linarith)) (mul_le_mul_of_nonneg_left hxB hW0)
        _ = B := by ring

/-- **C112** `add( value )` for `float` or `double` samples (format `F`, computed with weights of format `D`): for samples of magnitude at most `B` (four times
`B` in range) and a factor in `[0, 1]` the result is finite and differs from the exact filtered value of the window by at most `Spec.filterErr`, about
`M ( 7 + 2 K )` units in the last place of `B`. `K` is any number with `M ≤ K + 1` or, for factors below 1, `1 / ( 1 - f ) ≤ K`. -/
theorem C112_add (hp : F.p ≤ D.p) (he : F.emax ≤ D.emax) (h0 : 0 < F.emax) (hp1 : 1 ≤ F.p) (M : Nat) (hM : 1 ≤ M) (l : Lowpass (Fp D) (Fp F)) (x : Fp F)
    (hf : l.factor.Finite) (f0 : 0 ≤ l.factor.val) (f1 : l.factor.val ≤ 1) (B : ℝ) (hB : F.tiny ≤ B) (hB4 : 4 * B ≤ F.maxFinite)
    (hfin : ∀ y ∈ (x :: l.data).take M, y.Finite ∧ |y.val| ≤ B) (K : ℝ) (hK0 : 0 ≤ K) (hK : (M : ℝ) ≤ K + 1 ∨ 1 ≤ K * (1 - l.factor.val))
    (hsmall : Spec.filterErr F M K B ≤ B) :
    ∃ l' v, l.add M x = .ok (l', v) ∧ l'.get = .ok v ∧ v.Finite ∧
      |v.val - Spec.filtered l.factor.val (((x :: l.data).take M).map Fp.val)| ≤ Spec.filterErr F (M - 1) K B := by
  obtain ⟨k, rfl⟩ : ∃ k, M = k + 1 := ⟨M - 1, by omega⟩
  have hB0 : 0 < B := lt_of_lt_of_le Format.tiny_pos hB
  refine ⟨⟨(x :: l.data).take (k + 1), l.factor, some (blend l.factor (l.data.take k) x l.factor)⟩, blend l.factor (l.data.take k) x l.factor, ?_, rfl, ?_⟩
  · simp only [add, trim_eq, List.take_succ_cons]
    rfl
  have hs : Spec.filtered l.factor.val [x.val] = x.val := by simp [Spec.filtered, Spec.weight]
  have hx := hfin x (by simp)
  have := blend_err hp he h0 hp1 hf f0 f1 hB hB4 hK0 (k + 1) hK hsmall (l.data.take k) (fun y hy => hfin y (by simp [hy])) [x.val] (by simp)
    (by simp; omega) x hx.1 l.factor hf f0 f1 (by
      simp only [List.length_singleton, pow_one, sub_self, abs_zero, Nat.cast_one, zero_mul, le_refl, implies_true, and_true]
      exact mul_nonneg hK0 u_pos.le) (by rw [hs, sub_self, abs_zero]; simp [Spec.filterErr]) (by rw [hs]; exact hx.2)
  refine ⟨this.1, ?_⟩
  simp only [List.take_succ_cons, List.map_cons]
  refine this.2.1.trans (filterErr_mono hK0 hB0.le ?_)
  simp

private theorem add_data (M : Nat) (hM : 1 ≤ M) (l : Lowpass (Fp D) (Fp F)) (x : Fp F) :
    ∃ l' v, l.add M x = .ok (l', v) ∧ l'.data = (x :: l.data).take M ∧ l'.factor = l.factor ∧ l'.get = .ok v ∧
      v = blend l.factor (l.data.take (M - 1)) x l.factor := by
  obtain ⟨k, rfl⟩ : ∃ k, M = k + 1 := ⟨M - 1, by omega⟩
  refine ⟨⟨(x :: l.data).take (k + 1), l.factor, some (blend l.factor (l.data.take k) x l.factor)⟩, _, ?_, rfl, rfl, rfl, rfl⟩
  simp only [add, trim_eq, List.take_succ_cons]
  rfl

private theorem run_append (M : Nat) (h g : List (Spec.FilterOp (Fp F) (Fp D))) (l : Lowpass (Fp D) (Fp F)) :
    Spec.runFilter M (h ++ g) l = Spec.runFilter M h l >>= Spec.runFilter M g := by
  induction h generalizing l with
  | nil => rfl
  | cons op h ih =>
    cases op with
    | add y =>
      simp only [List.cons_append, Spec.runFilter]
      cases l.add M y with
      | error e => rfl
      | ok p => simp [ih]
    | factor g' => simp only [List.cons_append, Spec.runFilter, ih]

/-- The data after a history. -/
private theorem run_data (M : Nat) (hM : 1 ≤ M) (f : Fp D) (h : List (Spec.FilterOp (Fp F) (Fp D))) :
    ∃ l, Spec.runFilter M h (Lowpass.ctor f) = .ok l ∧ l.data = (Spec.samples h).take M := by
  have key : ∀ (h : List (Spec.FilterOp (Fp F) (Fp D))) (l : Lowpass (Fp D) (Fp F)) (s : List (Fp F)), l.data = s.take M →
      ∃ l', Spec.runFilter M h l = .ok l' ∧ l'.data = (Spec.samples h ++ s).take M := by
    intro h
    induction h with
    | nil => intro l s hs; exact ⟨l, rfl, by simpa [Spec.samples] using hs⟩
    | cons op h ih =>
      intro l s hs
      cases op with
      | add x =>
        obtain ⟨l', v, h1, h2, -⟩ := add_data M hM l x
        obtain ⟨l'', h3, h4⟩ := ih l' (x :: s) (by
          rw [h2, hs]
          obtain ⟨k, rfl⟩ : ∃ k, M = k + 1 := ⟨M - 1, by omega⟩
          simp only [List.take_succ_cons, List.take_take]
          congr 2; omega)
        refine ⟨l'', ?_, ?_⟩
        · simp only [Spec.runFilter, h1, Vmml.bind_ok, h3]
        · rw [h4]; simp [Spec.samples]
      | factor g =>
        obtain ⟨l', h3, h4⟩ := ih (l.setSmoothFactor g) s hs
        exact ⟨l', h3, by simpa [Spec.samples] using h4⟩
  simpa using key h (Lowpass.ctor f) [] (by simp [Lowpass.ctor])

private theorem run_last (M : Nat) (hM : 1 ≤ M) (g f : Fp D) (h : List (Spec.FilterOp (Fp F) (Fp D))) (x : Fp F) :
    ∃ l0 l : Lowpass (Fp D) (Fp F), Spec.runFilter M (h ++ [.factor f, .add x]) (Lowpass.ctor g) = .ok l ∧ l0.factor = f ∧ (x :: l0.data).take M = x :: (Spec.samples h).take (M - 1) ∧
      l0.add M x = .ok (l, blend f ((Spec.samples h).take (M - 1)) x f) ∧ l.get = .ok (blend f ((Spec.samples h).take (M - 1)) x f) := by
  obtain ⟨l, h1, h2⟩ := run_data M hM g h
  obtain ⟨l', v, h3, h4, h5, h6, h7⟩ := add_data M hM (l.setSmoothFactor f) x
  have hd : (l.setSmoothFactor f).data.take (M - 1) = (Spec.samples h).take (M - 1) := by
    show l.data.take (M - 1) = _
    rw [h2, List.take_take]; congr 1; omega
  rw [hd] at h7
  subst h7
  refine ⟨l.setSmoothFactor f, l', ?_, rfl, ?_, h3, h6⟩
  · rw [run_append, h1, Vmml.bind_ok]
    simp only [Spec.runFilter, h3, Vmml.bind_ok]; rfl
  · obtain ⟨k, rfl⟩ : ∃ k, M = k + 1 := ⟨M - 1, by omega⟩
    rw [List.take_succ_cons]
    exact congrArg _ hd

/-- **C112** No drift: after any history of `add` and `set_smooth_factor` calls, of whatever length and whatever samples (NaN and infinities included), the
value after a further `add` is finite and within the bound of `C112_add` of the exact filtered value of the last `M` samples, provided only these are finite
and at most `B` and the current factor is in `[0, 1]`. -/
theorem C112_history (hp : F.p ≤ D.p) (he : F.emax ≤ D.emax) (h0 : 0 < F.emax) (hp1 : 1 ≤ F.p) (M : Nat) (hM : 1 ≤ M) (g f : Fp D)
    (h : List (Spec.FilterOp (Fp F) (Fp D))) (x : Fp F) (hf : f.Finite) (f0 : 0 ≤ f.val) (f1 : f.val ≤ 1) (B : ℝ) (hB : F.tiny ≤ B) (hB4 : 4 * B ≤ F.maxFinite)
    (hfin : ∀ y ∈ x :: (Spec.samples h).take (M - 1), y.Finite ∧ |y.val| ≤ B) (K : ℝ) (hK0 : 0 ≤ K) (hK : (M : ℝ) ≤ K + 1 ∨ 1 ≤ K * (1 - f.val))
    (hsmall : Spec.filterErr F M K B ≤ B) :
    ∃ l v, Spec.runFilter M (h ++ [.factor f, .add x]) (Lowpass.ctor g) = .ok l ∧ l.get = .ok v ∧ v.Finite ∧
      |v.val - Spec.filtered f.val ((x :: (Spec.samples h).take (M - 1)).map Fp.val)| ≤ Spec.filterErr F (M - 1) K B := by
  obtain ⟨l0, l, h1, h2, h3, h4, h5⟩ := run_last M hM g f h x
  subst h2
  obtain ⟨l', v, k1, k2, k3, k4⟩ := C112_add hp he h0 hp1 M hM l0 x hf f0 f1 B hB hB4 (by rw [h3]; exact hfin) K hK0 hK hsmall
  rw [h4] at k1
  injection k1 with k1
  injection k1 with k1 k1'
  rw [h3] at k4
  exact ⟨l, v, h1, k1 ▸ k2, k3, k4⟩

/-- **C112** The value is, bit for bit, a function of the last `M` samples and the factor. -/
theorem C112_forgets (M : Nat) (hM : 1 ≤ M) (g g' f : Fp D) (h h' : List (Spec.FilterOp (Fp F) (Fp D))) (x : Fp F)
    (heq : (Spec.samples h).take (M - 1) = (Spec.samples h').take (M - 1)) :
    ∃ l l' v, Spec.runFilter M (h ++ [.factor f, .add x]) (Lowpass.ctor g) = .ok l ∧ Spec.runFilter M (h' ++ [.factor f, .add x]) (Lowpass.ctor g') = .ok l' ∧
      l.get = .ok v ∧ l'.get = .ok v := by
  obtain ⟨l0, l, h1, -, -, -, h5⟩ := run_last M hM g f h x
  obtain ⟨l0', l', h1', -, -, -, h5'⟩ := run_last M hM g' f h' x
  rw [← heq] at h5'
  exact ⟨l, l', _, h1, h1', h5, h5'⟩

private theorem nan_mul (a : Fp D) : (.nan : Fp D) * a = .nan := rfl
private theorem nan_add (a : Fp D) : (.nan : Fp D) + a = .nan := rfl
private theorem add_nan (a : Fp D) : a + (.nan : Fp D) = .nan := by cases a <;> rfl

private theorem blend_nan (f : Fp D) (rest : List (Fp F)) (v : Fp F) (w : Fp D) (h : v = .nan ∨ .nan ∈ rest) : blend f rest v w = .nan := by
  induction rest generalizing v w with
  | nil => rcases h with h | h
           · rw [blend]; exact h
           · cases h
  | cons x rest ih =>
    rw [blend]
    apply ih
    rcases h with rfl | h
    · left; rfl
    · rcases List.mem_cons.1 h with h | h
      · left
        show Fp.convert F (Fp.convert D v * (1 - w) + Fp.convert D x * w) = .nan
        rw [← h]
        show Fp.convert F (Fp.convert D v * (1 - w) + .nan * w) = .nan
        rw [nan_mul, add_nan]; rfl
      · right; exact h

/-- **C112** A NaN sample makes the value NaN as long as it is among the last `M` samples (afterwards, `C112_history` applies again). -/
theorem C112_nan (M : Nat) (hM : 1 ≤ M) (g f : Fp D) (h : List (Spec.FilterOp (Fp F) (Fp D))) (x : Fp F)
    (hn : .nan ∈ x :: (Spec.samples h).take (M - 1)) :
    ∃ l, Spec.runFilter M (h ++ [.factor f, .add x]) (Lowpass.ctor g) = .ok l ∧ l.get = .ok .nan := by
  obtain ⟨l0, l, h1, -, -, -, h5⟩ := run_last M hM g f h x
  refine ⟨l, h1, ?_⟩
  rw [h5, blend_nan]
  rcases List.mem_cons.1 hn with h | h
  · exact Or.inl h.symm
  · exact Or.inr h

/-! ## Non-vacuity -/

/-- Ten `float` samples with weights in `double`: the error is below `1.5e-5` of the largest sample. -/
example : Spec.filterErr single 10 9 1 ≤ 1.5e-5 := by
  unfold Spec.filterErr u
  norm_num

/-- A NaN that has left a window of two samples. -/
example (g : Fp double) : ∃ l v, Spec.runFilter 2 ([.add .nan, .add (0 : Fp single), .add 1] ++ [.factor (1 : Fp double), .add 0]) (Lowpass.ctor g) = .ok l ∧
    l.get = .ok v ∧ v.Finite ∧ |v.val - 1| ≤ Spec.filterErr single 1 1 1 := by
  have o := Fp.one_fin (F := single) (by norm_num)
  have o' := Fp.one_fin (F := double) (by norm_num)
  have h1 := one_le_max (F := single) (by norm_num)
  have := C112_history (F := single) (D := double) (by norm_num) (by norm_num) (by norm_num) (by norm_num) 2 (by norm_num) g 1
    [.add .nan, .add 0, .add 1] 0 o'.1 (by rw [o'.2]; norm_num) (by rw [o'.2]) 1 (tiny_le_one (by norm_num)) (by norm_num [maxFinite])
    (by
      intro y hy
      simp [Spec.samples] at hy
      rcases hy with rfl | rfl
      · exact ⟨trivial, by simp⟩
      · exact ⟨o.1, by rw [o.2]; norm_num⟩) 1 (by norm_num) (Or.inl (by norm_num)) (by unfold Spec.filterErr u; norm_num)
  obtain ⟨l, v, e1, e2, e3, e4⟩ := this
  refine ⟨l, v, e1, e2, e3, ?_⟩
  have e5 := filtered_pair (1 : ℝ) (0 : ℝ) 1
  simp only [Spec.samples, List.nil_append, List.cons_append, Nat.add_one_sub_one, List.take_succ_cons, List.take_zero, List.map_cons, List.map_nil, o.2, o'.2,
    Fp.val_zero, e5] at e4
  norm_num at e4
  exact e4

end Vmml
