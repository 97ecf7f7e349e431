import Verif.Props.FloatPlanes

/-!
# C119: projection matrices in IEEE 754 arithmetic
-/

namespace Vmml
open Format
variable {F D : Format}

/-- Relative error of the entries of a projection matrix, about `4 u`. -/
noncomputable def Spec.projErr (F : Format) : ℝ := (1 + F.u) ^ 3 / (1 - F.u) - 1

/-- `a` is `A` up to the relative error `ρ - 1` and the absolute error `τ`. -/
private def Rel (ρ τ a A : ℝ) : Prop := |a - A| ≤ (ρ - 1) * |A| + τ

private theorem Rel.mono {ρ τ σ υ a A : ℝ} (h : Rel ρ τ a A) (h1 : ρ ≤ σ) (h2 : τ ≤ υ) : Rel σ υ a A := by
  unfold Rel at *
  have := mul_le_mul_of_nonneg_right (by linarith : ρ - 1 ≤ σ - 1) (abs_nonneg A)
  linarith

private theorem Rel.rnd {ρ τ a A : ℝ} (h : Rel ρ τ a A) : Rel ((1 + F.u) * ρ) ((1 + F.u) * τ + F.eta) (F.rnd a) A := by
  unfold Rel at *
  have h1 := rnd_err_add (F := F) a
  have h2 := abs_sub_abs_le_abs_sub a A
  have h3 := abs_add_le (F.rnd a - a) (a - A)
  rw [show F.rnd a - a + (a - A) = F.rnd a - A by ring] at h3
  have hu := F.u_pos
  have h4 : F.u * |a| ≤ F.u * (ρ * |A| + τ) := mul_le_mul_of_nonneg_left (by linarith) hu.le
  linarith

/-- A rounding in the normal range. -/
private theorem rel_rnd_normal {A : ℝ} (h : (2 : ℝ) ^ F.emin ≤ |A|) : Rel (1 + F.u) 0 (F.rnd A) A := by
  unfold Rel
  have := rnd_err_normal h
  linarith

/-- Division by a rounded sum. -/
private theorem Rel.div {u ρ a A d W : ℝ} (h : Rel ρ 0 a A) (hρ : 1 ≤ ρ) (hu0 : 0 ≤ u) (hu : u < 1) (hW : 0 < W) (hd : |d - W| ≤ u * W) :
    Rel (ρ / (1 - u)) 0 (a / d) (A / W) := by
  unfold Rel at *
  rw [add_zero] at *
  have hu' : 0 < 1 - u := by linarith
  have hd0 : 0 < d := by have := (abs_le.1 hd).1; nlinarith
  have hdl : (1 - u) * W ≤ d := by have := (abs_le.1 hd).1; linarith
  have e : a / d - A / W = ((a - A) + A * ((W - d) / W)) / d := by field_simp; ring
  rw [e, abs_div, abs_of_pos hd0, div_le_iff₀ hd0, abs_div A W, abs_of_pos hW]
  have h1 : |A * ((W - d) / W)| ≤ |A| * u := by
    rw [abs_mul, abs_div, abs_of_pos hW, abs_sub_comm]
    apply mul_le_mul_of_nonneg_left _ (abs_nonneg A)
    rw [div_le_iff₀ hW]; exact hd
  refine (abs_add_le _ _).trans ((add_le_add h h1).trans ?_)
  have e2 : (ρ / (1 - u) - 1) * (|A| / W) * ((1 - u) * W) = (ρ - 1 + u) * |A| := by field_simp; ring
  have h2 : (ρ / (1 - u) - 1) * (|A| / W) * ((1 - u) * W) ≤ (ρ / (1 - u) - 1) * (|A| / W) * d := by
    apply mul_le_mul_of_nonneg_left hdl
    apply mul_nonneg _ (by positivity)
    have : 1 ≤ ρ / (1 - u) := by rw [le_div_iff₀ hu']; linarith
    linarith
  rw [e2] at h2
  linarith

private theorem Rel.le {ρ τ a A X : ℝ} (h : Rel ρ τ a A) (hX : ρ * |A| + τ ≤ X) : |a| ≤ X := by
  unfold Rel at h
  have h2 := abs_sub_abs_le_abs_sub a A
  linarith

/-- The exact perspective matrix of the numbers in a frustum. -/
noncomputable def Spec.perspective (l r b t n f : ℝ) : Fin 4 → Fin 4 → ℝ :=
  !![2 * n / (r - l), 0, (r + l) / (r - l), 0;
     0, 2 * n / (t - b), (t + b) / (t - b), 0;
     0, 0, -(f + n) / (f - n), -(2 * f * n) / (f - n);
     0, 0, -1, 0]
/-- The exact orthographic matrix of the numbers in a frustum. -/
noncomputable def Spec.ortho (l r b t n f : ℝ) : Fin 4 → Fin 4 → ℝ :=
  !![2 / (r - l), 0, 0, -(r + l) / (r - l);
     0, 2 / (t - b), 0, -(t + b) / (t - b);
     0, 0, -2 / (f - n), -(f + n) / (f - n);
     0, 0, 0, 1]

/-- Sums and differences of opposite planes fit in the format. -/
def Spec.SumsFit (F : Format) (l r b t n f : ℝ) : Prop :=
  |r + l| ≤ F.maxFinite ∧ r - l ≤ F.maxFinite ∧ |t + b| ≤ F.maxFinite ∧ t - b ≤ F.maxFinite ∧ |f + n| ≤ F.maxFinite ∧ f - n ≤ F.maxFinite

theorem Format.proj_small (h5 : 5 ≤ F.p) : F.u ≤ 1 / 64 ∧ (1 + F.u) ^ 3 / (1 - F.u) ≤ 2 := by
  have hu := F.u_pos
  have h : F.u ≤ 1 / 64 := by
    unfold u
    calc ((2 : ℝ)⁻¹) ^ (F.p + 1) ≤ ((2 : ℝ)⁻¹) ^ 6 := pow_le_pow_of_le_one (by norm_num) (by norm_num) (by omega)
      _ = 1 / 64 := by norm_num
  refine ⟨h, ?_⟩
  rw [div_le_iff₀ (by linarith)]
  have : (1 + F.u) ^ 3 ≤ (65 / 64) ^ 3 := pow_le_pow_left₀ (by linarith) (by linarith) 3
  norm_num at this
  linarith

/-- What is shown of each entry. -/
def Spec.EntryNear (F : Format) (a : Fp F) (A : ℝ) : Prop := a.Finite ∧ |a.val - A| ≤ Spec.projErr F * |A| + 3 * F.eta

private theorem entry_of {a : Fp F} {A ρ τ : ℝ} (ha : a.Finite) (h : Rel ρ τ a.val A) (hρ : ρ ≤ (1 + F.u) ^ 3 / (1 - F.u)) (hτ : τ ≤ 3 * F.eta) : Spec.EntryNear F a A :=
  ⟨ha, (h.mono hρ hτ)⟩

/-- Quotients of a rounded sum and a rounded difference. -/
private theorem entry_sum (h0 : 0 < F.emax) (h5 : 5 ≤ F.p) {a d : Fp F} {A W : ℝ} (ha : a.Finite) (hd : d.Finite) (hW : 0 < W) (hA : |a.val - A| ≤ F.u * |A|)
    (hdW : |d.val - W| ≤ F.u * W) (hfit : 2 * |A / W| + 2 ≤ F.maxFinite) : Spec.EntryNear F (a / d) (A / W) := by
  have hu := F.u_pos
  obtain ⟨hu64, hK⟩ := Format.proj_small h5
  have h1 : Rel (1 + F.u) 0 a.val A := by unfold Rel; linarith
  have h2 := h1.div (u := F.u) (by linarith) hu.le (by linarith) hW hdW
  have hd0 : d.val ≠ 0 := by
    have := (abs_le.1 hdW).1
    intro hc; rw [hc] at this; nlinarith
  have hk : (1 + F.u) / (1 - F.u) ≤ (1 + F.u) ^ 3 / (1 - F.u) :=
    div_le_div_of_nonneg_right (by nlinarith [sq_nonneg F.u, mul_pos hu hu]) (by linarith)
  have hle : |a.val / d.val| ≤ F.maxFinite := by
    refine h2.le ?_
    have := mul_le_mul_of_nonneg_right (hk.trans hK) (abs_nonneg (A / W))
    linarith
  obtain ⟨g1, g2⟩ := Fp.div_fin h0 ha hd hd0 hle
  have h3 := h2.rnd (F := F)
  rw [← g2] at h3
  refine entry_of g1 h3 ?_ ?_
  · rw [← mul_div_assoc]
    apply div_le_div_of_nonneg_right _ (by linarith)
    nlinarith [sq_nonneg F.u, mul_pos hu hu]
  · have := eta_pos (F := F)
    linarith

/-- Quotients computed in the wider format. -/
private theorem entry_wide (hp : F.p ≤ D.p) (he : F.emax ≤ D.emax) (h0 : 0 < F.emax) (h5 : 5 ≤ F.p) {a : Fp D} {d : Fp F} {A W : ℝ} (ha : a.Finite) (hd : d.Finite) (hW : 0 < W)
    (hA : |a.val - A| ≤ D.u * |A|) (hdW : |d.val - W| ≤ F.u * W) (hfit : 2 * |A / W| + 2 ≤ F.maxFinite) :
    Spec.EntryNear F (.convert F (a / .convert D d)) (A / W) := by
  have hu := F.u_pos
  have hud := D.u_pos
  have hule := u_le hp
  have hη := eta_pos (F := F)
  have hηD := eta_pos (F := D)
  have hηle : D.eta ≤ F.eta := by
    rw [eta_eq_tiny, eta_eq_tiny]
    exact mul_le_mul hule (tiny_widen he) D.tiny_pos.le hu.le
  have hη1 : F.eta ≤ 1 / 8 := by
    rw [eta_eq_tiny]
    have := tiny_le_one h0
    have := (Format.proj_small h5).1
    nlinarith only [F.tiny_pos, this, hu, tiny_le_one h0]
  obtain ⟨hu64, hK⟩ := Format.proj_small h5
  obtain ⟨c1, c2⟩ := Fp.widen_fin hp he h0 hd
  have h1 : Rel (1 + D.u) 0 a.val A := by unfold Rel; linarith
  have h2 := h1.div (u := F.u) (by linarith) hu.le (by linarith) hW hdW
  have hd0 : d.val ≠ 0 := by
    have := (abs_le.1 hdW).1
    intro hc; rw [hc] at this; nlinarith
  have hk1 : (1 + D.u) / (1 - F.u) ≤ (1 + F.u) ^ 3 / (1 - F.u) :=
    div_le_div_of_nonneg_right (by nlinarith [sq_nonneg F.u, mul_pos hu hu]) (by linarith)
  have hk2 : (1 + D.u) * ((1 + D.u) / (1 - F.u)) ≤ (1 + F.u) ^ 2 / (1 - F.u) := by
    rw [← mul_div_assoc]
    apply div_le_div_of_nonneg_right _ (by linarith)
    nlinarith
  have hk3 : (1 + F.u) ^ 2 / (1 - F.u) ≤ (1 + F.u) ^ 3 / (1 - F.u) :=
    div_le_div_of_nonneg_right (by nlinarith [sq_nonneg (1 + F.u)]) (by linarith)
  have m1 := mul_le_mul_of_nonneg_right (hk1.trans hK) (abs_nonneg (A / W))
  have m2 := mul_le_mul_of_nonneg_right (hk2.trans (hk3.trans hK)) (abs_nonneg (A / W))
  have hle : |a.val / d.val| ≤ D.maxFinite := by
    refine (h2.le ?_).trans (max_widen hp he)
    linarith
  obtain ⟨g1, g2⟩ := Fp.div_fin (by omega) ha c1 (by rw [c2]; exact hd0) (by rw [c2]; exact hle)
  rw [c2] at g2
  have h3 := h2.rnd (F := D)
  rw [← g2] at h3
  obtain ⟨k1, k2⟩ := Fp.convert_fin h0 g1 (h3.le (by linarith))
  have h4 := h3.rnd (F := F)
  rw [← k2] at h4
  refine entry_of k1 h4 ?_ ?_
  · refine (mul_le_mul_of_nonneg_left hk2 (by linarith)).trans (le_of_eq ?_)
    ring
  · nlinarith

private theorem rep_double {x : ℝ} (h : F.Rep x) : F.Rep (2 * x) := by
  obtain ⟨k, e, h1, h2, rfl⟩ := h
  refine ⟨k, e + 1, by omega, h2, ?_⟩
  rw [zpow_add₀ (by norm_num), zpow_one]; ring

private theorem lit_fin (h1 : 1 < D.emax) : ((Fp.lit D 2).Finite ∧ (Fp.lit D 2).val = 2) ∧ ((Fp.lit D (-2)).Finite ∧ (Fp.lit D (-2)).val = -2) := by
  have hr : D.Rep 2 := by simpa using rep_pow (F := D) (e := 1) (by unfold emin; omega)
  have hle : (2 : ℝ) ≤ D.maxFinite := by
    refine le_trans ?_ (pow_emax_le (F := D))
    calc (2 : ℝ) = (2 : ℝ) ^ (1 : Int) := by norm_num
      _ ≤ _ := zpow_le_zpow_right₀ (by norm_num) (by omega)
  have key : ∀ c : ℝ, |c| = 2 → D.rnd c = c → (Fp.lit D c).Finite ∧ (Fp.lit D c).val = c := by
    intro c hc hrc
    have := Fp.round_signed (F := D) (x := c) (s := @decide (c < 0) (Classical.propDecidable _)) (by omega) (fun _ => by rw [decide_eq_true_iff]) (by rw [hc]; exact hle)
    rw [hrc] at this
    exact this
  exact ⟨key 2 (by norm_num) hr.rnd_eq, key (-2) (by norm_num) (by rw [rnd_neg, hr.rnd_eq])⟩

/-- `compute_matrix` entry by entry. -/
theorem computeMatrixMixed_get (cfg : Cfg) (f : Frustum (Fp F)) (m0 : Mat 4 4 (Fp F)) :
    ∃ P, f.computeMatrixMixed D cfg m0 = .ok P ∧ ∀ i j, P.get i j = (!![
      .convert F (.lit D 2 * .convert D f.nearPlane / .convert D (f.right - f.left)), 0, (f.right + f.left) / (f.right - f.left), 0;
      0, .convert F (.lit D 2 * .convert D f.nearPlane / .convert D (f.top - f.bottom)), (f.top + f.bottom) / (f.top - f.bottom), 0;
      0, 0, -(f.farPlane + f.nearPlane) / (f.farPlane - f.nearPlane),
        .convert F (.lit D (-2) * .convert D f.farPlane * .convert D f.nearPlane / .convert D (f.farPlane - f.nearPlane));
      0, 0, -1, 0] : Matrix (Fin 4) (Fin 4) (Fp F)) i j := by
  simp only [Frustum.computeMatrixMixed, Mat.atSet_lt, bind_ok, Nat.reduceLT]
  refine ⟨_, rfl, ?_⟩
  intro r c
  fin_cases r <;> fin_cases c <;> simp [Mat.get_put]

/-- `compute_ortho_matrix` entry by entry. -/
private theorem computeOrthoMatrixMixed_get (cfg : Cfg) (f : Frustum (Fp F)) (m0 : Mat 4 4 (Fp F)) :
    ∃ P, f.computeOrthoMatrixMixed D cfg m0 = .ok P ∧ ∀ i j, P.get i j = (!![
      Fp.divLit D 2 (f.right - f.left), 0, 0, -(f.right + f.left) / (f.right - f.left);
      0, Fp.divLit D 2 (f.top - f.bottom), 0, -(f.top + f.bottom) / (f.top - f.bottom);
      0, 0, Fp.divLit D (-2) (f.farPlane - f.nearPlane), -(f.farPlane + f.nearPlane) / (f.farPlane - f.nearPlane);
      0, 0, 0, 1] : Matrix (Fin 4) (Fin 4) (Fp F)) i j := by
  simp only [Frustum.computeOrthoMatrixMixed, Mat.atSet_lt, bind_ok, Nat.reduceLT]
  refine ⟨_, rfl, ?_⟩
  intro r c
  fin_cases r <;> fin_cases c <;> simp [Mat.get_put]

private theorem entry_exact {a : Fp F} {A : ℝ} (h5 : 5 ≤ F.p) (h : a.Finite ∧ a.val = A) : Spec.EntryNear F a A := by
  refine ⟨h.1, ?_⟩
  rw [h.2, sub_self, abs_zero]
  have hu := F.u_pos
  have hη := eta_pos (F := F)
  have : 0 ≤ Spec.projErr F := by
    unfold Spec.projErr
    have : 1 ≤ (1 + F.u) ^ 3 / (1 - F.u) := by
      rw [le_div_iff₀ (by linarith [(Format.proj_small h5).1])]
      have : (1 : ℝ) ≤ (1 + F.u) ^ 3 := one_le_pow₀ (by linarith)
      linarith
    linarith
  positivity

private theorem add_rel (h0 : 0 < F.emax) {a b : Fp F} (ha : a.Finite) (hb : b.Finite) (h : |a.val + b.val| ≤ F.maxFinite) :
    (a + b).Finite ∧ |(a + b).val - (a.val + b.val)| ≤ F.u * |a.val + b.val| := by
  obtain ⟨h1, h2⟩ := Fp.add_fin h0 ha hb h
  rw [h2]
  exact ⟨h1, ((Fp.rep_val ha).grid.add (Fp.rep_val hb).grid).rnd_err⟩

private theorem sub_rel (h0 : 0 < F.emax) {a b : Fp F} (ha : a.Finite) (hb : b.Finite) (hpos : b.val < a.val) (h : a.val - b.val ≤ F.maxFinite) :
    (a - b).Finite ∧ |(a - b).val - (a.val - b.val)| ≤ F.u * (a.val - b.val) := by
  obtain ⟨h1, h2⟩ := Fp.sub_fin h0 ha hb (by rwa [abs_of_pos (by linarith)])
  rw [h2]
  have := ((Fp.rep_val ha).grid.add (Fp.rep_val hb).grid.neg).rnd_err
  rw [← sub_eq_add_neg, abs_of_pos (by linarith : 0 < a.val - b.val)] at this
  exact ⟨h1, this⟩

private theorem neg_rel {a : Fp F} {A u : ℝ} (h : a.Finite ∧ |a.val - A| ≤ u * |A|) : (-a).Finite ∧ |(-a).val - -A| ≤ u * |(-A)| := by
  refine ⟨Fp.finite_neg h.1, ?_⟩
  rw [Fp.val_neg, abs_neg, show -a.val - -A = -(a.val - A) by ring, abs_neg]
  exact h.2

/-- The frustum is proper, and finite. -/
def Spec.Proper (f : Frustum (Fp F)) : Prop :=
  Spec.VFinite f.array ∧ f.left.val < f.right.val ∧ f.bottom.val < f.top.val ∧ 0 < f.nearPlane.val ∧ f.nearPlane.val < f.farPlane.val

/-- **C119** `compute_matrix` in IEEE arithmetic (`double` literals and intermediate results, conversion to `T`), for a finite proper frustum: as long as the sums and the entries fit in `T` and the
product of near and far in `double` neither overflows nor underflows, each of the sixteen entries is finite and the exact one of the perspective matrix up to a relative error
of about `4 u` and the underflow of a tiny entry. -/
theorem C119_perspective (hp : F.p ≤ D.p) (he : F.emax ≤ D.emax) (h1 : 1 < F.emax) (h5 : 5 ≤ F.p) (cfg : Cfg) (f : Frustum (Fp F)) (m0 : Mat 4 4 (Fp F)) (hf : Spec.Proper f)
    (hs : Spec.SumsFit F f.left.val f.right.val f.bottom.val f.top.val f.nearPlane.val f.farPlane.val)
    (hfit : ∀ i j, 2 * |Spec.perspective f.left.val f.right.val f.bottom.val f.top.val f.nearPlane.val f.farPlane.val i j| + 2 ≤ F.maxFinite)
    (hfn : (2 : ℝ) ^ D.emin ≤ 2 * f.farPlane.val * f.nearPlane.val) (hfn2 : 2 * f.farPlane.val * f.nearPlane.val ≤ D.maxFinite) (hf2 : 2 * f.farPlane.val ≤ D.maxFinite) :
    ∃ P, f.computeMatrixMixed D cfg m0 = .ok P ∧
      ∀ i j, Spec.EntryNear F (P.get i j) (Spec.perspective f.left.val f.right.val f.bottom.val f.top.val f.nearPlane.val f.farPlane.val i j) := by
  have h0 : 0 < F.emax := by omega
  have hD0 : 0 < D.emax := by omega
  obtain ⟨hfin, hlr, hbt, hn0, hnf⟩ := hf
  obtain ⟨s1, s2, s3, s4, s5, s6⟩ := hs
  have fl : f.left.Finite := hfin 0
  have fr : f.right.Finite := hfin 1
  have fb : f.bottom.Finite := hfin 2
  have ft : f.top.Finite := hfin 3
  have fn : f.nearPlane.Finite := hfin 4
  have ff : f.farPlane.Finite := hfin 5
  obtain ⟨P, hP, hget⟩ := computeMatrixMixed_get (D := D) cfg f m0
  refine ⟨P, hP, ?_⟩
  have dx := sub_rel h0 fr fl hlr s2
  have dy := sub_rel h0 ft fb hbt s4
  have dz := sub_rel h0 ff fn hnf s6
  have ax := add_rel h0 fr fl s1
  have ay := add_rel h0 ft fb s3
  have az := neg_rel (add_rel h0 ff fn s5)
  obtain ⟨⟨l1, l2⟩, l3, l4⟩ := lit_fin (D := D) (by omega)
  obtain ⟨n1, n2⟩ := Fp.widen_fin hp he h0 fn
  obtain ⟨w1, w2⟩ := Fp.widen_fin hp he h0 ff
  have rn : D.Rep f.nearPlane.val := rep_widen hp he (Fp.rep_val fn)
  have rf : D.Rep f.farPlane.val := rep_widen hp he (Fp.rep_val ff)
  -- 2 * near
  obtain ⟨p1, p2⟩ := Fp.mul_fin hD0 l1 n1 (by rw [l2, n2, abs_of_pos (by linarith)]; linarith)
  rw [l2, n2, (rep_double rn).rnd_eq] at p2
  have p3 : |(Fp.lit D 2 * Fp.convert D f.nearPlane).val - 2 * f.nearPlane.val| ≤ D.u * |2 * f.nearPlane.val| := by
    rw [p2, sub_self, abs_zero]; exact mul_nonneg D.u_pos.le (abs_nonneg _)
  -- -2 * far * near
  obtain ⟨q1, q2⟩ := Fp.mul_fin hD0 l3 w1 (by rw [l4, w2, abs_mul, abs_of_pos (by linarith : 0 < f.farPlane.val)]; norm_num; linarith)
  rw [l4, w2, show -2 * f.farPlane.val = -(2 * f.farPlane.val) by ring, rnd_neg, (rep_double rf).rnd_eq] at q2
  have hpos : 0 < 2 * f.farPlane.val * f.nearPlane.val := lt_of_lt_of_le (by positivity) hfn
  have habs : |-(2 * f.farPlane.val) * f.nearPlane.val| = 2 * f.farPlane.val * f.nearPlane.val := by
    rw [neg_mul, abs_neg, abs_of_pos hpos]
  obtain ⟨t1, t2⟩ := Fp.mul_fin hD0 q1 n1 (by rw [q2, n2, habs]; exact hfn2)
  rw [q2, n2] at t2
  have t3 : |(Fp.lit D (-2) * Fp.convert D f.farPlane * Fp.convert D f.nearPlane).val - -(2 * f.farPlane.val * f.nearPlane.val)| ≤
      D.u * |-(2 * f.farPlane.val * f.nearPlane.val)| := by
    rw [t2, show -(2 * f.farPlane.val * f.nearPlane.val) = -(2 * f.farPlane.val) * f.nearPlane.val by ring]
    exact rnd_err_normal (by rw [habs]; exact hfn)
  have o := Fp.one_fin h0
  have z : (0 : Fp F).Finite ∧ (0 : Fp F).val = 0 := ⟨Fp.finite_zero, Fp.val_zero⟩
  have mo : (-1 : Fp F).Finite ∧ (-1 : Fp F).val = -1 := ⟨Fp.finite_neg o.1, by rw [Fp.val_neg, o.2]⟩
  have e00 := entry_wide hp he h0 h5 p1 dx.1 (sub_pos.2 hlr) p3 dx.2 (hfit 0 0)
  have e11 := entry_wide hp he h0 h5 p1 dy.1 (sub_pos.2 hbt) p3 dy.2 (hfit 1 1)
  have e23 := entry_wide hp he h0 h5 t1 dz.1 (sub_pos.2 hnf) t3 dz.2 (hfit 2 3)
  have e02 := entry_sum h0 h5 ax.1 dx.1 (sub_pos.2 hlr) ax.2 dx.2 (hfit 0 2)
  have e12 := entry_sum h0 h5 ay.1 dy.1 (sub_pos.2 hbt) ay.2 dy.2 (hfit 1 2)
  have e22 := entry_sum h0 h5 az.1 dz.1 (sub_pos.2 hnf) az.2 dz.2 (hfit 2 2)
  intro i j
  rw [hget]
  fin_cases i <;> fin_cases j <;> first
    | exact e00 | exact e11 | exact e23 | exact e02 | exact e12 | exact e22 | exact entry_exact h5 z | exact entry_exact h5 mo

/-- **C119** `compute_ortho_matrix` in IEEE arithmetic, likewise. -/
theorem C119_ortho (hp : F.p ≤ D.p) (he : F.emax ≤ D.emax) (h1 : 1 < F.emax) (h5 : 5 ≤ F.p) (cfg : Cfg) (f : Frustum (Fp F)) (m0 : Mat 4 4 (Fp F)) (hfin : Spec.VFinite f.array)
    (hlr : f.left.val < f.right.val) (hbt : f.bottom.val < f.top.val) (hnf : f.nearPlane.val < f.farPlane.val)
    (hs : Spec.SumsFit F f.left.val f.right.val f.bottom.val f.top.val f.nearPlane.val f.farPlane.val)
    (hfit : ∀ i j, 2 * |Spec.ortho f.left.val f.right.val f.bottom.val f.top.val f.nearPlane.val f.farPlane.val i j| + 2 ≤ F.maxFinite) :
    ∃ P, f.computeOrthoMatrixMixed D cfg m0 = .ok P ∧
      ∀ i j, Spec.EntryNear F (P.get i j) (Spec.ortho f.left.val f.right.val f.bottom.val f.top.val f.nearPlane.val f.farPlane.val i j) := by
  have h0 : 0 < F.emax := by omega
  have hD0 : 0 < D.emax := by omega
  obtain ⟨s1, s2, s3, s4, s5, s6⟩ := hs
  have fl : f.left.Finite := hfin 0
  have fr : f.right.Finite := hfin 1
  have fb : f.bottom.Finite := hfin 2
  have ft : f.top.Finite := hfin 3
  have fn : f.nearPlane.Finite := hfin 4
  have ff : f.farPlane.Finite := hfin 5
  obtain ⟨P, hP, hget⟩ := computeOrthoMatrixMixed_get (D := D) cfg f m0
  refine ⟨P, hP, ?_⟩
  have dx := sub_rel h0 fr fl hlr s2
  have dy := sub_rel h0 ft fb hbt s4
  have dz := sub_rel h0 ff fn hnf s6
  have ax := neg_rel (add_rel h0 fr fl s1)
  have ay := neg_rel (add_rel h0 ft fb s3)
  have az := neg_rel (add_rel h0 ff fn s5)
  obtain ⟨⟨l1, l2⟩, l3, l4⟩ := lit_fin (D := D) (by omega)
  have p3 : |(Fp.lit D 2).val - 2| ≤ D.u * |2| := by
    rw [l2, sub_self, abs_zero]; exact mul_nonneg D.u_pos.le (abs_nonneg _)
  have q3 : |(Fp.lit D (-2)).val - -2| ≤ D.u * |-2| := by
    rw [l4, sub_self, abs_zero]; exact mul_nonneg D.u_pos.le (abs_nonneg _)
  have o := Fp.one_fin h0
  have z : (0 : Fp F).Finite ∧ (0 : Fp F).val = 0 := ⟨Fp.finite_zero, Fp.val_zero⟩
  have e00 := entry_wide hp he h0 h5 l1 dx.1 (sub_pos.2 hlr) p3 dx.2 (hfit 0 0)
  have e11 := entry_wide hp he h0 h5 l1 dy.1 (sub_pos.2 hbt) p3 dy.2 (hfit 1 1)
  have e22 := entry_wide hp he h0 h5 l3 dz.1 (sub_pos.2 hnf) q3 dz.2 (hfit 2 2)
  have e03 := entry_sum h0 h5 ax.1 dx.1 (sub_pos.2 hlr) ax.2 dx.2 (hfit 0 3)
  have e13 := entry_sum h0 h5 ay.1 dy.1 (sub_pos.2 hbt) ay.2 dy.2 (hfit 1 3)
  have e23 := entry_sum h0 h5 az.1 dz.1 (sub_pos.2 hnf) az.2 dz.2 (hfit 2 3)
  intro i j
  rw [hget]
  fin_cases i <;> fin_cases j <;> first
    | exact e00 | exact e11 | exact e22 | exact e03 | exact e13 | exact e23 | exact entry_exact h5 z | exact entry_exact h5 o

/-- **C119** The error in terms of the unit roundoff: at most `5 u` for formats with at least eleven bits. -/
theorem C119_bound (h10 : 10 ≤ F.p) : Spec.projErr F ≤ 5 * F.u := by
  have hu := F.u_pos
  have hu2 : F.u ≤ 1 / 2048 := by
    unfold u
    calc ((2 : ℝ)⁻¹) ^ (F.p + 1) ≤ ((2 : ℝ)⁻¹) ^ 11 := pow_le_pow_of_le_one (by norm_num) (by norm_num) (by omega)
      _ = 1 / 2048 := by norm_num
  unfold Spec.projErr
  rw [sub_le_iff_le_add, div_le_iff₀ (by linarith)]
  nlinarith [mul_nonneg hu.le hu.le, mul_nonneg (mul_nonneg hu.le hu.le) (sub_nonneg.2 hu2), mul_nonneg hu.le (sub_nonneg.2 hu2)]

/-- The smallest positive number is `2 eta`. -/
private theorem two_eta_le {a : Fp F} (ha : a.Finite) (h : 0 < a.val) : 2 * F.eta ≤ a.val := by
  obtain ⟨k, hk⟩ := (Fp.rep_val ha).grid
  have hg : (0 : ℝ) < (2 : ℝ) ^ (F.emin - F.p) := by positivity
  have hk1 : (1 : ℝ) ≤ k := by
    have : 0 < k := by
      by_contra hc
      push Not at hc
      have : (k : ℝ) ≤ 0 := by exact_mod_cast hc
      nlinarith
    exact_mod_cast this
  have e : 2 * F.eta = (2 : ℝ) ^ (F.emin - F.p) := by
    rw [eta_eq_tiny]
    unfold u Format.tiny
    rw [zpow_sub₀ (by norm_num), zpow_natCast, inv_pow, pow_succ]
    field_simp
  rw [e, hk]
  exact le_mul_of_one_le_left hg.le hk1

/-- **C119** The depth of the computed perspective matrix. At distance `d` from the eye its depth (the z coordinate after the division by w) is the exact one, which goes
from -1 at the near plane to 1 at the far plane, up to the stated error; and however rounding falls, a point farther away has a greater depth. -/
theorem C119_depth (hp : F.p ≤ D.p) (he : F.emax ≤ D.emax) (h1 : 1 < F.emax) (h5 : 5 ≤ F.p) (cfg : Cfg) (f : Frustum (Fp F)) (m0 : Mat 4 4 (Fp F)) (hf : Spec.Proper f)
    (hs : Spec.SumsFit F f.left.val f.right.val f.bottom.val f.top.val f.nearPlane.val f.farPlane.val)
    (hfit : ∀ i j, 2 * |Spec.perspective f.left.val f.right.val f.bottom.val f.top.val f.nearPlane.val f.farPlane.val i j| + 2 ≤ F.maxFinite)
    (hfn : (2 : ℝ) ^ D.emin ≤ 2 * f.farPlane.val * f.nearPlane.val) (hfn2 : 2 * f.farPlane.val * f.nearPlane.val ≤ D.maxFinite) (hf2 : 2 * f.farPlane.val ≤ D.maxFinite) :
    ∃ P, f.computeMatrixMixed D cfg m0 = .ok P ∧
      let near := f.nearPlane.val
      let far := f.farPlane.val
      let depth := fun d : ℝ => ((P.get 2 2).val * -d + (P.get 2 3).val) / ((P.get 3 2).val * -d + (P.get 3 3).val)
      (∀ d, 0 < d → |depth d - ((far + near) - 2 * far * near / d) / (far - near)| ≤
        Spec.projErr F * ((far + near) + 2 * far * near / d) / (far - near) + 3 * F.eta * (1 + 1 / d)) ∧
      (∀ d e, 0 < d → d < e → depth d < depth e) := by
  obtain ⟨P, hP, hE⟩ := C119_perspective hp he h1 h5 cfg f m0 hf hs hfit hfn hfn2 hf2
  refine ⟨P, hP, ?_⟩
  intro near far depth
  obtain ⟨hfin, -, -, hn0, hnf⟩ := hf
  have e22 : |(P.get 2 2).val - -(far + near) / (far - near)| ≤ Spec.projErr F * |-(far + near) / (far - near)| + 3 * F.eta := (hE 2 2).2
  have e23 : |(P.get 2 3).val - -(2 * far * near) / (far - near)| ≤ Spec.projErr F * |-(2 * far * near) / (far - near)| + 3 * F.eta := (hE 2 3).2
  have hn2 : 2 * F.eta ≤ near := two_eta_le (hfin 4) hn0
  have e3 : (P.get 3 2).val = -1 ∧ (P.get 3 3).val = 0 := by
    obtain ⟨Q, hQ, hget⟩ := computeMatrixMixed_get (D := D) cfg f m0
    obtain rfl := Except.ok.inj (hP.symm.trans hQ)
    rw [hget, hget]
    refine ⟨?_, Fp.val_zero⟩
    show (-1 : Fp F).val = -1
    rw [Fp.val_neg, (Fp.one_fin (by omega)).2]
  have hdep : ∀ d, depth d = ((P.get 2 2).val * -d + (P.get 2 3).val) / d := by
    intro d; simp only [depth, e3.1, e3.2]; congr 1; ring
  have hn0' : 0 < near := hn0
  have hnf' : near < far := hnf
  have hfar : 0 < far := by linarith
  have hw : 0 < far - near := by linarith
  have hη := eta_pos (F := F)
  obtain ⟨hu64, -⟩ := F.proj_small h5
  have hu := F.u_pos
  have hK : Spec.projErr F < 1 / 4 := by
    unfold Spec.projErr
    rw [sub_lt_iff_lt_add, div_lt_iff₀ (by linarith)]
    have : (1 + F.u) ^ 3 ≤ (65 / 64) ^ 3 := pow_le_pow_left₀ (by linarith) (by linarith) 3
    norm_num at this
    linarith
  have a22 : |-(far + near) / (far - near)| = (far + near) / (far - near) := by
    rw [abs_div, abs_neg, abs_of_pos (by linarith : 0 < far + near), abs_of_pos hw]
  have a23 : |-(2 * far * near) / (far - near)| = 2 * far * near / (far - near) := by
    rw [abs_div, abs_neg, abs_of_pos (by positivity : 0 < 2 * far * near), abs_of_pos hw]
  rw [a22] at e22
  rw [a23] at e23
  obtain ⟨x, hx⟩ : ∃ x, x = (P.get 2 2).val := ⟨_, rfl⟩
  obtain ⟨y, hy⟩ : ∃ y, y = (P.get 2 3).val := ⟨_, rfl⟩
  rw [← hx] at e22
  rw [← hy] at e23
  simp only [hdep, ← hx, ← hy]
  constructor
  · intro d hd
    have e : (x * -d + y) / d - ((far + near) - 2 * far * near / d) / (far - near) =
        -(x - -(far + near) / (far - near)) + (y - -(2 * far * near) / (far - near)) / d := by
      field_simp
      ring
    rw [e]
    refine (abs_add_le _ _).trans ?_
    rw [abs_neg, abs_div _ d, abs_of_pos hd]
    have k := div_le_div_of_nonneg_right e23 hd.le
    refine (add_le_add e22 k).trans (le_of_eq ?_)
    field_simp
    ring
  · intro d e hd hde
    have hyneg : y < 0 := by
      have k := (abs_le.1 e23).2
      have big : 2 * near ≤ 2 * far * near / (far - near) := by
        rw [le_div_iff₀ hw]; nlinarith
      have e3 : -(2 * far * near) / (far - near) = -(2 * far * near / (far - near)) := by ring
      rw [e3] at k
      nlinarith
    rw [div_lt_div_iff₀ hd (by linarith)]
    nlinarith

/-- In `float`, with `double` literals: the frustum -1, 1, -1, 1, 1, 2 meets the hypotheses. -/
example : ∃ f : Frustum (Fp single), Spec.Proper f ∧ Spec.SumsFit single f.left.val f.right.val f.bottom.val f.top.val f.nearPlane.val f.farPlane.val ∧
    (∀ i j, 2 * |Spec.perspective f.left.val f.right.val f.bottom.val f.top.val f.nearPlane.val f.farPlane.val i j| + 2 ≤ single.maxFinite) ∧
    (2 : ℝ) ^ double.emin ≤ 2 * f.farPlane.val * f.nearPlane.val ∧ 2 * f.farPlane.val * f.nearPlane.val ≤ double.maxFinite ∧ 2 * f.farPlane.val ≤ double.maxFinite := by
  have h0 : 0 < single.emax := by norm_num
  have o := Fp.one_fin h0
  have nv : (-1 : Fp single).val = -1 := by rw [Fp.val_neg, o.2]
  have hmax : (2 : ℝ) ^ 20 ≤ single.maxFinite := by
    refine le_trans ?_ (pow_emax_le (F := single))
    rw [← zpow_natCast]
    exact zpow_le_zpow_right₀ (by norm_num) (by norm_num)
  have hmax2 : (2 : ℝ) ^ 20 ≤ double.maxFinite := by
    refine le_trans ?_ (pow_emax_le (F := double))
    rw [← zpow_natCast]
    exact zpow_le_zpow_right₀ (by norm_num) (by norm_num)
  norm_num at hmax hmax2
  have r : single.Rep 2 := by simpa using rep_pow (F := single) (e := 1) (by norm_num [emin])
  have hm : single.Mag 2 := ⟨by norm_num, r, by linarith⟩
  let f : Frustum (Fp single) := ⟨#v[-1, 1, -1, 1, 1, .fin false 2 hm]⟩
  have e1 : f.left.val = -1 := nv
  have e2 : f.right.val = 1 := o.2
  have e3 : f.bottom.val = -1 := nv
  have e4 : f.top.val = 1 := o.2
  have e5 : f.nearPlane.val = 1 := o.2
  have e6 : f.farPlane.val = 2 := by show (Fp.fin false 2 hm : Fp single).val = 2; simp
  refine ⟨f, ⟨?_, ?_, ?_, ?_, ?_⟩, ?_, ?_, ?_, ?_, ?_⟩
  · intro i; fin_cases i <;> first | exact o.1 | exact Fp.finite_neg o.1 | trivial
  · rw [e1, e2]; norm_num
  · rw [e3, e4]; norm_num
  · rw [e5]; norm_num
  · rw [e5, e6]; norm_num
  · rw [e1, e2, e3, e4, e5, e6]
    refine ⟨?_, ?_, ?_, ?_, ?_, ?_⟩ <;> norm_num <;> linarith
  · rw [e1, e2, e3, e4, e5, e6]
    intro i j
    have : |Spec.perspective (-1) 1 (-1) 1 1 2 i j| ≤ 4 := by
      fin_cases i <;> fin_cases j <;> norm_num [Spec.perspective, abs_le]
    linarith
  · rw [e5, e6]
    refine le_trans (zpow_le_one_of_nonpos₀ (by norm_num) (by norm_num [emin])) (by norm_num)
  · rw [e5, e6]; linarith
  · rw [e6]; linarith

end Vmml
