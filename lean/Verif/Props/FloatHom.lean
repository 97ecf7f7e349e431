import Verif.Props.Float
import Verif.Props.FloatQR
import Verif.Props.FloatFrustum
import Verif.Props.MatrixAlgebra

/-!
# C122: homogeneous products (perspective division) in IEEE 754 arithmetic
-/

namespace Vmml
open Format
variable {F : Format} {α : Type} {K : ℕ}

/-- What `operator*` computes, for any scalar type: the rows are accumulated, and the first `K` divided by the last. -/
theorem Mat.hom_spec [Zero α] [Add α] [Mul α] [Div α] (cfg : Cfg) (a : Mat (K + 1) (K + 1) α) (v : Vec K α) (tmp : Fin (K + 1) → α)
    (ht : ∀ r : Fin (K + 1), loop K (fun c tmp => do pure (tmp + (← v.atGet cfg c) * (← a.atGet cfg r c))) (0 : α) = .ok (tmp r)) :
    a.mulVecHom cfg v = .ok (Vector.ofFn fun i : Fin K =>
      (tmp i.castSucc + a.get i.castSucc (Fin.last K)) / (tmp (Fin.last K) + a.get (Fin.last K) (Fin.last K))) := by
  unfold Mat.mulVecHom
  rw [loop_succ]
  have h1 : loop K (fun r (res : Vec K α) => do
      let tmp ← loop K (fun c tmp => do pure (tmp + (← v.atGet cfg c) * (← a.atGet cfg r c))) (0 : α)
      if r < K then
        res.atSet cfg r (tmp + (← a.atGet cfg r K))
      else do
        let tmp := tmp + (← a.atGet cfg r K)
        loop K (fun c res => do res.atSet cfg c ((← res.atGet cfg c) / tmp)) res) Vec.zeroCtor =
      .ok (Vector.ofFn fun i : Fin K => tmp i.castSucc + a.get i.castSucc (Fin.last K)) := by
    apply loop_set
    intro i hi w _
    have := ht ⟨i, by omega⟩
    simp only at this
    rw [this, Vmml.bind_ok, if_pos hi, Mat.atGet_lt cfg a (by omega) (by omega), Vmml.bind_ok, Vec.atSet_lt cfg w _ hi]
    rfl
  have hK := ht (Fin.last K)
  simp only [Fin.val_last] at hK
  rw [h1, Vmml.bind_ok, hK, Vmml.bind_ok, if_neg (by omega), Mat.atGet_lt cfg a (by omega) (by omega), Vmml.bind_ok]
  apply loop_set
  intro i hi w hw
  rw [Vec.atGet_lt cfg w hi, Vmml.bind_ok, Vec.atSet_lt cfg w _ hi, hw i hi le_rfl]
  simp only [Vector.getElem_ofFn]
  rfl

/-- The exact homogeneous coordinate of row `r`. -/
noncomputable def Spec.hom (a : Mat (K + 1) (K + 1) (Fp F)) (v : Vec K (Fp F)) (r : Fin (K + 1)) : ℝ :=
  ∑ j : Fin K, v[j].val * (a.get r j.castSucc).val + (a.get r (Fin.last K)).val
/-- The sum of the magnitudes of its terms. -/
noncomputable def Spec.homMag (a : Mat (K + 1) (K + 1) (Fp F)) (v : Vec K (Fp F)) (r : Fin (K + 1)) : ℝ :=
  ∑ j : Fin K, |v[j].val * (a.get r j.castSucc).val| + |(a.get r (Fin.last K)).val|
/-- The terms of row `r` are finite and their sum leaves room below the largest number. -/
def Spec.HomFits (a : Mat (K + 1) (K + 1) (Fp F)) (v : Vec K (Fp F)) (r : Fin (K + 1)) : Prop :=
  (∀ j, (a.get r j).Finite) ∧ Spec.homMag a v r + (K + 1 : ℕ) * F.eta ≤ (1 - (K + 1 : ℕ) * F.u) * F.maxFinite

/-- One row. -/
private theorem row (h0 : 0 < F.emax) (cfg : Cfg) (a : Mat (K + 1) (K + 1) (Fp F)) (v : Vec K (Fp F)) (hK : (K + 1 : ℕ) * F.u < 1) (r : Fin (K + 1)) :
    ∃ d, loop K (fun c tmp => do pure (tmp + (← v.atGet cfg c) * (← a.atGet cfg r c))) (0 : Fp F) = .ok d ∧
      ((d + a.get r (Fin.last K)).Finite → (∀ j, (a.get r j).Finite) ∧ (∀ j : Fin K, v[j].Finite) ∧
        |(d + a.get r (Fin.last K)).val - Spec.hom a v r| ≤ Spec.accErr F (K + 1) (Spec.homMag a v r)) ∧
      ((∀ j : Fin K, v[j].Finite) → Spec.HomFits a v r → (d + a.get r (Fin.last K)).Finite) := by
  have hu := F.u_pos
  have hη := F.eta_pos
  push_cast at hK
  have hK' : (K : ℝ) * F.u < 1 := by linarith
  obtain ⟨d, h1, h2, h3⟩ := fp_loop (body := fun c tmp => do pure (tmp + (← v.atGet cfg c) * (← a.atGet cfg r c))) h0
    (fun j : Fin K => v[j]) (fun j => a.get r j.castSucc) (by
      intro i hi s
      rw [Vec.atGet_lt cfg v hi, Vmml.bind_ok, Mat.atGet_lt cfg a r.2 (by omega), Vmml.bind_ok]; rfl) hK'
  obtain ⟨S, hS⟩ : ∃ S, S = ∑ j : Fin K, |v[j].val * (a.get r j.castSucc).val| := ⟨_, rfl⟩
  obtain ⟨T, hT⟩ : ∃ T, T = ∑ j : Fin K, v[j].val * (a.get r j.castSucc).val := ⟨_, rfl⟩
  obtain ⟨c, hc⟩ : ∃ c, c = a.get r (Fin.last K) := ⟨_, rfl⟩
  have hS0 : 0 ≤ S := by rw [hS]; exact Finset.sum_nonneg fun _ _ => abs_nonneg _
  have hTS : |T| ≤ S := by rw [hS, hT]; exact Finset.abs_sum_le_sum_abs _ _
  have hmag : Spec.homMag a v r = S + |c.val| := by rw [hS, hc]; rfl
  have hhom : Spec.hom a v r = T + c.val := by rw [hT, hc]; rfl
  rw [← hS, ← hT] at h2
  rw [← hS] at h3
  rw [hmag, hhom, ← hc]
  have hden : 0 < 1 - (K : ℝ) * F.u := by linarith
  have hden' : 0 < 1 - ((K : ℝ) + 1) * F.u := by linarith
  have hacc : Spec.accErr F K S = (K * F.u * S + K * F.eta) / (1 - K * F.u) := by unfold Spec.accErr; ring
  have hacc' : Spec.accErr F (K + 1) (S + |c.val|) = ((K + 1) * F.u * (S + |c.val|) + (K + 1) * F.eta) / (1 - (K + 1) * F.u) := by unfold Spec.accErr; push_cast; ring
  refine ⟨d, h1, fun hf => ?_, fun hv hfit => ?_⟩
  · obtain ⟨f1, f2, f3⟩ := Fp.add_finite hf
    obtain ⟨g1, g2⟩ := h2 f1
    refine ⟨fun j => ?_, fun j => (g1 j).1, ?_⟩
    · rcases Fin.eq_castSucc_or_eq_last j with ⟨j, rfl⟩ | rfl
      · exact (g1 j).2
      · rw [← hc]; exact f2
    · have e := ((Fp.rep_val f1).grid.add (Fp.rep_val f2).grid).rnd_err
      rw [← f3] at e
      obtain ⟨E, hE⟩ : ∃ E, E = Spec.accErr F K S := ⟨_, rfl⟩
      rw [← hE] at g2
      have t1 : |d.val + c.val| ≤ S + |c.val| + E := by
        calc |d.val + c.val| = |(d.val - T) + T + c.val| := by congr 1; ring
          _ ≤ _ := abs_add_three _ _ _
          _ ≤ _ := by linarith
      have t2 : |(d + c).val - (T + c.val)| ≤ F.u * (S + |c.val| + E) + E := by
        calc _ = |((d + c).val - (d.val + c.val)) + (d.val - T)| := by congr 1; ring
          _ ≤ _ := abs_add_le _ _
          _ ≤ _ := by
            have := mul_le_mul_of_nonneg_left t1 hu.le
            linarith
      refine t2.trans ?_
      rw [hacc', le_div_iff₀ hden']
      have hE' : E * (1 - K * F.u) = K * F.u * S + K * F.eta := by rw [hE, hacc]; field_simp
      have hE0 : 0 ≤ E := by rw [hE, hacc]; positivity
      have hc0 := abs_nonneg c.val
      have e1 : (F.u * (S + |c.val| + E) + E) * (1 - (K + 1) * F.u) =
          F.u * (S + |c.val|) * (1 - (K + 1) * F.u) + ((1 + F.u) * (1 - (K + 1) * F.u)) * E := by ring
      have e2 : (1 + F.u) * (1 - (K + 1) * F.u) ≤ 1 - K * F.u := by
        have : 0 ≤ (K : ℝ) * F.u ^ 2 := by positivity
        nlinarith [sq_nonneg F.u]
      have e3 := mul_le_mul_of_nonneg_right e2 hE0
      have e4 : F.u * (S + |c.val|) * (1 - (K + 1) * F.u) ≤ F.u * (S + |c.val|) := by
        apply mul_le_of_le_one_right (by positivity)
        have : 0 ≤ ((K : ℝ) + 1) * F.u := by positivity
        linarith
      have e5 : 0 ≤ (K : ℝ) * F.u * |c.val| := by positivity
      rw [e1]
      linarith only [e3, e4, e5, hE', hη]
  · obtain ⟨k1, k2⟩ := hfit
    rw [hmag] at k2
    push_cast at k2
    have fd : d.Finite := by
      apply h3 (fun j => ⟨hv j, k1 _⟩)
      have hm := F.maxFinite_pos
      have := mul_pos hu hm
      linarith only [k2, this, hη, abs_nonneg c.val]
    have fc : c.Finite := by rw [hc]; exact k1 _
    refine (Fp.add_fin h0 fd fc ?_).1
    have g2 := (h2 fd).2
    rw [hacc] at g2
    have t1 : |d.val + c.val| ≤ S + |c.val| + (K * F.u * S + K * F.eta) / (1 - K * F.u) := by
      calc |d.val + c.val| = |(d.val - T) + T + c.val| := by congr 1; ring
        _ ≤ _ := abs_add_three _ _ _
        _ ≤ _ := by linarith
    refine t1.trans ?_
    have e1 : S + (K * F.u * S + K * F.eta) / (1 - K * F.u) = (S + K * F.eta) / (1 - K * F.u) := by field_simp; ring
    have e2 : (S + K * F.eta) / (1 - K * F.u) + |c.val| ≤ (S + |c.val| + K * F.eta) / (1 - K * F.u) := by
      have : |c.val| ≤ |c.val| / (1 - K * F.u) := by
        apply le_div_self (abs_nonneg _) hden
        have : 0 ≤ (K : ℝ) * F.u := by positivity
        linarith
      have e : (S + |c.val| + K * F.eta) / (1 - K * F.u) = (S + K * F.eta) / (1 - K * F.u) + |c.val| / (1 - K * F.u) := by
        rw [← add_div]; congr 1; ring
      linarith
    have e3 : (S + |c.val| + K * F.eta) / (1 - K * F.u) ≤ F.maxFinite := by
      rw [div_le_iff₀ hden]
      have hm := F.maxFinite_pos
      have := mul_pos hu hm
      linarith only [k2, this, hη]
    linarith only [e1, e2, e3]

/-- **C122** The homogeneous product in IEEE arithmetic, residual form. If the coordinates are finite and the last row fits, then every finite coordinate `q` of the result
satisfies `q W = N` for the exact coordinates `N`, `W` of the extended vector up to the accumulation errors of both rows and the rounding of the division. Nothing is
assumed about how close `W` is to zero. -/
theorem C122_residual (h0 : 0 < F.emax) (cfg : Cfg) (a : Mat (K + 1) (K + 1) (Fp F)) (v : Vec K (Fp F)) (hK : (K + 1 : ℕ) * F.u < 1)
    (hv : ∀ j : Fin K, v[j].Finite) (hw : Spec.HomFits a v (Fin.last K)) :
    ∃ q, a.mulVecHom cfg v = .ok q ∧ ∀ i : Fin K, q[i].Finite →
      let W := Spec.hom a v (Fin.last K)
      let eW := Spec.accErr F (K + 1) (Spec.homMag a v (Fin.last K))
      (∀ j, (a.get i.castSucc j).Finite) ∧
      |q[i].val * W - Spec.hom a v i.castSucc| ≤
        Spec.accErr F (K + 1) (Spec.homMag a v i.castSucc) + |q[i].val| * eW + (F.u * |q[i].val| + F.eta) * (|W| + eW) := by
  have hu := F.u_pos
  have hη := F.eta_pos
  choose d hd1 hd2 hd3 using row h0 cfg a v hK
  refine ⟨_, Mat.hom_spec cfg a v d hd1, fun i => ?_⟩
  simp only [Fin.getElem_fin, Vector.getElem_ofFn]
  intro hf
  have fw := hd3 (Fin.last K) hv hw
  have ew := (hd2 _ fw).2.2
  obtain ⟨w, hwd⟩ : ∃ w, w = d (Fin.last K) + a.get (Fin.last K) (Fin.last K) := ⟨_, rfl⟩
  obtain ⟨n, hn⟩ : ∃ n, n = d i.castSucc + a.get i.castSucc (Fin.last K) := ⟨_, rfl⟩
  have e0 : (⟨i.1, i.2⟩ : Fin K) = i := rfl
  rw [e0] at hf ⊢
  rw [← hwd] at fw ew hf ⊢
  rw [← hn] at hf ⊢
  obtain ⟨fn, hne, hval⟩ := Fp.div_finite hf fw
  have en := hd2 i.castSucc
  rw [← hn] at en
  obtain ⟨hrow, -, en⟩ := en fn
  refine ⟨hrow, ?_⟩
  have hr := F.rnd_err_res (n.val / w.val)
  rw [← hval] at hr
  obtain ⟨q, hq⟩ : ∃ q, q = (n / w).val := ⟨_, rfl⟩
  obtain ⟨W, hW⟩ : ∃ W, W = Spec.hom a v (Fin.last K) := ⟨_, rfl⟩
  obtain ⟨N, hN⟩ : ∃ N, N = Spec.hom a v i.castSucc := ⟨_, rfl⟩
  obtain ⟨eW, heW⟩ : ∃ e, e = Spec.accErr F (K + 1) (Spec.homMag a v (Fin.last K)) := ⟨_, rfl⟩
  obtain ⟨eN, heN⟩ : ∃ e, e = Spec.accErr F (K + 1) (Spec.homMag a v i.castSucc) := ⟨_, rfl⟩
  rw [← hq, ← hW, ← hN, ← heW, ← heN]
  rw [← hq] at hr
  rw [← hW, ← heW] at ew
  rw [← hN, ← heN] at en
  have hwb : |w.val| ≤ |W| + eW := by
    calc |w.val| = |(w.val - W) + W| := by congr 1; ring
      _ ≤ _ := abs_add_le _ _
      _ ≤ _ := by linarith
  have h1 : |q * w.val - n.val| ≤ (F.u * |q| + F.eta) * (|W| + eW) := by
    have e : q * w.val - n.val = (q - n.val / w.val) * w.val := by field_simp
    rw [e, abs_mul]
    exact mul_le_mul hr hwb (abs_nonneg _) (by positivity)
  calc |q * W - N| = |-(q * (w.val - W)) + (q * w.val - n.val) + (n.val - N)| := by congr 1; ring
    _ ≤ |-(q * (w.val - W))| + |q * w.val - n.val| + |n.val - N| := abs_add_three _ _ _
    _ ≤ |q| * eW + (F.u * |q| + F.eta) * (|W| + eW) + eN := by
        rw [abs_neg, abs_mul]
        have := mul_le_mul_of_nonneg_left ew (abs_nonneg q)
        linarith
    _ = _ := by ring

/-- **C122** The homogeneous product in IEEE arithmetic, forward form. If both rows fit, the exact `W` is farther from zero than its accumulation error and the quotient
leaves room, the coordinate is finite and is the exact `N / W` up to the stated error: the accumulation errors relative to `W`, one rounding, and underflow. -/
theorem C122_accurate (h0 : 0 < F.emax) (cfg : Cfg) (a : Mat (K + 1) (K + 1) (Fp F)) (v : Vec K (Fp F)) (hK : (K + 1 : ℕ) * F.u < 1)
    (hv : ∀ j : Fin K, v[j].Finite) (hw : Spec.HomFits a v (Fin.last K)) :
    ∃ q, a.mulVecHom cfg v = .ok q ∧ ∀ i : Fin K, Spec.HomFits a v i.castSucc →
      let W := Spec.hom a v (Fin.last K)
      let N := Spec.hom a v i.castSucc
      let eW := Spec.accErr F (K + 1) (Spec.homMag a v (Fin.last K))
      let eN := Spec.accErr F (K + 1) (Spec.homMag a v i.castSucc)
      let e := (eN + |N / W| * eW) / (|W| - eW)
      eW < |W| → |N / W| + e ≤ F.maxFinite → q[i].Finite ∧ |q[i].val - N / W| ≤ (1 + F.u) * e + F.u * |N / W| + F.eta := by
  have hu := F.u_pos
  choose d hd1 hd2 hd3 using row h0 cfg a v hK
  refine ⟨_, Mat.hom_spec cfg a v d hd1, fun i hi => ?_⟩
  simp only [Fin.getElem_fin, Vector.getElem_ofFn]
  intro hlt hfit
  have fw := hd3 (Fin.last K) hv hw
  have ew := (hd2 _ fw).2.2
  have fn := hd3 i.castSucc hv hi
  have en := (hd2 _ fn).2.2
  have e0 : (⟨i.1, i.2⟩ : Fin K) = i := rfl
  rw [e0]
  obtain ⟨w, hwd⟩ : ∃ w, w = d (Fin.last K) + a.get (Fin.last K) (Fin.last K) := ⟨_, rfl⟩
  obtain ⟨n, hn⟩ : ∃ n, n = d i.castSucc + a.get i.castSucc (Fin.last K) := ⟨_, rfl⟩
  rw [← hwd] at fw ew ⊢
  rw [← hn] at fn en ⊢
  obtain ⟨W, hW⟩ : ∃ W, W = Spec.hom a v (Fin.last K) := ⟨_, rfl⟩
  obtain ⟨N, hN⟩ : ∃ N, N = Spec.hom a v i.castSucc := ⟨_, rfl⟩
  obtain ⟨eW, heW⟩ : ∃ e, e = Spec.accErr F (K + 1) (Spec.homMag a v (Fin.last K)) := ⟨_, rfl⟩
  obtain ⟨eN, heN⟩ : ∃ e, e = Spec.accErr F (K + 1) (Spec.homMag a v i.castSucc) := ⟨_, rfl⟩
  rw [← hW, ← hN, ← heW, ← heN] at hfit ⊢
  rw [← hW, ← heW] at ew hlt
  rw [← hN, ← heN] at en
  have hW0 : W ≠ 0 := by
    rintro rfl
    rw [abs_zero] at hlt
    have := (abs_nonneg _).trans ew
    linarith
  have hwb : |W| - eW ≤ |w.val| := by
    have : |W| ≤ |w.val| + |w.val - W| := by
      calc |W| = |w.val - (w.val - W)| := by congr 1; ring
        _ ≤ _ := abs_sub _ _
    linarith
  have hpos : 0 < |W| - eW := by linarith
  have hw0 : w.val ≠ 0 := fun h => by rw [h, abs_zero] at hwb; linarith
  obtain ⟨e, he⟩ : ∃ e, e = (eN + |N / W| * eW) / (|W| - eW) := ⟨_, rfl⟩
  rw [← he] at hfit ⊢
  have hx : |n.val / w.val - N / W| ≤ e := by
    have e1 : n.val / w.val - N / W = ((n.val - N) - N / W * (w.val - W)) / w.val := by field_simp; ring
    have hnum : |(n.val - N) - N / W * (w.val - W)| ≤ eN + |N / W| * eW := by
      refine (abs_sub _ _).trans ?_
      rw [abs_mul]
      have := mul_le_mul_of_nonneg_left ew (abs_nonneg (N / W))
      linarith
    rw [e1, abs_div, he]
    exact div_le_div₀ (le_trans (abs_nonneg _) hnum) hnum hpos hwb
  have hxb : |n.val / w.val| ≤ |N / W| + e := by
    calc |n.val / w.val| = |(n.val / w.val - N / W) + N / W| := by congr 1; ring
      _ ≤ _ := abs_add_le _ _
      _ ≤ _ := by linarith
  obtain ⟨g1, g2⟩ := Fp.div_fin h0 fn fw hw0 (hxb.trans hfit)
  refine ⟨g1, ?_⟩
  rw [g2]
  have hr := rnd_err_add (F := F) (n.val / w.val)
  have := mul_le_mul_of_nonneg_left hxb hu.le
  calc |F.rnd (n.val / w.val) - N / W| = |(F.rnd (n.val / w.val) - n.val / w.val) + (n.val / w.val - N / W)| := by congr 1; ring
    _ ≤ _ := abs_add_le _ _
    _ ≤ _ := by linarith

private theorem mul_zero' (h0 : 0 < F.emax) {a z : Fp F} (ha : a.Finite) (hz : z.Finite) (hv : z.val = 0) : (a * z).Finite ∧ (a * z).val = 0 := by
  obtain ⟨h1, h2⟩ := Fp.mul_fin h0 ha hz (by rw [hv, mul_zero, abs_zero]; exact F.maxFinite_pos.le)
  exact ⟨h1, by rw [h2, hv, mul_zero, rnd_zero]⟩

/-- **C122** Affine matrices: if the last row is `( 0, ..., 0, 1 )` and the coordinates are finite, the division changes nothing: every coordinate of the result is the
accumulated row, so it is exact up to the accumulation error whenever it is finite, and finite whenever the row fits. -/
theorem C122_affine (h0 : 0 < F.emax) (cfg : Cfg) (a : Mat (K + 1) (K + 1) (Fp F)) (v : Vec K (Fp F)) (hK : (K + 1 : ℕ) * F.u < 1)
    (hv : ∀ j : Fin K, v[j].Finite) (hz : ∀ j : Fin K, (a.get (Fin.last K) j.castSucc).Finite ∧ (a.get (Fin.last K) j.castSucc).val = 0)
    (h1 : a.get (Fin.last K) (Fin.last K) = 1) :
    ∃ q, a.mulVecHom cfg v = .ok q ∧ ∀ i : Fin K,
      (q[i].Finite → |q[i].val - Spec.hom a v i.castSucc| ≤ Spec.accErr F (K + 1) (Spec.homMag a v i.castSucc)) ∧
      (Spec.HomFits a v i.castSucc → q[i].Finite) := by
  choose d hd1 hd2 hd3 using row h0 cfg a v hK
  have hone := Fp.one_fin (F := F) h0
  -- the last row is exactly 1
  have hlast : ∀ k, k ≤ K → ∃ z : Fp F, loop k (fun c tmp => do pure (tmp + (← v.atGet cfg c) * (← a.atGet cfg (Fin.last K) c))) (0 : Fp F) = .ok z ∧ z.Finite ∧ z.val = 0 := by
    intro k
    induction k with
    | zero => intro _; exact ⟨0, rfl, Fp.finite_zero, Fp.val_zero⟩
    | succ k ih =>
      intro hk
      obtain ⟨z, z1, z2, z3⟩ := ih (by omega)
      have hk' : k < K := by omega
      obtain ⟨p1, p2⟩ := mul_zero' h0 (hv ⟨k, hk'⟩) (hz ⟨k, hk'⟩).1 (hz ⟨k, hk'⟩).2
      obtain ⟨s1, s2⟩ := Fp.add_fin h0 z2 p1 (by rw [z3, p2, add_zero, abs_zero]; exact F.maxFinite_pos.le)
      refine ⟨_, ?_, s1, by rw [s2, z3, p2, add_zero, rnd_zero]⟩
      rw [loop_succ, z1, Vmml.bind_ok, Vec.atGet_lt cfg v hk', Vmml.bind_ok, Mat.atGet_lt cfg a (by simp) (by omega), Vmml.bind_ok]
      rfl
  obtain ⟨z, z1, z2, z3⟩ := hlast K le_rfl
  have hzd : d (Fin.last K) = z := Except.ok.inj ((hd1 (Fin.last K)).symm.trans z1)
  have r1 : F.Rep 1 := by rw [← hone.2]; exact Fp.rep_val hone.1
  obtain ⟨w, hw⟩ : ∃ w, w = d (Fin.last K) + a.get (Fin.last K) (Fin.last K) := ⟨_, rfl⟩
  obtain ⟨w1, w2⟩ := Fp.add_fin h0 z2 hone.1 (by rw [z3, hone.2, zero_add, abs_one]; exact one_le_max h0)
  have fw : w.Finite ∧ w.val = 1 := by
    rw [hw, hzd, h1]
    exact ⟨w1, by rw [w2, z3, hone.2, zero_add]; exact r1.rnd_eq⟩
  have hdiv : ∀ n : Fp F, n.Finite → (n / w).Finite ∧ (n / w).val = n.val := by
    intro n hn
    obtain ⟨g1, g2⟩ := Fp.div_fin h0 hn fw.1 (by rw [fw.2]; norm_num) (by rw [fw.2, div_one]; exact Fp.abs_val_le _)
    exact ⟨g1, by rw [g2, fw.2, div_one]; exact (Fp.rep_val hn).rnd_eq⟩
  refine ⟨_, Mat.hom_spec cfg a v d hd1, fun i => ?_⟩
  simp only [Fin.getElem_fin, Vector.getElem_ofFn]
  have e0 : (⟨i.1, i.2⟩ : Fin K) = i := rfl
  rw [e0, ← hw]
  refine ⟨fun hf => ?_, fun hfit => (hdiv _ (hd3 _ hv hfit)).1⟩
  have fn := (Fp.div_finite hf fw.1).1
  rw [(hdiv _ fn).2]
  exact (hd2 _ fn).2.2

/-- The last row `( 0, 0, -1, 0 )` is evaluated without error. -/
private theorem persp_w (h0 : 0 < F.emax) (cfg : Cfg) (a : Mat 4 4 (Fp F)) (v : Vec 3 (Fp F)) (hv : Spec.VFinite v)
    (e0 : a.get 3 0 = 0) (e1 : a.get 3 1 = 0) (e2 : a.get 3 2 = -1) (e3 : a.get 3 3 = 0) :
    ∃ d, loop 3 (fun c tmp => do pure (tmp + (← v.atGet cfg c) * (← a.atGet cfg (3 : Fin 4) c))) (0 : Fp F) = .ok d ∧ (d + a.get 3 3).Finite ∧ (d + a.get 3 3).val = -v[2].val := by
  have v0 : Fp.Is v[0] v[0].val := ⟨hv 0, rfl⟩
  have v1 : Fp.Is v[1] v[1].val := ⟨hv 1, rfl⟩
  have v2 : Fp.Is v[2] v[2].val := ⟨hv 2, rfl⟩
  have z : Fp.Is (0 : Fp F) 0 := Fp.Is.zero
  have o := Fp.one_fin (F := F) h0
  have m : Fp.Is (-1 : Fp F) (-1) := ⟨Fp.finite_neg o.1, by rw [Fp.val_neg, o.2]⟩
  have mx := F.maxFinite_pos
  have p0 : (v[0] * (0 : Fp F)).Finite ∧ (v[0] * (0 : Fp F)).val = 0 := mul_zero' h0 (hv 0) z.1 z.2
  have p1 : (v[1] * (0 : Fp F)).Finite ∧ (v[1] * (0 : Fp F)).val = 0 := mul_zero' h0 (hv 1) z.1 z.2
  obtain ⟨p2, p2'⟩ := Fp.mul_fin h0 (hv 2) m.1 (by rw [m.2, mul_neg, mul_one, abs_neg]; exact Fp.abs_val_le _)
  have p2'' : (v[2] * (-1 : Fp F)).val = -v[2].val := by
    refine p2'.trans ?_
    rw [m.2, mul_neg, mul_one, rnd_neg]
    congr 1
    exact (Fp.rep_val (hv 2)).rnd_eq
  obtain ⟨q0, q0'⟩ := Fp.add_fin h0 z.1 p0.1 (by rw [z.2, p0.2, add_zero, abs_zero]; exact mx.le)
  rw [z.2, p0.2, add_zero, rnd_zero] at q0'
  obtain ⟨q1, q1'⟩ := Fp.add_fin h0 q0 p1.1 (by rw [q0', p1.2, add_zero, abs_zero]; exact mx.le)
  rw [q0', p1.2, add_zero, rnd_zero] at q1'
  have rv : F.Rep (-v[2].val) := by rw [← p2'']; exact Fp.rep_val p2
  have mv : |-v[2].val| ≤ F.maxFinite := by rw [← p2'']; exact Fp.abs_val_le _
  obtain ⟨q2, q2'⟩ := Fp.add_fin h0 q1 p2 (by rw [q1', zero_add]; exact Fp.abs_val_le _)
  have q2'' : ((0 : Fp F) + v[0] * (0 : Fp F) + v[1] * (0 : Fp F) + v[2] * (-1 : Fp F)).val = -v[2].val := by
    refine q2'.trans ?_
    rw [q1', zero_add]
    show F.rnd (v[2] * (-1 : Fp F)).val = _
    rw [p2'', rv.rnd_eq]
  obtain ⟨q3, q3'⟩ := Fp.add_fin h0 q2 z.1 (by rw [z.2, add_zero]; exact Fp.abs_val_le _)
  refine ⟨(0 : Fp F) + v[0] * (0 : Fp F) + v[1] * (0 : Fp F) + v[2] * (-1 : Fp F), ?_, ?_, ?_⟩
  · have g0 : a.atGet cfg (3 : Fin 4) 0 = .ok (0 : Fp F) := by rw [← e0]; exact Mat.atGet_lt cfg a (by norm_num) (by norm_num)
    have g1 : a.atGet cfg (3 : Fin 4) 1 = .ok (0 : Fp F) := by rw [← e1]; exact Mat.atGet_lt cfg a (by norm_num) (by norm_num)
    have g2 : a.atGet cfg (3 : Fin 4) 2 = .ok (-1 : Fp F) := by rw [← e2]; exact Mat.atGet_lt cfg a (by norm_num) (by norm_num)
    rw [loop_succ, loop_succ, loop_succ, loop_zero]
    simp only [Vmml.bind_ok, Vmml.pure_ok, g0, g1, g2, Vec.atGet_lt cfg v (show 0 < 3 by norm_num), Vec.atGet_lt cfg v (show 1 < 3 by norm_num), Vec.atGet_lt cfg v (show 2 < 3 by norm_num)]
  · rw [e3]; exact q3
  · rw [e3]
    refine q3'.trans ?_
    rw [z.2, add_zero]
    exact (congrArg F.rnd q2'').trans rv.rnd_eq

/-- Row `i` of the exact perspective matrix times the point `( x, y, z, 1 )`. -/
noncomputable def Spec.clip (f : Frustum (Fp F)) (v : Vec 3 (Fp F)) (i : Fin 4) : ℝ :=
  let A := Spec.perspective f.left.val f.right.val f.bottom.val f.top.val f.nearPlane.val f.farPlane.val
  ∑ j : Fin 3, v[j].val * A i j.castSucc + A i 3
/-- The sum of the magnitudes of its terms. -/
noncomputable def Spec.clipMag (f : Frustum (Fp F)) (v : Vec 3 (Fp F)) (i : Fin 4) : ℝ :=
  let A := Spec.perspective f.left.val f.right.val f.bottom.val f.top.val f.nearPlane.val f.farPlane.val
  ∑ j : Fin 3, |v[j].val * A i j.castSucc| + |A i 3|
/-- What the rounding of the matrix entries contributes. -/
noncomputable def Spec.clipEntry (f : Frustum (Fp F)) (v : Vec 3 (Fp F)) (i : Fin 4) : ℝ :=
  Spec.projErr F * Spec.clipMag f v i + 3 * F.eta * (∑ j : Fin 3, |v[j].val| + 1)
/-- The whole error of a clip coordinate: the entries and the accumulation of four terms. -/
noncomputable def Spec.clipErr (f : Frustum (Fp F)) (v : Vec 3 (Fp F)) (i : Fin 4) : ℝ :=
  Spec.clipEntry f v i + Spec.accErr F 4 (Spec.clipMag f v i + Spec.clipEntry f v i)

private theorem clip_near (f : Frustum (Fp F)) (v : Vec 3 (Fp F)) (P : Mat 4 4 (Fp F))
    (hE : ∀ i j, Spec.EntryNear F (P.get i j) (Spec.perspective f.left.val f.right.val f.bottom.val f.top.val f.nearPlane.val f.farPlane.val i j)) (i : Fin 4) :
    |Spec.hom P v i - Spec.clip f v i| ≤ Spec.clipEntry f v i ∧ Spec.homMag P v i ≤ Spec.clipMag f v i + Spec.clipEntry f v i := by
  unfold Spec.hom Spec.homMag Spec.clipEntry Spec.clip Spec.clipMag
  simp only
  generalize Spec.perspective f.left.val f.right.val f.bottom.val f.top.val f.nearPlane.val f.farPlane.val = A at hE ⊢
  have t : ∀ j : Fin 3, |v[j].val * (P.get i j.castSucc).val - v[j].val * A i j.castSucc| ≤
      Spec.projErr F * |v[j].val * A i j.castSucc| + 3 * F.eta * |v[j].val| := by
    intro j
    rw [← mul_sub, abs_mul, abs_mul]
    have := mul_le_mul_of_nonneg_left (hE i j.castSucc).2 (abs_nonneg v[j].val)
    linarith
  have t3 := (hE i 3).2
  have l3 : (Fin.last 3) = (3 : Fin 4) := rfl
  rw [l3]
  constructor
  · calc _ = |(∑ j : Fin 3, (v[j].val * (P.get i j.castSucc).val - v[j].val * A i j.castSucc)) + ((P.get i 3).val - A i 3)| := by
            rw [Finset.sum_sub_distrib]; congr 1; ring
      _ ≤ |∑ j : Fin 3, (v[j].val * (P.get i j.castSucc).val - v[j].val * A i j.castSucc)| + |(P.get i 3).val - A i 3| := abs_add_le _ _
      _ ≤ ∑ j : Fin 3, (Spec.projErr F * |v[j].val * A i j.castSucc| + 3 * F.eta * |v[j].val|) + (Spec.projErr F * |A i 3| + 3 * F.eta) := by
            refine add_le_add ((Finset.abs_sum_le_sum_abs _ _).trans (Finset.sum_le_sum fun j _ => t j)) t3
      _ = _ := by rw [Finset.sum_add_distrib, ← Finset.mul_sum, ← Finset.mul_sum]; ring
  · have b : ∀ {x y e : ℝ}, |x - y| ≤ e → |x| ≤ |y| + e := by
      intro x y e h
      calc |x| = |(x - y) + y| := by congr 1; ring
        _ ≤ _ := abs_add_le _ _
        _ ≤ _ := by linarith
    calc _ ≤ ∑ j : Fin 3, (|v[j].val * A i j.castSucc| + (Spec.projErr F * |v[j].val * A i j.castSucc| + 3 * F.eta * |v[j].val|)) + (|A i 3| + (Spec.projErr F * |A i 3| + 3 * F.eta)) := by
            exact add_le_add (Finset.sum_le_sum fun j _ => b (t j)) (b t3)
      _ = _ := by rw [Finset.sum_add_distrib, Finset.sum_add_distrib, ← Finset.mul_sum, ← Finset.mul_sum]; ring

private theorem accErr_mono (n : ℕ) (hn : n * F.u < 1) {S T : ℝ} (h : S ≤ T) : Spec.accErr F n S ≤ Spec.accErr F n T := by
  have hu := F.u_pos
  have hden : 0 < 1 - n * F.u := by linarith
  unfold Spec.accErr
  gcongr

/-- **C122** From the frustum to normalized device coordinates, in IEEE arithmetic: the matrix of `compute_matrix` (its double literals and conversions included) is applied to a
finite point with `z < 0` by the homogeneous product. As long as the clip coordinate and the quotient leave room, coordinate `i` of the result is finite and is the exact
normalized device coordinate of the frustum up to the error of the clip coordinate over `-z`, one rounding, and underflow. Nothing is lost in `w`: it is exactly `-z`. -/
theorem C122_ndc {D : Format} (hp : F.p ≤ D.p) (he : F.emax ≤ D.emax) (h1 : 1 < F.emax) (h5 : 5 ≤ F.p) (cfg : Cfg) (f : Frustum (Fp F)) (m0 : Mat 4 4 (Fp F)) (hf : Spec.Proper f)
    (hs : Spec.SumsFit F f.left.val f.right.val f.bottom.val f.top.val f.nearPlane.val f.farPlane.val)
    (hfit : ∀ i j, 2 * |Spec.perspective f.left.val f.right.val f.bottom.val f.top.val f.nearPlane.val f.farPlane.val i j| + 2 ≤ F.maxFinite)
    (hfn : (2 : ℝ) ^ D.emin ≤ 2 * f.farPlane.val * f.nearPlane.val) (hfn2 : 2 * f.farPlane.val * f.nearPlane.val ≤ D.maxFinite) (hf2 : 2 * f.farPlane.val ≤ D.maxFinite)
    (v : Vec 3 (Fp F)) (hv : Spec.VFinite v) (hz : v[2].val < 0) :
    ∃ P q, f.computeMatrixMixed D cfg m0 = .ok P ∧ P.mulVecHom cfg v = .ok q ∧ ∀ i : Fin 3,
      let X := Spec.clip f v i.castSucc
      let e := Spec.clipErr f v i.castSucc
      Spec.clipMag f v i.castSucc + Spec.clipEntry f v i.castSucc + 4 * F.eta ≤ (1 - 4 * F.u) * F.maxFinite →
      (|X| + e) / -v[2].val ≤ F.maxFinite →
      q[i].Finite ∧ |q[i].val - X / -v[2].val| ≤ ((1 + F.u : ℝ) * e + F.u * |X|) / -v[2].val + F.eta := by
  have h0 : 0 < F.emax := by omega
  have hu := F.u_pos
  obtain ⟨hu64, -⟩ := F.proj_small h5
  obtain ⟨P, hP, hE⟩ := C119_perspective hp he h1 h5 cfg f m0 hf hs hfit hfn hfn2 hf2
  have e3 : P.get 3 0 = 0 ∧ P.get 3 1 = 0 ∧ P.get 3 2 = -1 ∧ P.get 3 3 = 0 := by
    obtain ⟨Q, hQ, hget⟩ := computeMatrixMixed_get (D := D) cfg f m0
    obtain rfl := Except.ok.inj (hP.symm.trans hQ)
    exact ⟨hget _ _, hget _ _, hget _ _, hget _ _⟩
  obtain ⟨d3, w1, w2, w3⟩ := persp_w h0 cfg P v hv e3.1 e3.2.1 e3.2.2.1 e3.2.2.2
  have hK : ((3 + 1 : ℕ) : ℝ) * F.u < 1 := by push_cast; linarith
  choose d hd1 hd2 hd3 using row h0 cfg P v hK
  refine ⟨P, _, hP, Mat.hom_spec cfg P v d hd1, fun i => ?_⟩
  have hd : d (Fin.last 3) = d3 := Except.ok.inj ((hd1 (Fin.last 3)).symm.trans w1)
  simp only [Fin.getElem_fin, Vector.getElem_ofFn]
  have e0 : (⟨i.1, i.2⟩ : Fin 3) = i := rfl
  rw [e0, hd]
  have l3 : (Fin.last 3) = (3 : Fin 4) := rfl
  rw [l3]
  intro k1 k2
  obtain ⟨c1, c2⟩ := clip_near f v P hE i.castSucc
  have fn := hd3 i.castSucc hv ⟨fun j => (hE _ j).1, by push_cast; norm_num only; linarith only [k1, c2]⟩
  have en := (hd2 _ fn).2.2
  rw [l3] at fn en
  obtain ⟨n, hn⟩ : ∃ n, n = d i.castSucc + P.get i.castSucc 3 := ⟨_, rfl⟩
  obtain ⟨w, hw⟩ : ∃ w, w = d3 + P.get 3 3 := ⟨_, rfl⟩
  rw [← hn] at fn en ⊢
  rw [← hw] at w2 w3 ⊢
  obtain ⟨z, hzz⟩ : ∃ z, z = -v[2].val := ⟨_, rfl⟩
  have hz0 : 0 < z := by rw [hzz]; linarith
  have hz' : -v[2].val = z := hzz.symm
  rw [hz'] at w3 k2 ⊢
  obtain ⟨X, hX⟩ : ∃ X, X = Spec.clip f v i.castSucc := ⟨_, rfl⟩
  obtain ⟨e, hee⟩ : ∃ e, e = Spec.clipErr f v i.castSucc := ⟨_, rfl⟩
  rw [← hX, ← hee] at k2 ⊢
  rw [← hX] at c1
  have hne : |n.val - X| ≤ e := by
    have := accErr_mono (F := F) 4 (by push_cast; linarith) c2
    have hee' : e = Spec.clipEntry f v i.castSucc + Spec.accErr F 4 (Spec.clipMag f v i.castSucc + Spec.clipEntry f v i.castSucc) := hee
    have en' : |n.val - Spec.hom P v i.castSucc| ≤ Spec.accErr F 4 (Spec.homMag P v i.castSucc) := en
    calc |n.val - X| = |(n.val - Spec.hom P v i.castSucc) + (Spec.hom P v i.castSucc - X)| := by congr 1; ring
      _ ≤ _ := abs_add_le _ _
      _ ≤ e := by linarith
  have hnb : |n.val| ≤ |X| + e := by
    calc |n.val| = |(n.val - X) + X| := by congr 1; ring
      _ ≤ _ := abs_add_le _ _
      _ ≤ _ := by linarith
  have hq : |n.val / w.val| ≤ (|X| + e) / z := by
    rw [w3, abs_div, abs_of_pos hz0]
    exact div_le_div_of_nonneg_right hnb hz0.le
  obtain ⟨g1, g2⟩ := Fp.div_fin h0 fn w2 (by rw [w3]; exact hz0.ne') (hq.trans k2)
  refine ⟨g1, ?_⟩
  rw [g2]
  have hr := rnd_err_add (F := F) (n.val / w.val)
  have h3 := mul_le_mul_of_nonneg_left hq hu.le
  have h4 : |n.val / w.val - X / z| ≤ e / z := by
    rw [w3, ← sub_div, abs_div, abs_of_pos hz0]
    exact div_le_div_of_nonneg_right hne hz0.le
  have h5 : ((1 + F.u) * e + F.u * |X|) / z = e / z + F.u * ((|X| + e) / z) := by field_simp; ring
  rw [h5]
  calc |F.rnd (n.val / w.val) - X / z| = |(F.rnd (n.val / w.val) - n.val / w.val) + (n.val / w.val - X / z)| := by congr 1; ring
    _ ≤ _ := abs_add_le _ _
    _ ≤ _ := by linarith

/-- **C122** What `C122_ndc` compares with: the exact normalized device coordinates of a point at distance `d = -z` in front of the eye, in closed form; and for a point inside the
frustum all three lie in `[ -1, 1 ]`, so the computed ones leave the cube by at most the stated error. -/
theorem C122_clip (f : Frustum (Fp F)) (hf : Spec.Proper f) (v : Vec 3 (Fp F)) (hz : v[2].val < 0) :
    let l := f.left.val; let r := f.right.val; let b := f.bottom.val; let t := f.top.val; let near := f.nearPlane.val; let far := f.farPlane.val
    let x := v[0].val; let y := v[1].val; let d := -v[2].val
    Spec.clip f v 0 / d = (2 * (near * x / d) - (r + l)) / (r - l) ∧
    Spec.clip f v 1 / d = (2 * (near * y / d) - (t + b)) / (t - b) ∧
    Spec.clip f v 2 / d = ((far + near) - 2 * far * near / d) / (far - near) ∧
    (near ≤ d → d ≤ far → l ≤ near * x / d → near * x / d ≤ r → b ≤ near * y / d → near * y / d ≤ t →
      ∀ i : Fin 3, |Spec.clip f v i.castSucc / d| ≤ 1) := by
  intro l r b t near far x y d
  obtain ⟨-, hlr, hbt, hn0, hnf⟩ := hf
  have hlr' : 0 < r - l := sub_pos.2 hlr
  have hbt' : 0 < t - b := sub_pos.2 hbt
  have hnf' : 0 < far - near := sub_pos.2 hnf
  have hd : 0 < d := neg_pos.2 hz
  have hn : 0 < near := hn0
  obtain ⟨z, hzz⟩ : ∃ z, z = v[2].val := ⟨_, rfl⟩
  have hv2 : z = -d := by rw [hzz]; exact (neg_neg _).symm
  have c0 : Spec.clip f v 0 / d = (2 * (near * x / d) - (r + l)) / (r - l) := by
    have : Spec.clip f v 0 = x * (2 * near / (r - l)) + y * 0 + z * ((r + l) / (r - l)) + 0 := by
      unfold Spec.clip; simp only [Fin.sum_univ_three]; rw [hzz]; rfl
    rw [this, hv2]; field_simp; ring
  have c1 : Spec.clip f v 1 / d = (2 * (near * y / d) - (t + b)) / (t - b) := by
    have : Spec.clip f v 1 = x * 0 + y * (2 * near / (t - b)) + z * ((t + b) / (t - b)) + 0 := by
      unfold Spec.clip; simp only [Fin.sum_univ_three]; rw [hzz]; rfl
    rw [this, hv2]; field_simp; ring
  have c2 : Spec.clip f v 2 / d = ((far + near) - 2 * far * near / d) / (far - near) := by
    have : Spec.clip f v 2 = x * 0 + y * 0 + z * (-(far + near) / (far - near)) + -(2 * far * near) / (far - near) := by
      unfold Spec.clip; simp only [Fin.sum_univ_three]; rw [hzz]; rfl
    rw [this, hv2]; field_simp; ring
  refine ⟨c0, c1, c2, fun k1 k2 k3 k4 k5 k6 i => ?_⟩
  match i with
  | 0 =>
    show |Spec.clip f v 0 / d| ≤ 1
    rw [c0, abs_div, abs_of_pos hlr', div_le_one hlr', abs_le]
    constructor <;> linarith
  | 1 =>
    show |Spec.clip f v 1 / d| ≤ 1
    rw [c1, abs_div, abs_of_pos hbt', div_le_one hbt', abs_le]
    constructor <;> linarith
  | 2 =>
    show |Spec.clip f v 2 / d| ≤ 1
    have hfar : 0 < far := by linarith
    have m1 : 2 * far * near / d ≤ 2 * far := by rw [div_le_iff₀ hd]; nlinarith
    have m2 : 2 * near ≤ 2 * far * near / d := by rw [le_div_iff₀ hd]; nlinarith
    rw [c2, abs_div, abs_of_pos hnf', div_le_one hnf', abs_le]
    constructor <;> linarith

/-- **C122** Without the room in the last row the result is wrong and looks like a number: there are a finite matrix and a finite vector whose exact quotient is 1/2
and whose computed one is 0, because the last row overflows to infinity. -/
theorem C122_overflow (h0 : 0 < F.emax) (cfg : Cfg) : ∃ (a : Mat 2 2 (Fp F)) (v : Vec 1 (Fp F)), (∀ i j, (a.get i j).Finite) ∧ Spec.VFinite v ∧
    Spec.hom a v 0 / Spec.hom a v 1 = 1 / 2 ∧ ∃ q, a.mulVecHom cfg v = .ok q ∧ q[0].Finite ∧ q[0].val = 0 := by
  have rk : F.Rep ((2 : ℝ) ^ F.emax) := by rw [← zpow_natCast]; exact rep_pow (by unfold emin; omega)
  have hmax : (2 : ℝ) ^ F.emax ≤ F.maxFinite := by
    refine le_trans ?_ pow_emax_le
    rw [← zpow_natCast]
  have hpos : (0 : ℝ) < (2 : ℝ) ^ F.emax := by positivity
  let e : Fp F := .fin false ((2 : ℝ) ^ F.emax) ⟨hpos.le, rk, hmax⟩
  have ie : Fp.Is e ((2 : ℝ) ^ F.emax) := ⟨trivial, rfl⟩
  have i1 : Fp.Is (1 : Fp F) 1 := Fp.one_fin h0
  have i0 : Fp.Is (0 : Fp F) 0 := Fp.Is.zero
  have mx : |(2 : ℝ) ^ F.emax| ≤ F.maxFinite := by rw [abs_of_pos hpos]; exact hmax
  have m : Fp.Is (1 * e : Fp F) ((2 : ℝ) ^ F.emax) := i1.mul h0 ie (by rw [one_mul]; exact rk.rnd_eq) (by rw [one_mul]; exact mx)
  have s : Fp.Is (0 + 1 * e : Fp F) ((2 : ℝ) ^ F.emax) := i0.add h0 m (by rw [zero_add]; exact rk.rnd_eq) (by rw [zero_add]; exact mx)
  have n : Fp.Is (0 + 1 * e + 0 : Fp F) ((2 : ℝ) ^ F.emax) := s.add h0 i0 (by rw [add_zero]; exact rk.rnd_eq) (by rw [add_zero]; exact mx)
  have w : (0 + 1 * e + e : Fp F) = .inf false := by
    obtain ⟨σ, m, hm, hs⟩ := Fp.finite_cases s.1
    have hv : (if σ then -m else m) = (2 : ℝ) ^ F.emax := by have := s.2; rw [hs] at this; exact this
    rw [hs]
    have hσ : σ = false := by
      cases σ
      · rfl
      · simp only [if_true] at hv
        have := hm.1
        linarith
    subst hσ
    simp only [Bool.false_eq_true, if_false] at hv
    subst hv
    have hx : (2 : ℝ) ^ F.emax + (2 : ℝ) ^ F.emax ≠ 0 := by positivity
    have hadd : (Fp.fin false ((2 : ℝ) ^ F.emax) hm + e : Fp F) =
        @ite _ ((2 : ℝ) ^ F.emax + (2 : ℝ) ^ F.emax = 0) (Classical.propDecidable _) (Fp.fin (false && false) 0 mag_zero)
          (Fp.round (@decide ((2 : ℝ) ^ F.emax + (2 : ℝ) ^ F.emax < 0) (Classical.propDecidable _)) |(2 : ℝ) ^ F.emax + (2 : ℝ) ^ F.emax|) := rfl
    have hlt : ¬ (2 : ℝ) ^ F.emax + (2 : ℝ) ^ F.emax < 0 := by linarith
    rw [hadd, if_neg hx, @decide_eq_false _ (Classical.propDecidable _) hlt]
    apply Fp.round_inf
    have e2 : |(2 : ℝ) ^ F.emax + (2 : ℝ) ^ F.emax| = (2 : ℝ) ^ ((F.emax + 1 : ℕ) : Int) := by
      rw [abs_of_pos (by linarith), zpow_natCast, pow_succ]; ring
    have r2 : F.Rep (|(2 : ℝ) ^ F.emax + (2 : ℝ) ^ F.emax|) := by rw [e2]; exact rep_pow (by unfold emin; omega)
    rw [r2.rnd_eq, e2]
    exact lt_of_lt_of_le maxFinite_lt (zpow_le_zpow_right₀ (by norm_num) (by push_cast; omega))
  let a : Mat 2 2 (Fp F) := ⟨#v[e, e, 0, e]⟩
  let v : Vec 1 (Fp F) := #v[1]
  refine ⟨a, v, ?_, ?_, ?_, _, Mat.hom_spec cfg a v (fun _ => 0 + 1 * e) ?_, ?_⟩
  · intro i j
    fin_cases i <;> fin_cases j
    · exact ie.1
    · exact i0.1
    · exact ie.1
    · exact ie.1
  · intro i; fin_cases i; exact i1.1
  · have h1 : Spec.hom a v 0 = (2 : ℝ) ^ F.emax := by
      unfold Spec.hom
      rw [Fin.sum_univ_one]
      show (1 : Fp F).val * e.val + (0 : Fp F).val = _
      rw [i1.2, ie.2, i0.2]; ring
    have h2 : Spec.hom a v 1 = (2 : ℝ) ^ F.emax + (2 : ℝ) ^ F.emax := by
      unfold Spec.hom
      rw [Fin.sum_univ_one]
      show (1 : Fp F).val * e.val + e.val = _
      rw [i1.2, ie.2]; ring
    rw [h1, h2]; field_simp; ring
  · intro r
    rw [loop_succ, loop_zero, Vmml.bind_ok, Vec.atGet_lt cfg v (by norm_num), Vmml.bind_ok, Mat.atGet_lt cfg a (by omega) (by norm_num)]
    fin_cases r <;> rfl
  · rw [Vector.getElem_ofFn]
    have : ((0 : Fp F) + 1 * e + 0) / (0 + 1 * e + e) = (0 + 1 * e + 0) / .inf false := by rw [w]
    obtain ⟨σ, m, hm, hn⟩ := Fp.finite_cases n.1
    rw [hn] at this
    show ((0 + 1 * e + 0) / (0 + 1 * e + e : Fp F)).Finite ∧ ((0 + 1 * e + 0) / (0 + 1 * e + e : Fp F)).val = 0
    rw [hn, this]
    refine ⟨trivial, ?_⟩
    show (if (σ ^^ false) then -(0 : ℝ) else 0) = 0
    simp

/-- In `float`, with `double` literals: the frustum -1, 1, -1, 1, 1, 2 and the point ( 0, 0, -1 ) on its near plane meet the hypotheses of `C122_ndc` for every coordinate, and the
exact depth is -1. -/
example : ∃ (f : Frustum (Fp single)) (v : Vec 3 (Fp single)), Spec.Proper f ∧ Spec.SumsFit single f.left.val f.right.val f.bottom.val f.top.val f.nearPlane.val f.farPlane.val ∧
    (∀ i j, 2 * |Spec.perspective f.left.val f.right.val f.bottom.val f.top.val f.nearPlane.val f.farPlane.val i j| + 2 ≤ single.maxFinite) ∧
    (2 : ℝ) ^ double.emin ≤ 2 * f.farPlane.val * f.nearPlane.val ∧ 2 * f.farPlane.val * f.nearPlane.val ≤ double.maxFinite ∧ 2 * f.farPlane.val ≤ double.maxFinite ∧
    Spec.VFinite v ∧ v[2].val < 0 ∧ Spec.clip f v 2 / -v[2].val = -1 ∧ ∀ i : Fin 3,
      Spec.clipMag f v i.castSucc + Spec.clipEntry f v i.castSucc + 4 * single.eta ≤ (1 - 4 * single.u) * single.maxFinite ∧
      (|Spec.clip f v i.castSucc| + Spec.clipErr f v i.castSucc) / -v[2].val ≤ single.maxFinite := by
  have h0 : 0 < single.emax := by norm_num
  have o := Fp.one_fin h0
  have nv : (-1 : Fp single).val = -1 := by rw [Fp.val_neg, o.2]
  have hmax : (2 : ℝ) ^ 20 ≤ single.maxFinite := by
    refine le_trans ?_ (pow_emax_le (F := single))
    rw [← zpow_natCast]
    exact zpow_le_zpow_right₀ (by norm_num) (by norm_num)
  have hmax2 : (2 : ℝ) ^ 20 ≤ double.maxFinite := by
    refine le_trans ?_ (pow_emax_le (F := double))
    rw [← zpow_natCast]
    exact zpow_le_zpow_right₀ (by norm_num) (by norm_num)
  norm_num at hmax hmax2
  have r : single.Rep 2 := by simpa using rep_pow (F := single) (e := 1) (by norm_num [emin])
  have hm : single.Mag 2 := ⟨by norm_num, r, by linarith⟩
  let f : Frustum (Fp single) := ⟨#v[-1, 1, -1, 1, 1, .fin false 2 hm]⟩
  let v : Vec 3 (Fp single) := #v[0, 0, -1]
  have e1 : f.left.val = -1 := nv
  have e2 : f.right.val = 1 := o.2
  have e3 : f.bottom.val = -1 := nv
  have e4 : f.top.val = 1 := o.2
  have e5 : f.nearPlane.val = 1 := o.2
  have e6 : f.farPlane.val = 2 := by show (Fp.fin false 2 hm : Fp single).val = 2; simp
  have v0 : (v[(0 : Fin 3)]).val = 0 := Fp.val_zero
  have v1 : (v[(1 : Fin 3)]).val = 0 := Fp.val_zero
  have v2 : (v[(2 : Fin 3)]).val = -1 := nv
  have v2' : v[2].val = -1 := nv
  have hpf : Spec.Proper f := by
    refine ⟨?_, ?_, ?_, ?_, ?_⟩
    · intro i; fin_cases i <;> first | exact o.1 | exact Fp.finite_neg o.1 | trivial
    · rw [e1, e2]; norm_num
    · rw [e3, e4]; norm_num
    · rw [e5]; norm_num
    · rw [e5, e6]; norm_num
  have hA : ∀ i j, |Spec.perspective f.left.val f.right.val f.bottom.val f.top.val f.nearPlane.val f.farPlane.val i j| ≤ 4 := by
    rw [e1, e2, e3, e4, e5, e6]
    intro i j
    fin_cases i <;> fin_cases j <;> norm_num [Spec.perspective, abs_le]
  have hu : single.u ≤ 1 / 2 ^ 10 := by
    norm_num [Format.u]
  have hu0 := single.u_pos
  have hη : single.eta ≤ 1 := by rw [eta_eq_tiny]; have := tiny_le_one (F := single) h0; have := single.u_le_one; have := single.tiny_pos; nlinarith [single.u_pos]
  have hη0 := single.eta_pos
  have hmag : ∀ i, Spec.clipMag f v i ≤ 8 := by
    intro i
    unfold Spec.clipMag
    simp only [Fin.sum_univ_three, v0, v1, v2, zero_mul, abs_zero, abs_mul, abs_neg, abs_one]
    have := hA i 2
    have := hA i 3
    have c : ((2 : Fin 3).castSucc) = (2 : Fin 4) := rfl
    rw [c]
    linarith
  have hmag0 : ∀ i, 0 ≤ Spec.clipMag f v i := fun i => by
    unfold Spec.clipMag
    exact add_nonneg (Finset.sum_nonneg fun _ _ => abs_nonneg _) (abs_nonneg _)
  have hpe : Spec.projErr single ≤ 1 := by
    have := C119_bound (F := single) (by norm_num)
    linarith
  have hent : ∀ i, Spec.clipEntry f v i ≤ 14 := by
    intro i
    unfold Spec.clipEntry
    simp only [Fin.sum_univ_three, v0, v1, v2, abs_zero, abs_neg, abs_one]
    have := mul_le_mul hpe (hmag i) (hmag0 i) zero_le_one
    linarith
  have hent0 : ∀ i, Spec.clipEntry f v i ≤ 14 := hent
  have hacc : ∀ S : ℝ, S ≤ 22 → Spec.accErr single 4 S ≤ 8 := by
    intro S hS
    unfold Spec.accErr
    push_cast
    rw [div_le_iff₀ (by linarith)]
    nlinarith
  have hclip : ∀ i, |Spec.clip f v i| ≤ 8 := by
    intro i
    refine le_trans ?_ (hmag i)
    unfold Spec.clip Spec.clipMag
    exact (abs_add_le _ _).trans (add_le_add (Finset.abs_sum_le_sum_abs _ _) le_rfl)
  refine ⟨f, v, hpf, ?_, ?_, ?_, ?_, ?_, ?_, ?_, ?_, ?_⟩
  · rw [e1, e2, e3, e4, e5, e6]
    refine ⟨?_, ?_, ?_, ?_, ?_, ?_⟩ <;> norm_num <;> linarith
  · intro i j
    have := hA i j
    linarith
  · rw [e5, e6]
    refine le_trans (zpow_le_one_of_nonpos₀ (by norm_num) (by norm_num [emin])) (by norm_num)
  · rw [e5, e6]; linarith
  · rw [e6]; linarith
  · intro i; fin_cases i <;> first | exact Fp.finite_zero | exact Fp.finite_neg o.1
  · rw [v2']; norm_num
  · have := (C122_clip f hpf v (by rw [v2']; norm_num)).2.2.1
    rw [e5, e6, v2'] at this
    rw [v2', this]; norm_num
  · intro i
    have a1 := hmag i.castSucc
    have a2 := hent i.castSucc
    have a3 := hacc (Spec.clipMag f v i.castSucc + Spec.clipEntry f v i.castSucc) (by linarith)
    have a4 := hclip i.castSucc
    constructor
    · nlinarith
    · rw [v2', neg_neg, div_one]
      unfold Spec.clipErr
      linarith

/-- In `float`: the matrix ( 1 0 ; 1 1 ) and the vector ( 1 ) meet the hypotheses of `C122_residual` and `C122_accurate`; the exact quotient is 1/2. -/
example : ∃ (a : Mat 2 2 (Fp single)) (v : Vec 1 (Fp single)), ((1 + 1 : ℕ) : ℝ) * single.u < 1 ∧ (∀ j : Fin 1, v[j].Finite) ∧ Spec.HomFits a v 1 ∧ Spec.HomFits a v 0 ∧
    Spec.hom a v 0 / Spec.hom a v 1 = 1 / 2 ∧ Spec.accErr single 2 (Spec.homMag a v 1) < |Spec.hom a v 1| := by
  have h0 : 0 < single.emax := by norm_num
  have o := Fp.one_fin h0
  have hmax : (2 : ℝ) ^ 20 ≤ single.maxFinite := by
    refine le_trans ?_ (pow_emax_le (F := single))
    rw [← zpow_natCast]
    exact zpow_le_zpow_right₀ (by norm_num) (by norm_num)
  norm_num at hmax
  have hu : single.u ≤ 1 / 2 ^ 10 := by norm_num [Format.u]
  have hu0 := single.u_pos
  have hη0 := single.eta_pos
  have hη : single.eta ≤ 1 / 2 ^ 10 := by
    rw [eta_eq_tiny]; have := tiny_le_one (F := single) h0; have := single.tiny_pos; nlinarith
  let a : Mat 2 2 (Fp single) := ⟨#v[1, 1, 0, 1]⟩
  let v : Vec 1 (Fp single) := #v[1]
  have fa : ∀ i j, (a.get i j).Finite := by intro i j; fin_cases i <;> fin_cases j <;> first | exact o.1 | exact Fp.finite_zero
  have m0 : Spec.homMag a v 0 = 1 := by
    unfold Spec.homMag; rw [Fin.sum_univ_one]
    show |(1 : Fp single).val * (1 : Fp single).val| + |(0 : Fp single).val| = 1
    rw [o.2, Fp.val_zero]; norm_num
  have m1 : Spec.homMag a v 1 = 2 := by
    unfold Spec.homMag; rw [Fin.sum_univ_one]
    show |(1 : Fp single).val * (1 : Fp single).val| + |(1 : Fp single).val| = 2
    rw [o.2]; norm_num
  have n0 : Spec.hom a v 0 = 1 := by
    unfold Spec.hom; rw [Fin.sum_univ_one]
    show (1 : Fp single).val * (1 : Fp single).val + (0 : Fp single).val = 1
    rw [o.2, Fp.val_zero]; norm_num
  have n1 : Spec.hom a v 1 = 2 := by
    unfold Spec.hom; rw [Fin.sum_univ_one]
    show (1 : Fp single).val * (1 : Fp single).val + (1 : Fp single).val = 2
    rw [o.2]; norm_num
  refine ⟨a, v, ?_, ?_, ⟨fa 1, ?_⟩, ⟨fa 0, ?_⟩, ?_, ?_⟩
  · push_cast; linarith
  · intro j; fin_cases j; exact o.1
  · rw [m1]; push_cast; nlinarith
  · rw [m0]; push_cast; nlinarith
  · rw [n0, n1]
  · rw [m1, n1]
    unfold Spec.accErr
    push_cast
    rw [div_lt_iff₀ (by linarith)]
    norm_num
    linarith

end Vmml
