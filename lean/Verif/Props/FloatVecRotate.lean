import Verif.Props.FloatAxis

/-!
# C144: `Vector< 3, T >::rotate( theta, axis )` in IEEE 754 arithmetic

As in C134 and C142 the sine and cosine of the library are a parameter `L` of a stated accuracy; its square root is the correctly rounded one of IEEE 754. The parameter type of the axis is
the element type.
-/

set_option linter.unusedSimpArgs false
set_option linter.unusedVariables false

namespace Vmml
open Format
variable {F : Format}

/-! ## Specification -/

/-- The sum of the magnitudes. -/
def Spec.fsum3 (v : Vec 3 (Fp F)) : ℝ := |v[0].val| + |v[1].val| + |v[2].val|

/-! ## A row -/

set_option maxHeartbeats 1000000 in
/-- `e0 * v0 + e1 * v1 + e2 * v2` for vectors of any magnitude. -/
private theorem row3 (hF : Spec.Usual F) {ε : ℝ} (hu : F.u ≤ ε) (hε : ε ≤ 1 / 100) {e0 e1 e2 x y z : Fp F} {E0 E1 E2 : ℝ} (h0 : FClose ε 18 3 e0 E0) (h1 : FClose ε 18 3 e1 E1)
    (h2 : FClose ε 18 3 e2 E2) (fx : x.Finite) (fy : y.Finite) (fz : z.Finite) (hX : 4 * (|x.val| + |y.val| + |z.val| + F.tiny) ≤ F.maxFinite) :
    (e0 * x + e1 * y + e2 * z).Finite ∧
      |(e0 * x + e1 * y + e2 * z).val - (E0 * x.val + E1 * y.val + E2 * z.val)| ≤ 28 * ε * (|x.val| + |y.val| + |z.val| + F.tiny) := by
  have u0 := F.u_pos
  have u1 := Usual.u hF
  have t0 := F.tiny_pos
  have hp := Usual.pos hF
  have ε0 : 0 < ε := by linarith
  have key : ∀ {e x : Fp F} {E : ℝ}, FClose ε 18 3 e E → x.Finite → 4 * (|x.val| + F.tiny) ≤ F.maxFinite →
      (e * x).Finite ∧ |(e * x).val - E * x.val| ≤ 18 * ε * |x.val| + F.u * (16 / 5 * |x.val| + F.tiny) ∧ |(e * x).val| ≤ 16 / 5 * |x.val| + F.tiny / 100 := by
    intro e x E ⟨fe, ee, em⟩ fx hx
    have x0 := abs_nonneg x.val
    have eb : |e.val| ≤ 159 / 50 := by
      have : |e.val| ≤ |e.val - E| + |E| := by simpa using abs_add_le (e.val - E) E
      linarith
    have m : |e.val * x.val| ≤ 159 / 50 * |x.val| := by rw [abs_mul]; exact mul_le_mul_of_nonneg_right eb x0
    obtain ⟨f, v⟩ := Fp.mul_fin hp fe fx (m.trans (by linarith))
    have r := rnd_err_tiny (F := F) (e.val * x.val)
    rw [← v] at r
    have r' : |(e * x).val - e.val * x.val| ≤ F.u * (159 / 50 * |x.val| + F.tiny) := r.trans (mul_le_mul_of_nonneg_left (by linarith) u0.le)
    have d : |e.val * x.val - E * x.val| ≤ 18 * ε * |x.val| := by
      rw [← sub_mul, abs_mul]; exact mul_le_mul_of_nonneg_right ee x0
    have ux : F.u * |x.val| ≤ 1 / 1024 * |x.val| := mul_le_mul_of_nonneg_right u1 x0
    have ut : F.u * F.tiny ≤ 1 / 1024 * F.tiny := mul_le_mul_of_nonneg_right u1 t0.le
    have ux0 := mul_nonneg u0.le x0
    refine ⟨f, ?_, ?_⟩
    · calc _ = |((e * x).val - e.val * x.val) + (e.val * x.val - E * x.val)| := by congr 1; ring
        _ ≤ _ := abs_add_le _ _
        _ ≤ _ := by linarith
    · have : |(e * x).val| ≤ |(e * x).val - e.val * x.val| + |e.val * x.val| := by simpa using abs_add_le ((e * x).val - e.val * x.val) (e.val * x.val)
      linarith
  have nx := abs_nonneg x.val
  have ny := abs_nonneg y.val
  have nz := abs_nonneg z.val
  obtain ⟨f0, d0, b0⟩ := key h0 fx (by linarith)
  obtain ⟨f1, d1, b1⟩ := key h1 fy (by linarith)
  obtain ⟨f2, d2, b2⟩ := key h2 fz (by linarith)
  generalize e0 * x = p at *
  generalize e1 * y = q at *
  generalize e2 * z = r at *
  have m1 : |p.val + q.val| ≤ 16 / 5 * (|x.val| + |y.val|) + F.tiny / 50 := (abs_add_le _ _).trans (by linarith)
  obtain ⟨f3, v3⟩ := Fp.add_fin hp f0 f1 (m1.trans (by linarith))
  have r3 := rnd_err_tiny (F := F) (p.val + q.val)
  rw [← v3] at r3
  have r3' : |(p + q).val - (p.val + q.val)| ≤ F.u * (16 / 5 * (|x.val| + |y.val|) + 51 / 50 * F.tiny) := r3.trans (mul_le_mul_of_nonneg_left (by linarith) u0.le)
  have g1 : F.u * (16 / 5 * (|x.val| + |y.val|) + 51 / 50 * F.tiny) ≤ 1 / 1024 * (16 / 5 * (|x.val| + |y.val|) + 51 / 50 * F.tiny) := mul_le_mul_of_nonneg_right u1 (by positivity)
  have b3 : |(p + q).val| ≤ 13 / 4 * (|x.val| + |y.val|) + F.tiny / 25 := by
    have : |(p + q).val| ≤ |(p + q).val - (p.val + q.val)| + |p.val + q.val| := by simpa using abs_add_le ((p + q).val - (p.val + q.val)) (p.val + q.val)
    linarith
  generalize p + q = s at *
  have m2 : |s.val + r.val| ≤ 13 / 4 * (|x.val| + |y.val| + |z.val|) + F.tiny / 10 := (abs_add_le _ _).trans (by linarith)
  obtain ⟨f4, v4⟩ := Fp.add_fin hp f3 f2 (m2.trans (by linarith))
  have r4 := rnd_err_tiny (F := F) (s.val + r.val)
  rw [← v4] at r4
  have r4' : |(s + r).val - (s.val + r.val)| ≤ F.u * (13 / 4 * (|x.val| + |y.val| + |z.val|) + 11 / 10 * F.tiny) := r4.trans (mul_le_mul_of_nonneg_left (by linarith) u0.le)
  refine ⟨f4, ?_⟩
  have hx := mul_le_mul_of_nonneg_right hu nx
  have hy := mul_le_mul_of_nonneg_right hu ny
  have hz := mul_le_mul_of_nonneg_right hu nz
  have ht := mul_le_mul_of_nonneg_right hu t0.le
  have kx := mul_nonneg ε0.le nx
  have ky := mul_nonneg ε0.le ny
  have kz := mul_nonneg ε0.le nz
  have kt := mul_nonneg ε0.le t0.le
  rw [abs_le] at d0 d1 d2 r3' r4'
  rw [abs_le]
  constructor <;> linarith

/-! ## Normalising does not use the sine or cosine -/

private theorem normalize_lib (L : CMath (Fp F)) (hL : L.sqrt = (Fp.instCMath.sqrt : Fp F → Fp F)) (cfg : Cfg) (v : Vec 3 (Fp F)) :
    @Vec.normalize 3 (Fp F) _ _ _ _ _ _ L cfg v = @Vec.normalize 3 (Fp F) _ _ _ _ _ _ Fp.instCMath cfg v := by
  unfold Vec.normalize Vec.length
  rw [hL]

private theorem unit_le3 {n : Fin 3 → ℝ} (hn : Spec.IsUnit3 n) : |n 0| ≤ 1 ∧ |n 1| ≤ 1 ∧ |n 2| ≤ 1 := by
  unfold Spec.IsUnit3 at hn
  refine ⟨?_, ?_, ?_⟩ <;> refine (sq_le_one_iff_abs_le_one _).1 ?_ <;> nlinarith [sq_nonneg (n 0), sq_nonneg (n 1), sq_nonneg (n 2)]

/-! ## The theorem -/

/-- **C144** For a finite angle and a finite axis whose length neither overflows nor underflows, and a vector whose components are not within a factor 4 of the overflow threshold, the
components of `v.rotate( theta, axis )` are finite and within `28 ( σ + 12 u ) ( |v0| + |v1| + |v2| + tiny )` of the rotation of `v` by `theta` about the direction of the axis (Rodrigues'
formula, right handed), `σ` the accuracy of the sine and cosine. -/
theorem C144_rotate [L : CMath (Fp F)] (hF : Spec.Usual F) {σ : ℝ} (σ0 : 0 ≤ σ) (hT : Spec.Trig L σ) (hL : L.sqrt = (Fp.instCMath.sqrt : Fp F → Fp F)) (hε : σ + 12 * F.u ≤ 1 / 100)
    (cfg : Cfg) {θ : Fp F} (hθ : θ.Finite)
    (axis : Vec 3 (Fp F)) (ha : ∀ i : Fin 3, axis[i].Finite) (hlo : (2 : ℝ) ^ F.emin ≤ ∑ i : Fin 3, axis[i].val ^ 2) (hhi : ∑ i : Fin 3, axis[i].val ^ 2 + 3 * F.eta ≤ (1 - 3 * F.u) * F.maxFinite)
    (v : Vec 3 (Fp F)) (hv : ∀ i : Fin 3, v[i].Finite) (hroom : 4 * (Spec.fsum3 v + F.tiny) ≤ F.maxFinite) :
    ∃ r, v.rotate cfg θ axis = .ok r ∧ ∀ i : Fin 3, r[i].Finite ∧
      |r[i].val - Spec.rodrigues (fun i => axis[i].val / Spec.flen axis) (fun i => v[i].val) (Real.cos θ.val) (Real.sin θ.val) i| ≤ 28 * (σ + 12 * F.u) * (Spec.fsum3 v + F.tiny) := by
  have u0 := F.u_pos
  obtain ⟨w, len, hn, hU, hw⟩ := C142_normalize hF cfg axis ha hlo hhi
  rw [← normalize_lib L hL] at hn
  set n : Fin 3 → ℝ := fun i => axis[i].val / Spec.flen axis with hndef
  obtain ⟨n0, n1, n2⟩ := unit_le3 hU
  set ε := σ + 12 * F.u with hεd
  have hu : F.u ≤ ε := by linarith
  have near : ∀ i : Fin 3, FClose ε 1 1 w[i] (n i) := by
    intro i
    refine ⟨(hw i).1, (hw i).2.trans (by linarith), ?_⟩
    fin_cases i
    · exact n0
    · exact n1
    · exact n2
  have a0 : FClose ε 1 1 w[0] (n 0) := near 0
  have a1 : FClose ε 1 1 w[1] (n 1) := near 1
  have a2 : FClose ε 1 1 w[2] (n 2) := near 2
  obtain ⟨⟨sf, se⟩, cf, ce⟩ := hT θ hθ
  have hc : FClose ε 1 1 (L.cos θ) (Real.cos θ.val) := ⟨cf, ce.trans (by linarith), Real.abs_cos_le_one _⟩
  have hs : FClose ε 1 1 (L.sin θ) (Real.sin θ.val) := ⟨sf, se.trans (by linarith), Real.abs_sin_le_one _⟩
  obtain ⟨of, ov⟩ := Fp.one_fin (F := F) (Usual.pos hF)
  have ho : FClose ε 0 1 (1 : Fp F) 1 := ⟨of, by rw [ov]; simp, by simp⟩
  have h1c : FClose ε 3.01 2 ((1 : Fp F) - L.cos θ) (1 - Real.cos θ.val) := by
    have := FClose.sub hF hu hε (k' := 3.01) ho hc (by norm_num) (by norm_num) (by norm_num) (by norm_num) (by norm_num)
    exact ⟨this.1, this.2.1, this.2.2.trans (by norm_num)⟩
  have prod : ∀ {a b : Fp F} {A B : ℝ}, FClose ε 1 1 a A → FClose ε 1 1 b B → FClose ε 11.3 2 (((1 : Fp F) - L.cos θ) * a * b) ((1 - Real.cos θ.val) * A * B) := by
    intro a b A B ha hb
    have m1 := FClose.mul hF hu hε (k' := 7.1) h1c ha (by norm_num) (by norm_num) (by norm_num) (by norm_num) (by norm_num) (by norm_num) (by norm_num)
    have m2 := FClose.mul hF hu hε (k' := 11.3) m1 hb (by norm_num) (by norm_num) (by norm_num) (by norm_num) (by norm_num) (by norm_num) (by norm_num)
    exact ⟨m2.1, m2.2.1, m2.2.2.trans (by norm_num)⟩
  have ε0 : 0 < ε := by linarith
  have wk : ∀ {a : Fp F} {A k M : ℝ}, FClose ε k M a A → k ≤ 18 → M ≤ 3 → FClose ε 18 3 a A := fun h hk hM => ⟨h.1, h.2.1.trans (mul_le_mul_of_nonneg_right hk ε0.le), h.2.2.trans hM⟩
  have diag : ∀ {a : Fp F} {A : ℝ}, FClose ε 1 1 a A → FClose ε 18 3 (L.cos θ + ((1 : Fp F) - L.cos θ) * a * a) (Real.cos θ.val + (1 - Real.cos θ.val) * A * A) := fun ha =>
    wk (FClose.add hF hu hε (k' := 16) hc (prod ha ha) (by norm_num) (by norm_num) (by norm_num) (by norm_num) (by norm_num)) (by norm_num) (by norm_num)
  have cs : ∀ {a : Fp F} {A : ℝ}, FClose ε 1 1 a A → FClose ε 3.04 1 (a * L.sin θ) (A * Real.sin θ.val) := by
    intro a A ha
    have m := FClose.mul hF hu hε (k' := 3.04) ha hs (by norm_num) (by norm_num) (by norm_num) (by norm_num) (by norm_num) (by norm_num) (by norm_num)
    exact ⟨m.1, m.2.1, m.2.2.trans (by norm_num)⟩
  have offp : ∀ {a b c : Fp F} {A B C : ℝ}, FClose ε 1 1 a A → FClose ε 1 1 b B → FClose ε 1 1 c C →
      FClose ε 18 3 (((1 : Fp F) - L.cos θ) * a * b + c * L.sin θ) ((1 - Real.cos θ.val) * A * B + C * Real.sin θ.val) := fun ha hb hc =>
    wk (FClose.add hF hu hε (k' := 18) (prod ha hb) (cs hc) (by norm_num) (by norm_num) (by norm_num) (by norm_num) (by norm_num)) (by norm_num) (by norm_num)
  have offm : ∀ {a b c : Fp F} {A B C : ℝ}, FClose ε 1 1 a A → FClose ε 1 1 b B → FClose ε 1 1 c C →
      FClose ε 18 3 (((1 : Fp F) - L.cos θ) * a * b - c * L.sin θ) ((1 - Real.cos θ.val) * A * B - C * Real.sin θ.val) := fun ha hb hc =>
    wk (FClose.sub hF hu hε (k' := 18) (prod ha hb) (cs hc) (by norm_num) (by norm_num) (by norm_num) (by norm_num) (by norm_num)) (by norm_num) (by norm_num)
  have v0 : v[0].Finite := hv 0
  have v1 : v[1].Finite := hv 1
  have v2 : v[2].Finite := hv 2
  have hX : 4 * (|v[0].val| + |v[1].val| + |v[2].val| + F.tiny) ≤ F.maxFinite := hroom
  obtain ⟨f0, d0⟩ := row3 hF hu hε (diag a0) (offm a0 a1 a2) (offp a0 a2 a1) v0 v1 v2 hX
  obtain ⟨f1, d1⟩ := row3 hF hu hε (offp a0 a1 a2) (diag a1) (offm a1 a2 a0) v0 v1 v2 hX
  obtain ⟨f2, d2⟩ := row3 hF hu hε (offm a0 a2 a1) (offp a1 a2 a0) (diag a2) v0 v1 v2 hX
  refine ⟨_, by simp only [Vec.rotate, hn, bind_ok, pure_ok]; rfl, ?_⟩
  have fin : ∀ {x y : ℝ} {r : Fp F}, r.Finite → |r.val - x| ≤ 28 * ε * (|v[0].val| + |v[1].val| + |v[2].val| + F.tiny) → x = y →
      r.Finite ∧ |r.val - y| ≤ 28 * ε * (Spec.fsum3 v + F.tiny) := by
    intro x y r hf hd hxy
    rw [← hxy]; exact ⟨hf, hd⟩
  intro i
  fin_cases i
  · exact fin f0 d0 (by show _ = Real.cos θ.val * v[0].val + Real.sin θ.val * (n 1 * v[2].val - n 2 * v[1].val) + ((1 : ℝ) - Real.cos θ.val) * (n 0 * v[0].val + n 1 * v[1].val + n 2 * v[2].val) * n 0
                        ring)
  · exact fin f1 d1 (by show _ = Real.cos θ.val * v[1].val + Real.sin θ.val * (n 2 * v[0].val - n 0 * v[2].val) + ((1 : ℝ) - Real.cos θ.val) * (n 0 * v[0].val + n 1 * v[1].val + n 2 * v[2].val) * n 1
                        ring)
  · exact fin f2 d2 (by show _ = Real.cos θ.val * v[2].val + Real.sin θ.val * (n 0 * v[1].val - n 1 * v[0].val) + ((1 : ℝ) - Real.cos θ.val) * (n 0 * v[0].val + n 1 * v[1].val + n 2 * v[2].val) * n 2
                        ring)

/-- **C144** The length of the vector and its component along the axis are preserved up to the same error: the exact rotation of the specification preserves both. -/
theorem C144_rotation {n v : Fin 3 → ℝ} (hn : Spec.IsUnit3 n) (θ : ℝ) :
    (∑ i, Spec.rodrigues n v (Real.cos θ) (Real.sin θ) i ^ 2 = ∑ i, v i ^ 2) ∧ ∑ i, Spec.rodrigues n v (Real.cos θ) (Real.sin θ) i * n i = ∑ i, v i * n i := by
  have h := Real.sin_sq_add_cos_sq θ
  unfold Spec.IsUnit3 at hn
  simp only [Fin.sum_univ_three, Spec.rodrigues]
  simp only [show ((0 : Fin 3) + 1) = 1 from rfl, show ((0 : Fin 3) + 2) = 2 from rfl, show ((1 : Fin 3) + 1) = 2 from rfl, show ((1 : Fin 3) + 2) = 0 from rfl,
    show ((2 : Fin 3) + 1) = 0 from rfl, show ((2 : Fin 3) + 2) = 1 from rfl]
  generalize Real.cos θ = c at *
  generalize Real.sin θ = s at *
  constructor
  · have h1 : c ^ 2 = 1 - s ^ 2 := by linarith
    have h2 : n 2 ^ 2 = 1 - n 0 ^ 2 - n 1 ^ 2 := by linarith
    set d := n 0 * v 0 + n 1 * v 1 + n 2 * v 2 with hd
    have e : (n 1 * v 2 - n 2 * v 1) ^ 2 + (n 2 * v 0 - n 0 * v 2) ^ 2 + (n 0 * v 1 - n 1 * v 0) ^ 2 = (v 0 ^ 2 + v 1 ^ 2 + v 2 ^ 2) - d ^ 2 := by
      rw [hd]; linear_combination (v 0 ^ 2 + v 1 ^ 2 + v 2 ^ 2) * hn
    linear_combination s ^ 2 * e + (v 0 ^ 2 + v 1 ^ 2 + v 2 ^ 2) * h + ((1 - c) ^ 2 * d ^ 2) * hn + (-d ^ 2) * h + 2 * c * (1 - c) * d * (-hd)
  · linear_combination (1 - c) * (n 0 * v 0 + n 1 * v 1 + n 2 * v 2) * hn

/-! ## Example -/

/-- `C144_rotate`: a `float` rotation of `( 1000, 2000, 3000 )` about `( 1, 1, 1 )`, with a library that rounds correctly. -/
example (cfg : Cfg) (v : Vec 3 (Fp single)) (hv : ∀ i : Fin 3, v[i].Finite) (h : |v[0].val| ≤ 1000 ∧ |v[1].val| ≤ 2000 ∧ |v[2].val| ≤ 3000) :
    ∃ r, v.rotate cfg (1 : Fp single) #v[1, 1, 1] = .ok r ∧ ∀ i : Fin 3, |r[i].val - Spec.rodrigues (fun _ => 1 / Real.sqrt 3) (fun i => v[i].val) (Real.cos 1) (Real.sin 1) i| ≤ 1 / 5 := by
  obtain ⟨of, ov⟩ := Fp.one_fin (F := single) (by norm_num)
  have hu : single.u = 1 / 2 ^ 24 := by unfold u; norm_num
  have hva : ∀ i : Fin 3, (#v[1, 1, 1] : Vec 3 (Fp single))[i] = 1 := by intro i; fin_cases i <;> rfl
  have hsum : ∑ i : Fin 3, (#v[1, 1, 1] : Vec 3 (Fp single))[i].val ^ 2 = 3 := by
    rw [Fin.sum_univ_three, hva, hva, hva, ov]; norm_num
  have hflen : Spec.flen (#v[1, 1, 1] : Vec 3 (Fp single)) = Real.sqrt 3 := by unfold Spec.flen; rw [hsum]
  have he : single.eta ≤ single.u := by
    rw [Format.eta_eq_tiny]; exact mul_le_of_le_one_right single.u_pos.le (tiny_le_one (by norm_num))
  have hmax : (100000 : ℝ) ≤ single.maxFinite := Usual.max usual_single (by rw [hu]; norm_num)
  have ht := tiny_le_one (F := single) (by norm_num)
  obtain ⟨h0, h1, h2⟩ := h
  have hs : Spec.fsum3 v ≤ 6000 := by unfold Spec.fsum3; linarith
  have hs0 : 0 ≤ Spec.fsum3 v := by unfold Spec.fsum3; positivity
  have t0 := single.tiny_pos
  obtain ⟨r, h3, h4⟩ := C144_rotate usual_single (σ := 4 * single.u) (by rw [hu]; norm_num) (C142_correctly_rounded usual_single).1 rfl (by rw [hu]; norm_num) cfg (θ := (1 : Fp single)) of
    #v[1, 1, 1] (fun i => by rw [hva]; exact of) (by rw [hsum]; exact ht.trans (by norm_num)) (by rw [hsum]; rw [hu] at he ⊢; nlinarith) v hv (by linarith)
  refine ⟨r, h3, fun i => ?_⟩
  have := (h4 i).2
  simp only [hva, ov, hflen] at this
  refine this.trans ?_
  rw [hu]
  nlinarith

end Vmml
