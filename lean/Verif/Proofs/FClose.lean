import Verif.Props.FloatQuatMatrix

/-!
# A forward error calculus for IEEE 754 numbers of magnitude about 1

`FClose ε k M a A`: the number `a` is finite and within `k ε` of the real number `A`, whose magnitude is at most `M`.
-/

namespace Vmml
open Format
variable {F : Format}

/-! ## Forward error -/

/-- `a` is finite and within `k ε` of `A`, and `|A| <= M`. -/
def FClose (ε k M : ℝ) (a : Fp F) (A : ℝ) : Prop := a.Finite ∧ |a.val - A| ≤ k * ε ∧ |A| ≤ M

section
variable {ε : ℝ} (hF : Spec.Usual F) (hu : F.u ≤ ε) (hε : ε ≤ 1 / 100)
include hF hu hε

theorem FClose.finish {x X A e B k' M' : ℝ} (h1 : |x - A| ≤ e * ε) (e0 : 0 ≤ e) (hA : |A| ≤ M') (hB : M' + e / 100 ≤ B) (hB1 : 1 ≤ B) (hB4 : B ≤ 100) (hk : e + B ≤ k') :
    |x| ≤ F.maxFinite ∧ |F.rnd x - A| ≤ k' * ε := by
  have u0 := F.u_pos
  have hx : |x| ≤ B := by
    have : |x| ≤ |x - A| + |A| := by simpa using abs_add_le (x - A) A
    have := mul_le_mul_of_nonneg_left hε e0
    linarith
  refine ⟨hx.trans (Usual.max hF ?_), ?_⟩
  · have := Usual.u hF
    nlinarith
  · have h2 := rnd_err_le (F := F) hx ((tiny_le_one (Usual.pos hF)).trans hB1)
    have h3 : F.u * B ≤ B * ε := by rw [mul_comm]; exact mul_le_mul_of_nonneg_left hu (by linarith)
    calc _ = |(F.rnd x - x) + (x - A)| := by congr 1; ring
      _ ≤ _ := abs_add_le _ _
      _ ≤ B * ε + e * ε := by linarith
      _ = (e + B) * ε := by ring
      _ ≤ _ := mul_le_mul_of_nonneg_right hk (by linarith)

theorem FClose.add {k l M L k' : ℝ} {a b : Fp F} {A B : ℝ} (h : FClose ε k M a A) (g : FClose ε l L b B) (k0 : 0 ≤ k) (l0 : 0 ≤ l)
    (h1 : 1 ≤ M + L) (h2 : M + L + (k + l) / 100 ≤ 100) (hk : k + l + (M + L + (k + l) / 100) ≤ k') : FClose ε k' (M + L) (a + b) (A + B) := by
  obtain ⟨fa, ea, ma⟩ := h
  obtain ⟨fb, eb, mb⟩ := g
  have hm : |A + B| ≤ M + L := (abs_add_le _ _).trans (by linarith)
  obtain ⟨c1, c2⟩ := FClose.finish hF hu hε (x := a.val + b.val) (X := 0) (A := A + B) (e := k + l) (B := M + L + (k + l) / 100) (k' := k') (M' := M + L) (by
    calc _ = |(a.val - A) + (b.val - B)| := by congr 1; ring
      _ ≤ _ := abs_add_le _ _
      _ ≤ _ := by linarith) (by linarith) hm le_rfl (by linarith [div_nonneg (add_nonneg k0 l0) (by norm_num : (0 : ℝ) ≤ 100)]) h2 hk
  obtain ⟨f, e⟩ := Fp.add_fin (Usual.pos hF) fa fb c1
  exact ⟨f, by rw [e]; exact c2, hm⟩

theorem FClose.sub {k l M L k' : ℝ} {a b : Fp F} {A B : ℝ} (h : FClose ε k M a A) (g : FClose ε l L b B) (k0 : 0 ≤ k) (l0 : 0 ≤ l)
    (h1 : 1 ≤ M + L) (h2 : M + L + (k + l) / 100 ≤ 100) (hk : k + l + (M + L + (k + l) / 100) ≤ k') : FClose ε k' (M + L) (a - b) (A - B) := by
  obtain ⟨fb, eb, mb⟩ := g
  have := FClose.add hF hu hε h (b := -b) (B := -B) ⟨Fp.finite_neg fb, by rw [Fp.val_neg, ← abs_neg]; convert eb using 2; ring, by rwa [abs_neg]⟩ k0 l0 h1 h2 hk
  rwa [← sub_eq_add_neg] at this

theorem FClose.mul {k l M L k' : ℝ} {a b : Fp F} {A B : ℝ} (h : FClose ε k M a A) (g : FClose ε l L b B) (k0 : 0 ≤ k) (l0 : 0 ≤ l) (m0 : 0 ≤ M) (n0 : 0 ≤ L)
    (h1 : 1 ≤ M * L) (h2 : M * L + (k * L + k * l / 100 + M * l) / 100 ≤ 100)
    (hk : (k * L + k * l / 100 + M * l) + (M * L + (k * L + k * l / 100 + M * l) / 100) ≤ k') : FClose ε k' (M * L) (a * b) (A * B) := by
  obtain ⟨fa, ea, ma⟩ := h
  obtain ⟨fb, eb, mb⟩ := g
  have u0 := F.u_pos
  have ε0 : 0 ≤ ε := by linarith
  have hm : |A * B| ≤ M * L := by rw [abs_mul]; exact mul_le_mul ma mb (abs_nonneg _) m0
  have e0 : 0 ≤ k * L + k * l / 100 + M * l := by positivity
  have hb : |b.val| ≤ L + l / 100 := by
    have : |b.val| ≤ |b.val - B| + |B| := by simpa using abs_add_le (b.val - B) B
    have := mul_le_mul_of_nonneg_left hε l0
    linarith
  obtain ⟨c1, c2⟩ := FClose.finish hF hu hε (x := a.val * b.val) (X := 0) (A := A * B) (e := k * L + k * l / 100 + M * l)
    (B := M * L + (k * L + k * l / 100 + M * l) / 100) (k' := k') (M' := M * L) (by
    calc _ = |(a.val - A) * b.val + A * (b.val - B)| := by congr 1; ring
      _ ≤ _ := abs_add_le _ _
      _ = |a.val - A| * |b.val| + |A| * |b.val - B| := by rw [abs_mul, abs_mul]
      _ ≤ k * ε * (L + l / 100) + M * (l * ε) := add_le_add (mul_le_mul ea hb (abs_nonneg _) (by positivity)) (mul_le_mul ma eb (abs_nonneg _) m0)
      _ = _ := by ring) e0 hm le_rfl (by linarith) h2 hk
  obtain ⟨f, e⟩ := Fp.mul_fin (Usual.pos hF) fa fb c1
  exact ⟨f, by rw [e]; exact c2, hm⟩

end

end Vmml
