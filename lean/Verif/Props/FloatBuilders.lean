import Verif.Props.FloatLaws
import Verif.Props.FloatOrder
import Verif.Props.FloatFrustum

/-!
# C127: frustum operations in IEEE 754 arithmetic
-/

namespace Vmml
open Format
variable {F D : Format}

/-- Sterbenz: the difference of two numbers of the format, neither more than twice the other, is a number of the format. -/
theorem rep_sub_near {x y : ℝ} (hx : F.Rep x) (hy : F.Rep y) (h1 : x ≤ y) (h2 : y ≤ 2 * x) : F.Rep (y - x) := by
  have hx0 : 0 ≤ x := by linarith
  rcases hx0.eq_or_lt with h | hpos
  · obtain rfl : y = 0 := by linarith
    rw [← h, sub_zero]
    exact hy
  have hne : x ≠ 0 := hpos.ne'
  have hl : (2 : ℝ) ^ Int.log 2 |x| ≤ |x| := by exact_mod_cast Int.zpow_log_le_self (b := 2) (by norm_num) (abs_pos.2 hne)
  obtain ⟨n, hn⟩ := hx.multiple hl hne
  obtain ⟨k, hk⟩ := hy.multiple (x := x) (hl.trans (by rw [abs_of_pos hpos, abs_of_nonneg (by linarith)]; exact h1)) hne
  have e0 : F.emin - F.p ≤ F.lastExp x := by unfold lastExp; have := le_max_right (Int.log 2 |x|) F.emin; omega
  refine ⟨k - n, F.lastExp x, e0, ?_, ?_⟩
  · have hlt : |x| < (2 : ℝ) ^ (Int.log 2 |x| + 1) := by exact_mod_cast Int.lt_zpow_succ_log_self (b := 2) (by norm_num) |x|
    have hle : (2 : ℝ) ^ (Int.log 2 |x| + 1) ≤ (2 : ℝ) ^ (F.p + 1) * (2 : ℝ) ^ F.lastExp x := by
      rw [← zpow_natCast, ← zpow_add₀ (by norm_num)]
      refine zpow_le_zpow_right₀ (by norm_num) ?_
      unfold lastExp
      have := le_max_left (Int.log 2 |x|) F.emin
      push_cast
      omega
    have hd : |((k - n : Int) : ℝ)| * (2 : ℝ) ^ F.lastExp x ≤ (2 : ℝ) ^ (F.p + 1) * (2 : ℝ) ^ F.lastExp x := by
      have e : ((k - n : Int) : ℝ) * (2 : ℝ) ^ F.lastExp x = y - x := by
        push_cast
        rw [sub_mul, ← hk, ← hn]
      rw [← abs_of_pos (by positivity : (0 : ℝ) < (2 : ℝ) ^ F.lastExp x), ← abs_mul, abs_of_pos (by positivity : (0 : ℝ) < (2 : ℝ) ^ F.lastExp x), e, abs_of_nonneg (by linarith)]
      rw [abs_of_pos hpos] at hlt hle
      rw [abs_of_pos hpos] at *
      linarith
    have := le_of_mul_le_mul_right hd (by positivity)
    exact_mod_cast this
  · push_cast
    rw [sub_mul, ← hk, ← hn]

private theorem rep_two_mul {x : ℝ} (h : F.Rep x) : F.Rep (2 * x) := by
  obtain ⟨k, e, he, hk, rfl⟩ := h
  exact ⟨k, e + 1, by omega, hk, by rw [zpow_add_one₀ (by norm_num)]; ring⟩

/-! ## The constructors of a symmetric frustum -/

theorem perspective_fields (tan : Fp D → Fp D) (f : Frustum (Fp F)) (fov aspect n fa : Fp F) :
    ∃ t, f.setPerspectiveMixed D tan fov aspect n fa = ⟨#v[-t * aspect, t * aspect, -t, t, n, fa]⟩ ∧
      t = .convert F (tan (.lit D (1 / 2) * .convert D fov * .lit D Const.mPi / .lit D 180) * .lit D (1 / 2)) := by
  obtain ⟨t, ht⟩ : ∃ t : Fp F, t = .convert F (tan (.lit D (1 / 2) * .convert D fov * .lit D Const.mPi / .lit D 180) * .lit D (1 / 2)) := ⟨_, rfl⟩
  refine ⟨t, ?_, ht⟩
  obtain ⟨a⟩ := f
  simp only [Frustum.setPerspectiveMixed, ← ht, Frustum.setNear, Frustum.setFar, Frustum.setTop, Frustum.setBottom, Frustum.setLeft, Frustum.setRight, Frustum.bottom, Frustum.top]
  congr 1
  apply Vector.ext
  intro i hi
  match i with
  | 0 => simp
  | 1 => simp
  | 2 => simp
  | 3 => simp
  | 4 => simp
  | 5 => simp

/-- **C127** `set_perspective`: the frustum is symmetric bit for bit - `left` is `-right` and `bottom` is `-top` - whatever `tan` returns, for every aspect ratio, and for
infinities and NaN too; the planes are stored unchanged. -/
theorem C127_perspective (tan : Fp D → Fp D) (f : Frustum (Fp F)) (fov aspect n fa : Fp F) :
    let g := f.setPerspectiveMixed D tan fov aspect n fa;
    g.left = -g.right ∧ g.bottom = -g.top ∧ g.right = g.top * aspect ∧ g.nearPlane = n ∧ g.farPlane = fa := by
  intro g
  obtain ⟨t, ht, -⟩ := perspective_fields tan f fov aspect n fa
  have hg : g = ⟨#v[-t * aspect, t * aspect, -t, t, n, fa]⟩ := ht
  rw [hg]
  exact ⟨Fp.neg_mul' _ _, rfl, rfl, rfl, rfl⟩

private theorem adjust_fields (f : Frustum (Fp F)) (n : Fp F) (h : (n == f.nearPlane) = false) :
    f.adjustNear n = ⟨#v[f.left * (n / f.nearPlane), f.right * (n / f.nearPlane), f.bottom * (n / f.nearPlane), f.top * (n / f.nearPlane), n, f.farPlane]⟩ := by
  unfold Frustum.adjustNear
  rw [if_neg (by rw [h]; exact Bool.false_ne_true)]
  obtain ⟨a⟩ := f
  simp only [Frustum.setNear, Frustum.setTop, Frustum.setBottom, Frustum.setLeft, Frustum.setRight, Frustum.bottom, Frustum.top, Frustum.left, Frustum.right, Frustum.nearPlane, Frustum.farPlane]
  congr 1
  apply Vector.ext
  intro i hi
  match i with
  | 0 => simp
  | 1 => simp
  | 2 => simp
  | 3 => simp
  | 4 => simp
  | 5 => simp

private theorem jitter_fields (f : Frustum (Fp F)) (j : Vec 2 (Fp F)) :
    f.applyJitter j = ⟨#v[f.left + j[0], f.right + j[0], f.bottom + j[1], f.top + j[1], f.nearPlane, f.farPlane]⟩ := by
  obtain ⟨a⟩ := f
  simp only [Frustum.applyJitter, Frustum.setTop, Frustum.setBottom, Frustum.setLeft, Frustum.setRight, Frustum.bottom, Frustum.top, Frustum.left, Frustum.right, Frustum.nearPlane, Frustum.farPlane]
  congr 1
  apply Vector.ext
  intro i hi
  match i with
  | 0 => simp
  | 1 => simp
  | 2 => simp
  | 3 => simp
  | 4 => simp
  | 5 => simp

/-! ## The matrix of a symmetric frustum -/

private theorem eq_of_val {a b : Fp F} (ha : a.Finite) (hb : b.Finite) (h : a.val = b.val) (hz : a.val ≠ 0) : a = b := by
  obtain ⟨s, m, hm, rfl⟩ := Fp.finite_cases ha
  obtain ⟨t, k, hk, rfl⟩ := Fp.finite_cases hb
  have hm0 := hm.1
  have hk0 := hk.1
  cases s <;> cases t <;> simp only [Fp.val, Bool.false_eq_true, if_true, if_false] at h hz
  · subst h; rfl
  · exact absurd (by linarith) hz
  · exact absurd (by linarith) hz
  · obtain rfl : m = k := by linarith
    rfl

private theorem two_lit (h1 : 1 < D.emax) : (Fp.lit D 2).Finite ∧ (Fp.lit D 2).val = 2 := by
  have h2 : (2 : ℝ) ^ (1 : ℤ) ≤ D.maxFinite := (zpow_le_zpow_right₀ (by norm_num) (by exact_mod_cast h1.le)).trans pow_emax_le
  have hr : D.Rep 2 := by
    have := rep_two_mul (rep_pow (F := D) (e := 0) (by unfold emin; omega))
    simpa using this
  have h := Fp.round_signed (F := D) (x := 2) (s := false) (by omega) (fun _ => ⟨fun h => (by cases h), fun h => absurd h (by norm_num)⟩) (by norm_num at h2 ⊢; exact h2)
  rw [hr.rnd_eq] at h
  have e : Fp.lit D 2 = Fp.round false |(2 : ℝ)| := by
    unfold Fp.lit Fp.ofReal
    congr 1
    simp
  rw [e]
  exact h

/-- The scale entry of a symmetric frustum is one correctly rounded quotient. -/
private theorem scale_entry (hD : Spec.Quotients F D) (h1 : 1 < F.emax) {n r l : Fp F} (hn : n.Finite) (hr : r.Finite) (hl : l = -r) (hn0 : 0 < n.val) (hr0 : r.val ≠ 0)
    (hn2 : 2 * n.val ≤ F.maxFinite) (hr2 : 2 * |r.val| ≤ F.maxFinite) :
    (r - l).Finite ∧ (r - l).val = 2 * r.val ∧ (|n.val / r.val| ≤ F.maxFinite →
      (Fp.convert F (.lit D 2 * .convert D n / .convert D (r - l))).Finite ∧ (Fp.convert F (.lit D 2 * .convert D n / .convert D (r - l))).val = F.rnd (n.val / r.val)) := by
  have h0 : 0 < F.emax := by omega
  have hp : F.p ≤ D.p := by rcases hD with rfl | h; exacts [le_rfl, by omega]
  have he : F.emax ≤ D.emax := by rcases hD with rfl | h; exacts [le_rfl, by omega]
  subst hl
  have e : r.val - (-r).val = 2 * r.val := by rw [Fp.val_neg]; ring
  obtain ⟨d1, d2⟩ := Fp.sub_fin h0 hr (Fp.finite_neg hr) (by rw [e, abs_mul, abs_two]; exact hr2)
  rw [e, (rep_two_mul (Fp.rep_val hr)).rnd_eq] at d2
  refine ⟨d1, d2, fun hq => ?_⟩
  have e2 : n.val + n.val = 2 * n.val := by ring
  obtain ⟨s1, s2⟩ := Fp.add_fin h0 hn hn (by rw [e2, abs_of_pos (by linarith)]; exact hn2)
  rw [e2, (rep_two_mul (Fp.rep_val hn)).rnd_eq] at s2
  obtain ⟨w1, w2⟩ := Fp.widen_fin hp he h0 hn
  obtain ⟨v1, v2⟩ := Fp.widen_fin hp he h0 s1
  obtain ⟨l1, l2⟩ := two_lit (D := D) (by omega)
  have hmax : F.maxFinite ≤ D.maxFinite := max_widen hp he
  obtain ⟨m1, m2⟩ := Fp.mul_fin (by omega) l1 w1 (by rw [l2, w2, abs_of_pos (by linarith)]; linarith)
  rw [l2, w2, (rep_two_mul (rep_widen hp he (Fp.rep_val hn))).rnd_eq] at m2
  have key : Fp.lit D 2 * Fp.convert D n = Fp.convert D (n + n) := eq_of_val m1 v1 (by rw [m2, v2, s2]) (by rw [m2]; linarith)
  rw [key, C116_quotient hD]
  have e3 : (n + n).val / (r - -r).val = n.val / r.val := by rw [s2, d2]; field_simp
  have := Fp.div_fin h0 s1 d1 (by rw [d2]; simpa using hr0) (by rw [e3]; exact hq)
  rw [e3] at this
  exact this

private theorem offset_entry (h1 : 1 < F.emax) {r l : Fp F} (hr : r.Finite) (hl : l = -r) (hr0 : r.val ≠ 0) (hr2 : 2 * |r.val| ≤ F.maxFinite) : Spec.IsZero ((r + l) / (r - l)) := by
  have h0 : 0 < F.emax := by omega
  subst hl
  have e : r.val - (-r).val = 2 * r.val := by rw [Fp.val_neg]; ring
  have e' : r.val + (-r).val = 0 := by rw [Fp.val_neg]; ring
  obtain ⟨d1, d2⟩ := Fp.sub_fin h0 hr (Fp.finite_neg hr) (by rw [e, abs_mul, abs_two]; exact hr2)
  rw [e, (rep_two_mul (Fp.rep_val hr)).rnd_eq] at d2
  obtain ⟨s1, s2⟩ := Fp.add_fin h0 hr (Fp.finite_neg hr) (by rw [e', abs_zero]; exact F.maxFinite_pos.le)
  rw [e', rnd_zero] at s2
  have := Fp.div_fin h0 s1 d1 (by rw [d2]; simpa using hr0) (by rw [s2, zero_div, abs_zero]; exact F.maxFinite_pos.le)
  rw [s2, zero_div, rnd_zero] at this
  exact this

/-- **C127** The projection matrix of a symmetric frustum (such as one from `set_perspective`): the two off-centre entries are exactly zero and the two scale entries are `near / right` and
`near / top` with a single rounding, in spite of the doubling, the subtraction and the conversions in between. -/
theorem C127_symmetric_matrix (hD : Spec.Quotients F D) (h1 : 1 < F.emax) (cfg : Cfg) (f : Frustum (Fp F)) (m0 : Mat 4 4 (Fp F)) (hl : f.left = -f.right) (hb : f.bottom = -f.top)
    (hr : f.right.Finite) (ht : f.top.Finite) (hn : f.nearPlane.Finite) (hr0 : f.right.val ≠ 0) (ht0 : f.top.val ≠ 0) (hn0 : 0 < f.nearPlane.val)
    (hr2 : 2 * |f.right.val| ≤ F.maxFinite) (ht2 : 2 * |f.top.val| ≤ F.maxFinite) (hn2 : 2 * f.nearPlane.val ≤ F.maxFinite) :
    ∃ P, f.computeMatrixMixed D cfg m0 = .ok P ∧ Spec.IsZero (P.get 0 2) ∧ Spec.IsZero (P.get 1 2) ∧
      (|f.nearPlane.val / f.right.val| ≤ F.maxFinite → (P.get 0 0).Finite ∧ (P.get 0 0).val = F.rnd (f.nearPlane.val / f.right.val)) ∧
      (|f.nearPlane.val / f.top.val| ≤ F.maxFinite → (P.get 1 1).Finite ∧ (P.get 1 1).val = F.rnd (f.nearPlane.val / f.top.val)) := by
  obtain ⟨P, hP, hget⟩ := computeMatrixMixed_get (D := D) cfg f m0
  refine ⟨P, hP, ?_, ?_, ?_, ?_⟩
  · rw [hget]; exact offset_entry h1 hr hl hr0 hr2
  · rw [hget]; exact offset_entry h1 ht hb ht0 ht2
  · intro hq; rw [hget]; exact (scale_entry hD h1 hn hr hl hn0 hr0 hn2 hr2).2.2 hq
  · intro hq; rw [hget]; exact (scale_entry hD h1 hn ht hb hn0 ht0 hn2 ht2).2.2 hq

/-! ## `adjust_near` -/

private theorem adjust_same (f : Frustum (Fp F)) (n : Fp F) (h : (n == f.nearPlane) = true) : f.adjustNear n = f := by
  unfold Frustum.adjustNear
  rw [if_pos h]

/-- **C127** `adjust_near` keeps a symmetric frustum symmetric bit for bit, for all values. -/
theorem C127_adjust_symmetric (f : Frustum (Fp F)) (n : Fp F) :
    (f.left = -f.right → (f.adjustNear n).left = -(f.adjustNear n).right) ∧ (f.bottom = -f.top → (f.adjustNear n).bottom = -(f.adjustNear n).top) := by
  cases h : (n == f.nearPlane) with
  | true => rw [adjust_same f n h]; exact ⟨id, id⟩
  | false =>
    rw [adjust_fields f n h]
    constructor
    · intro e
      show f.left * (n / f.nearPlane) = -(f.right * (n / f.nearPlane))
      rw [e]; exact Fp.neg_mul' _ _
    · intro e
      show f.bottom * (n / f.nearPlane) = -(f.top * (n / f.nearPlane))
      rw [e]; exact Fp.neg_mul' _ _

/-- The four sides of a frustum. -/
def Spec.sides : List (Frustum (Fp F) → Fp F) := [Frustum.left, Frustum.right, Frustum.bottom, Frustum.top]

private theorem scaled (h0 : 0 < F.emax) {x n m : Fp F} (hm : m.Finite) (hn : n.Finite) (hm0 : m.val ≠ 0) (hlo : (2 : ℝ) ^ F.emin ≤ |n.val / m.val|) (hhi : |n.val / m.val| ≤ F.maxFinite) :
    ((x * (n / m)).Finite → x.Finite ∧ |(x * (n / m)).val - x.val * (n.val / m.val)| ≤ ((1 + F.u) ^ 2 - 1) * |x.val * (n.val / m.val)| + F.eta) ∧
      (x.Finite → (1 + F.u) * |x.val * (n.val / m.val)| ≤ F.maxFinite → (x * (n / m)).Finite) := by
  obtain ⟨q1, q2⟩ := Fp.div_fin h0 hn hm hm0 hhi
  have hu := F.u_pos
  have hq := rnd_err_normal hlo
  rw [← q2] at hq
  have hx : |x.val * (n / m).val - x.val * (n.val / m.val)| ≤ F.u * |x.val * (n.val / m.val)| := by
    rw [← mul_sub, abs_mul, abs_mul]
    have := mul_le_mul_of_nonneg_left hq (abs_nonneg x.val)
    linarith
  have hb : |x.val * (n / m).val| ≤ (1 + F.u) * |x.val * (n.val / m.val)| := by
    have := abs_sub_abs_le_abs_sub (x.val * (n / m).val) (x.val * (n.val / m.val))
    linarith
  constructor
  · intro hf
    obtain ⟨f1, f2, f3⟩ := Fp.mul_finite hf
    refine ⟨f1, ?_⟩
    have he := rnd_err_add (F := F) (x.val * (n / m).val)
    rw [← f3] at he
    have := mul_le_mul_of_nonneg_left hb hu.le
    have := abs_sub_le (x * (n / m)).val (x.val * (n / m).val) (x.val * (n.val / m.val))
    nlinarith
  · intro hx' hroom
    exact (Fp.mul_fin h0 hx' q1 (hb.trans hroom)).1

/-- **C127** `adjust_near( n )`, when the ratio of the planes is in the normal range: the near plane becomes `n`, the far plane stays, and each side is scaled by the ratio up to two roundings; a
side is finite if it is in range. -/
theorem C127_adjust_near (h0 : 0 < F.emax) (f : Frustum (Fp F)) (n : Fp F) (hm : f.nearPlane.Finite) (hn : n.Finite) (hm0 : f.nearPlane.val ≠ 0)
    (hlo : (2 : ℝ) ^ F.emin ≤ |n.val / f.nearPlane.val|) (hhi : |n.val / f.nearPlane.val| ≤ F.maxFinite) :
    (f.adjustNear n).nearPlane = n ∧ (f.adjustNear n).farPlane = f.farPlane ∧ ∀ side ∈ Spec.sides,
      ((side (f.adjustNear n)).Finite → (side f).Finite ∧
        |(side (f.adjustNear n)).val - (side f).val * (n.val / f.nearPlane.val)| ≤ ((1 + F.u) ^ 2 - 1) * |(side f).val * (n.val / f.nearPlane.val)| + F.eta) ∧
      ((side f).Finite → (1 + F.u) * |(side f).val * (n.val / f.nearPlane.val)| ≤ F.maxFinite → (side (f.adjustNear n)).Finite) := by
  have hu := F.u_pos
  have hη := F.eta_pos
  cases h : (n == f.nearPlane) with
  | true =>
    rw [adjust_same f n h]
    obtain ⟨g1, g2, g3⟩ := Fp.beq_same.1 h
    rw [Fp.ereal_val hn, Fp.ereal_val hm] at g3
    have hv : n.val = f.nearPlane.val := by exact_mod_cast g3
    have e : n.val / f.nearPlane.val = 1 := by rw [hv]; exact div_self hm0
    refine ⟨(eq_of_val hn hm hv (by rw [hv]; exact hm0)).symm, rfl, fun side _ => ⟨fun hf => ⟨hf, ?_⟩, fun hf _ => hf⟩⟩
    rw [e, mul_one, sub_self, abs_zero]
    have : 0 ≤ ((1 + F.u) ^ 2 - 1) * |(side f).val| := mul_nonneg (by nlinarith) (abs_nonneg _)
    linarith
  | false =>
    rw [adjust_fields f n h]
    refine ⟨rfl, rfl, fun side hs => ?_⟩
    simp only [Spec.sides, List.mem_cons, List.not_mem_nil, or_false] at hs
    rcases hs with rfl | rfl | rfl | rfl
    · exact scaled h0 hm hn hm0 hlo hhi
    · exact scaled h0 hm hn hm0 hlo hhi
    · exact scaled h0 hm hn hm0 hlo hhi
    · exact scaled h0 hm hn hm0 hlo hhi

/-- **C127** `adjust_near` to a plane on the same side of the eye does not exchange opposite sides. -/
theorem C127_adjust_order (h0 : 0 < F.emax) (f : Frustum (Fp F)) (n : Fp F) (hm : f.nearPlane.Finite) (hn : n.Finite) (hm0 : f.nearPlane.val ≠ 0) (hpos : 0 ≤ n.val / f.nearPlane.val)
    (hhi : n.val / f.nearPlane.val ≤ F.maxFinite) (hfin : ∀ side ∈ Spec.sides, (side (f.adjustNear n)).Finite) :
    (f.left.val ≤ f.right.val → (f.adjustNear n).left.val ≤ (f.adjustNear n).right.val) ∧ (f.bottom.val ≤ f.top.val → (f.adjustNear n).bottom.val ≤ (f.adjustNear n).top.val) := by
  cases h : (n == f.nearPlane) with
  | true => rw [adjust_same f n h]; exact ⟨id, id⟩
  | false =>
    have g0 := hfin Frustum.left (by simp [Spec.sides])
    have g1 := hfin Frustum.right (by simp [Spec.sides])
    have g2 := hfin Frustum.bottom (by simp [Spec.sides])
    have g3 := hfin Frustum.top (by simp [Spec.sides])
    rw [adjust_fields f n h] at g0 g1 g2 g3 ⊢
    obtain ⟨q1, q2⟩ := Fp.div_fin h0 hn hm hm0 (by rw [abs_of_nonneg hpos]; exact hhi)
    have hq : 0 ≤ (n / f.nearPlane).val := by rw [q2]; exact rnd_nonneg hpos
    have key : ∀ {x y : Fp F}, (x * (n / f.nearPlane)).Finite → (y * (n / f.nearPlane)).Finite → x.val ≤ y.val → (x * (n / f.nearPlane)).val ≤ (y * (n / f.nearPlane)).val := by
      intro x y hx hy hxy
      rw [(Fp.mul_finite hx).2.2, (Fp.mul_finite hy).2.2]
      exact rnd_mono (mul_le_mul_of_nonneg_right hxy hq)
    exact ⟨key g0 g1, key g2 g3⟩

/-! ## `apply_jitter` -/

/-- **C127** `apply_jitter`: the planes stay, each side is moved by its jitter with a single (relative) rounding and is finite if the exact sum is in range; opposite sides are not exchanged; a
zero jitter changes no number. -/
theorem C127_jitter (h0 : 0 < F.emax) (f : Frustum (Fp F)) (j : Vec 2 (Fp F)) :
    (f.applyJitter j).nearPlane = f.nearPlane ∧ (f.applyJitter j).farPlane = f.farPlane ∧
    (∀ k : Fin 2, ∀ side ∈ (if k = 0 then [Frustum.left, Frustum.right] else [Frustum.bottom, Frustum.top] : List (Frustum (Fp F) → Fp F)),
      ((side (f.applyJitter j)).Finite → (side f).Finite ∧ j[k].Finite ∧ |(side (f.applyJitter j)).val - ((side f).val + j[k].val)| ≤ F.u * |(side f).val + j[k].val|) ∧
      ((side f).Finite → j[k].Finite → |(side f).val + j[k].val| ≤ F.maxFinite → (side (f.applyJitter j)).Finite) ∧
      ((side f).Finite → Spec.IsZero j[k] → (side (f.applyJitter j)).Finite ∧ (side (f.applyJitter j)).val = (side f).val)) ∧
    ((∀ side ∈ Spec.sides, (side (f.applyJitter j)).Finite) →
      (f.left.val ≤ f.right.val → (f.applyJitter j).left.val ≤ (f.applyJitter j).right.val) ∧ (f.bottom.val ≤ f.top.val → (f.applyJitter j).bottom.val ≤ (f.applyJitter j).top.val)) := by
  have key : ∀ x y : Fp F, ((x + y).Finite → x.Finite ∧ y.Finite ∧ |(x + y).val - (x.val + y.val)| ≤ F.u * |x.val + y.val|) ∧
      (x.Finite → y.Finite → |x.val + y.val| ≤ F.maxFinite → (x + y).Finite) ∧ (x.Finite → Spec.IsZero y → (x + y).Finite ∧ (x + y).val = x.val) := by
    intro x y
    refine ⟨fun hf => ?_, fun hx hy h => (Fp.add_fin h0 hx hy h).1, fun hx hy => Fp.add_zero_val h0 hx hy.1 hy.2⟩
    obtain ⟨h1, h2, h3⟩ := Fp.add_finite hf
    refine ⟨h1, h2, ?_⟩
    rw [h3]
    exact ((Fp.rep_val h1).grid.add (Fp.rep_val h2).grid).rnd_err
  have mono : ∀ {x y z : Fp F}, (x + z).Finite → (y + z).Finite → x.val ≤ y.val → (x + z).val ≤ (y + z).val := by
    intro x y z hx hy hxy
    rw [(Fp.add_finite hx).2.2, (Fp.add_finite hy).2.2]
    exact rnd_mono (by linarith)
  rw [jitter_fields]
  refine ⟨rfl, rfl, ?_, ?_⟩
  · intro k side hs
    match k with
    | 0 =>
      rw [if_pos rfl] at hs
      simp only [List.mem_cons, List.not_mem_nil, or_false] at hs
      rcases hs with rfl | rfl
      · exact key f.left j[0]
      · exact key f.right j[0]
    | 1 =>
      rw [if_neg (by decide)] at hs
      simp only [List.mem_cons, List.not_mem_nil, or_false] at hs
      rcases hs with rfl | rfl
      · exact key f.bottom j[1]
      · exact key f.top j[1]
  · intro hfin
    exact ⟨mono (hfin Frustum.left (by simp [Spec.sides])) (hfin Frustum.right (by simp [Spec.sides])), mono (hfin Frustum.bottom (by simp [Spec.sides])) (hfin Frustum.top (by simp [Spec.sides]))⟩

/-! ## `get_width`, `get_height` -/

/-- The rounded size of an interval: `w` is the distance of `a` and `b` up to one relative rounding, zero exactly if they are equal, and exact if neither is more than twice the other. -/
def Spec.SizeOf (F : Format) (w a b : Fp F) : Prop :=
  (w.Finite → a.Finite ∧ b.Finite ∧ 0 ≤ w.val ∧ |w.val - (|b.val - a.val|)| ≤ F.u * |b.val - a.val| ∧ (w.val = 0 ↔ a.val = b.val) ∧
    (0 ≤ a.val → a.val ≤ 2 * b.val → b.val ≤ 2 * a.val → w.val = |b.val - a.val|)) ∧
  (a.Finite → b.Finite → |b.val - a.val| ≤ F.maxFinite → w.Finite)

private theorem size_of (h0 : 0 < F.emax) (hp : 1 ≤ F.p) (a b : Fp F) : Spec.SizeOf F (CMath.fabs (b - a) : Fp F) a b := by
  have hu := F.u_pos
  have hu1 : F.u < 1 := by
    unfold Format.u
    exact pow_lt_one₀ (by norm_num) (by norm_num) (by omega)
  constructor
  · intro hf
    have hd : (b - a).Finite := by
      cases h : (b - a) with
      | nan => rw [h] at hf; exact hf
      | inf s => rw [h] at hf; exact hf
      | fin s m hm => trivial
    obtain ⟨hb, ha, hv⟩ := Fp.sub_finite hd
    have hw : (CMath.fabs (b - a) : Fp F).val = |F.rnd (b.val - a.val)| := by rw [← hv]; exact (Fp.fabs_fin hd).2
    have he := ((Fp.rep_val hb).grid.add (Fp.rep_val ha).grid.neg).rnd_err
    rw [← sub_eq_add_neg] at he
    refine ⟨ha, hb, ?_, ?_, ?_, ?_⟩
    · rw [hw]; exact abs_nonneg _
    · rw [hw]; exact (abs_abs_sub_abs_le _ _).trans he
    · rw [hw, abs_eq_zero]
      constructor
      · intro h
        rw [h, zero_sub, abs_neg] at he
        have : |b.val - a.val| = 0 := by
          have := abs_nonneg (b.val - a.val)
          nlinarith
        rw [abs_eq_zero] at this
        linarith
      · intro h
        rw [h, sub_self, rnd_zero]
    · intro h1 h2 h3
      rw [hw]
      rcases le_total a.val b.val with h | h
      · rw [(rep_sub_near (Fp.rep_val ha) (Fp.rep_val hb) h h3).rnd_eq]
      · have := (rep_sub_near (Fp.rep_val hb) (Fp.rep_val ha) h h2).rnd_eq
        rw [← neg_sub, rnd_neg, this]
  · intro ha hb hroom
    exact (Fp.fabs_fin (Fp.sub_fin h0 hb ha hroom).1).1

/-- **C127** `get_width` and `get_height`: accurate to one relative rounding (no underflow), zero exactly if the opposite sides are equal, exact if these are within a factor of two of each other,
and the same bits for the mirrored frustum. -/
theorem C127_size (h0 : 0 < F.emax) (hp : 1 ≤ F.p) (f : Frustum (Fp F)) :
    Spec.SizeOf F f.getWidth f.left f.right ∧ Spec.SizeOf F f.getHeight f.bottom f.top ∧
    ∀ g : Frustum (Fp F), (g.left = f.right → g.right = f.left → g.getWidth = f.getWidth) ∧ (g.bottom = f.top → g.top = f.bottom → g.getHeight = f.getHeight) := by
  have key : ∀ a b : Fp F, (CMath.fabs (a - b) : Fp F) = CMath.fabs (b - a) := by
    intro a b
    rcases Fp.sub_swap b a with h | ⟨s, t, h1, h2⟩
    · rw [h]
      cases b - a <;> rfl
    · rw [h1, h2]
      rfl
  refine ⟨size_of h0 hp _ _, size_of h0 hp _ _, fun g => ⟨fun h1 h2 => ?_, fun h1 h2 => ?_⟩⟩
  · unfold Frustum.getWidth
    rw [h1, h2]; exact key _ _
  · unfold Frustum.getHeight
    rw [h1, h2]; exact key _ _

/-! ## The hypotheses are met -/

/-- `float` code with `double` literals: the frustum `( -1, 1, -1, 1, 1, 2 )` is symmetric and in range, and so is the ratio for the new near plane `2`. -/
example : ∃ (f : Frustum (Fp single)) (n : Fp single), Spec.Quotients single double ∧ f.left = -f.right ∧ f.bottom = -f.top ∧ f.right.Finite ∧ f.top.Finite ∧ f.nearPlane.Finite ∧ n.Finite ∧
    f.right.val = 1 ∧ f.top.val = 1 ∧ f.nearPlane.val = 1 ∧ n.val = 2 ∧ 2 * |f.right.val| ≤ single.maxFinite ∧ 2 * f.nearPlane.val ≤ single.maxFinite ∧
    |f.nearPlane.val / f.right.val| ≤ single.maxFinite ∧ (2 : ℝ) ^ single.emin ≤ |n.val / f.nearPlane.val| ∧ |n.val / f.nearPlane.val| ≤ single.maxFinite ∧
    ∀ side ∈ Spec.sides, (1 + single.u) * |(side f).val * (n.val / f.nearPlane.val)| ≤ single.maxFinite := by
  have h0 : 0 < single.emax := by norm_num
  have o := Fp.one_fin (F := single) h0
  obtain ⟨l1, l2⟩ := two_lit (D := single) (by norm_num)
  have hmax : (2 : ℝ) ^ 2 ≤ single.maxFinite := by
    refine le_trans ?_ (pow_emax_le (F := single))
    rw [← zpow_natCast]
    exact zpow_le_zpow_right₀ (by norm_num) (by norm_num)
  have hm : (4 : ℝ) ≤ single.maxFinite := by norm_num at hmax; exact hmax
  have hu : single.u ≤ 1 := by norm_num [Format.u]
  have hu0 := single.u_pos
  have ht : (2 : ℝ) ^ single.emin ≤ 1 := zpow_le_one_of_nonpos₀ (by norm_num) (by norm_num [emin])
  refine ⟨⟨#v[-1, 1, -1, 1, 1, .lit single 2]⟩, .lit single 2, Or.inr (by norm_num), rfl, rfl, o.1, o.1, o.1, l1, o.2, o.2, o.2, l2, ?_, ?_, ?_, ?_, ?_, ?_⟩
  · show 2 * |(1 : Fp single).val| ≤ _
    rw [o.2, abs_one]; linarith
  · show 2 * (1 : Fp single).val ≤ _
    rw [o.2]; linarith
  · show |(1 : Fp single).val / (1 : Fp single).val| ≤ _
    rw [o.2, div_one, abs_one]; linarith
  · show _ ≤ |_ / (1 : Fp single).val|
    rw [o.2, l2, div_one, abs_two]; linarith
  · show |_ / (1 : Fp single).val| ≤ _
    rw [o.2, l2, div_one, abs_two]; linarith
  · have key : ∀ x : Fp single, |x.val| = 1 → (1 + single.u) * |x.val * ((Fp.lit single 2).val / (1 : Fp single).val)| ≤ single.maxFinite := by
      intro x hx
      rw [abs_mul, hx, o.2, l2, div_one, abs_two]
      linarith
    intro side hs
    simp only [Spec.sides, List.mem_cons, List.not_mem_nil, or_false] at hs
    have h1 : |(1 : Fp single).val| = 1 := by rw [o.2, abs_one]
    have h2 : |(-1 : Fp single).val| = 1 := by rw [Fp.val_neg, o.2, abs_neg, abs_one]
    rcases hs with rfl | rfl | rfl | rfl
    · exact key _ h2
    · exact key _ h1
    · exact key _ h2
    · exact key _ h1

end Vmml
