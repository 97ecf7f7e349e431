import Verif.Props.RoundingNorm
import Verif.Proofs.Approx
import Verif.Props.FrustumCuller

/-!
# C91: culling in rounded arithmetic

As for C81, for an arbitrary rounding function with relative error at most `u` in every operation. The planes, spheres and boxes given to the tests are
taken as they are (their stored values); `Spec.exact` is the exact plane equation on these values.
-/

namespace Vmml
open Culler
variable {α : Type} {u : ℝ} {ρ : Rounding u}

/-- The six planes of a culler. -/
def Spec.six (k : Culler α) : List (Vec 4 α) := [k.left, k.right, k.bottom, k.top, k.near, k.far]

/-- The exact value of the plane equation. -/
def Spec.exact (p : Vec 4 (Fl ρ)) (x y z : ℝ) : ℝ := p[0].val * x + p[1].val * y + p[2].val * z + p[3].val
/-- The sum of the absolute values of its terms. -/
def Spec.mag (p : Vec 4 (Fl ρ)) (x y z : ℝ) : ℝ := |p[0].val| * |x| + |p[1].val| * |y| + |p[2].val| * |z| + |p[3].val|

/-- The relative error of a plane value: about `4 u`. -/
def Spec.cullErr (u : ℝ) : ℝ := (1 + u) ^ 4 - 1

/-- The verdict for any arithmetic and any comparisons whatsoever (no laws). -/
theorem sphere_verdict [Add α] [Mul α] [Neg α] [LE α] [DecidableLE α] [LT α] [DecidableLT α] (k : Culler α) (s : Vec 4 α) :
    let d := fun p : Vec 4 α => p[0] * s[0] + p[1] * s[1] + p[2] * s[2] + p[3]
    (testSphere k s = .none ↔ ∃ p ∈ Spec.six k, d p ≤ -s[3]) ∧
    (testSphere k s = .full ↔ ∀ p ∈ Spec.six k, ¬ d p ≤ -s[3] ∧ ¬ d p < s[3]) := by
  intro d
  have hb : ∀ p v, sphereBlock p s v = if d p ≤ -s[3] then none else some (if d p < s[3] then .partly else v) := by
    intro p v
    simp only [sphereBlock, d]
    split_ifs <;> rfl
  have key : ∀ (l : List (Vec 4 α)) (v : Visibility), v ≠ .none →
      let r := (l.foldlM (fun v p => sphereBlock p s v) v).getD .none
      (r = .none ↔ ∃ p ∈ l, d p ≤ -s[3]) ∧ (r = .full ↔ v = .full ∧ ∀ p ∈ l, ¬ d p ≤ -s[3] ∧ ¬ d p < s[3]) := by
    intro l
    induction l with
    | nil => intro v hv; cases v <;> simp_all
    | cons p l ih =>
      intro v hv
      simp only [List.foldlM_cons, hb]
      by_cases h1 : d p ≤ -s[3]
      · simp [h1]
      · by_cases h2 : d p < s[3]
        · have := ih .partly (by simp)
          simp only [hb] at this
          simp [h1, h2, this]
        · have := ih v hv
          simp only [hb] at this
          simp [h1, h2, this]
  have ht : testSphere k s = ((Spec.six k).foldlM (fun v p => sphereBlock p s v) .full).getD .none := by
    simp only [testSphere, Spec.six, List.foldlM_cons, List.foldlM_nil]
    congr 1
    simp
  have := key (Spec.six k) .full (by simp)
  simp only [← ht] at this
  simpa using this

/-- The plane value as `test_sphere` computes it. -/
private theorem dist_err (p s : Vec 4 (Fl ρ)) :
    |(p[0] * s[0] + p[1] * s[1] + p[2] * s[2] + p[3]).val - Spec.exact p s[0].val s[1].val s[2].val| ≤
      Spec.cullErr u * Spec.mag p s[0].val s[1].val s[2].val := by
  simp only [Fl.val_add, Fl.val_mul, Spec.exact, Spec.mag, Spec.cullErr]
  exact (((((Approx.exact p[0].val).mul ρ (.exact s[0].val)).add ρ ((Approx.exact p[1].val).mul ρ (.exact s[1].val))).add ρ
    ((Approx.exact p[2].val).mul ρ (.exact s[2].val))).add ρ (.exact p[3].val)).err

/-- C91. `test_sphere` in rounded arithmetic, for every culler and sphere. Let `e` be `cullErr` (about `4 u`) times the sum of the absolute
values of the terms of the plane equation. NONE is only returned if for some plane the exact value is at most `-radius + e`; FULL only if for every plane it is at
least `radius - e` and more than `-radius - e`; conversely the verdict is NONE if some exact value is at most `-radius - e`, and not NONE if all are above `-radius + e`. -/
theorem C91_sphere (k : Culler (Fl ρ)) (s : Vec 4 (Fl ρ)) :
    let v := fun p : Vec 4 (Fl ρ) => Spec.exact p s[0].val s[1].val s[2].val
    let e := fun p : Vec 4 (Fl ρ) => Spec.cullErr u * Spec.mag p s[0].val s[1].val s[2].val
    (testSphere k s = .none → ∃ p ∈ Spec.six k, v p ≤ -s[3].val + e p) ∧
    (testSphere k s = .full → ∀ p ∈ Spec.six k, s[3].val - e p ≤ v p ∧ -s[3].val - e p < v p) ∧
    ((∃ p ∈ Spec.six k, v p ≤ -s[3].val - e p) → testSphere k s = .none) ∧
    ((∀ p ∈ Spec.six k, -s[3].val + e p < v p ∧ s[3].val + e p ≤ v p) → testSphere k s = .full) := by
  intro v e
  obtain ⟨h1, h2⟩ := sphere_verdict k s
  have hd : ∀ p : Vec 4 (Fl ρ), |(p[0] * s[0] + p[1] * s[1] + p[2] * s[2] + p[3]).val - v p| ≤ e p := fun p => dist_err p s
  simp only [Fl.le_iff, Fl.lt_iff, Fl.val_neg] at h1 h2
  refine ⟨?_, ?_, ?_, ?_⟩
  · intro h
    obtain ⟨p, hp, hq⟩ := h1.1 h
    have := abs_le.1 (hd p)
    exact ⟨p, hp, by linarith⟩
  · intro h p hp
    have h3 := h2.1 h p hp
    have := abs_le.1 (hd p)
    push Not at h3
    exact ⟨by linarith [h3.2], by linarith [h3.1]⟩
  · rintro ⟨p, hp, hq⟩
    have := abs_le.1 (hd p)
    exact h1.2 ⟨p, hp, by linarith⟩
  · intro h
    refine h2.2 fun p hp => ?_
    have := abs_le.1 (hd p)
    have := h p hp
    push Not
    exact ⟨by linarith, by linarith⟩

/-- C91. No false culling up to rounding: if the (stored) plane normals are at most unit length and a point of the ball is in front of every plane by more than the
rounding bound, the sphere is not culled; and if the sphere is reported fully visible, every point of the ball is in front of every plane up to the rounding bound. -/
theorem C91_sphere_sound (k : Culler (Fl ρ)) (s : Vec 4 (Fl ρ)) (hk : ∀ p ∈ Spec.six k, p[0].val ^ 2 + p[1].val ^ 2 + p[2].val ^ 2 ≤ 1)
    (hr : (0 : ℝ) ≤ s[3].val) (x y z : ℝ) (hb : (x - s[0].val) ^ 2 + (y - s[1].val) ^ 2 + (z - s[2].val) ^ 2 ≤ s[3].val ^ 2) :
    let e := fun p : Vec 4 (Fl ρ) => Spec.cullErr u * Spec.mag p s[0].val s[1].val s[2].val
    ((∀ p ∈ Spec.six k, e p < Spec.exact p x y z) → testSphere k s ≠ .none) ∧
    (testSphere k s = .full → ∀ p ∈ Spec.six k, -e p ≤ Spec.exact p x y z) := by
  intro e
  have hball : ∀ p ∈ Spec.six k, |Spec.exact p x y z - Spec.exact p s[0].val s[1].val s[2].val| ≤ s[3].val := by
    intro p hp
    have := side_ball #v[p[0].val, p[1].val, p[2].val, p[3].val] #v[s[0].val, s[1].val, s[2].val, s[3].val] (hk p hp) x y z ⟨hr, hb⟩
    exact this
  obtain ⟨h1, h2, -, -⟩ := C91_sphere k s
  constructor
  · intro h hn
    obtain ⟨p, hp, hq⟩ := h1 hn
    have a := abs_le.1 (hball p hp)
    have b := h p hp
    simp only [e] at b
    linarith
  · intro h p hp
    have a := abs_le.1 (hball p hp)
    have b := (h2 h p hp).1
    simp only [e]
    linarith

/-- In single precision the factor is below `2.4 · 10⁻⁷`. -/
example : Spec.cullErr ((2 : ℝ)⁻¹ ^ (23 + 1)) < 24 / 10 ^ 8 := by norm_num [Spec.cullErr]


/-! ## Boxes -/

/-- The verdict of the six switches, for any arithmetic. -/
theorem from_verdict [Zero α] [One α] [Add α] [Sub α] [Mul α] [CMath α] [LE α] [DecidableLE α] [LT α] [DecidableLT α] (cfg : Cfg)
    (mid ext : Vec 3 α) (t : Vec 4 α → Visibility) (ht : ∀ p, testAabbPlane cfg p mid ext = .ok (t p)) :
    ∀ (l : List (Vec 4 α)) (v : Visibility), v ≠ .none → ∃ r, testAabbFrom cfg mid ext l v = .ok r ∧
      (r = .none ↔ ∃ p ∈ l, t p = .none) ∧ (r = .full ↔ v = .full ∧ ∀ p ∈ l, t p = .full) := by
  intro l
  induction l with
  | nil => intro v hv; exact ⟨v, rfl, by simp [hv], by simp⟩
  | cons p l ih =>
    intro v hv
    simp only [testAabbFrom, ht, bind_ok]
    cases hp : t p with
    | none => exact ⟨.none, by simp [aabbSwitch], by simp [hp], by simp [hp]⟩
    | partly =>
      obtain ⟨r, h1, h2, h3⟩ := ih .partly (by simp)
      exact ⟨r, by simpa [aabbSwitch] using h1, by simp [h2, hp], by simp [h3, hp]⟩
    | full =>
      obtain ⟨r, h1, h2, h3⟩ := ih v hv
      exact ⟨r, by simpa [aabbSwitch] using h1, by simp [h2, hp], by simp [h3, hp]⟩

/-- The relative error of the box test: about `8 u`. -/
def Spec.boxErr (u : ℝ) : ℝ := (1 + u) ^ 8 - 1
/-- The magnitude of a plane's values on the box spanned by the two coordinates in each of `x`, `y`, `z`. -/
def Spec.boxMag (p : Vec 4 (Fl ρ)) (x y z : Vec 2 (Fl ρ)) : ℝ :=
  |p[0].val| * (|x[0].val| + |x[1].val|) + |p[1].val| * (|y[0].val| + |y[1].val|) + |p[2].val| * (|z[0].val| + |z[1].val|) + |p[3].val|
/-- The closed box spanned by the two coordinates (in any order). -/
def Spec.BoxHas (x y z : Vec 2 (Fl ρ)) (a b c : ℝ) : Prop :=
  a ∈ Set.uIcc x[0].val x[1].val ∧ b ∈ Set.uIcc y[0].val y[1].val ∧ c ∈ Set.uIcc z[0].val z[1].val

theorem axis_le {q a lo hi : ℝ} (h : a ∈ Set.uIcc lo hi) :
    q * ((lo + hi) * (1 / 2)) - |hi - lo| * (1 / 2) * |q| ≤ q * a ∧ q * a ≤ q * ((lo + hi) * (1 / 2)) + |hi - lo| * (1 / 2) * |q| := by
  have h1 : |a - (lo + hi) * (1 / 2)| ≤ |hi - lo| * (1 / 2) := by
    rcases Set.mem_uIcc.1 h with ⟨h1, h2⟩ | ⟨h1, h2⟩
    · rw [abs_of_nonneg (by linarith : 0 ≤ hi - lo), abs_le]
      constructor <;> linarith
    · rw [abs_of_nonpos (by linarith : hi - lo ≤ 0), abs_le]
      constructor <;> linarith
  have h2 : |q * a - q * ((lo + hi) * (1 / 2))| ≤ |hi - lo| * (1 / 2) * |q| := by
    rw [← mul_sub, abs_mul, mul_comm]
    exact mul_le_mul_of_nonneg_right h1 (abs_nonneg _)
  have := abs_le.1 h2
  constructor <;> linarith

/-- C91. `test_aabb` in rounded arithmetic, for every culler and box (in either order of the coordinates). Let `e` be `boxErr` (about `8 u`) times the magnitude of the
plane's values on the box. If some point of the box is in front of every plane by more than `e`, the box is not culled; if the box is reported fully
visible, every point of it is in front of every plane up to `e`. No access is out of range, in any configuration. -/
theorem C91_box (cfg : Cfg) (k : Culler (Fl ρ)) (x y z : Vec 2 (Fl ρ)) :
    let e := fun p : Vec 4 (Fl ρ) => Spec.boxErr u * Spec.boxMag p x y z
    ∃ r, testAabb cfg (Fl.of (1 / 2 : ℝ)) k x y z = .ok r ∧
      (∀ a b c, Spec.BoxHas x y z a b c → (∀ p ∈ Spec.six k, e p < Spec.exact p a b c) → r ≠ .none) ∧
      (r = .full → ∀ a b c, Spec.BoxHas x y z a b c → ∀ p ∈ Spec.six k, -e p ≤ Spec.exact p a b c) := by
  intro e
  have hu := ρ.nonneg
  let H : Fl ρ := Fl.of (1 / 2)
  let mid : Vec 3 (Fl ρ) := #v[(x[0] + x[1]) * H, (y[0] + y[1]) * H, (z[0] + z[1]) * H]
  let ext : Vec 3 (Fl ρ) := #v[CMath.fabs (x[1] - x[0]) * H, CMath.fabs (y[1] - y[0]) * H, CMath.fabs (z[1] - z[0]) * H]
  have hm : Vec.mulS cfg (#v[x[0] + x[1], y[0] + y[1], z[0] + z[1]] : Vec 3 (Fl ρ)) H = .ok mid := by
    rw [Vec.mulS_eq]; congr 1
  have he : Vec.mulS cfg (#v[CMath.fabs (x[1] - x[0]), CMath.fabs (y[1] - y[0]), CMath.fabs (z[1] - z[0])] : Vec 3 (Fl ρ)) H = .ok ext := by
    rw [Vec.mulS_eq]; congr 1
  let d : Vec 4 (Fl ρ) → Fl ρ := fun p => (0 : Fl ρ) + p[0] * mid[0] + p[1] * mid[1] + p[2] * mid[2] + p[3] * (1 : Fl ρ)
  let n : Vec 4 (Fl ρ) → Fl ρ := fun p => ext[0] * CMath.fabs p[0] + ext[1] * CMath.fabs p[1] + ext[2] * CMath.fabs p[2]
  have hh : ∀ p : Vec 4 (Fl ρ), (do p.dot cfg (← Vec.toHomogeneous cfg Vec.zeroCtor mid)) = .ok (d p) := by
    intro p
    rw [toHomogeneous_eq, bind_ok]
    simp [Vec.dot, loop_succ, d]
  have ht : ∀ p, testAabbPlane cfg p mid ext = .ok (if (0 : Fl ρ) ≤ d p - n p then .full else if (0 : Fl ρ) < d p + n p then .partly else .none) := by
    intro p
    have h1 : testAabbPlane cfg p mid ext = ((do p.dot cfg (← Vec.toHomogeneous cfg Vec.zeroCtor mid)) >>= fun d =>
      if (0 : Fl ρ) ≤ d - n p then pure .full else if (0 : Fl ρ) < d + n p then pure .partly else pure .none) := by
      simp only [testAabbPlane, bind_assoc]; rfl
    rw [h1, hh, bind_ok]
    split_ifs <;> rfl
  obtain ⟨r, h1, h2, h3⟩ := from_verdict cfg mid ext _ ht (Spec.six k) .full (by simp)
  have hr : testAabb cfg H k x y z = .ok r := by
    simp only [testAabb]
    rw [hm, bind_ok, he, bind_ok]
    exact h1
  -- the exact centre value and half extent
  let D : Vec 4 (Fl ρ) → ℝ := fun p => (0 : ℝ) + p[0].val * ((x[0].val + x[1].val) * (1 / 2 : ℝ)) + p[1].val * ((y[0].val + y[1].val) * (1 / 2 : ℝ)) +
    p[2].val * ((z[0].val + z[1].val) * (1 / 2 : ℝ)) + p[3].val * (1 : ℝ)
  let N : Vec 4 (Fl ρ) → ℝ := fun p => |x[1].val - x[0].val| * (1 / 2 : ℝ) * |p[0].val| + |y[1].val - y[0].val| * (1 / 2 : ℝ) * |p[1].val| +
    |z[1].val - z[0].val| * (1 / 2 : ℝ) * |p[2].val|
  have hA : ∀ (q lo hi : Fl ρ), Approx u 3 (q * ((lo + hi) * H)).val (q.val * ((lo.val + hi.val) * (1 / 2 : ℝ)))
      (|q.val| * ((|lo.val| + |hi.val|) * |(1 / 2 : ℝ)|)) := fun q lo hi =>
    (Approx.exact q.val).mul ρ (((Approx.exact lo.val).add ρ (.exact hi.val)).mul ρ (.exact (1 / 2 : ℝ)))
  have hB : ∀ (q lo hi : Fl ρ), Approx u 3 (CMath.fabs (hi - lo) * H * CMath.fabs q).val (|hi.val - lo.val| * (1 / 2 : ℝ) * |q.val|)
      ((|hi.val| + |lo.val|) * |(1 / 2 : ℝ)| * |q.val|) := fun q lo hi =>
    ((((Approx.exact hi.val).sub ρ (.exact lo.val)).abs).mul ρ (.exact (1 / 2 : ℝ))).mul ρ (Approx.exact q.val).abs
  have hz : Approx u 0 0 0 0 := ⟨by simp, by simp⟩
  have hDp : ∀ p, Approx u 7 (d p).val (D p) _ := fun p =>
    ((((hz.add ρ (hA p[0] x[0] x[1])).add ρ (hA p[1] y[0] y[1])).add ρ (hA p[2] z[0] z[1])).add ρ
      ((Approx.exact p[3].val).mul ρ (.exact (1 : ℝ))))
  have hNp : ∀ p, Approx u 5 (n p).val (N p) _ := fun p =>
    ((hB p[0] x[0] x[1]).add ρ (hB p[1] y[0] y[1])).add ρ (hB p[2] z[0] z[1])
  have hmag : ∀ p : Vec 4 (Fl ρ), ((0 : ℝ) + |p[0].val| * ((|x[0].val| + |x[1].val|) * |(1 / 2 : ℝ)|) + |p[1].val| * ((|y[0].val| + |y[1].val|) * |(1 / 2 : ℝ)|) +
      |p[2].val| * ((|z[0].val| + |z[1].val|) * |(1 / 2 : ℝ)|) + |p[3].val| * |(1 : ℝ)|) +
      ((|x[1].val| + |x[0].val|) * |(1 / 2 : ℝ)| * |p[0].val| + (|y[1].val| + |y[0].val|) * |(1 / 2 : ℝ)| * |p[1].val| +
      (|z[1].val| + |z[0].val|) * |(1 / 2 : ℝ)| * |p[2].val|) ≤ Spec.boxMag p x y z := by
    intro p
    have : |(1 / 2 : ℝ)| = 1 / 2 := by norm_num
    rw [this, abs_one, Spec.boxMag]
    apply le_of_eq
    ring
  have hsub : ∀ p, |(d p - n p).val - (D p - N p)| ≤ e p := fun p =>
    (((hDp p).sub ρ (hNp p)).mono hu (by norm_num : max 7 5 + 1 ≤ 8) (hmag p)).err
  have hadd : ∀ p, |(d p + n p).val - (D p + N p)| ≤ e p := fun p =>
    (((hDp p).add ρ (hNp p)).mono hu (by norm_num : max 7 5 + 1 ≤ 8) (hmag p)).err
  have hin : ∀ a b c, Spec.BoxHas x y z a b c → ∀ p, D p - N p ≤ Spec.exact p a b c ∧ Spec.exact p a b c ≤ D p + N p := by
    intro a b c ⟨ha, hb, hc⟩ p
    have k1 := axis_le (q := p[0].val) ha
    have k2 := axis_le (q := p[1].val) hb
    have k3 := axis_le (q := p[2].val) hc
    simp only [D, N, Spec.exact]
    constructor <;> linarith [k1.1, k1.2, k2.1, k2.2, k3.1, k3.2]
  refine ⟨r, hr, ?_, ?_⟩
  · intro a b c hbox hall hn
    obtain ⟨p, hp, hq⟩ := h2.1 hn
    split_ifs at hq with q1 q2
    rw [Fl.lt_iff, Fl.val_zero, not_lt] at q2
    have k1 := abs_le.1 (hadd p)
    have k2 := (hin a b c hbox p).2
    have k3 := hall p hp
    linarith
  · intro hf a b c hbox p hp
    have hq := (h3.1 hf).2 p hp
    split_ifs at hq with q1 q2
    rw [Fl.le_iff, Fl.val_zero] at q1
    have k1 := abs_le.1 (hsub p)
    have k2 := (hin a b c hbox p).1
    linarith

/-- A concrete case: the cube `[-1, 1]³` as culler and the box `[0, 3]³`, which sticks out of it, in single precision: not culled. -/
example (cfg : Cfg) : ∃ r, testAabb (α := Fl (binRounding 23)) cfg (Fl.of (1 / 2))
    ⟨#v[Fl.of 1, Fl.of 0, Fl.of 0, Fl.of 1], #v[Fl.of (-1), Fl.of 0, Fl.of 0, Fl.of 1], #v[Fl.of 0, Fl.of 1, Fl.of 0, Fl.of 1],
      #v[Fl.of 0, Fl.of (-1), Fl.of 0, Fl.of 1], #v[Fl.of 0, Fl.of 0, Fl.of 1, Fl.of 1], #v[Fl.of 0, Fl.of 0, Fl.of (-1), Fl.of 1]⟩
    #v[Fl.of 0, Fl.of 3] #v[Fl.of 0, Fl.of 3] #v[Fl.of 3, Fl.of 0] = .ok r ∧ r ≠ .none := by
  obtain ⟨r, h1, h2, -⟩ := C91_box (ρ := binRounding 23) cfg
    ⟨#v[Fl.of 1, Fl.of 0, Fl.of 0, Fl.of 1], #v[Fl.of (-1), Fl.of 0, Fl.of 0, Fl.of 1], #v[Fl.of 0, Fl.of 1, Fl.of 0, Fl.of 1],
      #v[Fl.of 0, Fl.of (-1), Fl.of 0, Fl.of 1], #v[Fl.of 0, Fl.of 0, Fl.of 1, Fl.of 1], #v[Fl.of 0, Fl.of 0, Fl.of (-1), Fl.of 1]⟩
    #v[Fl.of 0, Fl.of 3] #v[Fl.of 0, Fl.of 3] #v[Fl.of 3, Fl.of 0]
  refine ⟨r, h1, h2 0 0 0 ?_ ?_⟩
  · have h3 : (0 : ℝ) ≤ 3 := by norm_num
    exact ⟨Set.mem_uIcc.2 (Or.inl ⟨le_refl (0 : ℝ), h3⟩), Set.mem_uIcc.2 (Or.inl ⟨le_refl (0 : ℝ), h3⟩), Set.mem_uIcc.2 (Or.inr ⟨le_refl (0 : ℝ), h3⟩)⟩
  · simp only [Spec.six, List.mem_cons, List.not_mem_nil, or_false, forall_eq_or_imp, forall_eq, Spec.boxErr, Spec.boxMag, Spec.exact]
    have hv : ∀ a : ℝ, (Fl.of a : Fl (binRounding 23)).val = a := fun _ => rfl
    simp only [Vector.getElem_mk, List.getElem_toArray, List.getElem_cons_zero, List.getElem_cons_succ, hv]
    norm_num

end Vmml
