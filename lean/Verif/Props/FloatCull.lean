import Verif.Proofs.FApprox
import Verif.Props.FloatBox
import Verif.Props.FloatMixed
import Verif.Props.RoundingCull

/-!
# C117: view-frustum culling in IEEE 754 arithmetic
-/

namespace Vmml
open Format Culler
variable {F D : Format} {α : Type}

/-- The exact value of the plane equation on the represented numbers. -/
def Spec.fplane (p : Vec 4 (Fp F)) (x y z : ℝ) : ℝ := p[0].val * x + p[1].val * y + p[2].val * z + p[3].val
/-- The sum of the absolute values of its terms, with the smallest normal number for the underflow of each product. -/
noncomputable def Spec.fplaneMag (p : Vec 4 (Fp F)) (x y z : ℝ) : ℝ := |p[0].val| * |x| + |p[1].val| * |y| + |p[2].val| * |z| + |p[3].val| + 3 * F.tiny
/-- `m` after `n` roundings upwards. -/
noncomputable def Spec.grow (F : Format) (n : Nat) (m : ℝ) : ℝ := (1 + F.u) ^ n * m
/-- Neither infinities nor NaN. -/
def Spec.VFinite {n : Nat} (p : Vec n (Fp F)) : Prop := ∀ i : Fin n, p[i].Finite

theorem Fp.le_iff {a b : Fp F} (ha : a ≠ .nan) (hb : b ≠ .nan) : a ≤ b ↔ Spec.ereal a ≤ Spec.ereal b := by
  have key : ∀ c : Fp F, c ≠ .nan → c.ext = some (Spec.ereal c) := by
    intro c hc
    cases c with
    | nan => exact absurd rfl hc
    | inf s => rfl
    | fin s m h => rfl
  constructor
  · rintro ⟨x, hx, y, hy, hxy⟩
    rw [key a ha] at hx
    rw [key b hb] at hy
    cases hx; cases hy
    exact hxy
  · intro h
    exact ⟨_, key a ha, _, key b hb, h⟩

theorem Fp.le_val {a b : Fp F} (ha : a.Finite) (hb : b.Finite) : a ≤ b ↔ a.val ≤ b.val := by
  rw [Fp.le_iff ha.ne_nan hb.ne_nan, Fp.ereal_val ha, Fp.ereal_val hb, EReal.coe_le_coe_iff]

theorem Fp.not_le_nan_left (b : Fp F) : ¬ (.nan : Fp F) ≤ b := by rintro ⟨x, hx, -⟩; cases hx
theorem Fp.not_le_nan_right (b : Fp F) : ¬ b ≤ (.nan : Fp F) := by rintro ⟨x, -, y, hy, -⟩; cases hy

theorem Fp.fabs_fin {a : Fp F} (ha : a.Finite) : (CMath.fabs a).Finite ∧ (CMath.fabs a).val = |a.val| := by
  obtain ⟨s, m, hm, rfl⟩ := Fp.finite_cases ha
  refine ⟨trivial, ?_⟩
  have e : (CMath.fabs (Fp.fin s m hm) : Fp F).val = m := by
    show (Fp.fin false m hm).val = m
    simp
  rw [e]
  cases s <;> simp [abs_of_nonneg hm.1]

theorem Fp.fabs_finite {a : Fp F} (h : (CMath.fabs a).Finite) : a.Finite := by
  cases a <;> first | trivial | exact h

theorem FBoth.exact {H : Prop} {a : Fp F} (ha : H → a.Finite) : FBoth H a.Finite 0 a a.val |a.val| |a.val| :=
  ⟨FApprox.exact a, fun h => ⟨ha h, by simp⟩⟩

theorem FBoth.abs {H S : Prop} {n : Nat} {a : Fp F} {A m M : ℝ} (h : FBoth H S n a A m M) : FBoth H S n (CMath.fabs a) |A| m M := by
  refine ⟨fun hf => ?_, fun hH => ?_⟩
  · have ha := Fp.fabs_finite hf
    rw [(Fp.fabs_fin ha).2]
    exact ⟨(h.approx ha).1, (h.approx ha).2.abs⟩
  · have hb := h.bound hH
    refine ⟨(Fp.fabs_fin hb.finite).1, ?_⟩
    rw [(Fp.fabs_fin hb.finite).2, abs_abs]
    exact hb.bound

private theorem room {n N : Nat} {m M X : ℝ} (h : (1 + F.u) ^ N * M ≤ X) (hn : n ≤ N) (hm : m ≤ M) (h0 : 0 ≤ m) : (1 + F.u) ^ n * m ≤ X := by
  have hu := F.u_pos
  refine le_trans (mul_le_mul (pow_le_pow_right₀ (by linarith) hn) hm h0 (by positivity)) h

/-! ## Spheres -/

/-- The plane value as `test_sphere` computes it. -/
private theorem dist4 (h0 : 0 < F.emax) {p0 p1 p2 p3 s0 s1 s2 : Fp F} (f0 : p0.Finite) (f1 : p1.Finite) (f2 : p2.Finite) (f3 : p3.Finite)
    (g0 : s0.Finite) (g1 : s1.Finite) (g2 : s2.Finite)
    (hroom : (1 + F.u) ^ 4 * (|p0.val| * |s0.val| + |p1.val| * |s1.val| + |p2.val| * |s2.val| + |p3.val| + 3 * F.tiny) ≤ F.maxFinite) :
    (p0 * s0 + p1 * s1 + p2 * s2 + p3).Finite ∧
    |(p0 * s0 + p1 * s1 + p2 * s2 + p3).val - (p0.val * s0.val + p1.val * s1.val + p2.val * s2.val + p3.val)| ≤
      Spec.cullErr F.u * (|p0.val| * |s0.val| + |p1.val| * |s1.val| + |p2.val| * |s2.val| + |p3.val| + 3 * F.tiny) := by
  have ht := F.tiny_pos
  have ex : ∀ {a : Fp F}, a.Finite → FBoth True a.Finite 0 a a.val |a.val| |a.val| := fun h => FBoth.exact fun _ => h
  have a0 := mul_nonneg (abs_nonneg p0.val) (abs_nonneg s0.val)
  have a1 := mul_nonneg (abs_nonneg p1.val) (abs_nonneg s1.val)
  have a2 := mul_nonneg (abs_nonneg p2.val) (abs_nonneg s2.val)
  have a3 := abs_nonneg p3.val
  have m0 := (ex f0).mul h0 (ex g0) (fun _ => room (N := 4) hroom (by norm_num) (by linarith) a0)
  have m1 := (ex f1).mul h0 (ex g1) (fun _ => room (N := 4) hroom (by norm_num) (by linarith) a1)
  have m2 := (ex f2).mul h0 (ex g2) (fun _ => room (N := 4) hroom (by norm_num) (by linarith) a2)
  have k1 := m0.add h0 m1 (fun _ => room (N := 4) hroom (by norm_num) (by linarith) (by linarith))
  have k2 := k1.add h0 m2 (fun _ => room (N := 4) hroom (by norm_num) (by linarith) (by linarith))
  have k3 := k2.add h0 (ex f3) (fun _ => room (N := 4) hroom (by norm_num) (by linarith) (by linarith))
  have fin := (k3.bound trivial).finite
  refine ⟨fin, ?_⟩
  have := ((k3.approx fin).2.mono F.u_pos.le (by norm_num : _ ≤ 4)
    (m' := |p0.val| * |s0.val| + |p1.val| * |s1.val| + |p2.val| * |s2.val| + |p3.val| + 3 * F.tiny) (by linarith)).err
  exact this

private theorem dist (h0 : 0 < F.emax) (p s : Vec 4 (Fp F)) (hp : Spec.VFinite p) (hs : Spec.VFinite s)
    (hroom : Spec.grow F 4 (Spec.fplaneMag p s[0].val s[1].val s[2].val) ≤ F.maxFinite) :
    (p[0] * s[0] + p[1] * s[1] + p[2] * s[2] + p[3]).Finite ∧
    |(p[0] * s[0] + p[1] * s[1] + p[2] * s[2] + p[3]).val - Spec.fplane p s[0].val s[1].val s[2].val| ≤
      Spec.cullErr F.u * Spec.fplaneMag p s[0].val s[1].val s[2].val :=
  dist4 h0 (hp 0) (hp 1) (hp 2) (hp 3) (hs 0) (hs 1) (hs 2) hroom

/-- **C117** `test_sphere` in IEEE arithmetic, for planes and spheres without infinities and NaN whose plane values fit in the format. Let `e` be `cullErr` (about `4 u`) times the
magnitude of the plane equation. NONE is only returned if for some plane the exact value is at most `-radius + e`, FULL only if for every plane it is at least
`radius - e`; the verdict is NONE if some exact value is at most `-radius - e`, and FULL if all are at least `|radius| + e` and more than that for radius 0. -/
theorem C117_sphere (h0 : 0 < F.emax) (k : Culler (Fp F)) (s : Vec 4 (Fp F)) (hk : ∀ p ∈ Spec.six k, Spec.VFinite p) (hs : Spec.VFinite s)
    (hroom : ∀ p ∈ Spec.six k, Spec.grow F 4 (Spec.fplaneMag p s[0].val s[1].val s[2].val) ≤ F.maxFinite) :
    let v := fun p : Vec 4 (Fp F) => Spec.fplane p s[0].val s[1].val s[2].val
    let e := fun p : Vec 4 (Fp F) => Spec.cullErr F.u * Spec.fplaneMag p s[0].val s[1].val s[2].val
    (testSphere k s = .none → ∃ p ∈ Spec.six k, v p ≤ -s[3].val + e p) ∧
    (testSphere k s = .full → ∀ p ∈ Spec.six k, s[3].val - e p ≤ v p ∧ -s[3].val - e p < v p) ∧
    ((∃ p ∈ Spec.six k, v p ≤ -s[3].val - e p) → testSphere k s = .none) ∧
    ((∀ p ∈ Spec.six k, -s[3].val + e p < v p ∧ s[3].val + e p ≤ v p) → testSphere k s = .full) := by
  intro v e
  obtain ⟨h1, h2⟩ := sphere_verdict k s
  have hd : ∀ p ∈ Spec.six k, (p[0] * s[0] + p[1] * s[1] + p[2] * s[2] + p[3]).Finite ∧
      |(p[0] * s[0] + p[1] * s[1] + p[2] * s[2] + p[3]).val - v p| ≤ e p := fun p hp => dist h0 p s (hk p hp) hs (hroom p hp)
  have s3 : s[3].Finite := hs 3
  have hle : ∀ p ∈ Spec.six k, (p[0] * s[0] + p[1] * s[1] + p[2] * s[2] + p[3] ≤ -s[3] ↔ (p[0] * s[0] + p[1] * s[1] + p[2] * s[2] + p[3]).val ≤ -s[3].val) := by
    intro p hp
    rw [Fp.le_val (hd p hp).1 (Fp.finite_neg s3), Fp.val_neg]
  have hlt : ∀ p ∈ Spec.six k, (p[0] * s[0] + p[1] * s[1] + p[2] * s[2] + p[3] < s[3] ↔ (p[0] * s[0] + p[1] * s[1] + p[2] * s[2] + p[3]).val < s[3].val) := by
    intro p hp
    rw [Fp.lt_val (hd p hp).1 s3]
  refine ⟨?_, ?_, ?_, ?_⟩
  · intro h
    obtain ⟨p, hp, hq⟩ := h1.1 h
    have := abs_le.1 (hd p hp).2
    exact ⟨p, hp, by linarith [(hle p hp).1 hq]⟩
  · intro h p hp
    obtain ⟨q1, q2⟩ := h2.1 h p hp
    rw [hle p hp, not_le] at q1
    rw [hlt p hp, not_lt] at q2
    have := abs_le.1 (hd p hp).2
    exact ⟨by linarith, by linarith⟩
  · rintro ⟨p, hp, hq⟩
    have := abs_le.1 (hd p hp).2
    exact h1.2 ⟨p, hp, (hle p hp).2 (by linarith)⟩
  · intro h
    refine h2.2 fun p hp => ?_
    have := abs_le.1 (hd p hp).2
    have := h p hp
    exact ⟨fun hc => by have := (hle p hp).1 hc; linarith, fun hc => by have := (hlt p hp).1 hc; linarith⟩

/-- **C117** No false culling up to rounding: if the plane normals are at most of unit length and a point of the ball is in front of every plane by more than the rounding
bound, the sphere is not culled; and if the sphere is reported fully visible, every point of the ball is in front of every plane up to the rounding bound. -/
theorem C117_sphere_sound (h0 : 0 < F.emax) (k : Culler (Fp F)) (s : Vec 4 (Fp F)) (hk : ∀ p ∈ Spec.six k, Spec.VFinite p) (hs : Spec.VFinite s)
    (hroom : ∀ p ∈ Spec.six k, Spec.grow F 4 (Spec.fplaneMag p s[0].val s[1].val s[2].val) ≤ F.maxFinite)
    (hn : ∀ p ∈ Spec.six k, p[0].val ^ 2 + p[1].val ^ 2 + p[2].val ^ 2 ≤ 1)
    (hr : (0 : ℝ) ≤ s[3].val) (x y z : ℝ) (hb : (x - s[0].val) ^ 2 + (y - s[1].val) ^ 2 + (z - s[2].val) ^ 2 ≤ s[3].val ^ 2) :
    let e := fun p : Vec 4 (Fp F) => Spec.cullErr F.u * Spec.fplaneMag p s[0].val s[1].val s[2].val
    ((∀ p ∈ Spec.six k, e p < Spec.fplane p x y z) → testSphere k s ≠ .none) ∧
    (testSphere k s = .full → ∀ p ∈ Spec.six k, -e p ≤ Spec.fplane p x y z) := by
  intro e
  have hball : ∀ p ∈ Spec.six k, |Spec.fplane p x y z - Spec.fplane p s[0].val s[1].val s[2].val| ≤ s[3].val := by
    intro p hp
    exact side_ball #v[p[0].val, p[1].val, p[2].val, p[3].val] #v[s[0].val, s[1].val, s[2].val, s[3].val] (hn p hp) x y z ⟨hr, hb⟩
  obtain ⟨h1, h2, -, -⟩ := C117_sphere h0 k s hk hs hroom
  constructor
  · intro h hn
    obtain ⟨p, hp, hq⟩ := h1 hn
    have a := abs_le.1 (hball p hp)
    have b := h p hp
    simp only [e] at b
    linarith
  · intro h p hp
    have a := abs_le.1 (hball p hp)
    have b := (h2 h p hp).1
    simp only [e]
    linarith

/-! ## Boxes -/

/-- The verdict for any arithmetic and any comparisons whatsoever (no laws). -/
theorem box_verdict [Zero α] [One α] [Add α] [Sub α] [Mul α] [CMath α] [LE α] [DecidableLE α] [LT α] [DecidableLT α] (cfg : Cfg) (H : α)
    (k : Culler α) (x y z : Vec 2 α) :
    let d := fun p : Vec 4 α => (0 : α) + p[0] * ((x[0] + x[1]) * H) + p[1] * ((y[0] + y[1]) * H) + p[2] * ((z[0] + z[1]) * H) + p[3] * (1 : α)
    let n := fun p : Vec 4 α => CMath.fabs (x[1] - x[0]) * H * CMath.fabs p[0] + CMath.fabs (y[1] - y[0]) * H * CMath.fabs p[1] +
      CMath.fabs (z[1] - z[0]) * H * CMath.fabs p[2]
    ∃ r, testAabb cfg H k x y z = .ok r ∧
      (r = .none ↔ ∃ p ∈ Spec.six k, ¬ (0 : α) ≤ d p - n p ∧ ¬ (0 : α) < d p + n p) ∧ (r = .full ↔ ∀ p ∈ Spec.six k, (0 : α) ≤ d p - n p) := by
  intro d n
  let mid : Vec 3 α := #v[(x[0] + x[1]) * H, (y[0] + y[1]) * H, (z[0] + z[1]) * H]
  let ext : Vec 3 α := #v[CMath.fabs (x[1] - x[0]) * H, CMath.fabs (y[1] - y[0]) * H, CMath.fabs (z[1] - z[0]) * H]
  have hm : Vec.mulS cfg (#v[x[0] + x[1], y[0] + y[1], z[0] + z[1]] : Vec 3 α) H = .ok mid := by
    rw [Vec.mulS_eq]; congr 1
  have he : Vec.mulS cfg (#v[CMath.fabs (x[1] - x[0]), CMath.fabs (y[1] - y[0]), CMath.fabs (z[1] - z[0])] : Vec 3 α) H = .ok ext := by
    rw [Vec.mulS_eq]; congr 1
  have hh : ∀ p : Vec 4 α, (do p.dot cfg (← Vec.toHomogeneous cfg Vec.zeroCtor mid)) = .ok (d p) := by
    intro p
    rw [toHomogeneous_eq, bind_ok]
    simp [Vec.dot, loop_succ, d, mid]
  have ht : ∀ p, testAabbPlane cfg p mid ext = .ok (if (0 : α) ≤ d p - n p then .full else if (0 : α) < d p + n p then .partly else .none) := by
    intro p
    have h1 : testAabbPlane cfg p mid ext = ((do p.dot cfg (← Vec.toHomogeneous cfg Vec.zeroCtor mid)) >>= fun d =>
      if (0 : α) ≤ d - n p then pure .full else if (0 : α) < d + n p then pure .partly else pure .none) := by
      simp only [testAabbPlane, bind_assoc]; rfl
    rw [h1, hh, bind_ok]
    split_ifs <;> rfl
  obtain ⟨r, h1, h2, h3⟩ := from_verdict cfg mid ext _ ht (Spec.six k) .full (by simp)
  refine ⟨r, ?_, ?_, ?_⟩
  · simp only [testAabb]
    rw [hm, bind_ok, he, bind_ok]
    exact h1
  · rw [h2]
    apply exists_congr; intro p
    apply and_congr_right; intro _
    split_ifs <;> simp_all
  · rw [h3]
    simp only [true_and]
    apply forall₂_congr; intro p _
    split_ifs <;> simp_all

/-- The magnitude of a plane's values on the box spanned by the two coordinates in each of `x`, `y`, `z`, with the underflow of the products. -/
noncomputable def Spec.fboxMag (p : Vec 4 (Fp F)) (x y z : Vec 2 (Fp F)) : ℝ :=
  |p[0].val| * (|x[0].val| + |x[1].val|) + |p[1].val| * (|y[0].val| + |y[1].val|) + |p[2].val| * (|z[0].val| + |z[1].val|) + |p[3].val| +
    (2 * (|p[0].val| + |p[1].val| + |p[2].val|) + 7) * F.tiny
/-- The closed box spanned by the two coordinates (in any order). -/
def Spec.FBoxHas (x y z : Vec 2 (Fp F)) (a b c : ℝ) : Prop :=
  a ∈ Set.uIcc x[0].val x[1].val ∧ b ∈ Set.uIcc y[0].val y[1].val ∧ c ∈ Set.uIcc z[0].val z[1].val

/-- Centre and extent of an axis. -/
private theorem axis4 (h0 : 0 < F.emax) {half a b : Fp F} (hh : half.Finite) (hv : half.val = 1 / 2) (ha : a.Finite) (hb : b.Finite)
    (hbox : (1 + F.u) ^ 2 * (|a.val| + |b.val| + F.tiny) ≤ F.maxFinite) :
    FBoth True True 2 ((a + b) * half) ((a.val + b.val) * (1 / 2)) ((|a.val| + |b.val|) * (1 / 2) + F.tiny) ((|a.val| + |b.val|) * (1 / 2) + F.tiny) ∧
    FBoth True True 2 (CMath.fabs (b - a) * half) (|b.val - a.val| * (1 / 2)) ((|a.val| + |b.val|) * (1 / 2) + F.tiny) ((|a.val| + |b.val|) * (1 / 2) + F.tiny) := by
  have ht := F.tiny_pos
  have hhalf : |(1 / 2 : ℝ)| = 1 / 2 := by norm_num
  have ex : ∀ {a : Fp F}, a.Finite → FBoth True a.Finite 0 a a.val |a.val| |a.val| := fun h => FBoth.exact fun _ => h
  have n0 := abs_nonneg a.val
  have n1 := abs_nonneg b.val
  have eh := ex hh
  rw [hv, hhalf] at eh
  have s1 := ((ex ha).add h0 (ex hb) (fun _ => room (N := 2) hbox (by norm_num) (by linarith) (by linarith))).mul h0 eh
    (fun _ => room (N := 2) hbox (by norm_num) (by linarith) (by linarith))
  have s2 := ((ex hb).sub h0 (ex ha) (fun _ => room (N := 2) hbox (by norm_num) (by linarith) (by linarith))).abs.mul h0 eh
    (fun _ => room (N := 2) hbox (by norm_num) (by linarith) (by linarith))
  exact ⟨s1.conv (by norm_num) rfl le_rfl le_rfl (fun _ => trivial), s2.conv (by norm_num) rfl (by linarith) (by linarith) (fun _ => trivial)⟩

set_option maxHeartbeats 1600000 in
/-- The values `_test_aabb` compares with zero. -/
private theorem box4 (h0 : 0 < F.emax) {half p0 p1 p2 p3 x0 x1 y0 y1 z0 z1 : Fp F} (hh : half.Finite) (hv : half.val = 1 / 2)
    (f0 : p0.Finite) (f1 : p1.Finite) (f2 : p2.Finite) (f3 : p3.Finite)
    (gx0 : x0.Finite) (gx1 : x1.Finite) (gy0 : y0.Finite) (gy1 : y1.Finite) (gz0 : z0.Finite) (gz1 : z1.Finite)
    (hbx : (1 + F.u) ^ 2 * (|x0.val| + |x1.val| + F.tiny) ≤ F.maxFinite) (hby : (1 + F.u) ^ 2 * (|y0.val| + |y1.val| + F.tiny) ≤ F.maxFinite)
    (hbz : (1 + F.u) ^ 2 * (|z0.val| + |z1.val| + F.tiny) ≤ F.maxFinite)
    (hroom : (1 + F.u) ^ 8 * (|p0.val| * (|x0.val| + |x1.val|) + |p1.val| * (|y0.val| + |y1.val|) + |p2.val| * (|z0.val| + |z1.val|) + |p3.val| +
      (2 * (|p0.val| + |p1.val| + |p2.val|) + 7) * F.tiny) ≤ F.maxFinite) :
    let d := (0 : Fp F) + p0 * ((x0 + x1) * half) + p1 * ((y0 + y1) * half) + p2 * ((z0 + z1) * half) + p3 * (1 : Fp F)
    let n := CMath.fabs (x1 - x0) * half * CMath.fabs p0 + CMath.fabs (y1 - y0) * half * CMath.fabs p1 + CMath.fabs (z1 - z0) * half * CMath.fabs p2
    let D := p0.val * ((x0.val + x1.val) * (1 / 2)) + p1.val * ((y0.val + y1.val) * (1 / 2)) + p2.val * ((z0.val + z1.val) * (1 / 2)) + p3.val
    let N := |x1.val - x0.val| * (1 / 2) * |p0.val| + |y1.val - y0.val| * (1 / 2) * |p1.val| + |z1.val - z0.val| * (1 / 2) * |p2.val|
    let e := Spec.boxErr F.u * (|p0.val| * (|x0.val| + |x1.val|) + |p1.val| * (|y0.val| + |y1.val|) + |p2.val| * (|z0.val| + |z1.val|) + |p3.val| +
      (2 * (|p0.val| + |p1.val| + |p2.val|) + 7) * F.tiny)
    ((d - n).Finite ∧ |(d - n).val - (D - N)| ≤ e) ∧ ((d + n).Finite ∧ |(d + n).val - (D + N)| ≤ e) := by
  intro d n D N e
  have ht := F.tiny_pos
  have o := Fp.one_fin h0
  have ex : ∀ {a : Fp F}, a.Finite → FBoth True a.Finite 0 a a.val |a.val| |a.val| := fun h => FBoth.exact fun _ => h
  obtain ⟨ax, bx⟩ := axis4 h0 hh hv gx0 gx1 hbx
  obtain ⟨ay, by'⟩ := axis4 h0 hh hv gy0 gy1 hby
  obtain ⟨az, bz⟩ := axis4 h0 hh hv gz0 gz1 hbz
  have ez : FBoth (F := F) True True 0 0 0 0 0 := by
    have := FBoth.exact (H := True) (a := (0 : Fp F)) fun _ => Fp.finite_zero
    rw [Fp.val_zero, abs_zero] at this
    exact this.conv le_rfl rfl le_rfl le_rfl fun _ => trivial
  have eo := ex o.1
  rw [o.2, abs_one] at eo
  have P0 := abs_nonneg p0.val
  have P1 := abs_nonneg p1.val
  have P2 := abs_nonneg p2.val
  have P3 := abs_nonneg p3.val
  have X : 0 ≤ |x0.val| + |x1.val| := add_nonneg (abs_nonneg _) (abs_nonneg _)
  have Y : 0 ≤ |y0.val| + |y1.val| := add_nonneg (abs_nonneg _) (abs_nonneg _)
  have Z : 0 ≤ |z0.val| + |z1.val| := add_nonneg (abs_nonneg _) (abs_nonneg _)
  have e0 := ex f0
  have e1 := ex f1
  have e2 := ex f2
  have e3 := ex f3
  have q0 := mul_nonneg P0 X
  have q1 := mul_nonneg P1 Y
  have q2 := mul_nonneg P2 Z
  have t0 := mul_nonneg P0 ht.le
  have t1 := mul_nonneg P1 ht.le
  have t2 := mul_nonneg P2 ht.le
  obtain ⟨B, hB⟩ : ∃ B, B = |p0.val| * (|x0.val| + |x1.val|) + |p1.val| * (|y0.val| + |y1.val|) + |p2.val| * (|z0.val| + |z1.val|) + |p3.val| +
      (2 * (|p0.val| + |p1.val| + |p2.val|) + 7) * F.tiny := ⟨_, rfl⟩
  have he : e = Spec.boxErr F.u * B := by rw [hB]
  rw [← hB] at hroom
  have rm : ∀ {n : Nat} {m : ℝ}, n ≤ 8 → 0 ≤ m → m ≤ B → (1 + F.u) ^ n * m ≤ F.maxFinite := fun hn h1 h2 => room (N := 8) hroom hn h2 h1
  have hx := mul_nonneg P0 (by linarith : 0 ≤ (|x0.val| + |x1.val|) * (1 / 2) + F.tiny)
  have hy := mul_nonneg P1 (by linarith : 0 ≤ (|y0.val| + |y1.val|) * (1 / 2) + F.tiny)
  have hz := mul_nonneg P2 (by linarith : 0 ≤ (|z0.val| + |z1.val|) * (1 / 2) + F.tiny)
  have cx : |p0.val| * ((|x0.val| + |x1.val|) * (1 / 2) + F.tiny) = 1 / 2 * (|p0.val| * (|x0.val| + |x1.val|)) + |p0.val| * F.tiny := by ring
  have cy : |p1.val| * ((|y0.val| + |y1.val|) * (1 / 2) + F.tiny) = 1 / 2 * (|p1.val| * (|y0.val| + |y1.val|)) + |p1.val| * F.tiny := by ring
  have cz : |p2.val| * ((|z0.val| + |z1.val|) * (1 / 2) + F.tiny) = 1 / 2 * (|p2.val| * (|z0.val| + |z1.val|)) + |p2.val| * F.tiny := by ring
  have hB' : B = |p0.val| * (|x0.val| + |x1.val|) + |p1.val| * (|y0.val| + |y1.val|) + |p2.val| * (|z0.val| + |z1.val|) + |p3.val| +
      2 * (|p0.val| * F.tiny) + 2 * (|p1.val| * F.tiny) + 2 * (|p2.val| * F.tiny) + 7 * F.tiny := by rw [hB]; ring
  have dx : ((|x0.val| + |x1.val|) * (1 / 2) + F.tiny) * |p0.val| = |p0.val| * ((|x0.val| + |x1.val|) * (1 / 2) + F.tiny) := by ring
  have dy : ((|y0.val| + |y1.val|) * (1 / 2) + F.tiny) * |p1.val| = |p1.val| * ((|y0.val| + |y1.val|) * (1 / 2) + F.tiny) := by ring
  have dz : ((|z0.val| + |z1.val|) * (1 / 2) + F.tiny) * |p2.val| = |p2.val| * ((|z0.val| + |z1.val|) * (1 / 2) + F.tiny) := by ring
  -- the centre value
  have mx := e0.mul h0 ax (fun _ => rm (by norm_num) hx (by linarith only [cx, hB', q0, q1, q2, t0, t1, t2, P3, ht, hx]))
  have my := e1.mul h0 ay (fun _ => rm (by norm_num) hy (by linarith only [cy, hB', q0, q1, q2, t0, t1, t2, P3, ht, hy]))
  have mz := e2.mul h0 az (fun _ => rm (by norm_num) hz (by linarith only [cz, hB', q0, q1, q2, t0, t1, t2, P3, ht, hz]))
  have mw := e3.mul h0 eo (fun _ => rm (by norm_num) (by linarith only [P3]) (by linarith only [hB', q0, q1, q2, t0, t1, t2, P3, ht]))
  have d1 := ez.add h0 mx (fun _ => rm (by norm_num) (by linarith only [hx, ht]) (by linarith only [cx, hB', q0, q1, q2, t0, t1, t2, P3, ht]))
  have d2 := d1.add h0 my (fun _ => rm (by norm_num) (by linarith only [hx, hy, ht]) (by linarith only [cx, cy, hB', q0, q1, q2, t0, t1, t2, P3, ht]))
  have d3 := d2.add h0 mz (fun _ => rm (by norm_num) (by linarith only [hx, hy, hz, ht]) (by linarith only [cx, cy, cz, hB', q0, q1, q2, t0, t1, t2, P3, ht]))
  have d4 := d3.add h0 mw (fun _ => rm (by norm_num) (by linarith only [hx, hy, hz, ht, P3]) (by linarith only [cx, cy, cz, hB', q0, q1, q2, t0, t1, t2, P3, ht]))
  -- the half extent
  have nx := bx.mul h0 e0.abs (fun _ => rm (by norm_num) (by linarith only [hx, dx]) (by linarith only [dx, cx, hB', q0, q1, q2, t0, t1, t2, P3, ht, hx]))
  have ny := by'.mul h0 e1.abs (fun _ => rm (by norm_num) (by linarith only [hy, dy]) (by linarith only [dy, cy, hB', q0, q1, q2, t0, t1, t2, P3, ht, hy]))
  have nz := bz.mul h0 e2.abs (fun _ => rm (by norm_num) (by linarith only [hz, dz]) (by linarith only [dz, cz, hB', q0, q1, q2, t0, t1, t2, P3, ht, hz]))
  have n1 := nx.add h0 ny (fun _ => rm (by norm_num) (by linarith only [hx, hy, ht, dx, dy]) (by linarith only [dx, dy, cx, cy, hB', q0, q1, q2, t0, t1, t2, P3, ht]))
  have n2 := n1.add h0 nz (fun _ => rm (by norm_num) (by linarith only [hx, hy, hz, ht, dx, dy, dz])
    (by linarith only [dx, dy, dz, cx, cy, cz, hB', q0, q1, q2, t0, t1, t2, P3, ht]))
  have s1 := d4.sub h0 n2 (fun _ => rm (by norm_num) (by linarith only [hx, hy, hz, ht, dx, dy, dz, P3])
    (by linarith only [dx, dy, dz, cx, cy, cz, hB', q0, q1, q2, t0, t1, t2, P3, ht]))
  have s2 := d4.add h0 n2 (fun _ => rm (by norm_num) (by linarith only [hx, hy, hz, ht, dx, dy, dz, P3])
    (by linarith only [dx, dy, dz, cx, cy, cz, hB', q0, q1, q2, t0, t1, t2, P3, ht]))
  have fs := (s1.bound trivial).finite
  have fa := (s2.bound trivial).finite
  have hD : 0 + p0.val * ((x0.val + x1.val) * (1 / 2)) + p1.val * ((y0.val + y1.val) * (1 / 2)) + p2.val * ((z0.val + z1.val) * (1 / 2)) + p3.val * 1 = D := by
    show _ = p0.val * ((x0.val + x1.val) * (1 / 2)) + p1.val * ((y0.val + y1.val) * (1 / 2)) + p2.val * ((z0.val + z1.val) * (1 / 2)) + p3.val
    ring
  rw [he]
  have r1 := ((s1.approx fs).2.mono F.u_pos.le (by norm_num : _ ≤ 8) (m' := B) (by linarith only [dx, dy, dz, cx, cy, cz, hB'])).err
  have r2 := ((s2.approx fa).2.mono F.u_pos.le (by norm_num : _ ≤ 8) (m' := B) (by linarith only [dx, dy, dz, cx, cy, cz, hB'])).err
  rw [hD] at r1 r2
  exact ⟨⟨fs, r1⟩, fa, r2⟩

/-- **C117** `test_aabb` in IEEE arithmetic, for finite planes and boxes (the coordinates in either order) whose plane values fit in the format. Let `e` be `boxErr` (about `8 u`)
times the magnitude of the plane's values on the box. If some point of the box is in front of every plane by more than `e`, the box is not culled; if the box
is reported fully visible, every point of it is in front of every plane up to `e`. No access is out of range, in any configuration. `half` is `.5` as `T`. -/
theorem C117_box (h0 : 0 < F.emax) (cfg : Cfg) (half : Fp F) (hh : half.Finite) (hv : half.val = 1 / 2) (k : Culler (Fp F)) (x y z : Vec 2 (Fp F))
    (hk : ∀ p ∈ Spec.six k, Spec.VFinite p) (hx : Spec.VFinite x) (hy : Spec.VFinite y) (hz : Spec.VFinite z)
    (hroom : ∀ p ∈ Spec.six k, Spec.grow F 8 (Spec.fboxMag p x y z) ≤ F.maxFinite)
    (hbox : ∀ w ∈ [x, y, z], Spec.grow F 2 (|w[0].val| + |w[1].val| + F.tiny) ≤ F.maxFinite) :
    let e := fun p : Vec 4 (Fp F) => Spec.boxErr F.u * Spec.fboxMag p x y z
    ∃ r, testAabb cfg half k x y z = .ok r ∧
      (∀ a b c, Spec.FBoxHas x y z a b c → (∀ p ∈ Spec.six k, e p < Spec.fplane p a b c) → r ≠ .none) ∧
      (r = .full → ∀ a b c, Spec.FBoxHas x y z a b c → ∀ p ∈ Spec.six k, -e p ≤ Spec.fplane p a b c) := by
  intro e
  obtain ⟨r, hr, h2, h3⟩ := box_verdict cfg half k x y z
  refine ⟨r, hr, ?_⟩
  -- the values of a plane
  let d := fun p : Vec 4 (Fp F) => (0 : Fp F) + p[0] * ((x[0] + x[1]) * half) + p[1] * ((y[0] + y[1]) * half) + p[2] * ((z[0] + z[1]) * half) + p[3] * (1 : Fp F)
  let n := fun p : Vec 4 (Fp F) => CMath.fabs (x[1] - x[0]) * half * CMath.fabs p[0] + CMath.fabs (y[1] - y[0]) * half * CMath.fabs p[1] +
      CMath.fabs (z[1] - z[0]) * half * CMath.fabs p[2]
  let D : Vec 4 (Fp F) → ℝ := fun p => p[0].val * ((x[0].val + x[1].val) * (1 / 2 : ℝ)) + p[1].val * ((y[0].val + y[1].val) * (1 / 2 : ℝ)) +
    p[2].val * ((z[0].val + z[1].val) * (1 / 2 : ℝ)) + p[3].val
  let N : Vec 4 (Fp F) → ℝ := fun p => |x[1].val - x[0].val| * (1 / 2 : ℝ) * |p[0].val| + |y[1].val - y[0].val| * (1 / 2 : ℝ) * |p[1].val| +
    |z[1].val - z[0].val| * (1 / 2 : ℝ) * |p[2].val|
  have key : ∀ p ∈ Spec.six k, ((d p - n p).Finite ∧ |(d p - n p).val - (D p - N p)| ≤ e p) ∧ ((d p + n p).Finite ∧ |(d p + n p).val - (D p + N p)| ≤ e p) := by
    intro p hp
    have f := hk p hp
    exact box4 h0 hh hv (f 0) (f 1) (f 2) (f 3) (hx 0) (hx 1) (hy 0) (hy 1) (hz 0) (hz 1) (hbox x (by simp)) (hbox y (by simp)) (hbox z (by simp)) (hroom p hp)
  have hin : ∀ a b c, Spec.FBoxHas x y z a b c → ∀ p, D p - N p ≤ Spec.fplane p a b c ∧ Spec.fplane p a b c ≤ D p + N p := by
    intro a b c ⟨ha, hb, hc⟩ p
    have k1 := axis_le (q := p[0].val) ha
    have k2 := axis_le (q := p[1].val) hb
    have k3 := axis_le (q := p[2].val) hc
    simp only [D, N, Spec.fplane]
    constructor <;> linarith [k1.1, k1.2, k2.1, k2.2, k3.1, k3.2]
  refine ⟨?_, ?_⟩
  · intro a b c hbox hall hn
    obtain ⟨p, hp, -, q2⟩ := h2.1 hn
    obtain ⟨-, g1, g2⟩ := key p hp
    have q3 : ¬ (0 : Fp F) < d p + n p := q2
    rw [Fp.lt_val Fp.finite_zero g1, Fp.val_zero, not_lt] at q3
    have k1 := abs_le.1 g2
    have k2 := (hin a b c hbox p).2
    have k3 := hall p hp
    linarith
  · intro hf a b c hbox p hp
    have hq : (0 : Fp F) ≤ d p - n p := h3.1 hf p hp
    obtain ⟨⟨g1, g2⟩, -⟩ := key p hp
    rw [Fp.le_val Fp.finite_zero g1, Fp.val_zero] at hq
    have k1 := abs_le.1 g2
    have k2 := (hin a b c hbox p).1
    linarith

end Vmml
