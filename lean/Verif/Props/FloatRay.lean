import Verif.Props.FloatCull
import Verif.Props.FloatQR
import Verif.Props.Intersection

/-!
# C121: the ray-sphere test in IEEE 754 arithmetic
-/

namespace Vmml
open Format
variable {F : Format} {α : Type}

/-! ## The computed expressions -/

/-- The vector from the ray's origin to the centre of the sphere, as computed. -/
private def toC [Sub α] (o : Vec 3 α) (s : Vec 4 α) : Vec 3 α := #v[s[0] - o[0], s[1] - o[1], s[2] - o[2]]
/-- The scalar product as computed. -/
private def dot3 [Zero α] [Add α] [Mul α] (v w : Vec 3 α) : α := (0 : α) + v[0] * w[0] + v[1] * w[1] + v[2] * w[2]

private theorem dot3_eq [Zero α] [Add α] [Mul α] (cfg : Cfg) (v w : Vec 3 α) : v.dot cfg w = .ok (dot3 v w) := by
  simp [Vec.dot, loop, dot3, Vec.atGet]
private theorem sq3_eq [Zero α] [Add α] [Mul α] (v : Vec 3 α) : v.squaredLength = .ok (dot3 v v) := by
  simp [Vec.squaredLength, loop, dot3]

private theorem test_closed [Zero α] [Add α] [Sub α] [Mul α] [CMath α] [LT α] [DecidableLT α] (cfg : Cfg) (ray : Ray α) (s : Vec 4 α) (t b D ρ : α)
    (hb : dot3 (toC ray.origin s) ray.direction = b) (hD : dot3 (toC ray.origin s) (toC ray.origin s) = D) (hρ : s[3] * s[3] = ρ) :
    ray.testSphere cfg s t = .ok (
      if b < 0 ∧ ρ < D then (false, t)
      else if ρ < D - b * b then (false, t)
      else if ρ < D then (true, b - CMath.sqrt (ρ - (D - b * b)))
      else (true, b + CMath.sqrt (ρ - (D - b * b)))) := by
  have e : (Vector.ofFn fun i : Fin 3 => #v[s[0], s[1], s[2]][i] - ray.origin[i] : Vec 3 α) = toC ray.origin s := by
    apply Vector.ext
    intro i hi
    match i, hi with
    | 0, _ => simp [toC]
    | 1, _ => simp [toC]
    | 2, _ => simp [toC]
  subst hb hD hρ
  simp only [Ray.testSphere, Vec.getX, Vec.getY, Vec.getZ, Vec.getW, Vec.rawGet_lt, Nat.reduceLT, Nat.zero_lt_succ, set3_eq, Vmml.bind_ok, Vec.sub_eq, e,
    dot3_eq, sq3_eq]
  split_ifs <;> rfl

private theorem room {n N : Nat} {m M X : ℝ} (h : (1 + F.u) ^ N * M ≤ X) (hn : n ≤ N) (hm : m ≤ M) (h0 : 0 ≤ m) : (1 + F.u) ^ n * m ≤ X := by
  have hu := F.u_pos
  refine le_trans (mul_le_mul (pow_le_pow_right₀ (by linarith) hn) hm h0 (by positivity)) h

/-- The scalar product of a difference with a vector. -/
private theorem proj3 (h0 : 0 < F.emax) {c0 c1 c2 o0 o1 o2 d0 d1 d2 : Fp F} (fc0 : c0.Finite) (fc1 : c1.Finite) (fc2 : c2.Finite)
    (fo0 : o0.Finite) (fo1 : o1.Finite) (fo2 : o2.Finite) (fd0 : d0.Finite) (fd1 : d1.Finite) (fd2 : d2.Finite) {B X : ℝ}
    (hB : B = (|c0.val| + |o0.val|) * |d0.val| + (|c1.val| + |o1.val|) * |d1.val| + (|c2.val| + |o2.val|) * |d2.val| + 3 * F.tiny)
    (hX : (1 + F.u) ^ 13 * X ≤ F.maxFinite) (hBX : B ≤ X) (h0X : |c0.val| + |o0.val| ≤ X) (h1X : |c1.val| + |o1.val| ≤ X) (h2X : |c2.val| + |o2.val| ≤ X) :
    FBoth True True 5 ((0 : Fp F) + (c0 - o0) * d0 + (c1 - o1) * d1 + (c2 - o2) * d2)
      ((c0.val - o0.val) * d0.val + (c1.val - o1.val) * d1.val + (c2.val - o2.val) * d2.val) B B := by
  have ht := F.tiny_pos
  have ex : ∀ {a : Fp F}, a.Finite → FBoth True True 0 a a.val |a.val| |a.val| :=
    fun h => (FBoth.exact fun _ => h).conv le_rfl rfl le_rfl le_rfl fun _ => trivial
  have a0 := mul_nonneg (add_nonneg (abs_nonneg c0.val) (abs_nonneg o0.val)) (abs_nonneg d0.val)
  have a1 := mul_nonneg (add_nonneg (abs_nonneg c1.val) (abs_nonneg o1.val)) (abs_nonneg d1.val)
  have a2 := mul_nonneg (add_nonneg (abs_nonneg c2.val) (abs_nonneg o2.val)) (abs_nonneg d2.val)
  have v0 := (ex fc0).sub h0 (ex fo0) (fun _ => room (N := 13) hX (by norm_num) h0X (by positivity))
  have v1 := (ex fc1).sub h0 (ex fo1) (fun _ => room (N := 13) hX (by norm_num) h1X (by positivity))
  have v2 := (ex fc2).sub h0 (ex fo2) (fun _ => room (N := 13) hX (by norm_num) h2X (by positivity))
  have m0 := v0.mul h0 (ex fd0) (fun _ => room (N := 13) hX (by norm_num) (by linarith) a0)
  have m1 := v1.mul h0 (ex fd1) (fun _ => room (N := 13) hX (by norm_num) (by linarith) a1)
  have m2 := v2.mul h0 (ex fd2) (fun _ => room (N := 13) hX (by norm_num) (by linarith) a2)
  have z : FBoth True True 0 (0 : Fp F) 0 0 0 := by
    have := ex (Fp.finite_zero (F := F))
    simpa using this
  have k0 := z.add h0 m0 (fun _ => room (N := 13) hX (by norm_num) (by linarith) (by linarith))
  have k1 := k0.add h0 m1 (fun _ => room (N := 13) hX (by norm_num) (by linarith) (by linarith))
  have k2 := k1.add h0 m2 (fun _ => room (N := 13) hX (by norm_num) (by linarith) (by linarith))
  exact k2.conv (by norm_num) (by ring) (by linarith) (by linarith) fun _ => trivial

/-- The squared length of a difference. -/
private theorem dist3 (h0 : 0 < F.emax) {c0 c1 c2 o0 o1 o2 : Fp F} (fc0 : c0.Finite) (fc1 : c1.Finite) (fc2 : c2.Finite)
    (fo0 : o0.Finite) (fo1 : o1.Finite) (fo2 : o2.Finite) {B X : ℝ}
    (hB : B = (|c0.val| + |o0.val|) ^ 2 + (|c1.val| + |o1.val|) ^ 2 + (|c2.val| + |o2.val|) ^ 2 + 3 * F.tiny)
    (hX : (1 + F.u) ^ 13 * X ≤ F.maxFinite) (hBX : B ≤ X) (h0X : |c0.val| + |o0.val| ≤ X) (h1X : |c1.val| + |o1.val| ≤ X) (h2X : |c2.val| + |o2.val| ≤ X) :
    FBoth True True 6 ((0 : Fp F) + (c0 - o0) * (c0 - o0) + (c1 - o1) * (c1 - o1) + (c2 - o2) * (c2 - o2))
      ((c0.val - o0.val) ^ 2 + (c1.val - o1.val) ^ 2 + (c2.val - o2.val) ^ 2) B B := by
  have ht := F.tiny_pos
  have ex : ∀ {a : Fp F}, a.Finite → FBoth True True 0 a a.val |a.val| |a.val| :=
    fun h => (FBoth.exact fun _ => h).conv le_rfl rfl le_rfl le_rfl fun _ => trivial
  have a0 := mul_self_nonneg (|c0.val| + |o0.val|)
  have a1 := mul_self_nonneg (|c1.val| + |o1.val|)
  have a2 := mul_self_nonneg (|c2.val| + |o2.val|)
  have v0 := (ex fc0).sub h0 (ex fo0) (fun _ => room (N := 13) hX (by norm_num) h0X (by positivity))
  have v1 := (ex fc1).sub h0 (ex fo1) (fun _ => room (N := 13) hX (by norm_num) h1X (by positivity))
  have v2 := (ex fc2).sub h0 (ex fo2) (fun _ => room (N := 13) hX (by norm_num) h2X (by positivity))
  have m0 := v0.mul h0 v0 (fun _ => room (N := 13) hX (by norm_num) (by linarith) a0)
  have m1 := v1.mul h0 v1 (fun _ => room (N := 13) hX (by norm_num) (by linarith) a1)
  have m2 := v2.mul h0 v2 (fun _ => room (N := 13) hX (by norm_num) (by linarith) a2)
  have z : FBoth True True 0 (0 : Fp F) 0 0 0 := by
    have := ex (Fp.finite_zero (F := F))
    simpa using this
  have k0 := z.add h0 m0 (fun _ => room (N := 13) hX (by norm_num) (by linarith) (by linarith))
  have k1 := k0.add h0 m1 (fun _ => room (N := 13) hX (by norm_num) (by linarith) (by linarith))
  have k2 := k1.add h0 m2 (fun _ => room (N := 13) hX (by norm_num) (by linarith) (by linarith))
  exact k2.conv (by norm_num) (by ring) (by linarith) (by linarith) fun _ => trivial

/-- The square root of a representable number has a relative error of at most `u`. -/
theorem sqrt_rel (hp : F.p < F.emax) {x : ℝ} (h : F.Rep x) (hx : 0 ≤ x) : |F.rnd (Real.sqrt x) - Real.sqrt x| ≤ F.u * Real.sqrt x := by
  rcases hx.eq_or_lt with rfl | hpos
  · simp [rnd_zero]
  have hge : (2 : ℝ) ^ (F.emin - F.p) ≤ x := by
    obtain ⟨k, rfl⟩ := h.grid
    have hq : (0 : ℝ) < (2 : ℝ) ^ (F.emin - F.p) := by positivity
    have : (0 : ℝ) < k := (mul_pos_iff_of_pos_right hq).1 hpos
    have : (1 : ℝ) ≤ k := by exact_mod_cast (by exact_mod_cast this : (0 : Int) < k)
    nlinarith
  have : (2 : ℝ) ^ F.emin ≤ |Real.sqrt x| := by
    rw [abs_of_nonneg (Real.sqrt_nonneg _)]
    apply Real.le_sqrt_of_sq_le
    refine le_trans ?_ hge
    rw [← zpow_natCast, ← zpow_mul]
    exact zpow_le_zpow_right₀ (by norm_num) (by unfold emin; push_cast; omega)
  have := rnd_err_normal this
  rwa [abs_of_nonneg (Real.sqrt_nonneg _)] at this

/-! ## Exact quantities -/

/-- The scalar product of the vector from the origin to the centre with the stored direction. -/
def Spec.rayProj (ray : Ray (Fp F)) (s : Vec 4 (Fp F)) : ℝ :=
  (s[0].val - ray.origin[0].val) * ray.direction[0].val + (s[1].val - ray.origin[1].val) * ray.direction[1].val +
    (s[2].val - ray.origin[2].val) * ray.direction[2].val
/-- The squared distance of the centre from the origin of the ray. -/
def Spec.raySq (ray : Ray (Fp F)) (s : Vec 4 (Fp F)) : ℝ :=
  (s[0].val - ray.origin[0].val) ^ 2 + (s[1].val - ray.origin[1].val) ^ 2 + (s[2].val - ray.origin[2].val) ^ 2
/-- The magnitude of the terms of `rayProj`. -/
noncomputable def Spec.rayProjMag (ray : Ray (Fp F)) (s : Vec 4 (Fp F)) : ℝ :=
  (|s[0].val| + |ray.origin[0].val|) * |ray.direction[0].val| + (|s[1].val| + |ray.origin[1].val|) * |ray.direction[1].val| +
    (|s[2].val| + |ray.origin[2].val|) * |ray.direction[2].val| + 3 * F.tiny
/-- The magnitude of the terms of the discriminant. -/
noncomputable def Spec.rayMag (ray : Ray (Fp F)) (s : Vec 4 (Fp F)) : ℝ :=
  s[3].val ^ 2 + ((|s[0].val| + |ray.origin[0].val|) ^ 2 + (|s[1].val| + |ray.origin[1].val|) ^ 2 + (|s[2].val| + |ray.origin[2].val|) ^ 2) +
    Spec.rayProjMag ray s ^ 2 + 5 * F.tiny
/-- The relative error of `n` operations. -/
noncomputable def Spec.fpErr (F : Format) (n : Nat) : ℝ := (1 + F.u) ^ n - 1

/-- The intermediate results. -/
private theorem core (h0 : 0 < F.emax) (ray : Ray (Fp F)) (s : Vec 4 (Fp F)) (ho : Spec.VFinite ray.origin) (hd : Spec.VFinite ray.direction) (hs : Spec.VFinite s)
    (hroom : Spec.grow F 13 (Spec.rayMag ray s + 1) ≤ F.maxFinite) {b D ρ : Fp F}
    (hb : dot3 (toC ray.origin s) ray.direction = b) (hD : dot3 (toC ray.origin s) (toC ray.origin s) = D) (hρ : s[3] * s[3] = ρ) :
    FBoth True True 5 b (Spec.rayProj ray s) (Spec.rayProjMag ray s) (Spec.rayProjMag ray s) ∧
    ∃ md mr mp : ℝ, md + mr ≤ Spec.rayMag ray s ∧ mp + mr ≤ Spec.rayMag ray s ∧
      FBoth True True 6 D (Spec.raySq ray s) md md ∧ FBoth True True 1 ρ (s[3].val ^ 2) mr mr ∧
      FBoth True True 12 (D - b * b) (Spec.raySq ray s - Spec.rayProj ray s ^ 2) mp mp ∧
      FBoth True True 13 (ρ - (D - b * b)) (s[3].val ^ 2 - (Spec.raySq ray s - Spec.rayProj ray s ^ 2)) (Spec.rayMag ray s) (Spec.rayMag ray s) := by
  have ht := F.tiny_pos
  unfold Spec.grow at hroom
  obtain ⟨B, hB⟩ : ∃ B, B = Spec.rayProjMag ray s := ⟨_, rfl⟩
  obtain ⟨M, hM⟩ : ∃ M, M = Spec.rayMag ray s := ⟨_, rfl⟩
  obtain ⟨S, hS⟩ : ∃ S, S = (|s[0].val| + |ray.origin[0].val|) ^ 2 + (|s[1].val| + |ray.origin[1].val|) ^ 2 + (|s[2].val| + |ray.origin[2].val|) ^ 2 := ⟨_, rfl⟩
  have hMe : M = s[3].val ^ 2 + S + B ^ 2 + 5 * F.tiny := by rw [hM, hS, hB]; rfl
  rw [← hM] at hroom ⊢
  rw [← hB]
  have hs3 := sq_nonneg s[3].val
  have hB2 := sq_nonneg B
  have s0 := sq_nonneg (|s[0].val| + |ray.origin[0].val|)
  have s1 := sq_nonneg (|s[1].val| + |ray.origin[1].val|)
  have s2 := sq_nonneg (|s[2].val| + |ray.origin[2].val|)
  have le1 : ∀ x : ℝ, x ≤ x ^ 2 + 1 := fun x => by nlinarith [sq_nonneg (x - 1)]
  have l0 := le1 (|s[0].val| + |ray.origin[0].val|)
  have l1 := le1 (|s[1].val| + |ray.origin[1].val|)
  have l2 := le1 (|s[2].val| + |ray.origin[2].val|)
  have lB := le1 B
  have e0 : |s[0].val| + |ray.origin[0].val| ≤ M + 1 := by linarith only [l0, s0, s1, s2, hS, hMe, hs3, hB2, ht]
  have e1 : |s[1].val| + |ray.origin[1].val| ≤ M + 1 := by linarith only [l1, s0, s1, s2, hS, hMe, hs3, hB2, ht]
  have e2 : |s[2].val| + |ray.origin[2].val| ≤ M + 1 := by linarith only [l2, s0, s1, s2, hS, hMe, hs3, hB2, ht]
  have hS0 : 0 ≤ S := by linarith only [s0, s1, s2, hS]
  have kb := proj3 h0 (hs 0) (hs 1) (hs 2) (ho 0) (ho 1) (ho 2) (hd 0) (hd 1) (hd 2) hB hroom (by linarith only [lB, hS0, hMe, hs3, ht]) e0 e1 e2
  have kD := dist3 (B := S + 3 * F.tiny) h0 (hs 0) (hs 1) (hs 2) (ho 0) (ho 1) (ho 2) (by rw [hS]; rfl) hroom (by linarith only [hB2, hMe, hs3, ht]) e0 e1 e2
  have kb : FBoth True True 5 b (Spec.rayProj ray s) B B := by rw [← hb]; exact kb
  have kD : FBoth True True 6 D (Spec.raySq ray s) (S + 3 * F.tiny) (S + 3 * F.tiny) := by rw [← hD]; exact kD
  have ex : ∀ {a : Fp F}, a.Finite → FBoth True True 0 a a.val |a.val| |a.val| :=
    fun h => (FBoth.exact fun _ => h).conv le_rfl rfl le_rfl le_rfl fun _ => trivial
  have q := sq_abs s[3].val
  have er := ex (hs 3)
  have kρ := er.mul h0 er (fun _ => room (N := 13) hroom (by norm_num) (by
    have : |s[3].val| * |s[3].val| = s[3].val ^ 2 := by rw [← pow_two]; exact q
    show |s[3].val| * |s[3].val| ≤ _
    rw [this]
    linarith only [hMe, hS0, hB2, ht]) (mul_self_nonneg _))
  have kρ : FBoth True True 1 ρ (s[3].val ^ 2) (s[3].val ^ 2 + F.tiny) (s[3].val ^ 2 + F.tiny) := by
    rw [← hρ]
    refine kρ.conv (by norm_num) ?_ ?_ ?_ fun _ => trivial
    · show s[3].val * s[3].val = _
      ring
    · show |s[3].val| * |s[3].val| + F.tiny ≤ _
      rw [← q]; linarith only
    · show |s[3].val| * |s[3].val| + F.tiny ≤ _
      rw [← q]; linarith only
  have kbb := kb.mul h0 kb (fun _ => room (N := 13) hroom (by norm_num) (by linarith only [hMe, hS0, hs3, ht]) (mul_self_nonneg _))
  have kp := kD.sub h0 kbb (fun _ => room (N := 13) hroom (by norm_num) (by linarith only [hMe, hS0, hs3, ht]) (by linarith only [hB2, hS0, hs3, ht]))
  have kp : FBoth True True 12 (D - b * b) (Spec.raySq ray s - Spec.rayProj ray s ^ 2) (S + B ^ 2 + 4 * F.tiny) (S + B ^ 2 + 4 * F.tiny) :=
    kp.conv (by norm_num) (by ring) (by linarith only) (by linarith only) fun _ => trivial
  have kq := kρ.sub h0 kp (fun _ => room (N := 13) hroom (by norm_num) (by linarith only [hMe, hS0, hs3, ht]) (by linarith only [hB2, hS0, hs3, ht]))
  exact ⟨kb, S + 3 * F.tiny, s[3].val ^ 2 + F.tiny, S + B ^ 2 + 4 * F.tiny, by linarith only [hMe, hB2, ht], by linarith only [hMe], kD, kρ, kp,
    kq.conv (by norm_num) rfl (by linarith only [hMe]) (by linarith only [hMe]) fun _ => trivial⟩

private theorem resid {u y b bh q disc s x th M m : ℝ} (hu : 0 ≤ u) (hy : y = 1 + u) (hm0 : 0 ≤ m) (hm : m ^ 2 = M) (h1 : |bh - b| ≤ (y ^ 5 - 1) * m)
    (h2 : |bh| ≤ y ^ 5 * m) (h3 : |q - disc| ≤ (y ^ 13 - 1) * M) (hq0 : 0 ≤ q) (hq : q ≤ y ^ 13 * M) (hs : |s - Real.sqrt q| ≤ u * Real.sqrt q)
    (hx : x = s ∨ x = -s) (ht : |th - (bh + x)| ≤ u * |bh + x|) : |(th - b) ^ 2 - disc| ≤ (y ^ 36 - 1) * M := by
  have hr := Real.sqrt_nonneg q
  have hrr := Real.mul_self_sqrt hq0
  set r := Real.sqrt q
  have hy1 : 1 ≤ y := by linarith
  have hpw : ∀ k, 1 ≤ y ^ k := fun k => one_le_pow₀ hy1
  have hM0 : 0 ≤ M := by rw [← hm]; positivity
  have hrle : r ≤ y ^ 7 * m := by
    refine abs_le_of_sq_le_sq' ?_ (by positivity) |>.2
    have : y ^ 13 ≤ y ^ 14 := pow_le_pow_right₀ hy1 (by norm_num)
    have : y ^ 13 * M ≤ y ^ 14 * M := mul_le_mul_of_nonneg_right this hM0
    have e : (y ^ 7 * m) ^ 2 = y ^ 14 * M := by rw [← hm]; ring
    rw [e]; linarith only [this, hq, hrr, sq r]
  have hsb := abs_le.1 hs
  have hs0 : 0 ≤ s ∨ s ≤ 0 := le_total 0 s
  have hsle : |s| ≤ y * r := by
    rw [hy, abs_le]; constructor <;> linarith only [hsb.1, hsb.2, hr, mul_nonneg hu hr]
  have hxs : |x| = |s| := by rcases hx with rfl | rfl <;> simp
  have hx2 : x ^ 2 = s ^ 2 := by rcases hx with rfl | rfl <;> ring
  have hxle : |x| ≤ y ^ 8 * m := by
    rw [hxs]
    calc |s| ≤ y * r := hsle
      _ ≤ y * (y ^ 7 * m) := by gcongr
      _ = _ := by ring
  have hsq : |s ^ 2 - q| ≤ (y ^ 2 - 1) * q := by
    rw [abs_le]
    have e : s ^ 2 - q = (s - r) ^ 2 + 2 * r * (s - r) := by rw [← hrr]; ring
    constructor
    · have k1 := mul_le_mul_of_nonneg_left hsb.1 (by linarith : 0 ≤ 2 * r)
      have k2 : (y ^ 2 - 1) * q = 2 * (u * q) + u ^ 2 * q := by rw [hy]; ring
      have k3 : 2 * r * -(u * r) = -(2 * (u * q)) := by rw [← hrr]; ring
      linarith only [e, k1, k2, k3, sq_nonneg (s - r), mul_nonneg (sq_nonneg u) hq0]
    · have : s ^ 2 ≤ (y * r) ^ 2 := by rw [← sq_abs s]; exact pow_le_pow_left₀ (abs_nonneg _) hsle 2
      have k : (y * r) ^ 2 = y ^ 2 * q := by rw [← hrr]; ring
      linarith only [this, k]
  have hq2 : (y ^ 2 - 1) * q ≤ (y ^ 15 - y ^ 13) * M := by
    calc (y ^ 2 - 1) * q ≤ (y ^ 2 - 1) * (y ^ 13 * M) := mul_le_mul_of_nonneg_left hq (by linarith [hpw 2])
      _ = _ := by ring
  obtain ⟨e, he⟩ : ∃ e, e = th - b - x := ⟨_, rfl⟩
  have hebd : |e| ≤ (y ^ 10 - 1) * m := by
    have a1 : |bh + x| ≤ 2 * y ^ 8 * m := by
      have : y ^ 5 * m ≤ y ^ 8 * m := mul_le_mul_of_nonneg_right (pow_le_pow_right₀ hy1 (by norm_num)) hm0
      linarith [abs_add_le bh x]
    have a2 : |e| ≤ |th - (bh + x)| + |bh - b| := by
      rw [he, show th - b - x = (th - (bh + x)) + (bh - b) by ring]; exact abs_add_le _ _
    have a3 : u * |bh + x| ≤ u * (2 * y ^ 8 * m) := mul_le_mul_of_nonneg_left a1 hu
    have a4 : y ^ 5 ≤ y ^ 8 := pow_le_pow_right₀ hy1 (by norm_num)
    have a5 : y ^ 5 - 1 + 2 * u * y ^ 8 ≤ y ^ 10 - 1 := by
      have : y ^ 10 = y ^ 8 * (1 + 2 * u + u ^ 2) := by rw [hy]; ring
      rw [this]
      have := hpw 8
      linarith only [a4, this, mul_nonneg (sq_nonneg u) (by linarith : 0 ≤ y ^ 8)]
    have := mul_le_mul_of_nonneg_right a5 hm0
    linarith only [this, a2, a3, h1, ht]
  have hfin : |(x + e) ^ 2 - x ^ 2| ≤ (y ^ 36 - y ^ 16) * M := by
    have b1 : |(x + e) ^ 2 - x ^ 2| ≤ (|x| + |e|) ^ 2 - |x| ^ 2 := by
      rw [show (x + e) ^ 2 - x ^ 2 = e * (2 * x + e) by ring, abs_mul]
      have : |2 * x + e| ≤ 2 * |x| + |e| := by
        have := abs_add_le (2 * x) e
        rwa [abs_mul, abs_two] at this
      have := mul_le_mul_of_nonneg_left this (abs_nonneg e)
      linarith only [this]
    obtain ⟨X, hX⟩ : ∃ X, X = |x| := ⟨_, rfl⟩
    obtain ⟨E, hE⟩ : ∃ E, E = |e| := ⟨_, rfl⟩
    have hX0 : 0 ≤ X := by rw [hX]; exact abs_nonneg _
    have hE0 : 0 ≤ E := by rw [hE]; exact abs_nonneg _
    rw [← hX] at b1 hxle
    rw [← hE] at b1 hebd
    have b2 : (X + E) ^ 2 - X ^ 2 ≤ (y ^ 8 * m + (y ^ 10 - 1) * m) ^ 2 - (y ^ 8 * m) ^ 2 := by
      have c1 : 0 ≤ (y ^ 10 - 1) * m - E := by linarith
      have c2 : 0 ≤ y ^ 8 * m - X := by linarith
      obtain ⟨P, hP⟩ : ∃ P, P = y ^ 8 * m := ⟨_, rfl⟩
      obtain ⟨Q, hQ⟩ : ∃ Q, Q = (y ^ 10 - 1) * m := ⟨_, rfl⟩
      rw [← hP] at c2 ⊢
      rw [← hQ] at c1 ⊢
      nlinarith only [mul_nonneg c1 hX0, mul_nonneg c1 hE0, mul_nonneg c2 hE0, mul_nonneg c1 c2, mul_nonneg c1 c1]
    have b3 : y ^ 8 + (y ^ 10 - 1) ≤ y ^ 18 := by
      have : y ^ 18 = y ^ 8 * y ^ 10 := by ring
      have := mul_nonneg (sub_nonneg.2 (hpw 8)) (sub_nonneg.2 (hpw 10))
      linarith only [this, ‹y ^ 18 = _›]
    have b4 : (y ^ 8 + (y ^ 10 - 1)) ^ 2 ≤ (y ^ 18) ^ 2 := pow_le_pow_left₀ (by linarith [hpw 8, hpw 10]) b3 2
    calc _ ≤ _ := b1
      _ ≤ _ := b2
      _ = ((y ^ 8 + (y ^ 10 - 1)) ^ 2 - y ^ 16) * M := by rw [← hm]; ring
      _ ≤ ((y ^ 18) ^ 2 - y ^ 16) * M := mul_le_mul_of_nonneg_right (by linarith) hM0
      _ = _ := by ring
  have hth : th - b = x + e := by rw [he]; ring
  rw [hth]
  have h15 : y ^ 15 ≤ y ^ 16 := pow_le_pow_right₀ hy1 (by norm_num)
  have h15 := mul_le_mul_of_nonneg_right h15 hM0
  calc |(x + e) ^ 2 - disc| = |((x + e) ^ 2 - x ^ 2) + (s ^ 2 - q) + (q - disc)| := by rw [hx2]; congr 1; ring
    _ ≤ |(x + e) ^ 2 - x ^ 2| + |s ^ 2 - q| + |q - disc| := abs_add_three _ _ _
    _ ≤ _ := by linarith only [hfin, hsq, hq2, h3, h15]

/-- The squared distance of the point of the ray at parameter `τ` from the centre of the sphere. -/
def Spec.rayPoint (ray : Ray (Fp F)) (s : Vec 4 (Fp F)) (τ : ℝ) : ℝ :=
  (ray.origin[0].val + τ * ray.direction[0].val - s[0].val) ^ 2 + (ray.origin[1].val + τ * ray.direction[1].val - s[1].val) ^ 2 +
    (ray.origin[2].val + τ * ray.direction[2].val - s[2].val) ^ 2
/-- The squared length of the stored direction. -/
def Spec.rayNorm (ray : Ray (Fp F)) : ℝ := ray.direction[0].val ^ 2 + ray.direction[1].val ^ 2 + ray.direction[2].val ^ 2

private theorem point_eq (ray : Ray (Fp F)) (s : Vec 4 (Fp F)) (τ : ℝ) :
    Spec.rayPoint ray s τ = (τ - Spec.rayProj ray s) ^ 2 + (Spec.raySq ray s - Spec.rayProj ray s ^ 2) + τ ^ 2 * (Spec.rayNorm ray - 1) := by
  unfold Spec.rayPoint Spec.rayProj Spec.raySq Spec.rayNorm; ring

/-- The accepted and the rejected rays, with the facts about the returned parameter. -/
private theorem outcome (hp : F.p < F.emax) (cfg : Cfg) (ray : Ray (Fp F)) (s : Vec 4 (Fp F)) (t : Fp F) (ho : Spec.VFinite ray.origin)
    (hd : Spec.VFinite ray.direction) (hs : Spec.VFinite s) (hroom : Spec.grow F 13 (Spec.rayMag ray s + 1) ≤ F.maxFinite) :
    let disc := s[3].val ^ 2 - (Spec.raySq ray s - Spec.rayProj ray s ^ 2)
    let E := Spec.fpErr F 13 * Spec.rayMag ray s
    let Eb := Spec.fpErr F 5 * Spec.rayProjMag ray s
    (ray.testSphere cfg s t = .ok (false, t) ∧ (disc < E ∨ (Spec.rayProj ray s < Eb ∧ s[3].val ^ 2 - Spec.raySq ray s < E))) ∨
    (∃ t', ray.testSphere cfg s t = .ok (true, t') ∧ -E ≤ disc ∧ (-Eb ≤ Spec.rayProj ray s ∨ -E ≤ s[3].val ^ 2 - Spec.raySq ray s) ∧ t'.Finite ∧
      |(t'.val - Spec.rayProj ray s) ^ 2 - disc| ≤ Spec.fpErr F 36 * Spec.rayMag ray s ∧
      (s[3].val ^ 2 + E < Spec.raySq ray s → t'.val ≤ Spec.rayProj ray s + Eb) ∧ (Spec.raySq ray s + E < s[3].val ^ 2 → Spec.rayProj ray s - Eb ≤ t'.val) ∧
      (s[3].val ^ 2 + (2 : ℝ) * E < Spec.raySq ray s → 0 ≤ t'.val) ∧ (Spec.raySq ray s + (2 : ℝ) * E < s[3].val ^ 2 → 0 ≤ t'.val)) := by
  intro disc E Eb
  have h0 : 0 < F.emax := by omega
  have hu := F.u_pos
  obtain ⟨b, hb⟩ : ∃ b, dot3 (toC ray.origin s) ray.direction = b := ⟨_, rfl⟩
  obtain ⟨D, hD⟩ : ∃ D, dot3 (toC ray.origin s) (toC ray.origin s) = D := ⟨_, rfl⟩
  obtain ⟨ρ, hρ⟩ : ∃ ρ, s[3] * s[3] = ρ := ⟨_, rfl⟩
  obtain ⟨kb, md, mr, mp, m1, m2, kD, kρ, kp, kq⟩ := core h0 ray s ho hd hs hroom hb hD hρ
  rw [test_closed cfg ray s t b D ρ hb hD hρ]
  have fb := (kb.bound trivial).finite
  have fD := (kD.bound trivial).finite
  have fρ := (kρ.bound trivial).finite
  have fp := (kp.bound trivial).finite
  have fq := (kq.bound trivial).finite
  obtain ⟨A, hA⟩ : ∃ A, A = Spec.rayProj ray s := ⟨_, rfl⟩
  obtain ⟨S, hS⟩ : ∃ S, S = Spec.raySq ray s := ⟨_, rfl⟩
  obtain ⟨R, hR⟩ : ∃ R, R = s[3].val ^ 2 := ⟨_, rfl⟩
  obtain ⟨B, hB⟩ : ∃ B, B = Spec.rayProjMag ray s := ⟨_, rfl⟩
  obtain ⟨M, hM⟩ : ∃ M, M = Spec.rayMag ray s := ⟨_, rfl⟩
  have hBM : B ^ 2 ≤ M := by
    rw [hB, hM]
    unfold Spec.rayMag
    have := F.tiny_pos
    have s0 := sq_nonneg (|s[0].val| + |ray.origin[0].val|)
    have s1 := sq_nonneg (|s[1].val| + |ray.origin[1].val|)
    have s2 := sq_nonneg (|s[2].val| + |ray.origin[2].val|)
    linarith only [s0, s1, s2, sq_nonneg s[3].val, this]
  have hdisc : disc = R - (S - A ^ 2) := by rw [hR, hS, hA]
  have hE : E = ((1 + F.u) ^ 13 - 1) * M := by rw [hM]; rfl
  have hEb : Eb = ((1 + F.u) ^ 5 - 1) * B := by rw [hB]; rfl
  have h36 : Spec.fpErr F 36 = (1 + F.u) ^ 36 - 1 := rfl
  rw [h36, hdisc, hE, hEb]
  unfold Spec.grow at hroom
  rw [← hM] at hroom m1 m2 kq ⊢
  rw [← hB] at kb
  rw [← hA] at kb kp kq ⊢
  rw [← hS] at kD kp kq ⊢
  rw [← hR] at kρ kq ⊢
  have eb := (kb.approx fb).2.err
  have bb := (kb.approx fb).2.bound
  have eD := ((kD.approx fD).2.mono hu.le (by norm_num : 6 ≤ 13) le_rfl).err
  have eρ := ((kρ.approx fρ).2.mono hu.le (by norm_num : 1 ≤ 13) le_rfl).err
  have ep := ((kp.approx fp).2.mono hu.le (by norm_num : 12 ≤ 13) le_rfl).err
  have eq := (kq.approx fq).2.err
  have bq := (kq.approx fq).2.bound
  have hg : 0 ≤ (1 + F.u) ^ 13 - 1 := by linarith [one_le_pow₀ (n := 13) (by linarith : (1 : ℝ) ≤ 1 + F.u)]
  have m1 := mul_le_mul_of_nonneg_left m1 hg
  have m2 := mul_le_mul_of_nonneg_left m2 hg
  rw [abs_le] at eb eD eρ ep
  have lb : b < 0 ↔ b.val < 0 := by rw [Fp.lt_val fb Fp.finite_zero, Fp.val_zero]
  have lD : ρ < D ↔ ρ.val < D.val := Fp.lt_val fρ fD
  have lp : ρ < D - b * b ↔ ρ.val < (D - b * b).val := Fp.lt_val fρ fp
  by_cases c1 : b < 0 ∧ ρ < D
  · left
    rw [if_pos c1]
    have c1b := lD.1 c1.2
    have c1a := lb.1 c1.1
    exact ⟨rfl, Or.inr ⟨by linarith only [eb.1, eb.2, c1a], by linarith only [m1, eD.1, eD.2, eρ.1, eρ.2, c1b]⟩⟩
  by_cases c2 : ρ < D - b * b
  · left
    rw [if_neg c1, if_pos c2]
    have c2 := lp.1 c2
    exact ⟨rfl, Or.inl (by linarith only [m2, ep.1, ep.2, eρ.1, eρ.2, c2])⟩
  right
  have c2' : (D - b * b).val ≤ ρ.val := not_lt.1 fun h => c2 (lp.2 h)
  have hq0 : 0 ≤ (ρ - (D - b * b)).val := by
    rw [(Fp.sub_finite fq).2.2]
    exact rnd_nonneg (by linarith)
  obtain ⟨f1, f2⟩ := Fp.sqrt_fin h0 fq hq0
  have hsr := sqrt_rel hp (Fp.rep_val fq) hq0
  rw [← f2] at hsr
  obtain ⟨q, hq⟩ : ∃ q, q = (ρ - (D - b * b)).val := ⟨_, rfl⟩
  obtain ⟨σ, hσ⟩ : ∃ σ, σ = CMath.sqrt (ρ - (D - b * b)) := ⟨_, rfl⟩
  rw [← hσ] at f1 hsr ⊢
  rw [← hq] at hq0 hsr eq bq
  rw [abs_of_nonneg hq0] at bq
  have hM0 : 0 ≤ M := le_trans (sq_nonneg B) hBM
  have hB0 : 0 ≤ B := (kb.approx fb).2.mag_nonneg
  have hm0 := Real.sqrt_nonneg M
  have hm := Real.sq_sqrt hM0
  have hBm : B ≤ Real.sqrt M := Real.le_sqrt_of_sq_le hBM
  obtain ⟨m, hmd⟩ : ∃ m, m = Real.sqrt M := ⟨_, rfl⟩
  rw [← hmd] at hm0 hm hBm
  obtain ⟨y, hy⟩ : ∃ y, y = 1 + F.u := ⟨_, rfl⟩
  rw [← hy] at hroom eb bb eq bq ⊢
  have hy1 : 1 ≤ y := by linarith
  have p5 : 1 ≤ y ^ 5 := one_le_pow₀ hy1
  have ebm : |b.val - A| ≤ (y ^ 5 - 1) * m := by
    rw [abs_le]
    have := mul_le_mul_of_nonneg_left hBm (by linarith : 0 ≤ y ^ 5 - 1)
    exact ⟨by linarith only [this, eb.1], by linarith only [this, eb.2]⟩
  have bbm : |b.val| ≤ y ^ 5 * m := bb.trans (mul_le_mul_of_nonneg_left hBm (by linarith))
  have hσle : |σ.val| ≤ y ^ 8 * m := by
    have k1 : Real.sqrt q ≤ y ^ 7 * m := by
      apply Real.sqrt_le_iff.2
      refine ⟨by positivity, ?_⟩
      have : y ^ 13 * M ≤ y ^ 14 * M := mul_le_mul_of_nonneg_right (pow_le_pow_right₀ hy1 (by norm_num)) hM0
      have e : (y ^ 7 * m) ^ 2 = y ^ 14 * M := by rw [← hm]; ring
      rw [e]; linarith only [this, bq]
    have k2 : |σ.val| ≤ y * Real.sqrt q := by
      have := abs_add_le (σ.val - Real.sqrt q) (Real.sqrt q)
      rw [sub_add_cancel, abs_of_nonneg (Real.sqrt_nonneg q)] at this
      rw [hy]; linarith only [this, hsr]
    calc _ ≤ y * Real.sqrt q := k2
      _ ≤ y * (y ^ 7 * m) := mul_le_mul_of_nonneg_left k1 (by linarith)
      _ = _ := by ring
  have hfit : |b.val| + |σ.val| ≤ F.maxFinite := by
    have k1 : y ^ 5 * m ≤ y ^ 13 * m := mul_le_mul_of_nonneg_right (pow_le_pow_right₀ hy1 (by norm_num)) hm0
    have k2 : y ^ 8 * m ≤ y ^ 13 * m := mul_le_mul_of_nonneg_right (pow_le_pow_right₀ hy1 (by norm_num)) hm0
    have k3 : 2 * m ≤ M + 1 := by nlinarith only [sq_nonneg (m - 1), hm]
    have k4 := mul_le_mul_of_nonneg_left k3 (by positivity : 0 ≤ y ^ 13)
    linarith only [k1, k2, k4, hroom, bbm, hσle]
  have hor : -((y ^ 5 - 1) * B) ≤ A ∨ -((y ^ 13 - 1) * M) ≤ R - S := by
    by_cases c : b < 0
    · right
      have c3 : D.val ≤ ρ.val := not_lt.1 fun h => c1 ⟨c, lD.2 h⟩
      rw [hy]
      linarith only [m1, eD.1, eD.2, eρ.1, eρ.2, c3]
    · left
      have c3 : 0 ≤ b.val := not_lt.1 fun h => c (lb.2 h)
      linarith only [eb.1, eb.2, c3]
  have hdisc' : -((y ^ 13 - 1) * M) ≤ R - (S - A ^ 2) := by
    rw [hy]
    linarith only [m2, ep.1, ep.2, eρ.1, eρ.2, c2']
  rw [if_neg c1, if_neg c2]
  have key : ∀ t' : Fp F, (t' = b - σ ∨ t' = b + σ) → t'.Finite ∧ |(t'.val - A) ^ 2 - (R - (S - A ^ 2))| ≤ (y ^ 36 - 1) * M := by
    intro t' ht'
    rcases ht' with rfl | rfl
    · obtain ⟨g1, g2⟩ := Fp.sub_fin h0 fb f1 (le_trans (abs_sub _ _) hfit)
      have g3 := ((Fp.rep_val fb).grid.add (Fp.rep_val f1).grid.neg).rnd_err
      rw [← sub_eq_add_neg, ← g2, sub_eq_add_neg] at g3
      exact ⟨g1, resid hu.le hy hm0 hm ebm bbm eq hq0 bq hsr (Or.inr rfl) g3⟩
    · obtain ⟨g1, g2⟩ := Fp.add_fin h0 fb f1 (le_trans (abs_add_le _ _) hfit)
      have g3 := ((Fp.rep_val fb).grid.add (Fp.rep_val f1).grid).rnd_err
      rw [← g2] at g3
      exact ⟨g1, resid hu.le hy hm0 hm ebm bbm eq hq0 bq hsr (Or.inl rfl) g3⟩
  have hE0 : 0 ≤ ((1 + F.u) ^ 13 - 1) * M := mul_nonneg hg hM0
  have hqd : -((y ^ 13 - 1) * M) ≤ q - (R - (S - A ^ 2)) ∧ q - (R - (S - A ^ 2)) ≤ (y ^ 13 - 1) * M := abs_le.1 eq
  have hbA : -((y ^ 13 - 1) * M) ≤ b.val ^ 2 - A ^ 2 ∧ b.val ^ 2 - A ^ 2 ≤ (y ^ 13 - 1) * M := by
    rw [← abs_le]
    have h1 : |b.val + A| ≤ (y ^ 5 + 1) * B := (abs_add_le _ _).trans (by have := (kb.approx fb).2.mag; linarith only [this, bb])
    have h2 : |b.val - A| ≤ (y ^ 5 - 1) * B := abs_le.2 eb
    have h3 : (y ^ 10 - 1) * B ^ 2 ≤ (y ^ 13 - 1) * M :=
      mul_le_mul (by linarith only [pow_le_pow_right₀ hy1 (by norm_num : 10 ≤ 13)]) hBM (sq_nonneg _) (by linarith only [one_le_pow₀ (n := 13) hy1])
    calc _ = |b.val + A| * |b.val - A| := by rw [← abs_mul]; congr 1; ring
      _ ≤ (y ^ 5 + 1) * B * ((y ^ 5 - 1) * B) := mul_le_mul h1 h2 (abs_nonneg _) (by positivity)
      _ = (y ^ 10 - 1) * B ^ 2 := by ring
      _ ≤ _ := h3
  have hσ0 : 0 ≤ σ.val := by
    rw [hσ, f2]; exact rnd_nonneg (Real.sqrt_nonneg _)
  by_cases c3 : ρ < D
  · rw [if_pos c3]
    obtain ⟨k1, k2⟩ := key _ (Or.inl rfl)
    refine ⟨_, rfl, hdisc', hor, k1, k2, fun _ => ?_, fun h => ?_, fun h => ?_, fun h => ?_⟩
    · have := rnd_le_rep (Fp.rep_val fb) (by linarith only [hσ0] : b.val - σ.val ≤ b.val)
      rw [(Fp.sub_finite k1).2.2]
      linarith only [this, eb.2]
    · have c3 := lD.1 c3
      rw [hy] at h
      linarith only [m1, eD.1, eD.2, eρ.1, eρ.2, c3, h]
    · have c4 : 0 ≤ b.val := not_lt.1 fun g => c1 ⟨lb.2 g, c3⟩
      have c5 : q ≤ b.val ^ 2 := by linarith only [h, hbA.1, hqd.2]
      have c6 := rnd_le_rep (Fp.rep_val fb) (Real.sqrt_le_iff.2 ⟨c4, c5⟩)
      rw [(Fp.sub_finite k1).2.2]
      refine rnd_nonneg ?_
      rw [hσ, f2, ← hq]; linarith only [c6]
    · have c3 := lD.1 c3
      rw [hy] at h
      linarith only [m1, eD.1, eD.2, eρ.1, eρ.2, c3, h, hE0]
  · rw [if_neg c3]
    obtain ⟨k1, k2⟩ := key _ (Or.inr rfl)
    refine ⟨_, rfl, hdisc', hor, k1, k2, fun h => ?_, fun _ => ?_, fun h => ?_, fun h => ?_⟩
    · have c3 : D.val ≤ ρ.val := not_lt.1 fun h => c3 (lD.2 h)
      rw [hy] at h
      linarith only [m1, eD.1, eD.2, eρ.1, eρ.2, c3, h]
    · have := rep_le_rnd (Fp.rep_val fb) (by linarith only [hσ0] : b.val ≤ b.val + σ.val)
      rw [(Fp.add_finite k1).2.2]
      linarith only [this, eb.1]
    · have c3 : D.val ≤ ρ.val := not_lt.1 fun h => c3 (lD.2 h)
      rw [hy] at h
      linarith only [m1, eD.1, eD.2, eρ.1, eρ.2, c3, h, hE0]
    · have c5 : (-b.val) ^ 2 ≤ q := by linarith only [h, hbA.2, hqd.1]
      have c6 := rep_le_rnd (by rw [← Fp.val_neg]; exact Fp.rep_val (Fp.finite_neg fb)) (Real.le_sqrt_of_sq_le c5)
      rw [(Fp.add_finite k1).2.2]
      refine rnd_nonneg ?_
      rw [hσ, f2, ← hq]; linarith only [c6]

/-- **C121** A reported hit in IEEE arithmetic: for a ray and a sphere without infinities and NaN for which the terms of the discriminant fit in the format, the returned
parameter is finite, and the point of the ray at this parameter lies on the sphere: its squared distance from the centre is the squared radius up to about `36 u` times
the magnitude of the terms, and up to the deviation of the stored direction from unit length. -/
theorem C121_hit (hp : F.p < F.emax) (cfg : Cfg) (ray : Ray (Fp F)) (s : Vec 4 (Fp F)) (t t' : Fp F) (ho : Spec.VFinite ray.origin)
    (hd : Spec.VFinite ray.direction) (hs : Spec.VFinite s) (hroom : Spec.grow F 13 (Spec.rayMag ray s + 1) ≤ F.maxFinite)
    (h : ray.testSphere cfg s t = .ok (true, t')) :
    t'.Finite ∧ |Spec.rayPoint ray s t'.val - s[3].val ^ 2| ≤ Spec.fpErr F 36 * Spec.rayMag ray s + t'.val ^ 2 * |Spec.rayNorm ray - 1| := by
  rcases outcome hp cfg ray s t ho hd hs hroom with ⟨h1, -⟩ | ⟨t2, h1, -, -, h2, h3, -⟩
  · rw [h] at h1; cases h1
  rw [h] at h1
  obtain rfl : t' = t2 := by cases h1; rfl
  refine ⟨h2, ?_⟩
  rw [point_eq]
  calc _ = |((t'.val - Spec.rayProj ray s) ^ 2 - (s[3].val ^ 2 - (Spec.raySq ray s - Spec.rayProj ray s ^ 2))) + t'.val ^ 2 * (Spec.rayNorm ray - 1)| := by
        congr 1; ring
    _ ≤ _ := abs_add_le _ _
    _ ≤ _ := by
        rw [abs_mul, abs_of_nonneg (sq_nonneg t'.val)]
        linarith

/-- **C121** Which of the two intersections is reported: if the origin is outside the sphere (by more than the rounding error of the comparison) it is the one where the ray enters, at a parameter
not beyond the projection of the centre; if the origin is inside it is the one where the ray leaves, not before the projection of the centre; up to the rounding error of the projection. -/
theorem C121_which (hp : F.p < F.emax) (cfg : Cfg) (ray : Ray (Fp F)) (s : Vec 4 (Fp F)) (t t' : Fp F) (ho : Spec.VFinite ray.origin)
    (hd : Spec.VFinite ray.direction) (hs : Spec.VFinite s) (hroom : Spec.grow F 13 (Spec.rayMag ray s + 1) ≤ F.maxFinite)
    (h : ray.testSphere cfg s t = .ok (true, t')) :
    (s[3].val ^ 2 + Spec.fpErr F 13 * Spec.rayMag ray s < Spec.rayPoint ray s 0 → t'.val ≤ Spec.rayProj ray s + Spec.fpErr F 5 * Spec.rayProjMag ray s) ∧
    (Spec.rayPoint ray s 0 + Spec.fpErr F 13 * Spec.rayMag ray s < s[3].val ^ 2 → Spec.rayProj ray s - Spec.fpErr F 5 * Spec.rayProjMag ray s ≤ t'.val) := by
  rcases outcome hp cfg ray s t ho hd hs hroom with ⟨h1, -⟩ | ⟨t2, h1, -, -, -, -, h2, h3, -⟩
  · rw [h] at h1; cases h1
  rw [h] at h1
  obtain rfl : t' = t2 := by cases h1; rfl
  have e : Spec.rayPoint ray s 0 = Spec.raySq ray s := by unfold Spec.rayPoint Spec.raySq; ring
  rw [e]
  exact ⟨h2, h3⟩

/-- **C121** A reported parameter is never negative, not even by a rounding error, unless the origin is as close to the sphere as the rounding error of two comparisons. -/
theorem C121_forward (hp : F.p < F.emax) (cfg : Cfg) (ray : Ray (Fp F)) (s : Vec 4 (Fp F)) (t t' : Fp F) (ho : Spec.VFinite ray.origin)
    (hd : Spec.VFinite ray.direction) (hs : Spec.VFinite s) (hroom : Spec.grow F 13 (Spec.rayMag ray s + 1) ≤ F.maxFinite)
    (h : ray.testSphere cfg s t = .ok (true, t')) (hfar : (2 : ℝ) * (Spec.fpErr F 13 * Spec.rayMag ray s) < |Spec.rayPoint ray s 0 - s[3].val ^ 2|) : 0 ≤ t'.val := by
  rcases outcome hp cfg ray s t ho hd hs hroom with ⟨h1, -⟩ | ⟨t2, h1, -, -, -, -, -, -, h2, h3⟩
  · rw [h] at h1; cases h1
  rw [h] at h1
  obtain rfl : t' = t2 := by cases h1; rfl
  have e : Spec.rayPoint ray s 0 = Spec.raySq ray s := by unfold Spec.rayPoint Spec.raySq; ring
  rw [e] at hfar
  rcases lt_abs.1 hfar with h | h
  · exact h2 (by linarith)
  · exact h3 (by linarith)

/-- **C121** A reported miss in IEEE arithmetic: `t` is unchanged, and no point of the ray is inside the sphere by more than the rounding errors: at every parameter
`τ ≥ 0` the squared distance from the centre is at least the squared radius up to about `13 u` times the magnitude of the terms, `10 u τ` times the magnitude of the
projection, and the deviation of the stored direction from unit length. The test always returns a hit or a miss. -/
theorem C121_miss (hp : F.p < F.emax) (cfg : Cfg) (ray : Ray (Fp F)) (s : Vec 4 (Fp F)) (t : Fp F) (ho : Spec.VFinite ray.origin)
    (hd : Spec.VFinite ray.direction) (hs : Spec.VFinite s) (hroom : Spec.grow F 13 (Spec.rayMag ray s + 1) ≤ F.maxFinite) :
    ∃ hit t', ray.testSphere cfg s t = .ok (hit, t') ∧ (hit = false → t' = t ∧ ∀ τ, 0 ≤ τ →
      s[3].val ^ 2 - (Spec.fpErr F 13 * Spec.rayMag ray s + 2 * τ * (Spec.fpErr F 5 * Spec.rayProjMag ray s) + τ ^ 2 * |Spec.rayNorm ray - 1|) <
        Spec.rayPoint ray s τ) := by
  rcases outcome hp cfg ray s t ho hd hs hroom with ⟨h1, h2⟩ | ⟨t2, h1, -⟩
  · refine ⟨_, _, h1, fun _ => ⟨rfl, fun τ hτ => ?_⟩⟩
    have hEb : 0 ≤ Spec.fpErr F 5 * Spec.rayProjMag ray s := by
      apply mul_nonneg
      · unfold Spec.fpErr
        linarith [one_le_pow₀ (n := 5) (by linarith [F.u_pos] : (1 : ℝ) ≤ 1 + F.u)]
      · unfold Spec.rayProjMag
        have := F.tiny_pos
        positivity
    have hn : τ ^ 2 * (Spec.rayNorm ray - 1) ≥ -(τ ^ 2 * |Spec.rayNorm ray - 1|) := by
      have := mul_le_mul_of_nonneg_left (neg_abs_le (Spec.rayNorm ray - 1)) (sq_nonneg τ)
      linarith
    have hτE := mul_nonneg hτ hEb
    rcases h2 with h2 | ⟨h2, h3⟩
    · rw [point_eq]
      linarith only [sq_nonneg (τ - Spec.rayProj ray s), h2, hn, hτE]
    · rw [point_eq]
      have h4 := mul_le_mul_of_nonneg_left h2.le hτ
      have e : (τ - Spec.rayProj ray s) ^ 2 = τ ^ 2 - 2 * (τ * Spec.rayProj ray s) + Spec.rayProj ray s ^ 2 := by ring
      linarith only [e, h4, h3, hn, sq_nonneg τ]
  · exact ⟨_, _, h1, fun h => by cases h⟩

/-- **C121** The stored direction: for a direction whose squared length is in the normal range and does not overflow, the constructor stores the origin and a finite
direction, each component of which is that of the exact unit vector up to a few `u`, and whose squared length deviates from 1 by at most `( 1 + k )² - 1` with `k` about
`( 2 * 3 + 3 ) u`. -/
theorem C121_direction (hp : F.p < F.emax) (h5 : 5 ≤ F.emax) (cfg : Cfg) (o d : Vec 3 (Fp F)) (hM : (3 : ℕ) * F.u < 1) (hε : Spec.flenErr F 3 ≤ 1 / 2)
    (hd : Spec.VFinite d) (hlo : (2 : ℝ) ^ F.emin ≤ ∑ i : Fin 3, d[i].val ^ 2)
    (hhi : ∑ i : Fin 3, d[i].val ^ 2 + (3 : ℕ) * F.eta ≤ (1 - (3 : ℕ) * F.u) * F.maxFinite) :
    ∃ ray, Ray.ctor cfg o d = .ok ray ∧ ray.origin = o ∧ Spec.VFinite ray.direction ∧
      (∀ i : Fin 3, |ray.direction[i].val - d[i].val / Spec.flen d| ≤
        ((1 + F.u) ^ 2 / (1 - Spec.flenErr F 3) - 1) * |d[i].val / Spec.flen d| + F.eta) ∧
      |Spec.rayNorm ray - 1| ≤ (1 + ((1 + F.u) ^ 2 / (1 - Spec.flenErr F 3) - 1 + Real.sqrt 3 * F.eta)) ^ 2 - 1 := by
  obtain ⟨w, len, h1, -, h2⟩ := C109_normalize hp h5 cfg d hM hε hd hlo hhi
  have hu := F.u_pos
  have hε0 : 0 ≤ Spec.flenErr F 3 := by
    unfold Spec.flenErr
    have hg : 0 ≤ Spec.gamma F.u 3 := by
      unfold Spec.gamma
      exact div_nonneg (by positivity) (by linarith)
    linarith only [hg, hu, mul_nonneg hu.le hg]
  obtain ⟨κ, hκ⟩ : ∃ κ, κ = (1 + F.u) ^ 2 / (1 - Spec.flenErr F 3) - 1 := ⟨_, rfl⟩
  have hκ0 : 0 ≤ κ := by
    rw [hκ, sub_nonneg, le_div_iff₀ (by linarith)]
    nlinarith
  rw [← hκ] at h2 ⊢
  refine ⟨⟨o, w⟩, by unfold Ray.ctor; rw [h1]; rfl, rfl, fun i => (h2 i).1, fun i => (h2 i).2, ?_⟩
  have hc := norm_close (fun i : Fin 3 => w[i].val) (fun i => d[i].val / Spec.flen d) κ F.eta hκ0 F.eta_pos.le fun i => (h2 i).2
  have hS : 0 < ∑ i : Fin 3, d[i].val ^ 2 := lt_of_lt_of_le (by positivity) hlo
  have hone : ∑ i : Fin 3, (d[i].val / Spec.flen d) ^ 2 = 1 := by
    simp only [div_pow]
    rw [← Finset.sum_div]
    unfold Spec.flen
    rw [Real.sq_sqrt hS.le, div_self hS.ne']
  rw [hone, Real.sqrt_one, mul_one] at hc
  obtain ⟨k, hk⟩ : ∃ k, k = κ + Real.sqrt 3 * F.eta := ⟨_, rfl⟩
  have hk0 : 0 ≤ k := by rw [hk]; have := F.eta_pos; positivity
  have hN : Spec.rayNorm (⟨o, w⟩ : Ray (Fp F)) = ∑ i : Fin 3, w[i].val ^ 2 := by
    rw [Fin.sum_univ_three]; rfl
  rw [hN, ← hk]
  push_cast at hc
  rw [← hk] at hc
  obtain ⟨S, hSd⟩ : ∃ S, S = ∑ i : Fin 3, w[i].val ^ 2 := ⟨_, rfl⟩
  rw [← hSd] at hc ⊢
  have hS0 : 0 ≤ S := by rw [hSd]; exact Finset.sum_nonneg fun i _ => sq_nonneg _
  have hn := Real.sq_sqrt hS0
  have hn0 := Real.sqrt_nonneg S
  obtain ⟨n, hnd⟩ : ∃ n, n = Real.sqrt S := ⟨_, rfl⟩
  rw [← hnd] at hn hn0 hc
  rw [← hn]
  rw [abs_le] at hc ⊢
  constructor <;> nlinarith only [hc.1, hc.2, hn0, hk0]

/-! ## What fails -/

private theorem nan_add (a : Fp F) : .nan + a = .nan := rfl
private theorem add_nan (a : Fp F) : a + .nan = .nan := by cases a <;> rfl
private theorem nan_mul (a : Fp F) : .nan * a = .nan := rfl
private theorem nan_sub (a : Fp F) : .nan - a = .nan := rfl
private theorem sub_nan (a : Fp F) : a - .nan = .nan := by cases a <;> rfl

private theorem hit_nan (cfg : Cfg) (ray : Ray (Fp F)) (s : Vec 4 (Fp F)) (t b D ρ : Fp F)
    (hb : dot3 (toC ray.origin s) ray.direction = b) (hD : dot3 (toC ray.origin s) (toC ray.origin s) = D) (hρ : s[3] * s[3] = ρ)
    (h1 : ¬ (b < 0 ∧ ρ < D)) (h2 : D - b * b = .nan ∨ ρ = .nan) : ray.testSphere cfg s t = .ok (true, .nan) := by
  have hq : ρ - (D - b * b) = .nan := by
    rcases h2 with h | h
    · rw [h, sub_nan]
    · rw [h, nan_sub]
  have hl : ¬ ρ < D - b * b := by
    rcases h2 with h | h
    · rw [h]; exact Fp.not_lt_nan_right _
    · rw [h]; exact Fp.not_lt_nan_left _
  have hs : CMath.sqrt (.nan : Fp F) = .nan := rfl
  rw [test_closed cfg ray s t b D ρ hb hD hρ, if_neg h1, if_neg hl, hq, hs, sub_nan, add_nan, ite_self]

/-- **C121** (refuted part) A sphere with a NaN among its centre and radius is reported as hit by every ray, at parameter NaN. -/
theorem C121_nan_violated (cfg : Cfg) (ray : Ray (Fp F)) (s : Vec 4 (Fp F)) (t : Fp F) (i : Fin 4) (hi : s[i] = .nan) :
    ray.testSphere cfg s t = .ok (true, .nan) := by
  have key : (dot3 (toC ray.origin s) ray.direction = .nan ∧ dot3 (toC ray.origin s) (toC ray.origin s) = .nan) ∨ s[3] * s[3] = .nan := by
    match i, hi with
    | 0, hi =>
      have hi : s[0] = .nan := hi
      left
      constructor <;> simp [dot3, toC, hi, nan_sub, nan_mul, add_nan, nan_add]
    | 1, hi =>
      have hi : s[1] = .nan := hi
      left
      constructor <;> simp [dot3, toC, hi, nan_sub, nan_mul, add_nan, nan_add]
    | 2, hi =>
      have hi : s[2] = .nan := hi
      left
      constructor <;> simp [dot3, toC, hi, nan_sub, nan_mul, add_nan]
    | 3, hi =>
      have hi : s[3] = .nan := hi
      right
      rw [hi, nan_mul]
  rcases key with ⟨h1, h2⟩ | h3
  · refine hit_nan cfg ray s t _ _ _ h1 h2 rfl (fun h => Fp.not_lt_nan_left _ h.1) (Or.inl ?_)
    rw [nan_sub]
  · exact hit_nan cfg ray s t _ _ _ rfl rfl h3 (fun h => Fp.not_lt_nan_left _ h.2) (Or.inr rfl)

/-- **C121** (refuted part) Overflow: for every `k` with `emax < 2 k`, `k < emax` (`k = 64` in `float`) the sphere of radius 1 around `( 2^k, 2^k, 0 )` is reported as hit,
at parameter NaN, by the ray from the origin along the `x` axis, whose points are all at least `2^k` from the centre. Every input is finite. -/
theorem C121_overflow_violated (k : ℕ) (hk1 : F.emax < 2 * k) (hk2 : k < F.emax) (cfg : Cfg) (t : Fp F) :
    ∃ (ray : Ray (Fp F)) (s : Vec 4 (Fp F)), Spec.VFinite ray.origin ∧ Spec.VFinite ray.direction ∧ Spec.VFinite s ∧ Spec.rayNorm ray = 1 ∧ s[3].val = 1 ∧
      (∀ τ, ((2 : ℝ) ^ k) ^ 2 ≤ Spec.rayPoint ray s τ) ∧ ray.testSphere cfg s t = .ok (true, .nan) := by
  have h0 : 0 < F.emax := by omega
  have hmax : (2 : ℝ) ^ k ≤ F.maxFinite := by
    refine le_trans ?_ pow_emax_le
    rw [← zpow_natCast]
    exact zpow_le_zpow_right₀ (by norm_num) (by omega)
  have rk : F.Rep ((2 : ℝ) ^ k) := by rw [← zpow_natCast]; exact rep_pow (by unfold emin; omega)
  have h1max := one_le_max (F := F) h0
  have hpos : (0 : ℝ) < (2 : ℝ) ^ k := by positivity
  let e : Fp F := .fin false ((2 : ℝ) ^ k) ⟨hpos.le, rk, hmax⟩
  have ie : Fp.Is e ((2 : ℝ) ^ k) := ⟨trivial, rfl⟩
  have i1 : Fp.Is (1 : Fp F) 1 := Fp.one_fin h0
  have i0 : Fp.Is (0 : Fp F) 0 := Fp.Is.zero
  have r1 : F.Rep 1 := by rw [← i1.2]; exact Fp.rep_val i1.1
  have mx : ∀ {x : ℝ}, 0 ≤ x → x ≤ (2 : ℝ) ^ k → |x| ≤ F.maxFinite := fun h h' => by rw [abs_of_nonneg h]; linarith
  let ray : Ray (Fp F) := ⟨#v[0, 0, 0], #v[1, 0, 0]⟩
  let s : Vec 4 (Fp F) := #v[e, e, 0, 1]
  have o0 : ray.origin[0] = 0 := rfl
  have o1 : ray.origin[1] = 0 := rfl
  have o2 : ray.origin[2] = 0 := rfl
  have d0 : ray.direction[0] = 1 := rfl
  have d1 : ray.direction[1] = 0 := rfl
  have d2 : ray.direction[2] = 0 := rfl
  have s0 : s[0] = e := rfl
  have s1 : s[1] = e := rfl
  have s2 : s[2] = 0 := rfl
  have s3 : s[3] = 1 := rfl
  have v0 : Fp.Is (e - 0 : Fp F) ((2 : ℝ) ^ k) := ie.sub h0 i0 (by rw [sub_zero]; exact rk.rnd_eq) (by rw [sub_zero]; exact mx hpos.le le_rfl)
  have z0 : Fp.Is (0 - 0 : Fp F) 0 := i0.sub h0 i0 (by rw [sub_zero]; exact rnd_zero) (by rw [sub_zero]; exact mx le_rfl hpos.le)
  have m0 : Fp.Is ((e - 0) * 1 : Fp F) ((2 : ℝ) ^ k) := v0.mul h0 i1 (by rw [mul_one]; exact rk.rnd_eq) (by rw [mul_one]; exact mx hpos.le le_rfl)
  have m1 : Fp.Is ((e - 0) * 0 : Fp F) 0 := v0.mul h0 i0 (by rw [mul_zero]; exact rnd_zero) (by rw [mul_zero]; exact mx le_rfl hpos.le)
  have m2 : Fp.Is ((0 - 0) * 0 : Fp F) 0 := z0.mul h0 i0 (by rw [mul_zero]; exact rnd_zero) (by rw [mul_zero]; exact mx le_rfl hpos.le)
  have a0 : Fp.Is (0 + (e - 0) * 1 : Fp F) ((2 : ℝ) ^ k) := i0.add h0 m0 (by rw [zero_add]; exact rk.rnd_eq) (by rw [zero_add]; exact mx hpos.le le_rfl)
  have a1 : Fp.Is (0 + (e - 0) * 1 + (e - 0) * 0 : Fp F) ((2 : ℝ) ^ k) := a0.add h0 m1 (by rw [add_zero]; exact rk.rnd_eq) (by rw [add_zero]; exact mx hpos.le le_rfl)
  have a2 : Fp.Is (0 + (e - 0) * 1 + (e - 0) * 0 + (0 - 0) * 0 : Fp F) ((2 : ℝ) ^ k) :=
    a1.add h0 m2 (by rw [add_zero]; exact rk.rnd_eq) (by rw [add_zero]; exact mx hpos.le le_rfl)
  obtain ⟨b, hb⟩ : ∃ b, dot3 (toC ray.origin s) ray.direction = b := ⟨_, rfl⟩
  have hb' : b = 0 + (e - 0) * 1 + (e - 0) * 0 + (0 - 0) * 0 := by rw [← hb]; rfl
  have ib : Fp.Is b ((2 : ℝ) ^ k) := by rw [hb']; exact a2
  have big : ∀ a : Fp F, Fp.Is a ((2 : ℝ) ^ k) → a * a = .inf false := by
    intro a ha
    obtain ⟨σ, m, hm, rfl⟩ := Fp.finite_cases ha.1
    have hmv : m = (2 : ℝ) ^ k := by
      have hv : (if σ then -m else m) = (2 : ℝ) ^ k := ha.2
      cases σ
      · simpa using hv
      · simp only [if_true] at hv
        have := hm.1
        linarith
    show Fp.round (σ ^^ σ) (m * m) = _
    rw [Bool.xor_self]
    apply Fp.round_inf
    have e2 : m * m = (2 : ℝ) ^ ((2 * k : ℕ) : Int) := by rw [hmv, zpow_natCast]; ring
    have r2 : F.Rep (m * m) := by rw [e2]; exact rep_pow (by unfold emin; omega)
    rw [r2.rnd_eq, e2]
    refine lt_of_lt_of_le maxFinite_lt ?_
    exact zpow_le_zpow_right₀ (by norm_num) (by push_cast; omega)
  have hDe : dot3 (toC ray.origin s) (toC ray.origin s) = .inf false := by
    have : dot3 (toC ray.origin s) (toC ray.origin s) = (0 : Fp F) + (e - 0) * (e - 0) + (e - 0) * (e - 0) + (0 - 0) * (0 - 0) := rfl
    rw [this, big _ v0]
    have z : Fp.Is ((0 - 0) * (0 - 0) : Fp F) 0 := z0.mul h0 z0 (by rw [mul_zero]; exact rnd_zero) (by rw [mul_zero]; exact mx le_rfl hpos.le)
    obtain ⟨σ, m, hm, hz⟩ := Fp.finite_cases z.1
    rw [hz]
    rfl
  refine ⟨ray, s, ?_, ?_, ?_, ?_, ?_, ?_, ?_⟩
  · intro i; fin_cases i <;> exact i0.1
  · intro i
    fin_cases i
    · exact i1.1
    · exact i0.1
    · exact i0.1
  · intro i
    fin_cases i
    · exact ie.1
    · exact ie.1
    · exact i0.1
    · exact i1.1
  · unfold Spec.rayNorm
    rw [d0, d1, d2, i1.2, i0.2]; norm_num
  · rw [s3]; exact i1.2
  · intro τ
    unfold Spec.rayPoint
    rw [o0, o1, o2, d0, d1, d2, s0, s1, s2, i0.2, i1.2, ie.2]
    nlinarith [sq_nonneg (0 + τ * 1 - (2 : ℝ) ^ k)]
  · refine hit_nan cfg ray s t b _ _ hb hDe rfl (fun h => ?_) (Or.inl ?_)
    · have := (Fp.lt_val ib.1 i0.1).1 h.1
      rw [ib.2, i0.2] at this
      linarith
    · rw [big b ib]; rfl

/-- **C121** (refuted part) Cancellation: for every `k` with `p + 5 ≤ 2 k < emax` (`k = 14` in `float`, `k = 29` in `double`) the sphere of radius 1 around `( 2^k, 2, 0 )` is
reported as hit by the ray from the origin along the `x` axis, whose points are all at least 2 from the centre: the test subtracts two numbers of the size of the squared
distance, so the radius is lost. -/
theorem C121_far_violated (k : ℕ) (hk1 : F.p + 5 ≤ 2 * k) (hk2 : 2 * k < F.emax) (cfg : Cfg) (t : Fp F) :
    ∃ (ray : Ray (Fp F)) (s : Vec 4 (Fp F)), Spec.VFinite ray.origin ∧ Spec.VFinite ray.direction ∧ Spec.VFinite s ∧ Spec.rayNorm ray = 1 ∧ s[3].val = 1 ∧
      (∀ τ, 4 ≤ Spec.rayPoint ray s τ) ∧ ∃ t', t'.Finite ∧ ray.testSphere cfg s t = .ok (true, t') := by
  have h0 : 0 < F.emax := by omega
  have hmax : (2 : ℝ) ^ (2 * k) ≤ F.maxFinite := by
    refine le_trans ?_ pow_emax_le
    rw [← zpow_natCast]
    exact zpow_le_zpow_right₀ (by norm_num) (by push_cast; omega)
  have rk : F.Rep ((2 : ℝ) ^ k) := by rw [← zpow_natCast]; exact rep_pow (by unfold emin; omega)
  have rkk : F.Rep ((2 : ℝ) ^ (2 * k)) := by rw [← zpow_natCast]; exact rep_pow (by unfold emin; omega)
  have r2 : F.Rep 2 := by simpa using rep_pow (F := F) (e := 1) (by unfold emin; omega)
  have r4 : F.Rep 4 := by
    have := rep_pow (F := F) (e := 2) (by unfold emin; omega)
    norm_num at this ⊢
    exact this
  have hpos : (0 : ℝ) < (2 : ℝ) ^ k := by positivity
  have hk5 : (2 : ℝ) ^ 5 ≤ (2 : ℝ) ^ (2 * k) := pow_le_pow_right₀ (by norm_num) (by omega)
  have hkk : (2 : ℝ) ^ k * (2 : ℝ) ^ k = (2 : ℝ) ^ (2 * k) := by rw [← pow_add]; congr 1; ring
  have hkle : (2 : ℝ) ^ k ≤ (2 : ℝ) ^ (2 * k) := pow_le_pow_right₀ (by norm_num) (by omega)
  let e : Fp F := .fin false ((2 : ℝ) ^ k) ⟨hpos.le, rk, hkle.trans hmax⟩
  have mx : ∀ {x : ℝ}, 0 ≤ x → x ≤ (2 : ℝ) ^ (2 * k) → |x| ≤ F.maxFinite := fun h h' => by rw [abs_of_nonneg h]; linarith
  let w : Fp F := .fin false 2 ⟨by norm_num, r2, by linarith⟩
  have ie : Fp.Is e ((2 : ℝ) ^ k) := ⟨trivial, rfl⟩
  have iw : Fp.Is w 2 := ⟨trivial, rfl⟩
  have i1 : Fp.Is (1 : Fp F) 1 := Fp.one_fin h0
  have i0 : Fp.Is (0 : Fp F) 0 := Fp.Is.zero
  have r1 : F.Rep 1 := by rw [← i1.2]; exact Fp.rep_val i1.1
  let ray : Ray (Fp F) := ⟨#v[0, 0, 0], #v[1, 0, 0]⟩
  let s : Vec 4 (Fp F) := #v[e, w, 0, 1]
  have o0 : ray.origin[0] = 0 := rfl
  have o1 : ray.origin[1] = 0 := rfl
  have o2 : ray.origin[2] = 0 := rfl
  have d0 : ray.direction[0] = 1 := rfl
  have d1 : ray.direction[1] = 0 := rfl
  have d2 : ray.direction[2] = 0 := rfl
  have s0 : s[0] = e := rfl
  have s1 : s[1] = w := rfl
  have s2 : s[2] = 0 := rfl
  have s3 : s[3] = 1 := rfl
  have v0 : Fp.Is (e - 0 : Fp F) ((2 : ℝ) ^ k) := ie.sub h0 i0 (by rw [sub_zero]; exact rk.rnd_eq) (by rw [sub_zero]; exact mx hpos.le hkle)
  have v1 : Fp.Is (w - 0 : Fp F) 2 := iw.sub h0 i0 (by rw [sub_zero]; exact r2.rnd_eq) (by rw [sub_zero]; exact mx (by norm_num) (by linarith))
  have z0 : Fp.Is (0 - 0 : Fp F) 0 := i0.sub h0 i0 (by rw [sub_zero]; exact rnd_zero) (by rw [sub_zero]; exact mx le_rfl (by linarith))
  have m0 : Fp.Is ((e - 0) * 1 : Fp F) ((2 : ℝ) ^ k) := v0.mul h0 i1 (by rw [mul_one]; exact rk.rnd_eq) (by rw [mul_one]; exact mx hpos.le hkle)
  have m1 : Fp.Is ((w - 0) * 0 : Fp F) 0 := v1.mul h0 i0 (by rw [mul_zero]; exact rnd_zero) (by rw [mul_zero]; exact mx le_rfl (by linarith))
  have m2 : Fp.Is ((0 - 0) * 0 : Fp F) 0 := z0.mul h0 i0 (by rw [mul_zero]; exact rnd_zero) (by rw [mul_zero]; exact mx le_rfl (by linarith))
  have a0 : Fp.Is (0 + (e - 0) * 1 : Fp F) ((2 : ℝ) ^ k) := i0.add h0 m0 (by rw [zero_add]; exact rk.rnd_eq) (by rw [zero_add]; exact mx hpos.le hkle)
  have a1 : Fp.Is (0 + (e - 0) * 1 + (w - 0) * 0 : Fp F) ((2 : ℝ) ^ k) := a0.add h0 m1 (by rw [add_zero]; exact rk.rnd_eq) (by rw [add_zero]; exact mx hpos.le hkle)
  have a2 : Fp.Is (0 + (e - 0) * 1 + (w - 0) * 0 + (0 - 0) * 0 : Fp F) ((2 : ℝ) ^ k) :=
    a1.add h0 m2 (by rw [add_zero]; exact rk.rnd_eq) (by rw [add_zero]; exact mx hpos.le hkle)
  have n0 : Fp.Is ((e - 0) * (e - 0) : Fp F) ((2 : ℝ) ^ (2 * k)) := v0.mul h0 v0 (by rw [hkk]; exact rkk.rnd_eq) (by rw [hkk]; exact mx (by linarith) le_rfl)
  have n1 : Fp.Is ((w - 0) * (w - 0) : Fp F) 4 :=
    v1.mul h0 v1 (by rw [show (2 : ℝ) * 2 = 4 by norm_num]; exact r4.rnd_eq) (by rw [show (2 : ℝ) * 2 = 4 by norm_num]; exact mx (by norm_num) (by linarith))
  have n2 : Fp.Is ((0 - 0) * (0 - 0) : Fp F) 0 := z0.mul h0 z0 (by rw [mul_zero]; exact rnd_zero) (by rw [mul_zero]; exact mx le_rfl (by linarith))
  have c0 : Fp.Is (0 + (e - 0) * (e - 0) : Fp F) ((2 : ℝ) ^ (2 * k)) :=
    i0.add h0 n0 (by rw [zero_add]; exact rkk.rnd_eq) (by rw [zero_add]; exact mx (by linarith) le_rfl)
  have hmax4 : (2 : ℝ) ^ (2 * k) + 4 ≤ F.maxFinite := by
    have h1 : (2 : ℝ) ^ (2 * k + 1) ≤ F.maxFinite := by
      refine le_trans ?_ pow_emax_le
      rw [← zpow_natCast]
      exact zpow_le_zpow_right₀ (by norm_num) (by push_cast; omega)
    rw [pow_succ] at h1
    linarith
  have hab : F.rnd ((2 : ℝ) ^ (2 * k) + 4) = (2 : ℝ) ^ (2 * k) := by
    refine absorb rkk (by linarith) ?_
    rw [abs_of_pos (by norm_num)]
    have hu4 : F.u / 4 = (2 : ℝ) ^ (-(F.p + 3 : Int)) := by
      unfold u
      rw [zpow_neg, ← inv_zpow, show (F.p + 3 : Int) = ((F.p + 1 + 2 : ℕ) : Int) by push_cast; ring, zpow_natCast, pow_add _ (F.p + 1) 2]
      ring
    rw [hu4, ← zpow_natCast, ← zpow_add₀ (by norm_num)]
    calc (4 : ℝ) = (2 : ℝ) ^ (2 : Int) := by norm_num
      _ ≤ _ := zpow_le_zpow_right₀ (by norm_num) (by push_cast; omega)
  have c1 : Fp.Is (0 + (e - 0) * (e - 0) + (w - 0) * (w - 0) : Fp F) ((2 : ℝ) ^ (2 * k)) := c0.add h0 n1 hab (by rw [abs_of_pos (by linarith)]; exact hmax4)
  have c2 : Fp.Is (0 + (e - 0) * (e - 0) + (w - 0) * (w - 0) + (0 - 0) * (0 - 0) : Fp F) ((2 : ℝ) ^ (2 * k)) :=
    c1.add h0 n2 (by rw [add_zero]; exact rkk.rnd_eq) (by rw [add_zero]; exact mx (by linarith) le_rfl)
  obtain ⟨b, hb⟩ : ∃ b, dot3 (toC ray.origin s) ray.direction = b := ⟨_, rfl⟩
  obtain ⟨D, hD⟩ : ∃ D, dot3 (toC ray.origin s) (toC ray.origin s) = D := ⟨_, rfl⟩
  obtain ⟨ρ, hρ⟩ : ∃ ρ, s[3] * s[3] = ρ := ⟨_, rfl⟩
  have ib : Fp.Is b ((2 : ℝ) ^ k) := by rw [← hb]; exact a2
  have iD : Fp.Is D ((2 : ℝ) ^ (2 * k)) := by rw [← hD]; exact c2
  have iρ : Fp.Is ρ 1 := by
    rw [← hρ, s3]
    exact i1.mul h0 i1 (by rw [mul_one]; exact r1.rnd_eq) (by rw [mul_one]; exact mx (by norm_num) (by linarith))
  have ibb : Fp.Is (b * b) ((2 : ℝ) ^ (2 * k)) := ib.mul h0 ib (by rw [hkk]; exact rkk.rnd_eq) (by rw [hkk]; exact mx (by linarith) le_rfl)
  have ip : Fp.Is (D - b * b) 0 := iD.sub h0 ibb (by rw [sub_self]; exact rnd_zero) (by rw [sub_self]; exact mx le_rfl (by linarith))
  have iq : Fp.Is (ρ - (D - b * b)) 1 := iρ.sub h0 ip (by rw [sub_zero]; exact r1.rnd_eq) (by rw [sub_zero]; exact mx (by norm_num) (by linarith))
  have iσ : Fp.Is (CMath.sqrt (ρ - (D - b * b))) 1 := iq.sqrt h0 (by norm_num) (by rw [Real.sqrt_one]; exact r1.rnd_eq)
  have hk1' : (1 : ℝ) ≤ (2 : ℝ) ^ k := one_le_pow₀ (by norm_num)
  have it := Fp.sub_fin h0 ib.1 iσ.1 (by rw [ib.2, iσ.2]; exact mx (by linarith) (by linarith))
  refine ⟨ray, s, ?_, ?_, ?_, ?_, ?_, ?_, b - CMath.sqrt (ρ - (D - b * b)), it.1, ?_⟩
  · intro i; fin_cases i <;> exact i0.1
  · intro i
    fin_cases i
    · exact i1.1
    · exact i0.1
    · exact i0.1
  · intro i
    fin_cases i
    · exact ie.1
    · exact iw.1
    · exact i0.1
    · exact i1.1
  · unfold Spec.rayNorm
    rw [d0, d1, d2, i1.2, i0.2]; norm_num
  · rw [s3]; exact i1.2
  · intro τ
    unfold Spec.rayPoint
    rw [o0, o1, o2, d0, d1, d2, s0, s1, s2, i0.2, i1.2, ie.2, iw.2]
    nlinarith [sq_nonneg (0 + τ * 1 - (2 : ℝ) ^ k)]
  · rw [test_closed cfg ray s t b D ρ hb hD hρ, if_neg, if_neg, if_pos]
    · rw [Fp.lt_val iρ.1 iD.1, iρ.2, iD.2]; linarith
    · rw [Fp.lt_val iρ.1 ip.1, iρ.2, ip.2]; norm_num
    · rintro ⟨h, -⟩
      rw [Fp.lt_val ib.1 i0.1, ib.2, i0.2] at h
      linarith

/-! ## Concrete cases -/

/-- `float`: the refutations apply with `k = 64` and `k = 14`; in `double` with `k = 512` and `k = 29`. -/
example (cfg : Cfg) (t : Fp single) (t' : Fp double) : True := by
  have := C121_overflow_violated (F := single) 64 (by norm_num) (by norm_num) cfg t
  have := C121_far_violated (F := single) 14 (by norm_num) (by norm_num) cfg t
  have := C121_overflow_violated (F := double) 512 (by norm_num) (by norm_num) cfg t'
  have := C121_far_violated (F := double) 29 (by norm_num) (by norm_num) cfg t'
  trivial

/-- The hypotheses of `C121_hit` and `C121_miss` hold for the ray along the `x` axis and the sphere of radius 1 around `( 4, 0, 0 )` in every format with `20 ≤ emax`
(and so in `float` and `double`); the exact discriminant is 1, so the theorems leave only a hit close to 3 (`C121_which` excludes the exit at 5). -/
example (h20 : 20 ≤ F.emax) : ∃ (ray : Ray (Fp F)) (s : Vec 4 (Fp F)), Spec.VFinite ray.origin ∧ Spec.VFinite ray.direction ∧ Spec.VFinite s ∧
    Spec.rayNorm ray = 1 ∧ s[3].val = 1 ∧ Spec.rayPoint ray s 3 = 1 ∧ Spec.rayPoint ray s 4 = 0 ∧ Spec.grow F 13 (Spec.rayMag ray s + 1) ≤ F.maxFinite := by
  have h0 : 0 < F.emax := by omega
  have hmax : (2 : ℝ) ^ 20 ≤ F.maxFinite := by
    refine le_trans ?_ pow_emax_le
    rw [← zpow_natCast]
    exact zpow_le_zpow_right₀ (by norm_num) (by push_cast; omega)
  have r4 : F.Rep 4 := by
    have := rep_pow (F := F) (e := 2) (by unfold emin; omega)
    norm_num at this ⊢
    exact this
  let w : Fp F := .fin false 4 ⟨by norm_num, r4, by linarith⟩
  have iw : Fp.Is w 4 := ⟨trivial, rfl⟩
  have i1 : Fp.Is (1 : Fp F) 1 := Fp.one_fin h0
  have i0 : Fp.Is (0 : Fp F) 0 := Fp.Is.zero
  let ray : Ray (Fp F) := ⟨#v[0, 0, 0], #v[1, 0, 0]⟩
  let s : Vec 4 (Fp F) := #v[w, 0, 0, 1]
  have o0 : ray.origin[0] = 0 := rfl
  have o1 : ray.origin[1] = 0 := rfl
  have o2 : ray.origin[2] = 0 := rfl
  have d0 : ray.direction[0] = 1 := rfl
  have d1 : ray.direction[1] = 0 := rfl
  have d2 : ray.direction[2] = 0 := rfl
  have s0 : s[0] = w := rfl
  have s1 : s[1] = 0 := rfl
  have s2 : s[2] = 0 := rfl
  have s3 : s[3] = 1 := rfl
  refine ⟨ray, s, ?_, ?_, ?_, ?_, ?_, ?_, ?_, ?_⟩
  · intro i; fin_cases i <;> exact i0.1
  · intro i
    fin_cases i
    · exact i1.1
    · exact i0.1
    · exact i0.1
  · intro i
    fin_cases i
    · exact iw.1
    · exact i0.1
    · exact i0.1
    · exact i1.1
  · unfold Spec.rayNorm
    rw [d0, d1, d2, i1.2, i0.2]; norm_num
  · rw [s3]; exact i1.2
  · unfold Spec.rayPoint
    rw [o0, o1, o2, d0, d1, d2, s0, s1, s2, i0.2, i1.2, iw.2]; norm_num
  · unfold Spec.rayPoint
    rw [o0, o1, o2, d0, d1, d2, s0, s1, s2, i0.2, i1.2, iw.2]; norm_num
  · unfold Spec.grow Spec.rayMag Spec.rayProjMag
    rw [o0, o1, o2, d0, d1, d2, s0, s1, s2, s3, i0.2, i1.2, iw.2]
    have ht := F.tiny_pos
    have ht1 : F.tiny ≤ 1 := zpow_le_one_of_nonpos₀ (by norm_num) (by unfold emin; omega)
    have hu := F.u_pos
    have hp : (1 + F.u) ^ 13 ≤ (2 : ℝ) ^ 13 := pow_le_pow_left₀ (by linarith) (by linarith [F.u_le_one]) 13
    refine le_trans ?_ hmax
    norm_num
    have h1 : 1 + 4 ^ 2 + (4 + 3 * F.tiny) ^ 2 + 5 * F.tiny + 1 ≤ 128 := by nlinarith
    norm_num at h1 hp
    calc _ ≤ (8192 : ℝ) * 128 := mul_le_mul hp (by linarith) (by positivity) (by norm_num)
      _ = _ := by norm_num

end Vmml
