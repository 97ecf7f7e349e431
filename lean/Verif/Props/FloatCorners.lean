import Verif.Props.FloatGeom
import Verif.Props.FloatCull
import Verif.Proofs.FClose
import Verif.Props.FloatQuantize

/-!
# C151: culling planes from eight corners in IEEE 754 arithmetic
-/

namespace Vmml
open Format Culler
variable {F : Format}

/-! ## Specification -/

/-- The exact cross product `( b - c ) x ( a - b )` of the corners' numbers. -/
noncomputable def Spec.faceCross (a b c : Vec 3 (Fp F)) : Fin 3 → ℝ := Spec.crossAt (Spec.fedge c b) (Spec.fedge b a)
/-- The length by which the exact cross product is divided. The code normalises the homogeneous vector `( w, 1 )`, hence the 1 (see C17). -/
noncomputable def Spec.faceLen (a b c : Vec 3 (Fp F)) : ℝ :=
  Real.sqrt (Spec.faceCross a b c 0 ^ 2 + Spec.faceCross a b c 1 ^ 2 + Spec.faceCross a b c 2 ^ 2 + 1)
/-- The exact signed value at `( x, y, z )` of the plane through the three corners. -/
noncomputable def Spec.faceSide (a b c : Vec 3 (Fp F)) (x y z : ℝ) : ℝ :=
  (Spec.faceCross a b c 0 * (x - a[0].val) + Spec.faceCross a b c 1 * (y - a[1].val) + Spec.faceCross a b c 2 * (z - a[2].val)) / Spec.faceLen a b c

/-- Finite coordinates of magnitude at most `B`. -/
def Spec.CornerFits (B : ℝ) (a : Vec 3 (Fp F)) : Prop := ∀ i : Fin 3, a[i].Finite ∧ |a[i].val| ≤ B

/-! ## Rounding -/

private theorem tiny_le (hF : Spec.Usual F) : F.tiny ≤ 1 / 512 := by
  have : F.tiny ≤ (2 : ℝ) ^ (-9 : ℤ) := by
    unfold tiny
    refine zpow_le_zpow_right₀ (by norm_num) ?_
    have h1 := hF.digits
    have h2 := hF.range
    unfold emin
    omega
  norm_num at this ⊢
  exact this

private theorem edge_near (hF : Spec.Usual F) {a b : Fp F} {B : ℝ} (fa : a.Finite) (fb : b.Finite) (ha : |a.val| ≤ B) (hb : |b.val| ≤ B) (hB : 2 * B ≤ F.maxFinite) :
    (b - a).Finite ∧ |(b - a).val - (b.val - a.val)| ≤ 2 * B * F.u ∧ |b.val - a.val| ≤ 2 * B := by
  have h : |b.val - a.val| ≤ 2 * B := (abs_sub _ _).trans (by linarith)
  obtain ⟨h1, h2⟩ := Fp.sub_fin (Usual.pos hF) fb fa (h.trans hB)
  refine ⟨h1, ?_, h⟩
  have := ((Fp.rep_val fb).grid.add (Fp.rep_val fa).grid.neg).rnd_err
  rw [← sub_eq_add_neg, ← h2] at this
  have u0 := F.u_pos
  nlinarith

private theorem prod_near (hF : Spec.Usual F) {p q : Fp F} {P Q B : ℝ} (hB : 1 ≤ B) (hmax : 5 * B ^ 2 ≤ F.maxFinite) (fp : p.Finite) (fq : q.Finite)
    (hp : |p.val - P| ≤ 2 * B * F.u) (hq : |q.val - Q| ≤ 2 * B * F.u) (hP : |P| ≤ 2 * B) (hQ : |Q| ≤ 2 * B) :
    (p * q).Finite ∧ |(p * q).val - P * Q| ≤ 123 / 10 * B ^ 2 * F.u ∧ |P * Q| ≤ 4 * B ^ 2 := by
  have u0 := F.u_pos
  have u1 := Usual.u hF
  have t1 := tiny_le hF
  have t0 := F.tiny_pos
  have hpv : |p.val| ≤ 2 * B * (1 + F.u) := by
    have := abs_sub_abs_le_abs_sub p.val P; nlinarith
  have hPQ : |P * Q| ≤ 4 * B ^ 2 := by
    rw [abs_mul]
    calc |P| * |Q| ≤ (2 * B) * (2 * B) := mul_le_mul hP hQ (abs_nonneg _) (by linarith)
      _ = _ := by ring
  have hB2 : 1 ≤ B ^ 2 := one_le_pow₀ hB
  have e1 : |p.val * q.val - P * Q| ≤ 81 / 10 * B ^ 2 * F.u := by
    have : p.val * q.val - P * Q = p.val * (q.val - Q) + (p.val - P) * Q := by ring
    rw [this]
    refine (abs_add_le _ _).trans ?_
    rw [abs_mul, abs_mul]
    have m1 : |p.val| * |q.val - Q| ≤ 2 * B * (1 + F.u) * (2 * B * F.u) := mul_le_mul hpv hq (abs_nonneg _) (by positivity)
    have m2 : |p.val - P| * |Q| ≤ 2 * B * F.u * (2 * B) := mul_le_mul hp hQ (abs_nonneg _) (by positivity)
    have m3 : F.u * (B ^ 2 * F.u) ≤ 1 / 1024 * (B ^ 2 * F.u) := mul_le_mul_of_nonneg_right u1 (by positivity)
    nlinarith
  have hv : |p.val * q.val| ≤ 41 / 10 * B ^ 2 := by
    have := abs_sub_abs_le_abs_sub (p.val * q.val) (P * Q)
    have m3 : B ^ 2 * F.u ≤ B ^ 2 * (1 / 1024) := mul_le_mul_of_nonneg_left u1 (by positivity)
    linarith
  obtain ⟨h1, h2⟩ := Fp.mul_fin (Usual.pos hF) fp fq (by linarith)
  refine ⟨h1, ?_, hPQ⟩
  have h3 := rnd_err_tiny (F := F) (p.val * q.val)
  rw [← h2] at h3
  have h4 : F.u * (|p.val * q.val| + F.tiny) ≤ F.u * (42 / 10 * B ^ 2) := by gcongr; linarith
  have h5 := abs_sub_le (p * q).val (p.val * q.val) (P * Q)
  linarith

private theorem cross_near (hF : Spec.Usual F) {p q r s : Fp F} {P Q R S B : ℝ} (hB : 1 ≤ B) (hmax : 9 * B ^ 2 ≤ F.maxFinite) (fp : p.Finite) (fq : q.Finite)
    (fr : r.Finite) (fs : s.Finite) (hp : |p.val - P| ≤ 2 * B * F.u) (hq : |q.val - Q| ≤ 2 * B * F.u) (hr : |r.val - R| ≤ 2 * B * F.u)
    (hs : |s.val - S| ≤ 2 * B * F.u) (hP : |P| ≤ 2 * B) (hQ : |Q| ≤ 2 * B) (hR : |R| ≤ 2 * B) (hS : |S| ≤ 2 * B) :
    (p * q - r * s).Finite ∧ |(p * q - r * s).val - (P * Q - R * S)| ≤ 33 * B ^ 2 * F.u ∧ |P * Q - R * S| ≤ 8 * B ^ 2 := by
  have u0 := F.u_pos
  have u1 := Usual.u hF
  have hB2 : 1 ≤ B ^ 2 := one_le_pow₀ hB
  obtain ⟨f1, e1, m1⟩ := prod_near hF hB (by linarith) fp fq hp hq hP hQ
  obtain ⟨f2, e2, m2⟩ := prod_near hF hB (by linarith) fr fs hr hs hR hS
  have hm : |P * Q - R * S| ≤ 8 * B ^ 2 := (abs_sub _ _).trans (by linarith)
  have he : |(p * q).val - (r * s).val - (P * Q - R * S)| ≤ 246 / 10 * B ^ 2 * F.u := by
    have : (p * q).val - (r * s).val - (P * Q - R * S) = ((p * q).val - P * Q) - ((r * s).val - R * S) := by ring
    rw [this]
    exact (abs_sub _ _).trans (by linarith)
  have m3 : B ^ 2 * F.u ≤ B ^ 2 * (1 / 1024) := mul_le_mul_of_nonneg_left u1 (by positivity)
  have hv : |(p * q).val - (r * s).val| ≤ 81 / 10 * B ^ 2 := by
    have := abs_sub_abs_le_abs_sub ((p * q).val - (r * s).val) (P * Q - R * S)
    linarith
  obtain ⟨h1, h2⟩ := Fp.sub_fin (Usual.pos hF) f1 f2 (by linarith)
  refine ⟨h1, ?_, hm⟩
  have h3 := ((Fp.rep_val f1).grid.add (Fp.rep_val f2).grid.neg).rnd_err
  rw [← sub_eq_add_neg, ← h2] at h3
  have h4 : F.u * |(p * q).val - (r * s).val| ≤ F.u * (81 / 10 * B ^ 2) := by gcongr
  have h5 := abs_sub_le (p * q - r * s).val ((p * q).val - (r * s).val) (P * Q - R * S)
  have h6 : 0 ≤ B ^ 2 * F.u := by positivity
  linarith

/-! ## Normalisation of `( w, 1 )` in the reals -/

private theorem sum_abs_le {x y z L : ℝ} (hL : 0 ≤ L) (h : x ^ 2 + y ^ 2 + z ^ 2 ≤ L ^ 2) : |x| + |y| + |z| ≤ 2 * L := by
  refine abs_le_of_sq_le_sq' ?_ (by linarith) |>.2
  nlinarith [sq_abs x, sq_abs y, sq_abs z, sq_nonneg (|x| - |y|), sq_nonneg (|y| - |z|), sq_nonneg (|x| - |z|)]

private theorem len_near {x y z x' y' z' δ : ℝ} (hx : |x' - x| ≤ δ) (hy : |y' - y| ≤ δ) (hz : |z' - z| ≤ δ) :
    |Real.sqrt (x' ^ 2 + y' ^ 2 + z' ^ 2 + 1) - Real.sqrt (x ^ 2 + y ^ 2 + z ^ 2 + 1)| ≤ 2 * δ := by
  have hδ : 0 ≤ δ := (abs_nonneg _).trans hx
  set L := Real.sqrt (x ^ 2 + y ^ 2 + z ^ 2 + 1) with hL
  set M := Real.sqrt (x' ^ 2 + y' ^ 2 + z' ^ 2 + 1) with hM
  have l2 : L ^ 2 = x ^ 2 + y ^ 2 + z ^ 2 + 1 := Real.sq_sqrt (by positivity)
  have m2 : M ^ 2 = x' ^ 2 + y' ^ 2 + z' ^ 2 + 1 := Real.sq_sqrt (by positivity)
  have l0 : 0 < L := Real.sqrt_pos.2 (by positivity)
  have m0 : 0 < M := Real.sqrt_pos.2 (by positivity)
  have sl := sum_abs_le l0.le (x := x) (y := y) (z := z) (by linarith)
  have sm := sum_abs_le m0.le (x := x') (y := y') (z := z') (by linarith)
  have t : ∀ {s s' : ℝ}, |s' - s| ≤ δ → |s' ^ 2 - s ^ 2| ≤ δ * (|s'| + |s|) := by
    intro s s' h
    have : s' ^ 2 - s ^ 2 = (s' - s) * (s' + s) := by ring
    rw [this, abs_mul]
    exact mul_le_mul h (abs_add_le _ _) (abs_nonneg _) hδ
  have key : |M - L| * (M + L) ≤ 2 * δ * (M + L) := by
    have e : |M - L| * (M + L) = |(x' ^ 2 - x ^ 2) + (y' ^ 2 - y ^ 2) + (z' ^ 2 - z ^ 2)| := by
      rw [← abs_of_pos (show 0 < M + L by linarith), ← abs_mul]
      congr 1
      linear_combination m2 - l2
    rw [e]
    have := abs_add_three (x' ^ 2 - x ^ 2) (y' ^ 2 - y ^ 2) (z' ^ 2 - z ^ 2)
    nlinarith [t hx, t hy, t hz]
  exact le_of_mul_le_mul_right key (by linarith)

private theorem quot_near {w w' L M δ : ℝ} (hL : 0 < L) (hM : 0 < M) (h : |w' - w| ≤ δ) (hLM : |M - L| ≤ 2 * δ) (hw : |w'| ≤ M) : |w' / M - w / L| ≤ 3 * δ / L := by
  have e : w' / M - w / L = ((w' - w) - w' / M * (M - L)) / L := by field_simp; ring
  rw [e, abs_div, abs_of_pos hL]
  gcongr
  refine (abs_sub _ _).trans ?_
  rw [abs_mul, abs_div, abs_of_pos hM]
  have : |w'| / M ≤ 1 := (div_le_one hM).2 hw
  have h1 : |w'| / M * |M - L| ≤ 1 * |M - L| := mul_le_mul_of_nonneg_right this (abs_nonneg _)
  linarith

private theorem norm_const (hF : Spec.Usual F) : 4 * F.u < 1 ∧ Spec.flenErr F 4 ≤ 1 / 2 ∧ (1 + F.u) ^ 2 / (1 - Spec.flenErr F 4) - 1 ≤ 13 * F.u := by
  have u0 := F.u_pos
  have u1 := Usual.u hF
  have g : Spec.gamma F.u 4 ≤ 402 / 100 * F.u := by
    unfold Spec.gamma
    rw [div_le_iff₀ (by push_cast; linarith)]
    push_cast
    nlinarith
  have hε : Spec.flenErr F 4 ≤ 906 / 100 * F.u := by
    unfold Spec.flenErr
    nlinarith
  refine ⟨by linarith, by linarith, ?_⟩
  have : (1 + F.u) ^ 2 / (1 - Spec.flenErr F 4) ≤ 1 + 13 * F.u := by
    rw [div_le_iff₀ (by linarith)]
    nlinarith
  linarith

/-! ## One plane -/

private theorem crossV_get (a b : Vec 3 (Fp F)) (i : Fin 3) : (Vec.cross a b)[i] = a[i + 1] * b[i + 2] - a[i + 2] * b[i + 1] := by
  match i with
  | 0 => rfl
  | 1 => rfl
  | 2 => rfl

private theorem faceCross_near (hF : Spec.Usual F) {B : ℝ} (hB : 1 ≤ B) (hmax : 256 * B ^ 4 ≤ F.maxFinite) {a b c : Vec 3 (Fp F)} (ha : Spec.CornerFits B a)
    (hb : Spec.CornerFits B b) (hc : Spec.CornerFits B c) (i : Fin 3) :
    let w := (Vec.cross (Vector.ofFn fun i : Fin 3 => b[i] - c[i]) (Vector.ofFn fun i : Fin 3 => a[i] - b[i]))[i]
    w.Finite ∧ |w.val - Spec.faceCross a b c i| ≤ 33 * B ^ 2 * F.u ∧ |Spec.faceCross a b c i| ≤ 8 * B ^ 2 := by
  have hB2 : 1 ≤ B ^ 2 := one_le_pow₀ hB
  have hB4 : B ^ 2 ≤ B ^ 4 := pow_le_pow_right₀ hB (by norm_num)
  have hB1 : B ≤ B ^ 4 := le_self_pow₀ hB (by norm_num)
  have cb : ∀ j : Fin 3, (b[j] - c[j]).Finite ∧ |(b[j] - c[j]).val - Spec.fedge c b j| ≤ 2 * B * F.u ∧ |Spec.fedge c b j| ≤ 2 * B := fun j =>
    edge_near hF (hc j).1 (hb j).1 (hc j).2 (hb j).2 (by linarith)
  have ba : ∀ j : Fin 3, (a[j] - b[j]).Finite ∧ |(a[j] - b[j]).val - Spec.fedge b a j| ≤ 2 * B * F.u ∧ |Spec.fedge b a j| ≤ 2 * B := fun j =>
    edge_near hF (hb j).1 (ha j).1 (hb j).2 (ha j).2 (by linarith)
  intro w
  have hw : w = (b[i + 1] - c[i + 1]) * (a[i + 2] - b[i + 2]) - (b[i + 2] - c[i + 2]) * (a[i + 1] - b[i + 1]) := by
    show (Vec.cross _ _)[i] = _
    rw [crossV_get]
    simp only [Fin.getElem_fin, Vector.getElem_ofFn]
  rw [hw]
  exact cross_near hF hB (by linarith) (cb (i + 1)).1 (ba (i + 2)).1 (cb (i + 2)).1 (ba (i + 1)).1 (cb (i + 1)).2.1 (ba (i + 2)).2.1 (cb (i + 2)).2.1 (ba (i + 1)).2.1
    (cb (i + 1)).2.2 (ba (i + 2)).2.2 (cb (i + 2)).2.2 (ba (i + 1)).2.2

/-- The fourth component: `- n a`. -/
private theorem offset_near (hF : Spec.Usual F) {p0 p1 p2 a0 a1 a2 : Fp F} {B : ℝ} (hB : 1 ≤ B) (hmax : 256 * B ≤ F.maxFinite)
    (f0 : p0.Finite ∧ |p0.val| ≤ 102 / 100) (f1 : p1.Finite ∧ |p1.val| ≤ 102 / 100) (f2 : p2.Finite ∧ |p2.val| ≤ 102 / 100)
    (g0 : a0.Finite ∧ |a0.val| ≤ B) (g1 : a1.Finite ∧ |a1.val| ≤ B) (g2 : a2.Finite ∧ |a2.val| ≤ B) :
    let d := -p0 * a0 - p1 * a1 - p2 * a2
    d.Finite ∧ |p0.val * a0.val + p1.val * a1.val + p2.val * a2.val + d.val| ≤ 10 * F.u * B ∧ |d.val| ≤ 32 / 10 * B := by
  intro d
  have u0 := F.u_pos
  have u1 := Usual.u hF
  have t0 := F.tiny_pos
  have t1 := tiny_le hF
  have m : ∀ {p a : Fp F}, p.Finite ∧ |p.val| ≤ 102 / 100 → a.Finite ∧ |a.val| ≤ B → |p.val| * |a.val| ≤ 102 / 100 * B := fun h g =>
    mul_le_mul h.2 g.2 (abs_nonneg _) (by norm_num)
  have m0 := m f0 g0
  have m1 := m f1 g1
  have m2 := m f2 g2
  have n0 := mul_nonneg (abs_nonneg p0.val) (abs_nonneg a0.val)
  have n1 := mul_nonneg (abs_nonneg p1.val) (abs_nonneg a1.val)
  have n2 := mul_nonneg (abs_nonneg p2.val) (abs_nonneg a2.val)
  have room : ∀ {n : Nat} {x : ℝ}, n ≤ 3 → x ≤ 31 / 10 * B → 0 ≤ x → (1 + F.u) ^ n * x ≤ F.maxFinite := by
    intro n x hn hx h0
    have : (1 + F.u) ^ n ≤ 2 ^ 3 := by
      calc (1 + F.u) ^ n ≤ 2 ^ n := pow_le_pow_left₀ (by linarith) (by linarith) n
        _ ≤ 2 ^ 3 := pow_le_pow_right₀ (by norm_num) hn
    calc (1 + F.u) ^ n * x ≤ 2 ^ 3 * (31 / 10 * B) := mul_le_mul this hx h0 (by norm_num)
      _ ≤ _ := by linarith
  have h0 := Usual.pos hF
  have ex : ∀ {a : Fp F}, a.Finite → FBoth True a.Finite 0 a a.val |a.val| |a.val| := fun h => FBoth.exact fun _ => h
  have en : FBoth True (-p0).Finite 0 (-p0) (-p0.val) |p0.val| |p0.val| := by
    have := ex (Fp.finite_neg f0.1)
    rwa [Fp.val_neg, abs_neg] at this
  have k0 := en.mul h0 (ex g0.1) (fun _ => room (by norm_num) (by linarith) n0)
  have k1 := (ex f1.1).mul h0 (ex g1.1) (fun _ => room (by norm_num) (by linarith) n1)
  have k2 := (ex f2.1).mul h0 (ex g2.1) (fun _ => room (by norm_num) (by linarith) n2)
  have k3 := k0.sub h0 k1 (fun _ => room (by norm_num) (by linarith) (by linarith))
  have k4 := k3.sub h0 k2 (fun _ => room (by norm_num) (by linarith) (by linarith))
  have fin : d.Finite := (k4.bound trivial).finite
  have e := ((k4.approx fin).2.mono u0.le (by norm_num : _ ≤ 3) (m' := 31 / 10 * B) (by linarith)).err
  have hu3 : (1 + F.u) ^ 3 - 1 ≤ 301 / 100 * F.u := by
    have q1 : F.u ^ 2 ≤ 1 / 1024 * F.u := by rw [sq]; exact mul_le_mul_of_nonneg_right u1 u0.le
    have q2 : F.u ^ 3 ≤ 1 / 1024 * F.u := by
      calc F.u ^ 3 = F.u ^ 2 * F.u := by ring
        _ ≤ 1 / 1024 * F.u := mul_le_mul_of_nonneg_right (by linarith) u0.le
    have : (1 + F.u) ^ 3 - 1 = 3 * F.u + 3 * F.u ^ 2 + F.u ^ 3 := by ring
    linarith
  have hb : ((1 + F.u) ^ 3 - 1) * (31 / 10 * B) ≤ 301 / 100 * F.u * (31 / 10 * B) := mul_le_mul_of_nonneg_right hu3 (by linarith)
  have uB : 0 ≤ F.u * B := by positivity
  have e' : |p0.val * a0.val + p1.val * a1.val + p2.val * a2.val + d.val| ≤ 10 * F.u * B := by
    have : p0.val * a0.val + p1.val * a1.val + p2.val * a2.val + d.val = d.val - (-p0.val * a0.val - p1.val * a1.val - p2.val * a2.val) := by ring
    rw [this]
    refine e.trans (hb.trans ?_)
    linarith
  refine ⟨fin, e', ?_⟩
  have h1 := abs_sub_abs_le_abs_sub d.val (-(p0.val * a0.val + p1.val * a1.val + p2.val * a2.val))
  rw [sub_neg_eq_add, abs_neg, add_comm d.val] at h1
  have h2 := abs_add_three (p0.val * a0.val) (p1.val * a1.val) (p2.val * a2.val)
  rw [abs_mul, abs_mul, abs_mul] at h2
  have h3 : F.u * B ≤ 1 / 1024 * B := mul_le_mul_of_nonneg_right u1 (by linarith)
  linarith

set_option maxHeartbeats 1000000 in
private theorem plane_near (hF : Spec.Usual F) (cfg : Cfg) {B : ℝ} (hB : 1 ≤ B) (hmax : 256 * B ^ 4 ≤ F.maxFinite) {a b c : Vec 3 (Fp F)}
    (ha : Spec.CornerFits B a) (hb : Spec.CornerFits B b) (hc : Spec.CornerFits B c) :
    ∃ p, Vec.computePlane cfg a b c = .ok p ∧ Spec.VFinite p ∧ (∀ i : Fin 3, |p[i.1].val| ≤ 102 / 100) ∧ |p[3].val| ≤ 32 / 10 * B ∧
      |p[0].val * a[0].val + p[1].val * a[1].val + p[2].val * a[2].val + p[3].val| ≤ 10 * F.u * B ∧
      ∀ i : Fin 3, |p[i.1].val - Spec.faceCross a b c i / Spec.faceLen a b c| ≤ (14 + 99 * B ^ 2 / Spec.faceLen a b c) * F.u := by
  have u0 := F.u_pos
  have u1 := Usual.u hF
  have t0 := F.tiny_pos
  have t1 := tiny_le hF
  have h0 := Usual.pos hF
  have hB2 : 1 ≤ B ^ 2 := one_le_pow₀ hB
  have hB4 : B ^ 2 ≤ B ^ 4 := pow_le_pow_right₀ hB (by norm_num)
  have hB1 : B ≤ B ^ 4 := le_self_pow₀ hB (by norm_num)
  obtain ⟨n1, n2, n3⟩ := norm_const hF
  obtain ⟨w, hw⟩ : ∃ w : Vec 3 (Fp F), w = Vec.cross (Vector.ofFn fun i : Fin 3 => b[i] - c[i]) (Vector.ofFn fun i : Fin 3 => a[i] - b[i]) := ⟨_, rfl⟩
  have near : ∀ i : Fin 3, w[i].Finite ∧ |w[i].val - Spec.faceCross a b c i| ≤ 33 * B ^ 2 * F.u ∧ |Spec.faceCross a b c i| ≤ 8 * B ^ 2 := fun i => by
    rw [hw]; exact faceCross_near hF hB hmax ha hb hc i
  have hwb : ∀ i : Fin 3, w[i].val ^ 2 ≤ 81 * B ^ 4 := fun i => by
    obtain ⟨-, h2, h3⟩ := near i
    have h4 : B ^ 2 * F.u ≤ B ^ 2 * (1 / 1024) := mul_le_mul_of_nonneg_left u1 (by positivity)
    have h5 := abs_sub_abs_le_abs_sub w[i].val (Spec.faceCross a b c i)
    have h6 : |w[i].val| ≤ 9 * B ^ 2 := by linarith
    have h7 := pow_le_pow_left₀ (abs_nonneg _) h6 2
    rw [sq_abs] at h7
    nlinarith
  obtain ⟨v, hv⟩ : ∃ v : Vec 4 (Fp F), v = Vector.ofFn fun j : Fin (3 + 1) => if h : j.1 < 3 then w[j.1] else (1 : Fp F) := ⟨_, rfl⟩
  have v0 : v[(0 : Fin 4)] = w[(0 : Fin 3)] := by rw [hv]; rfl
  have v1 : v[(1 : Fin 4)] = w[(1 : Fin 3)] := by rw [hv]; rfl
  have v2 : v[(2 : Fin 4)] = w[(2 : Fin 3)] := by rw [hv]; rfl
  have v3 : v[(3 : Fin 4)] = (1 : Fp F) := by rw [hv]; rfl
  obtain ⟨o1, o2⟩ := Fp.one_fin (F := F) h0
  have hfin : ∀ i : Fin 4, v[i].Finite := fun i => by
    match i with
    | 0 => rw [v0]; exact (near 0).1
    | 1 => rw [v1]; exact (near 1).1
    | 2 => rw [v2]; exact (near 2).1
    | 3 => rw [v3]; exact o1
  have hsum : ∑ i : Fin 4, v[i].val ^ 2 = w[(0 : Fin 3)].val ^ 2 + w[(1 : Fin 3)].val ^ 2 + w[(2 : Fin 3)].val ^ 2 + 1 := by
    rw [Fin.sum_univ_four, v0, v1, v2, v3, o2]; ring
  have s0 := sq_nonneg w[(0 : Fin 3)].val
  have s1 := sq_nonneg w[(1 : Fin 3)].val
  have s2 := sq_nonneg w[(2 : Fin 3)].val
  have heta : F.eta ≤ 1 := by
    rw [Format.eta_eq_tiny]; nlinarith
  obtain ⟨n, len, hn, -, hval⟩ := C109_normalize hF.range (by have := hF.digits; have := hF.range; omega) cfg v (by exact_mod_cast n1) n2 hfin
    (by rw [hsum]; change F.tiny ≤ _; linarith)
    (by
      rw [hsum]; push_cast
      have := hwb 0; have := hwb 1; have := hwb 2
      have h4 : 4 * F.u * F.maxFinite ≤ 4 * (1 / 1024) * F.maxFinite := by gcongr; exact F.maxFinite_pos.le
      linarith)
  -- exact lengths
  set M := Spec.flen v with hM
  have hM' : M = Real.sqrt (w[(0 : Fin 3)].val ^ 2 + w[(1 : Fin 3)].val ^ 2 + w[(2 : Fin 3)].val ^ 2 + 1) := by rw [hM, Spec.flen, hsum]
  have hLM : |M - Spec.faceLen a b c| ≤ 2 * (33 * B ^ 2 * F.u) := by
    rw [hM']; exact len_near (near 0).2.1 (near 1).2.1 (near 2).2.1
  have M2 : M ^ 2 = w[(0 : Fin 3)].val ^ 2 + w[(1 : Fin 3)].val ^ 2 + w[(2 : Fin 3)].val ^ 2 + 1 := by rw [hM']; exact Real.sq_sqrt (by positivity)
  have Mpos : 0 < M := by rw [hM']; exact Real.sqrt_pos.2 (by positivity)
  have Lpos : 0 < Spec.faceLen a b c := by unfold Spec.faceLen; exact Real.sqrt_pos.2 (by positivity)
  have wM : ∀ i : Fin 3, |w[i].val| ≤ M := fun i => by
    refine abs_le_of_sq_le_sq ?_ Mpos.le
    match i with
    | 0 => linarith
    | 1 => linarith
    | 2 => linarith
  have hvw : ∀ i : Fin 3, v[i.1] = w[i] := fun i => by
    match i with
    | 0 => exact v0
    | 1 => exact v1
    | 2 => exact v2
  have hn' : ∀ i : Fin 3, n[i.1].Finite ∧ |n[i.1].val - w[i].val / M| ≤ 14 * F.u ∧ |w[i].val / M| ≤ 1 := fun i => by
    obtain ⟨h1, h2⟩ := hval ⟨i.1, by omega⟩
    simp only [Fin.getElem_fin] at h1 h2
    rw [hvw i] at h2
    have hq : |w[i].val / M| ≤ 1 := by rw [abs_div, abs_of_pos Mpos]; exact (div_le_one Mpos).2 (wM i)
    refine ⟨h1, h2.trans ?_, hq⟩
    have h4 : F.eta ≤ F.u * 1 := by rw [Format.eta_eq_tiny]; gcongr; linarith
    have h5 : ((1 + F.u) ^ 2 / (1 - Spec.flenErr F 4) - 1) * |w[i].val / M| ≤ 13 * F.u * 1 :=
      mul_le_mul n3 hq (abs_nonneg _) (by positivity)
    linarith
  have hnb : ∀ i : Fin 3, |n[i.1].val| ≤ 102 / 100 := fun i => by
    obtain ⟨-, h2, h3⟩ := hn' i
    have := abs_sub_abs_le_abs_sub n[i.1].val (w[i].val / M)
    linarith
  obtain ⟨d1, d2, d3⟩ := offset_near hF hB (by linarith) (p0 := n[0]) (p1 := n[1]) (p2 := n[2]) (a0 := a[0]) (a1 := a[1]) (a2 := a[2])
    ⟨(hn' 0).1, hnb 0⟩ ⟨(hn' 1).1, hnb 1⟩ ⟨(hn' 2).1, hnb 2⟩ (ha 0) (ha 1) (ha 2)
  refine ⟨n.set 3 (-n[0] * a[0] - n[1] * a[1] - n[2] * a[2]), ?_, ?_, ?_, ?_, ?_, ?_⟩
  · unfold Vec.computePlane
    rw [Vec.sub_eq, Vec.sub_eq, Vmml.bind_ok, Vmml.bind_ok, toHomogeneous_eq, Vmml.bind_ok, ← hw, ← hv, hn, Vmml.bind_ok]
    unfold Vec.setW
    rw [Vec.rawSet_lt _ _ (by norm_num)]
  · intro i
    match i with
    | 0 => simpa using (hn' 0).1
    | 1 => simpa using (hn' 1).1
    | 2 => simpa using (hn' 2).1
    | 3 => simpa using d1
  · intro i
    match i with
    | 0 => simpa using hnb 0
    | 1 => simpa using hnb 1
    | 2 => simpa using hnb 2
  · simpa using d3
  · simpa using d2
  · intro i
    have e : (n.set 3 (-n[0] * a[0] - n[1] * a[1] - n[2] * a[2]))[i.1] = n[i.1] := by
      rw [Vector.getElem_set]; simp; omega
    rw [e]
    have q := quot_near Lpos Mpos (near i).2.1 hLM (wM i)
    have t := abs_sub_le n[i.1].val (w[i].val / M) (Spec.faceCross a b c i / Spec.faceLen a b c)
    have := (hn' i).2.1
    have e2 : (14 + 99 * B ^ 2 / Spec.faceLen a b c) * F.u = 14 * F.u + 3 * (33 * B ^ 2 * F.u) / Spec.faceLen a b c := by ring
    rw [e2]; linarith

private theorem side_near {p : Vec 4 (Fp F)} {a b c : Vec 3 (Fp F)} {θ κ : ℝ}
    (hd : |p[0].val * a[0].val + p[1].val * a[1].val + p[2].val * a[2].val + p[3].val| ≤ κ)
    (hn : ∀ i : Fin 3, |p[i.1].val - Spec.faceCross a b c i / Spec.faceLen a b c| ≤ θ) (x y z : ℝ) :
    |Spec.fplane p x y z - Spec.faceSide a b c x y z| ≤ θ * (|x - a[0].val| + |y - a[1].val| + |z - a[2].val|) + κ := by
  obtain ⟨L, hL⟩ : ∃ L, L = Spec.faceLen a b c := ⟨_, rfl⟩
  rw [← hL] at hn
  have e : Spec.fplane p x y z - Spec.faceSide a b c x y z =
      (p[0].val - Spec.faceCross a b c 0 / L) * (x - a[0].val) + (p[1].val - Spec.faceCross a b c 1 / L) * (y - a[1].val) +
        (p[2].val - Spec.faceCross a b c 2 / L) * (z - a[2].val) +
      (p[0].val * a[0].val + p[1].val * a[1].val + p[2].val * a[2].val + p[3].val) := by
    unfold Spec.fplane Spec.faceSide
    rw [← hL]
    ring
  rw [e]
  refine (abs_add_le _ _).trans ?_
  have h3 := abs_add_three ((p[0].val - Spec.faceCross a b c 0 / L) * (x - a[0].val)) ((p[1].val - Spec.faceCross a b c 1 / L) * (y - a[1].val))
    ((p[2].val - Spec.faceCross a b c 2 / L) * (z - a[2].val))
  rw [abs_mul, abs_mul, abs_mul] at h3
  have k0 := mul_le_mul_of_nonneg_right (hn 0) (abs_nonneg (x - a[0].val))
  have k1 := mul_le_mul_of_nonneg_right (hn 1) (abs_nonneg (y - a[1].val))
  have k2 := mul_le_mul_of_nonneg_right (hn 2) (abs_nonneg (z - a[2].val))
  simp only [Fin.isValue, Fin.val_zero, Fin.val_one, Fin.val_two] at k0 k1 k2
  linarith

/-- **C151** `compute_plane( a, b, c )` for three finite points with coordinates of magnitude at most `B`: all four components are finite, and at every real point the value of the
computed plane is that of the exact plane through the three points up to an error proportional to the distance from `a`. The factor `B² / faceLen` is the condition of the three
points: it is large if they are nearly collinear. -/
theorem C151_plane (hF : Spec.Usual F) (cfg : Cfg) {B : ℝ} (hB : 1 ≤ B) (hmax : 256 * B ^ 4 ≤ F.maxFinite) {a b c : Vec 3 (Fp F)}
    (ha : Spec.CornerFits B a) (hb : Spec.CornerFits B b) (hc : Spec.CornerFits B c) :
    ∃ p, Vec.computePlane cfg a b c = .ok p ∧ Spec.VFinite p ∧ ∀ x y z : ℝ,
      |Spec.fplane p x y z - Spec.faceSide a b c x y z| ≤
        (14 + 99 * B ^ 2 / Spec.faceLen a b c) * F.u * (|x - a[0].val| + |y - a[1].val| + |z - a[2].val|) + 10 * F.u * B := by
  obtain ⟨p, h1, h2, -, -, h5, h6⟩ := plane_near hF cfg hB hmax ha hb hc
  exact ⟨p, h1, h2, fun x y z => side_near h5 h6 x y z⟩

/-! ## The six planes -/

/-- The three corners of each of the six planes, in the order left, right, bottom, top, near, far. The corners are: `a` near top left, `b` near top right, `c` near bottom left,
`d` near bottom right, and `e`, `f`, `g`, `h` the same on the far plane. -/
def Spec.faces (a b c d e f g h : Vec 3 (Fp F)) : List (Vec 3 (Fp F) × Vec 3 (Fp F) × Vec 3 (Fp F)) :=
  [(c, a, e), (f, b, d), (h, d, c), (a, b, f), (b, a, c), (g, e, f)]

/-- The exact value of a face's plane. -/
noncomputable def Spec.sideOf (t : Vec 3 (Fp F) × Vec 3 (Fp F) × Vec 3 (Fp F)) (x y z : ℝ) : ℝ := Spec.faceSide t.1 t.2.1 t.2.2 x y z

/-- The error of a verdict, for corners and objects with coordinates of magnitude at most `B`. -/
noncomputable def Spec.faceErr (F : Format) (B : ℝ) (t : Vec 3 (Fp F) × Vec 3 (Fp F) × Vec 3 (Fp F)) : ℝ :=
  (180 + 600 * B ^ 2 / Spec.faceLen t.1 t.2.1 t.2.2) * F.u * B

/-- A computed plane and the face it stands for. -/
private structure Good (B : ℝ) (p : Vec 4 (Fp F)) (t : Vec 3 (Fp F) × Vec 3 (Fp F) × Vec 3 (Fp F)) : Prop where
  finite : Spec.VFinite p
  normal : ∀ i : Fin 3, |p[i.1].val| ≤ 102 / 100
  offset : |p[3].val| ≤ 32 / 10 * B
  near : ∀ x y z : ℝ, |x| ≤ B → |y| ≤ B → |z| ≤ B →
    |Spec.fplane p x y z - Spec.sideOf t x y z| ≤ (94 + 594 * B ^ 2 / Spec.faceLen t.1 t.2.1 t.2.2) * F.u * B

private theorem good_plane (hF : Spec.Usual F) (cfg : Cfg) {B : ℝ} (hB : 1 ≤ B) (hmax : 256 * B ^ 4 ≤ F.maxFinite) {a b c : Vec 3 (Fp F)}
    (ha : Spec.CornerFits B a) (hb : Spec.CornerFits B b) (hc : Spec.CornerFits B c) : ∃ p, Vec.computePlane cfg a b c = .ok p ∧ Good B p (a, b, c) := by
  obtain ⟨p, h1, h2, h3, h4, h5, h6⟩ := plane_near hF cfg hB hmax ha hb hc
  refine ⟨p, h1, h2, h3, h4, fun x y z hx hy hz => ?_⟩
  have u0 := F.u_pos
  have Lpos : 0 < Spec.faceLen a b c := by unfold Spec.faceLen; exact Real.sqrt_pos.2 (by positivity)
  refine (side_near h5 h6 x y z).trans ?_
  have d0 : |x - a[0].val| ≤ 2 * B := (abs_sub _ _).trans (by have := (ha 0).2; simp at this; linarith)
  have d1 : |y - a[1].val| ≤ 2 * B := (abs_sub _ _).trans (by have := (ha 1).2; simp at this; linarith)
  have d2 : |z - a[2].val| ≤ 2 * B := (abs_sub _ _).trans (by have := (ha 2).2; simp at this; linarith)
  have : (14 + 99 * B ^ 2 / Spec.faceLen a b c) * F.u * (|x - a[0].val| + |y - a[1].val| + |z - a[2].val|) ≤ (14 + 99 * B ^ 2 / Spec.faceLen a b c) * F.u * (6 * B) :=
    mul_le_mul_of_nonneg_left (by linarith) (by positivity)
  refine (add_le_add_left this _).trans (le_of_eq ?_)
  ring

private theorem setup_good (hF : Spec.Usual F) (cfg : Cfg) {B : ℝ} (hB : 1 ≤ B) (hmax : 256 * B ^ 4 ≤ F.maxFinite) {a b c d e f g h : Vec 3 (Fp F)}
    (hall : ∀ v ∈ [a, b, c, d, e, f, g, h], Spec.CornerFits B v) :
    ∃ k, setupCorners cfg a b c d e f g h = .ok k ∧ List.Forall₂ (Good B) (Spec.six k) (Spec.faces a b c d e f g h) := by
  simp only [List.mem_cons, List.not_mem_nil, or_false, forall_eq_or_imp, forall_eq] at hall
  obtain ⟨ha, hb, hc, hd, he, hf, hg, hh⟩ := hall
  obtain ⟨p1, h1, g1⟩ := good_plane hF cfg hB hmax hc ha he
  obtain ⟨p2, h2, g2⟩ := good_plane hF cfg hB hmax hf hb hd
  obtain ⟨p3, h3, g3⟩ := good_plane hF cfg hB hmax hh hd hc
  obtain ⟨p4, h4, g4⟩ := good_plane hF cfg hB hmax ha hb hf
  obtain ⟨p5, h5, g5⟩ := good_plane hF cfg hB hmax hb ha hc
  obtain ⟨p6, h6, g6⟩ := good_plane hF cfg hB hmax hg he hf
  refine ⟨⟨p1, p2, p3, p4, p5, p6⟩, by simp only [setupCorners, h1, h2, h3, h4, h5, h6, bind_ok]; rfl, ?_⟩
  unfold Spec.six Spec.faces
  exact .cons g1 (.cons g2 (.cons g3 (.cons g4 (.cons g5 (.cons g6 .nil)))))

private theorem forall2_left {α β : Type*} {R : α → β → Prop} {l : List α} {m : List β} (h : List.Forall₂ R l m) : ∀ a ∈ l, ∃ b ∈ m, R a b := by
  induction h with
  | nil => simp
  | cons hr _ ih =>
    intro a ha
    rcases List.mem_cons.1 ha with rfl | ha
    · exact ⟨_, by simp, hr⟩
    · obtain ⟨b, hb, hr⟩ := ih a ha
      exact ⟨b, by simp [hb], hr⟩

private theorem pow_const (hF : Spec.Usual F) : Spec.cullErr F.u ≤ 402 / 100 * F.u ∧ Spec.boxErr F.u ≤ 81 / 10 * F.u := by
  have u0 := F.u_pos
  have u1 := Usual.u hF
  have g : ∀ n : Nat, n ≤ 8 → (1 + F.u) ^ n - 1 ≤ n * F.u / (1 - n * F.u) := fun n hn => pow_le_gamma u0.le n (by
    have : (n : ℝ) ≤ 8 := by exact_mod_cast hn
    nlinarith)
  constructor
  · refine (g 4 (by norm_num)).trans ?_
    rw [div_le_iff₀ (by push_cast; linarith)]
    push_cast
    nlinarith
  · refine (g 8 (by norm_num)).trans ?_
    rw [div_le_iff₀ (by push_cast; linarith)]
    push_cast
    nlinarith

private theorem sphere_mag (hF : Spec.Usual F) {B : ℝ} (hB : 1 ≤ B) {p : Vec 4 (Fp F)} {t : Vec 3 (Fp F) × Vec 3 (Fp F) × Vec 3 (Fp F)} (hg : Good B p t) {x y z : ℝ}
    (hx : |x| ≤ B) (hy : |y| ≤ B) (hz : |z| ≤ B) : Spec.fplaneMag p x y z ≤ 63 / 10 * B := by
  have t1 := tiny_le hF
  have m : ∀ (i : Fin 3) {x : ℝ}, |x| ≤ B → |p[i.1].val| * |x| ≤ 102 / 100 * B := fun i x h => mul_le_mul (hg.normal i) h (abs_nonneg _) (by norm_num)
  have m0 := m 0 hx
  have m1 := m 1 hy
  have m2 := m 2 hz
  simp only [Fin.isValue, Fin.val_zero, Fin.val_one, Fin.val_two] at m0 m1 m2
  have := hg.offset
  unfold Spec.fplaneMag
  linarith

private theorem grow_room (hF : Spec.Usual F) {B : ℝ} (hB : 1 ≤ B) (hmax : 256 * B ^ 4 ≤ F.maxFinite) {n : Nat} (hn : n ≤ 8) {m : ℝ} (hm : m ≤ 10 * B) (h0 : 0 ≤ m) :
    Spec.grow F n m ≤ F.maxFinite := by
  have u0 := F.u_pos
  have u1 := Usual.u hF
  have hB1 : B ≤ B ^ 4 := le_self_pow₀ hB (by norm_num)
  have : (1 + F.u) ^ n ≤ 2 := by
    calc (1 + F.u) ^ n ≤ (1 + F.u) ^ 8 := pow_le_pow_right₀ (by linarith) hn
      _ ≤ (1 + 1 / 1024) ^ 8 := by gcongr
      _ ≤ 2 := by norm_num
  unfold Spec.grow
  calc (1 + F.u) ^ n * m ≤ 2 * (10 * B) := mul_le_mul this hm h0 (by norm_num)
    _ ≤ _ := by linarith

/-- **C151** `setup( a, ..., h )` followed by `test_sphere`, for corners and a centre with finite coordinates of magnitude at most `B`. The set-up succeeds; NONE is only returned if for some
of the six exact planes through the corners the value at the centre is at most `-radius` up to the error of that face, FULL only if all are at least `radius` up to the error;
and the verdict is NONE, or FULL, if the exact values say so with the error to spare. -/
theorem C151_sphere (hF : Spec.Usual F) (cfg : Cfg) {B : ℝ} (hB : 1 ≤ B) (hmax : 256 * B ^ 4 ≤ F.maxFinite) {a b c d e f g h : Vec 3 (Fp F)}
    (hall : ∀ v ∈ [a, b, c, d, e, f, g, h], Spec.CornerFits B v) :
    ∃ k, setupCorners cfg a b c d e f g h = .ok k ∧ ∀ s : Vec 4 (Fp F), Spec.VFinite s → |s[0].val| ≤ B → |s[1].val| ≤ B → |s[2].val| ≤ B →
      let v := fun t => Spec.sideOf t s[0].val s[1].val s[2].val
      let E := Spec.faceErr F B
      (testSphere k s = .none → ∃ t ∈ Spec.faces a b c d e f g h, v t ≤ -s[3].val + E t) ∧
      (testSphere k s = .full → ∀ t ∈ Spec.faces a b c d e f g h, s[3].val - E t ≤ v t ∧ -s[3].val - E t < v t) ∧
      ((∃ t ∈ Spec.faces a b c d e f g h, v t ≤ -s[3].val - E t) → testSphere k s = .none) ∧
      ((∀ t ∈ Spec.faces a b c d e f g h, -s[3].val + E t < v t ∧ s[3].val + E t ≤ v t) → testSphere k s = .full) := by
  obtain ⟨k, hk, hg⟩ := setup_good hF cfg hB hmax hall
  refine ⟨k, hk, fun s hs b0 b1 b2 => ?_⟩
  have u0 := F.u_pos
  have t0 := F.tiny_pos
  have left := forall2_left hg
  have right := forall2_left hg.flip
  have mag0 : ∀ p : Vec 4 (Fp F), (0 : ℝ) ≤ Spec.fplaneMag p s[0].val s[1].val s[2].val := fun p => by unfold Spec.fplaneMag; positivity
  obtain ⟨c1, c2, c3, c4⟩ := C117_sphere (Usual.pos hF) k s (fun p hp => by obtain ⟨t, -, hg⟩ := left p hp; exact hg.finite) hs
    (fun p hp => by
      obtain ⟨t, -, hg⟩ := left p hp
      exact grow_room hF hB hmax (by norm_num) (by have := sphere_mag hF hB hg b0 b1 b2; linarith) (mag0 p))
  have near : ∀ {p t}, Good B p t → |Spec.fplane p s[0].val s[1].val s[2].val - Spec.sideOf t s[0].val s[1].val s[2].val| +
      Spec.cullErr F.u * Spec.fplaneMag p s[0].val s[1].val s[2].val ≤ Spec.faceErr F B t := by
    intro p t hg
    have h1 := hg.near _ _ _ b0 b1 b2
    have h2 : Spec.cullErr F.u * Spec.fplaneMag p s[0].val s[1].val s[2].val ≤ 402 / 100 * F.u * (63 / 10 * B) :=
      mul_le_mul (pow_const hF).1 (sphere_mag hF hB hg b0 b1 b2) (mag0 p) (by positivity)
    have Lpos : 0 < Spec.faceLen t.1 t.2.1 t.2.2 := by unfold Spec.faceLen; exact Real.sqrt_pos.2 (by positivity)
    have h3 : 0 ≤ F.u * B * (B ^ 2 / Spec.faceLen t.1 t.2.1 t.2.2) := by positivity
    have h4 : 0 ≤ F.u * B := by positivity
    have e1 : (94 + 594 * B ^ 2 / Spec.faceLen t.1 t.2.1 t.2.2) * F.u * B = 94 * (F.u * B) + 594 * (F.u * B * (B ^ 2 / Spec.faceLen t.1 t.2.1 t.2.2)) := by ring
    have e2 : Spec.faceErr F B t = 180 * (F.u * B) + 600 * (F.u * B * (B ^ 2 / Spec.faceLen t.1 t.2.1 t.2.2)) := by unfold Spec.faceErr; ring
    rw [e2]
    rw [e1] at h1
    linarith
  have ap : ∀ {p t}, Good B p t → let q := Spec.fplane p s[0].val s[1].val s[2].val
      let m := Spec.cullErr F.u * Spec.fplaneMag p s[0].val s[1].val s[2].val
      q + m ≤ Spec.sideOf t s[0].val s[1].val s[2].val + Spec.faceErr F B t ∧ Spec.sideOf t s[0].val s[1].val s[2].val - Spec.faceErr F B t ≤ q - m := by
    intro p t hg q m
    have h1 := near hg
    have h2 := abs_le.1 (le_refl |q - Spec.sideOf t s[0].val s[1].val s[2].val|)
    constructor <;> simp only [q, m] at * <;> linarith [h2.1, h2.2]
  refine ⟨?_, ?_, ?_, ?_⟩
  · intro hn
    obtain ⟨p, hp, hv⟩ := c1 hn
    obtain ⟨t, ht, hg⟩ := left p hp
    have := ap hg
    exact ⟨t, ht, by simp only at *; linarith [this.1, this.2]⟩
  · intro hn t ht
    obtain ⟨p, hp, hg⟩ := right t ht
    have := ap hg
    have := c2 hn p hp
    simp only at *
    constructor <;> linarith [this.1, this.2]
  · rintro ⟨t, ht, hv⟩
    obtain ⟨p, hp, hg⟩ := right t ht
    have := ap hg
    exact c3 ⟨p, hp, by simp only at *; linarith [this.1, this.2]⟩
  · intro hn
    refine c4 fun p hp => ?_
    obtain ⟨t, ht, hg⟩ := left p hp
    have := ap hg
    have := hn t ht
    simp only at *
    constructor <;> linarith [this.1, this.2]

/-- The exact normals are shorter than 1. -/
private theorem face_ball {a b c : Vec 3 (Fp F)} {x y z x' y' z' r : ℝ} (hr : 0 ≤ r) (hb : (x' - x) ^ 2 + (y' - y) ^ 2 + (z' - z) ^ 2 ≤ r ^ 2) :
    |Spec.faceSide a b c x' y' z' - Spec.faceSide a b c x y z| ≤ r := by
  set w := Spec.faceCross a b c with hw
  set L := Spec.faceLen a b c with hL
  have L2 : L ^ 2 = w 0 ^ 2 + w 1 ^ 2 + w 2 ^ 2 + 1 := by rw [hL]; unfold Spec.faceLen; exact Real.sq_sqrt (by positivity)
  have Lpos : 0 < L := by rw [hL]; unfold Spec.faceLen; exact Real.sqrt_pos.2 (by positivity)
  have e : Spec.faceSide a b c x' y' z' - Spec.faceSide a b c x y z = (w 0 * (x' - x) + w 1 * (y' - y) + w 2 * (z' - z)) / L := by
    unfold Spec.faceSide; rw [← hw, ← hL]; ring
  rw [e, abs_div, abs_of_pos Lpos, div_le_iff₀ Lpos]
  refine abs_le_of_sq_le_sq ?_ (by positivity)
  obtain ⟨s, hs⟩ : ∃ s, s = (x' - x) ^ 2 + (y' - y) ^ 2 + (z' - z) ^ 2 := ⟨_, rfl⟩
  have s0 : 0 ≤ s := by rw [hs]; positivity
  have cs : (w 0 * (x' - x) + w 1 * (y' - y) + w 2 * (z' - z)) ^ 2 ≤ (w 0 ^ 2 + w 1 ^ 2 + w 2 ^ 2) * s := by
    rw [hs]
    nlinarith [sq_nonneg (w 0 * (y' - y) - w 1 * (x' - x)), sq_nonneg (w 0 * (z' - z) - w 2 * (x' - x)), sq_nonneg (w 1 * (z' - z) - w 2 * (y' - y))]
  calc _ ≤ (w 0 ^ 2 + w 1 ^ 2 + w 2 ^ 2) * s := cs
    _ ≤ L ^ 2 * r ^ 2 := mul_le_mul (by linarith) (by linarith) s0 (by positivity)
    _ = _ := by ring

/-- **C151** No sphere is culled wrongly: if `test_sphere` returns NONE, then one of the six exact planes has every point of the ball behind it up to the error of that face; and
if it returns FULL, every point of the ball is in front of every plane up to the error. -/
theorem C151_sphere_sound (hF : Spec.Usual F) (cfg : Cfg) {B : ℝ} (hB : 1 ≤ B) (hmax : 256 * B ^ 4 ≤ F.maxFinite) {a b c d e f g h : Vec 3 (Fp F)}
    (hall : ∀ v ∈ [a, b, c, d, e, f, g, h], Spec.CornerFits B v) :
    ∃ k, setupCorners cfg a b c d e f g h = .ok k ∧ ∀ s : Vec 4 (Fp F), Spec.VFinite s → |s[0].val| ≤ B → |s[1].val| ≤ B → |s[2].val| ≤ B → (0 : ℝ) ≤ s[3].val →
      let InBall := fun x y z : ℝ => (x - s[0].val) ^ 2 + (y - s[1].val) ^ 2 + (z - s[2].val) ^ 2 ≤ s[3].val ^ 2
      (testSphere k s = .none → ∃ t ∈ Spec.faces a b c d e f g h, ∀ x y z, InBall x y z → Spec.sideOf t x y z ≤ Spec.faceErr F B t) ∧
      (testSphere k s = .full → ∀ t ∈ Spec.faces a b c d e f g h, ∀ x y z, InBall x y z → -Spec.faceErr F B t ≤ Spec.sideOf t x y z) := by
  obtain ⟨k, hk, hv⟩ := C151_sphere hF cfg hB hmax hall
  refine ⟨k, hk, fun s hs b0 b1 b2 hr => ?_⟩
  obtain ⟨c1, c2, -, -⟩ := hv s hs b0 b1 b2
  refine ⟨fun hn => ?_, fun hn t ht x y z hb => ?_⟩
  · obtain ⟨t, ht, hv⟩ := c1 hn
    refine ⟨t, ht, fun x y z hb => ?_⟩
    have := (abs_le.1 (face_ball (a := t.1) (b := t.2.1) (c := t.2.2) hr hb)).2
    unfold Spec.sideOf at *
    simp only at *
    linarith
  · have hv := (c2 hn t ht).1
    have := (abs_le.1 (face_ball (a := t.1) (b := t.2.1) (c := t.2.2) hr hb)).1
    unfold Spec.sideOf at *
    simp only at *
    linarith

/-! ## Boxes -/

private theorem box_mag (hF : Spec.Usual F) {B : ℝ} (hB : 1 ≤ B) {p : Vec 4 (Fp F)} {t : Vec 3 (Fp F) × Vec 3 (Fp F) × Vec 3 (Fp F)} (hg : Good B p t) {x y z : Vec 2 (Fp F)}
    (hx : ∀ i : Fin 2, |x[i].val| ≤ B) (hy : ∀ i : Fin 2, |y[i].val| ≤ B) (hz : ∀ i : Fin 2, |z[i].val| ≤ B) :
    0 ≤ Spec.fboxMag p x y z ∧ Spec.fboxMag p x y z ≤ 94 / 10 * B := by
  have t1 := tiny_le hF
  have t0 := F.tiny_pos
  refine ⟨by unfold Spec.fboxMag; positivity, ?_⟩
  have m : ∀ (i : Fin 3) {x : Vec 2 (Fp F)}, (∀ i : Fin 2, |x[i].val| ≤ B) → |p[i.1].val| * (|x[0].val| + |x[1].val|) ≤ 102 / 100 * (2 * B) := fun i x h =>
    mul_le_mul (hg.normal i) (by have h1 := h 0; have h2 := h 1; simp at h1 h2; linarith) (by positivity) (by norm_num)
  have m0 := m 0 hx
  have m1 := m 1 hy
  have m2 := m 2 hz
  have k0 := hg.normal 0
  have k1 := hg.normal 1
  have k2 := hg.normal 2
  simp only [Fin.isValue, Fin.val_zero, Fin.val_one, Fin.val_two] at m0 m1 m2 k0 k1 k2
  have := hg.offset
  have k : ((2 : ℝ) * (|p[0].val| + |p[1].val| + |p[2].val|) + (7 : ℝ)) * F.tiny ≤ 14 * (1 / 512) := mul_le_mul (by linarith) t1 t0.le (by norm_num)
  unfold Spec.fboxMag
  linarith

/-- **C151** `setup( a, ..., h )` followed by `test_aabb`, for corners and boxes with finite coordinates of magnitude at most `B`: if some point of the box is in front of each of the six exact
planes through the corners by more than the error of that face, the box is not culled; if the box is reported fully visible, every point of it is in front of every exact plane up
to the error. -/
theorem C151_box (hF : Spec.Usual F) (cfg : Cfg) (half : Fp F) (hh : half.Finite) (hv : half.val = 1 / 2) {B : ℝ} (hB : 1 ≤ B) (hmax : 256 * B ^ 4 ≤ F.maxFinite)
    {a b c d e f g h : Vec 3 (Fp F)} (hall : ∀ v ∈ [a, b, c, d, e, f, g, h], Spec.CornerFits B v) :
    ∃ k, setupCorners cfg a b c d e f g h = .ok k ∧ ∀ x y z : Vec 2 (Fp F),
      (∀ w ∈ [x, y, z], Spec.VFinite w ∧ ∀ i : Fin 2, |w[i].val| ≤ B) →
      ∃ r, testAabb cfg half k x y z = .ok r ∧
        (∀ X Y Z, Spec.FBoxHas x y z X Y Z → (∀ t ∈ Spec.faces a b c d e f g h, Spec.faceErr F B t < Spec.sideOf t X Y Z) → r ≠ .none) ∧
        (r = .full → ∀ X Y Z, Spec.FBoxHas x y z X Y Z → ∀ t ∈ Spec.faces a b c d e f g h, -Spec.faceErr F B t ≤ Spec.sideOf t X Y Z) := by
  obtain ⟨k, hk, hg⟩ := setup_good hF cfg hB hmax hall
  refine ⟨k, hk, fun x y z hb => ?_⟩
  simp only [List.mem_cons, List.not_mem_nil, or_false, forall_eq_or_imp, forall_eq] at hb
  obtain ⟨⟨fx, bx⟩, ⟨fy, by'⟩, fz, bz⟩ := hb
  have u0 := F.u_pos
  have t1 := tiny_le hF
  have t0 := F.tiny_pos
  have left := forall2_left hg
  have right := forall2_left hg.flip
  obtain ⟨r, hr, c1, c2⟩ := C117_box (Usual.pos hF) cfg half hh hv k x y z (fun p hp => by obtain ⟨t, -, hg⟩ := left p hp; exact hg.finite) fx fy fz
    (fun p hp => by
      obtain ⟨t, -, hg⟩ := left p hp
      obtain ⟨m0, m1⟩ := box_mag hF hB hg bx by' bz
      exact grow_room hF hB hmax (by norm_num) (by linarith) m0)
    (fun w hw => by
      have hwb : ∀ i : Fin 2, |w[i].val| ≤ B := by
        simp only [List.mem_cons, List.not_mem_nil, or_false] at hw
        rcases hw with rfl | rfl | rfl <;> assumption
      have h1 := hwb 0
      have h2 := hwb 1
      simp only [Fin.getElem_fin, Fin.isValue, Fin.val_zero, Fin.val_one] at h1 h2
      exact grow_room hF hB hmax (by norm_num) (by linarith) (by positivity))
  have inB : ∀ {w : Vec 2 (Fp F)} {X : ℝ}, (∀ i : Fin 2, |w[i].val| ≤ B) → X ∈ Set.uIcc w[0].val w[1].val → |X| ≤ B := by
    intro w X hw hX
    have h1 := abs_le.1 (hw 0)
    have h2 := abs_le.1 (hw 1)
    simp only [Fin.getElem_fin, Fin.isValue, Fin.val_zero, Fin.val_one] at h1 h2
    rw [Set.mem_uIcc] at hX
    rw [abs_le]
    rcases hX with ⟨h3, h4⟩ | ⟨h3, h4⟩ <;> constructor <;> linarith
  have near : ∀ {p t X Y Z}, Good B p t → Spec.FBoxHas x y z X Y Z → |Spec.fplane p X Y Z - Spec.sideOf t X Y Z| + Spec.boxErr F.u * Spec.fboxMag p x y z ≤ Spec.faceErr F B t := by
    intro p t X Y Z hg hb
    have h1 := hg.near X Y Z (inB bx hb.1) (inB by' hb.2.1) (inB bz hb.2.2)
    obtain ⟨m0, m1⟩ := box_mag hF hB hg bx by' bz
    have h2 : Spec.boxErr F.u * Spec.fboxMag p x y z ≤ 81 / 10 * F.u * (94 / 10 * B) := mul_le_mul (pow_const hF).2 m1 m0 (by positivity)
    have Lpos : 0 < Spec.faceLen t.1 t.2.1 t.2.2 := by unfold Spec.faceLen; exact Real.sqrt_pos.2 (by positivity)
    have h3 : 0 ≤ F.u * B * (B ^ 2 / Spec.faceLen t.1 t.2.1 t.2.2) := by positivity
    have h4 : 0 ≤ F.u * B := by positivity
    have e1 : (94 + 594 * B ^ 2 / Spec.faceLen t.1 t.2.1 t.2.2) * F.u * B = 94 * (F.u * B) + 594 * (F.u * B * (B ^ 2 / Spec.faceLen t.1 t.2.1 t.2.2)) := by ring
    have e2 : Spec.faceErr F B t = 180 * (F.u * B) + 600 * (F.u * B * (B ^ 2 / Spec.faceLen t.1 t.2.1 t.2.2)) := by unfold Spec.faceErr; ring
    rw [e2]
    rw [e1] at h1
    linarith
  refine ⟨r, hr, fun X Y Z hb hv => c1 X Y Z hb fun p hp => ?_, fun hf X Y Z hb t ht => ?_⟩
  · obtain ⟨t, ht, hg⟩ := left p hp
    have h1 := near hg hb
    have h2 := neg_abs_le (Spec.fplane p X Y Z - Spec.sideOf t X Y Z)
    have h3 := hv t ht
    simp only
    linarith
  · obtain ⟨p, hp, hg⟩ := right t ht
    have h1 := near hg hb
    have h2 := le_abs_self (Spec.fplane p X Y Z - Spec.sideOf t X Y Z)
    have h3 := c2 hf X Y Z hb p hp
    simp only at h3
    linarith

/-! ## A concrete case -/

/-- A `float` point with small integer coordinates. -/
private noncomputable def pt (x y z : Int) : Vec 3 (Fp single) := #v[Fp.ofReal (x : ℝ), Fp.ofReal (y : ℝ), Fp.ofReal (z : ℝ)]

private theorem pt_val {x y z : Int} (hx : |x| ≤ 2) (hy : |y| ≤ 2) (hz : |z| ≤ 2) :
    Spec.CornerFits 2 (pt x y z) ∧ (pt x y z)[(0 : Fin 3)].val = x ∧ (pt x y z)[(1 : Fin 3)].val = y ∧ (pt x y z)[(2 : Fin 3)].val = z := by
  have q : ∀ {k : Int}, |k| ≤ 2 → (Fp.ofReal (k : ℝ) : Fp single).Finite ∧ (Fp.ofReal (k : ℝ) : Fp single).val = k := fun {k} hk =>
    Quant.ofReal_int (F := single) (by decide) (hk.trans (by norm_num))
  have r : ∀ {k : Int}, |k| ≤ 2 → |(Fp.ofReal (k : ℝ) : Fp single).val| ≤ 2 := fun {k} hk => by
    rw [(q hk).2]; exact_mod_cast hk
  refine ⟨fun i => ?_, (q hx).2, (q hy).2, (q hz).2⟩
  match i with
  | 0 => exact ⟨(q hx).1, r hx⟩
  | 1 => exact ⟨(q hy).1, r hy⟩
  | 2 => exact ⟨(q hz).1, r hz⟩

/-- The `float` frustum with a near square `[-1, 1]²` at distance 1 and a far square `[-2, 2]²` at distance 2 meets the hypotheses with `B = 2`; the error of the near plane is below
`1e-4`. -/
example : (∀ v ∈ [pt (-1) 1 (-1), pt 1 1 (-1), pt (-1) (-1) (-1), pt 1 (-1) (-1), pt (-2) 2 (-2), pt 2 2 (-2), pt (-2) (-2) (-2), pt 2 (-2) (-2)], Spec.CornerFits 2 v) ∧
    256 * (2 : ℝ) ^ 4 ≤ single.maxFinite ∧ Spec.faceErr single 2 (pt 1 1 (-1), pt (-1) 1 (-1), pt (-1) (-1) (-1)) ≤ 1 / 10000 := by
  refine ⟨?_, by norm_num [maxFinite], ?_⟩
  · intro v hv
    simp only [List.mem_cons, List.not_mem_nil, or_false] at hv
    rcases hv with rfl | rfl | rfl | rfl | rfl | rfl | rfl | rfl <;> exact (pt_val (by norm_num) (by norm_num) (by norm_num)).1
  · obtain ⟨-, a0, a1, a2⟩ := pt_val (x := 1) (y := 1) (z := -1) (by norm_num) (by norm_num) (by norm_num)
    obtain ⟨-, b0, b1, b2⟩ := pt_val (x := -1) (y := 1) (z := -1) (by norm_num) (by norm_num) (by norm_num)
    obtain ⟨-, c0, c1, c2⟩ := pt_val (x := -1) (y := -1) (z := -1) (by norm_num) (by norm_num) (by norm_num)
    have w0 : Spec.faceCross (pt 1 1 (-1)) (pt (-1) 1 (-1)) (pt (-1) (-1) (-1)) 0 = 0 := by
      show Spec.fedge _ _ 1 * Spec.fedge _ _ 2 - Spec.fedge _ _ 2 * Spec.fedge _ _ 1 = 0
      simp only [Spec.fedge, a0, a1, a2, b0, b1, b2, c0, c1, c2]; norm_num
    have w1 : Spec.faceCross (pt 1 1 (-1)) (pt (-1) 1 (-1)) (pt (-1) (-1) (-1)) 1 = 0 := by
      show Spec.fedge _ _ 2 * Spec.fedge _ _ 0 - Spec.fedge _ _ 0 * Spec.fedge _ _ 2 = 0
      simp only [Spec.fedge, a0, a1, a2, b0, b1, b2, c0, c1, c2]; norm_num
    have w2 : Spec.faceCross (pt 1 1 (-1)) (pt (-1) 1 (-1)) (pt (-1) (-1) (-1)) 2 = -4 := by
      show Spec.fedge _ _ 0 * Spec.fedge _ _ 1 - Spec.fedge _ _ 1 * Spec.fedge _ _ 0 = -4
      simp only [Spec.fedge, a0, a1, a2, b0, b1, b2, c0, c1, c2]; norm_num
    have hL : 4 ≤ Spec.faceLen (pt 1 1 (-1)) (pt (-1) 1 (-1)) (pt (-1) (-1) (-1)) := by
      unfold Spec.faceLen
      rw [w0, w1, w2]
      exact Real.le_sqrt_of_sq_le (by norm_num)
    unfold Spec.faceErr
    calc _ ≤ (180 + 600 * (2 : ℝ) ^ 2 / 4) * single.u * 2 := by have := single.u_pos; gcongr
      _ ≤ _ := by norm_num [u]

end Vmml
