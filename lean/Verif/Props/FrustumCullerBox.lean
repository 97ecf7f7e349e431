import Verif.Props.FrustumCuller
import Mathlib.LinearAlgebra.Matrix.ToLinearEquiv

/-!
# C67, C68: culling boxes; planes from corner points
-/

set_option linter.unusedSimpArgs false

namespace Vmml
open Culler
open Mat hiding ctor x y z

/-! ## C67 -/

/-- A point of the box spanned by the coordinate pairs (in either order). -/
def Spec.InBox (x y z : Vec 2 ℝ) (a b c : ℝ) : Prop :=
  min x[0] x[1] ≤ a ∧ a ≤ max x[0] x[1] ∧ min y[0] y[1] ≤ b ∧ b ≤ max y[0] y[1] ∧ min z[0] z[1] ≤ c ∧ c ≤ max z[0] z[1]

/-- The extreme values of `c t` for `t` between `a` and `b`. -/
theorem slab (a b c : ℝ) :
    (∀ t, min a b ≤ t → t ≤ max a b → c * ((a + b) * (1 / 2)) - |b - a| * (1 / 2) * |c| ≤ c * t ∧
      c * t ≤ c * ((a + b) * (1 / 2)) + |b - a| * (1 / 2) * |c|) ∧
    (∃ t, min a b ≤ t ∧ t ≤ max a b ∧ c * t = c * ((a + b) * (1 / 2)) - |b - a| * (1 / 2) * |c|) ∧
    (∃ t, min a b ≤ t ∧ t ≤ max a b ∧ c * t = c * ((a + b) * (1 / 2)) + |b - a| * (1 / 2) * |c|) := by
  have hmx : (a + b) * (1 / 2) + |b - a| * (1 / 2) = max a b := by
    rcases le_total a b with h | h
    · rw [abs_of_nonneg (by linarith), max_eq_right h]; ring
    · rw [abs_of_nonpos (by linarith), max_eq_left h]; ring
  have hmn : (a + b) * (1 / 2) - |b - a| * (1 / 2) = min a b := by
    rcases le_total a b with h | h
    · rw [abs_of_nonneg (by linarith), min_eq_left h]; ring
    · rw [abs_of_nonpos (by linarith), min_eq_right h]; ring
  have hle : min a b ≤ max a b := min_le_max
  rcases le_total 0 c with hc | hc
  · rw [abs_of_nonneg hc]
    refine ⟨fun t h1 h2 => ⟨?_, ?_⟩, ⟨min a b, le_rfl, hle, ?_⟩, ⟨max a b, hle, le_rfl, ?_⟩⟩
    · have := mul_le_mul_of_nonneg_left h1 hc; rw [← hmn] at this; linarith
    · have := mul_le_mul_of_nonneg_left h2 hc; rw [← hmx] at this; linarith
    · rw [← hmn]; ring
    · rw [← hmx]; ring
  · rw [abs_of_nonpos hc]
    refine ⟨fun t h1 h2 => ⟨?_, ?_⟩, ⟨max a b, hle, le_rfl, ?_⟩, ⟨min a b, le_rfl, hle, ?_⟩⟩
    · have := mul_le_mul_of_nonpos_left h2 hc; rw [← hmx] at this; linarith
    · have := mul_le_mul_of_nonpos_left h1 hc; rw [← hmn] at this; linarith
    · rw [← hmx]; ring
    · rw [← hmn]; ring

/-- The centre value and the radius of the plane equation over the box. -/
noncomputable def boxD (p : Vec 4 ℝ) (x y z : Vec 2 ℝ) : ℝ :=
  Spec.side p ((x[0] + x[1]) * (1 / 2)) ((y[0] + y[1]) * (1 / 2)) ((z[0] + z[1]) * (1 / 2))
noncomputable def boxN (p : Vec 4 ℝ) (x y z : Vec 2 ℝ) : ℝ :=
  |x[1] - x[0]| * (1 / 2) * |p[0]| + |y[1] - y[0]| * (1 / 2) * |p[1]| + |z[1] - z[0]| * (1 / 2) * |p[2]|

theorem box_extremes (p : Vec 4 ℝ) (x y z : Vec 2 ℝ) :
    (∀ a b c, Spec.InBox x y z a b c → boxD p x y z - boxN p x y z ≤ Spec.side p a b c ∧ Spec.side p a b c ≤ boxD p x y z + boxN p x y z) ∧
    (∃ a b c, Spec.InBox x y z a b c ∧ Spec.side p a b c = boxD p x y z - boxN p x y z) ∧
    (∃ a b c, Spec.InBox x y z a b c ∧ Spec.side p a b c = boxD p x y z + boxN p x y z) := by
  obtain ⟨x1, ⟨xa, xa1, xa2, xa3⟩, ⟨xb, xb1, xb2, xb3⟩⟩ := slab x[0] x[1] p[0]
  obtain ⟨y1, ⟨ya, ya1, ya2, ya3⟩, ⟨yb, yb1, yb2, yb3⟩⟩ := slab y[0] y[1] p[1]
  obtain ⟨z1, ⟨za, za1, za2, za3⟩, ⟨zb, zb1, zb2, zb3⟩⟩ := slab z[0] z[1] p[2]
  refine ⟨?_, ⟨xa, ya, za, ⟨xa1, xa2, ya1, ya2, za1, za2⟩, ?_⟩, ⟨xb, yb, zb, ⟨xb1, xb2, yb1, yb2, zb1, zb2⟩, ?_⟩⟩
  · rintro a b c ⟨h1, h2, h3, h4, h5, h6⟩
    obtain ⟨e1, e2⟩ := x1 a h1 h2
    obtain ⟨e3, e4⟩ := y1 b h3 h4
    obtain ⟨e5, e6⟩ := z1 c h5 h6
    unfold boxD boxN Spec.side
    constructor <;> linarith
  · unfold boxD boxN Spec.side; linarith
  · unfold boxD boxN Spec.side; linarith

theorem testAabbPlane_eq (cfg : Cfg) (p : Vec 4 ℝ) (x y z : Vec 2 ℝ) :
    testAabbPlane cfg p (Vector.ofFn fun i : Fin 3 => (#v[x[0] + x[1], y[0] + y[1], z[0] + z[1]] : Vec 3 ℝ)[i] * (1 / 2))
      (Vector.ofFn fun i : Fin 3 => (#v[|x[1] - x[0]|, |y[1] - y[0]|, |z[1] - z[0]|] : Vec 3 ℝ)[i] * (1 / 2)) =
    .ok (if 0 ≤ boxD p x y z - boxN p x y z then .full else if 0 < boxD p x y z + boxN p x y z then .partly else .none) := by
  simp only [testAabbPlane, toHomogeneous_eq, bind_ok, Vec.dot_eq, fabs_real]
  have e : ∀ w : ℝ, ∀ u : Vec 3 ℝ, ∑ i : Fin 4, p[i] * (Vector.ofFn fun j : Fin (3 + 1) => if h : j.1 < 3 then u[j.1] else w)[i] =
      p[0] * u[0] + p[1] * u[1] + p[2] * u[2] + p[3] * w := by
    intro w u; simp [Fin.sum_univ_four]
  rw [e]
  have e1 : p[0] * (Vector.ofFn fun i : Fin 3 => (#v[x[0] + x[1], y[0] + y[1], z[0] + z[1]] : Vec 3 ℝ)[i] * (1 / 2))[0] +
      p[1] * (Vector.ofFn fun i : Fin 3 => (#v[x[0] + x[1], y[0] + y[1], z[0] + z[1]] : Vec 3 ℝ)[i] * (1 / 2))[1] +
      p[2] * (Vector.ofFn fun i : Fin 3 => (#v[x[0] + x[1], y[0] + y[1], z[0] + z[1]] : Vec 3 ℝ)[i] * (1 / 2))[2] + p[3] * 1 = boxD p x y z := by
    simp [boxD, Spec.side]
  have e2 : (Vector.ofFn fun i : Fin 3 => (#v[|x[1] - x[0]|, |y[1] - y[0]|, |z[1] - z[0]|] : Vec 3 ℝ)[i] * (1 / 2))[0] * |p[0]| +
      (Vector.ofFn fun i : Fin 3 => (#v[|x[1] - x[0]|, |y[1] - y[0]|, |z[1] - z[0]|] : Vec 3 ℝ)[i] * (1 / 2))[1] * |p[1]| +
      (Vector.ofFn fun i : Fin 3 => (#v[|x[1] - x[0]|, |y[1] - y[0]|, |z[1] - z[0]|] : Vec 3 ℝ)[i] * (1 / 2))[2] * |p[2]| = boxN p x y z := by
    simp [boxN]
  simp only [e1, e2]
  split_ifs <;> rfl

theorem testAabbFrom_eq (cfg : Cfg) (middle extent : Vec 3 ℝ) (g : Vec 4 ℝ → Visibility)
    (hg : ∀ p, testAabbPlane cfg p middle extent = .ok (g p)) (l : List (Vec 4 ℝ)) (v : Visibility) (hv : v ≠ .none) :
    ∃ r, testAabbFrom cfg middle extent l v = .ok r ∧ (r = .none ↔ ∃ p ∈ l, g p = .none) ∧
      (r = .full ↔ v = .full ∧ ∀ p ∈ l, g p = .full) := by
  induction l generalizing v with
  | nil => exact ⟨v, rfl, by simp [hv], by simp⟩
  | cons p l ih =>
    simp only [testAabbFrom, hg, bind_ok]
    cases hp : g p with
    | none => exact ⟨.none, rfl, by simp [hp], by simp [hp]⟩
    | partly =>
      obtain ⟨r, h1, h2, h3⟩ := ih .partly (by simp)
      exact ⟨r, h1, by simp [hp, h2], by simp [hp, h3]⟩
    | full =>
      obtain ⟨r, h1, h2, h3⟩ := ih v hv
      exact ⟨r, h1, by simp [hp, h2], by simp [hp, h3]⟩

/-- C67. `test_aabb` is exact plane by plane, for every set of planes and every box (coordinate pairs in either order): it always returns;
NONE exactly if the whole box is behind (or on) some plane and not entirely on it; FULL exactly if the whole box is in front of (or on)
every plane. -/
theorem C67_exact (cfg : Cfg) (k : Culler ℝ) (x y z : Vec 2 ℝ) :
    ∃ v, testAabb cfg (1 / 2) k x y z = .ok v ∧
      (v = .none ↔ ∃ p ∈ Spec.planes k, (∀ a b c, Spec.InBox x y z a b c → Spec.side p a b c ≤ 0) ∧
        ∃ a b c, Spec.InBox x y z a b c ∧ Spec.side p a b c < 0) ∧
      (v = .full ↔ ∀ p ∈ Spec.planes k, ∀ a b c, Spec.InBox x y z a b c → 0 ≤ Spec.side p a b c) := by
  obtain ⟨r, h1, h2, h3⟩ := testAabbFrom_eq cfg _ _ _ (fun p => testAabbPlane_eq cfg p x y z) (Spec.planes k) .full (by simp)
  refine ⟨r, ?_, ?_, ?_⟩
  · simp only [testAabb, Vec.mulS_eq, bind_ok, fabs_real]
    exact h1
  · rw [h2]
    refine exists_congr fun p => and_congr_right fun _ => ?_
    obtain ⟨b1, ⟨a2, b2, c2, i2, e2⟩, ⟨a3, b3, c3, i3, e3⟩⟩ := box_extremes p x y z
    split_ifs with g1 g2
    · simp only [reduceCtorEq, false_iff, not_and, not_exists]
      intro _ a b c hi hlt
      have := (b1 a b c hi).1
      linarith
    · simp only [reduceCtorEq, false_iff, not_and, not_exists]
      intro h
      have := h a3 b3 c3 i3
      linarith
    · simp only [true_iff]
      refine ⟨fun a b c hi => ?_, a2, b2, c2, i2, ?_⟩
      · have := (b1 a b c hi).2; linarith
      · linarith
  · rw [h3]
    simp only [true_and]
    refine forall_congr' fun p => forall_congr' fun _ => ?_
    obtain ⟨b1, ⟨a2, b2, c2, i2, e2⟩, -⟩ := box_extremes p x y z
    split_ifs with g1 g2
    · simp only [true_iff]
      intro a b c hi
      have := (b1 a b c hi).1
      linarith
    · simp only [reduceCtorEq, false_iff]
      intro h
      have := h a2 b2 c2 i2
      linarith
    · simp only [reduceCtorEq, false_iff]
      intro h
      have := h a2 b2 c2 i2
      linarith

/-- C67. No false culling: with verdict NONE no point of the box is strictly in front of all planes; with verdict FULL every point of the box is in front
of (or on) all planes. -/
theorem C67_sound (cfg : Cfg) (k : Culler ℝ) (x y z : Vec 2 ℝ) (v : Visibility) (h : testAabb cfg (1 / 2) k x y z = .ok v) :
    (v = .none → ∀ a b c, Spec.InBox x y z a b c → ¬ ∀ p ∈ Spec.planes k, 0 < Spec.side p a b c) ∧
    (v = .full → ∀ a b c, Spec.InBox x y z a b c → ∀ p ∈ Spec.planes k, 0 ≤ Spec.side p a b c) := by
  obtain ⟨v', h1, h2, h3⟩ := C67_exact cfg k x y z
  obtain rfl : v = v' := by rw [h] at h1; injection h1
  constructor
  · intro hv a b c hi hall
    obtain ⟨p, hp, h4, -⟩ := h2.1 hv
    exact absurd (hall p hp) (not_lt.2 (h4 a b c hi))
  · intro hv a b c hi p hp
    exact h3.1 hv p hp a b c hi

/-- C67. The cube `[-1, 1]³` and a box outside of it. -/
example (cfg : Cfg) : let k : Culler ℝ := ⟨#v[1, 0, 0, 1], #v[-1, 0, 0, 1], #v[0, 1, 0, 1], #v[0, -1, 0, 1], #v[0, 0, -1, 1], #v[0, 0, 1, 1]⟩
    testAabb cfg (1 / 2) k #v[3, 2] #v[0, 1] #v[0, 1] = .ok .none := by
  intro k
  obtain ⟨v, h1, h2, -⟩ := C67_exact cfg k #v[3, 2] #v[0, 1] #v[0, 1]
  rw [h1, h2.2]
  refine ⟨k.right, by simp [Spec.planes], ?_, 3, 0, 0, ?_, ?_⟩
  · rintro a b c ⟨h1, -⟩
    simp [k, Spec.side] at h1 ⊢
    rcases h1 with h | h <;> linarith
  · simp [Spec.InBox]
  · simp [k, Spec.side]

/-! ## C68 -/

/-- The corners of a frustum in eye space: on the near or the far plane, left or right, bottom or top. -/
noncomputable def Spec.corner (f : Frustum ℝ) (far right top : Bool) : Vec 3 ℝ :=
  let s := if far then f.farPlane / f.nearPlane else 1
  #v[s * (if right then f.right else f.left), s * (if top then f.top else f.bottom), if far then -f.farPlane else -f.nearPlane]

/-- A modelview matrix: affine (last row `0 0 0 1`), invertible and orientation preserving. -/
structure Spec.ModelView (V : Matrix (Fin 4) (Fin 4) ℝ) : Prop where
  last : V 3 = ![0, 0, 0, 1]
  det : 0 < (Spec.block3 V).det

set_option maxHeartbeats 1000000 in
/-- The plane computed from three points is a positive multiple of the pulled back plane `e V`, if the images of the points span the plane `e`, oriented
positively. -/
theorem plane_of_points (cfg : Cfg) {V : Matrix (Fin 4) (Fin 4) ℝ} (hV : Spec.ModelView V) (a b c a' b' c' : Vec 3 ℝ)
    (ha : ∀ i (hi : i < 3), a'[i] = homRow (K := 3) V (fun j => a[j]) ⟨i, by omega⟩)
    (hb : ∀ i (hi : i < 3), b'[i] = homRow (K := 3) V (fun j => b[j]) ⟨i, by omega⟩)
    (hc : ∀ i (hi : i < 3), c'[i] = homRow (K := 3) V (fun j => c[j]) ⟨i, by omega⟩)
    (e : Vec 4 ℝ) (μ : ℝ) (hμ : 0 < μ)
    (h0 : (b'[1] - c'[1]) * (a'[2] - b'[2]) - (b'[2] - c'[2]) * (a'[1] - b'[1]) = μ * e[0])
    (h1 : (b'[2] - c'[2]) * (a'[0] - b'[0]) - (b'[0] - c'[0]) * (a'[2] - b'[2]) = μ * e[1])
    (h2 : (b'[0] - c'[0]) * (a'[1] - b'[1]) - (b'[1] - c'[1]) * (a'[0] - b'[0]) = μ * e[2])
    (h3 : e[0] * a'[0] + e[1] * a'[1] + e[2] * a'[2] + e[3] = 0) :
    ∃ p, Vec.computePlane cfg a b c = .ok p ∧ Spec.normalSq p < 1 ∧ ∃ k : ℝ, 0 < k ∧
      p = Vector.ofFn fun j : Fin 4 => k * (e[0] * V 0 j + e[1] * V 1 j + e[2] * V 2 j + e[3] * V 3 j) := by
  obtain ⟨n, k, hk, hn, e0, e1, e2, h5⟩ := computePlane_eq cfg a b c
  have hdet := hV.det
  have l0 : V 3 0 = 0 := by rw [hV.last]; rfl
  have l1 : V 3 1 = 0 := by rw [hV.last]; rfl
  have l2 : V 3 2 = 0 := by rw [hV.last]; rfl
  have l3 : V 3 3 = 1 := by rw [hV.last]; rfl
  simp only [homRow, Fin.sum_univ_three, Fin.getElem_fin] at ha hb hc
  have a0 := ha 0 (by omega)
  have a1 := ha 1 (by omega)
  have a2 := ha 2 (by omega)
  have b0 := hb 0 (by omega)
  have b1 := hb 1 (by omega)
  have b2 := hb 2 (by omega)
  have c0 := hc 0 (by omega)
  have c1 := hc 1 (by omega)
  have c2 := hc 2 (by omega)
  clear ha hb hc
  have f0 : (⟨0, by omega⟩ : Fin (3 + 1)) = (0 : Fin 4) := rfl
  have f1 : (⟨1, by omega⟩ : Fin (3 + 1)) = (1 : Fin 4) := rfl
  have f2 : (⟨2, by omega⟩ : Fin (3 + 1)) = (2 : Fin 4) := rfl
  have g0 : (Fin.castSucc 0 : Fin (3 + 1)) = (0 : Fin 4) := rfl
  have g1 : (Fin.castSucc 1 : Fin (3 + 1)) = (1 : Fin 4) := rfl
  have g2 : (Fin.castSucc 2 : Fin (3 + 1)) = (2 : Fin 4) := rfl
  have g3 : (Fin.last 3 : Fin (3 + 1)) = (3 : Fin 4) := rfl
  have v0 : ((0 : Fin 3) : Nat) = 0 := rfl
  have v1 : ((1 : Fin 3) : Nat) = 1 := rfl
  have v2 : ((2 : Fin 3) : Nat) = 2 := rfl
  simp only [f0, f1, f2, g0, g1, g2, g3, v0, v1, v2] at a0 a1 a2 b0 b1 b2 c0 c1 c2
  have hD : (Spec.block3 V).det = V 0 0 * V 1 1 * V 2 2 - V 0 0 * V 1 2 * V 2 1 - V 0 1 * V 1 0 * V 2 2 + V 0 1 * V 1 2 * V 2 0 +
      V 0 2 * V 1 0 * V 2 1 - V 0 2 * V 1 1 * V 2 0 := by
    rw [Matrix.det_fin_three]; rfl
  generalize hDD : (Spec.block3 V).det = D at *
  refine ⟨_, h5, ?_, k * μ / D, by positivity, ?_⟩
  · simp only [Spec.normalSq, Vector.getElem_mk, List.getElem_toArray, List.getElem_cons_zero, List.getElem_cons_succ]
    have hs : (k * n[0]) ^ 2 + (k * n[1]) ^ 2 + (k * n[2]) ^ 2 = 1 - k ^ 2 := by linear_combination hn
    rw [hs]
    have := pow_pos hk 2
    linarith
  · have key0 : D * n[0] = μ * (e[0] * V 0 0 + e[1] * V 1 0 + e[2] * V 2 0) := by
      rw [e0, hD]
      have : μ * (e[0] * V 0 0 + e[1] * V 1 0 + e[2] * V 2 0) = (μ * e[0]) * V 0 0 + (μ * e[1]) * V 1 0 + (μ * e[2]) * V 2 0 := by ring
      rw [this, ← h0, ← h1, ← h2, a0, a1, a2, b0, b1, b2, c0, c1, c2]; ring
    have key1 : D * n[1] = μ * (e[0] * V 0 1 + e[1] * V 1 1 + e[2] * V 2 1) := by
      rw [e1, hD]
      have : μ * (e[0] * V 0 1 + e[1] * V 1 1 + e[2] * V 2 1) = (μ * e[0]) * V 0 1 + (μ * e[1]) * V 1 1 + (μ * e[2]) * V 2 1 := by ring
      rw [this, ← h0, ← h1, ← h2, a0, a1, a2, b0, b1, b2, c0, c1, c2]; ring
    have key2 : D * n[2] = μ * (e[0] * V 0 2 + e[1] * V 1 2 + e[2] * V 2 2) := by
      rw [e2, hD]
      have : μ * (e[0] * V 0 2 + e[1] * V 1 2 + e[2] * V 2 2) = (μ * e[0]) * V 0 2 + (μ * e[1]) * V 1 2 + (μ * e[2]) * V 2 2 := by ring
      rw [this, ← h0, ← h1, ← h2, a0, a1, a2, b0, b1, b2, c0, c1, c2]; ring
    have hne := hdet.ne'
    have w0 : k * n[0] = k * μ / D * (e[0] * V 0 0 + e[1] * V 1 0 + e[2] * V 2 0) := by
      rw [div_mul_eq_mul_div, eq_div_iff hne]; linear_combination k * key0
    have w1 : k * n[1] = k * μ / D * (e[0] * V 0 1 + e[1] * V 1 1 + e[2] * V 2 1) := by
      rw [div_mul_eq_mul_div, eq_div_iff hne]; linear_combination k * key1
    have w2 : k * n[2] = k * μ / D * (e[0] * V 0 2 + e[1] * V 1 2 + e[2] * V 2 2) := by
      rw [div_mul_eq_mul_div, eq_div_iff hne]; linear_combination k * key2
    ext j hj
    simp only [Vector.getElem_ofFn]
    match j, hj with
    | 0, _ => simp [w0, l0]
    | 1, _ => simp [w1, l1]
    | 2, _ => simp [w2, l2]
    | 3, _ =>
      have : (⟨3, by omega⟩ : Fin 4) = 3 := rfl
      simp only [this, l3, Vector.getElem_mk, List.getElem_toArray, List.getElem_cons_zero, List.getElem_cons_succ]
      have e3 : k * (n[0] * a[0] + n[1] * a[1] + n[2] * a[2]) = (k * n[0]) * a[0] + (k * n[1]) * a[1] + (k * n[2]) * a[2] := by ring
      rw [e3, w0, w1, w2]
      rw [a0, a1, a2] at h3
      linear_combination (-(k * μ / D)) * h3

theorem rawPlane_mul (P V : Matrix (Fin 4) (Fin 4) ℝ) (i : Fin 4) (s : ℝ) :
    rawPlane (P * V) i s = Vector.ofFn fun j : Fin 4 => (rawPlane P i s)[0] * V 0 j + (rawPlane P i s)[1] * V 1 j +
      (rawPlane P i s)[2] * V 2 j + (rawPlane P i s)[3] * V 3 j := by
  ext j hj
  simp [rawPlane, Matrix.mul_apply, Fin.sum_univ_four]
  ring

theorem nonDegenerate_mul {P V : Matrix (Fin 4) (Fin 4) ℝ} (hP : Spec.NonDegenerate P) (hV : Spec.ModelView V) : Spec.NonDegenerate (P * V) := by
  intro i hi s hs
  by_contra hcon
  push Not at hcon
  obtain ⟨j, hj, hne⟩ := hP i hi s hs
  let e : Fin 3 → ℝ := fun j => P 3 j.castSucc + s * P i j.castSucc
  have hz : Matrix.vecMul e (Spec.block3 V) = 0 := by
    funext j
    have h1 := hcon j.castSucc (by fin_cases j <;> decide)
    have hl : V 3 j.castSucc = 0 := by rw [hV.last]; fin_cases j <;> rfl
    simp only [Matrix.mul_apply, Fin.sum_univ_four, hl] at h1
    simp only [Matrix.vecMul, dotProduct, Fin.sum_univ_three, e, Spec.block3, Matrix.submatrix_apply, Pi.zero_apply]
    change (P 3 0 + s * P i 0) * V 0 j.castSucc + (P 3 1 + s * P i 1) * V 1 j.castSucc + (P 3 2 + s * P i 2) * V 2 j.castSucc = 0
    linarith
  have h0 := Matrix.eq_zero_of_vecMul_eq_zero hV.det.ne' hz
  apply hne
  fin_cases j
  · exact congrFun h0 0
  · exact congrFun h0 1
  · exact congrFun h0 2
  · exact absurd rfl hj

/-- The three image points needed by `plane_of_points`. -/
theorem image_of_corner (cfg : Cfg) {V : Mat 4 4 ℝ} (hV : Spec.ModelView V.toMat) {w u : Vec 3 ℝ} (h : V.mulVecHom cfg w = .ok u) :
    ∀ i (hi : i < 3), u[i] = homRow (K := 3) V.toMat (fun j => w[j]) ⟨i, by omega⟩ := by
  rw [mulVecHom_eq] at h
  injection h with h
  intro i hi
  rw [← h]
  have hl : homRow (K := 3) V.toMat (fun j => w[j]) (Fin.last 3) = 1 := by
    have : V.toMat (Fin.last 3) = ![0, 0, 0, 1] := hV.last
    simp only [homRow, this, Fin.sum_univ_three]
    simp
  simp only [Vector.getElem_ofFn, hl, div_one]
  rfl

/-- The matrix of the frustum, its planes. -/
theorem rawPlane_perspective (f : Frustum ℝ) (hf : Spec.Good f) (cfg : Cfg) (m P : Mat 4 4 ℝ) (hP : f.computeMatrix cfg m = .ok P) :
    rawPlane P.toMat 0 1 = #v[2 * f.nearPlane / (f.right - f.left), 0, 2 * f.left / (f.right - f.left), (0 : ℝ)] ∧
    rawPlane P.toMat 0 (-1) = #v[-2 * f.nearPlane / (f.right - f.left), 0, -2 * f.right / (f.right - f.left), (0 : ℝ)] ∧
    rawPlane P.toMat 1 1 = #v[0, 2 * f.nearPlane / (f.top - f.bottom), 2 * f.bottom / (f.top - f.bottom), (0 : ℝ)] ∧
    rawPlane P.toMat 1 (-1) = #v[0, -2 * f.nearPlane / (f.top - f.bottom), -2 * f.top / (f.top - f.bottom), (0 : ℝ)] ∧
    rawPlane P.toMat 2 1 = #v[0, 0, -2 * f.farPlane / (f.farPlane - f.nearPlane), (-2 : ℝ) * f.farPlane * f.nearPlane / (f.farPlane - f.nearPlane)] ∧
    rawPlane P.toMat 2 (-1) = #v[0, 0, 2 * f.nearPlane / (f.farPlane - f.nearPlane), (2 : ℝ) * f.farPlane * f.nearPlane / (f.farPlane - f.nearPlane)] := by
  obtain ⟨P', h1, h2⟩ := computeMatrix_eq cfg f m
  obtain rfl : P' = P := by rw [h1] at hP; injection hP
  have d1 := (sub_pos.2 hf.lr).ne'
  have d2 := (sub_pos.2 hf.bt).ne'
  have d3 := (sub_pos.2 hf.nf).ne'
  rw [h2]
  refine ⟨?_, ?_, ?_, ?_, ?_, ?_⟩ <;> ext j hj <;> simp only [rawPlane, Vector.getElem_ofFn] <;> (
    match j, hj with
    | 0, _ => simp <;> (try field_simp) <;> (try ring)
    | 1, _ => simp <;> (try field_simp) <;> (try ring)
    | 2, _ => simp <;> (try field_simp) <;> (try ring)
    | 3, _ => simp <;> (try field_simp) <;> (try ring))

/-- `p` is `q` scaled by a positive factor: the same plane with the same front side. -/
def Spec.SameSide (p q : Vec 4 ℝ) : Prop := ∃ s : ℝ, 0 < s ∧ ∀ i (hi : i < 4), p[i] = s * q[i]

theorem Spec.SameSide.side {p q : Vec 4 ℝ} (h : Spec.SameSide p q) : ∃ s : ℝ, 0 < s ∧ ∀ x y z, Spec.side p x y z = s * Spec.side q x y z := by
  obtain ⟨s, hs, h⟩ := h
  refine ⟨s, hs, fun x y z => ?_⟩
  simp only [Spec.side, h]
  ring

theorem plane_matches (cfg : Cfg) {P V : Matrix (Fin 4) (Fin 4) ℝ} (hV : Spec.ModelView V) (hP : Spec.NonDegenerate P) (a b c a' b' c' : Vec 3 ℝ)
    (ha : ∀ i (hi : i < 3), a'[i] = homRow (K := 3) V (fun j => a[j]) ⟨i, by omega⟩)
    (hb : ∀ i (hi : i < 3), b'[i] = homRow (K := 3) V (fun j => b[j]) ⟨i, by omega⟩)
    (hc : ∀ i (hi : i < 3), c'[i] = homRow (K := 3) V (fun j => c[j]) ⟨i, by omega⟩)
    (i : Fin 4) (s : ℝ) (hi : i ≠ 3) (hs : s = 1 ∨ s = -1) (e : Vec 4 ℝ) (he : rawPlane P i s = e) (μ : ℝ) (hμ : 0 < μ)
    (h0 : (b'[1] - c'[1]) * (a'[2] - b'[2]) - (b'[2] - c'[2]) * (a'[1] - b'[1]) = μ * e[0])
    (h1 : (b'[2] - c'[2]) * (a'[0] - b'[0]) - (b'[0] - c'[0]) * (a'[2] - b'[2]) = μ * e[1])
    (h2 : (b'[0] - c'[0]) * (a'[1] - b'[1]) - (b'[1] - c'[1]) * (a'[0] - b'[0]) = μ * e[2])
    (h3 : e[0] * a'[0] + e[1] * a'[1] + e[2] * a'[2] + e[3] = 0) :
    ∃ p, Vec.computePlane cfg a b c = .ok p ∧ Spec.normalSq p < 1 ∧ Spec.SameSide p (unitPlane (P * V) i s) := by
  obtain ⟨p, h4, h5, k, hk, h6⟩ := plane_of_points cfg hV a b c a' b' c' ha hb hc e μ hμ h0 h1 h2 h3
  refine ⟨p, h4, h5, k * Real.sqrt (Spec.normalSq (rawPlane (P * V) i s)), ?_, ?_⟩
  · exact mul_pos hk (Real.sqrt_pos.2 (normalSq_pos (nonDegenerate_mul hP hV) i hi s hs))
  · intro j hj
    have hne := (Real.sqrt_pos.2 (normalSq_pos (nonDegenerate_mul hP hV) i hi s hs)).ne'
    have hr := rawPlane_mul P V i s
    rw [he] at hr
    simp only [unitPlane, Vector.getElem_ofFn]
    rw [h6]
    have hj' : (rawPlane (P * V) i s)[j] = e[0] * V 0 ⟨j, hj⟩ + e[1] * V 1 ⟨j, hj⟩ + e[2] * V 2 ⟨j, hj⟩ + e[3] * V 3 ⟨j, hj⟩ := by
      rw [hr]; simp
    simp only [Vector.getElem_ofFn, Fin.getElem_fin, hj']
    field_simp

/-- C68. Let `f` be a frustum, `P` the matrix of `compute_matrix`, `V` a modelview matrix, and let `c far right top` be the eight corners of the frustum
in the space before `V`: `V` maps them to the corners of the frustum. Setting a culler up from the eight corners and setting it up from the matrix
`P V` give the same six planes with the same front sides, in the same order; the normals of the corner planes are shorter than 1. What is
missing: the normals are not unit vectors (they are divided by `√( n² + 1 )`), so the values are not distances (`C68_sphere_violated`). -/
theorem C68_planes_partial (cfg : Cfg) (f : Frustum ℝ) (hf : Spec.Good f) (m V : Mat 4 4 ℝ) (hV : Spec.ModelView V.toMat)
    (c : Bool → Bool → Bool → Vec 3 ℝ) (hc : ∀ far right top, V.mulVecHom cfg (c far right top) = .ok (Spec.corner f far right top)) :
    ∃ P PV k₁ k₂, f.computeMatrix cfg m = .ok P ∧ P.mul cfg V = .ok PV ∧ setupMatrix cfg PV = .ok k₁ ∧
      setupCorners cfg (c false false true) (c false true true) (c false false false) (c false true false)
        (c true false true) (c true true true) (c true false false) (c true true false) = .ok k₂ ∧
      Spec.SameSide k₂.left k₁.left ∧ Spec.SameSide k₂.right k₁.right ∧ Spec.SameSide k₂.bottom k₁.bottom ∧ Spec.SameSide k₂.top k₁.top ∧
      Spec.SameSide k₂.near k₁.near ∧ Spec.SameSide k₂.far k₁.far ∧
      (∀ p ∈ Spec.planes k₁, Spec.normalSq p = 1) ∧ ∀ p ∈ Spec.planes k₂, Spec.normalSq p < 1 := by
  obtain ⟨P, hP, -⟩ := computeMatrix_eq cfg f m
  obtain ⟨r1, r2, r3, r4, r5, r6⟩ := rawPlane_perspective f hf cfg m P hP
  have hN := nonDegenerate_perspective f hf cfg m P hP
  have hm : (Mat.ofFn fun r c => ∑ i, P.get r i * V.get i c : Mat 4 4 ℝ).toMat = P.toMat * V.toMat := by
    ext r c; simp [Matrix.mul_apply]
  have hi : ∀ far right top, _ := fun far right top => image_of_corner cfg hV (hc far right top)
  have d1 := sub_pos.2 hf.lr
  have d2 := sub_pos.2 hf.bt
  have d3 := sub_pos.2 hf.nf
  have n0 := hf.n0
  have f0 : 0 < f.farPlane := by linarith
  have n0' := n0.ne'
  have f0' := f0.ne'
  have d1' := d1.ne'
  have d2' := d2.ne'
  have d3' := d3.ne'
  obtain ⟨l, l1, l2, l3⟩ := plane_matches cfg hV hN _ _ _ _ _ _ (hi false false false) (hi false false true) (hi true false true) 0 1 (by decide) (by simp) _ r1
    ((f.farPlane - f.nearPlane) * (f.top - f.bottom) * (f.right - f.left) / (2 * f.nearPlane)) (by positivity)
    (by simp [Spec.corner]; try field_simp; try ring) (by simp [Spec.corner]; try field_simp; try ring)
    (by simp [Spec.corner]; try field_simp; try ring) (by simp [Spec.corner]; try field_simp; try ring)
  obtain ⟨r, r1', r2', r3'⟩ := plane_matches cfg hV hN _ _ _ _ _ _ (hi true true true) (hi false true true) (hi false true false) 0 (-1) (by decide) (by simp) _ r2
    ((f.farPlane - f.nearPlane) * (f.top - f.bottom) * (f.right - f.left) / (2 * f.nearPlane)) (by positivity)
    (by simp [Spec.corner]; try field_simp; try ring) (by simp [Spec.corner]; try field_simp; try ring)
    (by simp [Spec.corner]; try field_simp; try ring) (by simp [Spec.corner]; try field_simp; try ring)
  obtain ⟨b, b1, b2, b3⟩ := plane_matches cfg hV hN _ _ _ _ _ _ (hi true true false) (hi false true false) (hi false false false) 1 1 (by decide) (by simp) _ r3
    ((f.farPlane - f.nearPlane) * (f.top - f.bottom) * (f.right - f.left) / (2 * f.nearPlane)) (by positivity)
    (by simp [Spec.corner]; try field_simp; try ring) (by simp [Spec.corner]; try field_simp; try ring)
    (by simp [Spec.corner]; try field_simp; try ring) (by simp [Spec.corner]; try field_simp; try ring)
  obtain ⟨t, t1, t2, t3⟩ := plane_matches cfg hV hN _ _ _ _ _ _ (hi false false true) (hi false true true) (hi true true true) 1 (-1) (by decide) (by simp) _ r4
    ((f.farPlane - f.nearPlane) * (f.top - f.bottom) * (f.right - f.left) / (2 * f.nearPlane)) (by positivity)
    (by simp [Spec.corner]; try field_simp; try ring) (by simp [Spec.corner]; try field_simp; try ring)
    (by simp [Spec.corner]; try field_simp; try ring) (by simp [Spec.corner]; try field_simp; try ring)
  obtain ⟨n, n1, n2, n3⟩ := plane_matches cfg hV hN _ _ _ _ _ _ (hi false true true) (hi false false true) (hi false false false) 2 1 (by decide) (by simp) _ r5
    ((f.farPlane - f.nearPlane) * (f.top - f.bottom) * (f.right - f.left) / (2 * f.farPlane)) (by positivity)
    (by simp [Spec.corner]; try field_simp; try ring) (by simp [Spec.corner]; try field_simp; try ring)
    (by simp [Spec.corner]; try field_simp; try ring) (by simp [Spec.corner]; try field_simp; try ring)
  obtain ⟨fa, fa1, fa2, fa3⟩ := plane_matches cfg hV hN _ _ _ _ _ _ (hi true false false) (hi true false true) (hi true true true) 2 (-1) (by decide) (by simp) _ r6
    ((f.farPlane - f.nearPlane) * (f.top - f.bottom) * (f.right - f.left) * f.farPlane ^ 2 / (2 * f.nearPlane ^ 3)) (by positivity)
    (by simp [Spec.corner]; try field_simp; try ring) (by simp [Spec.corner]; try field_simp; try ring)
    (by simp [Spec.corner]; try field_simp; try ring) (by simp [Spec.corner]; try field_simp; try ring)
  have hsm := setupMatrix_eq cfg (Mat.ofFn fun r c => ∑ i, P.get r i * V.get i c : Mat 4 4 ℝ)
  rw [hm] at hsm
  obtain ⟨k₁, hk₁, hu, -⟩ := C65_planes cfg (Mat.ofFn fun r c => ∑ i, P.get r i * V.get i c : Mat 4 4 ℝ) (by rw [hm]; exact nonDegenerate_mul hN hV)
  refine ⟨P, _, k₁, ⟨l, r, b, t, n, fa⟩, hP, Mat.mul_eq cfg P V, hk₁, ?_, ?_⟩
  · simp only [setupCorners, l1, r1', b1, t1, n1, fa1, bind_ok]; rfl
  · rw [hsm] at hk₁
    injection hk₁ with hk₁
    subst hk₁
    refine ⟨l3, r3', b3, t3, n3, fa3, hu, ?_⟩
    rw [forall_planes]
    exact ⟨l2, r2', b2, t2, n2, fa2⟩

/-- Agreement of the signs of all six plane values. -/
theorem sameSide_membership {k₁ k₂ : Culler ℝ} (h : Spec.SameSide k₂.left k₁.left ∧ Spec.SameSide k₂.right k₁.right ∧ Spec.SameSide k₂.bottom k₁.bottom ∧
    Spec.SameSide k₂.top k₁.top ∧ Spec.SameSide k₂.near k₁.near ∧ Spec.SameSide k₂.far k₁.far) (Q : (ℝ → ℝ → ℝ → ℝ) → Prop)
    (hQ : ∀ (s : ℝ) (g : ℝ → ℝ → ℝ → ℝ), 0 < s → (Q (fun x y z => s * g x y z) ↔ Q g)) :
    ((∀ p ∈ Spec.planes k₂, Q (Spec.side p)) ↔ ∀ p ∈ Spec.planes k₁, Q (Spec.side p)) ∧
    ((∃ p ∈ Spec.planes k₂, Q (Spec.side p)) ↔ ∃ p ∈ Spec.planes k₁, Q (Spec.side p)) := by
  have key : ∀ {p q}, Spec.SameSide p q → (Q (Spec.side p) ↔ Q (Spec.side q)) := by
    intro p q hpq
    obtain ⟨s, hs, e⟩ := hpq.side
    rw [← hQ s (Spec.side q) hs]
    have : Spec.side p = fun x y z => s * Spec.side q x y z := by funext x y z; exact e x y z
    rw [this]
  obtain ⟨a, b, c, d, e, f⟩ := h
  simp only [Spec.planes, List.mem_cons, List.not_mem_nil, or_false, forall_eq_or_imp, forall_eq, exists_eq_or_imp, exists_eq_left,
    key a, key b, key c, key d, key e, key f, and_self]

/-- C68. Both ways of setting the culler up decide alike about points and boxes: they bound the volume of the frustum (moved by the inverse of
`V`), all eight corners have nonnegative values, and `test_aabb` returns the same verdict for every box. -/
theorem C68_decisions_partial (cfg : Cfg) (f : Frustum ℝ) (hf : Spec.Good f) (m V : Mat 4 4 ℝ) (hV : Spec.ModelView V.toMat)
    (c : Bool → Bool → Bool → Vec 3 ℝ) (hc : ∀ far right top, V.mulVecHom cfg (c far right top) = .ok (Spec.corner f far right top)) :
    ∃ P PV k₁ k₂, f.computeMatrix cfg m = .ok P ∧ P.mul cfg V = .ok PV ∧ setupMatrix cfg PV = .ok k₁ ∧
      setupCorners cfg (c false false true) (c false true true) (c false false false) (c false true false)
        (c true false true) (c true true true) (c true false false) (c true true false) = .ok k₂ ∧
      (∀ x y z, ∃ u, V.mulVecHom cfg #v[x, y, z] = .ok u ∧
        ((∀ p ∈ Spec.planes k₁, 0 ≤ Spec.side p x y z) ↔ Spec.InsideClosed f u[0] u[1] u[2]) ∧
        ((∀ p ∈ Spec.planes k₂, 0 ≤ Spec.side p x y z) ↔ Spec.InsideClosed f u[0] u[1] u[2])) ∧
      (∀ far right top, ∀ p ∈ Spec.planes k₂, (0 : ℝ) ≤ Spec.side p (c far right top)[0] (c far right top)[1] (c far right top)[2]) ∧
      (∀ x y z, testAabb cfg (1 / 2) k₁ x y z = testAabb cfg (1 / 2) k₂ x y z) := by
  obtain ⟨P, PV, k₁, k₂, h1, h2, h3, h4, s1, s2, s3, s4, s5, s6, h5, h6⟩ := C68_planes_partial cfg f hf m V hV c hc
  have hs := And.intro s1 (And.intro s2 (And.intro s3 (And.intro s4 (And.intro s5 s6))))
  have hN := nonDegenerate_perspective f hf cfg m P h1
  have hPV : PV.toMat = P.toMat * V.toMat := by
    rw [Mat.mul_eq] at h2
    injection h2 with h2
    rw [← h2]; ext r c; simp [Matrix.mul_apply]
  have hmem : ∀ x y z, ∃ u, V.mulVecHom cfg #v[x, y, z] = .ok u ∧
        ((∀ p ∈ Spec.planes k₁, 0 ≤ Spec.side p x y z) ↔ Spec.InsideClosed f u[0] u[1] u[2]) ∧
        ((∀ p ∈ Spec.planes k₂, 0 ≤ Spec.side p x y z) ↔ Spec.InsideClosed f u[0] u[1] u[2]) := by
    intro x y z
    obtain ⟨u, hu⟩ : ∃ u, V.mulVecHom cfg #v[x, y, z] = .ok u := ⟨_, mulVecHom_eq cfg V #v[x, y, z]⟩
    have a : (∀ p ∈ Spec.planes k₁, 0 ≤ Spec.side p x y z) ↔ Spec.InsideClosed f u[0] u[1] u[2] := by
      obtain ⟨P', kP, g1, g2, g3⟩ := C65_frustum cfg f hf m
      obtain rfl : P' = P := by rw [h1] at g1; injection g1 with g1; exact g1.symm
      obtain ⟨k₁', q1, q2⟩ := C65_clip cfg PV (by rw [hPV]; exact nonDegenerate_mul hN hV)
      obtain rfl : k₁' = k₁ := by rw [h3] at q1; injection q1 with q1; exact q1.symm
      obtain ⟨kP', q3, q4⟩ := C65_clip cfg P' hN
      obtain rfl : kP' = kP := by rw [g2] at q3; injection q3 with q3; exact q3.symm
      obtain ⟨w1, w2, w3, -⟩ := q2 x y z
      obtain ⟨w4, w5, w6, -⟩ := q4 u[0] u[1] u[2]
      rw [← g3, w3, w6]
      have : w1 = w4 := by
        have hu' := image_of_corner cfg hV hu
        rw [Mat.mulVec_eq] at w2 w5
        injection w2 with w2
        injection w5 with w5
        rw [← w2, ← w5]
        have u0 := hu' 0 (by omega)
        have u1 := hu' 1 (by omega)
        have u2 := hu' 2 (by omega)
        have l : ∀ j, V.toMat 3 j = ![0, 0, 0, 1] j := fun j => by rw [hV.last]
        ext i hi
        simp only [Vector.getElem_ofFn]
        have hg : ∀ j, PV.get ⟨i, hi⟩ j = ∑ t, P'.toMat ⟨i, hi⟩ t * V.toMat t j := fun j => by
          rw [← Mat.toMat_apply, hPV, Matrix.mul_apply]
        have hg' : ∀ t, P'.get ⟨i, hi⟩ t = P'.toMat ⟨i, hi⟩ t := fun t => rfl
        simp only [hg, hg', Fin.sum_univ_four, l]
        simp [homRow, Fin.sum_univ_three] at u0 u1 u2
        change u[0] = V.get 0 0 * x + V.get 0 1 * y + V.get 0 2 * z + V.get 0 3 at u0
        change u[1] = V.get 1 0 * x + V.get 1 1 * y + V.get 1 2 * z + V.get 1 3 at u1
        change u[2] = V.get 2 0 * x + V.get 2 1 * y + V.get 2 2 * z + V.get 2 3 at u2
        simp
        rw [u0, u1, u2]
        ring
      rw [this]
    refine ⟨u, hu, a, ?_⟩
    rw [← a]
    exact (sameSide_membership hs (fun g => 0 ≤ g x y z) fun s g h => mul_nonneg_iff_of_pos_left h).1
  refine ⟨P, PV, k₁, k₂, h1, h2, h3, h4, hmem, ?_, ?_⟩
  · intro far right top
    obtain ⟨u, hu, -, h⟩ := hmem (c far right top)[0] (c far right top)[1] (c far right top)[2]
    rw [h]
    have : (#v[(c far right top)[0], (c far right top)[1], (c far right top)[2]] : Vec 3 ℝ) = c far right top := by
      apply vec3_ext <;> simp
    rw [this, hc] at hu
    injection hu with hu
    rw [← hu]
    have d1 := hf.lr.le
    have d2 := hf.bt.le
    have d3 := hf.nf.le
    have n0 := hf.n0
    have f0 := n0.trans hf.nf
    have n0' := n0.ne'
    have f0' := f0.ne'
    have e1 : ∀ w, f.farPlane / f.nearPlane * w * (f.nearPlane / f.farPlane) = w := fun w => by field_simp
    have e2 : ∀ w, w * (f.nearPlane / f.nearPlane) = w := fun w => by field_simp
    cases far <;> cases right <;> cases top <;> simp [Spec.corner, Spec.InsideClosed, e1, e2, d1, d2, d3, n0']
  · intro x y z
    obtain ⟨v₁, a1, a2, a3⟩ := C67_exact cfg k₁ x y z
    obtain ⟨v₂, b1, b2, b3⟩ := C67_exact cfg k₂ x y z
    rw [a1, b1]
    have e1 : v₂ = .none ↔ v₁ = .none := by
      rw [a2, b2]
      refine (sameSide_membership hs (fun g => (∀ a b c, Spec.InBox x y z a b c → g a b c ≤ 0) ∧ ∃ a b c, Spec.InBox x y z a b c ∧ g a b c < 0) ?_).2
      intro s g h
      have n1 : ∀ t : ℝ, s * t ≤ 0 ↔ t ≤ 0 := fun t => by rw [← not_lt, ← not_lt, mul_pos_iff_of_pos_left h]
      have n2 : ∀ t : ℝ, s * t < 0 ↔ t < 0 := fun t => by rw [← not_le, ← not_le, mul_nonneg_iff_of_pos_left h]
      simp only [n1, n2]
    have e2 : v₂ = .full ↔ v₁ = .full := by
      rw [a3, b3]
      refine (sameSide_membership hs (fun g => ∀ a b c, Spec.InBox x y z a b c → 0 ≤ g a b c) ?_).1
      intro s g h
      simp only [mul_nonneg_iff_of_pos_left h]
    cases v₁ <;> cases v₂ <;> simp_all

theorem exists_min {β : Type} (l : List β) (g : β → ℝ) (h : l ≠ []) : ∃ p ∈ l, ∀ q ∈ l, g p ≤ g q := by
  induction l with
  | nil => exact absurd rfl h
  | cons a l ih =>
    by_cases hl : l = []
    · subst hl; exact ⟨a, by simp, by simp⟩
    · obtain ⟨p, hp, hq⟩ := ih hl
      rcases le_total (g a) (g p) with h' | h'
      · exact ⟨a, by simp, by simpa using fun q hq' => h'.trans (hq q hq')⟩
      · exact ⟨p, by simp [hp], by simpa using ⟨h', hq⟩⟩

/-- C68, violated for spheres: for every frustum and modelview matrix and every point strictly inside the volume there is a sphere around that point which
the matrix-based culler reports as FULLY visible and the corner-based culler only as PARTIALLY visible. -/
theorem C68_sphere_violated (cfg : Cfg) (f : Frustum ℝ) (hf : Spec.Good f) (m V : Mat 4 4 ℝ) (hV : Spec.ModelView V.toMat)
    (c : Bool → Bool → Bool → Vec 3 ℝ) (hc : ∀ far right top, V.mulVecHom cfg (c far right top) = .ok (Spec.corner f far right top)) :
    ∃ P PV k₁ k₂, f.computeMatrix cfg m = .ok P ∧ P.mul cfg V = .ok PV ∧ setupMatrix cfg PV = .ok k₁ ∧
      setupCorners cfg (c false false true) (c false true true) (c false false false) (c false true false)
        (c true false true) (c true true true) (c true false false) (c true true false) = .ok k₂ ∧
      ∀ x y z, (∀ p ∈ Spec.planes k₁, 0 < Spec.side p x y z) →
        ∃ r : ℝ, 0 < r ∧ testSphere k₁ #v[x, y, z, r] = .full ∧ testSphere k₂ #v[x, y, z, r] = .partly := by
  obtain ⟨P, PV, k₁, k₂, h1, h2, h3, h4, s1, s2, s3, s4, s5, s6, h5, h6⟩ := C68_planes_partial cfg f hf m V hV c hc
  refine ⟨P, PV, k₁, k₂, h1, h2, h3, h4, fun x y z hin => ?_⟩
  obtain ⟨p, hp, hmin⟩ : ∃ p ∈ Spec.planes k₁, ∀ q ∈ Spec.planes k₁, Spec.side p x y z ≤ Spec.side q x y z := by
    obtain ⟨p, hp, h⟩ := exists_min (Spec.planes k₁) (fun p => Spec.side p x y z) (by simp [Spec.planes])
    exact ⟨p, hp, h⟩
  have hr := hin p hp
  have key : ∀ q q', q ∈ Spec.planes k₂ → q' ∈ Spec.planes k₁ → Spec.SameSide q q' →
      0 < Spec.side q x y z ∧ Spec.side q x y z < Spec.side q' x y z := by
    intro q q' hq hq' ⟨s, hs, e⟩
    have e1 : Spec.side q x y z = s * Spec.side q' x y z := by simp only [Spec.side, e]; ring
    have e2 : Spec.normalSq q = s ^ 2 * Spec.normalSq q' := by simp only [Spec.normalSq, e]; ring
    have := h6 q hq
    rw [e2, h5 q' hq'] at this
    have hs1 : s < 1 := by nlinarith
    have := hin q' hq'
    rw [e1]
    constructor
    · positivity
    · nlinarith
  refine ⟨Spec.side p x y z, hr, ?_, ?_⟩
  · rw [(C66_verdict _ _).2.1]
    intro q hq
    have := hmin q hq
    simp
    constructor <;> linarith
  · rw [(C66_verdict _ _).2.2]
    have hl := key k₂.left k₁.left (by simp [Spec.planes]) (by simp [Spec.planes]) s1
    have hri := key k₂.right k₁.right (by simp [Spec.planes]) (by simp [Spec.planes]) s2
    have hb := key k₂.bottom k₁.bottom (by simp [Spec.planes]) (by simp [Spec.planes]) s3
    have ht := key k₂.top k₁.top (by simp [Spec.planes]) (by simp [Spec.planes]) s4
    have hn := key k₂.near k₁.near (by simp [Spec.planes]) (by simp [Spec.planes]) s5
    have hfa := key k₂.far k₁.far (by simp [Spec.planes]) (by simp [Spec.planes]) s6
    constructor
    · rw [forall_planes]
      simp
      refine ⟨?_, ?_, ?_, ?_, ?_, ?_⟩ <;> linarith
    · simp [Spec.planes] at hp ⊢
      rcases hp with rfl | rfl | rfl | rfl | rfl | rfl
      · exact Or.inl hl.2
      · exact Or.inr (Or.inl hri.2)
      · exact Or.inr (Or.inr (Or.inl hb.2))
      · exact Or.inr (Or.inr (Or.inr (Or.inl ht.2)))
      · exact Or.inr (Or.inr (Or.inr (Or.inr (Or.inl hn.2))))
      · exact Or.inr (Or.inr (Or.inr (Or.inr (Or.inr hfa.2))))

/-- C68. No false culling of spheres by the corner-based culler (its normals are shorter than 1, so `C66_sound` applies). -/
theorem C68_sphere_sound_partial (cfg : Cfg) (a b c d e f g h : Vec 3 ℝ) :
    ∃ k, setupCorners cfg a b c d e f g h = .ok k ∧ ∀ s : Vec 4 ℝ,
      (testSphere k s = .none → ∀ x y z, Spec.InBall s x y z → ¬ ∀ p ∈ Spec.planes k, 0 < Spec.side p x y z) ∧
      (testSphere k s = .full → ∀ x y z, Spec.InBall s x y z → ∀ p ∈ Spec.planes k, 0 ≤ Spec.side p x y z) := by
  have key : ∀ a b c, ∃ p, Vec.computePlane cfg a b c = .ok p ∧ Spec.normalSq p ≤ 1 := by
    intro a b c
    obtain ⟨n, k, hk, hn, -, -, -, h⟩ := computePlane_eq cfg a b c
    refine ⟨_, h, ?_⟩
    simp only [Spec.normalSq, Vector.getElem_mk, List.getElem_toArray, List.getElem_cons_zero, List.getElem_cons_succ]
    nlinarith [sq_nonneg k]
  obtain ⟨p1, h1, n1⟩ := key c a e
  obtain ⟨p2, h2, n2⟩ := key f b d
  obtain ⟨p3, h3, n3⟩ := key h d c
  obtain ⟨p4, h4, n4⟩ := key a b f
  obtain ⟨p5, h5, n5⟩ := key b a c
  obtain ⟨p6, h6, n6⟩ := key g e f
  refine ⟨⟨p1, p2, p3, p4, p5, p6⟩, by simp only [setupCorners, h1, h2, h3, h4, h5, h6, bind_ok]; rfl, fun s => ?_⟩
  apply C66_sound
  rw [forall_planes]
  exact ⟨n1, n2, n3, n4, n5, n6⟩

/-- C68. The hypotheses hold for the identity and the corners themselves; the point on the axis half way between near and far plane of the frustum
`[-1, 1]²`, near 1, far 2 is strictly inside. -/
example (cfg : Cfg) : let f : Frustum ℝ := ⟨#v[-1, 1, -1, 1, 1, 2]⟩
    let V : Mat 4 4 ℝ := Mat.ofFn fun r c => if r = c then 1 else 0
    Spec.Good f ∧ Spec.ModelView V.toMat ∧ (∀ far right top, V.mulVecHom cfg (Spec.corner f far right top) = .ok (Spec.corner f far right top)) := by
  intro f V
  have hV : V.toMat = 1 := by ext r c; simp [V, Matrix.one_apply]
  refine ⟨⟨by simp [f, Frustum.left, Frustum.right], by simp [f, Frustum.bottom, Frustum.top], by simp [f, Frustum.nearPlane], by simp [f, Frustum.nearPlane, Frustum.farPlane]⟩, ⟨?_, ?_⟩, ?_⟩
  · rw [hV]; funext j; fin_cases j <;> simp [Matrix.one_apply]
  · rw [hV]
    have : Spec.block3 (1 : Matrix (Fin 4) (Fin 4) ℝ) = 1 := by ext i j; fin_cases i <;> fin_cases j <;> rfl
    rw [this]; simp
  · intro far right top
    rw [mulVecHom_eq, hV]
    congr 1
    apply vec3_ext <;> simp [homRow, Fin.sum_univ_three, Matrix.one_apply]

end Vmml
