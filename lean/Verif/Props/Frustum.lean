import Verif.Model.Frustum
import Verif.Props.Stream
import Verif.Proofs.MatrixTransformLemmas
import Mathlib.Tactic.FieldSimp
import Mathlib.Analysis.SpecialFunctions.Trigonometric.Arctan

/-!
# C60 – C64: the frustum
-/

set_option linter.unusedSimpArgs false

namespace Vmml
open Frustum
open Mat hiding ctor x y z
variable {α β : Type}

/-- A view frustum in the sense of `glFrustum`. -/
structure Spec.Good (f : Frustum ℝ) : Prop where
  lr : f.left < f.right
  bt : f.bottom < f.top
  n0 : 0 < f.nearPlane
  nf : f.nearPlane < f.farPlane

/-- The point `( x, y, z )` is strictly inside the frustum of an eye at the origin looking along `-z`: its depth is between the near and the
far plane and the ray from the eye through it meets the near plane inside the rectangle. -/
def Spec.Inside (f : Frustum ℝ) (x y z : ℝ) : Prop :=
  f.nearPlane < -z ∧ -z < f.farPlane ∧
  f.left < x * (f.nearPlane / -z) ∧ x * (f.nearPlane / -z) < f.right ∧
  f.bottom < y * (f.nearPlane / -z) ∧ y * (f.nearPlane / -z) < f.top

/-- As `Spec.Inside`, including the boundary. -/
def Spec.InsideClosed (f : Frustum ℝ) (x y z : ℝ) : Prop :=
  f.nearPlane ≤ -z ∧ -z ≤ f.farPlane ∧
  f.left ≤ x * (f.nearPlane / -z) ∧ x * (f.nearPlane / -z) ≤ f.right ∧
  f.bottom ≤ y * (f.nearPlane / -z) ∧ y * (f.nearPlane / -z) ≤ f.top

theorem computeMatrix_eq (cfg : Cfg) (f : Frustum ℝ) (m : Mat 4 4 ℝ) :
    ∃ P, f.computeMatrix cfg m = .ok P ∧ P.toMat =
      !![2 * f.nearPlane / (f.right - f.left), 0, (f.right + f.left) / (f.right - f.left), 0;
        0, 2 * f.nearPlane / (f.top - f.bottom), (f.top + f.bottom) / (f.top - f.bottom), 0;
        0, 0, -(f.farPlane + f.nearPlane) / (f.farPlane - f.nearPlane), -2 * f.farPlane * f.nearPlane / (f.farPlane - f.nearPlane);
        0, 0, -1, 0] := by
  simp only [computeMatrix, atSet_lt, bind_ok, Nat.reduceLT]
  refine ⟨_, rfl, ?_⟩
  ext r c
  fin_cases r <;> fin_cases c <;> simp [get_put]

theorem computeOrthoMatrix_eq (cfg : Cfg) (f : Frustum ℝ) (m : Mat 4 4 ℝ) :
    ∃ P, f.computeOrthoMatrix cfg m = .ok P ∧ P.toMat =
      !![2 / (f.right - f.left), 0, 0, -(f.right + f.left) / (f.right - f.left);
        0, 2 / (f.top - f.bottom), 0, -(f.top + f.bottom) / (f.top - f.bottom);
        0, 0, -2 / (f.farPlane - f.nearPlane), -(f.farPlane + f.nearPlane) / (f.farPlane - f.nearPlane);
        0, 0, 0, 1] := by
  simp only [computeOrthoMatrix, atSet_lt, bind_ok, Nat.reduceLT]
  refine ⟨_, rfl, ?_⟩
  ext r c
  fin_cases r <;> fin_cases c <;> simp [get_put]

/-! ## C60 -/

/-- The image of a point with homogeneous division: the closed form. -/
theorem perspective_image (cfg : Cfg) (f : Frustum ℝ) (P : Mat 4 4 ℝ)
    (hP : P.toMat = !![2 * f.nearPlane / (f.right - f.left), 0, (f.right + f.left) / (f.right - f.left), 0;
        0, 2 * f.nearPlane / (f.top - f.bottom), (f.top + f.bottom) / (f.top - f.bottom), 0;
        0, 0, -(f.farPlane + f.nearPlane) / (f.farPlane - f.nearPlane), -2 * f.farPlane * f.nearPlane / (f.farPlane - f.nearPlane);
        0, 0, -1, 0]) (x y z : ℝ) :
    P.mulVecHom cfg #v[x, y, z] = .ok #v[
      ((2 : ℝ) * f.nearPlane / (f.right - f.left) * x + (f.right + f.left) / (f.right - f.left) * z) / -z,
      ((2 : ℝ) * f.nearPlane / (f.top - f.bottom) * y + (f.top + f.bottom) / (f.top - f.bottom) * z) / -z,
      (-(f.farPlane + f.nearPlane) / (f.farPlane - f.nearPlane) * z + (-2 : ℝ) * f.farPlane * f.nearPlane / (f.farPlane - f.nearPlane)) / -z] := by
  rw [mulVecHom_eq, hP]
  congr 1
  apply vec3_ext <;> simp [homRow, Fin.sum_univ_three]

/-- How far the image is from the walls of the cube. -/
theorem perspective_margins (f : Frustum ℝ) (hf : Spec.Good f) (x y z : ℝ) (hz : z < 0) :
    let a := (2 * f.nearPlane / (f.right - f.left) * x + (f.right + f.left) / (f.right - f.left) * z) / -z
    let b := (2 * f.nearPlane / (f.top - f.bottom) * y + (f.top + f.bottom) / (f.top - f.bottom) * z) / -z
    let c := (-(f.farPlane + f.nearPlane) / (f.farPlane - f.nearPlane) * z +
      -2 * f.farPlane * f.nearPlane / (f.farPlane - f.nearPlane)) / -z
    a + 1 = 2 / (f.right - f.left) * (x * (f.nearPlane / -z) - f.left) ∧
    1 - a = 2 / (f.right - f.left) * (f.right - x * (f.nearPlane / -z)) ∧
    b + 1 = 2 / (f.top - f.bottom) * (y * (f.nearPlane / -z) - f.bottom) ∧
    1 - b = 2 / (f.top - f.bottom) * (f.top - y * (f.nearPlane / -z)) ∧
    c + 1 = 2 * f.farPlane / (-z * (f.farPlane - f.nearPlane)) * (-z - f.nearPlane) ∧
    1 - c = 2 * f.nearPlane / (-z * (f.farPlane - f.nearPlane)) * (f.farPlane - -z) := by
  have h1 := sub_pos.2 hf.lr
  have h2 := sub_pos.2 hf.bt
  have h3 := sub_pos.2 hf.nf
  have hz' : z ≠ 0 := hz.ne
  simp only
  refine ⟨?_, ?_, ?_, ?_, ?_, ?_⟩ <;> field_simp <;> ring

theorem margin_iff {v t lo hi k l : ℝ} (hk : 0 < k) (hl : 0 < l) (h1 : v + 1 = k * (t - lo)) (h2 : 1 - v = l * (hi - t)) :
    (-1 < v ∧ v < 1 ↔ lo < t ∧ t < hi) ∧ (-1 ≤ v ∧ v ≤ 1 ↔ lo ≤ t ∧ t ≤ hi) := by
  have a := mul_pos_iff_of_pos_left (b := t - lo) hk
  have b := mul_pos_iff_of_pos_left (b := hi - t) hl
  have c := mul_nonneg_iff_of_pos_left (b := t - lo) hk
  have d := mul_nonneg_iff_of_pos_left (b := hi - t) hl
  rw [← h1] at a c
  rw [← h2] at b d
  constructor
  · rw [← sub_pos (a := t) (b := lo), ← sub_pos (a := hi), ← a, ← b]
    constructor <;> rintro ⟨h, h'⟩ <;> constructor <;> linarith
  · rw [← sub_nonneg (a := t) (b := lo), ← sub_nonneg (a := hi), ← c, ← d]
    constructor <;> rintro ⟨h, h'⟩ <;> constructor <;> linarith

/-- C60. For every frustum `compute_matrix` succeeds, and the homogeneous product of its result with a point in front of the eye is in the
open cube `( -1, 1 )³` exactly if the point is strictly inside the frustum, and in the closed cube exactly if it is inside or on the
boundary. -/
theorem C60_inside (cfg : Cfg) (f : Frustum ℝ) (hf : Spec.Good f) (m : Mat 4 4 ℝ) :
    ∃ P, f.computeMatrix cfg m = .ok P ∧ ∀ x y z : ℝ, z < 0 → ∃ q, P.mulVecHom cfg #v[x, y, z] = .ok q ∧
      ((∀ i : Fin 3, -1 < q[i] ∧ q[i] < 1) ↔ Spec.Inside f x y z) ∧
      ((∀ i : Fin 3, -1 ≤ q[i] ∧ q[i] ≤ 1) ↔ Spec.InsideClosed f x y z) := by
  obtain ⟨P, h1, h2⟩ := computeMatrix_eq cfg f m
  refine ⟨P, h1, fun x y z hz => ⟨_, perspective_image cfg f P h2 x y z, ?_⟩⟩
  have h3 := sub_pos.2 hf.lr
  have h4 := sub_pos.2 hf.bt
  have h5 := sub_pos.2 hf.nf
  have hn := hf.n0
  have hfar : 0 < f.farPlane := hn.trans hf.nf
  have hz' : 0 < -z := by linarith
  obtain ⟨e1, e2, e3, e4, e5, e6⟩ := perspective_margins f hf x y z hz
  have k1 : 0 < 2 / (f.right - f.left) := by positivity
  have k2 : 0 < 2 / (f.top - f.bottom) := by positivity
  have k3 : 0 < 2 * f.farPlane / (-z * (f.farPlane - f.nearPlane)) := by positivity
  have k4 : 0 < 2 * f.nearPlane / (-z * (f.farPlane - f.nearPlane)) := by positivity
  have m1 := margin_iff k1 k1 e1 e2
  have m2 := margin_iff k2 k2 e3 e4
  have m3 := margin_iff k3 k4 e5 e6
  simp only [Fin.forall_fin_succ, Fin.getElem_fin, IsEmpty.forall_iff, and_true, Fin.val_zero, Fin.val_succ, Vector.getElem_mk,
    List.getElem_toArray, List.getElem_cons_zero, List.getElem_cons_succ]
  constructor
  · rw [m1.1, m2.1, m3.1, Spec.Inside]
    constructor
    · rintro ⟨⟨a, b⟩, ⟨c, d⟩, e, f⟩; exact ⟨e, f, a, b, c, d⟩
    · rintro ⟨e, f, a, b, c, d⟩; exact ⟨⟨a, b⟩, ⟨c, d⟩, e, f⟩
  · rw [m1.2, m2.2, m3.2, Spec.InsideClosed]
    constructor
    · rintro ⟨⟨a, b⟩, ⟨c, d⟩, e, f⟩; exact ⟨e, f, a, b, c, d⟩
    · rintro ⟨e, f, a, b, c, d⟩; exact ⟨⟨a, b⟩, ⟨c, d⟩, e, f⟩

/-- C60. Every point of the near plane goes to depth `-1`, every point of the far plane to depth `1`, and the four corners of the near rectangle
go to the corners of the canonical square. -/
theorem C60_planes (cfg : Cfg) (f : Frustum ℝ) (hf : Spec.Good f) (m : Mat 4 4 ℝ) :
    ∃ P, f.computeMatrix cfg m = .ok P ∧
      (∀ x y, ∃ u v, P.mulVecHom cfg #v[x, y, -f.nearPlane] = .ok #v[u, v, -1]) ∧
      (∀ x y, ∃ u v, P.mulVecHom cfg #v[x, y, -f.farPlane] = .ok #v[u, v, 1]) ∧
      P.mulVecHom cfg #v[f.left, f.bottom, -f.nearPlane] = .ok #v[-1, -1, -1] ∧
      P.mulVecHom cfg #v[f.right, f.bottom, -f.nearPlane] = .ok #v[1, -1, -1] ∧
      P.mulVecHom cfg #v[f.left, f.top, -f.nearPlane] = .ok #v[-1, 1, -1] ∧
      P.mulVecHom cfg #v[f.right, f.top, -f.nearPlane] = .ok #v[1, 1, -1] := by
  obtain ⟨P, h1, h2⟩ := computeMatrix_eq cfg f m
  have hn := hf.n0
  have hfar : 0 < f.farPlane := hn.trans hf.nf
  have h3 := (sub_pos.2 hf.lr).ne'
  have h4 := (sub_pos.2 hf.bt).ne'
  have h5 := (sub_pos.2 hf.nf).ne'
  refine ⟨P, h1, ?_, ?_, ?_, ?_, ?_, ?_⟩
  · intro x y
    have h := perspective_image cfg f P h2 x y (-f.nearPlane)
    have e : (-(f.farPlane + f.nearPlane) / (f.farPlane - f.nearPlane) * -f.nearPlane + (-2 : ℝ) * f.farPlane * f.nearPlane / (f.farPlane - f.nearPlane)) /
        - -f.nearPlane = -1 := by
      field_simp
      ring
    rw [e] at h
    exact ⟨_, _, h⟩
  · intro x y
    have h := perspective_image cfg f P h2 x y (-f.farPlane)
    have e : (-(f.farPlane + f.nearPlane) / (f.farPlane - f.nearPlane) * -f.farPlane + (-2 : ℝ) * f.farPlane * f.nearPlane / (f.farPlane - f.nearPlane)) /
        - -f.farPlane = 1 := by
      field_simp
      ring
    rw [e] at h
    exact ⟨_, _, h⟩
  all_goals
    refine (perspective_image cfg f P h2 _ _ _).trans ?_
    congr 1; apply vec3_ext <;> simp <;> field_simp <;> ring

/-- C60. The default frustum is one. -/
example : Spec.Good (Frustum.DEFAULT (1 / 10) 100) := by
  constructor <;> simp [Frustum.DEFAULT, Frustum.set, setLeft, setRight, setBottom, setTop, setNear, setFar, left, right, bottom, top,
    nearPlane, farPlane, ctor] <;> norm_num

/-! ## C61 -/

/-- C61. `compute_ortho_matrix` is an affine map (homogeneous coordinate 1) that maps the box `[left, right] × [bottom, top] × [-far, -near]`
one-to-one onto the cube `[-1, 1]³`: a point is in the box exactly if its image is in the cube, and every point of space has exactly one
preimage. -/
theorem C61_ortho (cfg : Cfg) (f : Frustum ℝ) (h1 : f.left < f.right) (h2 : f.bottom < f.top) (h3 : f.nearPlane < f.farPlane) (m : Mat 4 4 ℝ) :
    ∃ P, f.computeOrthoMatrix cfg m = .ok P ∧
      (∀ x y z, ∃ q : Vec 3 ℝ, P.mulVec cfg #v[x, y, z, 1] = .ok #v[q[0], q[1], q[2], 1] ∧ P.mulVecHom cfg #v[x, y, z] = .ok q ∧
        ((∀ i : Fin 3, -1 ≤ q[i] ∧ q[i] ≤ 1) ↔
          f.left ≤ x ∧ x ≤ f.right ∧ f.bottom ≤ y ∧ y ≤ f.top ∧ -f.farPlane ≤ z ∧ z ≤ -f.nearPlane)) ∧
      (∀ q : Vec 3 ℝ, ∃! p : Vec 3 ℝ, P.mulVecHom cfg p = .ok q) ∧
      P.mulVecHom cfg #v[f.left, f.bottom, -f.nearPlane] = .ok #v[-1, -1, -1] ∧
      P.mulVecHom cfg #v[f.right, f.top, -f.farPlane] = .ok #v[1, 1, 1] := by
  obtain ⟨P, hP, hM⟩ := computeOrthoMatrix_eq cfg f m
  have d1 := sub_pos.2 h1
  have d2 := sub_pos.2 h2
  have d3 := sub_pos.2 h3
  have himg : ∀ p : Vec 3 ℝ, P.mulVecHom cfg p = .ok #v[
      (2 : ℝ) / (f.right - f.left) * p[0] + -(f.right + f.left) / (f.right - f.left),
      (2 : ℝ) / (f.top - f.bottom) * p[1] + -(f.top + f.bottom) / (f.top - f.bottom),
      (-2 : ℝ) / (f.farPlane - f.nearPlane) * p[2] + -(f.farPlane + f.nearPlane) / (f.farPlane - f.nearPlane)] := by
    intro p
    rw [mulVecHom_eq, hM]
    congr 1
    apply vec3_ext <;> simp [homRow, Fin.sum_univ_three]
  refine ⟨P, hP, ?_, ?_, ?_, ?_⟩
  · intro x y z
    refine ⟨_, ?_, himg _, ?_⟩
    · rw [mulVec_eq]
      congr 1
      ext i hi
      have : ∀ i j, P.get i j = P.toMat i j := fun _ _ => rfl
      simp only [this, hM]
      match i, hi with
      | 0, _ => simp [Fin.sum_univ_four]
      | 1, _ => simp [Fin.sum_univ_four]
      | 2, _ => simp [Fin.sum_univ_four]
      | 3, _ => simp [Fin.sum_univ_four]
    · simp only [Fin.forall_fin_succ, Fin.getElem_fin, IsEmpty.forall_iff, and_true, Fin.val_zero, Fin.val_succ, Vector.getElem_mk,
        List.getElem_toArray, List.getElem_cons_zero, List.getElem_cons_succ]
      have key : ∀ u v s : ℝ, 0 < v - u → ((-1 ≤ 2 / (v - u) * s + -(v + u) / (v - u) ↔ u ≤ s) ∧
          (2 / (v - u) * s + -(v + u) / (v - u) ≤ 1 ↔ s ≤ v)) := by
        intro u v s h
        rw [show 2 / (v - u) * s + -(v + u) / (v - u) = (2 * s - (v + u)) / (v - u) by field_simp; ring, le_div_iff₀ h, div_le_iff₀ h]
        constructor <;> constructor <;> intro h <;> linarith
      have key3 : ∀ u v s : ℝ, 0 < v - u → ((-1 ≤ -2 / (v - u) * s + -(v + u) / (v - u) ↔ s ≤ -u) ∧
          (-2 / (v - u) * s + -(v + u) / (v - u) ≤ 1 ↔ -v ≤ s)) := by
        intro u v s h
        rw [show -2 / (v - u) * s + -(v + u) / (v - u) = (-2 * s - (v + u)) / (v - u) by field_simp; ring, le_div_iff₀ h, div_le_iff₀ h]
        constructor <;> constructor <;> intro h <;> linarith
      rw [(key _ _ x d1).1, (key _ _ x d1).2, (key _ _ y d2).1, (key _ _ y d2).2, (key3 _ _ z d3).1, (key3 _ _ z d3).2]
      tauto
  · intro q
    refine ⟨#v[(q[0] * (f.right - f.left) + (f.right + f.left)) / (2 : ℝ), (q[1] * (f.top - f.bottom) + (f.top + f.bottom)) / (2 : ℝ),
      -(q[2] * (f.farPlane - f.nearPlane) + (f.farPlane + f.nearPlane)) / (2 : ℝ)], ?_, ?_⟩
    · simp only [himg]
      congr 1
      apply vec3_ext <;> simp <;> field_simp <;> ring
    · intro p hp
      rw [himg] at hp
      injection hp with hp
      have e0 : 2 / (f.right - f.left) * p[0] + -(f.right + f.left) / (f.right - f.left) = q[0] := by rw [← hp]; rfl
      have e1 : 2 / (f.top - f.bottom) * p[1] + -(f.top + f.bottom) / (f.top - f.bottom) = q[1] := by rw [← hp]; rfl
      have e2 : -2 / (f.farPlane - f.nearPlane) * p[2] + -(f.farPlane + f.nearPlane) / (f.farPlane - f.nearPlane) = q[2] := by rw [← hp]; rfl
      apply vec3_ext <;> simp
      · rw [← e0]; field_simp; ring
      · rw [← e1]; field_simp; ring
      · rw [← e2]; field_simp; ring
  · rw [himg]; congr 1; apply vec3_ext <;> simp <;> field_simp <;> ring
  · rw [himg]; congr 1; apply vec3_ext <;> simp <;> field_simp <;> ring
/-- C61. The default frustum satisfies the hypotheses. -/
example : let f : Frustum ℝ := Frustum.DEFAULT (1 / 10) 100; f.left < f.right ∧ f.bottom < f.top ∧ f.nearPlane < f.farPlane := by
  simp [Frustum.DEFAULT, Frustum.set, setLeft, setRight, setBottom, setTop, setNear, setFar, left, right, bottom, top, nearPlane, farPlane, ctor]
  norm_num

/-! ## C62 -/

/-- A point lies in the (infinite) viewing pyramid of the frustum. -/
def Spec.InPyramid (f : Frustum ℝ) (x y z : ℝ) : Prop :=
  f.left * -z ≤ x * f.nearPlane ∧ x * f.nearPlane ≤ f.right * -z ∧ f.bottom * -z ≤ y * f.nearPlane ∧ y * f.nearPlane ≤ f.top * -z

theorem adjustNear_eq (f : Frustum ℝ) (n : ℝ) (h0 : f.nearPlane ≠ 0) :
    (f.adjustNear n).left = f.left * (n / f.nearPlane) ∧ (f.adjustNear n).right = f.right * (n / f.nearPlane) ∧
    (f.adjustNear n).bottom = f.bottom * (n / f.nearPlane) ∧ (f.adjustNear n).top = f.top * (n / f.nearPlane) ∧
    (f.adjustNear n).nearPlane = n ∧ (f.adjustNear n).farPlane = f.farPlane := by
  unfold adjustNear
  by_cases h : n = f.nearPlane
  · subst h
    simp [div_self h0]
  · rw [if_neg (by simpa using h)]
    simp [setLeft, setRight, setBottom, setTop, setNear, left, right, bottom, top, nearPlane, farPlane]

theorem Frustum.ext' {f g : Frustum α} (h0 : f.left = g.left) (h1 : f.right = g.right) (h2 : f.bottom = g.bottom) (h3 : f.top = g.top)
    (h4 : f.nearPlane = g.nearPlane) (h5 : f.farPlane = g.farPlane) : f = g := by
  obtain ⟨a⟩ := f
  obtain ⟨b⟩ := g
  congr 1
  ext i hi
  match i, hi with
  | 0, _ => exact h0
  | 1, _ => exact h1
  | 2, _ => exact h2
  | 3, _ => exact h3
  | 4, _ => exact h4
  | 5, _ => exact h5

/-- C62. `adjust_near( n )`: the near plane is `n`, the far plane is unchanged, all view directions (the ratios to the near distance) are kept,
the viewing pyramid contains the same points, and adjusting back restores the frustum. -/
theorem C62_adjust_near (f : Frustum ℝ) (n : ℝ) (h0 : 0 < f.nearPlane) (hn : 0 < n) :
    let g := f.adjustNear n
    g.nearPlane = n ∧ g.farPlane = f.farPlane ∧
    g.left / g.nearPlane = f.left / f.nearPlane ∧ g.right / g.nearPlane = f.right / f.nearPlane ∧
    g.bottom / g.nearPlane = f.bottom / f.nearPlane ∧ g.top / g.nearPlane = f.top / f.nearPlane ∧
    (∀ x y z, Spec.InPyramid g x y z ↔ Spec.InPyramid f x y z) ∧
    g.adjustNear f.nearPlane = f := by
  obtain ⟨e1, e2, e3, e4, e5, e6⟩ := adjustNear_eq f n h0.ne'
  refine ⟨e5, e6, ?_, ?_, ?_, ?_, ?_, ?_⟩
  · rw [e1, e5]; field_simp
  · rw [e2, e5]; field_simp
  · rw [e3, e5]; field_simp
  · rw [e4, e5]; field_simp
  · intro x y z
    unfold Spec.InPyramid
    rw [e1, e2, e3, e4, e5]
    have k : 0 < n / f.nearPlane := by positivity
    have key : ∀ u v : ℝ, (u * (n / f.nearPlane) * -z ≤ v * n ↔ u * -z ≤ v * f.nearPlane) ∧
        (v * n ≤ u * (n / f.nearPlane) * -z ↔ v * f.nearPlane ≤ u * -z) := by
      intro u v
      have a : u * (n / f.nearPlane) * -z = (n / f.nearPlane) * (u * -z) := by ring
      have b : v * n = (n / f.nearPlane) * (v * f.nearPlane) := by field_simp
      rw [a, b]
      exact ⟨mul_le_mul_iff_right₀ k, mul_le_mul_iff_right₀ k⟩
    rw [(key _ _).1, (key _ _).2, (key _ _).1, (key _ _).2]
  · obtain ⟨d1, d2, d3, d4, d5, d6⟩ := adjustNear_eq (f.adjustNear n) f.nearPlane (by rw [e5]; exact hn.ne')
    apply Frustum.ext'
    · rw [d1, e1, e5]; field_simp
    · rw [d2, e2, e5]; field_simp
    · rw [d3, e3, e5]; field_simp
    · rw [d4, e4, e5]; field_simp
    · rw [d5]
    · rw [d6, e6]

/-- C62. Histories: after any sequence of adjustments only the last near value matters. -/
theorem C62_history (f : Frustum ℝ) (h0 : 0 < f.nearPlane) (ns : List ℝ) (hns : ∀ n ∈ ns, 0 < n) (n : ℝ) (hn : 0 < n) :
    (ns.foldl Frustum.adjustNear f).adjustNear n = f.adjustNear n := by
  induction ns generalizing f with
  | nil => rfl
  | cons a ns ih =>
    have ha : 0 < a := hns a (by simp)
    rw [List.foldl_cons, ih _ (by rw [(adjustNear_eq f a h0.ne').2.2.2.2.1]; exact ha) (fun n hn => hns n (by simp [hn]))]
    obtain ⟨e1, e2, e3, e4, e5, e6⟩ := adjustNear_eq f a h0.ne'
    obtain ⟨c1, c2, c3, c4, c5, c6⟩ := adjustNear_eq f n h0.ne'
    obtain ⟨d1, d2, d3, d4, d5, d6⟩ := adjustNear_eq (f.adjustNear a) n (by rw [e5]; exact ha.ne')
    apply Frustum.ext'
    · rw [d1, c1, e1, e5]; field_simp
    · rw [d2, c2, e2, e5]; field_simp
    · rw [d3, c3, e3, e5]; field_simp
    · rw [d4, c4, e4, e5]; field_simp
    · rw [d5, c5]
    · rw [d6, c6, e6]

example : (⟨#v[-1, 1, -2, 2, 1, 100]⟩ : Frustum Int).adjustNear 3 = ⟨#v[-3, 3, -6, 6, 3, 100]⟩ := by decide

/-! ## C63 -/

/-- The vertical opening angle (in degrees) of a frustum that is symmetric about the z axis. -/
noncomputable def Spec.fovY (f : Frustum ℝ) : ℝ := 2 * Real.arctan (f.top / f.nearPlane) * 180 / Real.pi

theorem setPerspective_eq (f : Frustum ℝ) (fov aspect n fa : ℝ) :
    let g := f.setPerspective (1 / 2) Real.pi 180 fov aspect n fa
    g.nearPlane = n ∧ g.farPlane = fa ∧ g.top = Real.tan (1 / 2 * fov * Real.pi / 180) * (1 / 2) ∧ g.bottom = -g.top ∧
    g.left = -(g.top * aspect) ∧ g.right = g.top * aspect := by
  simp [setPerspective, setLeft, setRight, setBottom, setTop, setNear, setFar, left, right, bottom, top, nearPlane, farPlane]

/-- C63, the part that holds: near and far are as given, the frustum is symmetric and its aspect ratio (width to height) is the given one; the vertical
angle is the requested one (in degrees) exactly if the near plane is at distance 1/2. Missing: the requested angle for any other near
plane. -/
theorem C63_set_perspective_partial (f : Frustum ℝ) (fov aspect n fa : ℝ) (h0 : 0 < fov) (h1 : fov < 180) (hn : 0 < n) (ha : 0 < aspect) :
    let g := f.setPerspective (1 / 2) Real.pi 180 fov aspect n fa
    g.nearPlane = n ∧ g.farPlane = fa ∧ g.bottom = -g.top ∧ g.left = -g.right ∧ 0 < g.top ∧ g.getWidth = aspect * g.getHeight ∧
    (Spec.fovY g = fov ↔ n = 1 / 2) := by
  obtain ⟨e1, e2, e3, e4, e5, e6⟩ := setPerspective_eq f fov aspect n fa
  intro g
  have hpi := Real.pi_pos
  have hlo : 0 < 1 / 2 * fov * Real.pi / 180 := by positivity
  have hhi : 1 / 2 * fov * Real.pi / 180 < Real.pi / 2 := by nlinarith
  have ht : 0 < Real.tan (1 / 2 * fov * Real.pi / 180) := Real.tan_pos_of_pos_of_lt_pi_div_two hlo hhi
  have htop : 0 < g.top := by rw [e3]; positivity
  refine ⟨e1, e2, e4, by rw [e5, e6], htop, ?_, ?_⟩
  · simp only [getWidth, getHeight, fabs_real]
    rw [e6, e5, e4]
    have hw : 0 ≤ g.top * aspect - -(g.top * aspect) := by nlinarith [mul_pos htop ha]
    have hh : 0 ≤ g.top - -g.top := by linarith
    rw [abs_of_nonneg hw, abs_of_nonneg hh]; ring
  · have key : Spec.fovY g = fov ↔ Real.arctan (g.top / n) = 1 / 2 * fov * Real.pi / 180 := by
      unfold Spec.fovY
      rw [e1, div_eq_iff hpi.ne']
      constructor <;> intro h <;> linarith
    rw [key]
    have inj : Real.arctan (g.top / n) = 1 / 2 * fov * Real.pi / 180 ↔ g.top / n = Real.tan (1 / 2 * fov * Real.pi / 180) := by
      constructor
      · intro h; rw [← h, Real.tan_arctan]
      · intro h; rw [h, Real.arctan_tan (by linarith) hhi]
    rw [inj, e3, div_eq_iff hn.ne']
    constructor
    · intro h
      have := mul_left_cancel₀ ht.ne' h
      linarith
    · rintro rfl; rfl

/-- C63 fails: `set_perspective( 90, 1, 1, 2 )` does not have the vertical angle 90 degrees. -/
theorem C63_angle_violated (f : Frustum ℝ) : Spec.fovY (f.setPerspective (1 / 2) Real.pi 180 90 1 1 2) ≠ 90 := by
  intro h
  have := (C63_set_perspective_partial f 90 1 1 2 (by norm_num) (by norm_num) (by norm_num) (by norm_num)).2.2.2.2.2.2.1 h
  norm_num at this

/-! ## C64 -/

/-- C64. `apply_jitter` moves left and right by the x offset, bottom and top by the y offset, and changes neither width nor height nor near nor
far; jitters add, and the opposite jitter undoes one. -/
theorem C64_jitter (f : Frustum ℝ) (j k : Vec 2 ℝ) :
    let g := f.applyJitter j
    g.left = f.left + j[0] ∧ g.right = f.right + j[0] ∧ g.bottom = f.bottom + j[1] ∧ g.top = f.top + j[1] ∧
    g.nearPlane = f.nearPlane ∧ g.farPlane = f.farPlane ∧ g.getWidth = f.getWidth ∧ g.getHeight = f.getHeight ∧
    g.applyJitter k = f.applyJitter #v[j[0] + k[0], j[1] + k[1]] ∧
    g.applyJitter #v[-j[0], -j[1]] = f := by
  simp only [applyJitter, getWidth, getHeight, fabs_real]
  refine ⟨?_, ?_, ?_, ?_, ?_, ?_, ?_, ?_, ?_, ?_⟩
  rotate_right 2
  · apply Frustum.ext' <;>
      simp [setLeft, setRight, setBottom, setTop, setNear, setFar, left, right, bottom, top, nearPlane, farPlane, add_assoc]
  · apply Frustum.ext' <;>
      simp [setLeft, setRight, setBottom, setTop, setNear, setFar, left, right, bottom, top, nearPlane, farPlane]
  all_goals simp [setLeft, setRight, setBottom, setTop, setNear, setFar, left, right, bottom, top, nearPlane, farPlane]

example : (⟨#v[-1, 1, -2, 2, 1, 100]⟩ : Frustum Int).applyJitter #v[3, 5] = ⟨#v[2, 4, 3, 7, 1, 100]⟩ := by decide

/-! ## C85: construction and copying -/

/-- C85. `set` and the six-value constructor give exactly the named planes, whatever the object held before; copying and converting
assignment, construction from another frustum and from a pointer to (at least) six values agree with it value by value. -/
theorem C85_set (cast : β → α) (f g : Frustum α) (s : Frustum β) {k : Nat} (hk : 6 ≤ k) (values : Vec k β) (l r b t n fa : α) :
    (let h := f.set l r b t n fa
     h.left = l ∧ h.right = r ∧ h.bottom = b ∧ h.top = t ∧ h.nearPlane = n ∧ h.farPlane = fa) ∧
    f.assign g = .ok g ∧
    f.assignCast cast s = .ok (f.set (cast s.left) (cast s.right) (cast s.bottom) (cast s.top) (cast s.nearPlane) (cast s.farPlane)) ∧
    f.ofValues cast values = .ok (f.set (cast values[0]) (cast values[1]) (cast values[2]) (cast values[3]) (cast values[4]) (cast values[5])) := by
  refine ⟨?_, ?_, ?_, ?_⟩
  · simp [Frustum.set, setLeft, setRight, setBottom, setTop, setNear, setFar, left, right, bottom, top, nearPlane, farPlane]
  · have : f.array.memcpy g.array 6 = .ok g.array := by
      rw [Vec.memcpy_eq _ _ _ le_rfl le_rfl]
      congr 1
      ext i hi
      simp [hi]
    simp [Frustum.assign, this]
  · have : loop 6 (fun i a => do Vec.rawSet a i (cast (← s.array.rawGet i))) f.array = .ok (Vector.ofFn fun i => cast s.array[i]) := by
      apply loop_set
      intro i hi v _
      simp [hi]
    simp only [assignCast, this, bind_ok, pure_ok]
    congr 1
    apply Frustum.ext' <;> simp [Frustum.set, setLeft, setRight, setBottom, setTop, setNear, setFar, left, right, bottom, top, nearPlane, farPlane]
  · simp [ofValues, Frustum.set, Vec.rawGet_lt, show 0 < k by omega, show 1 < k by omega, show 2 < k by omega, show 3 < k by omega,
      show 4 < k by omega, show 5 < k by omega]

/-- C85. The default-constructed frustum has all planes at zero (it is degenerate), while `DEFAULT` is a valid symmetric frustum: width and height 2,
near plane at 0.1, far plane at 100, every plane pair in strict order. -/
theorem C85_default (f : Frustum ℝ) :
    (let z : Frustum ℝ := Frustum.ctor; z.left = 0 ∧ z.right = 0 ∧ z.bottom = 0 ∧ z.top = 0 ∧ z.nearPlane = 0 ∧ z.farPlane = 0) ∧
    (let d := f.default (id : ℝ → ℝ)
     d.left = -1 ∧ d.right = 1 ∧ d.bottom = -1 ∧ d.top = 1 ∧ d.nearPlane = 1 / 10 ∧ d.farPlane = 100 ∧ d.getWidth = 2 ∧ d.getHeight = 2 ∧
     d.left < d.right ∧ d.bottom < d.top ∧ 0 < d.nearPlane ∧ d.nearPlane < d.farPlane) := by
  refine ⟨?_, ?_⟩
  · simp [Frustum.ctor, Vec.zeroCtor, left, right, bottom, top, nearPlane, farPlane]
  · simp [Frustum.default, Frustum.set, setLeft, setRight, setBottom, setTop, setNear, setFar, left, right, bottom, top, nearPlane, farPlane,
      Frustum.getWidth, Frustum.getHeight]
    norm_num

/-- C85. A pointer to fewer than six values is read past its end. -/
theorem C85_short_pointer (cast : β → α) (f : Frustum α) {k : Nat} (hk : k < 6) (values : Vec k β) :
    f.ofValues cast values = .error .ub := by
  match k, hk with
  | 0, _ => rfl
  | 1, _ => rfl
  | 2, _ => rfl
  | 3, _ => rfl
  | 4, _ => rfl
  | 5, _ => rfl

example : (Frustum.ctor : Frustum Int).ofValues (fun x : Nat => (x : Int)) #v[1, 2, 3, 4, 5, 6] = .ok ⟨#v[1, 2, 3, 4, 5, 6]⟩ := by decide

/-! ## C83: printing a frustum -/

/-- C83 also fails for frusta: printing to a stream that was left-adjusted sets the `right` flag and leaves it set. -/
theorem C83_frustum_violated (fmt : Ios → α → List Char) (f : Frustum α) :
    ∃ os : OStream, (f.print fmt os).ios.flags ≠ os.ios.flags := by
  refine ⟨⟨[], ⟨Ios.left, 6, 0, ' '⟩⟩, ?_⟩
  simp only [Frustum.print, OStream.put, OStream.setw, Ios.setf, Ios.setfMask]
  decide

/-- C83, the part that holds for frusta: the precision is restored, and the flags afterwards are the flags before plus `ios::right`. -/
theorem C83_frustum_partial (fmt : Ios → α → List Char) (f : Frustum α) (os : OStream) :
    (f.print fmt os).ios.prec = os.ios.prec ∧ (f.print fmt os).ios.flags = os.ios.flags ||| Ios.right :=
  ⟨rfl, flags_identity _⟩

end Vmml
