import Verif.Proofs.VectorReal
import Mathlib.Tactic.Linarith
import Mathlib.Tactic.LinearCombination
import Mathlib.Tactic.FieldSimp
import Mathlib.Tactic.Positivity

/-!
# C11, C15 – C19, C84: homogeneous coordinates, rotation, spheres, planes, utilities
-/

set_option linter.unusedSimpArgs false

namespace Vmml
open Vec
variable {M N : Nat} {α : Type}

/-! ## C11 -/

theorem toHomogeneous_eq [One α] (cfg : Cfg) (mem : Vec (N + 1) α) (v : Vec N α) :
    toHomogeneous cfg mem v =
      .ok (Vector.ofFn fun j : Fin (N + 1) => if h : j.1 < N then v[j.1] else 1) := by
  simp only [toHomogeneous, memcpy_eq mem v N (by omega) le_rfl, bind_ok, atSet_lt cfg _ _ (Nat.lt_succ_self N)]
  congr 1; ext j hj
  rw [Vector.getElem_set]
  by_cases h : N = j
  · subst h; simp
  · simp [h, show j < N by omega]

theorem fromHomogeneous_eq [One α] [Mul α] [Div α] (cfg : Cfg) (mem : Vec M α) (v : Vec (M + 1) α) :
    fromHomogeneous cfg mem v = .ok (Vector.ofFn fun j : Fin M => v[j.1] * (1 / v[M])) := by
  simp only [fromHomogeneous, atGet_lt cfg v (Nat.lt_succ_self M), bind_ok]
  apply loop_set
  intro i hi u _
  simp [hi, show i < M + 1 by omega]

/-- C11. The to-homogeneous conversion appends `1`; the from-homogeneous one divides every
component by the last (the old content of the target does not matter). -/
theorem C11_conversions [Field α] (cfg : Cfg) (mem : Vec (N + 1) α) (v : Vec N α) (mem' : Vec M α)
    (h : Vec (M + 1) α) :
    (∃ r, toHomogeneous cfg mem v = .ok r ∧ (∀ i (hi : i < N), r[i] = v[i]) ∧ r[N] = 1) ∧
    (∃ r, fromHomogeneous cfg mem' h = .ok r ∧ ∀ i (hi : i < M), r[i] = h[i] / h[M]) :=
  ⟨⟨_, toHomogeneous_eq cfg mem v, fun i hi => by simp [hi], by simp⟩,
    ⟨_, fromHomogeneous_eq cfg mem' h, fun i hi => by simp [div_eq_mul_inv]⟩⟩

/-- C11. Converting to homogeneous coordinates and back is the identity. -/
theorem C11_round_trip [Field α] (cfg : Cfg) (mem : Vec (N + 1) α) (mem' v : Vec N α) :
    (do fromHomogeneous cfg mem' (← toHomogeneous cfg mem v)) = .ok v := by
  simp only [toHomogeneous_eq, bind_ok, fromHomogeneous_eq]
  congr 1; ext i hi; simp [hi]

/-- C11. Scaling a homogeneous vector by `k ≠ 0` does not change the point it denotes. -/
theorem C11_scale_invariant [Field α] (cfg : Cfg) (mem : Vec M α) (h : Vec (M + 1) α) (k : α) (hk : k ≠ 0)
    (hw : h[M] ≠ 0) :
    (do fromHomogeneous cfg mem (← h.mulS cfg k)) = fromHomogeneous cfg mem h := by
  simp only [mulS_eq, bind_ok, fromHomogeneous_eq]
  congr 1; ext i hi
  simp only [Vector.getElem_ofFn, Fin.getElem_fin]
  field_simp

example : (do fromHomogeneous ⟨true, true, false⟩ #v[0, 0] (← toHomogeneous ⟨true, true, false⟩ #v[9, 9, 9] (#v[3, 4] : Vec 2 ℚ)))
    = .ok #v[3, 4] := C11_round_trip _ _ _ _

/-! ## C15 -/

/-- Specification (Rodrigues' formula): rotation of `v` by the angle with cosine `c` and sine `s` about the unit vector `n`:
`c v + s (n × v) + (1 - c) (n·v) n`, component `i`. -/
noncomputable def Spec.rodrigues (n v : Fin 3 → ℝ) (c s : ℝ) (i : Fin 3) : ℝ :=
  c * v i + s * (n (i + 1) * v (i + 2) - n (i + 2) * v (i + 1)) +
    (1 - c) * (n 0 * v 0 + n 1 * v 1 + n 2 * v 2) * n i

/-- The unit vector of a non-zero axis, and the closed form of `rotate`. -/
theorem rotate_eq (cfg : Cfg) (v axis : Vec 3 ℝ) (θ : ℝ) (ha : axis ≠ #v[0, 0, 0]) :
    ∃ n : Vec 3 ℝ, ∃ l : ℝ, 0 < l ∧ axis.normalize cfg = .ok (n, l) ∧ (∀ i (h : i < 3), axis[i] = l * n[i]) ∧
      n[0] ^ 2 + n[1] ^ 2 + n[2] ^ 2 = 1 ∧
      v.rotate cfg θ axis = .ok (Vector.ofFn fun i => Spec.rodrigues (fun i => n[i]) (fun i => v[i])
        (Real.cos θ) (Real.sin θ) i) := by
  have hs : ∑ i : Fin 3, axis[i] * axis[i] ≠ 0 := by
    intro h
    rw [Finset.sum_eq_zero_iff_of_nonneg (fun i _ => mul_self_nonneg _)] at h
    apply ha
    apply vec3_ext
    · simpa using h 0 (Finset.mem_univ _)
    · simpa using h 1 (Finset.mem_univ _)
    · simpa using h 2 (Finset.mem_univ _)
  have h0 : 0 < ∑ i : Fin 3, axis[i] * axis[i] :=
    lt_of_le_of_ne (Finset.sum_nonneg fun i _ => mul_self_nonneg _) (Ne.symm hs)
  have hl := Real.sqrt_pos.2 h0
  have hn := normalize_eq_of_ne cfg axis hs
  have hsq : Real.sqrt (∑ i : Fin 3, axis[i] * axis[i]) ^ 2 = ∑ i : Fin 3, axis[i] * axis[i] :=
    Real.sq_sqrt h0.le
  generalize Real.sqrt (∑ i : Fin 3, axis[i] * axis[i]) = l at hn hl hsq
  refine ⟨_, l, hl, hn, ?_, ?_, ?_⟩
  · intro i hi
    simp only [Vector.getElem_ofFn, Fin.getElem_fin]
    field_simp
  · simp only [Vector.getElem_ofFn, Fin.getElem_fin]
    rw [sum3] at hsq
    field_simp
    linear_combination -hsq
  · simp only [Vec.rotate, hn, bind_ok, pure_ok]
    congr 1
    apply vec3_ext <;> simp [Spec.rodrigues, cos_real, sin_real] <;> ring

/-- C15. `rotate( θ, axis )` about a non-zero axis is the Rodrigues rotation about the unit axis. -/
theorem C15_rodrigues (cfg : Cfg) (v axis : Vec 3 ℝ) (θ : ℝ) (ha : axis ≠ #v[0, 0, 0]) :
    ∃ n : Fin 3 → ℝ, ∃ l : ℝ, 0 < l ∧ (∀ i (h : i < 3), axis[i] = l * n ⟨i, h⟩) ∧ n 0 ^ 2 + n 1 ^ 2 + n 2 ^ 2 = 1 ∧
      ∃ r, v.rotate cfg θ axis = .ok r ∧
        ∀ i : Fin 3, r[i] = Spec.rodrigues n (fun i => v[i]) (Real.cos θ) (Real.sin θ) i := by
  obtain ⟨n, l, h1, -, h3, h4, h5⟩ := rotate_eq cfg v axis θ ha
  exact ⟨fun i => n[i], l, h1, h3, h4, _, h5, by simp⟩

/-- C15. The rotation preserves length and the component along the axis, and fixes the axis. -/
theorem C15_isometry (cfg : Cfg) (v axis : Vec 3 ℝ) (θ : ℝ) (ha : axis ≠ #v[0, 0, 0]) :
    ∃ r, v.rotate cfg θ axis = .ok r ∧ r.length = v.length ∧ r.dot cfg axis = v.dot cfg axis ∧
      axis.rotate cfg θ axis = .ok axis := by
  obtain ⟨n, l, h1, -, h3, h4, h5⟩ := rotate_eq cfg v axis θ ha
  obtain ⟨n', l', h1', h2', h3', h4', h5'⟩ := rotate_eq cfg axis axis θ ha
  have hcs := Real.sin_sq_add_cos_sq θ
  refine ⟨_, h5, ?_, ?_, ?_⟩
  · rw [length_eq, length_eq]
    congr 2
    simp only [Fin.sum_univ_three, Fin.getElem_fin, Vector.getElem_ofFn, Spec.rodrigues, Fin.isValue]
    simp only [Fin.isValue, zero_add, Fin.reduceAdd, Fin.reduceFinMk, Fin.val_zero, Fin.val_one, Fin.val_two]
    linear_combination ((Real.sin θ) ^ 2 * (v[0] ^ 2 + v[1] ^ 2 + v[2] ^ 2) + (1 - Real.cos θ) ^ 2 *
      (n[0] * v[0] + n[1] * v[1] + n[2] * v[2]) ^ 2) * h4 +
      ((v[0] ^ 2 + v[1] ^ 2 + v[2] ^ 2) - (n[0] * v[0] + n[1] * v[1] + n[2] * v[2]) ^ 2) * hcs
  · rw [dot_eq, dot_eq]
    congr 1
    simp only [Fin.sum_univ_three, Fin.getElem_fin, Vector.getElem_ofFn, Spec.rodrigues, Fin.isValue]
    simp only [Fin.isValue, zero_add, Fin.reduceAdd, Fin.reduceFinMk, Fin.val_zero, Fin.val_one, Fin.val_two,
      h3 0 (by omega), h3 1 (by omega), h3 2 (by omega)]
    linear_combination (l * (1 - Real.cos θ) * (n[0] * v[0] + n[1] * v[1] + n[2] * v[2])) * h4
  · rw [h5']
    congr 1
    apply vec3_ext <;> simp [Spec.rodrigues, h3' 0 (by omega), h3' 1 (by omega), h3' 2 (by omega)]
    · linear_combination (l' * (1 - Real.cos θ) * n'[0]) * h4'
    · linear_combination (l' * (1 - Real.cos θ) * n'[1]) * h4'
    · linear_combination (l' * (1 - Real.cos θ) * n'[2]) * h4'

/-- C15. Rotations about the same axis compose by adding the angles; rotating by 0 does nothing. -/
theorem C15_additive (cfg : Cfg) (v axis : Vec 3 ℝ) (θ φ : ℝ) (ha : axis ≠ #v[0, 0, 0]) :
    (do (← v.rotate cfg θ axis).rotate cfg φ axis) = v.rotate cfg (θ + φ) axis ∧
    v.rotate cfg 0 axis = .ok v := by
  obtain ⟨n, l, h1, h2, h3, h4, h5⟩ := rotate_eq cfg v axis θ ha
  obtain ⟨n₂, l₂, -, g2, -, -, g5⟩ := rotate_eq cfg (Vector.ofFn fun i => Spec.rodrigues (fun i => n[i])
    (fun i => v[i]) (Real.cos θ) (Real.sin θ) i) axis φ ha
  obtain ⟨n₃, l₃, -, k2, -, -, k5⟩ := rotate_eq cfg v axis (θ + φ) ha
  obtain ⟨n₄, l₄, -, m2, -, -, m5⟩ := rotate_eq cfg v axis 0 ha
  have en₂ : n = n₂ := by rw [h2] at g2; injection g2 with g2; injection g2
  have en₃ : n = n₃ := by rw [h2] at k2; injection k2 with k2; injection k2
  have en₄ : n = n₄ := by rw [h2] at m2; injection m2 with m2; injection m2
  subst en₂ en₃ en₄
  constructor
  · rw [h5, bind_ok, g5, k5]
    congr 1
    rw [Real.cos_add, Real.sin_add]
    apply vec3_ext
    · simp [Spec.rodrigues]
      linear_combination (-(Real.sin θ * Real.sin φ * v[0]) + (1 - Real.cos θ) * (1 - Real.cos φ) *
        (n[0] * v[0] + n[1] * v[1] + n[2] * v[2]) * n[0]) * h4
    · simp [Spec.rodrigues]
      linear_combination (-(Real.sin θ * Real.sin φ * v[1]) + (1 - Real.cos θ) * (1 - Real.cos φ) *
        (n[0] * v[0] + n[1] * v[1] + n[2] * v[2]) * n[1]) * h4
    · simp [Spec.rodrigues]
      linear_combination (-(Real.sin θ * Real.sin φ * v[2]) + (1 - Real.cos θ) * (1 - Real.cos φ) *
        (n[0] * v[0] + n[1] * v[1] + n[2] * v[2]) * n[2]) * h4
  · rw [m5]
    congr 1
    apply vec3_ext <;> simp [Spec.rodrigues]

example : (#v[0, 0, 2] : Vec 3 ℝ) ≠ #v[0, 0, 0] := by
  intro h; have := congrArg (fun v : Vec 3 ℝ => v[2]) h; simp at this

/-! ## C16 -/

theorem getSub3_eq [Zero α] (cfg : Cfg) (p : Vec 4 α) :
    p.getSub cfg 3 0 zeroCtor = .ok #v[p[0], p[1], p[2]] := by
  unfold getSub
  simp only [cassert, show decide (0 ≤ 4 - 3) = true by decide, Bool.true_or, if_true, pure_ok, bind_ok]
  rw [loop_set (fun i : Fin 3 => p[i.1]) (by intro i hi u _; simp [hi, show i < 4 by omega]), ofFn3]
  rfl

theorem distanceToPlane_eq (cfg : Cfg) (p : Vec 4 ℝ) (x : Vec 3 ℝ) :
    p.distanceToPlane cfg x = .ok (p[0] * x[0] + p[1] * x[1] + p[2] * x[2] + p[3]) := by
  simp [distanceToPlane, getSub3_eq, dot_eq, Fin.sum_univ_three]

/-- C16. `distance_to_sphere` is the distance to the centre minus the radius (negative exactly inside). -/
theorem C16_distance_to_sphere (cfg : Cfg) (sphere : Vec 4 ℝ) (p : Vec 3 ℝ) :
    ∃ d c, sphere.distanceToSphere cfg p = .ok d ∧ p.distance cfg #v[sphere[0], sphere[1], sphere[2]] = .ok c ∧
      d = c - sphere[3] ∧ (d < 0 ↔ c < sphere[3]) := by
  refine ⟨_, _, ?_, distance_eq cfg p _, rfl, by rw [sub_neg]⟩
  simp [distanceToSphere, getSub3_eq, sub_eq, length_eq]

/-- C16. For a point different from the centre, the projection onto a sphere of radius `≥ 0` has
distance `radius` from the centre and lies on the ray from the centre through the point. -/
theorem C16_project_onto_sphere (cfg : Cfg) (sphere : Vec 4 ℝ) (p : Vec 3 ℝ) (hr : (0 : ℝ) ≤ sphere[3])
    (hp : p ≠ #v[sphere[0], sphere[1], sphere[2]]) :
    ∃ q : Vec 3 ℝ, ∃ k : ℝ, sphere.projectPointOntoSphere cfg p = .ok q ∧
      sphere.distanceToSphere cfg q = .ok 0 ∧ 0 ≤ k ∧
      ∀ i (hi : i < 3), q[i] - sphere[i] = k * (p[i] - sphere[i]) := by
  obtain ⟨d, hd⟩ : ∃ d : Vec 3 ℝ, d = Vector.ofFn fun i : Fin 3 => p[i] - #v[sphere[0], sphere[1], sphere[2]][i] := ⟨_, rfl⟩
  have hs : ∑ i : Fin 3, d[i] * d[i] ≠ 0 := by
    intro h
    rw [Finset.sum_eq_zero_iff_of_nonneg (fun i _ => mul_self_nonneg _)] at h
    apply hp
    have e0 := h 0 (Finset.mem_univ _)
    have e1 := h 1 (Finset.mem_univ _)
    have e2 := h 2 (Finset.mem_univ _)
    simp [hd] at e0 e1 e2
    apply vec3_ext
    · simp; linarith
    · simp; linarith
    · simp; linarith
  have h0 : 0 < ∑ i : Fin 3, d[i] * d[i] :=
    lt_of_le_of_ne (Finset.sum_nonneg fun i _ => mul_self_nonneg _) (Ne.symm hs)
  have hl := Real.sqrt_pos.2 h0
  have hn := normalize_eq_of_ne cfg d hs
  have hsq : Real.sqrt (∑ i : Fin 3, d[i] * d[i]) ^ 2 = ∑ i : Fin 3, d[i] * d[i] := Real.sq_sqrt h0.le
  generalize Real.sqrt (∑ i : Fin 3, d[i] * d[i]) = l at hn hl hsq
  have hproj : sphere.projectPointOntoSphere cfg p =
      .ok (Vector.ofFn fun i : Fin 3 => sphere[i.1] + d[i] * (1 / l) * sphere[3]) := by
    simp only [projectPointOntoSphere, getSub3_eq, bind_ok, subAssign_eq, ← hd, hn, mulAssignS_eq, add_eq]
    congr 1
    apply vec3_ext <;> simp
  refine ⟨_, sphere[3] / l, hproj, ?_, by positivity, ?_⟩
  · simp only [distanceToSphere, getSub3_eq, bind_ok, sub_eq, length_eq, pure_ok]
    congr 1
    have : ∑ i : Fin 3, (Vector.ofFn fun i : Fin 3 => (Vector.ofFn fun i : Fin 3 => sphere[i.1] + d[i] * (1 / l) * sphere[3])[i] -
        #v[sphere[0], sphere[1], sphere[2]][i])[i] * (Vector.ofFn fun i : Fin 3 => (Vector.ofFn fun i : Fin 3 => sphere[i.1] + d[i] * (1 / l) * sphere[3])[i] -
        #v[sphere[0], sphere[1], sphere[2]][i])[i] = sphere[3] ^ 2 := by
      simp only [Fin.sum_univ_three, Fin.getElem_fin] at hsq
      simp [Fin.sum_univ_three] at hsq ⊢
      field_simp
      linear_combination (-(sphere[3] ^ 2)) * hsq
    rw [this, Real.sqrt_sq hr]
    ring
  · intro i hi
    have e : d[i] = p[i] - sphere[i] := by
      match i, hi with
      | 0, _ => simp [hd]
      | 1, _ => simp [hd]
      | 2, _ => simp [hd]
    simp [e]
    field_simp

/-- C16. `distance_to_plane` is the value of the plane equation. -/
theorem C16_distance_to_plane (cfg : Cfg) (plane : Vec 4 ℝ) (x : Vec 3 ℝ) :
    plane.distanceToPlane cfg x = .ok (plane[0] * x[0] + plane[1] * x[1] + plane[2] * x[2] + plane[3]) :=
  distanceToPlane_eq cfg plane x

/-- C16. For a plane with unit normal, the projection of a point lies on the plane, the displacement is the
signed distance times the normal, and points of the plane are fixed. -/
theorem C16_project_onto_plane (cfg : Cfg) (plane : Vec 4 ℝ) (x : Vec 3 ℝ)
    (hn : plane[0] ^ 2 + plane[1] ^ 2 + plane[2] ^ 2 = 1) :
    ∃ q d, plane.projectPointOntoPlane cfg x = .ok q ∧ plane.distanceToPlane cfg x = .ok d ∧
      plane.distanceToPlane cfg q = .ok 0 ∧ (∀ i (hi : i < 3), x[i] - q[i] = d * plane[i]) ∧
      (d = 0 → q = x) := by
  have hq : plane.projectPointOntoPlane cfg x = .ok (Vector.ofFn fun i : Fin 3 => x[i] - plane[i.1] *
      (plane[0] * x[0] + plane[1] * x[1] + plane[2] * x[2] + plane[3])) := by
    simp only [projectPointOntoPlane, getSub3_eq, distanceToPlane_eq, bind_ok, mulS_eq, sub_eq]
    congr 1
  refine ⟨_, _, hq, distanceToPlane_eq cfg plane x, ?_, ?_, ?_⟩
  · rw [distanceToPlane_eq]
    congr 1
    simp
    linear_combination (-(plane[0] * x[0] + plane[1] * x[1] + plane[2] * x[2] + plane[3])) * hn
  · intro i hi
    simp; ring
  · intro hd
    ext i hi
    simp [hd]

/-! ## C17 -/

/-- C17 (normal). For a non-degenerate triangle `compute_normal` is a unit vector, orthogonal to both
edges, oriented like `(b - a) × (c - a)`. -/
theorem C17_compute_normal (cfg : Cfg) (a b c ab ac : Vec 3 ℝ) (hab : b.sub cfg a = .ok ab)
    (hac : c.sub cfg a = .ok ac) (h : ab.cross ac ≠ #v[0, 0, 0]) :
    ∃ n, computeNormal cfg a b c = .ok n ∧ n.length = .ok 1 ∧ n.dot cfg ab = .ok 0 ∧ n.dot cfg ac = .ok 0 ∧
      ∃ d, n.dot cfg (ab.cross ac) = .ok d ∧ 0 < d := by
  set x := ab.cross ac with hx
  have hne : ∃ i, ∃ hi : i < 3, x[i] ≠ 0 := by
    by_contra hc
    push Not at hc
    exact h (vec3_ext (hc 0 (by omega)) (hc 1 (by omega)) (hc 2 (by omega)))
  obtain ⟨i, hi, hne⟩ := hne
  have hs := sum_sq_ne_zero x hi hne
  have h0 : 0 < ∑ i : Fin 3, x[i] * x[i] :=
    lt_of_le_of_ne (Finset.sum_nonneg fun i _ => mul_self_nonneg _) (Ne.symm hs)
  have hl := Real.sqrt_pos.2 h0
  have hn := normalize_eq_of_ne cfg x hs
  have hsq : Real.sqrt (∑ i : Fin 3, x[i] * x[i]) ^ 2 = ∑ i : Fin 3, x[i] * x[i] := Real.sq_sqrt h0.le
  generalize Real.sqrt (∑ i : Fin 3, x[i] * x[i]) = l at hn hl hsq
  have e0 : x[0] = ab[1] * ac[2] - ab[2] * ac[1] := rfl
  have e1 : x[1] = ab[2] * ac[0] - ab[0] * ac[2] := rfl
  have e2 : x[2] = ab[0] * ac[1] - ab[1] * ac[0] := rfl
  simp only [Fin.sum_univ_three, Fin.getElem_fin] at hsq
  simp at hsq
  refine ⟨Vector.ofFn fun i : Fin 3 => x[i] * (1 / l), ?_, ?_, ?_, ?_, _, dot_eq cfg _ _, ?_⟩
  · simp only [computeNormal, hab, hac, bind_ok, ← hx, hn, pure_ok]
  · rw [length_eq]
    congr 1
    rw [Real.sqrt_eq_one]
    simp [Fin.sum_univ_three]
    field_simp
    linear_combination -hsq
  · rw [dot_eq]; congr 1
    simp [Fin.sum_univ_three, e0, e1, e2]; ring
  · rw [dot_eq]; congr 1
    simp [Fin.sum_univ_three, e0, e1, e2]; ring
  · simp [Fin.sum_univ_three]
    have : x[0] * l⁻¹ * x[0] + x[1] * l⁻¹ * x[1] + x[2] * l⁻¹ * x[2] = l := by
      field_simp
      linear_combination -hsq
    rw [this]; exact hl

/-- Closed form of `compute_plane`: with `n = (b - c) × (a - b)` and `k = 1/√(|n|² + 1)`, the plane is
`(k n, -k n·a)`. -/
theorem computePlane_eq (cfg : Cfg) (a b c : Vec 3 ℝ) :
    ∃ n : Vec 3 ℝ, ∃ k : ℝ, 0 < k ∧ k ^ 2 * (n[0] ^ 2 + n[1] ^ 2 + n[2] ^ 2 + 1) = 1 ∧
      n[0] = (b[1] - c[1]) * (a[2] - b[2]) - (b[2] - c[2]) * (a[1] - b[1]) ∧
      n[1] = (b[2] - c[2]) * (a[0] - b[0]) - (b[0] - c[0]) * (a[2] - b[2]) ∧
      n[2] = (b[0] - c[0]) * (a[1] - b[1]) - (b[1] - c[1]) * (a[0] - b[0]) ∧
      computePlane cfg a b c = .ok #v[k * n[0], k * n[1], k * n[2],
        -(k * (n[0] * a[0] + n[1] * a[1] + n[2] * a[2]))] := by
  set n : Vec 3 ℝ := Vec.cross (Vector.ofFn fun i : Fin 3 => b[i] - c[i]) (Vector.ofFn fun i : Fin 3 => a[i] - b[i]) with hn
  set pl : Vec 4 ℝ := Vector.ofFn fun j : Fin (3 + 1) => if h : j.1 < 3 then n[j.1] else 1 with hpl
  have p0 : pl[0] = n[0] := by simp [hpl]
  have p1 : pl[1] = n[1] := by simp [hpl]
  have p2 : pl[2] = n[2] := by simp [hpl]
  have p3 : pl[3] = 1 := by simp [hpl]
  have hs : ∑ i : Fin 4, pl[i] * pl[i] = n[0] ^ 2 + n[1] ^ 2 + n[2] ^ 2 + 1 := by
    simp only [Fin.sum_univ_four, Fin.getElem_fin]
    simp only [Fin.isValue, Fin.val_zero, Fin.val_one, Fin.val_two, Fin.reduceFinMk, p0, p1, p2]
    show _ + pl[3] * pl[3] = _
    rw [p3]; ring
  have h0 : 0 < ∑ i : Fin 4, pl[i] * pl[i] := by rw [hs]; positivity
  have hnorm := normalize_eq_of_ne cfg pl h0.ne'
  have hl := Real.sqrt_pos.2 h0
  have hsq : Real.sqrt (∑ i : Fin 4, pl[i] * pl[i]) ^ 2 = n[0] ^ 2 + n[1] ^ 2 + n[2] ^ 2 + 1 := by
    rw [Real.sq_sqrt h0.le, hs]
  generalize Real.sqrt (∑ i : Fin 4, pl[i] * pl[i]) = l at hnorm hl hsq
  refine ⟨n, 1 / l, by positivity, ?_, ?_, ?_, ?_, ?_⟩
  · rw [← hsq]; field_simp
  · simp [hn, cross]
  · simp [hn, cross]
  · simp [hn, cross]
  · simp only [computePlane, sub_eq, bind_ok, ← hn, toHomogeneous_eq, ← hpl, hnorm, setW,
      rawSet_lt _ _ (show 3 < 4 by omega)]
    congr 1
    apply vec4_ext
    · simp [p0]; ring
    · simp [p1]; ring
    · simp [p2]; ring
    · simp [p0, p1, p2]; ring

/-- C17 is violated for planes: `compute_plane` *never* returns a unit normal; the normal's length is
`|n| / √(|n|² + 1) < 1` where `n` is the cross product of the edges. -/
theorem C17_plane_normal_never_unit_violated (cfg : Cfg) (a b c : Vec 3 ℝ) :
    ∃ p, computePlane cfg a b c = .ok p ∧ p[0] ^ 2 + p[1] ^ 2 + p[2] ^ 2 < (1 : ℝ) := by
  obtain ⟨n, k, hk, h1, -, -, -, h5⟩ := computePlane_eq cfg a b c
  refine ⟨_, h5, ?_⟩
  simp only [Vector.getElem_mk, List.getElem_toArray, List.getElem_cons_zero, List.getElem_cons_succ]
  nlinarith [sq_nonneg k, pow_pos hk 2]

/-- C17 for planes, the part that holds: the three points lie on the plane, and for a non-degenerate triangle
the plane has a non-zero normal orthogonal to both edges, so its zero set is the plane of the triangle. Missing:
the normal is not a unit vector, so `distance_to_plane` is a scaled distance. -/
theorem C17_plane_partial (cfg : Cfg) (a b c : Vec 3 ℝ) :
    ∃ p, computePlane cfg a b c = .ok p ∧
      p.distanceToPlane cfg a = .ok 0 ∧ p.distanceToPlane cfg b = .ok 0 ∧ p.distanceToPlane cfg c = .ok 0 ∧
      (Vec.cross (Vector.ofFn fun i : Fin 3 => b[i] - a[i]) (Vector.ofFn fun i : Fin 3 => c[i] - a[i]) ≠ #v[0, 0, 0] →
        (0 : ℝ) < p[0] ^ 2 + p[1] ^ 2 + p[2] ^ 2) := by
  obtain ⟨n, k, hk, h1, e0, e1, e2, h5⟩ := computePlane_eq cfg a b c
  refine ⟨_, h5, ?_, ?_, ?_, ?_⟩
  · rw [distanceToPlane_eq]; congr 1; simp; ring
  · rw [distanceToPlane_eq]; congr 1; simp [e0, e1, e2]; ring
  · rw [distanceToPlane_eq]; congr 1; simp [e0, e1, e2]; ring
  · intro hne
    simp only [Vector.getElem_mk, List.getElem_toArray, List.getElem_cons_zero, List.getElem_cons_succ]
    by_contra hle
    have hz : n[0] ^ 2 + n[1] ^ 2 + n[2] ^ 2 ≤ 0 := by
      by_contra hp
      apply hle
      have : (0 : ℝ) < k ^ 2 * (n[0] ^ 2 + n[1] ^ 2 + n[2] ^ 2) := mul_pos (pow_pos hk 2) (not_le.1 hp)
      nlinarith
    have z0 : n[0] = 0 := by nlinarith [sq_nonneg n[0], sq_nonneg n[1], sq_nonneg n[2]]
    have z1 : n[1] = 0 := by nlinarith [sq_nonneg n[0], sq_nonneg n[1], sq_nonneg n[2]]
    have z2 : n[2] = 0 := by nlinarith [sq_nonneg n[0], sq_nonneg n[1], sq_nonneg n[2]]
    apply hne
    apply vec3_ext <;> simp [cross]
    · linear_combination e0 - z0
    · linear_combination e1 - z1
    · linear_combination e2 - z2

/-- C17. `compute_plane`'s normal points opposite to `compute_normal`'s: the plane equation at `a + t·((b-a)×(c-a))`, `t > 0`,
is negative for every non-degenerate triangle. -/
theorem C17_plane_orientation (cfg : Cfg) (a b c : Vec 3 ℝ) :
    ∃ p, computePlane cfg a b c = .ok p ∧ ∃ k : ℝ, 0 < k ∧
      ∀ i (hi : i < 3), p[i] = -k * (Vec.cross (Vector.ofFn fun i : Fin 3 => b[i] - a[i])
        (Vector.ofFn fun i : Fin 3 => c[i] - a[i]))[i] := by
  obtain ⟨n, k, hk, h1, e0, e1, e2, h5⟩ := computePlane_eq cfg a b c
  refine ⟨_, h5, k, hk, ?_⟩
  intro i hi
  match i, hi with
  | 0, _ => simp [e0, cross]; ring
  | 1, _ => simp [e1, cross]; ring
  | 2, _ => simp [e2, cross]; ring

example : Vec.cross (#v[1, 0, 0] : Vec 3 ℝ) #v[0, 1, 0] ≠ #v[0, 0, 0] := by
  intro h; have := congrArg (fun v : Vec 3 ℝ => v[2]) h; simp [cross] at this

/-! ## C18 -/

theorem scaleTo_eq (cfg : Cfg) (tmax : ℝ) {β : Type} (cast : ℝ → β) (v : Vec M ℝ) (r : Vec M β) (lo hi : ℝ) :
    scaleTo cfg (1 / 2) tmax cast v r lo hi =
      .ok (Vector.ofFn fun i => cast ((v[i] + (hi - lo) * (1 / 2)) * (1 / (hi - lo) * tmax))) := by
  unfold scaleTo
  apply loop_set
  intro i hi' u _
  simp [hi']

/-- C18, symmetric ranges only. Missing: ranges with `lo ≠ -hi` (see the violation). With `lo = -hi < 0` the value
`lo` is mapped to `0`, `hi` to the maximum of the target type, affinely. (`cast = id`: before the final
integer conversion.) -/
theorem C18_scale_to_partial (cfg : Cfg) (tmax hi : ℝ) (hhi : 0 < hi) (v r : Vec M ℝ) :
    ∃ s, scaleTo cfg (1 / 2) tmax id v r (-hi) hi = .ok s ∧
      ∀ i (hi' : i < M), s[i] = (v[i] - (-hi)) / (hi - (-hi)) * tmax := by
  refine ⟨_, scaleTo_eq cfg tmax id v r (-hi) hi, ?_⟩
  intro i hi'
  simp
  field_simp
  ring

/-- C18 is violated: if the lower bound is mapped to `0` then the range is symmetric, so every asymmetric range is mis-scaled. -/
theorem C18_scale_to_violated (cfg : Cfg) (tmax lo hi : ℝ) (ht : 0 < tmax) (h : lo < hi) (s : Vec 1 ℝ)
    (hs : scaleTo cfg (1 / 2) tmax id (#v[lo] : Vec 1 ℝ) #v[0] lo hi = .ok s) :
    s[0] = 0 ↔ lo = -hi := by
  rw [scaleTo_eq] at hs
  injection hs with hs
  have hr : 0 < hi - lo := by linarith
  rw [← hs]
  simp
  constructor
  · rintro (h1 | h1 | h1) <;> linarith
  · intro h1; left; rw [h1]; ring

/-! ## C19 -/

/-- C19. `product` is the product of all components (non-empty vectors). -/
theorem C19_product [CommMonoid α] (cfg : Cfg) (v : Vec (N + 1) α) :
    v.product cfg = .ok (∏ i : Fin (N + 1), v[i]) := by
  unfold Vec.product
  simp only [atGet_lt cfg v (Nat.succ_pos N), bind_ok, Nat.add_sub_cancel]
  rw [loop_prod (fun i : Fin N => v[i.1 + 1]) (by
    intro i hi s; simp [show i + 1 < N + 1 by omega])]
  rw [Fin.prod_univ_succ]
  simp

/-- C19. `nnz` is the number of non-zero components. -/
theorem C19_nnz [Zero α] [DecidableEq α] (v : Vec M α) :
    v.nnz = .ok (Finset.univ.filter fun i : Fin M => v[i] ≠ 0).card := by
  unfold Vec.nnz
  rw [loop_sum (fun i : Fin M => if v[i] ≠ 0 then 1 else 0) (by
    intro i hi s
    simp only [rawGet_lt _ hi, bind_ok, bne_iff_ne, Fin.getElem_fin]
    split_ifs <;> rfl)]
  rw [Finset.card_filter]
  simp

/-- C19. `reciprocal` is componentwise, and an involution on vectors without zero component;
`reciprocal_safe` differs only in mapping zero to the largest number. -/
theorem C19_reciprocal [Field α] [DecidableEq α] (maxT : α) (v : Vec M α) :
    (∃ r, v.reciprocal = .ok r ∧ (∀ i (h : i < M), r[i] = 1 / v[i]) ∧
      ((∀ i (h : i < M), v[i] ≠ 0) → r.reciprocal = .ok v)) ∧
    (∃ r, v.reciprocalSafe maxT = .ok r ∧ ∀ i (h : i < M), r[i] = if v[i] = 0 then maxT else 1 / v[i]) := by
  have e : ∀ w : Vec M α, w.reciprocal = .ok (Vector.ofFn fun i => 1 / w[i]) := by
    intro w; unfold Vec.reciprocal; apply loop_set; intro i hi u hu; simp [hi, hu i hi]
  refine ⟨⟨_, e v, by simp, fun _ => ?_⟩, Vector.ofFn fun i => if v[i] = 0 then maxT else 1 / v[i], ?_, by simp⟩
  · rw [e]; congr 1; ext i hi; simp
  · unfold Vec.reciprocalSafe; apply loop_set; intro i hi u hu
    simp only [rawGet_lt _ hi, bind_ok, hu i hi le_rfl, beq_iff_eq, Fin.getElem_fin, rawSet_lt _ _ hi]
    split_ifs <;> rfl

/-- C19. `sqrt_elementwise` gives the non-negative square roots of non-negative components. -/
theorem C19_sqrt_elementwise (v : Vec M ℝ) (h : ∀ i (hi : i < M), 0 ≤ v[i]) :
    ∃ r, v.sqrtElementwise = .ok r ∧ ∀ i (hi : i < M), 0 ≤ r[i] ∧ r[i] ^ 2 = v[i] := by
  refine ⟨Vector.ofFn fun i => Real.sqrt v[i], ?_, ?_⟩
  · unfold Vec.sqrtElementwise; apply loop_set; intro i hi u hu; simp [hi, hu i hi]
  · intro i hi; simp [Real.sqrt_nonneg, Real.sq_sqrt (h i hi)]

/-- C19. `norm` is `length`. -/
theorem C19_norm (v : Vec M ℝ) : v.norm = v.length := rfl

/-- C19. `is_unit_vector` holds exactly for the coordinate unit vectors: one component equal to 1, all others 0. -/
theorem C19_is_unit_vector [Zero α] [One α] [NeZero (1 : α)] [DecidableEq α] (v : Vec M α) :
    ∃ b, v.isUnitVector = .ok b ∧
      (b = true ↔ ∃ i, ∃ h : i < M, v[i] = 1 ∧ ∀ j (hj : j < M), j ≠ i → v[j] = 0) := by
  -- invariant: not returned ⇒ prefix consists of zeros and at most one 1, `one` iff there is a 1
  obtain ⟨⟨ret, one⟩, h1, h2⟩ := loop_ok (n := M) (s := ((false, false) : Bool × Bool))
    (body := fun i (s : Bool × Bool) => do
      if s.1 then pure s
      else if (← v.rawGet i) == 1 then
        if s.2 then pure (true, s.2) else pure (false, true)
      else if (← v.rawGet i) != 0 then pure (true, s.2)
      else pure s)
    (fun n s =>
      (s.1 = true → ¬ ∃ i, ∃ h : i < M, v[i] = 1 ∧ ∀ j (hj : j < M), j ≠ i → v[j] = 0) ∧
      (s.1 = false → s.2 = true → ∃ i, ∃ h : i < M, i < n ∧ v[i] = 1 ∧ ∀ j (hj : j < M), j < n → j ≠ i → v[j] = 0) ∧
      (s.1 = false → s.2 = false → ∀ j (hj : j < M), j < n → v[j] = 0))
    (by simp) (by
      rintro n hn ⟨ret, one⟩ ⟨i1, i2, i3⟩
      cases ret with
      | true => exact ⟨(true, one), by simp, by simpa using i1, by simp, by simp⟩
      | false =>
        simp only [Bool.false_eq_true, if_false, rawGet_lt _ hn, bind_ok, beq_iff_eq, bne_iff_ne]
        by_cases c1 : v[n] = 1
        · cases one with
          | true =>
            refine ⟨(true, true), by simp [c1], ?_, by simp, by simp⟩
            intro _
            rintro ⟨k, hk, hk1, hk2⟩
            obtain ⟨i, hi, hin, hi1, hi2⟩ := i2 rfl rfl
            have hik : i = k := by
              by_contra hne
              have := hk2 i hi hne
              rw [hi1] at this
              exact one_ne_zero this
            have hnk : n = k := by
              by_contra hne
              have := hk2 n hn hne
              rw [c1] at this
              exact one_ne_zero this
            omega
          | false =>
            refine ⟨(false, true), by simp [c1], by simp, ?_, by simp⟩
            intro _ _
            refine ⟨n, hn, by omega, c1, ?_⟩
            intro j hj hjn hne
            exact i3 rfl rfl j hj (by omega)
        · by_cases c0 : v[n] = 0
          · refine ⟨(false, one), by simp [c0], by simp, ?_, ?_⟩
            · intro _ ho
              obtain ⟨i, hi, hin, hi1, hi2⟩ := i2 rfl ho
              refine ⟨i, hi, by omega, hi1, ?_⟩
              intro j hj hjn hne
              rcases Nat.lt_or_ge j n with h | h
              · exact hi2 j hj h hne
              · obtain rfl : j = n := by omega
                exact c0
            · intro _ ho j hj hjn
              rcases Nat.lt_or_ge j n with h | h
              · exact i3 rfl ho j hj h
              · obtain rfl : j = n := by omega
                exact c0
          · refine ⟨(true, one), by simp [c0, c1], ?_, by simp, by simp⟩
            intro _
            rintro ⟨k, hk, hk1, hk2⟩
            by_cases hnk : n = k
            · subst hnk; exact c1 hk1
            · exact c0 (hk2 n hn hnk))
  refine ⟨if ret then false else one, ?_, ?_⟩
  · unfold Vec.isUnitVector
    rw [h1]; rfl
  · obtain ⟨i1, i2, i3⟩ := h2
    cases ret with
    | true => simpa using i1 rfl
    | false =>
      cases one with
      | true =>
        simp only [Bool.false_eq_true, if_false, true_iff]
        obtain ⟨i, hi, -, h3, h4⟩ := i2 rfl rfl
        exact ⟨i, hi, h3, fun j hj hne => h4 j hj hj hne⟩
      | false =>
        simp only [Bool.false_eq_true, if_false, false_iff]
        rintro ⟨i, hi, h3, -⟩
        rw [i3 rfl rfl i hi hi] at h3
        exact zero_ne_one h3

example : Vec.isUnitVector (#v[0, 1, 0] : Vec 3 ℤ) = .ok true := by decide

/-! ## C84 -/

/-- C84. For every sequence of `rand()` results, `perturb( p )` changes each component by exactly `p` or `-p`. -/
theorem C84_perturb [Add α] [Neg α] (rnd : Nat → Nat) (v : Vec M α) (p : α) :
    ∃ r, v.perturb rnd p = .ok r ∧ ∀ i (h : i < M), r[i] = v[i] + p ∨ r[i] = v[i] + -p := by
  refine ⟨Vector.ofFn fun i => v[i] + (if rnd i.1 &&& 1 ≠ 0 then p else -p), ?_, ?_⟩
  · unfold Vec.perturb; apply loop_set; intro i hi u hu; simp [hi, hu i hi]
  · intro i hi
    simp only [Vector.getElem_ofFn, Fin.getElem_fin]
    split_ifs
    · exact Or.inl rfl
    · exact Or.inr rfl

/-- C84. For every sequence of `rand()` results in `[0, RAND_MAX]`, `set_random` overwrites every component with a
value in `[-1, 1]`. -/
theorem C84_set_random (cfg : Cfg) (rnd : Nat → Nat) (randMax : Nat) (hpos : 0 < randMax) (v : Vec M ℝ)
    (hr : ∀ k, rnd k ≤ randMax) :
    ∃ r, v.setRandom cfg (fun n => (n : ℝ)) randMax rnd = .ok r ∧ ∀ i (h : i < M), -1 ≤ r[i] ∧ r[i] ≤ 1 := by
  refine ⟨Vector.ofFn fun i => -1 + (1 + 1) * ((rnd i.1 : ℝ) / (randMax : ℝ)), ?_, ?_⟩
  · unfold Vec.setRandom; apply loop_set; intro i hi u hu; simp [hi]
  · intro i hi
    have h1 : (0 : ℝ) < randMax := by exact_mod_cast hpos
    have h2 : (rnd i : ℝ) ≤ randMax := by exact_mod_cast hr i
    have h3 : (0 : ℝ) ≤ (rnd i : ℝ) / randMax := by positivity
    have h4 : (rnd i : ℝ) / randMax ≤ 1 := (div_le_one h1).2 h2
    simp only [Vector.getElem_ofFn]
    constructor <;> linarith

/-- C84. `iter_set` copies the common prefix of the input range and the vector, and never writes past either end. -/
theorem C84_iter_set {β : Type} (cast : β → α) (v : Vec M α) (l : List β) :
    ∃ r, v.iterSet cast l = .ok r ∧ ∀ i (h : i < M), r[i] = ((l[i]?).map cast).getD v[i] := by
  refine ⟨Vector.ofFn fun i => ((l[i.1]?).map cast).getD v[i], ?_, by simp⟩
  unfold Vec.iterSet; apply loop_set; intro i hi u hu
  cases h : l[i]? with
  | none => simp [h, ← hu i hi le_rfl]
  | some x => simp [hi, h]

/-- C84. Converting assignment and `cast_from` convert every component. -/
theorem C84_cast {β : Type} (cast : β → α) (dst : Vec M α) (src : Vec M β) :
    ∃ r, dst.assignCast cast src = .ok r ∧ ∀ i (h : i < M), r[i] = cast src[i] := by
  refine ⟨Vector.ofFn fun i => cast src[i], ?_, by simp⟩
  unfold Vec.assignCast; apply loop_set; intro i hi u hu; simp [hi]

end Vmml
