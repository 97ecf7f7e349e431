import Verif.Model.FrustumCuller
import Verif.Props.Frustum
import Mathlib.Tactic.FieldSimp
import Mathlib.Tactic.Positivity

/-!
# C65 – C67: frustum culling
-/

set_option linter.unusedSimpArgs false

namespace Vmml
open Culler
open Mat hiding ctor x y z

/-- The value of the plane equation at a point: positive in front of the plane; the signed distance if the normal is a unit vector. -/
def Spec.side (p : Vec 4 ℝ) (x y z : ℝ) : ℝ := p[0] * x + p[1] * y + p[2] * z + p[3]

/-- The squared length of a plane's normal. -/
def Spec.normalSq (p : Vec 4 ℝ) : ℝ := p[0] ^ 2 + p[1] ^ 2 + p[2] ^ 2

/-- The six planes. -/
def Spec.planes (k : Culler ℝ) : List (Vec 4 ℝ) := [k.left, k.right, k.bottom, k.top, k.near, k.far]

/-! ## C65 -/

theorem normalizePlane_eq (cfg : Cfg) (p : Vec 4 ℝ) : normalizePlane cfg p = .ok (Vector.ofFn fun i : Fin 4 => p[i] * (1 / Real.sqrt (Spec.normalSq p))) := by
  have hl : Vec.length (#v[p[0], p[1], p[2]] : Vec 3 ℝ) = .ok (Real.sqrt (Spec.normalSq p)) := by
    rw [length_eq]
    congr 2
    simp [Fin.sum_univ_three, Spec.normalSq]
    ring
  simp only [normalizePlane, getSub3_eq, hl, bind_ok, Vec.setX, Vec.setY, Vec.setZ, Vec.setW, Vec.getX, Vec.getY, Vec.getZ, Vec.getW,
    Vec.rawGet_lt, Vec.rawSet_lt, Nat.reduceLT, Nat.zero_lt_succ]
  congr 1
  ext i hi
  match i, hi with
  | 0, _ => simp
  | 1, _ => simp
  | 2, _ => simp
  | 3, _ => simp

/-- The closed form of the planes: row 3 plus or minus another row, divided by the length of the normal. -/
def rawPlane (m : Matrix (Fin 4) (Fin 4) ℝ) (i : Fin 4) (s : ℝ) : Vec 4 ℝ := Vector.ofFn fun j : Fin 4 => m 3 j + s * m i j

noncomputable def unitPlane (m : Matrix (Fin 4) (Fin 4) ℝ) (i : Fin 4) (s : ℝ) : Vec 4 ℝ :=
  Vector.ofFn fun j : Fin 4 => (rawPlane m i s)[j] * (1 / Real.sqrt (Spec.normalSq (rawPlane m i s)))

theorem setupMatrix_eq (cfg : Cfg) (m : Mat 4 4 ℝ) : setupMatrix cfg m = .ok
    ⟨unitPlane m.toMat 0 1, unitPlane m.toMat 0 (-1), unitPlane m.toMat 1 1, unitPlane m.toMat 1 (-1), unitPlane m.toMat 2 1,
      unitPlane m.toMat 2 (-1)⟩ := by
  have hr : ∀ i : Fin 4, m.getRowV cfg i = .ok (Vector.ofFn fun c => m.get i c) := fun i => Mat.getRow_eq cfg m i _
  have h0 := hr 0
  have h1 := hr 1
  have h2 := hr 2
  have h3 := hr 3
  simp only [Fin.val_zero, Fin.val_one, Fin.val_two, show ((3 : Fin 4) : Nat) = 3 from rfl] at h0 h1 h2 h3
  have ha : ∀ i : Fin 4, (Vector.ofFn fun j : Fin 4 => (Vector.ofFn fun c => m.get 3 c)[j] + (Vector.ofFn fun c => m.get i c)[j]) = rawPlane m.toMat i 1 := by
    intro i; ext j hj; simp [rawPlane]
  have hs : ∀ i : Fin 4, (Vector.ofFn fun j : Fin 4 => (Vector.ofFn fun c => m.get 3 c)[j] - (Vector.ofFn fun c => m.get i c)[j]) = rawPlane m.toMat i (-1) := by
    intro i; ext j hj; simp [rawPlane]; ring
  simp only [setupMatrix, h0, h1, h2, h3, bind_ok, Vec.add_eq, Vec.sub_eq, ha, hs, normalizePlane_eq]
  rfl

theorem side_unitPlane (m : Matrix (Fin 4) (Fin 4) ℝ) (i : Fin 4) (s x y z : ℝ) :
    Spec.side (unitPlane m i s) x y z = 1 / Real.sqrt (Spec.normalSq (rawPlane m i s)) *
      (m.mulVec ![x, y, z, 1] 3 + s * m.mulVec ![x, y, z, 1] i) := by
  simp [Spec.side, unitPlane, rawPlane, Matrix.mulVec, dotProduct, Fin.sum_univ_four]
  ring

/-- The normal of the plane `w ± x_i = 0` is not zero: the precondition of the normalisation. -/
def Spec.NonDegenerate (m : Matrix (Fin 4) (Fin 4) ℝ) : Prop :=
  ∀ i : Fin 4, i ≠ 3 → ∀ s : ℝ, s = 1 ∨ s = -1 → ∃ j : Fin 4, j ≠ 3 ∧ m 3 j + s * m i j ≠ 0

theorem normalSq_pos {m : Matrix (Fin 4) (Fin 4) ℝ} (h : Spec.NonDegenerate m) (i : Fin 4) (hi : i ≠ 3) (s : ℝ) (hs : s = 1 ∨ s = -1) :
    0 < Spec.normalSq (rawPlane m i s) := by
  obtain ⟨j, hj, hne⟩ := h i hi s hs
  have hp := pow_pos (abs_pos.2 hne) 2
  rw [sq_abs] at hp
  simp only [Spec.normalSq, rawPlane, Vector.getElem_ofFn]
  have e : ∀ j : Fin 4, 0 ≤ (m 3 j + s * m i j) ^ 2 := fun j => sq_nonneg _
  fin_cases j
  · have := e 1; have := e 2; simp at hp; simp at *; linarith
  · have := e 0; have := e 2; simp at hp; simp at *; linarith
  · have := e 0; have := e 1; simp at hp; simp at *; linarith
  · exact absurd rfl hj

/-- C65. For every matrix whose six plane normals do not vanish, `setup( matrix )` succeeds; every plane has a unit normal, and each plane's distance is a
positive multiple of the named clip distance of the point: `w + x` for the left plane, `w - x` right, `w + y` bottom, `w - y` top, `w + z` near,
`w - z` far. -/
theorem C65_planes (cfg : Cfg) (m : Mat 4 4 ℝ) (h : Spec.NonDegenerate m.toMat) :
    ∃ k, setupMatrix cfg m = .ok k ∧ (∀ p ∈ Spec.planes k, Spec.normalSq p = 1) ∧
      ∃ s : Fin 6 → ℝ, (∀ i, 0 < s i) ∧ ∀ x y z : ℝ, ∃ q : Vec 4 ℝ, m.mulVec cfg #v[x, y, z, 1] = .ok q ∧
        Spec.side k.left x y z = s 0 * (q[3] + q[0]) ∧ Spec.side k.right x y z = s 1 * (q[3] - q[0]) ∧
        Spec.side k.bottom x y z = s 2 * (q[3] + q[1]) ∧ Spec.side k.top x y z = s 3 * (q[3] - q[1]) ∧
        Spec.side k.near x y z = s 4 * (q[3] + q[2]) ∧ Spec.side k.far x y z = s 5 * (q[3] - q[2]) := by
  refine ⟨_, setupMatrix_eq cfg m, ?_, ?_⟩
  · have key : ∀ i : Fin 4, i ≠ 3 → ∀ s : ℝ, s = 1 ∨ s = -1 → Spec.normalSq (unitPlane m.toMat i s) = 1 := by
      intro i hi s hs
      have hp := normalSq_pos h i hi s hs
      have e : Spec.normalSq (unitPlane m.toMat i s) = (1 / Real.sqrt (Spec.normalSq (rawPlane m.toMat i s))) ^ 2 * Spec.normalSq (rawPlane m.toMat i s) := by
        unfold unitPlane
        generalize rawPlane m.toMat i s = p at *
        generalize Real.sqrt (Spec.normalSq p) = l
        simp [Spec.normalSq]
        ring
      rw [e, one_div, inv_pow, Real.sq_sqrt hp.le, inv_mul_cancel₀ hp.ne']
    intro p hp
    simp only [Spec.planes, List.mem_cons, List.not_mem_nil, or_false] at hp
    rcases hp with rfl | rfl | rfl | rfl | rfl | rfl <;> apply key <;> simp
  · have kp : ∀ i : Fin 4, i ≠ 3 → ∀ s : ℝ, s = 1 ∨ s = -1 → 0 < 1 / Real.sqrt (Spec.normalSq (rawPlane m.toMat i s)) :=
      fun i hi s hs => one_div_pos.2 (Real.sqrt_pos.2 (normalSq_pos h i hi s hs))
    refine ⟨![1 / Real.sqrt (Spec.normalSq (rawPlane m.toMat 0 1)), 1 / Real.sqrt (Spec.normalSq (rawPlane m.toMat 0 (-1))),
      1 / Real.sqrt (Spec.normalSq (rawPlane m.toMat 1 1)), 1 / Real.sqrt (Spec.normalSq (rawPlane m.toMat 1 (-1))),
      1 / Real.sqrt (Spec.normalSq (rawPlane m.toMat 2 1)), 1 / Real.sqrt (Spec.normalSq (rawPlane m.toMat 2 (-1)))], ?_, ?_⟩
    · intro i
      fin_cases i
      · exact kp 0 (by simp) 1 (by simp)
      · exact kp 0 (by simp) (-1) (by simp)
      · exact kp 1 (by simp) 1 (by simp)
      · exact kp 1 (by simp) (-1) (by simp)
      · exact kp 2 (by simp) 1 (by simp)
      · exact kp 2 (by simp) (-1) (by simp)
    · intro x y z
      refine ⟨_, mulVec_eq cfg m _, ?_⟩
      have e : ∀ i : Fin 4, ∑ j : Fin 4, m.get i j * (#v[x, y, z, 1] : Vec 4 ℝ)[j] = m.toMat.mulVec ![x, y, z, 1] i := by
        intro i; simp [Matrix.mulVec, dotProduct, Fin.sum_univ_four]
      simp only [side_unitPlane, Vector.getElem_ofFn, e, one_mul, neg_mul, ← sub_eq_add_neg]
      exact ⟨rfl, rfl, rfl, rfl, rfl, rfl⟩

theorem forall_planes {k : Culler ℝ} {P : Vec 4 ℝ → Prop} : (∀ p ∈ Spec.planes k, P p) ↔
    P k.left ∧ P k.right ∧ P k.bottom ∧ P k.top ∧ P k.near ∧ P k.far := by
  simp [Spec.planes]

/-- C65. A point has nonnegative (positive) distance to all six planes exactly if its clip coordinates satisfy `-w ≤ x, y, z ≤ w`
(strictly). -/
theorem C65_clip (cfg : Cfg) (m : Mat 4 4 ℝ) (h : Spec.NonDegenerate m.toMat) :
    ∃ k, setupMatrix cfg m = .ok k ∧ ∀ x y z : ℝ, ∃ q : Vec 4 ℝ, m.mulVec cfg #v[x, y, z, 1] = .ok q ∧
      ((∀ p ∈ Spec.planes k, 0 ≤ Spec.side p x y z) ↔ ∀ i (hi : i < 3), -q[3] ≤ q[i] ∧ q[i] ≤ q[3]) ∧
      ((∀ p ∈ Spec.planes k, 0 < Spec.side p x y z) ↔ ∀ i (hi : i < 3), -q[3] < q[i] ∧ q[i] < q[3]) := by
  obtain ⟨k, h1, -, s, hs, h2⟩ := C65_planes cfg m h
  refine ⟨k, h1, fun x y z => ?_⟩
  obtain ⟨q, hq, e1, e2, e3, e4, e5, e6⟩ := h2 x y z
  refine ⟨q, hq, ?_, ?_⟩
  · rw [forall_planes, e1, e2, e3, e4, e5, e6]
    simp only [mul_nonneg_iff_of_pos_left (hs _)]
    constructor
    · rintro ⟨a, b, c, d, e, f⟩ i hi
      match i, hi with
      | 0, _ => constructor <;> linarith
      | 1, _ => constructor <;> linarith
      | 2, _ => constructor <;> linarith
    · intro h
      obtain ⟨a, b⟩ := h 0 (by omega)
      obtain ⟨c, d⟩ := h 1 (by omega)
      obtain ⟨e, f⟩ := h 2 (by omega)
      refine ⟨?_, ?_, ?_, ?_, ?_, ?_⟩ <;> linarith
  · rw [forall_planes, e1, e2, e3, e4, e5, e6]
    simp only [mul_pos_iff_of_pos_left (hs _)]
    constructor
    · rintro ⟨a, b, c, d, e, f⟩ i hi
      match i, hi with
      | 0, _ => constructor <;> linarith
      | 1, _ => constructor <;> linarith
      | 2, _ => constructor <;> linarith
    · intro h
      obtain ⟨a, b⟩ := h 0 (by omega)
      obtain ⟨c, d⟩ := h 1 (by omega)
      obtain ⟨e, f⟩ := h 2 (by omega)
      refine ⟨?_, ?_, ?_, ?_, ?_, ?_⟩ <;> linarith

theorem nonDegenerate_perspective (f : Frustum ℝ) (hf : Spec.Good f) (cfg : Cfg) (m P : Mat 4 4 ℝ) (hP : f.computeMatrix cfg m = .ok P) :
    Spec.NonDegenerate P.toMat := by
  obtain ⟨P', h1, h2⟩ := computeMatrix_eq cfg f m
  obtain rfl : P' = P := by rw [h1] at hP; injection hP
  rw [h2]
  have d1 := (sub_pos.2 hf.lr).ne'
  have d2 := (sub_pos.2 hf.bt).ne'
  have d3 := (sub_pos.2 hf.nf).ne'
  have hn := hf.n0.ne'
  have hfar := (hf.n0.trans hf.nf).ne'
  intro i hi s hs
  have hs0 : s ≠ 0 := by rcases hs with rfl | rfl <;> norm_num
  fin_cases i
  · exact ⟨0, by decide, by simp [hs0, hn, d1]⟩
  · exact ⟨1, by decide, by simp [hs0, hn, d2]⟩
  · refine ⟨2, by decide, ?_⟩
    rcases hs with rfl | rfl
    · have : (-1 : ℝ) + 1 * (-(f.farPlane + f.nearPlane) / (f.farPlane - f.nearPlane)) = -2 * f.farPlane / (f.farPlane - f.nearPlane) := by
        field_simp; ring
      change (-1 : ℝ) + 1 * (-(f.farPlane + f.nearPlane) / (f.farPlane - f.nearPlane)) ≠ 0
      rw [this]; exact div_ne_zero (mul_ne_zero (by norm_num) hfar) d3
    · have : (-1 : ℝ) + -1 * (-(f.farPlane + f.nearPlane) / (f.farPlane - f.nearPlane)) = 2 * f.nearPlane / (f.farPlane - f.nearPlane) := by
        field_simp; ring
      change (-1 : ℝ) + -1 * (-(f.farPlane + f.nearPlane) / (f.farPlane - f.nearPlane)) ≠ 0
      rw [this]; exact div_ne_zero (mul_ne_zero (by norm_num) hn) d3
  · exact absurd rfl hi

/-- C65, with C60: the planes extracted from the matrix of a frustum bound exactly that frustum. -/
theorem C65_frustum (cfg : Cfg) (f : Frustum ℝ) (hf : Spec.Good f) (m : Mat 4 4 ℝ) :
    ∃ P k, f.computeMatrix cfg m = .ok P ∧ setupMatrix cfg P = .ok k ∧
      ∀ x y z, (∀ p ∈ Spec.planes k, 0 ≤ Spec.side p x y z) ↔ Spec.InsideClosed f x y z := by
  obtain ⟨P, h1, h2⟩ := computeMatrix_eq cfg f m
  obtain ⟨k, h3, h4⟩ := C65_clip cfg P (nonDegenerate_perspective f hf cfg m P h1)
  refine ⟨P, k, h1, h3, fun x y z => ?_⟩
  obtain ⟨q, hq, h5, -⟩ := h4 x y z
  rw [h5]
  have d1 := sub_pos.2 hf.lr
  have d2 := sub_pos.2 hf.bt
  have d3 := sub_pos.2 hf.nf
  have hn := hf.n0
  have hfar := hf.n0.trans hf.nf
  rw [mulVec_eq] at hq
  injection hq with hq
  have hg : ∀ i j, P.get i j = P.toMat i j := fun _ _ => rfl
  have q0 : q[0] = 2 * f.nearPlane / (f.right - f.left) * x + (f.right + f.left) / (f.right - f.left) * z := by
    rw [← hq]; simp only [Vector.getElem_ofFn, hg, h2]; simp [Fin.sum_univ_four]
  have q1 : q[1] = 2 * f.nearPlane / (f.top - f.bottom) * y + (f.top + f.bottom) / (f.top - f.bottom) * z := by
    rw [← hq]; simp only [Vector.getElem_ofFn, hg, h2]; simp [Fin.sum_univ_four]
  have q2 : q[2] = -(f.farPlane + f.nearPlane) / (f.farPlane - f.nearPlane) * z + -2 * f.farPlane * f.nearPlane / (f.farPlane - f.nearPlane) := by
    rw [← hq]; simp only [Vector.getElem_ofFn, hg, h2]; simp [Fin.sum_univ_four]
  have q3 : q[3] = -z := by
    rw [← hq]; simp only [Vector.getElem_ofFn, hg, h2]; simp [Fin.sum_univ_four]
  have hz : (-q[3] ≤ q[2] ∧ q[2] ≤ q[3]) ∨ Spec.InsideClosed f x y z → z < 0 := by
    rintro (⟨h, -⟩ | h)
    · have e : q[2] + q[3] = 2 * f.farPlane / (f.farPlane - f.nearPlane) * (-z - f.nearPlane) := by
        rw [q2, q3]; field_simp; ring
      have : 0 ≤ 2 * f.farPlane / (f.farPlane - f.nearPlane) * (-z - f.nearPlane) := by linarith
      have := (mul_nonneg_iff_of_pos_left (by positivity)).1 this
      linarith
    · linarith [h.1]
  have hmain : z < 0 → ((∀ i (hi : i < 3), -q[3] ≤ q[i] ∧ q[i] ≤ q[3]) ↔ Spec.InsideClosed f x y z) := by
    intro hz
    have hz' : 0 < -z := by linarith
    obtain ⟨P', h1', h6⟩ := C60_inside cfg f hf m
    obtain rfl : P = P' := by rw [h1] at h1'; injection h1'
    obtain ⟨u, hu, -, h7⟩ := h6 x y z hz
    rw [perspective_image cfg f P h2] at hu
    injection hu with hu
    rw [← h7]
    have e : ∀ i (hi : i < 3), u[i] = q[i] / -z := by
      intro i hi
      rw [← hu]
      match i, hi with
      | 0, _ => simp [q0]
      | 1, _ => simp [q1]
      | 2, _ => simp [q2]
    constructor
    · intro h i
      have := h i.1 i.2
      rw [Fin.getElem_fin, e i.1 i.2, le_div_iff₀ hz', div_le_iff₀ hz']
      rw [q3] at this
      constructor <;> linarith
    · intro h i hi
      have := h ⟨i, hi⟩
      rw [Fin.getElem_fin, e i hi, le_div_iff₀ hz', div_le_iff₀ hz'] at this
      rw [q3]
      constructor <;> linarith
  constructor
  · intro h; exact (hmain (hz (Or.inl (h 2 (by omega))))).1 h
  · intro h; exact (hmain (hz (Or.inr h))).2 h

/-! ## C66 -/

theorem testSphere_fold (k : Culler ℝ) (s : Vec 4 ℝ) :
    testSphere k s = ((Spec.planes k).foldlM (fun v p => sphereBlock p s v) Visibility.full).getD .none := by
  simp only [testSphere, Spec.planes, List.foldlM_cons, List.foldlM_nil, bind_pure]

theorem sphereFold (s : Vec 4 ℝ) (l : List (Vec 4 ℝ)) (v : Visibility) (hv : v ≠ .none) :
    (l.foldlM (fun v p => sphereBlock p s v) v = none ↔ ∃ p ∈ l, Spec.side p s[0] s[1] s[2] ≤ -s[3]) ∧
    (l.foldlM (fun v p => sphereBlock p s v) v = some .full ↔
      v = .full ∧ ∀ p ∈ l, -s[3] < Spec.side p s[0] s[1] s[2] ∧ s[3] ≤ Spec.side p s[0] s[1] s[2]) ∧
    l.foldlM (fun v p => sphereBlock p s v) v ≠ some .none := by
  induction l generalizing v with
  | nil => simp [hv]
  | cons p l ih =>
    rw [List.foldlM_cons]
    by_cases h1 : Spec.side p s[0] s[1] s[2] ≤ -s[3]
    · have : sphereBlock p s v = none := if_pos h1
      simp [this, h1, not_lt.2 h1]
    · by_cases h2 : Spec.side p s[0] s[1] s[2] < s[3]
      · have : sphereBlock p s v = some .partly := (if_neg h1).trans (if_pos h2)
        rw [this]
        obtain ⟨a, b, c⟩ := ih .partly (by simp)
        refine ⟨?_, ?_, c⟩
        · exact a.trans (by simp [h1])
        · exact b.trans (by simp [not_le.2 h2])
      · have : sphereBlock p s v = some v := (if_neg h1).trans (if_neg h2)
        rw [this]
        obtain ⟨a, b, c⟩ := ih v hv
        refine ⟨?_, ?_, c⟩
        · exact a.trans (by simp [h1])
        · exact b.trans (by simp [not_le.1 h1, not_lt.1 h2])

/-- C66. The verdict of `test_sphere` for the sphere with centre `( s0, s1, s2 )` and radius `s3`, for every set of planes: NONE exactly if the centre
is at least the radius behind some plane; FULL exactly if it is at least the radius in front of every plane (and not NONE); PARTIAL
otherwise. -/
theorem C66_verdict (k : Culler ℝ) (s : Vec 4 ℝ) :
    (testSphere k s = .none ↔ ∃ p ∈ Spec.planes k, Spec.side p s[0] s[1] s[2] ≤ -s[3]) ∧
    (testSphere k s = .full ↔ ∀ p ∈ Spec.planes k, -s[3] < Spec.side p s[0] s[1] s[2] ∧ s[3] ≤ Spec.side p s[0] s[1] s[2]) ∧
    (testSphere k s = .partly ↔ (∀ p ∈ Spec.planes k, -s[3] < Spec.side p s[0] s[1] s[2]) ∧
      ∃ p ∈ Spec.planes k, Spec.side p s[0] s[1] s[2] < s[3]) := by
  obtain ⟨a, b, c⟩ := sphereFold s (Spec.planes k) .full (by simp)
  rw [testSphere_fold]
  have h1 : ((Spec.planes k).foldlM (fun v p => sphereBlock p s v) Visibility.full).getD .none = .none ↔
      ∃ p ∈ Spec.planes k, Spec.side p s[0] s[1] s[2] ≤ -s[3] := by
    rw [← a]
    generalize (Spec.planes k).foldlM (fun v p => sphereBlock p s v) Visibility.full = o at *
    cases o <;> simp_all
  have h2 : ((Spec.planes k).foldlM (fun v p => sphereBlock p s v) Visibility.full).getD .none = .full ↔
      ∀ p ∈ Spec.planes k, -s[3] < Spec.side p s[0] s[1] s[2] ∧ s[3] ≤ Spec.side p s[0] s[1] s[2] := by
    rw [show (∀ p ∈ Spec.planes k, -s[3] < Spec.side p s[0] s[1] s[2] ∧ s[3] ≤ Spec.side p s[0] s[1] s[2]) ↔
      (Spec.planes k).foldlM (fun v p => sphereBlock p s v) Visibility.full = some .full by rw [b]; simp]
    generalize (Spec.planes k).foldlM (fun v p => sphereBlock p s v) Visibility.full = o at *
    cases o <;> simp_all
  refine ⟨h1, h2, ?_⟩
  generalize ((Spec.planes k).foldlM (fun v p => sphereBlock p s v) Visibility.full).getD .none = v at *
  have : v = .partly ↔ ¬ v = .none ∧ ¬ v = .full := by cases v <;> simp
  rw [this, h1, h2]
  push Not
  constructor
  · rintro ⟨h, p, hp, h'⟩
    exact ⟨h, p, hp, h' (h p hp)⟩
  · rintro ⟨h, p, hp, h'⟩
    exact ⟨h, p, hp, fun _ => h'⟩

/-- A point of the (closed) ball. -/
def Spec.InBall (s : Vec 4 ℝ) (x y z : ℝ) : Prop := (0 : ℝ) ≤ s[3] ∧ (x - s[0]) ^ 2 + (y - s[1]) ^ 2 + (z - s[2]) ^ 2 ≤ s[3] ^ 2

theorem side_ball (p s : Vec 4 ℝ) (hp : Spec.normalSq p ≤ 1) (x y z : ℝ) (h : Spec.InBall s x y z) :
    |Spec.side p x y z - Spec.side p s[0] s[1] s[2]| ≤ s[3] := by
  obtain ⟨h0, h1⟩ := h
  apply abs_le_of_sq_le_sq _ h0
  have e : Spec.side p x y z - Spec.side p s[0] s[1] s[2] = p[0] * (x - s[0]) + p[1] * (y - s[1]) + p[2] * (z - s[2]) := by
    simp only [Spec.side]; ring
  rw [e]
  generalize x - s[0] = a at *
  generalize y - s[1] = b at *
  generalize z - s[2] = c at *
  have hcs : (p[0] * a + p[1] * b + p[2] * c) ^ 2 ≤ Spec.normalSq p * (a ^ 2 + b ^ 2 + c ^ 2) := by
    simp only [Spec.normalSq]
    nlinarith [sq_nonneg (p[0] * b - p[1] * a), sq_nonneg (p[0] * c - p[2] * a), sq_nonneg (p[1] * c - p[2] * b)]
  have h2 : 0 ≤ Spec.normalSq p := by simp only [Spec.normalSq]; positivity
  nlinarith [sq_nonneg a, sq_nonneg b, sq_nonneg c]

/-- C66. No false culling and no false containment, for planes whose normals are at most unit length (in particular those of both `setup` functions): NONE
implies that no point of the ball is strictly in front of all planes; FULL implies that every point of the ball is in front of all planes. -/
theorem C66_sound (k : Culler ℝ) (hk : ∀ p ∈ Spec.planes k, Spec.normalSq p ≤ 1) (s : Vec 4 ℝ) :
    (testSphere k s = .none → ∀ x y z, Spec.InBall s x y z → ¬ ∀ p ∈ Spec.planes k, 0 < Spec.side p x y z) ∧
    (testSphere k s = .full → ∀ x y z, Spec.InBall s x y z → ∀ p ∈ Spec.planes k, 0 ≤ Spec.side p x y z) := by
  obtain ⟨v1, v2, -⟩ := C66_verdict k s
  constructor
  · intro h x y z hb hall
    obtain ⟨p, hp, hd⟩ := v1.1 h
    have := abs_le.1 (side_ball p s (hk p hp) x y z hb)
    have := hall p hp
    linarith
  · intro h x y z hb p hp
    have := abs_le.1 (side_ball p s (hk p hp) x y z hb)
    have := (v2.1 h p hp).2
    linarith

/-- C66. With unit normals the verdict is exact, plane by plane, for every radius `> 0`: NONE exactly if the ball is entirely behind (or touching from
behind) some plane, FULL exactly if it is entirely in front of every plane. -/
theorem C66_exact (k : Culler ℝ) (hk : ∀ p ∈ Spec.planes k, Spec.normalSq p = 1) (s : Vec 4 ℝ) (hr : (0 : ℝ) < s[3]) :
    (testSphere k s = .none ↔ ∃ p ∈ Spec.planes k, ∀ x y z, Spec.InBall s x y z → Spec.side p x y z ≤ 0) ∧
    (testSphere k s = .full ↔ ∀ p ∈ Spec.planes k, ∀ x y z, Spec.InBall s x y z → 0 ≤ Spec.side p x y z) := by
  obtain ⟨v1, v2, -⟩ := C66_verdict k s
  have hext : ∀ p ∈ Spec.planes k, ∀ t : ℝ, t = 1 ∨ t = -1 → ∃ x y z, Spec.InBall s x y z ∧
      Spec.side p x y z = Spec.side p s[0] s[1] s[2] + t * s[3] := by
    intro p hp t ht
    have hn := hk p hp
    simp only [Spec.normalSq] at hn
    have ht2 : t ^ 2 = 1 := by rcases ht with rfl | rfl <;> norm_num
    refine ⟨s[0] + t * s[3] * p[0], s[1] + t * s[3] * p[1], s[2] + t * s[3] * p[2], ⟨hr.le, ?_⟩, ?_⟩
    · have : (s[0] + t * s[3] * p[0] - s[0]) ^ 2 + (s[1] + t * s[3] * p[1] - s[1]) ^ 2 + (s[2] + t * s[3] * p[2] - s[2]) ^ 2 = s[3] ^ 2 := by
        linear_combination (s[3] ^ 2 * (p[0] ^ 2 + p[1] ^ 2 + p[2] ^ 2)) * ht2 + s[3] ^ 2 * hn
      exact this.le
    · simp only [Spec.side]
      linear_combination (t * s[3]) * hn
  rw [v1, v2]
  constructor
  · constructor
    · rintro ⟨p, hp, h⟩
      refine ⟨p, hp, fun x y z hb => ?_⟩
      have := abs_le.1 (side_ball p s (hk p hp).le x y z hb)
      linarith
    · rintro ⟨p, hp, h⟩
      obtain ⟨x, y, z, hb, e⟩ := hext p hp 1 (by simp)
      refine ⟨p, hp, ?_⟩
      have := h x y z hb
      linarith
  · constructor
    · intro h p hp x y z hb
      have := abs_le.1 (side_ball p s (hk p hp).le x y z hb)
      have := (h p hp).2
      linarith
    · intro h p hp
      obtain ⟨x, y, z, hb, e⟩ := hext p hp (-1) (by simp)
      have := h p hp x y z hb
      constructor <;> linarith

/-- C66. A culler with unit normals: the cube `[-1, 1]³`; a small ball at the origin is fully visible. -/
example : let k : Culler ℝ := ⟨#v[1, 0, 0, 1], #v[-1, 0, 0, 1], #v[0, 1, 0, 1], #v[0, -1, 0, 1], #v[0, 0, -1, 1], #v[0, 0, 1, 1]⟩
    (∀ p ∈ Spec.planes k, Spec.normalSq p = 1) ∧ testSphere k #v[0, 0, 0, 1 / 2] = .full ∧ testSphere k #v[1, 0, 0, 1 / 2] = .partly ∧
      testSphere k #v[2, 0, 0, 1 / 2] = .none := by
  intro k
  refine ⟨?_, ?_, ?_, ?_⟩
  · rw [forall_planes]; simp [k, Spec.normalSq]
  · rw [(C66_verdict _ _).2.1, forall_planes]; simp [k, Spec.side]; norm_num
  · rw [(C66_verdict _ _).2.2, forall_planes]
    refine ⟨by simp [k, Spec.side]; norm_num, k.right, by simp [Spec.planes], ?_⟩
    simp [k, Spec.side]
  · rw [(C66_verdict _ _).1]
    refine ⟨k.right, by simp [Spec.planes], ?_⟩
    simp [k, Spec.side]; norm_num

end Vmml
