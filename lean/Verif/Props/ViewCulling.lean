import Verif.Props.FrustumCullerBox
import Verif.Props.MatrixTransform

/-!
# C100: culling in world space, nested objects
-/

namespace Vmml
open Culler
open Mat hiding ctor x y z

/-- The point `V p` for an affine `V`. -/
def Spec.move (V : Matrix (Fin 4) (Fin 4) ℝ) (x y z : ℝ) (i : Fin 3) : ℝ := V i.castSucc 0 * x + V i.castSucc 1 * y + V i.castSucc 2 * z + V i.castSucc 3

theorem mulVec_move {V : Matrix (Fin 4) (Fin 4) ℝ} (hV : V 3 = ![0, 0, 0, 1]) (x y z : ℝ) :
    V.mulVec ![x, y, z, 1] = ![Spec.move V x y z 0, Spec.move V x y z 1, Spec.move V x y z 2, 1] := by
  have h3 : ∀ j, V 3 j = ![0, 0, 0, 1] j := fun j => by rw [hV]
  have e0 := h3 0
  have e1 := h3 1
  have e2 := h3 2
  have e3 := h3 3
  simp at e0 e1 e2 e3
  ext i
  fin_cases i <;> simp [Matrix.mulVec, dotProduct, Fin.sum_univ_four, Spec.move, e0, e1, e2, e3]

/-- The normals of the planes of `P V` are as long as those of `P` if `V` is rigid. -/
theorem normalSq_rigid (P : Matrix (Fin 4) (Fin 4) ℝ) {V : Matrix (Fin 4) (Fin 4) ℝ} (hV : Spec.Rigid V) (i : Fin 4) (s : ℝ) :
    Spec.normalSq (rawPlane (P * V) i s) = Spec.normalSq (rawPlane P i s) := by
  obtain ⟨h1, -, h3⟩ := hV
  have h3' : ∀ j, V 3 j = ![0, 0, 0, 1] j := fun j => by rw [h3]
  have e0 := h3' 0
  have e1 := h3' 1
  have e2 := h3' 2
  simp at e0 e1 e2
  have o : ∀ a b : Fin 3, V a.castSucc 0 * V b.castSucc 0 + V a.castSucc 1 * V b.castSucc 1 + V a.castSucc 2 * V b.castSucc 2 = if a = b then 1 else 0 := by
    intro a b
    have := congrFun (congrFun h1 a) b
    simpa [Matrix.mul_apply, Spec.block3, Fin.sum_univ_three, Matrix.one_apply] using this
  have o00 := o 0 0
  have o11 := o 1 1
  have o22 := o 2 2
  have o01 := o 0 1
  have o02 := o 0 2
  have o12 := o 1 2
  simp at o00 o11 o22 o01 o02 o12
  simp only [Spec.normalSq, rawPlane, Vector.getElem_ofFn, Matrix.mul_apply, Fin.sum_univ_four, Fin.mk_zero, Fin.mk_one, Fin.reduceFinMk, Fin.zero_eta, e0, e1, e2]
  generalize P 3 0 = p0
  generalize P 3 1 = p1
  generalize P 3 2 = p2
  generalize P 3 3 = p3
  generalize P i 0 = q0
  generalize P i 1 = q1
  generalize P i 2 = q2
  generalize P i 3 = q3
  linear_combination (p0 + s * q0) ^ 2 * o00 + (p1 + s * q1) ^ 2 * o11 + (p2 + s * q2) ^ 2 * o22 + 2 * (p0 + s * q0) * (p1 + s * q1) * o01
    + 2 * (p0 + s * q0) * (p2 + s * q2) * o02 + 2 * (p1 + s * q1) * (p2 + s * q2) * o12

theorem side_rigid (P : Matrix (Fin 4) (Fin 4) ℝ) {V : Matrix (Fin 4) (Fin 4) ℝ} (hV : Spec.Rigid V) (i : Fin 4) (s x y z : ℝ) :
    Spec.side (unitPlane (P * V) i s) x y z = Spec.side (unitPlane P i s) (Spec.move V x y z 0) (Spec.move V x y z 1) (Spec.move V x y z 2) := by
  rw [side_unitPlane, side_unitPlane, normalSq_rigid P hV, ← Matrix.mulVec_mulVec, mulVec_move hV.2.2]

/-- The verdict on a sphere depends only on the radius and the distances of the centre. -/
theorem testSphere_congr (k k' : Culler ℝ) (s s' : Vec 4 ℝ) (hr : s[3] = s'[3])
    (h : (Spec.planes k).map (fun p => Spec.side p s[0] s[1] s[2]) = (Spec.planes k').map (fun p => Spec.side p s'[0] s'[1] s'[2])) :
    testSphere k s = testSphere k' s' := by
  obtain ⟨n1, f1, -⟩ := C66_verdict k s
  obtain ⟨n2, f2, -⟩ := C66_verdict k' s'
  have q : ∀ Q : ℝ → Prop, (∃ p ∈ Spec.planes k, Q (Spec.side p s[0] s[1] s[2])) ↔ ∃ p ∈ Spec.planes k', Q (Spec.side p s'[0] s'[1] s'[2]) := by
    intro Q
    have : ∀ (l : List (Vec 4 ℝ)) (g : Vec 4 ℝ → ℝ), (∃ p ∈ l, Q (g p)) ↔ ∃ d ∈ l.map g, Q d := by
      intro l g; simp
    rw [this _ (fun p => Spec.side p s[0] s[1] s[2]), h, ← this]
  have e1 : testSphere k s = .none ↔ testSphere k' s' = .none := by
    rw [n1, n2, hr]; exact q (fun d => d ≤ -s'[3])
  have e2 : testSphere k s = .full ↔ testSphere k' s' = .full := by
    rw [f1, f2, hr, ← not_iff_not]
    push Not
    exact q (fun d => -s'[3] < d → d < s'[3])
  cases hk : testSphere k s <;> cases hk' : testSphere k' s' <;> simp_all

/-- C100. Culling in world space with `setup( projection * view )` is culling in eye space with `setup( projection )`: for a rigid view matrix, every
sphere gets the same verdict as the sphere with the transformed centre, and every point has the same distances to the six planes. -/
theorem C100_world_sphere (cfg : Cfg) (P V : Mat 4 4 ℝ) (hV : Spec.Rigid V.toMat) (c : Vec 3 ℝ) (r : ℝ) :
    ∃ PV kw ke c', P.mul cfg V = .ok PV ∧ setupMatrix cfg PV = .ok kw ∧ setupMatrix cfg P = .ok ke ∧ V.mulVecHom cfg c = .ok c' ∧
      (Spec.planes kw).map (fun p => Spec.side p c[0] c[1] c[2]) = (Spec.planes ke).map (fun p => Spec.side p c'[0] c'[1] c'[2]) ∧
      testSphere kw #v[c[0], c[1], c[2], r] = testSphere ke #v[c'[0], c'[1], c'[2], r] := by
  have hc : V.mulVecHom cfg c = .ok #v[Spec.move V.toMat c[0] c[1] c[2] 0, Spec.move V.toMat c[0] c[1] c[2] 1, Spec.move V.toMat c[0] c[1] c[2] 2] := by
    rw [Mat.mulVecHom_eq]
    have h3 : ∀ j, V.toMat 3 j = ![0, 0, 0, 1] j := fun j => by rw [hV.2.2]
    have e0 := h3 0
    have e1 := h3 1
    have e2 := h3 2
    have e3 := h3 3
    have hl : homRow V.toMat (fun j => c[j]) (Fin.last 3) = 1 := by
      rw [homRow, Fin.sum_univ_three]
      have f0 : V.toMat (Fin.last 3) (Fin.castSucc 0) = 0 := e0
      have f1 : V.toMat (Fin.last 3) (Fin.castSucc 1) = 0 := e1
      have f2 : V.toMat (Fin.last 3) (Fin.castSucc 2) = 0 := e2
      have f3 : V.toMat (Fin.last 3) (Fin.last 3) = 1 := e3
      rw [f0, f1, f2, f3]
      ring
    congr 1
    ext i hi
    rw [Vector.getElem_ofFn, hl, div_one, homRow, Fin.sum_univ_three]
    match i, hi with
    | 0, _ => rfl
    | 1, _ => rfl
    | 2, _ => rfl
  obtain ⟨PV, hPV, hm⟩ : ∃ PV : Mat 4 4 ℝ, P.mul cfg V = .ok PV ∧ PV.toMat = P.toMat * V.toMat := by
    refine ⟨_, Mat.mul_eq cfg P V, ?_⟩
    ext i j
    simp [Matrix.mul_apply]
  have hs : (Spec.planes ⟨unitPlane PV.toMat 0 1, unitPlane PV.toMat 0 (-1), unitPlane PV.toMat 1 1, unitPlane PV.toMat 1 (-1), unitPlane PV.toMat 2 1,
      unitPlane PV.toMat 2 (-1)⟩).map (fun p => Spec.side p c[0] c[1] c[2]) = (Spec.planes ⟨unitPlane P.toMat 0 1, unitPlane P.toMat 0 (-1),
      unitPlane P.toMat 1 1, unitPlane P.toMat 1 (-1), unitPlane P.toMat 2 1, unitPlane P.toMat 2 (-1)⟩).map
      (fun p => Spec.side p (Spec.move V.toMat c[0] c[1] c[2] 0) (Spec.move V.toMat c[0] c[1] c[2] 1) (Spec.move V.toMat c[0] c[1] c[2] 2)) := by
    simp only [Spec.planes, List.map_cons, List.map_nil, hm, side_rigid P.toMat hV]
  exact ⟨PV, _, _, _, hPV, setupMatrix_eq cfg PV, setupMatrix_eq cfg P, hc, hs, testSphere_congr _ _ _ _ rfl hs⟩

/-- C100. The whole pipeline: with a frustum's projection matrix and a rigid view matrix, a world point has nonnegative distance to the six planes of
`setup( projection * view )` exactly if the transformed point is in the frustum. -/
theorem C100_view_frustum (cfg : Cfg) (f : Frustum ℝ) (hf : Spec.Good f) (m V : Mat 4 4 ℝ) (hV : Spec.Rigid V.toMat) (c : Vec 3 ℝ) :
    ∃ P PV k c', f.computeMatrix cfg m = .ok P ∧ P.mul cfg V = .ok PV ∧ setupMatrix cfg PV = .ok k ∧ V.mulVecHom cfg c = .ok c' ∧
      ((∀ p ∈ Spec.planes k, (0 : ℝ) ≤ Spec.side p c[0] c[1] c[2]) ↔ Spec.InsideClosed f c'[0] c'[1] c'[2]) := by
  obtain ⟨P, ke, h1, h2, h3⟩ := C65_frustum cfg f hf m
  obtain ⟨PV, kw, ke', c', g1, g2, g3, g4, g5, -⟩ := C100_world_sphere cfg P V hV c 0
  obtain rfl : ke = ke' := by rw [h2] at g3; injection g3
  refine ⟨P, PV, kw, c', h1, g1, g2, g4, ?_⟩
  rw [← h3]
  have : ∀ (l : List (Vec 4 ℝ)) (g : Vec 4 ℝ → ℝ), (∀ p ∈ l, 0 ≤ g p) ↔ ∀ d ∈ l.map g, 0 ≤ d := by
    intro l g; simp
  rw [this _ (fun p => Spec.side p c[0] c[1] c[2]), g5, ← this]

/-! ### Nested objects -/

/-- C100. A sphere inside another one: if the outer one is culled so is the inner one, and if the outer one is fully visible so is the inner one. -/
theorem C100_sphere_in_sphere (k : Culler ℝ) (hk : ∀ p ∈ Spec.planes k, Spec.normalSq p = 1) (s t : Vec 4 ℝ) (hs : (0 : ℝ) < s[3]) (ht : (0 : ℝ) < t[3])
    (hst : ∀ x y z, Spec.InBall s x y z → Spec.InBall t x y z) :
    (testSphere k t = .none → testSphere k s = .none) ∧ (testSphere k t = .full → testSphere k s = .full) := by
  obtain ⟨n1, f1⟩ := C66_exact k hk s hs
  obtain ⟨n2, f2⟩ := C66_exact k hk t ht
  refine ⟨fun h => ?_, fun h => ?_⟩
  · obtain ⟨p, hp, h'⟩ := n2.1 h
    exact n1.2 ⟨p, hp, fun x y z hb => h' x y z (hst x y z hb)⟩
  · exact f1.2 fun p hp x y z hb => f2.1 h p hp x y z (hst x y z hb)

/-- C100. A sphere inside a box. -/
theorem C100_sphere_in_box (cfg : Cfg) (k : Culler ℝ) (hk : ∀ p ∈ Spec.planes k, Spec.normalSq p = 1) (s : Vec 4 ℝ) (hs : (0 : ℝ) < s[3]) (x y z : Vec 2 ℝ)
    (hst : ∀ a b c, Spec.InBall s a b c → Spec.InBox x y z a b c) (v : Visibility) (hv : testAabb cfg (1 / 2) k x y z = .ok v) :
    (v = .none → testSphere k s = .none) ∧ (v = .full → testSphere k s = .full) := by
  obtain ⟨n1, f1⟩ := C66_exact k hk s hs
  obtain ⟨v', h1, n2, f2⟩ := C67_exact cfg k x y z
  obtain rfl : v = v' := by rw [hv] at h1; injection h1
  refine ⟨fun h => ?_, fun h => ?_⟩
  · obtain ⟨p, hp, h', -⟩ := n2.1 h
    exact n1.2 ⟨p, hp, fun a b c hb => h' a b c (hst a b c hb)⟩
  · exact f1.2 fun p hp a b c hb => f2.1 h p hp a b c (hst a b c hb)

/-- C100. A box inside a box: full visibility is inherited; culling is inherited unless the inner box lies in one of the planes. -/
theorem C100_box_in_box (cfg : Cfg) (k : Culler ℝ) (x y z x' y' z' : Vec 2 ℝ) (hst : ∀ a b c, Spec.InBox x y z a b c → Spec.InBox x' y' z' a b c)
    (v v' : Visibility) (hv : testAabb cfg (1 / 2) k x y z = .ok v) (hv' : testAabb cfg (1 / 2) k x' y' z' = .ok v') :
    (v' = .none → v = .none ∨ ∃ p ∈ Spec.planes k, ∀ a b c, Spec.InBox x y z a b c → Spec.side p a b c = 0) ∧ (v' = .full → v = .full) := by
  obtain ⟨w, h1, n1, f1⟩ := C67_exact cfg k x y z
  obtain rfl : v = w := by rw [hv] at h1; injection h1
  obtain ⟨w, h2, n2, f2⟩ := C67_exact cfg k x' y' z'
  obtain rfl : v' = w := by rw [hv'] at h2; injection h2
  refine ⟨fun h => ?_, fun h => f1.2 fun p hp a b c hb => f2.1 h p hp a b c (hst a b c hb)⟩
  obtain ⟨p, hp, h', -⟩ := n2.1 h
  by_cases e : ∃ a b c, Spec.InBox x y z a b c ∧ Spec.side p a b c < 0
  · exact Or.inl (n1.2 ⟨p, hp, fun a b c hb => h' a b c (hst a b c hb), e⟩)
  · push Not at e
    exact Or.inr ⟨p, hp, fun a b c hb => le_antisymm (h' a b c (hst a b c hb)) (e a b c hb)⟩

/-- C100. A box inside a sphere (its bounding sphere): the test on the sphere may be done first. -/
theorem C100_box_in_sphere (cfg : Cfg) (k : Culler ℝ) (hk : ∀ p ∈ Spec.planes k, Spec.normalSq p = 1) (s : Vec 4 ℝ) (hs : (0 : ℝ) < s[3]) (x y z : Vec 2 ℝ)
    (hst : ∀ a b c, Spec.InBox x y z a b c → Spec.InBall s a b c) (v : Visibility) (hv : testAabb cfg (1 / 2) k x y z = .ok v) :
    (testSphere k s = .none → v = .none ∨ ∃ p ∈ Spec.planes k, ∀ a b c, Spec.InBox x y z a b c → Spec.side p a b c = 0) ∧
      (testSphere k s = .full → v = .full) := by
  obtain ⟨n2, f2⟩ := C66_exact k hk s hs
  obtain ⟨w, h1, n1, f1⟩ := C67_exact cfg k x y z
  obtain rfl : v = w := by rw [hv] at h1; injection h1
  refine ⟨fun h => ?_, fun h => f1.2 fun p hp a b c hb => f2.1 h p hp a b c (hst a b c hb)⟩
  obtain ⟨p, hp, h'⟩ := n2.1 h
  by_cases e : ∃ a b c, Spec.InBox x y z a b c ∧ Spec.side p a b c < 0
  · exact Or.inl (n1.2 ⟨p, hp, fun a b c hb => h' a b c (hst a b c hb), e⟩)
  · push Not at e
    exact Or.inr ⟨p, hp, fun a b c hb => le_antisymm (h' a b c (hst a b c hb)) (e a b c hb)⟩

/-- Non-vacuity: a frustum, and a view matrix that is a rotation about an axis. -/
example : Spec.Good (⟨#v[-1, 1, -1, 1, 1, 10]⟩ : Frustum ℝ) ∧ Spec.Rigid (Mat.rotate ⟨Vector.replicate 16 0⟩ 1 (#v[0, 0, 1] : Vec 3 ℝ) : Mat 4 4 ℝ).toMat := by
  constructor
  · constructor <;> norm_num [Frustum.left, Frustum.right, Frustum.bottom, Frustum.top, Frustum.nearPlane, Frustum.farPlane]
  · rw [C36_rodrigues]
    exact rotAxis_rigid _ (by simp [Spec.IsUnit3]) 1
example : ∀ x y z, Spec.InBall (#v[0, 0, 0, 1] : Vec 4 ℝ) x y z → Spec.InBox (#v[-1, 1] : Vec 2 ℝ) #v[-1, 1] #v[-1, 1] x y z := by
  rintro x y z ⟨-, h⟩
  simp at h
  simp only [Spec.InBox]
  norm_num
  refine ⟨?_, ?_, ?_, ?_, ?_, ?_⟩ <;> nlinarith [sq_nonneg x, sq_nonneg y, sq_nonneg z]

end Vmml
