import Verif.Model.Intersection
import Verif.Proofs.VectorReal
import Mathlib.Tactic.Linarith
import Mathlib.Tactic.Positivity
import Mathlib.Tactic.LinearCombination
import Mathlib.Tactic.FieldSimp

/-!
# C74: ray-sphere intersection

The ray is the set of points `o + s·d/‖d‖`, `s ≥ 0`; the sphere is the surface of radius `|r|` around `c`. Points are elements of Euclidean space
(`euc v` has the components of `v`).
-/

namespace Vmml
open Ray

/-- The point of the ray at distance `s` from the origin `o`, in direction `d`. -/
noncomputable def Spec.rayAt (o d : Vec 3 ℝ) (s : ℝ) : EuclideanSpace ℝ (Fin 3) := euc o + (s / ‖euc d‖) • euc d

/-- The ray meets the surface of the sphere `( c, r )` at distance `s`. -/
def Spec.meets (o d : Vec 3 ℝ) (sphere : Vec 4 ℝ) (s : ℝ) : Prop :=
  dist (Spec.rayAt o d s) (euc #v[sphere[0], sphere[1], sphere[2]]) = |sphere[3]|

/-- Constructing the ray and testing a sphere: `Intersection( o, d ).test_sphere( sphere, t )`. -/
noncomputable def Spec.test (cfg : Cfg) (o d : Vec 3 ℝ) (sphere : Vec 4 ℝ) (t : ℝ) : Res (Bool × ℝ) := do
  (← Ray.ctor cfg o d).testSphere cfg sphere t

/-- Projection of the centre on the ray and squared distance of the centre from the origin. -/
private noncomputable def prj (o d : Vec 3 ℝ) (sp : Vec 4 ℝ) : ℝ :=
  (sp[0] - o[0]) * (d[0] * ((1 : ℝ) / ‖euc d‖)) + (sp[1] - o[1]) * (d[1] * ((1 : ℝ) / ‖euc d‖)) + (sp[2] - o[2]) * (d[2] * ((1 : ℝ) / ‖euc d‖))

private noncomputable def sqd (o : Vec 3 ℝ) (sp : Vec 4 ℝ) : ℝ :=
  (sp[0] - o[0]) * (sp[0] - o[0]) + (sp[1] - o[1]) * (sp[1] - o[1]) + (sp[2] - o[2]) * (sp[2] - o[2])

/-- `meets` as a quadratic equation in `s`. -/
private theorem meets_iff (o d : Vec 3 ℝ) (sp : Vec 4 ℝ) (s : ℝ) (hd : euc d ≠ 0) :
    Spec.meets o d sp s ↔ s * s - (2 : ℝ) * s * prj o d sp + sqd o sp = sp[3] * sp[3] := by
  have hn : ‖euc d‖ ≠ 0 := norm_ne_zero_iff.2 hd
  have hnn : ‖euc d‖ * ‖euc d‖ = d[0] * d[0] + d[1] * d[1] + d[2] * d[2] := by
    rw [norm_euc, Real.mul_self_sqrt (Finset.sum_nonneg fun i _ => mul_self_nonneg _), sum3]
  have hs : (s / ‖euc d‖) * (s / ‖euc d‖) * (d[0] * d[0] + d[1] * d[1] + d[2] * d[2]) = s * s := by
    rw [← hnn]; field_simp
  unfold Spec.meets
  rw [EuclideanSpace.dist_eq, ← Real.sqrt_mul_self_eq_abs]
  rw [Real.sqrt_inj (Finset.sum_nonneg fun i _ => sq_nonneg _) (mul_self_nonneg _)]
  have e : ∑ i, dist ((Spec.rayAt o d s).ofLp i) ((euc #v[sp[0], sp[1], sp[2]]).ofLp i) ^ 2
      = (o[0] + s / ‖euc d‖ * d[0] - sp[0]) ^ 2 + (o[1] + s / ‖euc d‖ * d[1] - sp[1]) ^ 2 + (o[2] + s / ‖euc d‖ * d[2] - sp[2]) ^ 2 := by
    simp only [Fin.sum_univ_three, Real.dist_eq, sq_abs]
    rfl
  rw [e]
  unfold prj sqd
  constructor <;> intro h
  · linear_combination h - hs
  · linear_combination h + hs

/-- The result of the call in terms of the projection. -/
private theorem test_eq (cfg : Cfg) (o d : Vec 3 ℝ) (sp : Vec 4 ℝ) (t : ℝ) (hd : euc d ≠ 0) :
    Spec.test cfg o d sp t = .ok (
      if prj o d sp < 0 ∧ sp[3] * sp[3] < sqd o sp then (false, t)
      else if sp[3] * sp[3] < sqd o sp - prj o d sp * prj o d sp then (false, t)
      else if sp[3] * sp[3] < sqd o sp then
        (true, prj o d sp - Real.sqrt (sp[3] * sp[3] - (sqd o sp - prj o d sp * prj o d sp)))
      else (true, prj o d sp + Real.sqrt (sp[3] * sp[3] - (sqd o sp - prj o d sp * prj o d sp)))) := by
  have h0 : ∑ i : Fin 3, d[i] * d[i] ≠ 0 := by
    intro h
    have : ‖euc d‖ = 0 := by rw [norm_euc, h, Real.sqrt_zero]
    exact hd (norm_eq_zero.1 this)
  have hp : ∀ v : Vec 3 ℝ, v = Vector.ofFn (fun i => d[i] * (1 / Real.sqrt (∑ i : Fin 3, d[i] * d[i]))) →
      ∑ i : Fin 3, (Vector.ofFn fun i : Fin 3 => #v[sp[0], sp[1], sp[2]][i] - o[i])[i] * v[i] = prj o d sp := by
    rintro v rfl
    rw [sum3, prj, norm_euc]
    simp
  have hq : ∑ i : Fin 3, (Vector.ofFn fun i : Fin 3 => #v[sp[0], sp[1], sp[2]][i] - o[i])[i]
      * (Vector.ofFn fun i : Fin 3 => #v[sp[0], sp[1], sp[2]][i] - o[i])[i] = sqd o sp := by
    rw [sum3, sqd]
    simp
  simp only [Spec.test, Ray.ctor, normalize_eq_of_ne cfg d h0, bind_ok, pure_ok, testSphere, Vec.getX, Vec.getY, Vec.getZ, Vec.getW,
    Vec.rawGet_lt, Nat.reduceLT, Nat.zero_lt_succ, set3_eq, Vec.sub_eq, Vec.dot_eq, Vec.squaredLength_eq, hp _ rfl, hq, sqrt_real]
  split_ifs <;> rfl

/-- **C74** For every ray with a non-zero direction and every sphere: `test_sphere` returns true exactly when the ray meets the surface of the
sphere, `t` is then a non-negative distance at which it does, and `t` is untouched otherwise. -/
theorem C74_hit (cfg : Cfg) (o d : Vec 3 ℝ) (sphere : Vec 4 ℝ) (t : ℝ) (hd : euc d ≠ 0) :
    ∃ b t', Spec.test cfg o d sphere t = .ok (b, t') ∧
      (b = true ↔ ∃ s, 0 ≤ s ∧ Spec.meets o d sphere s) ∧
      (b = true → 0 ≤ t' ∧ Spec.meets o d sphere t') ∧ (b = false → t' = t) := by
  rw [test_eq cfg o d sphere t hd]
  simp only [meets_iff o d sphere _ hd]
  generalize prj o d sphere = p
  generalize sqd o sphere = q
  generalize hR : sphere[3] * sphere[3] = R
  have hR0 : 0 ≤ R := hR ▸ mul_self_nonneg _
  clear hR
  split_ifs with h1 h2 h3
  · refine ⟨_, _, rfl, ?_, by simp, by simp⟩
    simp only [Bool.false_eq_true, false_iff, not_exists, not_and]
    intro s hs h
    nlinarith [mul_nonneg hs (neg_nonneg.2 h1.1.le), mul_self_nonneg s]
  · refine ⟨_, _, rfl, ?_, by simp, by simp⟩
    simp only [Bool.false_eq_true, false_iff, not_exists, not_and]
    intro s hs h
    nlinarith [mul_self_nonneg (s - p)]
  · have hp : 0 ≤ p := by by_contra hp; exact h1 ⟨by linarith, h3⟩
    have hsq := Real.mul_self_sqrt (show 0 ≤ R - (q - p * p) by linarith)
    have h0 := Real.sqrt_nonneg (R - (q - p * p))
    generalize Real.sqrt (R - (q - p * p)) = e at *
    have key : 0 ≤ p - e ∧ (p - e) * (p - e) - 2 * (p - e) * p + q = R := by
      refine ⟨?_, by linear_combination hsq⟩
      by_contra hc
      push Not at hc
      nlinarith
    exact ⟨_, _, rfl, by simpa using ⟨_, key⟩, fun _ => key, by simp⟩
  · have hsq := Real.mul_self_sqrt (show 0 ≤ R - (q - p * p) by linarith)
    have h0 := Real.sqrt_nonneg (R - (q - p * p))
    generalize Real.sqrt (R - (q - p * p)) = e at *
    have key : 0 ≤ p + e ∧ (p + e) * (p + e) - 2 * (p + e) * p + q = R := by
      refine ⟨?_, by linear_combination hsq⟩
      by_contra hc
      push Not at hc
      nlinarith
    exact ⟨_, _, rfl, by simpa using ⟨_, key⟩, fun _ => key, by simp⟩

/-- The origin of the ray lies on the surface of the sphere. -/
def Spec.startsOn (o : Vec 3 ℝ) (sphere : Vec 4 ℝ) : Prop := dist (euc o) (euc #v[sphere[0], sphere[1], sphere[2]]) = |sphere[3]|

private theorem startsOn_iff (o : Vec 3 ℝ) (sp : Vec 4 ℝ) : Spec.startsOn o sp ↔ sqd o sp = sp[3] * sp[3] := by
  unfold Spec.startsOn
  rw [dist_comm, dist_euc, ← Real.sqrt_mul_self_eq_abs,
    Real.sqrt_inj (Finset.sum_nonneg fun i _ => mul_self_nonneg _) (mul_self_nonneg _)]
  rw [Fin.sum_univ_three, sqd]
  rfl

/-- **C74** (full claim: `t` is always the smallest distance. Missing: rays that start exactly on the surface, see `C74_surface_violated`.)
If the origin is not on the surface, the reported `t` is the first intersection. -/
theorem C74_first_partial (cfg : Cfg) (o d : Vec 3 ℝ) (sphere : Vec 4 ℝ) (t t' : ℝ) (hd : euc d ≠ 0)
    (ho : ¬ Spec.startsOn o sphere) (h : Spec.test cfg o d sphere t = .ok (true, t')) :
    ∀ s, 0 ≤ s → Spec.meets o d sphere s → t' ≤ s := by
  rw [test_eq cfg o d sphere t hd] at h
  rw [startsOn_iff] at ho
  simp only [meets_iff o d sphere _ hd]
  generalize prj o d sphere = p at *
  generalize sqd o sphere = q at *
  generalize hR : sphere[3] * sphere[3] = R at *
  clear hR
  intro s hs hm
  split_ifs at h with h1 h2 h3
  · simp at h
  · simp at h
  · simp only [Except.ok.injEq, Prod.mk.injEq, true_and] at h
    have hsq := Real.mul_self_sqrt (show 0 ≤ R - (q - p * p) by linarith)
    have h0 := Real.sqrt_nonneg (R - (q - p * p))
    rw [← h]
    generalize Real.sqrt (R - (q - p * p)) = e at *
    by_contra hc
    push Not at hc
    nlinarith
  · simp only [Except.ok.injEq, Prod.mk.injEq, true_and] at h
    have hsq := Real.mul_self_sqrt (show 0 ≤ R - (q - p * p) by linarith)
    have h0 := Real.sqrt_nonneg (R - (q - p * p))
    rw [← h]
    have hlt : q < R := lt_of_le_of_ne (not_lt.1 h3) ho
    generalize Real.sqrt (R - (q - p * p)) = e at *
    by_contra hc
    push Not at hc
    have : 0 < e - p := by nlinarith
    nlinarith

/-- **C74** What happens for a ray that starts on the surface: the call returns true and `t` is the *last* intersection, so the starting
point itself (distance 0) is reported only if the ray does not enter the sphere. -/
theorem C74_surface (cfg : Cfg) (o d : Vec 3 ℝ) (sphere : Vec 4 ℝ) (t : ℝ) (hd : euc d ≠ 0) (ho : Spec.startsOn o sphere) :
    ∃ t', Spec.test cfg o d sphere t = .ok (true, t') ∧ Spec.meets o d sphere t' ∧ ∀ s, Spec.meets o d sphere s → s ≤ t' := by
  rw [test_eq cfg o d sphere t hd]
  rw [startsOn_iff] at ho
  simp only [meets_iff o d sphere _ hd]
  generalize prj o d sphere = p at *
  generalize sqd o sphere = q at *
  generalize hR : sphere[3] * sphere[3] = R at *
  clear hR
  subst ho
  rw [if_neg (by simp), if_neg (by nlinarith), if_neg (by simp)]
  have hsq := Real.mul_self_sqrt (show 0 ≤ q - (q - p * p) by nlinarith)
  have h0 := Real.sqrt_nonneg (q - (q - p * p))
  refine ⟨_, rfl, by linear_combination hsq, ?_⟩
  intro s hs
  generalize Real.sqrt (q - (q - p * p)) = e at *
  by_contra hc
  push Not at hc
  nlinarith

/-- Ray from `( -1, 0, 0 )` towards `+x` against the unit sphere at the origin: it starts on the surface (distance 0), but 2 is reported. -/
theorem C74_surface_violated (cfg : Cfg) :
    let o : Vec 3 ℝ := #v[-1, 0, 0]
    let d : Vec 3 ℝ := #v[1, 0, 0]
    let sphere : Vec 4 ℝ := #v[0, 0, 0, 1];
    euc d ≠ 0 ∧ Spec.meets o d sphere 0 ∧ Spec.test cfg o d sphere 7 = .ok (true, 2) := by
  have hd : euc (#v[1, 0, 0] : Vec 3 ℝ) ≠ 0 := by
    intro h
    have : (euc (#v[1, 0, 0] : Vec 3 ℝ)).ofLp 0 = (0 : EuclideanSpace ℝ (Fin 3)).ofLp 0 := by rw [h]
    simp [euc] at this
  have hn : ‖euc (#v[1, 0, 0] : Vec 3 ℝ)‖ = 1 := by
    rw [norm_euc, sum3]; simp
  refine ⟨hd, ?_, ?_⟩
  · rw [meets_iff _ _ _ _ hd]
    simp [sqd]
  · rw [test_eq cfg _ _ _ _ hd]
    have e1 : prj #v[-1, 0, 0] #v[1, 0, 0] #v[0, 0, 0, 1] = 1 := by simp [prj, hn]
    have e2 : sqd #v[-1, 0, 0] #v[0, 0, 0, 1] = 1 := by simp [sqd]
    rw [e1, e2]
    norm_num

/-- **C74** A zero direction is not rejected: the "ray" then has no direction, and the call reports a hit iff the origin is in the ball,
with the positive number `√( r² - ‖c - o‖² )` as distance. -/
theorem C74_zero_direction (cfg : Cfg) (o : Vec 3 ℝ) (sp : Vec 4 ℝ) (t : ℝ) :
    Spec.test cfg o #v[0, 0, 0] sp t = .ok (
      if dist (euc o) (euc #v[sp[0], sp[1], sp[2]]) ≤ |sp[3]| then
        (true, Real.sqrt (sp[3] ^ 2 - dist (euc o) (euc #v[sp[0], sp[1], sp[2]]) ^ 2))
      else (false, t)) := by
  have hd : dist (euc o) (euc #v[sp[0], sp[1], sp[2]]) = Real.sqrt (sqd o sp) := by
    rw [dist_comm, dist_euc, Fin.sum_univ_three, sqd]
    rfl
  have hnn : 0 ≤ sqd o sp := by unfold sqd; nlinarith [mul_self_nonneg (sp[0] - o[0]), mul_self_nonneg (sp[1] - o[1]), mul_self_nonneg (sp[2] - o[2])]
  simp only [hd, ← Real.sqrt_mul_self_eq_abs, Real.sqrt_le_sqrt_iff (mul_self_nonneg _), Real.sq_sqrt hnn]
  have hz : Vec.normalize cfg (#v[0, 0, 0] : Vec 3 ℝ) = .ok (#v[0, 0, 0], 0) := normalize_eq_of_eq _ _ (by rw [sum3]; simp)
  have hp : ∑ i : Fin 3, (Vector.ofFn fun i : Fin 3 => #v[sp[0], sp[1], sp[2]][i] - o[i])[i] * (#v[0, 0, 0] : Vec 3 ℝ)[i] = 0 := by
    rw [sum3]; simp
  have hq : ∑ i : Fin 3, (Vector.ofFn fun i : Fin 3 => #v[sp[0], sp[1], sp[2]][i] - o[i])[i]
      * (Vector.ofFn fun i : Fin 3 => #v[sp[0], sp[1], sp[2]][i] - o[i])[i] = sqd o sp := by
    rw [sum3, sqd]
    simp
  simp only [Spec.test, Ray.ctor, hz, bind_ok, pure_ok, testSphere, Vec.getX, Vec.getY, Vec.getZ, Vec.getW,
    Vec.rawGet_lt, Nat.reduceLT, Nat.zero_lt_succ, set3_eq, Vec.sub_eq, Vec.dot_eq, Vec.squaredLength_eq, hp, hq, sqrt_real]
  by_cases h : sqd o sp ≤ sp[3] * sp[3]
  · simp [h, not_lt.2 h, sq]
  · simp [h, not_le.1 h]

/-- Non-trivial cases: a ray from outside that hits (first partial theorem applies), and one that misses. -/
example (cfg : Cfg) : ¬ Spec.startsOn #v[-3, 0, 0] #v[0, 0, 0, 1] ∧ euc (#v[2, 0, 0] : Vec 3 ℝ) ≠ 0 ∧
    Spec.test cfg #v[-3, 0, 0] #v[2, 0, 0] #v[0, 0, 0, 1] 0 = .ok (true, 2) ∧
    Spec.test cfg #v[-3, 2, 0] #v[2, 0, 0] #v[0, 0, 0, 1] 5 = .ok (false, 5) := by
  have hd : euc (#v[2, 0, 0] : Vec 3 ℝ) ≠ 0 := by
    intro h
    have : (euc (#v[2, 0, 0] : Vec 3 ℝ)).ofLp 0 = (0 : EuclideanSpace ℝ (Fin 3)).ofLp 0 := by rw [h]
    simp [euc] at this
  have hn : ‖euc (#v[2, 0, 0] : Vec 3 ℝ)‖ = 2 := by
    rw [norm_euc, sum3]; norm_num
    rw [show (4 : ℝ) = 2 * 2 by norm_num, Real.sqrt_mul_self (by norm_num)]
  refine ⟨?_, hd, ?_, ?_⟩
  · rw [startsOn_iff]; simp [sqd]; norm_num
  · rw [test_eq cfg _ _ _ _ hd]
    have e1 : prj #v[-3, 0, 0] #v[2, 0, 0] #v[0, 0, 0, 1] = 3 := by simp [prj, hn]
    have e2 : sqd #v[-3, 0, 0] #v[0, 0, 0, 1] = 9 := by simp [sqd]; norm_num
    rw [e1, e2]
    norm_num
  · rw [test_eq cfg _ _ _ _ hd]
    have e1 : prj #v[-3, 2, 0] #v[2, 0, 0] #v[0, 0, 0, 1] = 3 := by simp [prj, hn]
    have e2 : sqd #v[-3, 2, 0] #v[0, 0, 0, 1] = 13 := by simp [sqd]; norm_num
    rw [e1, e2]
    norm_num

end Vmml
