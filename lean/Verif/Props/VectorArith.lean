import Verif.Proofs.VectorLemmas
import Verif.Model.Alias
import Verif.Proofs.VectorReal
import Mathlib.Tactic.Linarith
import Mathlib.Tactic.LinearCombination
import Mathlib.Tactic.FieldSimp

/-!
# C03 – C07: vector arithmetic, dot, length, distance, cross, normalize
-/

namespace Vmml
open Vec
variable {M N : Nat} {α : Type}

/-! ## C03 -/

/-- C03. The binary operators, for every dimension, scalar type and configuration: no fault, and
each component of the result is the operation on the components. No algebraic law is assumed. -/
theorem C03_binary (cfg : Cfg) [Zero α] [Add α] [Sub α] [Mul α] [Div α] (v w : Vec M α) :
    (∃ r, v.add cfg w = .ok r ∧ ∀ i (h : i < M), r[i] = v[i] + w[i]) ∧
    (∃ r, v.sub cfg w = .ok r ∧ ∀ i (h : i < M), r[i] = v[i] - w[i]) ∧
    (∃ r, v.mul cfg w = .ok r ∧ ∀ i (h : i < M), r[i] = v[i] * w[i]) ∧
    (∃ r, v.div cfg w = .ok r ∧ ∀ i (h : i < M), r[i] = v[i] / w[i]) :=
  ⟨⟨_, add_eq cfg v w, by simp⟩, ⟨_, sub_eq cfg v w, by simp⟩, ⟨_, mul_eq cfg v w, by simp⟩,
    ⟨_, div_eq cfg v w, by simp⟩⟩

/-- C03. The operators with a scalar on the right. -/
theorem C03_scalar (cfg : Cfg) [Zero α] [Add α] [Sub α] [Mul α] [Div α] (v : Vec M α) (a : α) :
    (∃ r, v.addS cfg a = .ok r ∧ v.addAssignS cfg a = .ok r ∧ ∀ i (h : i < M), r[i] = v[i] + a) ∧
    (∃ r, v.subS cfg a = .ok r ∧ v.subAssignS cfg a = .ok r ∧ ∀ i (h : i < M), r[i] = v[i] - a) ∧
    (∃ r, v.mulS cfg a = .ok r ∧ v.mulAssignS cfg a = .ok r ∧ ∀ i (h : i < M), r[i] = v[i] * a) ∧
    (∃ r, v.divS cfg a = .ok r ∧ v.divAssignS cfg a = .ok r ∧ ∀ i (h : i < M), r[i] = v[i] / a) :=
  ⟨⟨_, addS_eq cfg v a, addAssignS_eq cfg v a, by simp⟩,
    ⟨_, subS_eq cfg v a, subAssignS_eq cfg v a, by simp⟩,
    ⟨_, mulS_eq cfg v a, mulAssignS_eq cfg v a, by simp⟩,
    ⟨_, divS_eq cfg v a, divAssignS_eq cfg v a, by simp⟩⟩

/-- C03. The compound operators give the value of the binary ones. -/
theorem C03_compound (cfg : Cfg) [Zero α] [Add α] [Sub α] [Mul α] [Div α] (v w : Vec M α) :
    v.addAssign cfg w = v.add cfg w ∧ v.subAssign cfg w = v.sub cfg w ∧
    v.mulAssign cfg w = v.mul cfg w ∧ v.divAssign cfg w = v.div cfg w := by
  simp [addAssign_eq, add_eq, subAssign_eq, sub_eq, mulAssign_eq, mul_eq, divAssign_eq, div_eq]

/-- C03. Negation. -/
theorem C03_negate [Neg α] (v : Vec M α) :
    ∃ r, v.negate = .ok r ∧ ∀ i (h : i < M), r[i] = -v[i] := ⟨_, negate_eq v, by simp⟩

/-- C03. Compound operators with operands given by address, the right operand being possibly
`*this`: the result is the componentwise operation on the values before the call, and no other object
changes. -/
theorem C03_compound_alias (cfg : Cfg) [Add α] [Sub α] [Mul α] [Div α] (h : Heap (Vec M α))
    (this other : Nat) :
    (∃ h', addAssignH cfg h this other = .ok h' ∧
      (∀ i (hi : i < M), (h' this)[i] = (h this)[i] + (h other)[i]) ∧ ∀ a, a ≠ this → h' a = h a) ∧
    (∃ h', subAssignH cfg h this other = .ok h' ∧
      (∀ i (hi : i < M), (h' this)[i] = (h this)[i] - (h other)[i]) ∧ ∀ a, a ≠ this → h' a = h a) ∧
    (∃ h', mulAssignH cfg h this other = .ok h' ∧
      (∀ i (hi : i < M), (h' this)[i] = (h this)[i] * (h other)[i]) ∧ ∀ a, a ≠ this → h' a = h a) ∧
    (∃ h', divAssignH cfg h this other = .ok h' ∧
      (∀ i (hi : i < M), (h' this)[i] = (h this)[i] / (h other)[i]) ∧ ∀ a, a ≠ this → h' a = h a) :=
  ⟨opAssignH_eq _ cfg h this other, opAssignH_eq _ cfg h this other, opAssignH_eq _ cfg h this other,
    opAssignH_eq _ cfg h this other⟩

/-- C03. Assignment, self-assignment included, copies the value and changes nothing else. -/
theorem C03_assign_alias (h : Heap (Vec M α)) (this other : Nat) :
    ∃ h', assignH h this other = .ok h' ∧ h' this = h other ∧ ∀ a, a ≠ this → h' a = h a := by
  by_cases hto : this = other
  · subst hto; exact ⟨h, by simp [assignH], rfl, fun _ _ => rfl⟩
  · refine ⟨Function.update h this (h other), ?_, by simp, fun a ha => by simp [ha]⟩
    simp only [assignH, ne_eq, hto, not_false_eq_true, if_true, memcpy_eq _ _ M le_rfl le_rfl, bind_ok, pure_ok]
    congr 2; ext i hi; simp

/-! ## C04 -/

/-- C04. Vectors over a commutative ring form a module: the laws users rely on, stated on the API. -/
theorem C04_module_laws [CommRing α] (cfg : Cfg) (u v w : Vec M α) (a b : α) :
    v.add cfg w = w.add cfg v ∧
    (do (← u.add cfg v).add cfg w) = (do u.add cfg (← v.add cfg w)) ∧
    v.add cfg zeroCtor = .ok v ∧
    v.sub cfg v = .ok zeroCtor ∧
    (do (← v.add cfg w).sub cfg w) = .ok v ∧
    (do (← v.negate).negate) = .ok v ∧
    v.sub cfg w = (do v.add cfg (← w.negate)) ∧
    (do (← v.add cfg w).mulS cfg a) = (do (← v.mulS cfg a).add cfg (← w.mulS cfg a)) ∧
    v.mulS cfg (a + b) = (do (← v.mulS cfg a).add cfg (← v.mulS cfg b)) ∧
    v.mulS cfg (a * b) = (do (← v.mulS cfg a).mulS cfg b) ∧
    v.mulS cfg 1 = .ok v := by
  simp only [add_eq, sub_eq, mulS_eq, negate_eq, bind_ok]
  refine ⟨?_, ?_, ?_, ?_, ?_, ?_, ?_, ?_, ?_, ?_, ?_⟩ <;> congr 1 <;> ext i hi <;>
    simp [zeroCtor] <;> ring

example : (Vec.add ⟨true, true, false⟩ (#v[1, 2] : Vec 2 (ZMod 256)) #v[255, 4]) = .ok #v[0, 6] := by decide

/-! ## C05 -/

/-- C05. `dot` is the sum of the products of components, over any commutative semiring. -/
theorem C05_dot_sum [CommSemiring α] (cfg : Cfg) (v w : Vec M α) :
    v.dot cfg w = .ok (∑ i : Fin M, v[i] * w[i]) := dot_eq cfg v w

/-- C05. `dot` is symmetric and bilinear (commutative rings). -/
theorem C05_dot_bilinear [CommRing α] (cfg : Cfg) (u v w : Vec M α) (a : α) :
    v.dot cfg w = w.dot cfg v ∧
    (do (← u.add cfg v).dot cfg w) = (do pure ((← u.dot cfg w) + (← v.dot cfg w))) ∧
    (do (← v.mulS cfg a).dot cfg w) = (do pure (a * (← v.dot cfg w))) ∧
    v.squaredLength = v.dot cfg v := by
  simp only [dot_eq, add_eq, mulS_eq, bind_ok, squaredLength_eq, pure_ok, Finset.mul_sum,
    ← Finset.sum_add_distrib]
  refine ⟨?_, ?_, ?_, ?_⟩ <;> congr 1 <;> (try apply Finset.sum_congr rfl) <;> (try intro i _) <;>
    (try simp) <;> (try ring)

/-- C05. `length` is the non-negative square root of the sum of squares and vanishes only on the zero vector. -/
theorem C05_length (v : Vec M ℝ) :
    ∃ l, v.length = .ok l ∧ 0 ≤ l ∧ l ^ 2 = ∑ i : Fin M, v[i] * v[i] ∧
      (l = 0 ↔ ∀ i (h : i < M), v[i] = 0) := by
  have hs : 0 ≤ ∑ i : Fin M, v[i] * v[i] := Finset.sum_nonneg fun i _ => mul_self_nonneg _
  refine ⟨_, length_eq v, Real.sqrt_nonneg _, Real.sq_sqrt hs, ?_⟩
  rw [Real.sqrt_eq_zero hs, Finset.sum_eq_zero_iff_of_nonneg (fun i _ => mul_self_nonneg _)]
  constructor
  · intro h i hi; simpa using h ⟨i, hi⟩ (Finset.mem_univ _)
  · intro h i _; simp [h i i.2]

/-- C05. Cauchy–Schwarz for the results of `dot` and `length`. -/
theorem C05_cauchy_schwarz (cfg : Cfg) (v w : Vec M ℝ) :
    ∃ d lv lw, v.dot cfg w = .ok d ∧ v.length = .ok lv ∧ w.length = .ok lw ∧ |d| ≤ lv * lw := by
  refine ⟨_, _, _, dot_eq cfg v w, length_eq v, length_eq w, ?_⟩
  have h := abs_real_inner_le_norm (euc v) (euc w)
  rw [norm_euc, norm_euc] at h
  refine le_trans (le_of_eq ?_) h
  congr 1
  simp [euc, PiLp.inner_apply, mul_comm]

/-- C05. Triangle inequality for `length` of a sum. -/
theorem C05_triangle (cfg : Cfg) (v w : Vec M ℝ) :
    ∃ s ls lv lw, v.add cfg w = .ok s ∧ s.length = .ok ls ∧ v.length = .ok lv ∧ w.length = .ok lw ∧
      ls ≤ lv + lw := by
  refine ⟨_, _, _, _, add_eq cfg v w, length_eq _, length_eq v, length_eq w, ?_⟩
  have h := norm_add_le (euc v) (euc w)
  have e : euc v + euc w = euc (Vector.ofFn fun i : Fin M => v[i] + w[i]) := by
    ext i; simp [euc]
  rw [e, norm_euc, norm_euc, norm_euc] at h
  exact h

/-- C05. `distance` is a metric on vectors of every dimension. -/
theorem C05_distance_metric (cfg : Cfg) (u v w : Vec M ℝ) :
    ∃ duv dvu duw dvw, u.distance cfg v = .ok duv ∧ v.distance cfg u = .ok dvu ∧
      u.distance cfg w = .ok duw ∧ v.distance cfg w = .ok dvw ∧
      0 ≤ duv ∧ duv = dvu ∧ (duv = 0 ↔ u = v) ∧ duw ≤ duv + dvw := by
  refine ⟨_, _, _, _, distance_eq cfg u v, distance_eq cfg v u, distance_eq cfg u w, distance_eq cfg v w,
    Real.sqrt_nonneg _, ?_, ?_, ?_⟩
  · rw [← dist_euc, ← dist_euc, dist_comm]
  · rw [← dist_euc, dist_eq_zero]
    constructor
    · intro h; ext i hi
      have := congrFun (congrArg WithLp.ofLp h) ⟨i, hi⟩
      simpa [euc] using this
    · rintro rfl; rfl
  · rw [← dist_euc, ← dist_euc, ← dist_euc]; exact dist_triangle _ _ _

/-- C05. `distance( v, w )` is the length of `v - w`. -/
theorem C05_distance_is_length (cfg : Cfg) (v w : Vec M ℝ) :
    v.distance cfg w = (do (← v.sub cfg w).length) := by
  simp [distance_eq, sub_eq, length_eq]

/-! ## C06 -/

/-- C06. The formula. -/
theorem C06_formula [CommRing α] (a b : Vec 3 α) :
    (a.cross b)[0] = a[1] * b[2] - a[2] * b[1] ∧
    (a.cross b)[1] = a[2] * b[0] - a[0] * b[2] ∧
    (a.cross b)[2] = a[0] * b[1] - a[1] * b[0] := ⟨rfl, rfl, rfl⟩

/-- C06. Orthogonality, anticommutativity, Lagrange's identity, Jacobi's identity, the scalar
triple product — over every commutative ring. -/
theorem C06_laws [CommRing α] (cfg : Cfg) (a b c : Vec 3 α) :
    (a.cross b).dot cfg a = .ok 0 ∧ (a.cross b).dot cfg b = .ok 0 ∧
    (b.cross a).negate = .ok (a.cross b) ∧
    (∃ l d sa sb, (a.cross b).squaredLength = .ok l ∧ a.dot cfg b = .ok d ∧ a.squaredLength = .ok sa ∧
      b.squaredLength = .ok sb ∧ l + d * d = sa * sb) ∧
    (∃ s, (a.cross (b.cross c)).add cfg (b.cross (c.cross a)) = .ok s ∧
      s.add cfg (c.cross (a.cross b)) = .ok zeroCtor) ∧
    (a.cross b).dot cfg c = a.dot cfg (b.cross c) := by
  simp only [dot_eq, negate_eq, squaredLength_eq, add_eq, Fin.sum_univ_three, Fin.getElem_fin]
  refine ⟨?_, ?_, ?_, ⟨_, _, _, _, rfl, rfl, rfl, rfl, ?_⟩, ⟨_, rfl, ?_⟩, ?_⟩
  · congr 1; simp [cross]; ring
  · congr 1; simp [cross]; ring
  · congr 1; apply vec3_ext <;> simp [cross] <;> ring
  · simp [cross]; ring
  · congr 1; apply vec3_ext <;> simp [cross, zeroCtor] <;> ring
  · congr 1; simp [cross]; ring

/-- C06 (the aliasing part holds only without aliasing). Missing: the two-argument form is claimed for every aliasing pattern, see
`C06_cross_alias_violated`. If `*this` is neither operand, it becomes the cross product of the operands'
values and nothing else changes. -/
theorem C06_cross_noalias_partial [CommRing α] (h : Heap (Vec 3 α)) (this a b : Nat)
    (ha : a ≠ this) (hb : b ≠ this) :
    (crossH h this a b) this = (h a).cross (h b) ∧ ∀ x, x ≠ this → (crossH h this a b) x = h x := by
  constructor
  · apply vec3_ext <;> simp [crossH, cross, ha, hb]
  · intro x hx; simp [crossH, hx]

/-- C06 is violated under aliasing: `a.cross( a, b )` with `a = (0,1,0)`, `b = (0,1,1)` does not produce the
cross product `(1,0,0)` of the values before the call, but `(1,-1,1)`: the later components read the
already overwritten ones. -/
theorem C06_cross_alias_violated :
    ∃ h : Heap (Vec 3 ℤ), (crossH h 0 0 1) 0 ≠ (h 0).cross (h 1) := by
  refine ⟨fun a => if a = 0 then #v[0, 1, 0] else #v[0, 1, 1], ?_⟩
  decide

/-- What the aliased call computes: only the first component is the right one in general. -/
theorem C06_cross_alias_this_left [CommRing α] (h : Heap (Vec 3 α)) (this b : Nat) (hb : b ≠ this) :
    ((crossH h this this b) this)[0] = ((h this).cross (h b))[0] := by
  simp [crossH, cross, hb]

/-! ## C07 -/

/-- C07. For a vector with a non-zero component, `normalize` returns the old length, the new vector has
length 1, and the old vector is the new one times the old length. -/
theorem C07_normalize (cfg : Cfg) (v : Vec M ℝ) (i : Nat) (hi : i < M) (hne : v[i] ≠ 0) :
    ∃ u l, v.normalize cfg = .ok (u, l) ∧ v.length = .ok l ∧ 0 < l ∧ u.length = .ok 1 ∧
      u.mulS cfg l = .ok v := by
  have hs := sum_sq_ne_zero v hi hne
  have h0 : 0 < ∑ i : Fin M, v[i] * v[i] :=
    lt_of_le_of_ne (Finset.sum_nonneg fun i _ => mul_self_nonneg _) (Ne.symm hs)
  set s := ∑ i : Fin M, v[i] * v[i] with hsdef
  have hl : 0 < Real.sqrt s := Real.sqrt_pos.2 h0
  refine ⟨_, _, normalize_eq_of_ne cfg v hs, length_eq v, hl, ?_, ?_⟩
  · rw [length_eq]
    congr 1
    rw [Real.sqrt_eq_one]
    rw [← hsdef]
    have : ∀ i : Fin M, (Vector.ofFn fun i : Fin M => v[i] * (1 / Real.sqrt s))[i] *
        (Vector.ofFn fun i : Fin M => v[i] * (1 / Real.sqrt s))[i] = v[i] * v[i] * (1 / s) := by
      intro i
      simp only [Fin.getElem_fin, Vector.getElem_ofFn]
      have : Real.sqrt s * Real.sqrt s = s := Real.mul_self_sqrt h0.le
      field_simp
      rw [sq, sq, this]
    rw [Finset.sum_congr rfl (fun i _ => this i), ← Finset.sum_mul, ← hsdef]
    field_simp
  · rw [mulS_eq]
    congr 1; ext j hj
    have e : (Real.sqrt s)⁻¹ * Real.sqrt s = 1 := inv_mul_cancel₀ hl.ne'
    simp only [Vector.getElem_ofFn, Fin.getElem_fin, one_div, mul_assoc]
    exact (congrArg (v[j] * ·) e).trans (mul_one _)

/-- C07. The zero vector is left unchanged and `0` is returned. -/
theorem C07_normalize_zero (cfg : Cfg) (v : Vec M ℝ) (h : ∀ i (hi : i < M), v[i] = 0) :
    v.normalize cfg = .ok (v, 0) :=
  normalize_eq_of_eq cfg v (Finset.sum_eq_zero fun i _ => by simp [h i i.2])

/-- C07. Normalising twice is normalising once. -/
theorem C07_normalize_idempotent (cfg : Cfg) (v u : Vec M ℝ) (l : ℝ) (h : v.normalize cfg = .ok (u, l)) :
    ∃ l', u.normalize cfg = .ok (u, l') := by
  by_cases hz : ∀ i (hi : i < M), v[i] = 0
  · rw [C07_normalize_zero cfg v hz] at h
    have hu : v = u := by injection h with h; injection h
    subst hu
    exact ⟨0, C07_normalize_zero cfg v hz⟩
  · push Not at hz
    obtain ⟨i, hi, hne⟩ := hz
    obtain ⟨u', l', h1, h2, h3, h4, h5⟩ := C07_normalize cfg v i hi hne
    rw [h1] at h
    have hu : u' = u := by injection h with h; injection h
    subst hu
    rw [length_eq] at h4
    have h6 : Real.sqrt (∑ i : Fin M, u'[i] * u'[i]) = 1 := by injection h4
    refine ⟨1, ?_⟩
    have hs : ∑ i : Fin M, u'[i] * u'[i] ≠ 0 := by
      intro h0; rw [h0] at h6; simp at h6
    rw [normalize_eq_of_ne cfg u' hs, h6]
    congr 2
    ext j hj; simp

example : ∃ u l, Vec.normalize ⟨true, true, false⟩ (#v[3, 4] : Vec 2 ℝ) = .ok (u, l) ∧ 0 < l := by
  obtain ⟨u, l, h1, _, h3, _⟩ := C07_normalize ⟨true, true, false⟩ (#v[3, 4] : Vec 2 ℝ) 0 (by omega) (by simp)
  exact ⟨u, l, h1, h3⟩

end Vmml
