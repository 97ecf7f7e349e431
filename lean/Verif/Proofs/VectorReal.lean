import Verif.Proofs.VectorLemmas
import Verif.Model.Alias
import Mathlib.Analysis.InnerProductSpace.PiL2

/-! Helper lemmas: real-valued closed forms (length, distance, normalize) and the aliasing rule. -/

namespace Vmml
open Vec
variable {M N : Nat} {α : Type}

theorem opAssignH_eq (op : α → α → α) (cfg : Cfg) (h : Heap (Vec M α)) (this other : Nat) :
    ∃ h', opAssignH op cfg h this other = .ok h' ∧
      (∀ i (hi : i < M), (h' this)[i] = op (h this)[i] (h other)[i]) ∧ ∀ a, a ≠ this → h' a = h a := by
  obtain ⟨h', h1, h2, h3⟩ := loop_ok (n := M) (s := h)
    (body := fun i h => do
      let x := op (← (h this).atGet cfg i) (← (h other).atGet cfg i)
      pure (Function.update h this (← (h this).atSet cfg i x)))
    (fun k g => (∀ a, a ≠ this → g a = h a) ∧
      ∀ i (hi : i < M), (g this)[i] = if i < k then op (h this)[i] (h other)[i] else (h this)[i])
    (by simp) (by
      rintro k hk g ⟨hf, hv⟩
      refine ⟨_, by simp [hk]; rfl, ?_, ?_⟩
      · intro a ha; simp [ha, hf a ha]
      · intro i hi
        simp only [Function.update_self, Vector.getElem_set]
        by_cases hki : k = i
        · subst hki
          have ho : (g other)[k] = (h other)[k] := by
            by_cases hot : other = this
            · subst hot; rw [hv k hk]; simp
            · rw [hf other hot]
          simp [hv k hk, ho]
        · rw [if_neg hki, hv i hi]
          by_cases h1 : i < k
          · simp [h1, show i < k + 1 by omega]
          · simp [h1, show ¬ i < k + 1 by omega])
  refine ⟨h', h1, ?_, h2⟩
  intro i hi
  rw [h3 i hi, if_pos hi]

/-- The Euclidean vector with the same components. -/
noncomputable def euc (v : Vec M ℝ) : EuclideanSpace ℝ (Fin M) := WithLp.toLp 2 (fun i => v[i])

theorem length_eq (v : Vec M ℝ) : v.length = .ok (Real.sqrt (∑ i : Fin M, v[i] * v[i])) := by
  simp [length, squaredLength_eq]

theorem norm_euc (v : Vec M ℝ) : ‖euc v‖ = Real.sqrt (∑ i : Fin M, v[i] * v[i]) := by
  rw [EuclideanSpace.norm_eq]
  congr 1
  apply Finset.sum_congr rfl
  intro i _
  simp [euc, sq]

theorem distance_eq (cfg : Cfg) (v w : Vec M ℝ) : v.distance cfg w =
    .ok (Real.sqrt (∑ i : Fin M, (v[i] - w[i]) * (v[i] - w[i]))) := by
  simp [distance, squaredDistance, subAssign_eq, squaredLength_eq]

theorem dist_euc (v w : Vec M ℝ) :
    dist (euc v) (euc w) = Real.sqrt (∑ i : Fin M, (v[i] - w[i]) * (v[i] - w[i])) := by
  rw [EuclideanSpace.dist_eq]
  congr 1
  apply Finset.sum_congr rfl
  intro i _
  simp [euc, Real.dist_eq, sq]

theorem normalize_eq_of_ne (cfg : Cfg) (v : Vec M ℝ) (hv : ∑ i : Fin M, v[i] * v[i] ≠ 0) :
    v.normalize cfg = .ok (Vector.ofFn fun i => v[i] * (1 / Real.sqrt (∑ i : Fin M, v[i] * v[i])),
      Real.sqrt (∑ i : Fin M, v[i] * v[i])) := by
  have h0 : 0 < ∑ i : Fin M, v[i] * v[i] :=
    lt_of_le_of_ne (Finset.sum_nonneg fun i _ => mul_self_nonneg _) (Ne.symm hv)
  have h1 : Real.sqrt (∑ i : Fin M, v[i] * v[i]) ≠ 0 := (Real.sqrt_pos.2 h0).ne'
  simp only [Vec.normalize, length_eq, bind_ok, beq_eq_false_iff_ne.2 h1, Bool.false_eq_true, if_false, mulAssignS_eq,
    pure_ok]

theorem normalize_eq_of_eq (cfg : Cfg) (v : Vec M ℝ) (hv : ∑ i : Fin M, v[i] * v[i] = 0) :
    v.normalize cfg = .ok (v, 0) := by
  simp only [Vec.normalize, length_eq, hv, Real.sqrt_zero, bind_ok, beq_self_eq_true, if_true, pure_ok]

theorem sum_sq_ne_zero (v : Vec M ℝ) {i : Nat} (hi : i < M) (hne : v[i] ≠ 0) :
    ∑ i : Fin M, v[i] * v[i] ≠ 0 := by
  intro h
  rw [Finset.sum_eq_zero_iff_of_nonneg (fun i _ => mul_self_nonneg _)] at h
  have := h ⟨i, hi⟩ (Finset.mem_univ _)
  simp at this
  exact hne this

theorem sum3 [NonUnitalNonAssocSemiring α] (x y : Vec 3 α) :
    ∑ i : Fin 3, x[i] * y[i] = x[0] * y[0] + x[1] * y[1] + x[2] * y[2] := by
  rw [Fin.sum_univ_three]; rfl

theorem sum4 [NonUnitalNonAssocSemiring α] (x y : Vec 4 α) :
    ∑ i : Fin 4, x[i] * y[i] = x[0] * y[0] + x[1] * y[1] + x[2] * y[2] + x[3] * y[3] := by
  rw [Fin.sum_univ_four]; rfl

end Vmml
