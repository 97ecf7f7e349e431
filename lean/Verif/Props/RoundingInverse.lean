import Verif.Props.RoundingPoly

/-!
# C101: the inverse under rounding

`inverse( inverse_, tolerance )` of 2x2, 3x3 and 4x4 matrices with an arbitrary rounding function of relative error at most `u` in every operation (overflow
and underflow excepted). The first part states the computations without any law of arithmetic; they are those of `Model/Matrix.lean` (matrix.hpp 664-778).
-/

set_option linter.unusedSimpArgs false
set_option linter.unusedTactic false

namespace Vmml
open Mat
variable {u : ℝ} {ρ : Rounding u} {α : Type}

/-! ### The computations, without any law for the arithmetic -/

/-- The cofactor table of `compute_inverse` 3x3. -/
def Mat.cof3 [Sub α] [Mul α] (m : Mat 3 3 α) : Mat 3 3 α := Mat.ofFn fun r c =>
  (!![m.get 1 1 * m.get 2 2 - m.get 1 2 * m.get 2 1, m.get 0 2 * m.get 2 1 - m.get 0 1 * m.get 2 2, m.get 0 1 * m.get 1 2 - m.get 0 2 * m.get 1 1;
     m.get 1 2 * m.get 2 0 - m.get 1 0 * m.get 2 2, m.get 0 0 * m.get 2 2 - m.get 0 2 * m.get 2 0, m.get 0 2 * m.get 1 0 - m.get 0 0 * m.get 1 2;
     m.get 1 0 * m.get 2 1 - m.get 1 1 * m.get 2 0, m.get 0 1 * m.get 2 0 - m.get 0 0 * m.get 2 1, m.get 0 0 * m.get 1 1 - m.get 0 1 * m.get 1 0] :
    Matrix (Fin 3) (Fin 3) α) r c

theorem Mat.scale9' [Mul α] (X : Mat 3 3 α) (d : α) :
    (let Y := X.put 0 0 (X.get 0 0 * d)
     let Y := Y.put 0 1 (Y.get 0 1 * d)
     let Y := Y.put 0 2 (Y.get 0 2 * d)
     let Y := Y.put 1 0 (Y.get 1 0 * d)
     let Y := Y.put 1 1 (Y.get 1 1 * d)
     let Y := Y.put 1 2 (Y.get 1 2 * d)
     let Y := Y.put 2 0 (Y.get 2 0 * d)
     let Y := Y.put 2 1 (Y.get 2 1 * d)
     Y.put 2 2 (Y.get 2 2 * d)) = ofFn fun r c => X.get r c * d := by
  have e : ∀ (Z : Mat 3 3 α) (r c r' c' : Fin 3) (x : α),
      (Z.put r c x).get r' c' = if r' = r ∧ c' = c then x else Z.get r' c' := by
    intro Z r c r' c' x; rw [get_put]; simp [eq_comm]
  ext r c
  rw [get_ofFn]
  fin_cases r <;> fin_cases c <;> simp [e]

theorem Mat.inverse3_struct [One α] [Add α] [Sub α] [Mul α] [Div α] [LE α] [DecidableLE α] [CMath α] (cfg : Cfg) (m inv : Mat 3 3 α) (tol : α) :
    m.inverse3 cfg inv tol =
      let d := m.get 0 0 * m.cof3.get 0 0 + m.get 0 1 * m.cof3.get 1 0 + m.get 0 2 * m.cof3.get 2 0;
      .ok (if CMath.fabs d ≤ tol then (false, m.cof3) else (true, ofFn fun r c => m.cof3.get r c * (1 / d))) := by
  have h0 : 0 < 3 := by omega
  have h1 : 1 < 3 := by omega
  have h2 : 2 < 3 := by omega
  unfold inverse3
  simp only [atGet_lt cfg, atSet_lt cfg, h0, h1, h2, bind_ok, pure_ok, Fin.mk_zero, Fin.mk_one,
    Fin.reduceFinMk, Fin.zero_eta]
  have hXe : ∀ (i : Mat 3 3 α), ((((((((i.put 0 0 (m.get 1 1 * m.get 2 2 - m.get 1 2 * m.get 2 1)).put 0 1
        (m.get 0 2 * m.get 2 1 - m.get 0 1 * m.get 2 2)).put 0 2 (m.get 0 1 * m.get 1 2 - m.get 0 2 * m.get 1 1)).put 1 0
        (m.get 1 2 * m.get 2 0 - m.get 1 0 * m.get 2 2)).put 1 1 (m.get 0 0 * m.get 2 2 - m.get 0 2 * m.get 2 0)).put 1 2
        (m.get 0 2 * m.get 1 0 - m.get 0 0 * m.get 1 2)).put 2 0 (m.get 1 0 * m.get 2 1 - m.get 1 1 * m.get 2 0)).put 2 1
        (m.get 0 1 * m.get 2 0 - m.get 0 0 * m.get 2 1)).put 2 2 (m.get 0 0 * m.get 1 1 - m.get 0 1 * m.get 1 0) = m.cof3 := by
    intro i
    ext r c
    rw [cof3, get_ofFn]
    fin_cases r <;> fin_cases c <;> simp [get_put]
  rw [hXe]
  split_ifs with ht
  · rfl
  · exact congrArg (fun y => Except.ok (true, y)) (scale9' m.cof3 _)

/-- The cofactor table of `compute_inverse` 4x4. -/
def Mat.cof4 [Add α] [Sub α] [Mul α] (m : Mat 4 4 α) : Mat 4 4 α := Mat.ofFn fun r c =>
  (!![m.get 1 1 * (m.get 2 2 * m.get 3 3 - m.get 2 3 * m.get 3 2) - m.get 1 2 * (m.get 2 1 * m.get 3 3 - m.get 2 3 * m.get 3 1) + m.get 1 3 * (m.get 2 1 * m.get 3 2 - m.get 2 2 * m.get 3 1),
     m.get 0 2 * (m.get 2 1 * m.get 3 3 - m.get 2 3 * m.get 3 1) - m.get 0 1 * (m.get 2 2 * m.get 3 3 - m.get 2 3 * m.get 3 2) - m.get 0 3 * (m.get 2 1 * m.get 3 2 - m.get 2 2 * m.get 3 1),
     m.get 3 1 * (m.get 0 2 * m.get 1 3 - m.get 0 3 * m.get 1 2) - m.get 3 2 * (m.get 0 1 * m.get 1 3 - m.get 0 3 * m.get 1 1) + m.get 3 3 * (m.get 0 1 * m.get 1 2 - m.get 0 2 * m.get 1 1),
     m.get 2 2 * (m.get 0 1 * m.get 1 3 - m.get 0 3 * m.get 1 1) - m.get 2 1 * (m.get 0 2 * m.get 1 3 - m.get 0 3 * m.get 1 2) - m.get 2 3 * (m.get 0 1 * m.get 1 2 - m.get 0 2 * m.get 1 1);
     m.get 1 2 * (m.get 2 0 * m.get 3 3 - m.get 2 3 * m.get 3 0) - m.get 1 3 * (m.get 2 0 * m.get 3 2 - m.get 2 2 * m.get 3 0) - m.get 1 0 * (m.get 2 2 * m.get 3 3 - m.get 2 3 * m.get 3 2),
     m.get 0 0 * (m.get 2 2 * m.get 3 3 - m.get 2 3 * m.get 3 2) - m.get 0 2 * (m.get 2 0 * m.get 3 3 - m.get 2 3 * m.get 3 0) + m.get 0 3 * (m.get 2 0 * m.get 3 2 - m.get 2 2 * m.get 3 0),
     m.get 3 2 * (m.get 0 0 * m.get 1 3 - m.get 0 3 * m.get 1 0) - m.get 3 3 * (m.get 0 0 * m.get 1 2 - m.get 0 2 * m.get 1 0) - m.get 3 0 * (m.get 0 2 * m.get 1 3 - m.get 0 3 * m.get 1 2),
     m.get 2 0 * (m.get 0 2 * m.get 1 3 - m.get 0 3 * m.get 1 2) - m.get 2 2 * (m.get 0 0 * m.get 1 3 - m.get 0 3 * m.get 1 0) + m.get 2 3 * (m.get 0 0 * m.get 1 2 - m.get 0 2 * m.get 1 0);
     m.get 1 3 * (m.get 2 0 * m.get 3 1 - m.get 2 1 * m.get 3 0) - m.get 1 1 * (m.get 2 0 * m.get 3 3 - m.get 2 3 * m.get 3 0) + m.get 1 0 * (m.get 2 1 * m.get 3 3 - m.get 2 3 * m.get 3 1),
     m.get 0 1 * (m.get 2 0 * m.get 3 3 - m.get 2 3 * m.get 3 0) - m.get 0 3 * (m.get 2 0 * m.get 3 1 - m.get 2 1 * m.get 3 0) - m.get 0 0 * (m.get 2 1 * m.get 3 3 - m.get 2 3 * m.get 3 1),
     m.get 3 3 * (m.get 0 0 * m.get 1 1 - m.get 0 1 * m.get 1 0) - m.get 3 1 * (m.get 0 0 * m.get 1 3 - m.get 0 3 * m.get 1 0) + m.get 3 0 * (m.get 0 1 * m.get 1 3 - m.get 0 3 * m.get 1 1),
     m.get 2 1 * (m.get 0 0 * m.get 1 3 - m.get 0 3 * m.get 1 0) - m.get 2 3 * (m.get 0 0 * m.get 1 1 - m.get 0 1 * m.get 1 0) - m.get 2 0 * (m.get 0 1 * m.get 1 3 - m.get 0 3 * m.get 1 1);
     m.get 1 1 * (m.get 2 0 * m.get 3 2 - m.get 2 2 * m.get 3 0) - m.get 1 0 * (m.get 2 1 * m.get 3 2 - m.get 2 2 * m.get 3 1) - m.get 1 2 * (m.get 2 0 * m.get 3 1 - m.get 2 1 * m.get 3 0),
     m.get 0 0 * (m.get 2 1 * m.get 3 2 - m.get 2 2 * m.get 3 1) - m.get 0 1 * (m.get 2 0 * m.get 3 2 - m.get 2 2 * m.get 3 0) + m.get 0 2 * (m.get 2 0 * m.get 3 1 - m.get 2 1 * m.get 3 0),
     m.get 3 1 * (m.get 0 0 * m.get 1 2 - m.get 0 2 * m.get 1 0) - m.get 3 0 * (m.get 0 1 * m.get 1 2 - m.get 0 2 * m.get 1 1) - m.get 3 2 * (m.get 0 0 * m.get 1 1 - m.get 0 1 * m.get 1 0),
     m.get 2 0 * (m.get 0 1 * m.get 1 2 - m.get 0 2 * m.get 1 1) - m.get 2 1 * (m.get 0 0 * m.get 1 2 - m.get 0 2 * m.get 1 0) + m.get 2 2 * (m.get 0 0 * m.get 1 1 - m.get 0 1 * m.get 1 0)] :
    Matrix (Fin 4) (Fin 4) α) r c

theorem Mat.comatrix4_struct [Add α] [Sub α] [Mul α] (m inv : Mat 4 4 α) : (⟨comatrix4 m.array inv.array⟩ : Mat 4 4 α) = m.cof4 := by
  ext r c
  rw [cof4, get_ofFn]
  fin_cases r <;> fin_cases c <;> simp [Mat.get, comatrix4, Vector.getElem_set]

theorem Mat.inverse4_struct [One α] [Add α] [Sub α] [Mul α] [Div α] [LE α] [DecidableLE α] [CMath α] (m inv : Mat 4 4 α) (tol : α) :
    m.inverse4 inv tol =
      let X := m.cof4
      let d := m.get 0 0 * X.get 0 0 + m.get 0 1 * X.get 1 0 + m.get 0 2 * X.get 2 0 + m.get 0 3 * X.get 3 0;
      .ok (if CMath.fabs d ≤ tol then (false, X) else (true, ofFn fun r c => X.get r c * (1 / d))) := by
  unfold inverse4
  have hd : m.array[0] * m.cof4.array[0] + m.array[4] * m.cof4.array[1] + m.array[8] * m.cof4.array[2] +
    m.array[12] * m.cof4.array[3] = m.get 0 0 * m.cof4.get 0 0 + m.get 0 1 * m.cof4.get 1 0 + m.get 0 2 * m.cof4.get 2 0
      + m.get 0 3 * m.cof4.get 3 0 := rfl
  simp only
  rw [show comatrix4 m.array inv.array = m.cof4.array from congrArg Mat.array (comatrix4_struct m inv), hd]
  generalize m.get 0 0 * m.cof4.get 0 0 + m.get 0 1 * m.cof4.get 1 0 + m.get 0 2 * m.cof4.get 2 0
      + m.get 0 3 * m.cof4.get 3 0 = d
  split_ifs with ht
  · rfl
  · have hl : loop 16 (fun i inv => do inv.rawSet i ((← inv.rawGet i) * (1 / d))) m.cof4 = .ok (ofFn fun r c => m.cof4.get r c * (1 / d)) :=
      flat_cell (M := 4) (N := 4) (fun _ x => x * (1 / d)) (by intro i hi m; simp [Mat.rawGet_lt, Mat.rawSet_lt, hi])
    exact congrArg (· >>= fun y => pure (true, y)) hl

/-- The cofactor table of `compute_inverse` 2x2. -/
def Mat.cof2 [Neg α] (m : Mat 2 2 α) : Mat 2 2 α := Mat.ofFn fun r c =>
  (!![m.get 1 1, -m.get 0 1; -m.get 1 0, m.get 0 0] : Matrix (Fin 2) (Fin 2) α) r c

theorem Mat.getAdjugate2_struct [Zero α] [One α] [Add α] [Sub α] [Mul α] [Neg α] (cfg : Cfg) (m adj : Mat 2 2 α) :
    m.getAdjugate (K := 1) cfg adj = .ok m.cof2 := by
  have hmin : ∀ (mn : Mat 1 1 α) (r c : Fin 2), m.getMinor (K := 1) cfg mn r c = .ok (ofFn fun i j => m.get (r.succAbove i) (c.succAbove j),
      m.get (r.succAbove 0) (c.succAbove 0)) := by
    intro mn r c
    unfold getMinor
    rw [minorLoop_eq (K := 1) cfg m mn r c (by omega), bind_ok]
    have : (ofFn fun i j => m.get (r.succAbove i) (c.succAbove j) : Mat 1 1 α).det cfg = .ok (m.get (r.succAbove 0) (c.succAbove 0)) := by
      rw [det, det1, rawGet_lt _ (by omega)]
      exact congrArg Except.ok (get_ofFn (fun i j => m.get (r.succAbove i) (c.succAbove j)) (0 : Fin 1) (0 : Fin 1))
    rw [this]
    rfl
  have hc : m.getCofactors (K := 1) cfg adj = .ok (Mat.ofFn fun r c => (!![m.get 1 1, -m.get 1 0; -m.get 0 1, m.get 0 0] : Matrix (Fin 2) (Fin 2) α) r c) := by
    unfold getCofactors
    rw [ctor_eq, bind_ok]
    have h00 := fun mn => hmin mn 0 0
    have h01 := fun mn => hmin mn 0 1
    have h10 := fun mn => hmin mn 1 0
    have h11 := fun mn => hmin mn 1 1
    simp only [Fin.val_zero, Fin.val_one] at h00 h01 h10 h11
    have z : (0 : Fin 2).succAbove (0 : Fin 1) = 1 := rfl
    have o : (1 : Fin 2).succAbove (0 : Fin 1) = 0 := rfl
    simp only [loop_succ, loop_zero, bind_ok, h00, h01, h10, h11, atSet_lt cfg _ _ (show 0 < 2 by omega) (show 0 < 2 by omega),
      atSet_lt cfg _ _ (show 0 < 2 by omega) (show 1 < 2 by omega), atSet_lt cfg _ _ (show 1 < 2 by omega) (show 0 < 2 by omega),
      atSet_lt cfg _ _ (show 1 < 2 by omega) (show 1 < 2 by omega), pure_ok, z, o, Nat.zero_add, Nat.add_zero]
    congr 1
    ext r c
    rw [get_ofFn]
    fin_cases r <;> fin_cases c <;> simp [get_put]
  unfold getAdjugate
  rw [hc, bind_ok, transpose_eq, bind_ok, assign_eq]
  exact congrArg Except.ok (by ext r c; simp only [get_ofFn, cof2]; fin_cases r <;> fin_cases c <;> rfl)

theorem Mat.inverse2_struct [Zero α] [One α] [Add α] [Sub α] [Mul α] [Neg α] [Div α] [LT α] [DecidableLT α] [CMath α] (cfg : Cfg) (m inv : Mat 2 2 α)
    (tol : α) : m.inverse2 cfg inv tol =
      let d := m.get 0 0 * m.get 1 1 - m.get 0 1 * m.get 1 0;
      .ok (if CMath.fabs d < tol then (false, inv) else (true, ofFn fun r c => m.cof2.get r c * (1 / d))) := by
  unfold inverse2
  have hd : m.det2 cfg = .ok (m.get 0 0 * m.get 1 1 - m.get 0 1 * m.get 1 0) := by simp [det2]
  rw [hd, bind_ok]
  simp only
  split_ifs with h
  · rfl
  · rw [getAdjugate2_struct]
    simp only [bind_ok, mulAssignS_eq, pure_ok]

/-! ### Error bounds -/

/-- The magnitude of an entry of the adjugate: the minor with all products positive. -/
def Spec.magAdj {K : Nat} (A : Matrix (Fin (K + 1)) (Fin (K + 1)) ℝ) (i j : Fin (K + 1)) : ℝ := Spec.mags K (A.submatrix j.succAbove i.succAbove)

theorem Approx.conv {n : Nat} {a A m A' m' : ℝ} (h : Approx u n a A m) (hA : A = A') (hm : m = m') : Approx u n a A' m' := hA ▸ hm ▸ h

private theorem s3 : (0 : Fin 3).succAbove 0 = 1 ∧ (0 : Fin 3).succAbove 1 = 2 ∧ (1 : Fin 3).succAbove 0 = 0 ∧ (1 : Fin 3).succAbove 1 = 2 ∧
    (2 : Fin 3).succAbove 0 = 0 ∧ (2 : Fin 3).succAbove 1 = 1 := ⟨rfl, rfl, rfl, rfl, rfl, rfl⟩
private theorem s4 : (0 : Fin 4).succAbove 0 = 1 ∧ (0 : Fin 4).succAbove 1 = 2 ∧ (0 : Fin 4).succAbove 2 = 3 ∧ (1 : Fin 4).succAbove 0 = 0 ∧
    (1 : Fin 4).succAbove 1 = 2 ∧ (1 : Fin 4).succAbove 2 = 3 ∧ (2 : Fin 4).succAbove 0 = 0 ∧ (2 : Fin 4).succAbove 1 = 1 ∧
    (2 : Fin 4).succAbove 2 = 3 ∧ (3 : Fin 4).succAbove 0 = 0 ∧ (3 : Fin 4).succAbove 1 = 1 ∧ (3 : Fin 4).succAbove 2 = 2 :=
  ⟨rfl, rfl, rfl, rfl, rfl, rfl, rfl, rfl, rfl, rfl, rfl, rfl⟩

theorem cof2_err (m : Mat 2 2 (Fl ρ)) (r c : Fin 2) : Approx u 0 (m.cof2.get r c).val ((Spec.vals m).adjugate r c) (Spec.magAdj (Spec.vals m) r c) := by
  have E (i j : Fin 2) := Approx.exact (u := u) (m.get i j).val
  have z : (0 : Fin 2).succAbove (0 : Fin 1) = 1 := rfl
  have o : (1 : Fin 2).succAbove (0 : Fin 1) = 0 := rfl
  rw [cof2, get_ofFn, Matrix.adjugate_fin_two]
  have hm : ∀ i j : Fin 2, Spec.magAdj (Spec.vals m) i j = |(m.get (j.succAbove 0) (i.succAbove 0)).val| := by
    intro i j
    simp [Spec.magAdj, Spec.mags, Spec.vals]
  rw [hm]
  fin_cases r <;> fin_cases c
  · exact E 1 1
  · exact (E 0 1).neg
  · exact (E 1 0).neg
  · exact E 0 0

theorem cof3_err (m : Mat 3 3 (Fl ρ)) (r c : Fin 3) : Approx u 2 (m.cof3.get r c).val ((Spec.vals m).adjugate r c) (Spec.magAdj (Spec.vals m) r c) := by
  have E (i j : Fin 3) := Approx.exact (u := u) (m.get i j).val
  have T (a b c d e f g h : Fin 3) := ((E a b).mul ρ (E c d)).sub ρ ((E e f).mul ρ (E g h))
  obtain ⟨e1, e2, e3, e4, e5, e6⟩ := s3
  rw [cof3, get_ofFn, adj3]
  fin_cases r <;> fin_cases c
  · exact Approx.conv (T 1 1 2 2 1 2 2 1) rfl (by simp [Spec.magAdj, mags2, Spec.vals, e1, e2, e3, e4, e5, e6]; try first | ring1 | (left; ring1))
  · exact Approx.conv (T 0 2 2 1 0 1 2 2) rfl (by simp [Spec.magAdj, mags2, Spec.vals, e1, e2, e3, e4, e5, e6]; try first | ring1 | (left; ring1))
  · exact Approx.conv (T 0 1 1 2 0 2 1 1) rfl (by simp [Spec.magAdj, mags2, Spec.vals, e1, e2, e3, e4, e5, e6]; try first | ring1 | (left; ring1))
  · exact Approx.conv (T 1 2 2 0 1 0 2 2) rfl (by simp [Spec.magAdj, mags2, Spec.vals, e1, e2, e3, e4, e5, e6]; try first | ring1 | (left; ring1))
  · exact Approx.conv (T 0 0 2 2 0 2 2 0) rfl (by simp [Spec.magAdj, mags2, Spec.vals, e1, e2, e3, e4, e5, e6]; try first | ring1 | (left; ring1))
  · exact Approx.conv (T 0 2 1 0 0 0 1 2) rfl (by simp [Spec.magAdj, mags2, Spec.vals, e1, e2, e3, e4, e5, e6]; try first | ring1 | (left; ring1))
  · exact Approx.conv (T 1 0 2 1 1 1 2 0) rfl (by simp [Spec.magAdj, mags2, Spec.vals, e1, e2, e3, e4, e5, e6]; try first | ring1 | (left; ring1))
  · exact Approx.conv (T 0 1 2 0 0 0 2 1) rfl (by simp [Spec.magAdj, mags2, Spec.vals, e1, e2, e3, e4, e5, e6]; try first | ring1 | (left; ring1))
  · exact Approx.conv (T 0 0 1 1 0 1 1 0) rfl (by simp [Spec.magAdj, mags2, Spec.vals, e1, e2, e3, e4, e5, e6]; try first | ring1 | (left; ring1))

theorem cof4_err (m : Mat 4 4 (Fl ρ)) (r c : Fin 4) :
    Approx u 5 (m.cof4.get r c).val ((Spec.vals m).adjugate r c) (Spec.magAdj (Spec.vals m) r c) := by
  have E (i j : Fin 4) := Approx.exact (u := u) (m.get i j).val
  have T (x y a b c d e f g h : Fin 4) := (E x y).mul ρ (((E a b).mul ρ (E c d)).sub ρ ((E e f).mul ρ (E g h)))
  have H1 (x y a b c d e f g h x' y' a' b' c' d' e' f' g' h' x'' y'' a'' b'' c'' d'' e'' f'' g'' h'' : Fin 4) :=
    ((T x y a b c d e f g h).sub ρ (T x' y' a' b' c' d' e' f' g' h')).add ρ (T x'' y'' a'' b'' c'' d'' e'' f'' g'' h'')
  have H2 (x y a b c d e f g h x' y' a' b' c' d' e' f' g' h' x'' y'' a'' b'' c'' d'' e'' f'' g'' h'' : Fin 4) :=
    ((T x y a b c d e f g h).sub ρ (T x' y' a' b' c' d' e' f' g' h')).sub ρ (T x'' y'' a'' b'' c'' d'' e'' f'' g'' h'')
  obtain ⟨e1, e2, e3, e4, e5, e6, e7, e8, e9, e10, e11, e12⟩ := s4
  rw [cof4, get_ofFn, adj4_entry, Matrix.det_fin_three]
  unfold Spec.magAdj
  rw [mags3]
  fin_cases r <;> fin_cases c
  · exact Approx.conv (H1 1 1 2 2 3 3 2 3 3 2 1 2 2 1 3 3 2 3 3 1 1 3 2 1 3 2 2 2 3 1) (by simp [Spec.vals, e1, e2, e3, e4, e5, e6, e7, e8, e9, e10, e11, e12]; try first | ring1 | (left; ring1))
      (by simp [Spec.vals, e1, e2, e3, e4, e5, e6, e7, e8, e9, e10, e11, e12]; try first | ring1 | (left; ring1))
  · exact Approx.conv (H2 0 2 2 1 3 3 2 3 3 1 0 1 2 2 3 3 2 3 3 2 0 3 2 1 3 2 2 2 3 1) (by simp [Spec.vals, e1, e2, e3, e4, e5, e6, e7, e8, e9, e10, e11, e12]; try first | ring1 | (left; ring1))
      (by simp [Spec.vals, e1, e2, e3, e4, e5, e6, e7, e8, e9, e10, e11, e12]; try first | ring1 | (left; ring1))
  · exact Approx.conv (H1 3 1 0 2 1 3 0 3 1 2 3 2 0 1 1 3 0 3 1 1 3 3 0 1 1 2 0 2 1 1) (by simp [Spec.vals, e1, e2, e3, e4, e5, e6, e7, e8, e9, e10, e11, e12]; try first | ring1 | (left; ring1))
      (by simp [Spec.vals, e1, e2, e3, e4, e5, e6, e7, e8, e9, e10, e11, e12]; try first | ring1 | (left; ring1))
  · exact Approx.conv (H2 2 2 0 1 1 3 0 3 1 1 2 1 0 2 1 3 0 3 1 2 2 3 0 1 1 2 0 2 1 1) (by simp [Spec.vals, e1, e2, e3, e4, e5, e6, e7, e8, e9, e10, e11, e12]; try first | ring1 | (left; ring1))
      (by simp [Spec.vals, e1, e2, e3, e4, e5, e6, e7, e8, e9, e10, e11, e12]; try first | ring1 | (left; ring1))
  · exact Approx.conv (H2 1 2 2 0 3 3 2 3 3 0 1 3 2 0 3 2 2 2 3 0 1 0 2 2 3 3 2 3 3 2) (by simp [Spec.vals, e1, e2, e3, e4, e5, e6, e7, e8, e9, e10, e11, e12]; try first | ring1 | (left; ring1))
      (by simp [Spec.vals, e1, e2, e3, e4, e5, e6, e7, e8, e9, e10, e11, e12]; try first | ring1 | (left; ring1))
  · exact Approx.conv (H1 0 0 2 2 3 3 2 3 3 2 0 2 2 0 3 3 2 3 3 0 0 3 2 0 3 2 2 2 3 0) (by simp [Spec.vals, e1, e2, e3, e4, e5, e6, e7, e8, e9, e10, e11, e12]; try first | ring1 | (left; ring1))
      (by simp [Spec.vals, e1, e2, e3, e4, e5, e6, e7, e8, e9, e10, e11, e12]; try first | ring1 | (left; ring1))
  · exact Approx.conv (H2 3 2 0 0 1 3 0 3 1 0 3 3 0 0 1 2 0 2 1 0 3 0 0 2 1 3 0 3 1 2) (by simp [Spec.vals, e1, e2, e3, e4, e5, e6, e7, e8, e9, e10, e11, e12]; try first | ring1 | (left; ring1))
      (by simp [Spec.vals, e1, e2, e3, e4, e5, e6, e7, e8, e9, e10, e11, e12]; try first | ring1 | (left; ring1))
  · exact Approx.conv (H1 2 0 0 2 1 3 0 3 1 2 2 2 0 0 1 3 0 3 1 0 2 3 0 0 1 2 0 2 1 0) (by simp [Spec.vals, e1, e2, e3, e4, e5, e6, e7, e8, e9, e10, e11, e12]; try first | ring1 | (left; ring1))
      (by simp [Spec.vals, e1, e2, e3, e4, e5, e6, e7, e8, e9, e10, e11, e12]; try first | ring1 | (left; ring1))
  · exact Approx.conv (H1 1 3 2 0 3 1 2 1 3 0 1 1 2 0 3 3 2 3 3 0 1 0 2 1 3 3 2 3 3 1) (by simp [Spec.vals, e1, e2, e3, e4, e5, e6, e7, e8, e9, e10, e11, e12]; try first | ring1 | (left; ring1))
      (by simp [Spec.vals, e1, e2, e3, e4, e5, e6, e7, e8, e9, e10, e11, e12]; try first | ring1 | (left; ring1))
  · exact Approx.conv (H2 0 1 2 0 3 3 2 3 3 0 0 3 2 0 3 1 2 1 3 0 0 0 2 1 3 3 2 3 3 1) (by simp [Spec.vals, e1, e2, e3, e4, e5, e6, e7, e8, e9, e10, e11, e12]; try first | ring1 | (left; ring1))
      (by simp [Spec.vals, e1, e2, e3, e4, e5, e6, e7, e8, e9, e10, e11, e12]; try first | ring1 | (left; ring1))
  · exact Approx.conv (H1 3 3 0 0 1 1 0 1 1 0 3 1 0 0 1 3 0 3 1 0 3 0 0 1 1 3 0 3 1 1) (by simp [Spec.vals, e1, e2, e3, e4, e5, e6, e7, e8, e9, e10, e11, e12]; try first | ring1 | (left; ring1))
      (by simp [Spec.vals, e1, e2, e3, e4, e5, e6, e7, e8, e9, e10, e11, e12]; try first | ring1 | (left; ring1))
  · exact Approx.conv (H2 2 1 0 0 1 3 0 3 1 0 2 3 0 0 1 1 0 1 1 0 2 0 0 1 1 3 0 3 1 1) (by simp [Spec.vals, e1, e2, e3, e4, e5, e6, e7, e8, e9, e10, e11, e12]; try first | ring1 | (left; ring1))
      (by simp [Spec.vals, e1, e2, e3, e4, e5, e6, e7, e8, e9, e10, e11, e12]; try first | ring1 | (left; ring1))
  · exact Approx.conv (H2 1 1 2 0 3 2 2 2 3 0 1 0 2 1 3 2 2 2 3 1 1 2 2 0 3 1 2 1 3 0) (by simp [Spec.vals, e1, e2, e3, e4, e5, e6, e7, e8, e9, e10, e11, e12]; try first | ring1 | (left; ring1))
      (by simp [Spec.vals, e1, e2, e3, e4, e5, e6, e7, e8, e9, e10, e11, e12]; try first | ring1 | (left; ring1))
  · exact Approx.conv (H1 0 0 2 1 3 2 2 2 3 1 0 1 2 0 3 2 2 2 3 0 0 2 2 0 3 1 2 1 3 0) (by simp [Spec.vals, e1, e2, e3, e4, e5, e6, e7, e8, e9, e10, e11, e12]; try first | ring1 | (left; ring1))
      (by simp [Spec.vals, e1, e2, e3, e4, e5, e6, e7, e8, e9, e10, e11, e12]; try first | ring1 | (left; ring1))
  · exact Approx.conv (H2 3 1 0 0 1 2 0 2 1 0 3 0 0 1 1 2 0 2 1 1 3 2 0 0 1 1 0 1 1 0) (by simp [Spec.vals, e1, e2, e3, e4, e5, e6, e7, e8, e9, e10, e11, e12]; try first | ring1 | (left; ring1))
      (by simp [Spec.vals, e1, e2, e3, e4, e5, e6, e7, e8, e9, e10, e11, e12]; try first | ring1 | (left; ring1))
  · exact Approx.conv (H1 2 0 0 1 1 2 0 2 1 1 2 1 0 0 1 2 0 2 1 0 2 2 0 0 1 1 0 1 1 0) (by simp [Spec.vals, e1, e2, e3, e4, e5, e6, e7, e8, e9, e10, e11, e12]; try first | ring1 | (left; ring1))
      (by simp [Spec.vals, e1, e2, e3, e4, e5, e6, e7, e8, e9, e10, e11, e12]; try first | ring1 | (left; ring1))

/-- Number of roundings on the longest path to an entry of the adjugate, by size. -/
def Spec.adjDepth : Nat → Nat
  | 2 => 0
  | 3 => 2
  | _ => 5

/-- Number of roundings on the longest path to the determinant computed by `inverse`, by size. -/
def Spec.invDepth : Nat → Nat
  | 2 => 2
  | 3 => 5
  | _ => 9

/-- The bound of the rounding error of the determinant computed by `inverse`. -/
noncomputable def Spec.detErr (u : ℝ) {K : Nat} (A : Matrix (Fin (K + 1)) (Fin (K + 1)) ℝ) : ℝ := ((1 + u) ^ Spec.invDepth (K + 1) - 1) * Spec.mags (K + 1) A

/-- The magnitude of an entry of the inverse before the division by the determinant, times the relative rounding error. -/
noncomputable def Spec.adjErr (u : ℝ) {K : Nat} (A : Matrix (Fin (K + 1)) (Fin (K + 1)) ℝ) (i j : Fin (K + 1)) : ℝ :=
  ((1 + u) ^ (Spec.adjDepth (K + 1) + 2) - 1) * Spec.magAdj A i j

theorem mags_row {K : Nat} (A : Matrix (Fin (K + 1)) (Fin (K + 1)) ℝ) : Spec.mags (K + 1) A = ∑ j, |A 0 j| * Spec.magAdj A j 0 := by
  rw [Spec.mags]
  refine Finset.sum_congr rfl fun j _ => ?_
  rw [Spec.magAdj, Fin.succAbove_zero]

theorem detErr_nonneg (ρ : Rounding u) {K : Nat} (A : Matrix (Fin (K + 1)) (Fin (K + 1)) ℝ) : 0 ≤ Spec.detErr u A :=
  mul_nonneg (sub_nonneg.2 (one_le_pow₀ (by linarith [ρ.nonneg]))) (mags_nonneg _ _)

theorem adjErr_nonneg (ρ : Rounding u) {K : Nat} (A : Matrix (Fin (K + 1)) (Fin (K + 1)) ℝ) (i j : Fin (K + 1)) : 0 ≤ Spec.adjErr u A i j :=
  mul_nonneg (sub_nonneg.2 (one_le_pow₀ (by linarith [ρ.nonneg]))) (mags_nonneg _ _)

/-- The computation of `inverse` on rounded numbers, all sizes. -/
private theorem inverse_run (cfg : Cfg) {K : Nat} (hK : 1 ≤ K) (hK' : K ≤ 3) (m inv : Mat (K + 1) (K + 1) (Fl ρ)) (tol : Fl ρ) :
    ∃ (d : Fl ρ) (X Y : Mat (K + 1) (K + 1) (Fl ρ)) (b : Bool),
      m.inverse cfg inv tol = .ok (b, if b then Mat.ofFn fun r c => X.get r c * (1 / d) else Y) ∧
      (b = true ↔ if K + 1 = 2 then tol.val ≤ |d.val| else tol.val < |d.val|) ∧
      Approx u (Spec.invDepth (K + 1)) d.val (Spec.vals m).det (Spec.mags (K + 1) (Spec.vals m)) ∧
      ∀ r c, Approx u (Spec.adjDepth (K + 1)) (X.get r c).val ((Spec.vals m).adjugate r c) (Spec.magAdj (Spec.vals m) r c) := by
  have E (i j : Fin (K + 1)) := Approx.exact (u := u) (m.get i j).val
  have hd := Matrix.det_eq_sum_mul_adjugate_row (Spec.vals m) 0
  have hm := mags_row (Spec.vals m)
  match K, hK, hK', m, inv, E, hd, hm with
  | 1, _, _, m, inv, E, hd, hm =>
    refine ⟨m.get 0 0 * m.get 1 1 - m.get 0 1 * m.get 1 0, m.cof2, inv,
      !(@decide (CMath.fabs (m.get 0 0 * m.get 1 1 - m.get 0 1 * m.get 1 0) < tol) (inferInstance)), ?_, ?_, ?_, cof2_err m⟩
    · rw [inverse, inverse2_struct]
      by_cases h : CMath.fabs (m.get 0 0 * m.get 1 1 - m.get 0 1 * m.get 1 0) < tol
      · simp [h]
      · simp [h]
    · simp only [Bool.not_eq_true', decide_eq_false_iff_not, Fl.lt_iff, Fl.val_fabs, not_lt, Nat.reduceAdd, if_true]
    · exact Approx.conv (((E 0 0).mul ρ (E 1 1)).sub ρ ((E 0 1).mul ρ (E 1 0))) (Matrix.det_fin_two _).symm (mags2 _).symm
  | 2, _, _, m, inv, E, hd, hm =>
    refine ⟨m.get 0 0 * m.cof3.get 0 0 + m.get 0 1 * m.cof3.get 1 0 + m.get 0 2 * m.cof3.get 2 0, m.cof3, m.cof3,
      !(@decide (CMath.fabs (m.get 0 0 * m.cof3.get 0 0 + m.get 0 1 * m.cof3.get 1 0 + m.get 0 2 * m.cof3.get 2 0) ≤ tol) (inferInstance)), ?_, ?_, ?_, cof3_err m⟩
    · rw [inverse, inverse3_struct]
      by_cases h : CMath.fabs (m.get 0 0 * m.cof3.get 0 0 + m.get 0 1 * m.cof3.get 1 0 + m.get 0 2 * m.cof3.get 2 0) ≤ tol
      · simp [h]
      · simp [h]
    · simp only [Bool.not_eq_true', decide_eq_false_iff_not, Fl.le_iff, Fl.val_fabs, not_le, Nat.reduceAdd, Nat.reduceEqDiff, if_false]
    · have C := cof3_err m
      refine Approx.conv ((((E 0 0).mul ρ (C 0 0)).add ρ ((E 0 1).mul ρ (C 1 0))).add ρ ((E 0 2).mul ρ (C 2 0))) ?_ ?_
      · rw [hd, Fin.sum_univ_three]; rfl
      · rw [hm, Fin.sum_univ_three]; rfl
  | 3, _, _, m, inv, E, hd, hm =>
    refine ⟨m.get 0 0 * m.cof4.get 0 0 + m.get 0 1 * m.cof4.get 1 0 + m.get 0 2 * m.cof4.get 2 0 + m.get 0 3 * m.cof4.get 3 0, m.cof4, m.cof4,
      !(@decide (CMath.fabs (m.get 0 0 * m.cof4.get 0 0 + m.get 0 1 * m.cof4.get 1 0 + m.get 0 2 * m.cof4.get 2 0 + m.get 0 3 * m.cof4.get 3 0) ≤ tol)
        (inferInstance)), ?_, ?_, ?_, cof4_err m⟩
    · rw [inverse, inverse4_struct]
      by_cases h : CMath.fabs (m.get 0 0 * m.cof4.get 0 0 + m.get 0 1 * m.cof4.get 1 0 + m.get 0 2 * m.cof4.get 2 0 + m.get 0 3 * m.cof4.get 3 0) ≤ tol
      · simp [h]
      · simp [h]
    · simp only [Bool.not_eq_true', decide_eq_false_iff_not, Fl.le_iff, Fl.val_fabs, not_le, Nat.reduceAdd, Nat.reduceEqDiff, if_false]
    · have C := cof4_err m
      refine Approx.conv (((((E 0 0).mul ρ (C 0 0)).add ρ ((E 0 1).mul ρ (C 1 0))).add ρ ((E 0 2).mul ρ (C 2 0))).add ρ ((E 0 3).mul ρ (C 3 0))) ?_ ?_
      · rw [hd, Fin.sum_univ_four]; rfl
      · rw [hm, Fin.sum_univ_four]; rfl

/-- C101. `inverse( inverse_, tolerance )`: the computed determinant `d` is within `detErr` of the determinant of the stored values and alone decides the
returned flag, and the entries returned with `true` are those of the adjugate divided by `d`, up to `adjErr / |d|`. -/
theorem C101_inverse (cfg : Cfg) {K : Nat} (hK : 1 ≤ K) (hK' : K ≤ 3) (m inv : Mat (K + 1) (K + 1) (Fl ρ)) (tol : Fl ρ) :
    ∃ (d : ℝ) (b : Bool) (r : Mat (K + 1) (K + 1) (Fl ρ)), m.inverse cfg inv tol = .ok (b, r) ∧
      (b = true ↔ if K + 1 = 2 then tol.val ≤ |d| else tol.val < |d|) ∧
      |d - (Spec.vals m).det| ≤ Spec.detErr u (Spec.vals m) ∧
      (b = true → ∀ i j, |(r.get i j).val - (Spec.vals m).adjugate i j / d| ≤ Spec.adjErr u (Spec.vals m) i j / |d|) := by
  obtain ⟨d, X, Y, b, h1, h2, h3, h4⟩ := inverse_run cfg hK hK' m inv tol
  refine ⟨d.val, b, _, h1, h2, h3.err, fun hb i j => ?_⟩
  rw [if_pos hb, get_ofFn]
  have hinv : Approx u 1 ((1 / d : Fl ρ)).val (1 / d.val) |1 / d.val| := by
    refine ⟨?_, le_rfl⟩
    have := ρ.err (1 / d.val)
    rw [pow_one, add_sub_cancel_left]
    exact this
  have := ((h4 i j).mul ρ hinv).err
  rw [mul_one_div, abs_div, abs_one, mul_one_div] at this
  rw [Spec.adjErr, mul_div_assoc]
  exact this

/-- C101. The flag is reliable for determinants further from the tolerance than the rounding error. -/
theorem C101_flag (cfg : Cfg) {K : Nat} (hK : 1 ≤ K) (hK' : K ≤ 3) (m inv : Mat (K + 1) (K + 1) (Fl ρ)) (tol : Fl ρ) :
    (tol.val + Spec.detErr u (Spec.vals m) < |(Spec.vals m).det| → ∃ r, m.inverse cfg inv tol = .ok (true, r)) ∧
      (|(Spec.vals m).det| + Spec.detErr u (Spec.vals m) < tol.val → ∃ r, m.inverse cfg inv tol = .ok (false, r)) := by
  obtain ⟨d, b, r, h1, h2, h3, -⟩ := C101_inverse cfg hK hK' m inv tol
  have a1 := abs_sub_abs_le_abs_sub d (Spec.vals m).det
  have a2 := abs_sub_abs_le_abs_sub (Spec.vals m).det d
  rw [abs_sub_comm] at a2
  refine ⟨fun h => ⟨r, ?_⟩, fun h => ⟨r, ?_⟩⟩
  · have : b = true := h2.2 (by split_ifs <;> linarith)
    rw [h1, this]
  · have : b ≠ true := fun hb => by have := h2.1 hb; split_ifs at this <;> linarith
    rw [h1, Bool.eq_false_iff.2 this]

/-- C101. A returned inverse of a matrix is close to its inverse, whenever the tolerance exceeds the rounding error of the determinant: the matrix
is invertible and every entry is off by at most `( adjErr + detErr |A⁻¹| ) / tol`. -/
theorem C101_error (cfg : Cfg) {K : Nat} (hK : 1 ≤ K) (hK' : K ≤ 3) (m inv r : Mat (K + 1) (K + 1) (Fl ρ)) (tol : Fl ρ)
    (htol : Spec.detErr u (Spec.vals m) < tol.val) (hr : m.inverse cfg inv tol = .ok (true, r)) :
    (Spec.vals m).det ≠ 0 ∧ ∀ i j, |(r.get i j).val - (Spec.vals m)⁻¹ i j| ≤
      (Spec.adjErr u (Spec.vals m) i j + Spec.detErr u (Spec.vals m) * |(Spec.vals m)⁻¹ i j|) / tol.val := by
  obtain ⟨d, b, r', h1, h2, h3, h4⟩ := C101_inverse cfg hK hK' m inv tol
  rw [hr] at h1
  obtain ⟨rfl, rfl⟩ := Prod.mk.inj (Except.ok.inj h1)
  have hE := detErr_nonneg ρ (Spec.vals m)
  have htd : tol.val ≤ |d| := by have := h2.1 rfl; split_ifs at this <;> linarith
  have ht0 : 0 < tol.val := by linarith
  have hd0 : d ≠ 0 := abs_pos.1 (by linarith)
  have a1 := abs_sub_abs_le_abs_sub d (Spec.vals m).det
  have hdet : (Spec.vals m).det ≠ 0 := abs_pos.1 (by linarith)
  refine ⟨hdet, fun i j => ?_⟩
  have h5 := h4 rfl i j
  set A := Spec.vals m with hA
  have hi : A⁻¹ i j = A.adjugate i j / A.det := by
    rw [Matrix.inv_def, Ring.inverse_eq_inv', Matrix.smul_apply, smul_eq_mul, div_eq_inv_mul]
  have h6 : A.adjugate i j / d - A⁻¹ i j = -((d - A.det) * A⁻¹ i j / d) := by
    rw [hi]; field_simp; ring
  have h7 : |A.adjugate i j / d - A⁻¹ i j| ≤ Spec.detErr u A * |A⁻¹ i j| / |d| := by
    rw [h6, abs_neg, abs_div, abs_mul]
    gcongr
  calc |(r.get i j).val - A⁻¹ i j| ≤ |(r.get i j).val - A.adjugate i j / d| + |A.adjugate i j / d - A⁻¹ i j| := abs_sub_le _ _ _
    _ ≤ Spec.adjErr u A i j / |d| + Spec.detErr u A * |A⁻¹ i j| / |d| := add_le_add h5 h7
    _ = (Spec.adjErr u A i j + Spec.detErr u A * |A⁻¹ i j|) / |d| := by ring
    _ ≤ _ := by
      have := adjErr_nonneg ρ A i j
      gcongr

/-- C101. The residual: the product of the returned and the given matrix differs from the identity by at most the errors of the entries times the entries. -/
theorem C101_residual (cfg : Cfg) {K : Nat} (hK : 1 ≤ K) (hK' : K ≤ 3) (m inv r : Mat (K + 1) (K + 1) (Fl ρ)) (tol : Fl ρ)
    (htol : Spec.detErr u (Spec.vals m) < tol.val) (hr : m.inverse cfg inv tol = .ok (true, r)) (i j : Fin (K + 1)) :
    |(Spec.vals r * Spec.vals m) i j - (1 : Matrix _ _ ℝ) i j| ≤
      ∑ k, (Spec.adjErr u (Spec.vals m) i k + Spec.detErr u (Spec.vals m) * |(Spec.vals m)⁻¹ i k|) / tol.val * |Spec.vals m k j| := by
  obtain ⟨hdet, h⟩ := C101_error cfg hK hK' m inv r tol htol hr
  rw [← Matrix.nonsing_inv_mul (Spec.vals m) (isUnit_iff_ne_zero.2 hdet), ← Matrix.sub_apply, ← Matrix.sub_mul, Matrix.mul_apply]
  refine (Finset.abs_sum_le_sum_abs _ _).trans (Finset.sum_le_sum fun k _ => ?_)
  rw [abs_mul]
  exact mul_le_mul_of_nonneg_right (h i k) (abs_nonneg _)

/-- Non-vacuity: in double precision, the diagonal matrix `( 2, 2, 2, 2 )` with the tolerance 1 is inverted with the flag `true`, and `C101_error` applies. -/
example (cfg : Cfg) (inv : Mat 4 4 (Fl (binRounding 52))) :
    let m : Mat 4 4 (Fl (binRounding 52)) := Mat.ofFn fun i j => if i = j then Fl.of 2 else Fl.of 0
    let tol : Fl (binRounding 52) := 1
    (∃ r, m.inverse cfg inv tol = .ok (true, r)) ∧ Spec.detErr ((2 : ℝ)⁻¹ ^ 53) (Spec.vals m) < tol.val := by
  intro m tol
  have hv : Spec.vals m = Matrix.diagonal fun _ => (2 : ℝ) := by
    funext i j
    simp only [Spec.vals, m, get_ofFn, Matrix.diagonal_apply]
    split_ifs <;> rfl
  have hd : (Spec.vals m).det = 16 := by rw [hv, Matrix.det_diagonal]; norm_num
  have hE : Spec.detErr ((2 : ℝ)⁻¹ ^ 53) (Spec.vals m) < 1 := by
    rw [Spec.detErr, mags4, hv]
    simp [Matrix.diagonal_apply, Spec.invDepth]
    norm_num
  exact ⟨(C101_flag cfg (by omega) (by omega) m inv tol).1 (by rw [hd, show tol.val = 1 from rfl]; norm_num; linarith), hE⟩

end Vmml
