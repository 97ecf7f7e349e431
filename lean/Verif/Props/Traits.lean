import Verif.Model.Traits
import Verif.Proofs.MatrixLemmas
import Verif.Proofs.VectorLemmas

/-!
# C80: the Boost.LA element traits
-/

namespace Vmml
open Traits
variable {M N : Nat} {α : Type}

/-- **C80** (vector part) Every getter and setter of the vector traits addresses the element `at( i )` addresses. -/
theorem C80_vector (cfg : Cfg) (v : Vec M α) (i : Fin M) (x : α) :
    vr i v = v.atGet cfg i ∧ vw i v x = v.atSet cfg i x ∧ vir cfg (i : Nat) v = v.atGet cfg i ∧ viw cfg (i : Nat) v x = v.atSet cfg i x := by
  have h : ¬ ((i.1 : Int) < 0) := by omega
  simp [vr, vw, vir, viw, cassert, h]

/-- **C80** (vector part) An index outside the vector aborts (with assertions enabled), and is otherwise undefined. -/
theorem C80_vector_range (cfg : Cfg) (v : Vec M α) (i : Int) (x : α) (h : i < 0 ∨ M ≤ i) :
    vir cfg i v = .error (if cfg.ndebug then .ub else .aborted) ∧ viw cfg i v x = .error (if cfg.ndebug then .ub else .aborted) := by
  obtain ⟨a, b, c⟩ := cfg
  rcases h with h | h
  · have h' : ¬ 0 ≤ i := by omega
    cases c <;> simp [vir, viw, cassert, h, h']
  · have h1 : 0 ≤ i := by omega
    have h2 : ¬ i < 0 := by omega
    have h3 : ¬ i < M := by omega
    have h4 : M ≤ i.toNat := by omega
    cases c <;> simp [vir, viw, cassert, h1, h2, h3, Vec.rawGet_ge _ h4, Vec.rawSet_ge _ _ h4]

private theorem toSize_nat (i : Nat) (h : i < 2 ^ 64) : toSize (i : Int) = i := by
  unfold toSize
  rw [Int.emod_eq_of_lt (by omega) (by exact_mod_cast h)]
  simp

/-- **C80** (full claim: `r`, `w`, `ir`, `iw` address the element `at( row, col )` addresses. Missing: off-diagonal elements, which are
transposed, and matrices that are not square; see the `violated` theorems.) For square matrices element `( i, j )` of the traits is element
`( j, i )` of the matrix, so the traits are right exactly on the diagonal. -/
theorem C80_matrix_partial (cfg : Cfg) (m : Mat M M α) (hM : M ≤ 2 ^ 64) (i j : Fin M) (x : α) :
    (r cfg i j m = m.atGet cfg j i ∧ w cfg i j m x = m.atSet cfg j i x ∧
     ir cfg (i : Nat) (j : Nat) m = m.atGet cfg j i ∧ iw cfg (i : Nat) (j : Nat) m x = m.atSet cfg j i x) ∧
    (r cfg i i m = m.atGet cfg i i ∧ w cfg i i m x = m.atSet cfg i i x ∧
     ir cfg (i : Nat) (i : Nat) m = m.atGet cfg i i ∧ iw cfg (i : Nat) (i : Nat) m x = m.atSet cfg i i x) := by
  have hi := toSize_nat i (by omega)
  have hj := toSize_nat j (by omega)
  simp [r, w, ir, iw, cassert, hi, hj]

/-- The traits read the transposed element. -/
theorem C80_transposed_violated (cfg : Cfg) :
    let m : Mat 2 2 Int := ⟨#v[1, 2, 3, 4]⟩
    r cfg 0 1 m = .ok 2 ∧ m.atGet cfg 0 1 = .ok 3 ∧ ir cfg 0 1 m = .ok 2 := by
  obtain ⟨a, b, c⟩ := cfg
  revert a b c
  decide

/-- In a matrix with more columns than rows, element `( 0, M )` is inside the matrix, but the traits access is out of range: with checked
accessors it throws, without them it silently addresses a different element. -/
theorem C80_wide_violated (cfg : Cfg) (m : Mat M N α) (hM : 0 < M) (hMN : M < N) :
    r cfg (⟨0, hM⟩ : Fin M) (⟨M, hMN⟩ : Fin N) m =
      if cfg.safe then (if cfg.throws then .error .thrown else if cfg.ndebug then .ok (m.get ⟨0, hM⟩ ⟨1, by omega⟩) else .error .aborted)
      else .ok (m.get ⟨0, hM⟩ ⟨1, by omega⟩) := by
  have hlt : 0 * M + M < M * N := by
    have : M * 1 < M * N := Nat.mul_lt_mul_of_pos_left (by omega) hM
    omega
  have e : m.rawGet (0 * M + M) = .ok (m.get ⟨0, hM⟩ ⟨1, by omega⟩) := by
    rw [Mat.rawGet_lt m hlt]
    congr 1
    simp [Mat.get]
  obtain ⟨a, b, c⟩ := cfg
  cases a <;> cases b <;> cases c <;> simp [r, Mat.atGet, vmmlibError, e] <;> simpa using e

end Vmml
