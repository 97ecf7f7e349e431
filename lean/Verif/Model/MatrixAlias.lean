import Verif.Model.Matrix
import Verif.Model.Alias

/-!
# Matrix operations whose operands may be the same object

Objects live in a heap; see `Model/Alias`. Line numbers refer to `/repo/vmmlib/matrix.hpp`.
-/

namespace Vmml
namespace Mat
variable {M N : Nat} {α : Type}

/-- `multiply( left, right )`, 1045-1064, all three objects given by address (square matrices, so that they may
coincide). -/
def multiplyH [Zero α] [Add α] [Mul α] (cfg : Cfg) (h : Heap (Mat M M α)) (this left right : Nat) :
    Res (Heap (Mat M M α)) :=
  loop M (fun r h => loop M (fun c h => do
    let h := Function.update h this (← (h this).atSet cfg r c 0)
    loop M (fun p h => do
      let x := (← (h this).atGet cfg r c) + (← (h left).atGet cfg r p) * (← (h right).atGet cfg p c)
      pure (Function.update h this (← (h this).atSet cfg r c x))) h) h) h

/-- `operator*=( const Matrix& right )`, 1080-1088: `*this` is copied into the local `copy`, `right` is not.
`tmp` is the address of the local object. -/
def mulAssignH [Zero α] [Add α] [Mul α] (cfg : Cfg) (h : Heap (Mat M M α)) (this right tmp : Nat) :
    Res (Heap (Mat M M α)) := do
  let h := Function.update h tmp (h this)
  multiplyH cfg h this tmp right

/-- `*it op= *other_it` over the whole storage: `operator+=`, 1538-1547 and `operator-=`, 1571-1582. -/
def opAssignH (op : α → α → α) (h : Heap (Mat M N α)) (this other : Nat) : Res (Heap (Mat M N α)) :=
  loop (M * N) (fun i h => do
    let x := op (← (h this).rawGet i) (← (h other).rawGet i)
    pure (Function.update h this (← (h this).rawSet i x))) h

/-- `operator=( const Matrix& )`, 965-970: `memcpy` without a test for self-assignment; `memcpy` of an object onto itself is undefined (overlapping
objects). -/
def assignH (h : Heap (Mat M N α)) (this other : Nat) : Res (Heap (Mat M N α)) := do
  if this = other ∧ 0 < M * N then throw .ub
  pure (Function.update h this (← (h this).assign (h other)))

/-- `transpose_to( tM ) const`, 1262-1274, for square matrices given by address. -/
def transposeToH (cfg : Cfg) (h : Heap (Mat M M α)) (this tM : Nat) : Res (Heap (Mat M M α)) :=
  loop M (fun r h => loop M (fun c h => do
    pure (Function.update h tM (← (h tM).atSet cfg c r (← (h this).atGet cfg r c)))) h) h

/-- `get_cofactors( cofactors ) const`, 1719-1739, when `cofactors` *is* `*this`: every cofactor is written into the
matrix the next minors are taken from. -/
def getCofactorsSelf [Zero α] [One α] [Add α] [Sub α] [Mul α] [Neg α] {K : Nat} (cfg : Cfg)
    (m : Mat (K + 1) (K + 1) α) : Res (Mat (K + 1) (K + 1) α) := do
  let minor ← ctor cfg
  let s ← loop (K + 1) (fun r s => loop (K + 1) (fun c s => do
    let (minor, d) ← s.1.getMinor cfg s.2 r c
    let x := if (r + c) % 2 = 1 then -d else d
    let m ← s.1.atSet cfg r c x
    pure (m, minor)) s) (m, minor)
  pure s.1

/-- `get_adjugate( adjugate ) const`, 1706-1715, when `adjugate` *is* `*this`. -/
def getAdjugateSelf [Zero α] [One α] [Add α] [Sub α] [Mul α] [Neg α] {K : Nat} (cfg : Cfg)
    (m : Mat (K + 1) (K + 1) α) : Res (Mat (K + 1) (K + 1) α) := do
  let m ← m.getCofactorsSelf cfg
  m.assign (← m.transpose cfg)

/-- `compute_inverse` 2x2, 665-679, when `inverse_` *is* `m_`. -/
def inverse2Self [Zero α] [One α] [Add α] [Sub α] [Mul α] [Neg α] [Div α] [LT α] [DecidableLT α] [CMath α]
    (cfg : Cfg) (m : Mat 2 2 α) (tol : α) : Res (Bool × Mat 2 2 α) := do
  let d ← m.det2 cfg
  if CMath.fabs d < tol then pure (false, m)
  else do
    let detinv := 1 / d
    let m ← m.getAdjugateSelf (K := 1) cfg
    let m ← m.mulAssignS cfg detinv
    pure (true, m)

/-- `compute_inverse` 3x3, 683-719, when `inverse_` *is* `m_`: the nine assignments and the determinant read the
cells already overwritten (the scaling part is unchanged). -/
def inverse3Self [One α] [Add α] [Sub α] [Mul α] [Div α] [LE α] [DecidableLE α] [CMath α]
    (cfg : Cfg) (m : Mat 3 3 α) (tol : α) : Res (Bool × Mat 3 3 α) := do
  let g := fun (m : Mat 3 3 α) r c => m.atGet cfg r c
  let m ← m.atSet cfg 0 0 ((← g m 1 1) * (← g m 2 2) - (← g m 1 2) * (← g m 2 1))
  let m ← m.atSet cfg 0 1 ((← g m 0 2) * (← g m 2 1) - (← g m 0 1) * (← g m 2 2))
  let m ← m.atSet cfg 0 2 ((← g m 0 1) * (← g m 1 2) - (← g m 0 2) * (← g m 1 1))
  let m ← m.atSet cfg 1 0 ((← g m 1 2) * (← g m 2 0) - (← g m 1 0) * (← g m 2 2))
  let m ← m.atSet cfg 1 1 ((← g m 0 0) * (← g m 2 2) - (← g m 0 2) * (← g m 2 0))
  let m ← m.atSet cfg 1 2 ((← g m 0 2) * (← g m 1 0) - (← g m 0 0) * (← g m 1 2))
  let m ← m.atSet cfg 2 0 ((← g m 1 0) * (← g m 2 1) - (← g m 1 1) * (← g m 2 0))
  let m ← m.atSet cfg 2 1 ((← g m 0 1) * (← g m 2 0) - (← g m 0 0) * (← g m 2 1))
  let m ← m.atSet cfg 2 2 ((← g m 0 0) * (← g m 1 1) - (← g m 0 1) * (← g m 1 0))
  let determinant := (← g m 0 0) * (← g m 0 0) + (← g m 0 1) * (← g m 1 0) + (← g m 0 2) * (← g m 2 0)
  if CMath.fabs determinant ≤ tol then pure (false, m)
  else do
    let detinv := 1 / determinant
    let m ← loop 3 (fun r m => loop 3 (fun c m => do m.atSet cfg r c ((← g m r c) * detinv)) m) m
    pure (true, m)

/-- The comatrix part of `compute_inverse` 4x4, 727-765, when `inv_` *is* `m_`: `array` and `inv_.array` are the same
sixteen cells. The two tables of 2x2 determinants are copies, all other reads see the cells already overwritten. -/
def comatrix4Self [Add α] [Sub α] [Mul α] (a : Vec 16 α) : Vec 16 α :=
  let t10 := a[2] * a[7] - a[6] * a[3]
  let t11 := a[2] * a[11] - a[10] * a[3]
  let t12 := a[2] * a[15] - a[14] * a[3]
  let t13 := a[6] * a[11] - a[10] * a[7]
  let t14 := a[6] * a[15] - a[14] * a[7]
  let t15 := a[10] * a[15] - a[14] * a[11]
  let a := a.set 0 (a[5] * t15 - a[9] * t14 + a[13] * t13)
  let a := a.set 1 (a[9] * t12 - a[13] * t11 - a[1] * t15)
  let a := a.set 2 (a[13] * t10 - a[5] * t12 + a[1] * t14)
  let a := a.set 3 (a[5] * t11 - a[1] * t13 - a[9] * t10)
  let a := a.set 4 (a[8] * t14 - a[4] * t15 - a[12] * t13)
  let a := a.set 5 (a[0] * t15 - a[8] * t12 + a[12] * t11)
  let a := a.set 6 (a[4] * t12 - a[12] * t10 - a[0] * t14)
  let a := a.set 7 (a[0] * t13 - a[4] * t11 + a[8] * t10)
  let t20 := a[0] * a[5] - a[4] * a[1]
  let t21 := a[0] * a[9] - a[8] * a[1]
  let t22 := a[0] * a[13] - a[12] * a[1]
  let t23 := a[4] * a[9] - a[8] * a[5]
  let t24 := a[4] * a[13] - a[12] * a[5]
  let t25 := a[8] * a[13] - a[12] * a[9]
  let a := a.set 8 (a[7] * t25 - a[11] * t24 + a[15] * t23)
  let a := a.set 9 (a[11] * t22 - a[15] * t21 - a[3] * t25)
  let a := a.set 10 (a[15] * t20 - a[7] * t22 + a[3] * t24)
  let a := a.set 11 (a[7] * t21 - a[3] * t23 - a[11] * t20)
  let a := a.set 12 (a[10] * t24 - a[6] * t25 - a[14] * t23)
  let a := a.set 13 (a[2] * t25 - a[10] * t22 + a[14] * t21)
  let a := a.set 14 (a[6] * t22 - a[14] * t20 - a[2] * t24)
  let a := a.set 15 (a[2] * t23 - a[6] * t21 + a[10] * t20)
  a

/-- `compute_inverse` 4x4, 722-778, when `inv_` *is* `m_`. -/
def inverse4Self [One α] [Add α] [Sub α] [Mul α] [Div α] [LE α] [DecidableLE α] [CMath α]
    (m : Mat 4 4 α) (tol : α) : Res (Bool × Mat 4 4 α) := do
  let a := comatrix4Self m.array
  let determinant := a[0] * a[0] + a[4] * a[1] + a[8] * a[2] + a[12] * a[3]
  if CMath.fabs determinant ≤ tol then pure (false, ⟨a⟩)
  else do
    let detinv := 1 / determinant
    let m ← loop 16 (fun i m => do m.rawSet i ((← m.rawGet i) * detinv)) (⟨a⟩ : Mat 4 4 α)
    pure (true, m)

end Mat
end Vmml
