import Verif.Model.Matrix

/-!
# Model of `vmmlib/qr_decomposition.hpp`

Line numbers refer to `/repo/vmmlib/qr_decomposition.hpp`.
-/

namespace Vmml
namespace QR
variable {M N : Nat} {α : Type}

/-- The loop over `i < j`, 100-107: state is `R` and `v`. `q_column`, `a_column` are overwritten completely by `get_column`; their
previous content is `mem`. -/
def inner [Zero α] [Add α] [Sub α] [Mul α] (cfg : Cfg) (mem : Vec M α) (A : Mat M N α) (Q : Mat M M α) (j : Nat)
    (R : Mat N N α) (v : Vec M α) : Res (Mat N N α × Vec M α) :=
  loop j (fun i (R, v) => do
    let q_column ← Q.getColumn cfg i mem
    let a_column ← A.getColumn cfg j mem
    let R ← R.atSet cfg i j (← q_column.dot cfg a_column)
    let v ← v.subAssign cfg (← q_column.mulS cfg (← R.atGet cfg i j))
    pure (R, v)) (R, v)

/-- `qr_decompose_gram_schmidt( A_, Q, R )`, 52-116, with the compiled `#else` branch, 95-111. `Q₀`, `R₀` are the previous contents of the
output arguments. The counters are `unsigned`; the model uses `Nat` (`N < 2^32`). The three vectors declared at 65 and 96 are
value-initialised (`Vec.zeroCtor`); `A` (63) is a copy of `A_`, never written in this branch. -/
def decompose [Zero α] [Add α] [Sub α] [Mul α] [Div α] [CMath α] (cfg : Cfg) (A : Mat M N α) (Q₀ : Mat M M α) (R₀ : Mat N N α) :
    Res (Mat M M α × Mat N N α) := do
  let Q ← Q₀.assignFill 0
  let R ← R₀.assignFill 0
  loop N (fun j (Q, R) => do
    let v ← A.getColumn cfg j Vec.zeroCtor
    let (R, v) ← inner cfg Vec.zeroCtor A Q j R v
    let R ← R.atSet cfg j j (← v.length)
    let Q ← Q.setColumn cfg j (← v.divS cfg (← R.atGet cfg j j))
    pure (Q, R)) (Q, R)

end QR
end Vmml
