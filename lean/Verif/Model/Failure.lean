import Verif.Model.Matrix
import Verif.Model.Quaternion

/-!
# What a failing call leaves behind

In the other model files a call that throws has no result. Here the members of `vmmlib/matrix.hpp`, `vmmlib/vector.hpp` and `vmmlib/quaternion.hpp`
that can throw are modelled with the state of the written object *after the call, also if it throws*: `σ` is the state of `*this` (or of the output
parameter of the `get_` functions). `Props/Failure.lean` proves that on success they agree with the models of the other files.
-/

namespace Vmml

/-- A call that writes an object of state `σ`: the outcome and the state of that object afterwards. -/
def Run (σ α : Type) := σ → Res α × σ

namespace Run
variable {σ α β : Type}

instance : Monad (Run σ) where
  pure a := fun s => (.ok a, s)
  bind x f := fun s => match x s with
    | (.ok a, s) => f a s
    | (.error e, s) => (.error e, s)

/-- A computation that does not write the object. -/
def read (f : σ → Res α) : Run σ α := fun s => (f s, s)
/-- One element store `at( .. ) = x`: the check in `at` precedes the store. -/
def store (f : σ → Res σ) : Run σ Unit := fun s => match f s with
  | .ok s' => (.ok (), s')
  | .error e => (.error e, s)
/-- `for( size_t i = 0; i < n; ++i ) body`. -/
def loop (n : Nat) (body : Nat → Run σ Unit) : Run σ Unit := match n with
  | 0 => pure ()
  | n + 1 => do loop n body; body n
end Run

variable {M N O P : Nat} {α : Type}

/-- `VMMLIB_ERROR` under a condition. -/
def Run.check {σ : Type} (cfg : Cfg) (bad : Bool) : Run σ Unit := Run.read fun _ => if bad then vmmlibError cfg else pure ()

namespace Vec
/-- `at( index ) = x`, vector.hpp:670-681. -/
def atSetR (cfg : Cfg) (i : Nat) (x : α) : Run (Vec M α) Unit := Run.store fun v => v.atSet cfg i x
end Vec

namespace Mat
/-- `at( row, col ) = x`, matrix.hpp:842-849. -/
def atSetR (cfg : Cfg) (r c : Nat) (x : α) : Run (Mat M N α) Unit := Run.store fun m => m.atSet cfg r c x
/-- `m[ row ][ col ] = x`, matrix.hpp:439-446 and 414-422. -/
def bracketSetR (cfg : Cfg) (r c : Nat) (x : α) : Run (Mat M N α) Unit := Run.store fun m => m.bracketSet cfg r c x
/-- `get_column( index, column ) const`, matrix.hpp:1310-1320 and 1338-1347; the state is the output parameter. -/
def getColumnR (cfg : Cfg) (m : Mat M N α) (index : Nat) : Run (Vec M α) Unit := do
  Run.check cfg (cfg.safe && decide (N ≤ index))
  Run.loop M fun i => do
    let x ← Run.read fun _ => m.rawGet (M * index + i)
    Run.store fun v => v.rawSet i x
/-- `set_column( index, column )`, matrix.hpp:1325-1337 and 1351-1359. -/
def setColumnR (cfg : Cfg) (index : Nat) (column : Vec M α) : Run (Mat M N α) Unit := do
  Run.check cfg (cfg.safe && decide (N ≤ index))
  Run.loop M fun i => do
    let x ← Run.read fun _ => column.rawGet i
    Run.store fun m => m.rawSet (M * index + i) x
/-- `get_row( index, row ) const`, matrix.hpp:1371-1382 and 1399-1410; the state is the output parameter. -/
def getRowR (cfg : Cfg) (m : Mat M N α) (index : Nat) : Run (Vec N α) Unit := do
  Run.check cfg (cfg.safe && decide (M ≤ index))
  Run.loop N fun c => do
    let x ← Run.read fun _ => m.atGet cfg index c
    Run.store fun v => v.atSet cfg c x
/-- `set_row( index, row )`, matrix.hpp:1385-1396 and 1413-1425. -/
def setRowR (cfg : Cfg) (index : Nat) (row : Vec N α) : Run (Mat M N α) Unit := do
  Run.check cfg (cfg.safe && decide (M ≤ index))
  Run.loop N fun c => do
    let x ← Run.read fun _ => row.atGet cfg c
    Run.store fun m => m.atSet cfg index c x
/-- `get_sub_matrix( result, row_offset, col_offset ) const`, matrix.hpp:1640-1660, with the sums of `size_t` values taken modulo `W`, the number of
`size_t` values; the state is the output parameter. -/
def getSubMatrixR (W : Nat) (cfg : Cfg) (m : Mat M N α) (ro co : Nat) : Run (Mat O P α) Unit := do
  Run.check cfg (cfg.safe && (decide (M < (O + ro) % W) || decide (N < (P + co) % W)))
  Run.loop O fun r => Run.loop P fun c => do
    let x ← Run.read fun _ => m.atGet cfg ((ro + r) % W) ((co + c) % W)
    Run.store fun res => res.atSet cfg r c x
/-- `set_sub_matrix( sub, row_offset, col_offset )`, matrix.hpp:1664-1680 (no check of its own), sums of `size_t` values modulo `W`. -/
def setSubMatrixR (W : Nat) (cfg : Cfg) (sub : Mat O P α) (ro co : Nat) : Run (Mat M N α) Unit :=
  Run.loop O fun r => Run.loop P fun c => do
    let x ← Run.read fun _ => sub.atGet cfg r c
    Run.store fun m => m.atSet cfg ((ro + r) % W) ((co + c) % W) x
/-- `operator=( const std::vector< T >& )`, matrix.hpp:1018-1026. The loop of `set` does not throw, so that no state inside it is observable: it is one
store here. -/
def assignStdVectorR (cfg : Cfg) (data : List α) : Run (Mat M N α) Unit := do
  Run.check cfg (decide (data.length < M * N))
  Run.store fun m => m.setRowMajor cfg id data
end Mat

namespace Quat
/-- `operator/=( T )`, quaternion.hpp:696-704, then `operator*=( T )`, 685-692. -/
def divAssignSR [Zero α] [One α] [Mul α] [Div α] [BEq α] (cfg : Cfg) (a : α) : Run (Quat α) Unit := do
  Run.check cfg (a == 0)
  Run.store fun q => pure (q.mulAssignS (1 / a))
end Quat

end Vmml
