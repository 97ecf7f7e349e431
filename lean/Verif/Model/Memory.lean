import Verif.Model.Failure
import Verif.Model.Stream
import Verif.Model.MatrixStats

/-!
# Dynamic memory

The only members of the library that allocate memory themselves are `Matrix::read_from_raw`, `Matrix::sum_rows` and `Matrix::sum_columns`
(`vmmlib/matrix.hpp`). Here they are modelled together with the free store: what they compute is the model of the other files, between the `new` and
`delete` expressions of the source.
-/

namespace Vmml

/-- The free store: the live blocks (address, size in bytes), latest first, and the next unused address. Addresses are never reused. -/
structure Store where
  live : List (Nat × Nat)
  next : Nat
  deriving DecidableEq

namespace Store
/-- `new` of `n` bytes (assumed to succeed; `std::bad_alloc` is not modelled). -/
def alloc (n : Nat) : Run Store Nat := fun s => (.ok s.next, ⟨(s.next, n) :: s.live, s.next + 1⟩)
/-- `delete p`; of an address that is not live it is undefined. -/
def free (p : Nat) : Run Store Unit := fun s =>
  if s.live.any (fun b => b.1 == p) then (.ok (), ⟨s.live.filter (fun b => b.1 != p), s.next⟩) else (.error .ub, s)
/-- A computation that neither allocates nor frees. -/
def body {α : Type} (r : Res α) : Run Store α := Run.read fun _ => r
end Store

variable {M N : Nat} {α : Type}

namespace Mat
/-- `sum_rows( other )`, 2771-2795: `new row_type` twice (2777, 2778), the loops, `delete` twice (2793, 2794). `s` is `sizeof( T )`. -/
def sumRowsM [Zero α] [Add α] (cfg : Cfg) (s : Nat) (m : Mat M N α) (other : Mat (M / 2) N α) : Run Store (Mat (M / 2) N α) := do
  let row0 ← Store.alloc (s * N)
  let row1 ← Store.alloc (s * N)
  let r ← Store.body (m.sumRows cfg other)
  Store.free row0
  Store.free row1
  pure r

/-- `sum_columns( other )`, 2797-2821. -/
def sumColumnsM [Zero α] [Add α] (cfg : Cfg) (s : Nat) (m : Mat M N α) (other : Mat M (N / 2) α) : Run Store (Mat M (N / 2) α) := do
  let col0 ← Store.alloc (s * M)
  let col1 ← Store.alloc (s * M)
  let r ← Store.body (m.sumColumns cfg other)
  Store.free col0
  Store.free col1
  pure r

/-- `read_from_raw( dir, name )`, 2637-2683: `new char[ len_data ]` (2651), then `delete[] data` (2674) in the branch in which the file is open and nowhere
else. Parameters as in `Mat.readFromRaw`. -/
def readFromRawM (s : Nat) (ofBytes : List UInt8 → α) (canOpen : List Char → Bool) (junk : Nat → UInt8) (m : Mat M N α)
    (dir name : List Char) (fs : Files) : Run Store (Mat M N α) := do
  let path := rawPath dir name
  let maxLen := 2147483648 - s
  let len := s * (M * N)
  let data ← Store.alloc len
  if canOpen path then
    match fs path with
    | some file => do
      let a ← Store.body (rawChunks s ofBytes maxLen len file (List.ofFn (n := len) fun i => junk i.1) 0 m.array)
      Store.free data
      pure ⟨a⟩
    | none => pure m
  else pure m
end Mat

end Vmml
