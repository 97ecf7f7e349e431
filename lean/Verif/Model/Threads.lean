import Verif.Model.Matrix
import Verif.Model.FrustumCuller
import Verif.Model.Aabb

/-!
# Calls as sequences of memory accesses, and threads

The other model files give a call the meaning of a function of the contents of its operands. Here a selection of the same calls is written as the sequence of
element reads and writes they perform on objects in memory, so that calls made by several threads can be interleaved access by access.

* An object is a number; its elements are addressed by an index: a vector by its component, a matrix by its column-major index, a box by 0-2 (`_min`) and 3-5
  (`_max`), a culler by `4 j + i` for component `i` of its plane `j` (left, right, bottom, top, near, far: the order of the members, frustum_culler.hpp:102-107).
* Objects returned by value, locals and scalars belong to one thread and are values of the model.
* The element type is one type `α` for all objects.
* Threads interleave access by access (sequential consistency). C++ guarantees this for programs without data races; `C154_race_free` shows that there are none
  under the separation assumed there.
-/

namespace Vmml

/-- An element of an object. -/
abbrev Loc := Nat × Nat
/-- The contents of all elements. -/
abbrev Mem (α : Type) := Loc → α

/-- A running call: it has returned, or its next access is a read or a write. -/
inductive Prog (α β : Type)
  | ret (b : β)
  | read (l : Loc) (k : α → Prog α β)
  | write (l : Loc) (x : α) (k : Prog α β)

/-- A call that returns a value or fails. -/
abbrev Call (α β : Type) := Prog α (Res β)

namespace Call
variable {α β γ : Type}

/-- Sequencing; a fault ends the call. -/
def bind : Call α β → (β → Call α γ) → Call α γ
  | .ret (.ok b), f => f b
  | .ret (.error e), _ => Prog.ret (.error e)
  | .read l k, f => Prog.read l fun x => bind (k x) f
  | .write l x k, f => Prog.write l x (bind k f)

instance : Monad (Call α) where
  pure b := Prog.ret (.ok b)
  bind := bind

/-- A part of a call that accesses no object. -/
def local' (r : Res β) : Call α β := Prog.ret r
/-- `for( size_t i = 0; i < n; ++i ) body`. -/
def loop {σ : Type} (n : Nat) (body : Nat → σ → Call α σ) (s : σ) : Call α σ :=
  match n with
  | 0 => pure s
  | n + 1 => do body n (← loop n body s)

/-- `array[ i ]` of an object with `M` elements. -/
def rawGet (M o i : Nat) : Call α α := if i < M then Prog.read (o, i) fun x => Prog.ret (.ok x) else Prog.ret (.error .ub)
/-- `array[ i ] = x`. -/
def rawSet (M o i : Nat) (x : α) : Call α Unit := if i < M then Prog.write (o, i) x (Prog.ret (.ok ())) else Prog.ret (.error .ub)
/-- `Vector::at( i ) const`, vector.hpp:684-696. -/
def vget (cfg : Cfg) (M o i : Nat) : Call α α := do
  if cfg.safe && decide (M ≤ i) then local' (vmmlibError cfg)
  rawGet M o i
/-- Assignment through `Vector::at( i )`, vector.hpp:669-681. -/
def vset (cfg : Cfg) (M o i : Nat) (x : α) : Call α Unit := do
  if cfg.safe && decide (M ≤ i) then local' (vmmlibError cfg)
  rawSet M o i x
/-- `Matrix::at( row, col ) const`, matrix.hpp:853-862. -/
def mget (cfg : Cfg) (M N o r c : Nat) : Call α α := do
  if cfg.safe && (decide (M ≤ r) || decide (N ≤ c)) then local' (vmmlibError cfg)
  rawGet (M * N) o (c * M + r)
/-- Assignment through `Matrix::at( row, col )`, matrix.hpp:842-849. -/
def mset (cfg : Cfg) (M N o r c : Nat) (x : α) : Call α Unit := do
  if cfg.safe && (decide (M ≤ r) || decide (N ≤ c)) then local' (vmmlibError cfg)
  rawSet (M * N) o (c * M + r) x

/-- `dot( other ) const`, vector.hpp:1118-1127 (`Vec.dot`). -/
def dot [Zero α] [Add α] [Mul α] (cfg : Cfg) (M v w : Nat) : Call α α :=
  loop M (fun i tmp => do pure (tmp + (← vget cfg M v i) * (← vget cfg M w i))) 0
/-- `operator+( const Vector& ) const`, vector.hpp:776-784 (`Vec.add`); the result is a local object. -/
def add [Zero α] [Add α] (cfg : Cfg) (M v w : Nat) : Call α (Vec M α) :=
  loop M (fun i r => do local' (r.atSet cfg i ((← vget cfg M v i) + (← vget cfg M w i)))) Vec.zeroCtor
/-- `operator+=( const Vector& )`, vector.hpp:821-827 (`Vec.addAssign`). -/
def addAssign [Add α] (cfg : Cfg) (M v w : Nat) : Call α Unit :=
  loop M (fun i _ => do vset cfg M v i ((← vget cfg M v i) + (← vget cfg M w i))) ()
/-- `operator=( const Vector& )`, vector.hpp:1393-1399 (`Vec.assign`): `memcpy`, element by element in this model. -/
def assign (M dst src : Nat) : Call α Unit :=
  loop M (fun i _ => do rawSet M dst i (← rawGet M src i)) ()
/-- `operator*( const Vector& ) const`, matrix.hpp:1158-1172 (`Mat.mulVec`); the result is a local object. -/
def mulVec [Zero α] [Add α] [Mul α] (cfg : Cfg) (M N a v : Nat) : Call α (Vec M α) :=
  loop M (fun i res => do
    let tmp ← loop N (fun j tmp => do pure (tmp + (← mget cfg M N a i j) * (← vget cfg N v j))) 0
    local' (res.atSet cfg i tmp)) Vec.zeroCtor
/-- `multiply( left, right )`, matrix.hpp:1044-1064 (`Mat.multiply`), accumulating in the cells of `*this`. -/
def multiply [Zero α] [Add α] [Mul α] (cfg : Cfg) (M P N m left right : Nat) : Call α Unit :=
  loop M (fun r _ => loop N (fun c _ => do
    mset cfg M N m r c 0
    loop P (fun p _ => do
      mset cfg M N m r c ((← mget cfg M N m r c) + (← mget cfg M P left r p) * (← mget cfg P N right p c))) ()) ()) ()
/-- One block of `test_sphere`, frustum_culler.hpp:207-212, for plane `j` (`Culler.sphereBlock`); `none` is `return VISIBILITY_NONE`. -/
def sphereBlock [Add α] [Mul α] [Neg α] [LE α] [DecidableLE α] [LT α] [DecidableLT α] (k j s : Nat) (visibility : Option Visibility) : Call α (Option Visibility) :=
  match visibility with
  | none => pure none
  | some visibility => do
    let distance := (← rawGet 24 k (4 * j)) * (← rawGet 4 s 0) + (← rawGet 24 k (4 * j + 1)) * (← rawGet 4 s 1) + (← rawGet 24 k (4 * j + 2)) * (← rawGet 4 s 2) + (← rawGet 24 k (4 * j + 3))
    if distance ≤ -(← rawGet 4 s 3) then pure none
    else if distance < (← rawGet 4 s 3) then pure (some .partly) else pure (some visibility)
/-- `test_sphere( sphere ) const`, frustum_culler.hpp:194-251 (`Culler.testSphere`). -/
def testSphere [Add α] [Mul α] [Neg α] [LE α] [DecidableLE α] [LT α] [DecidableLT α] (k s : Nat) : Call α Visibility := do
  let v ← sphereBlock k 0 s (some .full)
  let v ← sphereBlock k 1 s v
  let v ← sphereBlock k 2 s v
  let v ← sphereBlock k 3 s v
  let v ← sphereBlock k 4 s v
  let v ← sphereBlock k 5 s v
  pure (v.getD .none)
/-- `merge( point )`, aabb.hpp:345-361 (`Box.mergePoint`). -/
def mergePoint [LT α] [DecidableLT α] (b p : Nat) : Call α Unit := do
  loop 3 (fun i _ => do
    if (← rawGet 3 p i) < (← rawGet 6 b i) then rawSet 6 b i (← rawGet 3 p i)) ()
  loop 3 (fun i _ => do
    if (← rawGet 3 p i) > (← rawGet 6 b (3 + i)) then rawSet 6 b (3 + i) (← rawGet 3 p i)) ()
/-- `merge( aabb )`, aabb.hpp:325-343 (`Box.mergeBox`). -/
def mergeBox [LT α] [DecidableLT α] (b a : Nat) : Call α Unit := do
  loop 3 (fun i _ => do
    if (← rawGet 6 a i) < (← rawGet 6 b i) then rawSet 6 b i (← rawGet 6 a i)) ()
  loop 3 (fun i _ => do
    if (← rawGet 6 a (3 + i)) > (← rawGet 6 b (3 + i)) then rawSet 6 b (3 + i) (← rawGet 6 a (3 + i))) ()
/-- `isIn( pos )`, aabb.hpp:166-175 (`Box.isIn`): `||` reads no further once a test has succeeded. -/
def isIn [LT α] [DecidableLT α] (b p : Nat) : Call α Bool := do
  if (← rawGet 3 p 0) > (← rawGet 6 b 3) then pure false
  else if (← rawGet 3 p 1) > (← rawGet 6 b 4) then pure false
  else if (← rawGet 3 p 2) > (← rawGet 6 b 5) then pure false
  else if (← rawGet 3 p 0) < (← rawGet 6 b 0) then pure false
  else if (← rawGet 3 p 1) < (← rawGet 6 b 1) then pure false
  else if (← rawGet 3 p 2) < (← rawGet 6 b 2) then pure false
  else pure true
/-- `squared_length() const`, vector.hpp:1149-1157 (`Vec.squaredLength`). -/
def squaredLength [Zero α] [Add α] [Mul α] (M v : Nat) : Call α α :=
  loop M (fun i s => do pure (s + (← rawGet M v i) * (← rawGet M v i))) 0
/-- `operator*=( const Vector& )`, vector.hpp:801-807 (`Vec.mulAssign`). -/
def mulAssign [Mul α] (cfg : Cfg) (M v w : Nat) : Call α Unit :=
  loop M (fun i _ => do vset cfg M v i ((← vget cfg M v i) * (← vget cfg M w i))) ()
/-- `operator+=( const Matrix& )`, matrix.hpp:1538-1547 (`Mat.addAssign`). -/
def matAddAssign [Add α] (M N m a : Nat) : Call α Unit :=
  loop (M * N) (fun i _ => do rawSet (M * N) m i ((← rawGet (M * N) m i) + (← rawGet (M * N) a i))) ()
/-- `multiply_piecewise( other )`, matrix.hpp:1029-1041 (`Mat.multiplyPiecewise`). -/
def multiplyPiecewise [Mul α] (cfg : Cfg) (M N m a : Nat) : Call α Unit :=
  loop M (fun r _ => loop N (fun c _ => do mset cfg M N m r c ((← mget cfg M N m r c) * (← mget cfg M N a r c))) ()) ()
/-- `transpose_to( tM ) const`, matrix.hpp:1262-1274 (`Mat.transposeTo`): writes its argument. -/
def transposeTo (cfg : Cfg) (M N a t : Nat) : Call α Unit :=
  loop M (fun r _ => loop N (fun c _ => do mset cfg N M t c r (← mget cfg M N a r c)) ()) ()
end Call

/-! ## Execution -/

namespace Prog
variable {α β ι : Type}

/-- One element changed. -/
def put (h : Mem α) (l : Loc) (x : α) : Mem α := fun m => if m = l then x else h m
/-- The call executed without interruption: its result and the memory afterwards. -/
def run : Prog α β → Mem α → β × Mem α
  | ret b, h => (b, h)
  | read l k, h => run (k (h l)) h
  | write l x k, h => run k (put h l x)
/-- The number of accesses of the call executed without interruption. -/
def steps : Prog α β → Mem α → Nat
  | ret _, _ => 0
  | read l k, h => steps (k (h l)) h + 1
  | write l x k, h => steps k (put h l x) + 1
/-- One access of one thread. -/
def next : Prog α β → Mem α → Prog α β × Mem α
  | ret b, h => (ret b, h)
  | read l k, h => (k (h l), h)
  | write l x k, h => (k, put h l x)
/-- The memory and what is left to do in every thread. -/
structure Config (ι α β : Type) where
  heap : Mem α
  thread : ι → Prog α β
/-- Thread `i` makes its next access. -/
def Config.step [DecidableEq ι] (c : Config ι α β) (i : ι) : Config ι α β :=
  ⟨((c.thread i).next c.heap).2, fun j => if j = i then ((c.thread i).next c.heap).1 else c.thread j⟩
/-- A schedule is the list of the threads in the order in which they make an access. -/
def Config.exec [DecidableEq ι] (c : Config ι α β) (σ : List ι) : Config ι α β := σ.foldl Config.step c
end Prog
end Vmml
