import Verif.Model.Vector

/-!
# Model of `vmmlib/matrix.hpp`: storage, construction, algebra

`Matrix< M, N, T >` stores `T array[ M * N ]`, column by column (matrix.hpp:477). The model is generic
in `T = α`, with operation classes only. Line numbers refer to `/repo/vmmlib/matrix.hpp` unless another file
is named. Out-parameters are passed in (their previous content matters when not all of it is written)
and returned. Operands that may alias `*this` are treated in `Model/MatrixAlias`.
-/

namespace Vmml

/-- `Matrix< M, N, T >`: `M * N` cells, 476-477 (`T array[ M * N ]`, column by column storage). -/
structure Mat (M N : Nat) (α : Type) where
  array : Vec (M * N) α
  deriving DecidableEq

namespace Mat
variable {M N P Q O : Nat} {α β δ : Type}

/-! ## Cells -/

/-- `array[ i ]`, unchecked read (e.g. through `operator const T*`, 889-896, or the public member). -/
def rawGet (m : Mat M N α) (i : Nat) : Res α := m.array.rawGet i

/-- `array[ i ] = x`, unchecked. -/
def rawSet (m : Mat M N α) (i : Nat) (x : α) : Res (Mat M N α) := do
  pure ⟨← m.array.rawSet i x⟩

/-- `at( row, col ) const`, 853-862: with `VMMLIB_SAFE_ACCESSORS` the two indices are checked, then
`array[ col * M + row ]`. Also `operator()`, 873-878. -/
def atGet (cfg : Cfg) (m : Mat M N α) (r c : Nat) : Res α := do
  if cfg.safe && (decide (M ≤ r) || decide (N ≤ c)) then vmmlibError cfg
  m.rawGet (c * M + r)

/-- Assignment through `at( row, col )`, 842-849, and `operator()`, 865-870. -/
def atSet (cfg : Cfg) (m : Mat M N α) (r c : Nat) (x : α) : Res (Mat M N α) := do
  if cfg.safe && (decide (M ≤ r) || decide (N ≤ c)) then vmmlibError cfg
  m.rawSet (c * M + r) x

/-- `m[ row ][ col ]` read: `operator[]`, 439-446 (the row check is `row_index > M`), then
`row_accessor::operator[]`, 424-432: `( array + row )[ col * M ]`. -/
def bracketGet (cfg : Cfg) (m : Mat M N α) (r c : Nat) : Res α := do
  if cfg.safe && decide (M < r) then vmmlibError cfg
  if cfg.safe && decide (N ≤ c) then vmmlibError cfg
  m.rawGet (r + c * M)

/-- `m[ row ][ col ] = x`, 439-446 and 414-422. -/
def bracketSet (cfg : Cfg) (m : Mat M N α) (r c : Nat) (x : α) : Res (Mat M N α) := do
  if cfg.safe && decide (M < r) then vmmlibError cfg
  if cfg.safe && decide (N ≤ c) then vmmlibError cfg
  m.rawSet (r + c * M) x

/-- `m[ row ][ col ]` with an `int` row index, 448-452: converted to `size_t` (64 bit, so a negative index becomes a huge one), then `operator[]( size_t )`. -/
def bracketGetInt (cfg : Cfg) (m : Mat M N α) (r : Int) (c : Nat) : Res α := m.bracketGet cfg (r % 2 ^ 64).toNat c

/-- `m[ row ][ col ] = x` with an `int` row index, 448-452. -/
def bracketSetInt (cfg : Cfg) (m : Mat M N α) (r : Int) (c : Nat) (x : α) : Res (Mat M N α) := m.bracketSet cfg (r % 2 ^ 64).toNat c x

/-! ## Construction, fill, assignment -/

/-- `fill( value )`, 1450-1459. -/
def fill (cfg : Cfg) (m : Mat M N α) (x : α) : Res (Mat M N α) :=
  loop M (fun r m => loop N (fun c m => m.atSet cfg r c x) m) m

/-- `zero()`, 1514-1517. -/
def zero [Zero α] (cfg : Cfg) (m : Mat M N α) : Res (Mat M N α) := m.fill cfg 0

/-- `operator=( T value )`, 1520-1523: `std::fill( begin(), end(), value )`. -/
def assignFill (m : Mat M N α) (x : α) : Res (Mat M N α) :=
  loop (M * N) (fun i m => m.rawSet i x) m

/-- `Matrix()`, 825-832: `array()` value-initialises to zero; the diagonal is set to one if `M == N`. -/
def ctor [Zero α] [One α] (cfg : Cfg) : Res (Mat M N α) :=
  if M = N then loop M (fun i m => m.atSet cfg i i 1) ⟨Vector.replicate _ 0⟩
  else pure ⟨Vector.replicate _ 0⟩

/-- The free function `identity( m )`, 575-582, and `set_to_identity_functor`,
matrix_functors.hpp:56-70. -/
def identity [Zero α] [One α] (cfg : Cfg) (m : Mat M M α) : Res (Mat M M α) := do
  let m ← m.assignFill 0
  loop M (fun i m => m.atSet cfg i i 1) m

/-- The static member `IDENTITY`, 2232-2236: a default-constructed matrix to which
`set_to_identity_functor` is applied (`get_initialized_matrix`, 2220-2226). -/
def IDENTITY [Zero α] [One α] (cfg : Cfg) : Res (Mat M M α) := do
  identity cfg (← ctor cfg)

/-- The static member `ZERO`, 2239-2243, through `set_to_zero_functor`, matrix_functors.hpp:43-51. -/
def ZERO [Zero α] [One α] (cfg : Cfg) : Res (Mat M N α) := do
  (← ctor cfg).assignFill 0

/-- `operator=( const Matrix& )`, 965-970: `memcpy` of `M * N` elements. -/
def assign (dst src : Mat M N α) : Res (Mat M N α) := do
  pure ⟨← dst.array.memcpy src.array (M * N)⟩

/-- Converting assignment from a matrix of another size or element type, 976-989, and the
converting constructor, 836-839 (`dst` is then the uninitialised storage). -/
def assignFrom [Zero α] (cfg : Cfg) (cast : β → α) (dst : Mat M N α) (src : Mat P Q β) :
    Res (Mat M N α) := do
  let minL := if P < M then P else M
  let minC := if Q < N then Q else N
  let dst ← if minL < M ∨ minC < N then dst.zero cfg else pure dst
  loop minL (fun i d => loop minC (fun j d => do
    d.atSet cfg i j (cast (← src.atGet cfg i j))) d) dst

/-- Assignment from `const T[ M ][ N ]`, 993-1003. The array is given as a function. -/
def assignArray2 (cfg : Cfg) (dst : Mat M N α) (src : Fin M → Fin N → α) : Res (Mat M N α) :=
  loop M (fun r d => loop N (fun c d =>
    if h : r < M ∧ c < N then d.atSet cfg r c (src ⟨r, h.1⟩ ⟨c, h.2⟩) else throw .ub) d) dst

/-- `set( begin_, end_, true )`, 1486-1505: row by row, returns when the input is exhausted. The loop state is
the matrix and the remaining input range (`it .. end_`). -/
def setRowMajor (cfg : Cfg) (cast : β → α) (m : Mat M N α) (src : List β) : Res (Mat M N α) := do
  let s ← loop M (fun r s => loop N (fun c s => match s with
    | (m, []) => pure (m, [])
    | (m, x :: it) => do pure (← m.atSet cfg r c (cast x), it)) s) (m, src)
  pure s.1

/-- `set( begin_, end_, false )`, 1506-1509: `std::copy( it, it + M * N, begin() )`: the end of the input
is *not* looked at, reading beyond it is undefined. -/
def setColMajor (cast : β → α) (m : Mat M N α) (src : List β) : Res (Mat M N α) :=
  loop (M * N) (fun i m => match src[i]? with
    | some x => m.rawSet i (cast x)
    | none => throw .ub) m

/-- `operator=( const T* )`, 1009-1014: `set( data, data + M * N, true )`. The memory behind the
pointer is a list; fewer than `M * N` readable elements is undefined behaviour. -/
def assignPtr (cfg : Cfg) (m : Mat M N α) (mem : List α) : Res (Mat M N α) :=
  if M * N ≤ mem.length then m.setRowMajor cfg id (mem.take (M * N)) else throw .ub

/-- `operator=( const std::vector< T >& )`, 1018-1026: error if too short, then `set` row by row. -/
def assignStdVector (cfg : Cfg) (m : Mat M N α) (data : List α) : Res (Mat M N α) := do
  if data.length < M * N then vmmlibError cfg
  m.setRowMajor cfg id data

/-- `cast_from`, 2318-2333. -/
def castFrom (cast : β → α) (m : Mat M N α) (src : Mat M N β) : Res (Mat M N α) :=
  loop (M * N) (fun i m => do m.rawSet i (cast (← src.rawGet i))) m

/-! ## Comparison -/

/-- `operator==`, 903-913: element by element, stops at the first difference. -/
def eqOp [BEq α] (a b : Mat M N α) : Res Bool :=
  loop (M * N) (fun i ok => if ok then do pure ((← a.rawGet i) == (← b.rawGet i)) else pure ok) true

/-- `operator!=`, 918-924. -/
def neOp [BEq α] (a b : Mat M N α) : Res Bool := do pure (! (← a.eqOp b))

/-- `equals( other, tolerance )`, 928-943, and the free `equals`, 506-511. -/
def equals [Sub α] [LT α] [DecidableLT α] [CMath α] (cfg : Cfg) (a b : Mat M N α) (tol : α) : Res Bool :=
  loop M (fun r ok => loop N (fun c ok => if ok then do
    pure (decide (CMath.fabs ((← a.atGet cfg r c) - (← b.atGet cfg r c)) < tol)) else pure ok) ok) true

/-- `equals( other, cmp )`, 947-960, for a stateless comparison object. -/
def equalsCmp (cfg : Cfg) (a b : Mat M N α) (cmp : α → α → Bool) : Res Bool :=
  loop M (fun r ok => loop N (fun c ok => if ok then do
    pure (cmp (← a.atGet cfg r c) (← b.atGet cfg r c)) else pure ok) ok) true

/-! ## Algebra -/

/-- `multiply_piecewise( other )`, 1029-1041. -/
def multiplyPiecewise [Mul α] (cfg : Cfg) (m other : Mat M N α) : Res (Mat M N α) :=
  loop M (fun r m => loop N (fun c m => do
    m.atSet cfg r c ((← m.atGet cfg r c) * (← other.atGet cfg r c))) m) m

/-- `multiply( left, right )`, 1045-1064 (and the free functions 514-520, 566-572): every cell of
`*this` is set to zero and then accumulates `left.at( row, p ) * right.at( p, col )` in the order of `p`. -/
def multiply [Zero α] [Add α] [Mul α] (cfg : Cfg) (m : Mat M N α) (left : Mat M P α) (right : Mat P N α) :
    Res (Mat M N α) :=
  loop M (fun r m => loop N (fun c m => do
    let m ← m.atSet cfg r c 0
    loop P (fun p m => do
      m.atSet cfg r c ((← m.atGet cfg r c) + (← left.atGet cfg r p) * (← right.atGet cfg p c))) m) m) m

/-- `operator*( const Matrix< N, P, T >& ) const`, 1068-1076. -/
def mul [Zero α] [One α] [Add α] [Mul α] (cfg : Cfg) (a : Mat M N α) (b : Mat N P α) : Res (Mat M P α) := do
  let result ← ctor cfg
  result.multiply cfg a b

/-- `operator*=( const Matrix& right )`, 1080-1088, where `right` is a different object than `*this`. -/
def mulAssign [Zero α] [Add α] [Mul α] (cfg : Cfg) (a b : Mat M M α) : Res (Mat M M α) := do
  a.multiply cfg a b

/-- `operator/( T )`, 1090-1104. -/
def divS [Zero α] [One α] [Div α] (cfg : Cfg) (a : Mat M N α) (s : α) : Res (Mat M N α) := do
  let result ← ctor cfg
  loop M (fun r m => loop N (fun c m => do m.atSet cfg r c ((← a.atGet cfg r c) / s)) m) result

/-- `operator/=( T )`, 1108-1119. -/
def divAssignS [Div α] (cfg : Cfg) (a : Mat M N α) (s : α) : Res (Mat M N α) :=
  loop M (fun r m => loop N (fun c m => do m.atSet cfg r c ((← m.atGet cfg r c) / s)) m) a

/-- `operator*( T )`, 1125-1139. -/
def mulS [Zero α] [One α] [Mul α] (cfg : Cfg) (a : Mat M N α) (s : α) : Res (Mat M N α) := do
  let result ← ctor cfg
  loop M (fun r m => loop N (fun c m => do m.atSet cfg r c ((← a.atGet cfg r c) * s)) m) result

/-- `operator*=( T )`, 1143-1154. -/
def mulAssignS [Mul α] (cfg : Cfg) (a : Mat M N α) (s : α) : Res (Mat M N α) :=
  loop M (fun r m => loop N (fun c m => do m.atSet cfg r c ((← m.atGet cfg r c) * s)) m) a

/-- `operator+=( const Matrix& )`, 1538-1547. -/
def addAssign [Add α] (a b : Mat M N α) : Res (Mat M N α) :=
  loop (M * N) (fun i m => do m.rawSet i ((← m.rawGet i) + (← b.rawGet i))) a

/-- `operator+( const Matrix& ) const`, 1527-1534. -/
def add [Add α] (a b : Mat M N α) : Res (Mat M N α) := a.addAssign b

/-- `operator+=( T )`, 1550-1558. -/
def addAssignS [Add α] (a : Mat M N α) (s : α) : Res (Mat M N α) :=
  loop (M * N) (fun i m => do m.rawSet i ((← m.rawGet i) + s)) a

/-- `operator-=( const Matrix& )`, 1571-1582. -/
def subAssign [Sub α] (a b : Mat M N α) : Res (Mat M N α) :=
  loop (M * N) (fun i m => do m.rawSet i ((← m.rawGet i) - (← b.rawGet i))) a

/-- `operator-( const Matrix& ) const`, 1560-1568. -/
def sub [Sub α] (a b : Mat M N α) : Res (Mat M N α) := a.subAssign b

/-- `operator-=( T )`, 1584-1594. -/
def subAssignS [Sub α] (a : Mat M N α) (s : α) : Res (Mat M N α) :=
  loop (M * N) (fun i m => do m.rawSet i ((← m.rawGet i) - s)) a

/-- `operator*( const Vector< N, T >& ) const`, 1158-1172. -/
def mulVec [Zero α] [Add α] [Mul α] (cfg : Cfg) (a : Mat M N α) (v : Vec N α) : Res (Vec M α) :=
  loop M (fun i res => do
    let tmp ← loop N (fun j tmp => do pure (tmp + (← a.atGet cfg i j) * (← v.atGet cfg j))) 0
    res.atSet cfg i tmp) Vec.zeroCtor

/-- The homogeneous `operator*( const Vector< O, T >& ) const`, 1178-1203, for `M` rows and `N = K + 1`
columns; `O` is any vector size (with `O = K`, `M = K + 1` it is the documented use). -/
def mulVecHom [Zero α] [Add α] [Mul α] [Div α] {K : Nat} (cfg : Cfg) (a : Mat M (K + 1) α) (v : Vec O α) :
    Res (Vec O α) :=
  loop M (fun r res => do
    let tmp ← loop K (fun c tmp => do pure (tmp + (← v.atGet cfg c) * (← a.atGet cfg r c))) 0
    if r < K then
      res.atSet cfg r (tmp + (← a.atGet cfg r K))
    else do
      let tmp := tmp + (← a.atGet cfg r K)
      loop K (fun c res => do res.atSet cfg c ((← res.atGet cfg c) / tmp)) res) Vec.zeroCtor

/-- `negate() const`, 1216-1223, and `operator-() const`, 1207-1212: a default-constructed result is multiplied
by `-1.0`; `*this` is not used. -/
def negate [Zero α] [One α] [Mul α] [Neg α] (cfg : Cfg) (_this : Mat M N α) : Res (Mat M N α) := do
  let result ← ctor cfg
  result.mulAssignS cfg (-1)

/-- `tensor( u, v )`, 1227-1235. -/
def tensor [Mul α] (cfg : Cfg) (m : Mat M N α) (u : Vec M α) (v : Vec N α) : Res (Mat M N α) :=
  loop N (fun c m => loop M (fun r m => do
    m.atSet cfg r c ((← u.rawGet c) * (← v.rawGet r))) m) m

/-- The 4x4 `tensor( u, v )` of 3-vectors, 1239-1258. -/
def tensor4 [One α] [Mul α] (cfg : Cfg) (m : Mat 4 4 α) (u v : Vec 3 α) : Res (Mat 4 4 α) := do
  let m ← loop 3 (fun c m => do
    let m ← loop 3 (fun r m => do m.atSet cfg r c ((← u.rawGet c) * (← v.rawGet r))) m
    m.atSet cfg 3 c (← u.rawGet c)) m
  let m ← loop 3 (fun r m => do m.atSet cfg r 3 (← v.rawGet r)) m
  m.atSet cfg 3 3 1

/-- `transpose_to( tM ) const`, 1262-1274. -/
def transposeTo (cfg : Cfg) (a : Mat M N α) (t : Mat N M α) : Res (Mat N M α) :=
  loop M (fun r t => loop N (fun c t => do t.atSet cfg c r (← a.atGet cfg r c)) t) t

/-- The free function `transpose`, 782-790. -/
def transpose [Zero α] [One α] (cfg : Cfg) (a : Mat M N α) : Res (Mat N M α) := do
  a.transposeTo cfg (← ctor cfg)

/-- `symmetric_covariance( cov ) const`, 1277-1298. The inner loop starts at `col = row`; `tmp` is carried
over the iterations and reset to zero. -/
def symmetricCovariance [Zero α] [Add α] [Mul α] (cfg : Cfg) (a : Mat M N α) (cov : Mat M M α) :
    Res (Mat M M α) := do
  let s ← loop M (fun r s => loop (M - r) (fun d s => do
    let c := r + d
    let tmp ← loop N (fun k tmp => do pure (tmp + (← a.atGet cfg r k) * (← a.atGet cfg c k))) s.2
    let cov ← s.1.atSet cfg r c tmp
    let cov ← cov.atSet cfg c r tmp
    pure (cov, 0)) s) (cov, (0 : α))
  pure s.1

/-! ## Rows, columns, blocks -/

/-- `get_column( index, column ) const`, 1311-1322 and 1340-1348: `memcpy` of `M` cells from `M * index`;
also `get_column( index )`, 1301-1308, with a zero-initialised target. -/
def getColumn (cfg : Cfg) (m : Mat M N α) (index : Nat) (column : Vec M α) : Res (Vec M α) := do
  if cfg.safe && decide (N ≤ index) then vmmlibError cfg
  loop M (fun i v => do v.rawSet i (← m.rawGet (M * index + i))) column

/-- `set_column( index, column )`, 1325-1337 and 1351-1359. -/
def setColumn (cfg : Cfg) (m : Mat M N α) (index : Nat) (column : Vec M α) : Res (Mat M N α) := do
  if cfg.safe && decide (N ≤ index) then vmmlibError cfg
  loop M (fun i m => do m.rawSet (M * index + i) (← column.rawGet i)) m

/-- `get_row( index, row ) const`, 1371-1382 and 1399-1410; also `get_row( index )`, 1362-1368. -/
def getRow (cfg : Cfg) (m : Mat M N α) (index : Nat) (row : Vec N α) : Res (Vec N α) := do
  if cfg.safe && decide (M ≤ index) then vmmlibError cfg
  loop N (fun c v => do v.atSet cfg c (← m.atGet cfg index c)) row

/-- `set_row( index, row )`, 1385-1396 and 1413-1425. -/
def setRow (cfg : Cfg) (m : Mat M N α) (index : Nat) (row : Vec N α) : Res (Mat M N α) := do
  if cfg.safe && decide (M ≤ index) then vmmlibError cfg
  loop N (fun c m => do m.atSet cfg index c (← row.atGet cfg c)) m

/-- `get_sub_matrix( result, row_offset, col_offset ) const`, 1640-1660 (and 1627-1635). -/
def getSubMatrix (cfg : Cfg) (m : Mat M N α) (res : Mat O P α) (ro co : Nat) : Res (Mat O P α) := do
  if cfg.safe && (decide (M < O + ro) || decide (N < P + co)) then vmmlibError cfg
  loop O (fun r res => loop P (fun c res => do
    res.atSet cfg r c (← m.atGet cfg (ro + r) (co + c))) res) res

/-- `set_sub_matrix( sub, row_offset, col_offset )`, 1664-1680 (no check of its own). -/
def setSubMatrix (cfg : Cfg) (m : Mat M N α) (sub : Mat O P α) (ro co : Nat) : Res (Mat M N α) :=
  loop O (fun r m => loop P (fun c m => do
    m.atSet cfg (ro + r) (co + c) (← sub.atGet cfg r c)) m) m

/-- `direct_sum( upper_left, lower_right )`, 1598-1622. -/
def directSum [Zero α] (cfg : Cfg) (m : Mat (O + P) (Q + N) α) (ul : Mat O Q α) (lr : Mat P N α) :
    Res (Mat (O + P) (Q + N) α) := do
  let m ← m.assignFill 0
  let m ← loop O (fun r m => loop Q (fun c m => do m.atSet cfg r c (← ul.atGet cfg r c)) m) m
  loop P (fun r m => loop N (fun c m => do m.atSet cfg (O + r) (Q + c) (← lr.atGet cfg r c)) m) m

/-- `diag( values )`, 2551-2563. -/
def diag [Zero α] (cfg : Cfg) (m : Mat M M α) (d : Vec M α) : Res (Mat M M α) := do
  let m ← m.zero cfg
  loop M (fun r m => do m.atSet cfg r r (← d.atGet cfg r)) m

/-- `khatri_rao_product( right, prod ) const`, 2278-2293. -/
def khatriRao [Mul α] (cfg : Cfg) (a : Mat M N α) (right : Mat O N α) (prod : Mat (M * O) N α) :
    Res (Mat (M * O) N α) :=
  loop N (fun c s => loop M (fun m s => loop O (fun o s => do
    s.atSet cfg (O * m + o) c ((← a.atGet cfg m c) * (← right.atGet cfg o c))) s) s) prod

/-- `kronecker_product( right, result ) const`, 2296-2315. -/
def kronecker [Mul α] (cfg : Cfg) (a : Mat M N α) (right : Mat O P α) (res : Mat (M * O) (N * P) α) :
    Res (Mat (M * O) (N * P) α) :=
  loop M (fun m s => loop N (fun n s => loop O (fun o s => loop P (fun p s => do
    s.atSet cfg (O * m + o) (P * n + p) ((← a.atGet cfg m n) * (← right.atGet cfg o p))) s) s) s) res

/-! ## Determinant, minors, inverse -/

/-- `compute_determinant( Matrix< 1, 1, T > )`, 586-590. -/
def det1 (m : Mat 1 1 α) : Res α := m.rawGet 0

/-- `compute_determinant( Matrix< 2, 2, T > )`, 594-602. -/
def det2 [Sub α] [Mul α] (cfg : Cfg) (m : Mat 2 2 α) : Res α := do
  let a ← m.atGet cfg 0 0
  let b ← m.atGet cfg 0 1
  let c ← m.atGet cfg 1 0
  let d ← m.atGet cfg 1 1
  pure (a * d - b * c)

/-- `compute_determinant( Matrix< 3, 3, T > )`, 606-613. -/
def det3 [Add α] [Sub α] [Mul α] (cfg : Cfg) (m : Mat 3 3 α) : Res α := do
  let at' := m.atGet cfg
  pure ((← at' 0 0) * ((← at' 1 1) * (← at' 2 2) - (← at' 1 2) * (← at' 2 1))
    + (← at' 0 1) * ((← at' 1 2) * (← at' 2 0) - (← at' 1 0) * (← at' 2 2))
    + (← at' 0 2) * ((← at' 1 0) * (← at' 2 1) - (← at' 1 1) * (← at' 2 0)))

/-- `compute_determinant( Matrix< 4, 4, T > )`, 616-661. -/
def det4 [Add α] [Sub α] [Mul α] (cfg : Cfg) (m : Mat 4 4 α) : Res α := do
  let m00 ← m.atGet cfg 0 0
  let m10 ← m.atGet cfg 1 0
  let m20 ← m.atGet cfg 2 0
  let m30 ← m.atGet cfg 3 0
  let m01 ← m.atGet cfg 0 1
  let m11 ← m.atGet cfg 1 1
  let m21 ← m.atGet cfg 2 1
  let m31 ← m.atGet cfg 3 1
  let m02 ← m.atGet cfg 0 2
  let m12 ← m.atGet cfg 1 2
  let m22 ← m.atGet cfg 2 2
  let m32 ← m.atGet cfg 3 2
  let m03 ← m.atGet cfg 0 3
  let m13 ← m.atGet cfg 1 3
  let m23 ← m.atGet cfg 2 3
  let m33 ← m.atGet cfg 3 3
  pure (m03 * m12 * m21 * m30
    - m02 * m13 * m21 * m30
    - m03 * m11 * m22 * m30
    + m01 * m13 * m22 * m30
    + m02 * m11 * m23 * m30
    - m01 * m12 * m23 * m30
    - m03 * m12 * m20 * m31
    + m02 * m13 * m20 * m31
    + m03 * m10 * m22 * m31
    - m00 * m13 * m22 * m31
    - m02 * m10 * m23 * m31
    + m00 * m12 * m23 * m31
    + m03 * m11 * m20 * m32
    - m01 * m13 * m20 * m32
    - m03 * m10 * m21 * m32
    + m00 * m13 * m21 * m32
    + m01 * m10 * m23 * m32
    - m00 * m11 * m23 * m32
    - m02 * m11 * m20 * m33
    + m01 * m12 * m20 * m33
    + m02 * m10 * m21 * m33
    - m00 * m12 * m21 * m33
    - m01 * m10 * m22 * m33
    + m00 * m11 * m22 * m33)

/-- `det() const`, 1684-1689: overload resolution of `compute_determinant` on the (static) size. Other sizes
than 1..4 do not compile; the model makes them a fault. -/
def det [Add α] [Sub α] [Mul α] (cfg : Cfg) : {n : Nat} → Mat n n α → Res α
  | 1, m => det1 m
  | 2, m => det2 cfg m
  | 3, m => det3 cfg m
  | 4, m => det4 cfg m
  | _, _ => throw .ub

/-- `size_t` addition, modulo 2^64 (LP64). -/
def sizeAdd (a b : Nat) : Nat := (a + b) % 2 ^ 64
/-- `size_t( -1 )`. -/
def sizeMinusOne : Nat := 2 ^ 64 - 1

/-- The copying loops of `get_minor( minor_, row_to_cut, col_to_cut ) const`, 1750-1766, for a
`(K+1) x (K+1)` matrix. `row_offset = -1` stores `size_t( -1 )`. The state is
`(minor_, row_offset, col_offset)`. -/
def minorLoop {K : Nat} (cfg : Cfg) (m : Mat (K + 1) (K + 1) α) (minor : Mat K K α) (rcut ccut : Nat) :
    Res (Mat K K α) := do
  let s ← loop (K + 1) (fun r s =>
    if r = rcut then pure (s.1, sizeMinusOne, s.2.2)
    else do
      let s ← loop (K + 1) (fun c s =>
        if c = ccut then pure (s.1, s.2.1, sizeMinusOne)
        else do
          let x ← m.atGet cfg r c
          let mn ← s.1.atSet cfg (sizeAdd r s.2.1) (sizeAdd c s.2.2) x
          pure (mn, s.2.1, s.2.2)) s
      pure (s.1, s.2.1, 0)) (minor, 0, 0)
  pure s.1

/-- `get_minor`, 1743-1769: returns the filled minor and its determinant. -/
def getMinor [Add α] [Sub α] [Mul α] {K : Nat} (cfg : Cfg) (m : Mat (K + 1) (K + 1) α) (minor : Mat K K α)
    (rcut ccut : Nat) : Res (Mat K K α × α) := do
  let minor ← m.minorLoop cfg minor rcut ccut
  pure (minor, ← minor.det cfg)

/-- `get_cofactors( cofactors ) const`, 1719-1739. -/
def getCofactors [Zero α] [One α] [Add α] [Sub α] [Mul α] [Neg α] {K : Nat} (cfg : Cfg)
    (m : Mat (K + 1) (K + 1) α) (cof : Mat (K + 1) (K + 1) α) : Res (Mat (K + 1) (K + 1) α) := do
  let minor ← ctor cfg
  let s ← loop (K + 1) (fun r s => loop (K + 1) (fun c s => do
    let (minor, d) ← m.getMinor cfg s.2 r c
    let x := if (r + c) % 2 = 1 then -d else d
    let cof ← s.1.atSet cfg r c x
    pure (cof, minor)) s) (cof, minor)
  pure s.1

/-- `get_adjugate( adjugate ) const`, 1706-1715. -/
def getAdjugate [Zero α] [One α] [Add α] [Sub α] [Mul α] [Neg α] {K : Nat} (cfg : Cfg)
    (m : Mat (K + 1) (K + 1) α) (adj : Mat (K + 1) (K + 1) α) : Res (Mat (K + 1) (K + 1) α) := do
  let adj ← m.getCofactors cfg adj
  adj.assign (← adj.transpose cfg)

/-- `compute_inverse` 2x2, 665-679: returns `(result, inverse_)`. `m` and `inv` are distinct objects. -/
def inverse2 [Zero α] [One α] [Add α] [Sub α] [Mul α] [Neg α] [Div α] [LT α] [DecidableLT α] [CMath α]
    (cfg : Cfg) (m inv : Mat 2 2 α) (tol : α) : Res (Bool × Mat 2 2 α) := do
  let d ← m.det2 cfg
  if CMath.fabs d < tol then pure (false, inv)
  else do
    let detinv := 1 / d
    let inv ← m.getAdjugate (K := 1) cfg inv
    let inv ← inv.mulAssignS cfg detinv
    pure (true, inv)

/-- `compute_inverse` 3x3, 683-719. `m` and `inv` are distinct objects. -/
def inverse3 [One α] [Add α] [Sub α] [Mul α] [Div α] [LE α] [DecidableLE α] [CMath α]
    (cfg : Cfg) (m inv : Mat 3 3 α) (tol : α) : Res (Bool × Mat 3 3 α) := do
  let at' := m.atGet cfg
  let inv ← inv.atSet cfg 0 0 ((← at' 1 1) * (← at' 2 2) - (← at' 1 2) * (← at' 2 1))
  let inv ← inv.atSet cfg 0 1 ((← at' 0 2) * (← at' 2 1) - (← at' 0 1) * (← at' 2 2))
  let inv ← inv.atSet cfg 0 2 ((← at' 0 1) * (← at' 1 2) - (← at' 0 2) * (← at' 1 1))
  let inv ← inv.atSet cfg 1 0 ((← at' 1 2) * (← at' 2 0) - (← at' 1 0) * (← at' 2 2))
  let inv ← inv.atSet cfg 1 1 ((← at' 0 0) * (← at' 2 2) - (← at' 0 2) * (← at' 2 0))
  let inv ← inv.atSet cfg 1 2 ((← at' 0 2) * (← at' 1 0) - (← at' 0 0) * (← at' 1 2))
  let inv ← inv.atSet cfg 2 0 ((← at' 1 0) * (← at' 2 1) - (← at' 1 1) * (← at' 2 0))
  let inv ← inv.atSet cfg 2 1 ((← at' 0 1) * (← at' 2 0) - (← at' 0 0) * (← at' 2 1))
  let inv ← inv.atSet cfg 2 2 ((← at' 0 0) * (← at' 1 1) - (← at' 0 1) * (← at' 1 0))
  let determinant := (← at' 0 0) * (← inv.atGet cfg 0 0) + (← at' 0 1) * (← inv.atGet cfg 1 0)
    + (← at' 0 2) * (← inv.atGet cfg 2 0)
  if CMath.fabs determinant ≤ tol then pure (false, inv)
  else do
    let detinv := 1 / determinant
    let inv ← inv.atSet cfg 0 0 ((← inv.atGet cfg 0 0) * detinv)
    let inv ← inv.atSet cfg 0 1 ((← inv.atGet cfg 0 1) * detinv)
    let inv ← inv.atSet cfg 0 2 ((← inv.atGet cfg 0 2) * detinv)
    let inv ← inv.atSet cfg 1 0 ((← inv.atGet cfg 1 0) * detinv)
    let inv ← inv.atSet cfg 1 1 ((← inv.atGet cfg 1 1) * detinv)
    let inv ← inv.atSet cfg 1 2 ((← inv.atGet cfg 1 2) * detinv)
    let inv ← inv.atSet cfg 2 0 ((← inv.atGet cfg 2 0) * detinv)
    let inv ← inv.atSet cfg 2 1 ((← inv.atGet cfg 2 1) * detinv)
    let inv ← inv.atSet cfg 2 2 ((← inv.atGet cfg 2 2) * detinv)
    pure (true, inv)

/-- The comatrix part of `compute_inverse` 4x4, 727-765: the sixteen assignments to `inv_.array`,
`a` being `m_.array`. -/
def comatrix4 [Add α] [Sub α] [Mul α] (a inv : Vec 16 α) : Vec 16 α :=
  let t10 := a[2] * a[7] - a[6] * a[3]
  let t11 := a[2] * a[11] - a[10] * a[3]
  let t12 := a[2] * a[15] - a[14] * a[3]
  let t13 := a[6] * a[11] - a[10] * a[7]
  let t14 := a[6] * a[15] - a[14] * a[7]
  let t15 := a[10] * a[15] - a[14] * a[11]
  let inv := inv.set 0 (a[5] * t15 - a[9] * t14 + a[13] * t13)
  let inv := inv.set 1 (a[9] * t12 - a[13] * t11 - a[1] * t15)
  let inv := inv.set 2 (a[13] * t10 - a[5] * t12 + a[1] * t14)
  let inv := inv.set 3 (a[5] * t11 - a[1] * t13 - a[9] * t10)
  let inv := inv.set 4 (a[8] * t14 - a[4] * t15 - a[12] * t13)
  let inv := inv.set 5 (a[0] * t15 - a[8] * t12 + a[12] * t11)
  let inv := inv.set 6 (a[4] * t12 - a[12] * t10 - a[0] * t14)
  let inv := inv.set 7 (a[0] * t13 - a[4] * t11 + a[8] * t10)
  let t20 := a[0] * a[5] - a[4] * a[1]
  let t21 := a[0] * a[9] - a[8] * a[1]
  let t22 := a[0] * a[13] - a[12] * a[1]
  let t23 := a[4] * a[9] - a[8] * a[5]
  let t24 := a[4] * a[13] - a[12] * a[5]
  let t25 := a[8] * a[13] - a[12] * a[9]
  let inv := inv.set 8 (a[7] * t25 - a[11] * t24 + a[15] * t23)
  let inv := inv.set 9 (a[11] * t22 - a[15] * t21 - a[3] * t25)
  let inv := inv.set 10 (a[15] * t20 - a[7] * t22 + a[3] * t24)
  let inv := inv.set 11 (a[7] * t21 - a[3] * t23 - a[11] * t20)
  let inv := inv.set 12 (a[10] * t24 - a[6] * t25 - a[14] * t23)
  let inv := inv.set 13 (a[2] * t25 - a[10] * t22 + a[14] * t21)
  let inv := inv.set 14 (a[6] * t22 - a[14] * t20 - a[2] * t24)
  let inv := inv.set 15 (a[2] * t23 - a[6] * t21 + a[10] * t20)
  inv

/-- `compute_inverse` 4x4, 722-778. `m` and `inv` are distinct objects. -/
def inverse4 [One α] [Add α] [Sub α] [Mul α] [Div α] [LE α] [DecidableLE α] [CMath α]
    (m inv : Mat 4 4 α) (tol : α) : Res (Bool × Mat 4 4 α) := do
  let a := m.array
  let inv : Mat 4 4 α := ⟨comatrix4 a inv.array⟩
  let determinant := a[0] * inv.array[0] + a[4] * inv.array[1] + a[8] * inv.array[2] + a[12] * inv.array[3]
  if CMath.fabs determinant ≤ tol then pure (false, inv)
  else do
    let detinv := 1 / determinant
    let inv ← loop 16 (fun i inv => do inv.rawSet i ((← inv.rawGet i) * detinv)) inv
    pure (true, inv)

/-- `inverse( inverse_, tolerance ) const`, 1693-1701: overload resolution of `compute_inverse` on the (static) size.
Other sizes than 2, 3, 4 are excluded by `enable_if`; the model makes them a fault. -/
def inverse [Zero α] [One α] [Add α] [Sub α] [Mul α] [Neg α] [Div α] [LT α] [DecidableLT α] [LE α] [DecidableLE α]
    [CMath α] (cfg : Cfg) : {n : Nat} → Mat n n α → Mat n n α → α → Res (Bool × Mat n n α)
  | 2, m, inv, tol => inverse2 cfg m inv tol
  | 3, m, inv, tol => inverse3 cfg m inv tol
  | 4, m, inv, tol => inverse4 m inv tol
  | _, _, _, _ => throw .ub

/-- `is_positive_definite( matrix, limit )`, 793-820, for a square matrix of size 1, 2 or 3.
(The branches for `M > 1`, `M > 2` are static.) -/
def isPositiveDefinite [Zero α] [One α] [Add α] [Sub α] [Mul α] [LT α] [DecidableLT α] (cfg : Cfg)
    (m : Mat M M α) (limit : α) : Res Bool := do
  if (← m.atGet cfg 0 0) < limit then pure false
  else do
    let ok ← if 1 < M then do
        let s : Mat 2 2 α ← ctor cfg
        let s ← m.getSubMatrix cfg s 0 0
        pure (decide (¬ (← s.det2 cfg) < limit))
      else pure true
    if ok = false then pure false
    else if 2 < M then do
        let s : Mat 3 3 α ← ctor cfg
        let s ← m.getSubMatrix cfg s 0 0
        pure (decide (¬ (← s.det3 cfg) < limit))
      else pure true

end Mat
end Vmml
