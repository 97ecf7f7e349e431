import Verif.Model.Matrix
import Mathlib.Data.Nat.Digits.Defs

/-!
# Streams and raw files

Line numbers without a file name refer to `vmmlib/matrix.hpp`.
-/

namespace Vmml
variable {M N : Nat} {α : Type}

/-! ## Text streams -/

/-- The stream operators of an element type: `fmt x` are the characters `os << x` appends; `parse` is what `is >> x` does at a
position of the input: the value read and the remaining characters, or `none` if nothing can be read. (Standard library, not vmmlib code;
the theorems say what they assume of it.) -/
structure TextIO (α : Type) where
  fmt : α → List Char
  parse : List Char → Option (α × List Char)

/-- An input stream: the characters not yet consumed and `failbit`. -/
structure IStream where
  chars : List Char
  fail : Bool
  deriving DecidableEq

/-- `is >> x`: nothing happens (and `x` keeps its value) on a failed stream; a failed extraction sets `failbit` and `x` to
zero (C++11 `num_get`). -/
def IStream.extract [Zero α] (io : TextIO α) (is : IStream) (x : α) : α × IStream :=
  if is.fail then (x, is) else
  match io.parse is.chars with
  | some (y, rest) => (y, ⟨rest, false⟩)
  | none => (0, ⟨is.chars, true⟩)

/-- `Matrix::write_to_stream`, 2758-2768: the characters appended to the stream. -/
def Mat.writeToStream (cfg : Cfg) (io : TextIO α) (m : Mat M N α) (os : List Char) : Res (List Char) :=
  loop M (fun row os => loop N (fun col os => do pure (os ++ io.fmt (← m.atGet cfg row col) ++ [' '])) os) os

/-- `Matrix::read_from_stream`, 2744-2756. -/
def Mat.readFromStream [Zero α] (cfg : Cfg) (io : TextIO α) (m : Mat M N α) (is : IStream) : Res (Mat M N α × IStream) :=
  loop M (fun row s => loop N (fun col s => do
    let r := s.2.extract io (← s.1.atGet cfg row col)
    pure (← s.1.atSet cfg row col r.1, r.2)) s) (m, is)

/-- `Vector::write_to_stream`, vector.hpp:1727-1735. -/
def Vec.writeToStream (cfg : Cfg) (io : TextIO α) (v : Vec M α) (os : List Char) : Res (List Char) :=
  loop M (fun i os => do pure (os ++ io.fmt (← v.atGet cfg i) ++ [' '])) os

/-- `Vector::read_from_stream`, vector.hpp:1717-1725. -/
def Vec.readFromStream [Zero α] (cfg : Cfg) (io : TextIO α) (v : Vec M α) (is : IStream) : Res (Vec M α × IStream) :=
  loop M (fun i s => do
    let r := s.2.extract io (← s.1.atGet cfg i)
    pure (← s.1.atSet cfg i r.1, r.2)) (v, is)

/-! ## Formatted output -/

/-- The formatting state of an `ostream`. -/
structure Ios where
  /-- `fmtflags` -/
  flags : BitVec 32
  /-- `precision()` -/
  prec : Nat
  /-- `width()` -/
  width : Nat
  /-- `fill()` -/
  fill : Char
  deriving DecidableEq

namespace Ios
/-- `std::ios::internal` (libstdc++ `_S_internal`). -/
def internal : BitVec 32 := 0x10#32
/-- `std::ios::left` (libstdc++ `_S_left`). -/
def left : BitVec 32 := 0x20#32
/-- `std::ios::right` (libstdc++ `_S_right`). -/
def right : BitVec 32 := 0x80#32
/-- `std::ios::adjustfield`. -/
def adjustfield : BitVec 32 := left ||| right ||| internal
/-- The flags of a new stream: `skipws | dec`. -/
def default : BitVec 32 := 0x1002#32
/-- `os.setf( f )`: sets the flags `f`, clears none. -/
def setf (s : Ios) (f : BitVec 32) : Ios := { s with flags := s.flags ||| f }
/-- `os.setf( f, mask )`: clears `mask`, then sets `f & mask`. -/
def setfMask (s : Ios) (f mask : BitVec 32) : Ios := { s with flags := (s.flags &&& ~~~mask) ||| (f &&& mask) }
end Ios

/-- An output stream: characters written so far and the formatting state. -/
structure OStream where
  out : List Char
  ios : Ios

/-- `os << s` for text and for an element whose characters at the current formatting state are `s`: the text is filled up to
`width()`, which is then reset to 0; on the right if `adjustfield` is `left`, otherwise on the left. (For numbers and
`internal` adjustment the fill goes after the sign; no operator of the library prints a number with a nonzero width
without having selected `right` before.) -/
def OStream.put (os : OStream) (s : List Char) : OStream :=
  let pad := List.replicate (os.ios.width - s.length) os.ios.fill
  ⟨os.out ++ (if os.ios.flags &&& Ios.adjustfield = Ios.left then s ++ pad else pad ++ s), { os.ios with width := 0 }⟩

/-- `os << std::endl`: an unformatted `put( '\n' )`. -/
def OStream.endl (os : OStream) : OStream := { os with out := os.out ++ ['\n'] }

/-- `os << std::setw( n )`. -/
def OStream.setw (os : OStream) (n : Nat) : OStream := { os with ios := { os.ios with width := n } }

/-- `operator<<( ostream&, const Vector& )`, vector.hpp:339-353. `fmt ios x` are the characters of an element at formatting state
`ios`. -/
def Vec.print (cfg : Cfg) (fmt : Ios → α → List Char) (v : Vec M α) (os : OStream) : Res OStream := do
  let flags := os.ios.flags
  let prec := os.ios.prec
  let os := { os with ios := os.ios.setfMask Ios.right Ios.adjustfield }
  let os := { os with ios := { os.ios with prec := 5 } }
  let os := os.put ['[', ' ']
  let os ← loop M (fun i os => do
    let os := os.setw 10
    let os := os.put (fmt os.ios (← v.atGet cfg i))
    pure (os.put [' '])) os
  let os := os.put [']']
  let os := { os with ios := { os.ios with prec := prec } }
  pure { os with ios := os.ios.setf flags }

/-- `operator<<( ostream&, const Matrix& )`, 454-473. -/
def Mat.print (cfg : Cfg) (fmt : Ios → α → List Char) (m : Mat M N α) (os : OStream) : Res OStream := do
  let flags := os.ios.flags
  let prec := os.ios.prec
  let os := { os with ios := os.ios.setfMask Ios.right Ios.adjustfield }
  let os := { os with ios := { os.ios with prec := 5 } }
  let os ← loop M (fun row os => do
    let os := os.put ['|']
    let os ← loop N (fun col os => do
      let os := os.setw 10
      let os := os.put (fmt os.ios (← m.atGet cfg row col))
      pure (os.put [' '])) os
    pure ((os.put ['|']).endl)) os
  let os := { os with ios := { os.ios with prec := prec } }
  pure { os with ios := os.ios.setf flags }

/-! ## Raw files -/

/-- The file system: contents of the existing files. -/
abbrev Files := List Char → Option (List UInt8)

/-- Position of the last `/`, `-1` (`npos` stored in an `int`) if there is none: `dir_.find_last_of( "/" )`. -/
def lastSeparator (dir : List Char) : Int :=
  match (dir.reverse.findIdx? (· == '/')) with
  | some k => (dir.length : Int) - 1 - k
  | none => -1

/-- The path built from directory and file name, 2612-2618 and 2641-2647: a `/` is inserted unless the directory's last separator is
its last character (or the directory is empty: `dir_length` and `last_separator` are both `-1`). Names are assumed to be
shorter than `2^31` so that the conversions to `int` do not wrap. -/
def rawPath (dir name : List Char) : List Char :=
  let dirLength : Int := (dir.length : Int) - 1
  let path := if lastSeparator dir < dirLength then dir ++ ['/'] else dir
  path ++ name

/-- `name.find( suffix, name.size() - 3 ) == npos`, 2620 (three-letter suffix): with fewer than three characters the start position
wraps around and nothing is found; otherwise only the last three characters can match. -/
def noSuffix (suffix name : List Char) : Bool :=
  if name.length < 3 then true else !(name.drop (name.length - 3) == suffix)

/-- The name of the file `write_to_raw` writes, 2612-2625. -/
def writePath (dir name : List Char) : List Char :=
  let path := rawPath dir name
  if noSuffix ['r', 'a', 'w'] name then path ++ ['.'] ++ ['r', 'a', 'w'] else path

/-- `write_to_raw`, 2608-2635: the file is created or truncated and receives the bytes of the array, in memory order. If it cannot be
opened (`canOpen`), a message is printed and nothing else happens. -/
def Mat.writeToRaw (bytes : α → List UInt8) (canOpen : List Char → Bool) (m : Mat M N α) (dir name : List Char) (fs : Files) : Files :=
  let path := writePath dir name
  if canOpen path then fun p => if p = path then some (m.array.toList.flatMap bytes) else fs p else fs

/-- `size_t` subtraction `a -= b` (64 bit). -/
def subSizeT (a b : Nat) : Nat := if b ≤ a then a - b else a + 2 ^ 64 - b

/-- The element loop of `read_from_raw`, 2668-2671: `n` is the number of elements left (`it_end - it`), `ptr` the offset of `T_ptr` in
the buffer, `len` is `len_read`. Reading past the end of the buffer is undefined. -/
def rawElements (s : Nat) (ofBytes : List UInt8 → α) (data : List UInt8) : Nat → Nat → Nat → Nat → Vector α (M * N) →
    Res (Nat × Vector α (M * N))
  | 0, it, _, _, a => pure (it, a)
  | n + 1, it, ptr, len, a =>
    if len = 0 then pure (it, a)
    else if data.length < ptr + s then throw .ub
    else if h : it < M * N then
      rawElements s ofBytes data n (it + 1) (ptr + s) (subSizeT len s) (a.set it (ofBytes ((data.drop ptr).take s)))
    else throw .ub

/-- One `infile.read( data, n )`: copies the next (at most `n`) bytes of the file to the front of the buffer. -/
def bufRead (data file : List UInt8) (n : Nat) : List UInt8 :=
  let got := file.take n
  got ++ data.drop got.length

/-- The chunk loop of `read_from_raw`, 2659-2673; `maxLen` is `max_file_len`. Each iteration reads at least one byte,
hence the loop ends. -/
def rawChunks (s : Nat) (ofBytes : List UInt8 → α) (maxLen : Nat) (len : Nat) (file data : List UInt8) (it : Nat) (a : Vector α (M * N)) :
    Res (Vector α (M * N)) :=
  if h : len = 0 then pure a
  else
    let lenRead := if 0 < len % maxLen then len % maxLen else len
    let data' := bufRead data file lenRead
    do
      let r ← rawElements s ofBytes data' (M * N - it) it 0 lenRead a
      rawChunks s ofBytes maxLen (len - lenRead) (file.drop lenRead) data' r.1 r.2
termination_by len
decreasing_by split <;> omega

/-- `read_from_raw`, 2637-2683. `s` is `sizeof( T )` (below `2^31`), `junk` the uninitialised contents of the buffer. A file that does not exist
(or cannot be opened) leaves the matrix as it is. -/
def Mat.readFromRaw (s : Nat) (ofBytes : List UInt8 → α) (canOpen : List Char → Bool) (junk : Nat → UInt8) (m : Mat M N α)
    (dir name : List Char) (fs : Files) : Res (Mat M N α) :=
  let path := rawPath dir name
  let maxLen := 2147483648 - s
  let len := s * (M * N)
  let data := List.ofFn (n := len) fun i => junk i.1
  if canOpen path then
    match fs path with
    | some file => do pure ⟨← rawChunks s ofBytes maxLen len file data 0 m.array⟩
    | none => pure m
  else pure m

end Vmml
