import Verif.Core.Basic

/-!
# Model of `vmmlib/version.in.hpp` (comparison macros) and of the texts of `vmmlib/exception.hpp`
-/

namespace Vmml

/-- A version: `VMMLIB_VERSION_MAJOR`, `_MINOR`, `_PATCH` as substituted by CMake, version.in.hpp:40-46. The arguments of the macros are integer
constant expressions; they are modelled by their values (an argument with an operator of lower precedence than a comparison would be regrouped by the
macro expansion, which is not modelled). -/
structure Version where
  major : Int
  minor : Int
  patch : Int
  deriving DecidableEq

namespace Version
/-- `VMMLIB_VERSION_GT( MAJOR, MINOR, PATCH )`, version.in.hpp:49-53, `v` being the current version. -/
def gt (v : Version) (major minor patch : Int) : Bool :=
  decide (v.major > major) || (decide (v.major = major) && (decide (v.minor > minor) || (decide (v.minor = minor) && decide (v.patch > patch))))
/-- `VMMLIB_VERSION_GE`, version.in.hpp:56-60. -/
def ge (v : Version) (major minor patch : Int) : Bool :=
  decide (v.major > major) || (decide (v.major = major) && (decide (v.minor > minor) || (decide (v.minor = minor) && decide (v.patch ≥ patch))))
/-- `VMMLIB_VERSION_LT`, version.in.hpp:63-67. -/
def lt (v : Version) (major minor patch : Int) : Bool :=
  decide (v.major < major) || (decide (v.major = major) && (decide (v.minor < minor) || (decide (v.minor = minor) && decide (v.patch < patch))))
/-- `VMMLIB_VERSION_LE`, version.in.hpp:70-74. -/
def le (v : Version) (major minor patch : Int) : Bool :=
  decide (v.major < major) || (decide (v.major = major) && (decide (v.minor < minor) || (decide (v.minor = minor) && decide (v.patch ≤ patch))))
end Version

/-- `except_here`, exception.hpp:56-61: file name and line; `VMMLIB_HERE`, 43. -/
structure Here where
  file : List Char
  line : Int

/-- The decimal representation of an `int` written by `ostream << int`. -/
def showInt (n : Int) : List Char := (toString n).toList

/-- The constructor `exception( desc, here )`, exception.hpp:81-87: the stored description. -/
def exceptionText (desc : List Char) (here : Here) : List Char :=
  here.file ++ "(".toList ++ showInt here.line ++ "): - ".toList ++ desc ++ "\n".toList

/-- What a reader of a `const char*` sees: the characters before the first NUL. -/
def cString (s : List Char) : List Char := s.takeWhile (· ≠ '\x00')

/-- `what()`, exception.hpp:91. -/
def what (stored : List Char) : List Char := cString stored

/-- `VMMLIB_ERROR( desc, here )`, exception.hpp:46-50 and `error_noexcept`, 64-72: the text of the thrown exception, or the text written to
`std::cerr` and the continuation of the program. -/
inductive Report
  | thrown (stored : List Char)
  | aborted (cerr : List Char)
  | continued (cerr : List Char)

/-- As above, `cerr` being what was written to `std::cerr` before. -/
def report (cfg : Cfg) (desc : List Char) (here : Here) (cerr : List Char) : Report :=
  if cfg.throws then .thrown (exceptionText desc here)
  else
    let cerr := cerr ++ "vmmlib error at ".toList ++ here.file ++ ":".toList ++ showInt here.line ++ "\n".toList ++ desc ++ "\n".toList
    if cfg.ndebug then .continued cerr else .aborted cerr

end Vmml
