import Verif.C.Basic

/-!
# Model of `/repo/include/gutil_version.h` and `/repo/src/gutil_version.c`

The values are `guint` (`gutil_version`) or non-negative `int` (compile time constants) which makes no difference for
the expressions below: after masking, nothing gets shifted out and the sign bit stays zero.
-/

namespace Verif.Version

/-- `GUTIL_VERSION_`, include/gutil_version.h:57-60 -/
def pack (v1 v2 v3 : BitVec 32) : BitVec 32 :=
  ((v1 &&& 0x7f#32) <<< 24) ||| ((v2 &&& 0xfff#32) <<< 12) ||| (v3 &&& 0xfff#32)

/-- `GUTIL_VERSION_MAJOR_`, include/gutil_version.h:62 -/
def majorOf (v : BitVec 32) : BitVec 32 := (v >>> 24) &&& 0x7f#32

/-- `GUTIL_VERSION_MINOR_`, include/gutil_version.h:63 -/
def minorOf (v : BitVec 32) : BitVec 32 := (v >>> 12) &&& 0xfff#32

/-- `GUTIL_VERSION_MICRO_`, include/gutil_version.h:64 -/
def microOf (v : BitVec 32) : BitVec 32 := v &&& 0xfff#32

/-- `GUTIL_VERSION_MAJOR`, `GUTIL_VERSION_MINOR` and `GUTIL_VERSION_MICRO`, include/gutil_version.h:47-49 -/
def components : BitVec 32 × BitVec 32 × BitVec 32 := (1, 0, 79)

/-- `GUTIL_VERSION_STRING`, include/gutil_version.h:50 -/
def string : String := "1.0.79"

/-- `GUTIL_VERSION`, include/gutil_version.h:67-68 -/
def compileTime : BitVec 32 := pack components.1 components.2.1 components.2.2

/-- `gutil_version_major`, `gutil_version_minor` and `gutil_version_micro`, src/gutil_version.c:38-40 -/
def variables : BitVec 32 × BitVec 32 × BitVec 32 := components

/-- `gutil_version()`, include/gutil_version.h:71-72 -/
def runTime : BitVec 32 := pack variables.1 variables.2.1 variables.2.2

/-- The tokens of interest: a call of `GUTIL_VERSION_` with constant arguments, and a parenthesis. include/gutil_version.h:57-85. -/
inductive Token
  | version (v1 v2 v3 : Nat)
  | close
  deriving DecidableEq, Repr

/-- The macros for specific versions 1.0.x, include/gutil_version.h:75-85 -/
def specific (x : Nat) : Option (List Token) :=
  if x ∈ [69, 70, 71, 72, 73, 74] then some [.version 1 0 x]
  else if x ∈ [75, 76, 77, 78, 79] then some [.version 1 0 x, .close]
  else none

/-- The value of an expression which consists of the given tokens, if it is an expression at all.
No code of the library: that's what the compiler does with the text of include/gutil_version.h:57-85. -/
def value : List Token → Option (BitVec 32)
  | [.version v1 v2 v3] => some (pack v1 v2 v3)
  | _ => none

end Verif.Version
