import Verif.C.Basic

/-!
# Model of the alignment macros, `/repo/include/gutil_macros.h`

`w` is the width of the (promoted) type of the argument, at least 32. The constant is converted to that type (`~1` is negative,
so that its upper bits are ones). `G_CAST` at lines 38-39 is in `Model/MacrosCast.lean`.
-/

namespace Verif.Macros

/-- `(((value)+1) & ~1)`, include/gutil_macros.h:41 -/
def align2 {w : Nat} (v : BitVec w) : BitVec w := (v + 1#w) &&& ~~~1#w

/-- `(((value)+3) & ~3)`, include/gutil_macros.h:42 -/
def align4 {w : Nat} (v : BitVec w) : BitVec w := (v + 3#w) &&& ~~~3#w

/-- `(((value)+7) & ~7)`, include/gutil_macros.h:43 -/
def align8 {w : Nat} (v : BitVec w) : BitVec w := (v + 7#w) &&& ~~~7#w

end Verif.Macros
