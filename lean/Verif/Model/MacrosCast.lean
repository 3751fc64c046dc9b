import Verif.C.Basic

/-!
# Model of `G_CAST`, `/repo/include/gutil_macros.h`

Layout of structures is that of the usual C ABIs: each field is at the first offset which isn't before the end of the previous one and is a multiple of
its alignment. An array of structures, or a structure inside of another one, begins at an arbitrary offset in its block of memory. A pointer to a field of a
field is casted in two steps (offsets of the fields are added up by the compiler, too). Alignment of the pointer being returned isn't checked.
-/

namespace Verif.Macros
open Verif.C

/-- A field of `type`, the second argument of `G_CAST`, include/gutil_macros.h:38 -/
structure Field where
  size : Nat
  align : Nat
  deriving DecidableEq, Repr

/-- The least multiple of `a` which isn't less than `n`. Used by `G_STRUCT_OFFSET`, that is `offsetof`, at include/gutil_macros.h:39 -/
def roundUp (n a : Nat) : Nat := (n + a - 1) / a * a

/-- Offsets of the fields, the previous one ends at `n`. `G_STRUCT_OFFSET` at include/gutil_macros.h:39 -/
def offsets (n : Nat) : List Field → List Nat
  | [] => []
  | f :: t => roundUp n f.align :: offsets (roundUp n f.align + f.size) t

/-- `G_STRUCT_OFFSET(type,field)` at include/gutil_macros.h:39; the field is given by its number. -/
def offsetOf (fs : List Field) (i : Nat) : Nat := ((offsets 0 fs)[i]?).getD 0

/-- An address: a block of memory and an offset. The argument of `G_CAST`, include/gutil_macros.h:38 -/
structure Addr where
  block : Nat
  off : Nat
  deriving DecidableEq, Repr

/-- `&p->field`, which is what the argument of `G_CAST` (include/gutil_macros.h:38) is supposed to be -/
def member (p : Addr) (fs : List Field) (i : Nat) : Addr := ⟨p.block, p.off + offsetOf fs i⟩

/-- `((type *)((guint8*)(address) - G_STRUCT_OFFSET(type,field)))`, include/gutil_macros.h:38-39. Pointers to what is before the block of memory are undefined. -/
def cast (q : Addr) (fs : List Field) (i : Nat) : M Addr :=
  if offsetOf fs i ≤ q.off then .ok ⟨q.block, q.off - offsetOf fs i⟩ else .error .badPtr

end Verif.Macros
