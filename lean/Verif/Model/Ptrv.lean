import Verif.C.Ptrv

/-! # Model of the pointer vector functions of `/repo/src/gutil_misc.c` -/

namespace Verif.Ptrv
open Verif.C

/-- The loop `while (*ptr++) len++`, src/gutil_misc.c:705. The rest of the block stands for
the pointer into it. -/
def lengthLoop : Block → Nat → M Nat
  | [], _ => .error .oobRead
  | c :: t, len => do
    let p ← load c
    if p.isSome then lengthLoop t (len + 1) else .ok len

/-- `gutil_ptrv_length`, src/gutil_misc.c:697-710. Machine integers being 64 bit wide, `len`
can't overflow. -/
def length : Vec → M Nat
  | some b => lengthLoop b 0
  | none => .ok 0

/-- `gutil_ptrv_is_empty`, src/gutil_misc.c:712-717 -/
def isEmpty : Vec → M Bool
  | none => .ok true
  | some b => do
    let p ← deref b 0
    .ok p.isNone

/-- The loop in `gutil_ptrv_free`, src/gutil_misc.c:727 -/
def freeLoop (h : Heap) : Block → M Heap
  | [] => .error .oobRead
  | c :: t => do
    let p ← load c
    match p with
    | some a => do
      let h ← gfree h (some a)
      freeLoop h t
    | none => .ok h

/-- `gutil_ptrv_free`, src/gutil_misc.c:719-730 (and `g_strfreev`). The block itself is gone
since nobody has the pointer. -/
def free (h : Heap) : Vec → M Heap
  | none => .ok h
  | some b => freeLoop h b

end Verif.Ptrv
