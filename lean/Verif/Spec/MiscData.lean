import Verif.Model.MiscData

/-!
# What a block of data contains

Only the definitions of `Data` and `Range` are used here.
-/

namespace Verif.Misc.Spec
open Verif.C

/-- There are at least `n` bytes at `p`. -/
def Readable (p : Ptr) (n : Nat) : Prop :=
  match p with
  | some l => n ≤ l.length
  | none => n = 0

/-- The first `n` bytes at `p`. -/
def bytesAt (p : Ptr) (n : Nat) : List Byte := (p.getD []).take n

/-- A block of data: as many bytes as it says, `NULL` only if there are none. -/
def Valid (d : Data) : Prop := Readable d.bytes d.size

/-- Its contents. -/
def contents (d : Data) : List Byte := bytesAt d.bytes d.size

/-- The pointer is one which `memcmp` and `memcpy` accept: not `NULL` if they are as strict about
that as the C standard is. -/
def Usable (mode : Mode) (p : Ptr) : Prop := mode = .wrap ∨ p ≠ none

/-- The end isn't before the beginning, and they both are within (or right behind) the object. -/
def ValidRange (r : Range) : Prop := r.ptr ≤ r.stop ∧ Readable r.mem r.stop

/-- The bytes in a range. -/
def rangeBytes (r : Range) : List Byte := ((r.mem.getD []).take r.stop).drop r.ptr

end Verif.Misc.Spec
