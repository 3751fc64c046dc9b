import Verif.C.Basic
import Verif.C.Ptrv
import Verif.Model.MiscHex

/-!
# Model of `/repo/src/gutil_misc.c`, blocks of data

A pointer is the memory there, from the pointer to the end of the object; `none` is `NULL`.
`gsize` is 64 bits wide. In the strict mode library functions are only called as the C standard
allows: not even to compare or copy zero bytes at `NULL`; otherwise that's fine, as it is in
practice.
-/

namespace Verif.Misc
open Verif.C

/-- A pointer to bytes. `const void*` of src/gutil_misc.c:364-694. -/
abbrev Ptr := Option (List Byte)

/-- `GUtilData`, include/gutil_types.h. Also what `g_bytes_get_data` returns, which may be `NULL`
if there's no data in `GBytes`. -/
structure Data where
  bytes : Ptr
  size : Nat
  deriving DecidableEq, Repr

/-- The first `n` bytes at `p`, as `memcmp` and `memcpy` need them. (C library) src/gutil_misc.c:364-694. -/
def access (mode : Mode) (p : Ptr) (n : Nat) : M (List Byte) :=
  match p with
  | some l => if n ≤ l.length then .ok (l.take n) else .error .oobRead
  | none => if n = 0 then (if mode = .strict then .error .badArg else .ok []) else .error .nullDeref

/-- `!memcmp(p, q, n)`. (C library) src/gutil_misc.c:374, 477, 496 and others. -/
def memEq (mode : Mode) (p q : Ptr) (n : Nat) : M Bool := do
  let a ← access mode p n
  let b ← access mode q n
  .ok (decide (a = b))

/-- `p + n`. src/gutil_misc.c:496 and 692. -/
def advance (mode : Mode) (p : Ptr) (n : Nat) : M Ptr :=
  match p with
  | some l => if n ≤ l.length then .ok (some (l.drop n)) else .error .badPtr
  | none => if n = 0 ∧ mode = .wrap then .ok none else .error .badPtr

/-- `gutil_data_equal`, src/gutil_misc.c:364-378. Pointers to `GUtilData` are given by the address
and what's there. -/
def dataEqual (mode : Mode) (d1 d2 : Option (Nat × Data)) : M Bool :=
  match d1, d2 with
  | none, none => .ok true
  | some (a1, d1), some (a2, d2) =>
    if a1 = a2 then .ok true
    else if d1.size = d2.size then memEq mode d1.bytes d2.bytes d1.size else .ok false
  | _, _ => .ok false

/-- `gutil_data_from_string`, src/gutil_misc.c:380-395; `data` isn't `NULL`. -/
def dataFromString (str : Ptr) : M Data :=
  match str with
  | some s => do
    let n ← strlen s
    .ok ⟨some s, n⟩
  | none => .ok ⟨none, 0⟩

/-- `gutil_data_from_bytes`, src/gutil_misc.c:397-411; `data` isn't `NULL`. -/
def dataFromBytes (bytes : Option Data) : Data :=
  match bytes with
  | some b => b
  | none => ⟨none, 0⟩

/-- `gutil_data_new`, src/gutil_misc.c:413-435. `len` is less than 2^32. -/
def dataNew (mode : Mode) (bytes : Ptr) (len : Nat) : M Data :=
  match bytes with
  | some b => do
    let l ← access mode (some b) len
    .ok ⟨some l, len⟩
  | none => .ok ⟨none, 0⟩

/-- `gutil_data_copy`, src/gutil_misc.c:437-446. The size is converted to `guint`. -/
def dataCopy (mode : Mode) (data : Option Data) : M (Option Data) :=
  match data with
  | some d => do
    let c ← dataNew mode d.bytes (d.size % 2 ^ 32)
    .ok (some c)
  | none => .ok none

/-- `gutil_data_copy_as_variant`, src/gutil_misc.c:448-461. The result is the contents of the
`GVariant`; those functions of GLib make an array of bytes of the given size. -/
def dataCopyAsVariant (mode : Mode) (data : Option Data) : M (Option (List Byte)) :=
  match data with
  | some d =>
    if d.size ≠ 0 then do
      let l ← access mode d.bytes d.size
      .ok (some l)
    else .ok (some [])
  | none => .ok none

/-- `gutil_data_has_prefix`, src/gutil_misc.c:463-481 -/
def dataHasPrefix (mode : Mode) (data pfx : Option Data) : M Bool :=
  match data with
  | some d =>
    match pfx with
    | some p => if p.size ≤ d.size then memEq mode d.bytes p.bytes p.size else .ok false
    | none => .ok false
  | none => .ok (decide (pfx = none))

/-- `gutil_data_has_suffix`, src/gutil_misc.c:483-501 -/
def dataHasSuffix (mode : Mode) (data sfx : Option Data) : M Bool :=
  match data with
  | some d =>
    match sfx with
    | some p =>
      if p.size ≤ d.size then do
        let q ← advance mode d.bytes (d.size - p.size)
        memEq mode q p.bytes p.size
      else .ok false
    | none => .ok false
  | none => .ok (decide (sfx = none))

/-! ### GBytes -/

/-- What `gutil_bytes_concat` and `gutil_bytes_xor` return: a reference to the argument `i`, or
something new. src/gutil_misc.c:503-607. -/
inductive BytesRes
  | ref (i : Nat)
  | new (d : List Byte)
  deriving DecidableEq, Repr

/-- The first loop in `gutil_bytes_concat`, src/gutil_misc.c:524-535: the total size, the number
of those which aren't empty and the last one of them. The number of arguments is less than 2^32.
`i` is the position of the first one. -/
def concatScan : List Data → (i total count nonEmpty : Nat) → Nat × Nat × Nat
  | [], _, total, count, nonEmpty => (total, count, nonEmpty)
  | b :: t, i, total, count, nonEmpty =>
    let total := (total + b.size) % 2 ^ 64
    if b.size ≠ 0 then concatScan t (i + 1) total (count + 1) i else concatScan t (i + 1) total count nonEmpty

/-- `memcpy(dest, src, size)`, `dest` being `out.length` bytes from the beginning of a block of
`cap` bytes. src/gutil_misc.c:550-560. -/
def append (mode : Mode) (cap : Nat) (out : List Byte) (b : Data) : M (List Byte) := do
  let l ← access mode b.bytes b.size
  if out.length + b.size ≤ cap then .ok (out ++ l) else .error .oobWrite

/-- The copying loop, src/gutil_misc.c:550-561 -/
def concatCopy (mode : Mode) (cap : Nat) : List Data → (out : List Byte) → M (List Byte)
  | [], out => .ok out
  | b :: t, out => do
    let out ← append mode cap out b
    concatCopy mode cap t out

/-- `gutil_bytes_concat`, src/gutil_misc.c:503-567. The variable arguments up to the terminating
`NULL` are `more`. -/
def bytesConcat (mode : Mode) (bytes1 : Option Data) (more : List Data) : M (Option BytesRes) :=
  match bytes1 with
  | some b1 =>
    let r := concatScan more 1 b1.size (if b1.size = 0 then 0 else 1) 0
    if r.2.1 = 0 then .ok (some (.ref 0))
    else if r.2.1 = 1 then .ok (some (.ref r.2.2))
    else do
      let out ← concatCopy mode r.1 (b1 :: more) []
      .ok (some (.new out))
  | none => .ok none

/-- `*long1++` (or `*tail1++` if `w` is 1): `w` bytes at offset `i`. `addr` is the address of `p`,
those of words must be multiples of `w` (the size of a word). src/gutil_misc.c:591-601. -/
def loadWord (mode : Mode) (w addr : Nat) (p : Ptr) (i : Nat) : M (List Byte) :=
  match p with
  | some l =>
    if mode = .strict ∧ (addr + i) % w ≠ 0 then .error .badPtr
    else if i + w ≤ l.length then .ok ((l.drop i).take w) else .error .oobRead
  | none => .error .nullDeref

/-- `*xor_long++ = (*long1++) ^ (*long2++)`. All bits of `unsigned long` belong to the value, so
this is the bitwise exclusive or of the bytes in memory. src/gutil_misc.c:592 and 600. -/
def xorWord (mode : Mode) (w cap a1 a2 : Nat) (p1 p2 : Ptr) (i : Nat) (out : List Byte) : M (List Byte) := do
  let x ← loadWord mode w a1 p1 i
  let y ← loadWord mode w a2 p2 i
  if out.length + w ≤ cap then .ok (out ++ List.zipWith (· ^^^ ·) x y) else .error .oobWrite

/-- The first loop in `gutil_bytes_xor`, src/gutil_misc.c:591-593; returns `i`, too. -/
def xorWords (mode : Mode) (w size a1 a2 : Nat) (p1 p2 : Ptr) : (fuel : Nat) → (i : Nat) → (out : List Byte) → M (Nat × List Byte)
  | 0, _, _ => .error .diverge
  | fuel + 1, i, out =>
    if i + w ≤ size then do
      let out ← xorWord mode w size a1 a2 p1 p2 i out
      xorWords mode w size a1 a2 p1 p2 fuel (i + w) out
    else .ok (i, out)

/-- The second loop in `gutil_bytes_xor`, src/gutil_misc.c:599-601 -/
def xorTail (mode : Mode) (size : Nat) (p1 p2 : Ptr) : (fuel : Nat) → (i : Nat) → (out : List Byte) → M (List Byte)
  | 0, _, _ => .error .diverge
  | fuel + 1, i, out =>
    if i < size then do
      let out ← xorWord mode 1 size 0 0 p1 p2 i out
      xorTail mode size p1 p2 fuel (i + 1) out
    else .ok out

/-- `gutil_bytes_xor`, src/gutil_misc.c:569-607. `w` is the size of `unsigned long`, `a1` and `a2`
are the addresses of the data. -/
def bytesXor (mode : Mode) (w a1 a2 : Nat) (bytes1 bytes2 : Option Data) : M (Option BytesRes) :=
  match bytes1, bytes2 with
  | some b1, some b2 =>
    let size := min b1.size b2.size
    if size ≠ 0 then do
      let (i, out) ← xorWords mode w size a1 a2 b1.bytes b2.bytes (size + 1) 0 []
      let out ← xorTail mode size b1.bytes b2.bytes (size + 1) i out
      .ok (some (.new out))
    else .ok (some (.ref (if b1.size ≠ 0 then 1 else 0)))
  | _, _ => .ok none

/-- `gutil_bytes_equal`, src/gutil_misc.c:609-628 -/
def bytesEqual (mode : Mode) (bytes : Option Data) (data : Ptr) (size : Nat) : M Bool :=
  match bytes, data with
  | some b, some p =>
    if b.size = size then (if b.size = 0 then .ok true else memEq mode b.bytes (some p) size) else .ok false
  | none, none => .ok true
  | _, _ => .ok false

/-- `gutil_bytes_equal_data`, src/gutil_misc.c:630-648 -/
def bytesEqualData (mode : Mode) (bytes : Option Data) (data : Option Data) : M Bool :=
  match bytes, data with
  | some b, some d =>
    if b.size = d.size then (if b.size = 0 then .ok true else memEq mode b.bytes d.bytes d.size) else .ok false
  | none, none => .ok true
  | _, _ => .ok false

/-- `gutil_bytes_has_prefix`, src/gutil_misc.c:650-674 -/
def bytesHasPrefix (mode : Mode) (bytes : Option Data) (data : Ptr) (size : Nat) : M Bool :=
  match bytes with
  | none => .ok false
  | some b =>
    if size = 0 then .ok true
    else if b.size ≥ size then memEq mode b.bytes data size else .ok false

/-- `gutil_bytes_has_suffix`, src/gutil_misc.c:676-694 -/
def bytesHasSuffix (mode : Mode) (bytes : Option Data) (data : Ptr) (size : Nat) : M Bool :=
  match bytes with
  | none => .ok false
  | some b =>
    if size = 0 then .ok true
    else if b.size ≥ size then do
      let q ← advance mode b.bytes (b.size - size)
      memEq mode q data size
    else .ok false

/-! ### Ranges -/

/-- `GUtilRange`, include/gutil_types.h: the pointers are offsets in the object `mem` (which is
`none` if they are `NULL`). -/
structure Range where
  mem : Ptr
  ptr : Nat
  stop : Nat
  deriving DecidableEq, Repr

/-- `gutil_range_init_with_bytes`, src/gutil_misc.c:756-772; `range` isn't `NULL`. -/
def rangeInit (bytes : Option Data) : Range × Nat :=
  match bytes with
  | some b => (⟨b.bytes, 0, b.size⟩, b.size)
  | none => (⟨none, 0, 0⟩, 0)

/-- `gutil_range_has_prefix`, src/gutil_misc.c:774-788 -/
def rangeHasPrefix (mode : Mode) (range : Option Range) (pfx : Option Data) : M Bool :=
  match range, pfx with
  | some r, some p =>
    match r.mem with
    | some m =>
      if r.stop > r.ptr then
        if r.stop - r.ptr ≥ p.size then memEq mode (some (m.drop r.ptr)) p.bytes p.size else .ok false
      else .ok (decide (p.size = 0))
    | none => .ok false
  | _, _ => .ok false

/-- `gutil_range_skip_prefix`, src/gutil_misc.c:790-800 -/
def rangeSkipPrefix (mode : Mode) (range : Option Range) (pfx : Option Data) : M (Option Range × Bool) := do
  let b ← rangeHasPrefix mode range pfx
  if b then
    match range, pfx with
    | some r, some p => .ok (some { r with ptr := r.ptr + p.size }, true)
    | _, _ => .error .nullDeref
  else .ok (range, false)

/-! ### Other -/

/-- The loop in `gutil_ptrv_length`, src/gutil_misc.c:705 -/
def ptrvLengthLoop : Block → (len : Nat) → M Nat
  | [], _ => .error .oobRead
  | c :: t, len => do
    let p ← load c
    match p with
    | some _ => ptrvLengthLoop t (len + 1)
    | none => .ok len

/-- `gutil_ptrv_length`, src/gutil_misc.c:696-710 -/
def ptrvLength : Vec → M Nat
  | some b => ptrvLengthLoop b 0
  | none => .ok 0

/-- `gutil_ptrv_is_empty`, src/gutil_misc.c:712-717 -/
def ptrvIsEmpty : Vec → M Bool
  | some b => do
    let p ← deref b 0
    .ok (decide (p = none))
  | none => .ok true

/-- The loop in `gutil_ptrv_free`, src/gutil_misc.c:727. What the pointers point to is in the
heap. -/
def ptrvFreeLoop (h : Heap) : Block → M Heap
  | [] => .error .oobRead
  | c :: t => do
    let p ← load c
    match p with
    | some a => do
      let h ← gfree h (some a)
      ptrvFreeLoop h t
    | none => .ok h

/-- `gutil_ptrv_free`, src/gutil_misc.c:719-730. The block itself isn't in the heap, it's freed
last. -/
def ptrvFree (h : Heap) : Vec → M Heap
  | some b => ptrvFreeLoop h b
  | none => .ok h

/-- `gutil_memdup`, src/gutil_misc.c:732-746 -/
def memdup (mode : Mode) (p : Ptr) (size : Nat) : M Ptr :=
  match p with
  | some l =>
    if size ≠ 0 then do
      let c ← access mode (some l) size
      .ok (some c)
    else .ok none
  | none => .ok none

/-- `gutil_strlen0`, src/gutil_misc.c:748-754 -/
def strlen0 : Ptr → M Nat
  | some s => strlen s
  | none => .ok 0

/-- The loop in `gutil_disconnect_handlers`, src/gutil_misc.c:53-58, from `ids + i` on; `n`
iterations remain. Returns the ids afterwards and those disconnected, in the order of calls to
`g_signal_handler_disconnect`. -/
def disconnectLoop : (n : Nat) → List Nat → M (List Nat × List Nat)
  | 0, ids => .ok (ids, [])
  | _ + 1, [] => .error .oobRead
  | n + 1, x :: t => do
    let (t, log) ← disconnectLoop n t
    if x ≠ 0 then .ok (0 :: t, x :: log) else .ok (x :: t, log)

/-- `gutil_disconnect_handlers`, src/gutil_misc.c:45-61; `inst`: the instance isn't `NULL`. -/
def disconnectHandlers (inst : Bool) (ids : Option (List Nat)) (count : Int) : M (Option (List Nat) × List Nat) :=
  match ids with
  | some ids =>
    if inst then do
      let (ids, log) ← disconnectLoop count.toNat ids
      .ok (some ids, log)
    else .ok (some ids, [])
  | none => .ok (none, [])

/-- `gutil_source_remove`, src/gutil_misc.c:84-94: the result, and the ids passed to
`g_source_remove` -/
def sourceRemove (id : Nat) : Bool × List Nat := if id ≠ 0 then (true, [id]) else (false, [])

/-- `gutil_source_clear`, src/gutil_misc.c:96-108: also the id afterwards -/
def sourceClear (id : Option Nat) : Option Nat × Bool × List Nat :=
  match id with
  | some i => if i ≠ 0 then (some 0, true, [i]) else (some i, false, [])
  | none => (none, false, [])

end Verif.Misc
