import Verif.C.Basic

/-!
# Model of `/repo/src/gutil_misc.c`, hexadecimal conversions

A pointer to readable memory is the list of the bytes there; `none` is `NULL`.  Memory being
written is modelled by what has been written so far and its size.
-/

namespace Verif.Misc
open Verif.C

/-- `*dest++ = c` to a block of `cap` bytes, of which `out` have been written. src/gutil_misc.c:144-167 and 204-244. -/
def put (cap : Nat) (out : List Byte) (c : Byte) : M (List Byte) :=
  if out.length < cap then .ok (out ++ [c]) else .error .oobWrite

/-- `g_ascii_isxdigit`. (GLib) Called at src/gutil_misc.c:133. -/
def isXDigit (c : Byte) : Bool :=
  (0x30 ≤ c.toNat && c.toNat ≤ 0x39) || (0x41 ≤ c.toNat && c.toNat ≤ 0x46) || (0x61 ≤ c.toNat && c.toNat ≤ 0x66)

/-- `char` converted to `int`; `signed`: `char` is signed on this platform. src/gutil_misc.c:119-138. -/
def charToInt (signed : Bool) (c : Byte) : Int := if signed then c.toInt else c.toNat

/-- The static table in `gutil_hex2bin`, src/gutil_misc.c:121-129 -/
def hexTable : List Byte := [
  0, 1, 2, 3, 4, 5, 6, 7,
  8, 9, 0, 0, 0, 0, 0, 0,
  0,10,11,12,13,14,15, 0,
  0, 0, 0, 0, 0, 0, 0, 0,
  0, 0, 0, 0, 0, 0, 0, 0,
  0, 0, 0, 0, 0, 0, 0, 0,
  0,10,11,12,13,14,15]

/-- The loop in `gutil_hex2bin`, src/gutil_misc.c:120-138; `ptr` is the position in `data`.
Returns what has been written and whether it was successful. -/
def hex2binLoop (signed : Bool) (str : List Byte) (len : Nat) : (fuel : Nat) → (i ptr : Nat) → (data : List Byte) → M (List Byte × Bool)
  | 0, _, _, _ => .error .diverge
  | fuel + 1, i, ptr, data =>
    if i < len then do
      let x1 ← rd str i
      let x2 ← rd str (i + 1 : Nat)
      if isXDigit x1 && isXDigit x2 then do
        let h1 ← rd hexTable (charToInt signed x1 - 0x30)
        let h2 ← rd hexTable (charToInt signed x2 - 0x30)
        let data ← wr data ptr ((h1 <<< 4) + h2)
        hex2binLoop signed str len fuel (i + 2) (ptr + 1) data
      else .ok (data, false)
    else .ok (data, true)

/-- `gutil_hex2bin`, src/gutil_misc.c:110-142. Returns the contents of `data` afterwards and
whether it's returned. -/
def hex2bin (signed : Bool) (str : Option (List Byte)) (len : Int) (data : Option (List Byte)) : M (Option (List Byte) × Bool) :=
  match str, data with
  | some str, some data =>
    if len > 0 ∧ len % 2 = 0 then do
      let (data, ok) ← hex2binLoop signed str len.toNat (len.toNat + 1) 0 0 data
      .ok (some data, ok)
    else .ok (some data, false)
  | _, _ => .ok (data, false)

/-- The digits used by `gutil_bin2hex`, src/gutil_misc.c:150-152, and `gutil_hexdump`,
line 210. -/
def hexMap (upper : Bool) : List Byte :=
  if upper then [0x30, 0x31, 0x32, 0x33, 0x34, 0x35, 0x36, 0x37, 0x38, 0x39, 0x41, 0x42, 0x43, 0x44, 0x45, 0x46]
  else [0x30, 0x31, 0x32, 0x33, 0x34, 0x35, 0x36, 0x37, 0x38, 0x39, 0x61, 0x62, 0x63, 0x64, 0x65, 0x66]

/-- The two digits of a byte, src/gutil_misc.c:161-162 and 224-225 -/
def putHex (cap : Nat) (upper : Bool) (out : List Byte) (b : Byte) : M (List Byte) := do
  let d1 ← rd (hexMap upper) ((b >>> 4) &&& 0xf).toNat
  let out ← put cap out d1
  let d2 ← rd (hexMap upper) (b &&& 0xf).toNat
  put cap out d2

/-- The loop in `gutil_bin2hex`, src/gutil_misc.c:158-163 -/
def bin2hexLoop (cap : Nat) (upper : Bool) : List Byte → (out : List Byte) → M (List Byte)
  | [], out => .ok out
  | b :: t, out => do
    let out ← putHex cap upper out b
    bin2hexLoop cap upper t out

/-- `gutil_bin2hex`, src/gutil_misc.c:144-167. `len` is the number of bytes in `data`, there
are less than 2^63 of them. The result is the contents of the new block, with the terminator. -/
def bin2hex (data : List Byte) (upper : Bool) : M (List Byte) := do
  let out ← bin2hexLoop (2 * data.length + 1) upper data []
  put (2 * data.length + 1) out 0

/-- `gutil_data2hex`, src/gutil_misc.c:169-175 -/
def data2hex (data : Option (List Byte)) (upper : Bool) : M (Option (List Byte)) :=
  match data with
  | some d => do
    let r ← bin2hex d upper
    .ok (some r)
  | none => .ok none

/-- `strlen`. (C library) src/gutil_misc.c:183 and 753. -/
def strlen : List Byte → M Nat
  | [] => .error .oobRead
  | c :: t => if c = 0 then .ok 0 else do
    let n ← strlen t
    .ok (n + 1)

/-- `if (len < 0) len = strlen(str)`, src/gutil_misc.c:183 -/
def lenOf (str : List Byte) (len : Int) : M Int :=
  if len < 0 then do
    let n ← strlen str
    .ok n
  else .ok len

/-- `gutil_hex2bytes`, src/gutil_misc.c:177-195. The new block isn't initialised; no one looks
at it before it has been filled, so it's zeros here. -/
def hex2bytes (signed : Bool) (str : Option (List Byte)) (len : Int) : M (Option (List Byte)) :=
  match str with
  | some s => do
    let len ← lenOf s len
    if len > 0 ∧ len % 2 = 0 then do
      let (data, ok) ← hex2bin signed (some s) len (some (List.replicate (len / 2).toNat 0))
      .ok (if ok then data else none)
    else .ok none
  | none => .ok none

/-- `isprint(c)`, `c` being a `char`. `prn` is what the current locale says. The argument must
be in the range of `unsigned char`, in the strict reading; glibc accepts all chars. -/
def isPrint (mode : Mode) (signed : Bool) (prn : Byte → Bool) (c : Byte) : M Bool :=
  if mode = .strict ∧ charToInt signed c < 0 then .error .badArg else .ok (prn c)

/-- `GUTIL_HEXDUMP_BUFSIZE`, include/gutil_misc.h:86 -/
def bufSize : Nat := 70

/-- `GUTIL_HEXDUMP_MAXBYTES`, include/gutil_misc.h:87 -/
def maxBytes : Nat := 16

/-- Lines 217-220 of src/gutil_misc.c -/
def hexdumpSep (cap i : Nat) (out : List Byte) : M (List Byte) :=
  if i > 0 then do
    let out ← put cap out 0x20
    if i = 8 then put cap out 0x20 else .ok out
  else .ok out

/-- Lines 221-229 of src/gutil_misc.c -/
def hexdumpByte (cap : Nat) (data : List Byte) (len i : Nat) (out : List Byte) : M (List Byte) :=
  if i < len then do
    let b ← rd data i
    putHex cap false out b
  else do
    let out ← put cap out 0x20
    put cap out 0x20

/-- The first loop in `gutil_hexdump`, src/gutil_misc.c:216-230; `n` iterations remain. -/
def hexdumpHex (cap : Nat) (data : List Byte) (len : Nat) : (n : Nat) → (i : Nat) → (out : List Byte) → M (List Byte)
  | 0, _, out => .ok out
  | n + 1, i, out => do
    let out ← hexdumpSep cap i out
    let out ← hexdumpByte cap data len i out
    hexdumpHex cap data len n (i + 1) out

/-- Line 238 of src/gutil_misc.c -/
def hexdumpGap (cap i : Nat) (out : List Byte) : M (List Byte) :=
  if i = 8 then put cap out 0x20 else .ok out

/-- Lines 238-239 of src/gutil_misc.c -/
def hexdumpChar (cap i : Nat) (out : List Byte) (c : Byte) (p : Bool) : M (List Byte) := do
  let out ← hexdumpGap cap i out
  put cap out (if p then c else 0x2e)

/-- The second loop in `gutil_hexdump`, src/gutil_misc.c:236-240; `n` iterations remain. -/
def hexdumpText (mode : Mode) (signed : Bool) (prn : Byte → Bool) (cap : Nat) (data : List Byte) :
    (n : Nat) → (i : Nat) → (out : List Byte) → M (List Byte)
  | 0, _, out => .ok out
  | n + 1, i, out => do
    let c ← rd data i
    let p ← isPrint mode signed prn c
    let out ← hexdumpChar cap i out c p
    hexdumpText mode signed prn cap data n (i + 1) out

/-- `gutil_hexdump`, src/gutil_misc.c:204-244. `cap` is the size of `buf`. Returns what has
been written and the result. -/
def hexdump (mode : Mode) (signed : Bool) (prn : Byte → Bool) (cap : Nat) (data : List Byte) (len : Nat) : M (List Byte × Nat) := do
  let out ← hexdumpHex cap data len maxBytes 0 []
  let out ← put cap out 0x20
  let out ← put cap out 0x20
  let out ← put cap out 0x20
  let out ← put cap out 0x20
  let out ← hexdumpText mode signed prn cap data (min len maxBytes) 0 out
  let out ← put cap out 0
  .ok (out, min len maxBytes)

end Verif.Misc
