import Verif.C.Basic

/-!
# Model of `src/gutil_datapack.c`

`GUtilRange` (include/gutil_types.h) is a pair of pointers into some memory object.
It is modelled as two offsets into the object's bytes; reading outside of the object is
undefined behaviour.  Output pointers may be NULL: `wantOut = false`.
-/

namespace Verif.Datapack
open Verif.C

/-- `GUtilRange` (include/gutil_types.h:58-61); `mem` is the object it points into. -/
structure Range where
  mem : List Byte
  ptr : Int
  fin : Int
  deriving DecidableEq, Repr

/-- Outcome of a decoder: return value, the range afterwards, what has been stored to
    `*out` (if anything). src/gutil_datapack.c:129-225 and 284-354. -/
structure DecodeResult (α : Type) where
  ret : Bool
  range : Range
  out : Option α
  deriving DecidableEq, Repr

/-! ## Unsigned -/

/-- The loop of `gutil_unsigned_mbn_size`, src/gutil_datapack.c:247-249. -/
def unsignedSizeLoop (value : BitVec 64) (n : Nat) : Nat :=
  if _h : value = 0#64 then n
  else unsignedSizeLoop (value >>> 7) (n + 1)
termination_by value.toNat
decreasing_by
  simp only [BitVec.toNat_ushiftRight, Nat.shiftRight_eq_div_pow]
  have : value.toNat ≠ 0 := fun h => _h (BitVec.eq_of_toNat_eq (by simpa using h))
  omega

/-- `gutil_unsigned_mbn_size`, src/gutil_datapack.c:240-251 -/
def unsignedSize (value : BitVec 64) : Nat :=
  unsignedSizeLoop (value >>> 7) 1

/-- The loop of `gutil_unsigned_mbn_encode2`, src/gutil_datapack.c:276-279. -/
def unsignedEncodeLoop (buf : List Byte) (value : BitVec 64) : Nat → M (List Byte)
  | 0 => .ok buf
  | n + 1 => do
    let buf ← wr buf n ((value ||| 0x80#64).setWidth 8)
    unsignedEncodeLoop buf (value >>> 7) n

/-- `gutil_unsigned_mbn_encode2`, src/gutil_datapack.c:262-282.  Returns the buffer
    afterwards (`buf` is the memory from the given pointer on) and the return value. -/
def unsignedEncode2 (buf : List Byte) (value : BitVec 64) (size : Nat) :
    M (List Byte × Nat) :=
  match size with
  | 0 => .ok (buf, 0)
  | n + 1 => do
    let buf ← wr buf n ((value &&& 0x7f#64).setWidth 8)
    let buf ← unsignedEncodeLoop buf (value >>> 7) n
    .ok (buf, n + 1)

/-- `gutil_unsigned_mbn_encode`, src/gutil_datapack.c:253-260 -/
def unsignedEncode (buf : List Byte) (value : BitVec 64) : M (List Byte × Nat) :=
  unsignedEncode2 buf value (unsignedSize value)

/-- Local variables of the decoders when their loop is left normally. src/gutil_datapack.c:137-146 and 290-295. -/
structure LoopExit where
  off : Nat
  nbits : Nat
  value : BitVec 64
  last : Byte
  deriving DecidableEq, Repr

/-- The loop shared by `gutil_unsigned_mbn_decode` and `gutil_signed_mbn_decode` (the
    text is identical), src/gutil_datapack.c:299-308 and 144-153.  `none` stands for
    `return FALSE` (too many bytes).  `maxbits` is 64. -/
def decodeLoop (r : Range) (off nbits : Nat) (value : BitVec 64) (last : Byte) :
    M (Option LoopExit) :=
  if _h : r.ptr + off < r.fin then
    match rd r.mem (r.ptr + off) with
    | .error e => .error e
    | .ok last =>
      if last &&& 0x80#8 ≠ 0#8 then
        let value := (value <<< 7) ||| (last &&& 0x7f#8).setWidth 64
        if nbits + 7 ≤ 64 then decodeLoop r (off + 1) (nbits + 7) value last
        else .ok none
      else .ok (some ⟨off + 1, nbits, value, last⟩)
  else .ok (some ⟨off, nbits, value, last⟩)
termination_by (r.fin - (r.ptr + off)).toNat
decreasing_by omega

/-- `gutil_unsigned_mbn_decode`, src/gutil_datapack.c:284-334.  The `int` shifts there
    have counts `64 - nbits` of 1 or 8 or more only when `nbits + 7 >= 64`, i.e. when
    `nbits` is 63; the expression is evaluated lazily, as in C. -/
def unsignedDecode (wantOut : Bool) (r : Range) : M (DecodeResult (BitVec 64)) :=
  if r.ptr < r.fin then do
    let last ← rd r.mem r.ptr
    if last &&& 0x80#8 ≠ 0#8 then
      let msc := last
      match ← decodeLoop r 1 7 ((last &&& 0x7f#8).setWidth 64) last with
      | none => .ok ⟨false, r, none⟩
      | some x =>
        if x.last &&& 0x80#8 = 0#8 then
          let value := (x.value <<< 7) ||| x.last.setWidth 64
          if x.nbits + 7 < 64 ∨
             msc.setWidth 32 &&& ~~~((1#32 <<< (64 - x.nbits)) - 1#32) = 0x80#32 then
            .ok ⟨true, { r with ptr := r.ptr + x.off },
              if wantOut then some value else none⟩
          else .ok ⟨false, r, none⟩
        else .ok ⟨false, r, none⟩
    else
      .ok ⟨true, { r with ptr := r.ptr + 1 },
        if wantOut then some (last.setWidth 64) else none⟩
  else .ok ⟨false, r, none⟩

/-- `GUtilData` block passed as an argument; `none` is NULL. include/gutil_types.h:53-56. -/
abbrev DataArg := Option (List Byte)

/-- `gutil_unsigned_mbn_decode2`, src/gutil_datapack.c:336-354.  Returns the return
    value and what is stored to `*out`. -/
def unsignedDecode2 (wantOut : Bool) (data : DataArg) : M (Bool × Option (BitVec 64)) :=
  match data with
  | none => .ok (false, none)
  | some bytes =>
    if bytes.length ≠ 0 then do
      let x ← unsignedDecode true ⟨bytes, 0, bytes.length⟩
      if x.ret ∧ x.range.ptr = x.range.fin then
        .ok (true, if wantOut then x.out else none)
      else .ok (false, none)
    else .ok (false, none)

/-! ## Signed

`gint64` values are modelled as mathematical integers (the theorems assume them to be in
range); `value >>= 7` of a negative number is implementation-defined in C and is the
arithmetic shift, i.e. floor division, with gcc.  Masking with `0x7f`/`0x80`/`0x40`
commutes with truncation to a byte, which is done first here. -/

/-- Loop for negative numbers, src/gutil_datapack.c:67-71. -/
def signedSizeLoopNeg (value : Int) (_h : value < 0) (msc : Byte) (n : Nat) : Byte × Nat :=
  if _h1 : value ≠ -1 then
    signedSizeLoopNeg (value >>> 7) (by rw [Int.shiftRight_eq_div_pow]; omega)
      (BitVec.ofInt 8 value &&& 0x7f#8) (n + 1)
  else (msc, n)
termination_by value.natAbs
decreasing_by
  rw [Int.shiftRight_eq_div_pow]; omega

/-- Loop for non-negative numbers, src/gutil_datapack.c:76-80. -/
def signedSizeLoopPos (value : Int) (_h : 0 ≤ value) (msc : Byte) (n : Nat) : Byte × Nat :=
  if _h1 : value ≠ 0 then
    signedSizeLoopPos (value >>> 7) (by rw [Int.shiftRight_eq_div_pow]; omega)
      (BitVec.ofInt 8 value &&& 0x7f#8) (n + 1)
  else (msc, n)
termination_by value.natAbs
decreasing_by
  rw [Int.shiftRight_eq_div_pow]; omega

/-- `gutil_signed_mbn_size`, src/gutil_datapack.c:59-86 -/
def signedSize (value : Int) : Nat :=
  let msc := BitVec.ofInt 8 value &&& 0x7f#8
  let value := value >>> 7
  if h : value < 0 then
    let x := signedSizeLoopNeg value h msc 1
    if x.1 &&& 0x40#8 = 0#8 then x.2 + 1 else x.2
  else
    let x := signedSizeLoopPos value (by omega) msc 1
    if x.1 &&& 0x40#8 ≠ 0#8 then x.2 + 1 else x.2

/-- The loop of `gutil_signed_mbn_encode2`, src/gutil_datapack.c:111-114; returns the
    buffer and the final `value`. -/
def signedEncodeLoop (buf : List Byte) (value : Int) : Nat → M (List Byte × Int)
  | 0 => .ok (buf, value)
  | n + 1 => do
    let buf ← wr buf n (BitVec.ofInt 8 value ||| 0x80#8)
    signedEncodeLoop buf (value >>> 7) n

/-- `gutil_signed_mbn_encode2`, src/gutil_datapack.c:97-127.  `size * 7`,
    `(size - 1) * 7` and `maxbits - (size - 1) * 7` are `guint` expressions; shifting the
    `int` 1 by 31 bits or more is undefined. -/
def signedEncode2 (buf : List Byte) (value : Int) (size : Nat) : M (List Byte × Nat) :=
  match size with
  | 0 => .ok (buf, 0)
  | n + 1 => do
    let buf ← wr buf n (BitVec.ofInt 8 value &&& 0x7f#8)
    let (buf, value) ← signedEncodeLoop buf (value >>> 7) n
    if value < 0 ∧ 64 < (BitVec.ofNat 32 (n + 1) * 7#32).toNat then
      let cnt := (64#32 - BitVec.ofNat 32 n * 7#32).toNat
      if cnt < 31 then
        let b0 ← rd buf 0
        let buf ← wr buf 0 (b0 ||| (~~~((1#32 <<< cnt) - 1#32)).setWidth 8)
        .ok (buf, n + 1)
      else .error .badShift
    else .ok (buf, n + 1)

/-- `gutil_signed_mbn_encode`, src/gutil_datapack.c:88-95 -/
def signedEncode (buf : List Byte) (value : Int) : M (List Byte × Nat) :=
  signedEncode2 buf value (signedSize value)

/-- `G_GINT64_CONSTANT(1) << cnt) - 1` for `cnt < 64`, src/gutil_datapack.c:162-163.
    For `cnt = 63` the shift and the subtraction overflow `gint64`: undefined in
    ISO C, the mask of 63 ones with wrap-around arithmetic. -/
def signMask (mode : Mode) (cnt : Nat) : M (BitVec 64) :=
  if mode = .strict ∧ cnt ≥ 63 then .error .signedOverflow
  else .ok ((1#64 <<< cnt) - 1#64)

/-- `gutil_signed_mbn_decode`, src/gutil_datapack.c:129-205.  The shift counts
    `maxbits - nbits` are only evaluated when `nbits` is 63. -/
def signedDecode (mode : Mode) (wantOut : Bool) (r : Range) : M (DecodeResult Int) :=
  if r.ptr < r.fin then do
    let last ← rd r.mem r.ptr
    if last &&& 0x80#8 ≠ 0#8 then
      let msc := last
      match ← decodeLoop r 1 7 ((last &&& 0x7f#8).setWidth 64) last with
      | none => .ok ⟨false, r, none⟩
      | some x =>
        if x.last &&& 0x80#8 = 0#8 then
          let value := (x.value <<< 7) ||| x.last.setWidth 64
          let r' := { r with ptr := r.ptr + x.off }
          if msc &&& 0x40#8 ≠ 0#8 then
            -- Negative number
            if x.nbits + 7 < 64 then
              -- Extend the sign bit
              if wantOut then do
                let mask ← signMask mode (x.nbits + 7)
                .ok ⟨true, r', some (value ||| ~~~mask).toInt⟩
              else .ok ⟨true, r', none⟩
            else if msc.setWidth 32 ||| ((1#32 <<< (64 - x.nbits)) - 1#32) = 0xff#32 then
              .ok ⟨true, r', if wantOut then some value.toInt else none⟩
            else .ok ⟨false, r, none⟩
          else
            if x.nbits + 7 < 64 ∨
               msc.setWidth 32 &&& ~~~((1#32 <<< (64 - x.nbits)) - 1#32) = 0x80#32 then
              .ok ⟨true, r', if wantOut then some value.toInt else none⟩
            else .ok ⟨false, r, none⟩
        else .ok ⟨false, r, none⟩
    else
      .ok ⟨true, { r with ptr := r.ptr + 1 },
        if wantOut then
          some (if last.setWidth 64 &&& 0x40#64 ≠ 0#64
            then (last.setWidth 64 ||| (-1#64 ^^^ 0x7f#64)).toInt
            else (last.setWidth 64).toInt)
        else none⟩
  else .ok ⟨false, r, none⟩

/-- `gutil_signed_mbn_decode2`, src/gutil_datapack.c:207-225 -/
def signedDecode2 (mode : Mode) (wantOut : Bool) (data : DataArg) :
    M (Bool × Option Int) :=
  match data with
  | none => .ok (false, none)
  | some bytes =>
    if bytes.length ≠ 0 then do
      let x ← signedDecode mode true ⟨bytes, 0, bytes.length⟩
      if x.ret ∧ x.range.ptr = x.range.fin then
        .ok (true, if wantOut then x.out else none)
      else .ok (false, none)
    else .ok (false, none)

/-! ## TLV -/

/-- `gutil_tlv_size`, src/gutil_datapack.c:375-381.  The sum is a `gsize` which gets
    truncated to the `guint` return type. -/
def tlvSize (tag : BitVec 32) (len : BitVec 64) : Nat :=
  ((BitVec.ofNat 64 (unsignedSize (tag.setWidth 64) + unsignedSize len) + len).setWidth 32).toNat

/-- `memcpy(dest, src, n)` where `dest` points at offset `off` of `buf` and `n` is the
    length of `src`. Called at src/gutil_datapack.c:396 (C library). -/
def memcpyTo (buf : List Byte) (off : Nat) (src : List Byte) : M (List Byte) :=
  if off + src.length ≤ buf.length then
    .ok (buf.take off ++ src ++ buf.drop (off + src.length))
  else .error .oobWrite

/-- An `encode` function applied at offset `off` of the buffer. Pointer arithmetic at src/gutil_datapack.c:390-400. -/
def atOffset (f : List Byte → M (List Byte × Nat)) (buf : List Byte) (off : Nat) :
    M (List Byte × Nat) :=
  if off ≤ buf.length then do
    let (b, n) ← f (buf.drop off)
    .ok (buf.take off ++ b, n)
  else .error .badPtr

/-- `gutil_tlv_encode`, src/gutil_datapack.c:383-402.  A NULL `val` and one of zero size
    are the same. -/
def tlvEncode (buf : List Byte) (tag : BitVec 32) (val : DataArg) : M (List Byte × Nat) := do
  let (buf, tagSize) ← unsignedEncode buf (tag.setWidth 64)
  match val with
  | some (b :: bs) =>
    let (buf, lenSize) ← atOffset (unsignedEncode · (BitVec.ofNat 64 (b :: bs).length)) buf tagSize
    let buf ← memcpyTo buf (tagSize + lenSize) (b :: bs)
    .ok (buf, tagSize + lenSize + (b :: bs).length)
  | _ =>
    let buf ← wr buf tagSize 0#8
    .ok (buf, tagSize + 1)

/-- Value of a decoded TLV: `GUtilData` pointing into the input object. include/gutil_types.h:53-56. -/
structure Val where
  off : Int
  size : Nat
  deriving DecidableEq, Repr

/-- Outcome of `gutil_tlv_decode`; `val` is what has been stored to `*val`. src/gutil_datapack.c:404-423. -/
structure TlvResult where
  tag : Nat
  range : Range
  val : Option Val
  deriving DecidableEq, Repr

/-- `tmp.ptr + len` (src/gutil_datapack.c:419) for an unsigned 64-bit `len`: leaving the
    object is undefined; with a flat 64-bit address space the addition wraps around,
    i.e. adds `len` as a signed number. -/
def ptrAdd (mode : Mode) (mem : List Byte) (p : Int) (len : BitVec 64) : M Int :=
  match mode with
  | .strict => if p + len.toNat ≤ mem.length then .ok (p + len.toNat) else .error .badPtr
  | .wrap => .ok (p + len.toInt)

/-- `gutil_tlv_decode`, src/gutil_datapack.c:404-423 -/
def tlvDecode (mode : Mode) (r : Range) : M TlvResult := do
  let t ← unsignedDecode true r
  match t.ret, t.out with
  | true, some tag =>
    if tag.toNat ≤ 2147483647 then
      let l ← unsignedDecode true t.range
      match l.ret, l.out with
      | true, some len =>
        if l.range.fin - l.range.ptr ≥ len.toInt then
          let p ← ptrAdd mode r.mem l.range.ptr len
          .ok ⟨tag.toNat, { r with ptr := p }, some ⟨l.range.ptr, len.toNat⟩⟩
        else .ok ⟨0, r, none⟩
      | _, _ => .ok ⟨0, r, none⟩
    else .ok ⟨0, r, none⟩
  | _, _ => .ok ⟨0, r, none⟩

/-- Counting the tags, src/gutil_datapack.c:446; `tags` is the memory of the array. -/
def countTags : List Nat → M Nat
  | [] => .error .oobRead
  | t :: ts => if t ≠ 0 then (· + 1) <$> countTags ts else .ok 0

/-- Tag lookup, src/gutil_datapack.c:453-458; `none` means that `bit` remains zero. -/
def findTag (tag : Nat) : List Nat → Nat → M (Option Nat)
  | [], _ => .error .oobRead
  | t :: ts, i =>
    if t ≠ 0 ∧ i < 31 then
      if t = tag then .ok (some i) else findTag tag ts (i + 1)
    else .ok none

/-- `GUTIL_TLVS_DECODE_*` error codes, include/gutil_datapack.h:169-171 -/
def DECODE_ERROR : Int := -1
/-- `GUTIL_TLVS_DECODE_DUPLICATE_TAG`, include/gutil_datapack.h:170 -/
def DUPLICATE_TAG : Int := -2
/-- `GUTIL_TLVS_DECODE_UNKNOWN_TAG`, include/gutil_datapack.h:171 -/
def UNKNOWN_TAG : Int := -3

/-- The state of the loop of `gutil_tlvs_decode`. src/gutil_datapack.c:433-450. -/
structure TlvsState where
  range : Range
  mask : BitVec 32
  vals : Option (List (Option Val))
  deriving DecidableEq, Repr

/-- One iteration of the loop, src/gutil_datapack.c:450-474: `inl` is the return value
    and the contents of `vals`, `inr` the state for the next iteration.  A cleared
    `GUtilData` is `none`. -/
def tlvsStep (mode : Mode) (tags : List Nat) (skipUnknown : Bool) (s : TlvsState) :
    M ((Int × Option (List (Option Val))) ⊕ TlvsState) := do
  let t ← tlvDecode mode s.range
  if t.tag ≠ 0 then
    match ← findTag t.tag tags 0 with
    | some i =>
      let bit := 1#32 <<< i
      if s.mask &&& bit ≠ 0#32 then .ok (.inl (DUPLICATE_TAG, s.vals))
      else
        match s.vals with
        | some vals =>
          let vals ← wr vals i t.val
          .ok (.inr ⟨t.range, s.mask ||| bit, some vals⟩)
        | none => .ok (.inr ⟨t.range, s.mask ||| bit, none⟩)
    | none =>
      if skipUnknown then .ok (.inr ⟨t.range, s.mask, s.vals⟩)
      else .ok (.inl (UNKNOWN_TAG, s.vals))
  else
    .ok (.inl (if t.range.ptr = t.range.fin then s.mask.toInt else DECODE_ERROR, s.vals))

/-- The loop with at most `fuel` iterations; `none` if that isn't enough. src/gutil_datapack.c:450-474. -/
def tlvsLoop (mode : Mode) (tags : List Nat) (skipUnknown : Bool) :
    Nat → TlvsState → M (Option (Int × Option (List (Option Val))))
  | 0, _ => .ok none
  | fuel + 1, s => do
    match ← tlvsStep mode tags skipUnknown s with
    | .inl res => .ok (some res)
    | .inr s => tlvsLoop mode tags skipUnknown fuel s

/-- Clearing `vals`, src/gutil_datapack.c:441-448. -/
def clearVals (tags : List Nat) (vals : List (Option Val)) : M (List (Option Val)) := do
  let n ← countTags tags
  if n ≤ vals.length then .ok (List.replicate n none ++ vals.drop n) else .error .oobWrite

/-- `gutil_tlvs_decode`, src/gutil_datapack.c:425-475, with at most `fuel` iterations.
    `input` are the bytes of the data block, `tags` the memory of the tags array, `vals`
    the memory of the output array (`none` for NULL). -/
def tlvsDecode (mode : Mode) (fuel : Nat) (input : List Byte) (tags : List Nat)
    (vals : Option (List (Option Val))) (skipUnknown : Bool) :
    M (Option (Int × Option (List (Option Val)))) := do
  let vals ← match vals with
    | some v => some <$> clearVals tags v
    | none => .ok none
  tlvsLoop mode tags skipUnknown fuel ⟨⟨input, 0, input.length⟩, 0#32, vals⟩

end Verif.Datapack
