import Verif.C.Basic
import Verif.Model.Strv

/-!
# Model of `/repo/src/gutil_misc.c`, parsing of numbers

Strings are lists of bytes without the terminator, a pointer into a string is what follows it.
Return values of the `gutil_parse` functions: `none` is `FALSE` with the output untouched,
`some v` is `TRUE` with `v` stored.

GLib isn't a part of `/repo`; the functions of `gstrfuncs.c` used here are modelled since the
conditions in the code under test are all about their results.
-/

namespace Verif.Parse
open Verif.C

/-- A C string, without the terminating zero; src/gutil_misc.c:246-362 -/
abbrev Str := List Byte

/-- What's in `errno`. (C library) src/gutil_misc.c:299-362. -/
inductive Errno
  | zero
  | einval
  | erange
  deriving DecidableEq, Repr

/-- `ISSPACE` of GLib's `g_parse_long_long`: unlike `g_ascii_isspace`, includes vertical tab. -/
def isSpaceC (c : Byte) : Bool := c == 32 || c == 12 || c == 10 || c == 13 || c == 9 || c == 11

/-- A digit, as in GLib's `g_parse_long_long` -/
def digitOf (c : Byte) : Option Nat :=
  if 0x30 ≤ c.toNat ∧ c.toNat ≤ 0x39 then some (c.toNat - 0x30)
  else if 0x61 ≤ c.toNat ∧ c.toNat ≤ 0x7a then some (c.toNat - 0x20 - 0x41 + 10)
  else if 0x41 ≤ c.toNat ∧ c.toNat ≤ 0x5a then some (c.toNat - 0x41 + 10)
  else none

/-- The loop over the digits in GLib's `g_parse_long_long`: the number, overflow and where it
ended -/
def digitLoop (b : Nat) : (ui64 : Nat) → (overflow : Bool) → Str → Nat × Bool × Str
  | v, ovf, [] => (v, ovf, [])
  | v, ovf, c :: t =>
    match digitOf c with
    | none => (v, ovf, c :: t)
    | some d =>
      if d ≥ b then (v, ovf, c :: t)
      else if v > uint64Max / b ∨ (v = uint64Max / b ∧ d > uint64Max % b) then digitLoop b v true t
      else digitLoop b (v * b + d) ovf t

/-- Sign, in GLib's `g_parse_long_long` -/
def sign : Str → Bool × Str
  | [] => (false, [])
  | c :: t => if c = 0x2d then (true, t) else if c = 0x2b then (false, t) else (false, c :: t)

/-- Base, in GLib's `g_parse_long_long` -/
def radix (base : Nat) : Str → Nat × Str
  | [] => (if base = 0 then 10 else base, [])
  | c :: t =>
    if c = 0x30 then
      if (base = 0 ∨ base = 16) ∧ (t.head? = some 0x58 ∨ t.head? = some 0x78) then (16, t.drop 1)
      else (if base = 0 then 8 else base, c :: t)
    else (if base = 0 then 10 else base, c :: t)

/-- The rest of GLib's `g_parse_long_long`, from the first digit `ds` on (which is where `save`
points to); `s` is what follows the sign. If there are no digits, the end is that of the `0` in
`0x` if there was one, or else the beginning of the string. -/
def digits (nptr s : Str) (b : Nat) (ds : Str) : Nat × Errno × Str :=
  let r := digitLoop b 0 false ds
  if r.2.2.length = ds.length then (0, .zero, if ds.length < s.length then s.drop 1 else nptr)
  else if r.2.1 then (uint64Max, .erange, r.2.2)
  else (r.1, .zero, r.2.2)

/-- GLib's `g_parse_long_long`: the absolute value, minus sign, `errno` (which was zero) and the
end -/
def parseLongLong (nptr : Str) (base : Nat) : Nat × Bool × Errno × Str :=
  if base = 1 ∨ base > 36 then (0, false, .einval, nptr)
  else
    let s := nptr.dropWhile isSpaceC
    if s = [] then (0, false, .zero, nptr)
    else
      let r := digits nptr (sign s).2 (radix base (sign s).2).1 (radix base (sign s).2).2
      (r.1, (sign s).1, r.2)

/-- GLib's `g_ascii_strtoll` -/
def strtoll (nptr : Str) (base : Nat) : Int × Errno × Str :=
  let (v, neg, e, rest) := parseLongLong nptr base
  if neg then
    if v > 2 ^ 63 then (int64Min, .erange, rest) else (-(v : Int), e, rest)
  else
    if v > 2 ^ 63 - 1 then (int64Max, .erange, rest) else (v, e, rest)

/-- GLib's `g_ascii_strtoull` -/
def strtoull (nptr : Str) (base : Nat) : Nat × Errno × Str :=
  let (v, neg, e, rest) := parseLongLong nptr base
  (if neg then (2 ^ 64 - v) % 2 ^ 64 else v, e, rest)

/-- `gutil_strstrip`, src/gutil_misc.c:246-263. The string isn't empty. -/
def strstrip (s : Str) : Str :=
  if Strv.asciiIsSpace (s.head?.getD 0) || Strv.asciiIsSpace (s.getLast?.getD 0) then Strv.chomp (Strv.chug s) else s

/-- `gutil_parse_int64`, src/gutil_misc.c:299-326. The base is converted to `guint`. -/
def parseInt64 (str : Option Str) (base : Int) : Option Int :=
  match str with
  | some (c :: t) =>
    let (ll, errno, rest) := strtoll (strstrip (c :: t)) (toUInt32 base)
    if rest = [] ∧ ¬ ((ll = int64Max ∨ ll = int64Min) ∧ errno = .erange) ∧ ¬ (ll = 0 ∧ errno = .einval) then some ll else none
  | _ => none

/-- `gutil_parse_int`, src/gutil_misc.c:265-280 -/
def parseInt (str : Option Str) (base : Int) : Option Int :=
  match parseInt64 str base with
  | some ll => if ll ≥ intMin ∧ ll ≤ intMax then some ll else none
  | none => none

/-- `gutil_parse_uint64`, src/gutil_misc.c:328-362 -/
def parseUInt64 (str : Option Str) (base : Int) : Option Nat :=
  match str with
  | some (c :: t) =>
    if c ≠ 0x2d ∧ (strstrip (c :: t)).head? ≠ some 0x2d then
      let (ull, errno, rest) := strtoull (strstrip (c :: t)) (toUInt32 base)
      if rest = [] ∧ ¬ (ull = uint64Max ∧ errno = .erange) ∧ ¬ (ull = 0 ∧ errno = .einval) then some ull else none
    else none
  | _ => none

/-- `gutil_parse_uint`, src/gutil_misc.c:282-297 -/
def parseUInt (str : Option Str) (base : Int) : Option Nat :=
  match parseUInt64 str base with
  | some ull => if ull ≤ uintMax then some ull else none
  | none => none

end Verif.Parse
