/-!
# What is needed of C

Undefined behaviour as an explicit outcome, checked machine arithmetic and bounded
memory blocks.  Nothing in this file models a particular piece of `/repo`; it is the
(trusted) reading of C which the model files are written in.
-/

namespace Verif.C

/-- The kinds of undefined behaviour that the model makes observable. -/
inductive UB
  | oobRead        -- read outside of a memory block
  | oobWrite       -- write outside of a memory block
  | uninit         -- read of a slot which has never been written
  | signedOverflow -- overflow of signed integer arithmetic
  | badShift       -- shift count negative or not less than the width
  | badPtr         -- pointer arithmetic leaving the object
  | divByZero
  | nullDeref
  | nullCall       -- call through a NULL function pointer
  | useAfterFree
  | doubleFree
  | badArg         -- library function called outside of its contract
  | diverge        -- infinite loop
  | assertFail     -- GASSERT fails (debug build)
  deriving DecidableEq, Repr

/-- Outcome of a piece of C code: a value or undefined behaviour. -/
abbrev M := Except UB

instance instDecidableEqExcept {ε α : Type} [DecidableEq ε] [DecidableEq α] :
    DecidableEq (Except ε α) := fun x y =>
  match x, y with
  | .ok a, .ok b => if h : a = b then isTrue (h ▸ rfl) else isFalse (fun e => h (by cases e; rfl))
  | .error a, .error b =>
    if h : a = b then isTrue (h ▸ rfl) else isFalse (fun e => h (by cases e; rfl))
  | .ok _, .error _ => isFalse (fun e => by cases e)
  | .error _, .ok _ => isFalse (fun e => by cases e)

theorem ok_bind {α β : Type} (a : α) (f : α → M β) : ((Except.ok a : M α) >>= f) = f a :=
  of_eq_true (eq_self (f a))

theorem error_bind {α β : Type} (e : UB) (f : α → M β) :
    ((Except.error e : M α) >>= f) = .error e :=
  of_eq_true (eq_self (Except.error e : M β))

/-- How the compiler treats the arithmetic that ISO C leaves undefined: `strict` makes
    it an error of the model, `wrap` computes modulo 2^n (what gcc does in practice for
    the expressions in question, and what `-fwrapv` guarantees) and lets pointers leave
    their object. -/
inductive Mode
  | strict
  | wrap
  deriving DecidableEq, Repr

/-- `GASSERT(c)` in a debug build, include/gutil_log.h:251-253. A failure is just logged there; here it's a distinct outcome. -/
def gassert (c : Prop) [Decidable c] : M Unit := if c then .ok () else .error .assertFail

abbrev Byte := BitVec 8

/-- `p[i]` of a block holding `mem`; the offset is signed since pointers may run off
    either end. -/
def rd {α : Type} (mem : List α) (i : Int) : M α :=
  if 0 ≤ i then
    match mem[i.toNat]? with
    | some x => .ok x
    | none => .error .oobRead
  else .error .oobRead

/-- `p[i] = x` -/
def wr {α : Type} (mem : List α) (i : Nat) (x : α) : M (List α) :=
  if i < mem.length then .ok (mem.set i x) else .error .oobWrite

/-- `a % b` (the sign of the result is that of `a`) -/
def cMod (a b : Int) : M Int :=
  if b = 0 then .error .divByZero else .ok (a.tmod b)

/-- `a / b` (truncates towards zero) -/
def cDiv (a b : Int) : M Int :=
  if b = 0 then .error .divByZero else .ok (a.tdiv b)

def intMin : Int := -2147483648
def intMax : Int := 2147483647
def uintMax : Nat := 4294967295
def int64Min : Int := -9223372036854775808
def int64Max : Int := 9223372036854775807
def uint64Max : Nat := 18446744073709551615

/-- Result `x` of an `int` operation. -/
def chk32 (x : Int) : M Int :=
  if intMin ≤ x ∧ x ≤ intMax then .ok x else .error .signedOverflow

/-- Result `x` of a `gint64` operation. -/
def chk64 (x : Int) : M Int :=
  if int64Min ≤ x ∧ x ≤ int64Max then .ok x else .error .signedOverflow

/-- Conversion of an arbitrary integer to `int` (modulo 2^32, as gcc does). -/
def toInt32 (x : Int) : Int := (BitVec.ofInt 32 x).toInt

/-- Conversion of an arbitrary integer to `gint64` (modulo 2^64, as gcc does). -/
def toInt64 (x : Int) : Int := (BitVec.ofInt 64 x).toInt

/-- Result `x` of an `int` operation, in the given mode. -/
def arith32 (mode : Mode) (x : Int) : M Int :=
  match mode with
  | .strict => chk32 x
  | .wrap => .ok (toInt32 x)

/-- Result `x` of a `gint64` operation, in the given mode. -/
def arith64 (mode : Mode) (x : Int) : M Int :=
  match mode with
  | .strict => chk64 x
  | .wrap => .ok (toInt64 x)

/-- Conversion of an arbitrary integer to `guint`. -/
def toUInt32 (x : Int) : Nat := (BitVec.ofInt 32 x).toNat

end Verif.C
