import Verif.C.Basic

/-!
# Blocks of pointers and heap of strings

Part of the reading of C: memory blocks holding pointers, and a heap of C strings in which
released strings are remembered as such.  Addresses are indices into the heap.
-/

namespace Verif.C

/-- One pointer-sized slot of a memory block. -/
inductive Cell
  | uninit
  | null
  | ptr (a : Nat)
  deriving DecidableEq, Repr

abbrev Block := List Cell

/-- A pointer to (the beginning of) a block, `none` is `NULL`. -/
abbrev Vec := Option Block

/-- The pointer stored in a slot (`none` is `NULL`). -/
def load : Cell → M (Option Nat)
  | .uninit => .error .uninit
  | .null => .ok none
  | .ptr a => .ok (some a)

/-- `b[i]` -/
def deref (b : Block) (i : Nat) : M (Option Nat) :=
  match b[i]? with
  | none => .error .oobRead
  | some c => load c

/-- `b[i] = p` -/
def store (b : Block) (i : Nat) : Option Nat → M Block
  | none => wr b i .null
  | some a => wr b i (.ptr a)

/-- `g_renew(void*, v, n)` and `g_realloc(v, n*sizeof(void*))`: the contents are preserved up
to the smaller of the sizes.  The old block isn't used again (its pointer is overwritten by
all callers); allocation never fails. -/
def renew (v : Vec) (n : Nat) : Block :=
  (v.getD []).take n ++ List.replicate (n - (v.getD []).length) .uninit

/-- `memmove(b + dst, b + src, n*sizeof(void*))` -/
def memmove (b : Block) (dst src n : Nat) : M Block :=
  if src + n ≤ b.length ∧ dst + n ≤ b.length then
    .ok (b.take dst ++ (b.drop src).take n ++ b.drop (dst + n))
  else .error .oobWrite

/-- The characters of a C string, without the terminating zero. -/
abbrev Str := List Byte

/-- Strings by address; `none` is a released one. -/
abbrev Heap := List (Option Str)

/-- The string at the address. -/
def str (h : Heap) (a : Nat) : M Str :=
  match h[a]? with
  | some (some s) => .ok s
  | some none => .error .useAfterFree
  | none => .error .badPtr

/-- `g_free(p)` -/
def gfree (h : Heap) : Option Nat → M Heap
  | none => .ok h
  | some a =>
    match h[a]? with
    | some (some _) => .ok (h.set a none)
    | some none => .error .doubleFree
    | none => .error .badPtr

/-- `g_strdup` -/
def strdup (h : Heap) (a : Nat) : M (Heap × Nat) := do
  let s ← str h a
  .ok (h ++ [some s], h.length)

/-- `strcmp`: only the sign of the result is specified, the code only uses that. -/
def cmpBytes : Str → Str → Int
  | [], [] => 0
  | [], _ :: _ => -1
  | _ :: _, [] => 1
  | a :: s, b :: t => if a = b then cmpBytes s t else if a.toNat < b.toNat then -1 else 1

/-- `strcmp(p, q)` -/
def strcmp (h : Heap) (p q : Option Nat) : M Int :=
  match p, q with
  | some p, some q => do
    let s ← str h p
    let t ← str h q
    .ok (cmpBytes s t)
  | _, _ => .error .nullDeref

end Verif.C
