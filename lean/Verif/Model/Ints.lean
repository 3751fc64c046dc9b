import Verif.C.Basic
import Verif.Spec.Ints

/-!
# Model of `/repo/src/gutil_ints.c`

Memory consists of blocks of ints (`none`: released) and of `GUtilInts` structures (`none`:
released).  Reference counts are natural numbers (less than 2^31 references) and changed by
one thread at a time.
-/

namespace Verif.Ints
open Verif.C

/-- A C `int`, as a bit pattern. `const int* data`, src/gutil_ints.c:43. -/
abbrev Val := BitVec 32

/-- `free_func` together with its `user_data`. `user b` is any function which releases the
block `b` (such as `g_bytes_unref`); `gfree b` is `g_free` and `unref i` is
`gutil_ints_unref1`. src/gutil_ints.c:46-47 and 99-105. -/
inductive Free
  | null
  | gfree (b : Nat)
  | user (b : Nat)
  | unref (i : Nat)
  deriving DecidableEq, Repr

/-- `struct gutil_ints`, src/gutil_ints.c:42-48; `data` points to `block + off`. -/
structure Obj where
  block : Nat
  off : Nat
  count : Nat
  refs : Nat
  free : Free
  deriving DecidableEq, Repr

/-- Blocks of memory and the structures allocated by src/gutil_ints.c:78-97; `none` is a released one -/
structure State where
  blocks : List (Option (List Val))
  objs : List (Option Obj)
  deriving DecidableEq, Repr

/-- The structure at `i`. A pointer passed to src/gutil_ints.c:50-309. -/
def State.obj (s : State) (i : Nat) : M Obj :=
  match s.objs[i]? with
  | some (some o) => .ok o
  | some none => .error .useAfterFree
  | none => .error .badPtr

/-- The `n` ints at `block + off`. Any access to `ints->data`, src/gutil_ints.c:50-309. -/
def State.read (s : State) (b off n : Nat) : M (List Val) :=
  match s.blocks[b]? with
  | some (some l) => if off + n ≤ l.length then .ok ((l.drop off).take n) else .error .oobRead
  | some none => .error .useAfterFree
  | none => .error .badPtr

/-- `g_free(b)`. (GLib) Called through `free_func` at src/gutil_ints.c:143 and elsewhere. -/
def State.release (s : State) (b : Nat) : M State :=
  match s.blocks[b]? with
  | some (some _) => .ok { s with blocks := s.blocks.set b none }
  | some none => .error .doubleFree
  | none => .error .badPtr

/-- `g_malloc` followed by copying. (GLib) `gutil_memdup` at src/gutil_ints.c:56, 166 and 171, and memory of the program itself. -/
def State.alloc (s : State) (l : List Val) : State × Nat :=
  ({ s with blocks := s.blocks ++ [some l] }, s.blocks.length)

/-- `gutil_ints_new_with_free_func`, src/gutil_ints.c:78-97; `data` is never `NULL`. -/
def newWithFreeFunc (s : State) (b off count : Nat) (f : Free) : State × Option Nat :=
  if count = 0 then (s, none)
  else ({ s with objs := s.objs ++ [some ⟨b, off, count, 1, f⟩] }, some s.objs.length)

/-- `gutil_ints_new_take`, src/gutil_ints.c:62-68 -/
def newTake (s : State) (b count : Nat) : State × Option Nat := newWithFreeFunc s b 0 count (.gfree b)

/-- `gutil_ints_new`, src/gutil_ints.c:50-60 -/
def new (s : State) (b n : Nat) : M (State × Option Nat) :=
  if n = 0 then .ok (s, none)
  else do
    let l ← s.read b 0 n
    let (s, b) := s.alloc l
    .ok (newTake s b n)

/-- `gutil_ints_new_static`, src/gutil_ints.c:70-76 -/
def newStatic (s : State) (b count : Nat) : State × Option Nat := newWithFreeFunc s b 0 count .null

/-- `gutil_ints_ref`, src/gutil_ints.c:125-134 -/
def ref (s : State) (i : Nat) : M State := do
  let o ← s.obj i
  .ok { s with objs := s.objs.set i (some { o with refs := o.refs + 1 }) }

/-- `gutil_ints_new_from_ints`, src/gutil_ints.c:107-123. The arguments are `guint`, so is
their sum. -/
def newFromInts (s : State) (i offset count : Nat) : M (State × Option Nat) := do
  let o ← s.obj i
  if offset < o.count then
    let «end» := (offset + count) % 2 ^ 32
    let «end» := if «end» > o.count then o.count else «end»
    let s ← ref s i
    .ok (newWithFreeFunc s o.block (o.off + offset) (toUInt32 («end» - offset)) (.unref i))
  else .ok (s, none)

/-- `ints->free_func(ints->user_data)`, src/gutil_ints.c:143 and 167. `unref1` is
`gutil_ints_unref1`. -/
def callFree (unref1 : State → Nat → M State) (s : State) : Free → M State
  | .null => .error .nullCall
  | .gfree b => s.release b
  | .user b => s.release b
  | .unref p => unref1 s p

/-- `if (ints->free_func) …`, src/gutil_ints.c:142-144 -/
def ifFree (unref1 : State → Nat → M State) (s : State) (f : Free) : M State :=
  if f = .null then .ok s else callFree unref1 s f

/-- `gutil_ints_unref`, src/gutil_ints.c:136-148, together with `gutil_ints_unref1` (lines
99-105) through which it calls itself, `fuel` being the depth of that. -/
def unref : (fuel : Nat) → State → Nat → M State
  | 0, _, _ => .error .diverge
  | fuel + 1, s, i => do
    let o ← s.obj i
    if o.refs = 1 then
      let s ← ifFree (unref fuel) s o.free
      .ok { s with objs := s.objs.set i none }
    else .ok { s with objs := s.objs.set i (some { o with refs := o.refs - 1 }) }

/-- The last reference, and the data can't be given to the caller,
src/gutil_ints.c:166-169. -/
def copyAndFree (s : State) (i : Nat) (o : Obj) : M (State × (Nat × Nat) × Nat) := do
  let l ← s.read o.block o.off o.count
  let (s, b) := s.alloc l
  let s ← callFree (unref s.objs.length) s o.free
  .ok ({ s with objs := s.objs.set i none }, (b, 0), o.count)

/-- Not the last reference, src/gutil_ints.c:171 -/
def copyData (s : State) (o : Obj) : M (State × (Nat × Nat) × Nat) := do
  let l ← s.read o.block o.off o.count
  let (s, b) := s.alloc l
  .ok (s, (b, 0), o.count)

/-- Is it `g_free`? The comparison at src/gutil_ints.c:162. -/
def Free.isGFree : Free → Bool
  | .gfree _ => true
  | _ => false

/-- `gutil_ints_unref_to_data`, src/gutil_ints.c:150-180. Returns the block and the number of
ints in it. `ints->data` is given to the caller if the free function is `g_free`, whatever its
argument; the pointer may be one to the middle of a block. -/
def unrefToData (s : State) (i : Nat) : M (State × (Nat × Nat) × Nat) := do
  let o ← s.obj i
  if o.refs = 1 then
    if o.free.isGFree then .ok ({ s with objs := s.objs.set i none }, (o.block, o.off), o.count)
    else copyAndFree s i o
  else copyData { s with objs := s.objs.set i (some { o with refs := o.refs - 1 }) } o

/-- `gutil_ints_get_data`, src/gutil_ints.c:182-198, and all the data there -/
def getData (s : State) (i : Nat) : M (List Val) := do
  let o ← s.obj i
  s.read o.block o.off o.count

/-- `gutil_ints_get_count`, src/gutil_ints.c:200-205 -/
def getCount (s : State) (i : Nat) : M Nat := do
  let o ← s.obj i
  .ok o.count

/-! ### A program using the blocks -/

/-- One call. There is no code behind this definition, it only calls the functions (and the
program's own allocation). No code of the library, a sequence of uses of src/gutil_ints.c:50-309. -/
def exec (s : State) : Spec.Op → M (State × Spec.Res)
  | .alloc vals => .ok ((s.alloc vals).1, .data (s.alloc vals).2 vals.length)
  | .free b => do
    let s ← s.release b
    .ok (s, .none)
  | .new b n => do
    let (s, r) ← new s b n
    .ok (s, .ints r)
  | .take b n => .ok ((newTake s b n).1, .ints (newTake s b n).2)
  | .static b n => .ok ((newStatic s b n).1, .ints (newStatic s b n).2)
  | .user b n => .ok ((newWithFreeFunc s b 0 n (.user b)).1, .ints (newWithFreeFunc s b 0 n (.user b)).2)
  | .part i off n => do
    let (s, r) ← newFromInts s i off n
    .ok (s, .ints r)
  | .ref i => do
    let s ← ref s i
    .ok (s, .none)
  | .unref i => do
    let s ← unref s.objs.length s i
    .ok (s, .none)
  | .toData i => do
    let (s, (b, off), n) ← unrefToData s i
    if off = 0 then .ok (s, .data b n) else .error .badPtr

/-- No code of the library, a sequence of uses of src/gutil_ints.c:50-309. -/
def run (s : State) : List Spec.Op → M (State × List Spec.Res)
  | [] => .ok (s, [])
  | op :: t => do
    let (s, r) ← exec s op
    let (s, rs) ← run s t
    .ok (s, r :: rs)

/-! ### Functions of the contents

From here on a `GUtilInts` is given by its data, and `NULL` is `none`. -/

/-- The loop in `gutil_ints_find`, src/gutil_ints.c:215-219; `i` is converted to `int`. -/
def findLoop (value : Val) : List Val → (i : Nat) → Int
  | [], _ => -1
  | x :: t, i => if x = value then toInt32 i else findLoop value t (i + 1)

/-- `gutil_ints_find`, src/gutil_ints.c:207-222 -/
def find : Option (List Val) → Val → Int
  | some l, value => findLoop value l 0
  | none, _ => -1

/-- The loop in `gutil_ints_contains`, src/gutil_ints.c:237-241 -/
def containsLoop (value : Val) : List Val → Bool
  | [] => false
  | x :: t => if x = value then true else containsLoop value t

/-- `gutil_ints_contains`, src/gutil_ints.c:224-244 -/
def contains : Option (List Val) → Val → Bool
  | some l, value => containsLoop value l
  | none, _ => false

/-- The loop in `gutil_ints_hash`, src/gutil_ints.c:254-256. The product is that of a `guint`
and an `int` converted to `guint`. -/
def hashLoop : List Val → (i : Nat) → (h : Val) → Val
  | [], _, h => h
  | x :: t, i, h => hashLoop t (i + 1) (h ^^^ (x * BitVec.ofNat 32 (i + 1)))

/-- `gutil_ints_hash`, src/gutil_ints.c:246-261 -/
def hash : Option (List Val) → Val
  | some l => hashLoop l 0 1234
  | none => 0

/-- The bytes of an `int` in memory; `le`: the machine is little-endian. What `memcmp` at src/gutil_ints.c:275 looks at. -/
def bytesOf (le : Bool) (x : Val) : List Byte :=
  let b := [x.extractLsb' 0 8, x.extractLsb' 8 8, x.extractLsb' 16 8, x.extractLsb' 24 8]
  if le then b else b.reverse

/-- `memcmp` (of blocks of the same size); only the sign is specified. (C library) Called at src/gutil_ints.c:275 and 298. -/
def memcmp : List Byte → List Byte → Int
  | a :: s, b :: t => if a = b then memcmp s t else if a.toNat < b.toNat then -1 else 1
  | _, _ => 0

/-- `gutil_ints_equal`, src/gutil_ints.c:263-279 -/
def equal (le : Bool) : Option (List Val) → Option (List Val) → Bool
  | some a, some b => a.length = b.length && decide (memcmp (a.flatMap (bytesOf le)) (b.flatMap (bytesOf le)) = 0)
  | none, none => true
  | _, _ => false

/-- `gutil_ints_compare`, src/gutil_ints.c:287-309. The shortcut for the same pointer gives
what the comparison would. -/
def compare (le : Bool) : Option (List Val) → Option (List Val) → Int
  | some a, some b =>
    let n := min a.length b.length
    let ret := memcmp ((a.take n).flatMap (bytesOf le)) ((b.take n).flatMap (bytesOf le))
    if ret ≠ 0 ∨ a.length = b.length then ret
    else if a.length > b.length then 1 else -1
  | none, none => 0
  | some _, none => 1
  | none, some _ => -1

end Verif.Ints
