import Verif.Model.Ptrv
import Verif.Spec.Objv

/-!
# Model of `/repo/src/gutil_objv.c`

Objects are represented by their reference counts: `Refs` maps an address to a count, a count
of zero means that the object is gone.  Callbacks made by a finalized object aren't modelled.
Vectors are shorter than 2^32 elements, so that `guint i` in `gutil_objv_at` doesn't wrap.
-/

namespace Verif.Objv
open Verif.C

/-- Reference counts by address; everything past the end doesn't exist. The objects belong to GLib. -/
abbrev Refs := List Nat

/-- The reference count of the object (GLib) -/
def cnt (c : Refs) (a : Nat) : Nat := c[a]?.getD 0

/-- `g_object_ref` (GLib) -/
def objRef (c : Refs) (a : Nat) : M Refs :=
  if 0 < cnt c a then .ok (c.set a (cnt c a + 1)) else .error .useAfterFree

/-- `g_object_unref` (GLib) -/
def objUnref (c : Refs) (a : Nat) : M Refs :=
  if 0 < cnt c a then .ok (c.set a (cnt c a - 1)) else .error .useAfterFree

/-- The loop in `gutil_objv_new`, src/gutil_objv.c:64-69 -/
def newLoop (c : Refs) (b : Block) (i : Nat) : List Nat → M (Refs × Block × Nat)
  | [] => .ok (c, b, i)
  | o :: t => do
    let b ← store b i (some o)
    let c ← objRef c o
    newLoop c b (i + 1) t

/-- `gutil_objv_new`, src/gutil_objv.c:39-74; `args` are the arguments up to the first `NULL`. -/
def new (c : Refs) (args : List Nat) : M (Refs × Vec) := do
  let (c, b, i) ← newLoop c (List.replicate (args.length + 1) .uninit) 0 args
  let b ← store b i none
  .ok (c, some b)

/-- The loop in `gutil_objv_free`, src/gutil_objv.c:83 -/
def freeLoop (c : Refs) : Block → M Refs
  | [] => .error .oobRead
  | p :: t => do
    let p ← load p
    match p with
    | some a =>
      let c ← objUnref c a
      freeLoop c t
    | none => .ok c

/-- `gutil_objv_free`, src/gutil_objv.c:76-86 -/
def free (c : Refs) : Vec → M Refs
  | some b => freeLoop c b
  | none => .ok c

/-- The loop in `gutil_objv_copy`, src/gutil_objv.c:97-100 -/
def copyLoop (c : Refs) : Block → Nat → M (Refs × Nat)
  | [], _ => .error .oobRead
  | p :: t, n => do
    let p ← load p
    match p with
    | some a =>
      let c ← objRef c a
      copyLoop c t (n + 1)
    | none => .ok (c, n)

/-- `gutil_objv_copy`, src/gutil_objv.c:88-105. `gutil_memdup` copies the first `n + 1`
pointers. -/
def copy (c : Refs) : Vec → M (Refs × Vec)
  | some b => do
    let (c, n) ← copyLoop c b 0
    if n + 1 ≤ b.length then .ok (c, some (b.take (n + 1))) else .error .oobRead
  | none => .ok (c, none)

/-- `gutil_objv_add`, src/gutil_objv.c:107-120 -/
def add (c : Refs) (v : Vec) (o : Option Nat) : M (Refs × Vec) :=
  match o with
  | some o => do
    let len ← Ptrv.length v
    let b := renew v (len + 2)
    let b ← store b len (some o)
    let c ← objRef c o
    let b ← store b (len + 1) none
    .ok (c, some b)
  | none => .ok (c, v)

/-- Insertion as the last element, src/gutil_objv.c:134-135 -/
def insertLast (c : Refs) (b : Block) (o len : Nat) : M (Refs × Vec) := do
  let b ← store b len (some o)
  let c ← objRef c o
  let b ← store b (len + 1) none
  .ok (c, some b)

/-- Insertion elsewhere, src/gutil_objv.c:138-140 -/
def insertMiddle (c : Refs) (b : Block) (o pos len : Nat) : M (Refs × Vec) := do
  let b ← memmove b (pos + 1) pos (len - pos + 1)
  let b ← store b pos (some o)
  let c ← objRef c o
  .ok (c, some b)

/-- `gutil_objv_insert`, src/gutil_objv.c:122-144 -/
def insert (c : Refs) (v : Vec) (o : Option Nat) (pos : Nat) : M (Refs × Vec) :=
  match o with
  | some o => do
    let len ← Ptrv.length v
    let b := renew v (len + 2)
    if pos ≥ len then insertLast c b o len else insertMiddle c b o pos len
  | none => .ok (c, v)

/-- The loop in `gutil_objv_append`, src/gutil_objv.c:161-163, if `src` points to another
block. -/
def appendLoop (c : Refs) (b : Block) (dest : Nat) : Block → M (Refs × Block × Nat)
  | [] => .error .oobRead
  | p :: t => do
    let p ← load p
    match p with
    | some a =>
      let c ← objRef c a
      let b ← store b dest (some a)
      appendLoop c b (dest + 1) t
    | none => .ok (c, b, dest)

/-- `gutil_objv_append`, src/gutil_objv.c:146-167, when `objs` isn't `objv` -/
def append (c : Refs) (v : Vec) (objs : Vec) : M (Refs × Vec) := do
  let len2 ← Ptrv.length objs
  if len2 > 0 then do
    let len1 ← Ptrv.length v
    let b := renew v (len1 + len2 + 1)
    let (c, b, dest) ← appendLoop c b len1 (objs.getD [])
    let b ← store b dest none
    .ok (c, some b)
  else .ok (c, v)

/-- The same loop if `src` and `dest` point to the same block, which is the case if the block
hasn't been moved by `g_renew`.  `fuel` bounds the number of iterations. src/gutil_objv.c:161-163. -/
def appendSelfLoop : (fuel : Nat) → Refs → Block → (dest src : Nat) → M (Refs × Block × Nat)
  | 0, _, _, _, _ => .error .diverge
  | fuel + 1, c, b, dest, src => do
    let p ← deref b src
    match p with
    | some a =>
      let c ← objRef c a
      let b ← store b dest (some a)
      appendSelfLoop fuel c b (dest + 1) (src + 1)
    | none => .ok (c, b, dest)

/-- `gutil_objv_append(objv, objv)`, src/gutil_objv.c:146-167. `g_renew` either extends the
block in place or moves it, in the latter case `*src` is a read of released memory. -/
def appendSelf (moved : Bool) (c : Refs) (v : Vec) : M (Refs × Vec) := do
  let len2 ← Ptrv.length v
  if len2 > 0 then do
    let len1 ← Ptrv.length v
    let b := renew v (len1 + len2 + 1)
    if moved then .error .useAfterFree
    else
      let (c, b, dest) ← appendSelfLoop (b.length + 1) c b len1 0
      let b ← store b dest none
      .ok (c, some b)
  else .ok (c, v)

/-- `gutil_objv_find_last_impl(objv + off, obj, i)`, src/gutil_objv.c:169-182 -/
def findLastImpl (b : Block) (off : Nat) (o : Nat) : Nat → M Int
  | 0 => .ok (-1)
  | i + 1 => do
    let p ← deref b (off + i)
    if p = some o then .ok i else findLastImpl b off o i

/-- `gutil_objv_remove_impl`, src/gutil_objv.c:184-194 -/
def removeImpl (c : Refs) (b : Block) (pos len : Nat) : M (Refs × Block) := do
  let p ← deref b pos
  match p with
  | some a =>
    let c ← objUnref c a
    let b ← memmove b pos (pos + 1) (len - pos)
    .ok (c, renew (some b) len)
  | none => .error .nullDeref

/-- The loop in `gutil_objv_find`, src/gutil_objv.c:304-308 -/
def findLoop (o : Nat) : Block → Int → M Int
  | [], _ => .error .oobRead
  | p :: t, i => do
    let p ← load p
    match p with
    | some a => if a = o then .ok i else findLoop o t (i + 1)
    | none => .ok (-1)

/-- `gutil_objv_find`, src/gutil_objv.c:297-312 -/
def find (v : Vec) (o : Option Nat) : M Int :=
  match v, o with
  | some b, some o => findLoop o b 0
  | _, _ => .ok (-1)

/-- `gutil_objv_find_last`, src/gutil_objv.c:314-322 -/
def findLast (v : Vec) (o : Option Nat) : M Int :=
  match v, o with
  | some b, some o => do
    let n ← Ptrv.length (some b)
    findLastImpl b 0 o n
  | _, _ => .ok (-1)

/-- The loop in `gutil_objv_contains`, src/gutil_objv.c:331-335 -/
def containsLoop (o : Nat) : Block → M Bool
  | [] => .error .oobRead
  | p :: t => do
    let p ← load p
    match p with
    | some a => if a = o then .ok true else containsLoop o t
    | none => .ok false

/-- `gutil_objv_contains`, src/gutil_objv.c:324-339 -/
def contains (v : Vec) (o : Option Nat) : M Bool :=
  match v, o with
  | some b, some o => containsLoop o b
  | _, _ => .ok false

/-- The loop in `gutil_objv_remove`, src/gutil_objv.c:214-218 -/
def removeLoop (pos : Nat) (o : Nat) : (fuel : Nat) → Refs → Block → (len l : Nat) → M (Refs × Block)
  | 0, _, _, _, _ => .error .diverge
  | fuel + 1, c, b, len, l => do
    let i ← findLastImpl b pos o l
    if i ≥ 0 then
      let (c, b) ← removeImpl c b (pos + i.toNat) len
      removeLoop pos o fuel c b (len - 1) i.toNat
    else .ok (c, b)

/-- `gutil_objv_remove`, src/gutil_objv.c:196-223 -/
def remove (c : Refs) (v : Vec) (o : Option Nat) (all : Bool) : M (Refs × Vec) :=
  match v, o with
  | some b, some o => do
    let pos ← find v (some o)
    if pos ≥ 0 then
      let len ← Ptrv.length v
      let (c, b) ← removeImpl c b pos.toNat len
      if all then
        let len := len - 1
        let (c, b) ← removeLoop pos.toNat o (len + 1) c b len (len - pos.toNat)
        .ok (c, some b)
      else .ok (c, some b)
    else .ok (c, v)
  | _, _ => .ok (c, v)

/-- `gutil_objv_remove_at`, src/gutil_objv.c:225-238 -/
def removeAt (c : Refs) (v : Vec) (pos : Nat) : M (Refs × Vec) :=
  match v with
  | some b => do
    let len ← Ptrv.length v
    if pos < len then
      let (c, b) ← removeImpl c b pos len
      .ok (c, some b)
    else .ok (c, v)
  | none => .ok (c, v)

/-- The loop in `gutil_objv_at` and what follows, src/gutil_objv.c:248-252; the rest of the
block is `objv + k`, the number is `pos - k`. -/
def atLoop : Block → Nat → M (Option Nat)
  | b, 0 => do
    let _ ← deref b 0
    deref b 0
  | b, i + 1 => do
    let p ← deref b 0
    if p.isSome then atLoop (b.drop 1) i else .ok none

/-- `gutil_objv_at`, src/gutil_objv.c:240-256 -/
def at_ (v : Vec) (pos : Nat) : M (Option Nat) :=
  match v with
  | some b => atLoop b pos
  | none => .ok none

/-- The loop in `gutil_objv_equal` and what follows, src/gutil_objv.c:272-273 -/
def equalLoop : Block → Block → M Bool
  | [], _ => .error .oobRead
  | p :: t, b => do
    let p ← load p
    let q ← deref b 0
    if p.isSome ∧ p = q then equalLoop t (b.drop 1)
    else .ok (p.isNone && q.isNone)

/-- `gutil_objv_equal`, src/gutil_objv.c:258-275; `same` tells whether the pointers are equal.
In the loop, `v2[len]` is only read if `v1[len]` isn't `NULL`; it's there anyway. -/
def equal (same : Bool) (v1 v2 : Vec) : M Bool :=
  if same then .ok true
  else match v1, v2 with
  | none, none => .ok true
  | none, some b => do
    let p ← deref b 0
    .ok p.isNone
  | some b, none => do
    let p ← deref b 0
    .ok p.isNone
  | some b1, some b2 => equalLoop b1 b2

/-- `gutil_objv_first`, src/gutil_objv.c:277-282 -/
def first : Vec → M (Option Nat)
  | some b => deref b 0
  | none => .ok none

/-- The loop in `gutil_objv_last` and what follows, src/gutil_objv.c:291-292 -/
def lastLoop : Block → M (Option Nat)
  | [] => .error .oobRead
  | p :: t => do
    let q ← deref t 0
    if q.isSome then lastLoop t else load p

/-- `gutil_objv_last`, src/gutil_objv.c:284-295 -/
def last : Vec → M (Option Nat)
  | some b => do
    let p ← deref b 0
    if p.isSome then lastLoop b else .ok none
  | none => .ok none

/-! ### A program using the vectors -/

/-- The variables of the program. Vectors of src/gutil_objv.c:39-339. -/
structure State where
  refs : Refs
  vecs : List Vec

/-- One call. There is no code behind this definition, it only calls the functions. src/gutil_objv.c:39-339. -/
def exec (s : State) : Spec.Op → M State
  | .ref a => do
    let c ← objRef s.refs a
    .ok { s with refs := c }
  | .unref a => do
    let c ← objUnref s.refs a
    .ok { s with refs := c }
  | .new args => do
    let (c, v) ← new s.refs args
    .ok ⟨c, s.vecs ++ [v]⟩
  | .copy i => do
    let (c, v) ← copy s.refs (s.vecs[i]?.getD none)
    .ok ⟨c, s.vecs ++ [v]⟩
  | .add i o => do
    let (c, v) ← add s.refs (s.vecs[i]?.getD none) o
    .ok ⟨c, s.vecs.set i v⟩
  | .insert i o pos => do
    let (c, v) ← insert s.refs (s.vecs[i]?.getD none) o pos
    .ok ⟨c, s.vecs.set i v⟩
  | .append i j => do
    let (c, v) ← append s.refs (s.vecs[i]?.getD none) (s.vecs[j]?.getD none)
    .ok ⟨c, s.vecs.set i v⟩
  | .remove i o all => do
    let (c, v) ← remove s.refs (s.vecs[i]?.getD none) o all
    .ok ⟨c, s.vecs.set i v⟩
  | .removeAt i pos => do
    let (c, v) ← removeAt s.refs (s.vecs[i]?.getD none) pos
    .ok ⟨c, s.vecs.set i v⟩
  | .free i => do
    let c ← free s.refs (s.vecs[i]?.getD none)
    .ok ⟨c, s.vecs.set i none⟩

/-- No code of the library, a sequence of uses of src/gutil_objv.c:39-339. -/
def run (s : State) : List Spec.Op → M State
  | [] => .ok s
  | op :: t => do
    let s ← exec s op
    run s t

end Verif.Objv
