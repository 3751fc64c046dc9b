import Verif.Model.Ptrv

/-!
# Model of `/repo/src/gutil_strv.c`

Vectors are assumed to be shorter than 2^31 elements (16 gigabytes of pointers) so that
conversions between `gsize`, `guint` and `int` change nothing; they are omitted.  `s` is a
string given by the caller, `none` is `NULL`; it's an address like any other and may be that
of an element. The arrays of pointers are values, which means that nobody else has a pointer
into them.
-/

namespace Verif.Strv
open Verif.C

/-- `gutil_strv_length`, src/gutil_strv.c:45-50 -/
def length (v : Vec) : M Nat := Ptrv.length v

/-- The loop in `gutil_strv_at` and what follows, src/gutil_strv.c:63-67; the rest of the
block is `sv + k`, the number is `i - k`. -/
def atLoop : Block → Nat → M (Option Nat)
  | b, 0 => do
    let _ ← deref b 0
    deref b 0
  | b, i + 1 => do
    let p ← deref b 0
    if p.isSome then atLoop (b.drop 1) i else .ok none

/-- `gutil_strv_at`, src/gutil_strv.c:55-70 -/
def at_ (v : Vec) (i : Nat) : M (Option Nat) :=
  match v with
  | some b => atLoop b i
  | none => .ok none

/-- The loop in `gutil_strv_last` and what follows, src/gutil_strv.c:82-83 -/
def lastLoop : Block → M (Option Nat)
  | [] => .error .oobRead
  | c :: t => do
    let q ← deref t 0
    if q.isSome then lastLoop t else load c

/-- `gutil_strv_last`, src/gutil_strv.c:75-86 -/
def last : Vec → M (Option Nat)
  | some b => do
    let p ← deref b 0
    if p.isSome then lastLoop b else .ok none
  | none => .ok none

/-- The loop in `gutil_strv_find`, src/gutil_strv.c:101-105 -/
def findLoop (h : Heap) (s : Nat) : Block → Int → M Int
  | [], _ => .error .oobRead
  | c :: t, i => do
    let p ← load c
    if p.isSome then
      let r ← strcmp h p (some s)
      if r = 0 then .ok i else findLoop h s t (i + 1)
    else .ok (-1)

/-- `gutil_strv_find`, src/gutil_strv.c:92-108 -/
def find (h : Heap) (v : Vec) (s : Option Nat) : M Int :=
  match v, s with
  | some b, some s => findLoop h s b 0
  | _, _ => .ok (-1)

/-- `gutil_strv_find_last_impl(sv + off, s, i)`, src/gutil_strv.c:111-124; never called with
a negative `i`. -/
def findLastImpl (h : Heap) (b : Block) (off : Nat) (s : Option Nat) : Nat → M Int
  | 0 => .ok (-1)
  | i + 1 => do
    let p ← deref b (off + i)
    let r ← strcmp h p s
    if r = 0 then .ok i else findLastImpl h b off s i

/-- `gutil_strv_find_last`, src/gutil_strv.c:130-138 -/
def findLast (h : Heap) (v : Vec) (s : Option Nat) : M Int :=
  match s with
  | some s => do
    let n ← length v
    findLastImpl h (v.getD []) 0 (some s) n
  | none => .ok (-1)

/-- `gutil_strv_contains`, src/gutil_strv.c:143-149 -/
def contains (h : Heap) (v : Vec) (s : Option Nat) : M Bool := do
  let i ← find h v s
  .ok (decide (i ≥ 0))

/-- `gutil_strv_add`, src/gutil_strv.c:154-167 -/
def add (h : Heap) (v : Vec) (s : Option Nat) : M (Heap × Vec) :=
  match s with
  | some s => do
    let len ← length v
    let b := renew v (len + 2)
    let (h, a) ← strdup h s
    let b ← store b len (some a)
    let b ← store b (len + 1) none
    .ok (h, some b)
  | none => .ok (h, v)

/-- The loop copying the arguments, src/gutil_strv.c:191 -/
def addvLoop (h : Heap) (b : Block) (len : Nat) : List Nat → M (Heap × Block × Nat)
  | [] => .ok (h, b, len)
  | s :: t => do
    let (h, a) ← strdup h s
    let b ← store b len (some a)
    addvLoop h b (len + 1) t

/-- `gutil_strv_addv`, src/gutil_strv.c:172-196; `args` are the variable arguments up to the
first `NULL`. -/
def addv (h : Heap) (v : Vec) (s : Option Nat) (args : List Nat) : M (Heap × Vec) :=
  match s with
  | some s => do
    let n := 1 + args.length
    let len ← length v
    let b := renew v (len + n + 1)
    let (h, a) ← strdup h s
    let b ← store b len (some a)
    let (h, b, len) ← addvLoop h b (len + 1) args
    let b ← store b len none
    .ok (h, some b)
  | none => .ok (h, v)

/-- `gutil_strv_remove_impl`, src/gutil_strv.c:199-212 -/
def removeImpl (h : Heap) (b : Block) (pos len : Nat) (freeString : Bool) : M (Heap × Block) := do
  let h ← if freeString then do
      let p ← deref b pos
      gfree h p
    else .ok h
  let b ← memmove b pos (pos + 1) (len - pos)
  .ok (h, renew (some b) len)

/-- `gutil_strv_remove_at`, src/gutil_strv.c:217-231 -/
def removeAt (h : Heap) (v : Vec) (pos : Int) (freeString : Bool) : M (Heap × Vec) :=
  match v with
  | some b =>
    if pos ≥ 0 then do
      let len ← length v
      if pos < len then
        let (h, b) ← removeImpl h b pos.toNat len freeString
        .ok (h, some b)
      else .ok (h, v)
    else .ok (h, v)
  | none => .ok (h, v)

/-- The loop in `gutil_strv_remove`, src/gutil_strv.c:254-257. It's given `len + 1`
iterations (`l` gets smaller each time). -/
def removeLoop (pos : Nat) (s : Nat) : (fuel : Nat) → Heap → Block → (len l : Nat) → M (Heap × Block)
  | 0, _, _, _, _ => .error .diverge
  | fuel + 1, h, b, len, l => do
    let i ← findLastImpl h b pos (some s) l
    if i ≥ 0 then
      let (h, b) ← removeImpl h b (pos + i.toNat) len true
      removeLoop pos s fuel h b (len - 1) i.toNat
    else .ok (h, b)

/-- `gutil_strv_remove`, src/gutil_strv.c:236-262 -/
def remove (h : Heap) (v : Vec) (s : Option Nat) (all : Bool) : M (Heap × Vec) :=
  match v, s with
  | some b, some s => do
    let pos ← find h v (some s)
    if pos ≥ 0 then
      let len ← length v
      let (h, b) ← removeImpl h b pos.toNat len true
      if all then
        let len := len - 1
        let (h, b) ← removeLoop pos.toNat s (len + 1) h b len (len - pos.toNat)
        .ok (h, some b)
      else .ok (h, some b)
    else .ok (h, v)
  | _, _ => .ok (h, v)

/-- The loop in `gutil_strv_remove_dups`, src/gutil_strv.c:274-285. It's given `len + 1`
iterations (`len - pos` gets smaller each time). -/
def dupsLoop : (fuel : Nat) → Heap → Block → (len pos l : Nat) → M (Heap × Block)
  | 0, _, _, _, _, _ => .error .diverge
  | fuel + 1, h, b, len, pos, l => do
    if pos < len then
      let p ← deref b pos
      let i ← findLastImpl h b (pos + 1) p (l - 1)
      if i < 0 then dupsLoop fuel h b len (pos + 1) (len - (pos + 1))
      else
        let (h, b) ← removeImpl h b (pos + 1 + i.toNat) len true
        dupsLoop fuel h b (len - 1) pos (i.toNat + 1)
    else .ok (h, b)

/-- `gutil_strv_remove_dups`, src/gutil_strv.c:267-288 -/
def removeDups (h : Heap) (v : Vec) : M (Heap × Vec) :=
  match v with
  | some b => do
    let len ← length v
    let (h, b) ← dupsLoop (len + 1) h b len 0 len
    .ok (h, some b)
  | none => .ok (h, v)

/-- The loops in `gutil_strv_equal`: counting, src/gutil_strv.c:310-311 (`none`: the lengths
differ) -/
def equalLen : Block → Block → Nat → M (Option Nat)
  | [], _, _ => .error .oobRead
  | c :: t, b, len => do
    let p ← load c
    let q ← deref b 0
    if p.isSome then
      if q.isSome then equalLen t (b.drop 1) (len + 1) else .ok none
    else if q.isSome then .ok none else .ok (some len)

/-- ... and comparing, src/gutil_strv.c:313-318 (`len - i` more to go) -/
def equalLoop (h : Heap) (b1 b2 : Block) (len : Nat) : Nat → M Bool
  | 0 => .ok true
  | n + 1 => do
    let p ← deref b1 (len - (n + 1))
    let q ← deref b2 (len - (n + 1))
    let r ← strcmp h p q
    if r ≠ 0 then .ok false else equalLoop h b1 b2 len n

/-- `gutil_strv_equal`, src/gutil_strv.c:296-322. `same` tells whether the pointers are equal
(then so must be what they point to). -/
def equal (h : Heap) (same : Bool) (v1 v2 : Vec) : M Bool :=
  if same then .ok true
  else match v1, v2 with
  | none, none => .ok true
  | none, some b => do
    let p ← deref b 0
    .ok p.isNone
  | some b, none => do
    let p ← deref b 0
    .ok p.isNone
  | some b1, some b2 => do
    let n ← equalLen b1 b2 0
    match n with
    | some len => equalLoop h b1 b2 len len
    | none => .ok false

/-- `gutil_strv_sort_ascending` and `gutil_strv_sort_descending`, src/gutil_strv.c:324-340 -/
def compare (h : Heap) (ascending : Bool) (p q : Cell) : M Int := do
  let p ← load p
  let q ← load q
  let r ← strcmp h p q
  .ok (if ascending then r else -r)

/-- What the standard says of `qsort`: if the comparison is defined for all the elements and
orders them, the result is a permutation which is in order. (C library) Called at src/gutil_strv.c:353. -/
def QsortContract (qsort : (Cell → Cell → M Int) → Block → Block) : Prop :=
  ∀ cmp b,
    (∀ x ∈ b, ∀ y ∈ b, ∃ r, cmp x y = .ok r) →
    (∀ x ∈ b, ∀ y ∈ b, ∀ r s, cmp x y = .ok r → cmp y x = .ok s → (r < 0 ↔ 0 < s)) →
    (∀ x ∈ b, ∀ y ∈ b, ∀ z ∈ b, ∀ r s t, cmp x y = .ok r → cmp y z = .ok s → cmp x z = .ok t →
      r ≤ 0 → s ≤ 0 → t ≤ 0) →
    (qsort cmp b).Perm b ∧ (qsort cmp b).Pairwise (fun x y => ∃ r, cmp x y = .ok r ∧ r ≤ 0)

/-- What the standard says of `bsearch`: if the elements less than the key come first, then
those which match and then those which are greater, it finds one that matches if there is
any. (C library) Called at src/gutil_strv.c:377. -/
def BsearchContract (bsearch : (Cell → Cell → M Int) → Cell → Block → Option Nat) : Prop :=
  ∀ cmp key b,
    (∀ x ∈ b, ∃ r, cmp key x = .ok r) →
    b.Pairwise (fun x y => ∀ r s, cmp key x = .ok r → cmp key y = .ok s →
      (r ≤ 0 → s ≤ 0) ∧ (r < 0 → s < 0)) →
    match bsearch cmp key b with
    | some i => ∃ x, b[i]? = some x ∧ cmp key x = .ok 0
    | none => ∀ x ∈ b, cmp key x ≠ .ok 0

/-- `gutil_strv_sort`, src/gutil_strv.c:345-358 -/
def sort (qsort : (Cell → Cell → M Int) → Block → Block) (h : Heap) (v : Vec) (ascending : Bool) : M Vec := do
  let len ← length v
  if len > 0 then
    let b := v.getD []
    .ok (some (qsort (compare h ascending) (b.take len) ++ b.drop len))
  else .ok v

/-- `gutil_strv_bsearch`, src/gutil_strv.c:367-386 -/
def search (bsearch : (Cell → Cell → M Int) → Cell → Block → Option Nat) (h : Heap) (v : Vec)
    (s : Option Nat) (ascending : Bool) : M Int :=
  match s with
  | some s => do
    let len ← length v
    if len > 0 then
      match bsearch (compare h ascending) (.ptr s) ((v.getD []).take len) with
      | some i => .ok i
      | none => .ok (-1)
    else .ok (-1)
  | none => .ok (-1)

/-- `g_ascii_isspace`: tab, line feed, form feed, carriage return, space (GLib's table, not
part of `/repo`) -/
def asciiIsSpace (b : Byte) : Bool := b == 9 || b == 10 || b == 12 || b == 13 || b == 32

/-- `g_strstrip` is `g_strchomp(g_strchug(s))` and works in place (GLib, not part of
`/repo`) -/
def chug (s : Str) : Str := s.dropWhile asciiIsSpace
/-- `g_strchomp` (GLib), a part of `g_strstrip`, src/gutil_strv.c:399 -/
def chomp (s : Str) : Str := (s.reverse.dropWhile asciiIsSpace).reverse

/-- The loop in `gutil_strv_strip`, src/gutil_strv.c:398-400 -/
def stripLoop (h : Heap) : Block → M Heap
  | [] => .error .oobRead
  | c :: t => do
    let p ← load c
    match p with
    | some a =>
      let s ← str h a
      stripLoop (h.set a (some (chomp (chug s)))) t
    | none => .ok h

/-- `gutil_strv_strip`, src/gutil_strv.c:391-403; returns its argument. -/
def strip (h : Heap) (v : Vec) : M Heap :=
  match v with
  | some b => stripLoop h b
  | none => .ok h

end Verif.Strv
