import Verif.Model.Ring
import Verif.Spec.RingCb

/-!
# Model of `/repo/src/gutil_ring.c` with free functions which use the ring

The functions which call free functions (clear, drop, drop_last, set_max_size, unref) are cut at these calls: a `Frame` is what
remains to be done when the free function returns. In the meantime the client may call anything, including those functions again.
Everything else is taken from `Verif.Model.Ring`.

Simplification: when the last reference is dropped, the ring counts as freed right away, i.e. it's an error for a free function
called by `gutil_ring_unref` to use the ring. NULL is never stored.
-/

namespace Verif.RingCb
open Verif.C Verif.Ring
open Verif.Ring.Spec (Ptr Op Out)

/-- Where a free function has been called from, and how many iterations are left. `max` is what `gutil_ring_set_max_size` will set
`maxsiz` to, if that's who is dropping. src/gutil_ring.c:95-187 and 351-405. -/
inductive Frame
  /-- src/gutil_ring.c:179, the free function being in a local variable -/
  | clear (n : Nat) (f : Nat) (max : Option Int)
  /-- src/gutil_ring.c:366 -/
  | drop (n : Nat) (max : Option Int)
  /-- src/gutil_ring.c:395 -/
  | dropLast (n : Nat)
  /-- src/gutil_ring.c:107, `i` elements out of `n` having been passed to the free function -/
  | unref (i n : Nat)
  deriving DecidableEq, Repr

/-- The ring, the calls in progress (the innermost one first), and observations: what has been accepted by the ring, and what the
client has got back from it. (`ring.freed` is what has been passed to free functions.) `flat` is set between flatten and compact.
No code of the library, bookkeeping for the properties of src/gutil_ring.c:51-443. -/
structure State where
  ring : Ring
  stack : List Frame
  stored : List Ptr
  taken : List Ptr
  flat : Bool
  deriving DecidableEq, Repr

/-- Calling the free function. src/gutil_ring.c:107, 179, 366 and 395. -/
def enter (s : State) (f : Nat) (p : Ptr) (fr : Frame) : State :=
  { s with ring := { s.ring with freed := s.ring.freed ++ [(f, p)] }, stack := fr :: s.stack }

/-- src/gutil_ring.c:146, if it's `gutil_ring_set_max_size` that is being executed -/
def finish (s : State) : Option Int → State
  | none => s
  | some m => { s with ring := { s.ring with maxsiz := m } }

/-- src/gutil_ring.c:179-180; `n` is the counter after it's been decremented -/
def clearIter (s : State) (f n : Nat) (max : Option Int) : M State := do
  let (p, r) ← get s.ring
  .ok (enter { s with ring := r } f p (.clear n f max))

/-- `gutil_ring_clear`, src/gutil_ring.c:168-187 -/
def clear (s : State) (max : Option Int) : M State := do
  let n ← size s.ring
  if n > 0 then
    match s.ring.free with
    | some f => clearIter s f (n.toNat - 1) max
    | none => .ok (finish { s with ring := { s.ring with start := -1, fin := -1 } } max)
  else .ok (finish s max)

/-- src/gutil_ring.c:366; `n` is the counter after it's been decremented -/
def dropIter (s : State) (n : Nat) (max : Option Int) : M State := do
  let p ← slot s.ring s.ring.start
  match s.ring.free with
  | some f => .ok (enter s f p (.drop n max))
  | none => .error .nullCall

/-- `gutil_ring_drop`, src/gutil_ring.c:351-377 -/
def drop (s : State) (n : Int) (max : Option Int) : M State := do
  if n > 0 then
    let sz ← size s.ring
    if sz > 0 then
      if n ≥ sz then clear s max
      else if s.ring.free.isSome then dropIter s (n.toNat - 1) max
      else
        let st ← chk32 (s.ring.start + n)
        let st ← cMod st s.ring.alloc
        .ok (finish { s with ring := { s.ring with start := st } } max)
    else .ok (finish s max)
  else .ok (finish s max)

/-- src/gutil_ring.c:394-395; `n` is the counter after it's been decremented -/
def dropLastIter (s : State) (n : Nat) : M State := do
  let e ← chk32 (s.ring.fin + s.ring.alloc)
  let e ← cMod (e - 1) s.ring.alloc
  let s := { s with ring := { s.ring with fin := e } }
  let p ← slot s.ring e
  match s.ring.free with
  | some f => .ok (enter s f p (.dropLast n))
  | none => .error .nullCall

/-- `gutil_ring_drop_last`, src/gutil_ring.c:379-405 -/
def dropLast (s : State) (n : Int) : M State := do
  if n > 0 then
    let sz ← size s.ring
    if sz > 0 then
      if n ≥ sz then clear s none
      else if s.ring.free.isSome then dropLastIter s (n.toNat - 1)
      else
        let e ← chk32 (s.ring.fin + s.ring.alloc)
        let e ← cMod (e - n) s.ring.alloc
        .ok { s with ring := { s.ring with fin := e } }
    else .ok s
  else .ok s

/-- src/gutil_ring.c:107 -/
def unrefIter (s : State) (i n : Nat) : M State := do
  let k ← chk32 (s.ring.start + i)
  let k ← cMod k s.ring.alloc
  let p ← slot s.ring k
  match s.ring.free with
  | some f => .ok (enter s f p (.unref (i + 1) n))
  | none => .error .nullCall

/-- `gutil_ring_unref`, src/gutil_ring.c:95-114 -/
def unref (s : State) : M State := do
  if s.ring.refCount = 1 then
    let s := { s with ring := { s.ring with refCount := 0 } }
    if s.ring.free.isSome then
      let n ← size s.ring
      if n > 0 then unrefIter s 0 n.toNat
      else .ok s
    else .ok s
  else .ok { s with ring := { s.ring with refCount := s.ring.refCount - 1 } }

/-- `gutil_ring_set_max_size`, src/gutil_ring.c:133-148 -/
def setMaxSize (s : State) (maxSize : Int) : M State := do
  let m := if maxSize < 0 then -1 else maxSize
  if s.ring.maxsiz ≠ m then
    let sz ← size s.ring
    if m ≥ 0 ∧ sz > m then drop s (sz - m) (some m)
    else .ok (finish s (some m))
  else .ok s

/-- The observations. No code of the library, bookkeeping for the properties of src/gutil_ring.c:51-443. -/
def note (s : State) (r : Ring) : Op → Out → State
  | .put p, .bool true | .putFront p, .bool true => { s with ring := r, stored := s.stored ++ [p] }
  | .get, .ptr p | .getLast, .ptr p => { s with ring := r, taken := if p = 0 then s.taken else s.taken ++ [p] }
  | .flatten, _ => { s with ring := r, flat := true }
  | .compact, _ => { s with ring := r, flat := false }
  | _, _ => { s with ring := r }

/-- A call; the functions which don't call free functions are as in `Verif.Ring.exec`. src/gutil_ring.c:51-443. -/
def call (s : State) (op : Op) : M State := do
  if s.ring.refCount = 0 then .error .useAfterFree
  else match op with
  | .clear => clear s none
  | .drop n => drop s n none
  | .dropLast n => dropLast s n
  | .setMaxSize n => setMaxSize s n
  | .unref => unref s
  | op => do
    let (o, r) ← exec s.ring op
    .ok (note s r op o)

/-- A free function has returned to: the condition at src/gutil_ring.c:181, src/gutil_ring.c:367 and the condition at 365, the
condition at src/gutil_ring.c:393, the condition at src/gutil_ring.c:106. All these read the ring. -/
def ret (s : State) : M State :=
  match s.stack with
  | [] => .error .badArg
  | .clear n f max :: rest => do
    if s.ring.refCount = 0 then .error .useAfterFree
    else
      let s := { s with stack := rest }
      let sz ← size s.ring
      if n > 0 ∧ sz > 0 then clearIter s f (n - 1) max
      else .ok (finish s max)
  | .drop n max :: rest => do
    if s.ring.refCount = 0 then .error .useAfterFree
    else
      let st ← chk32 (s.ring.start + 1)
      let st ← cMod st s.ring.alloc
      let s := { s with stack := rest, ring := { s.ring with start := st } }
      if n > 0 then dropIter s (n - 1) max
      else .ok (finish s max)
  | .dropLast n :: rest => do
    if s.ring.refCount = 0 then .error .useAfterFree
    else
      let s := { s with stack := rest }
      if n > 0 then dropLastIter s (n - 1)
      else .ok s
  | .unref i n :: rest => do
    let s := { s with stack := rest }
    if i < n then unrefIter s i n
    else .ok s

/-- A call to src/gutil_ring.c:51-443, or a free function returns -/
def step (s : State) : Act → M State
  | .call op => call s op
  | .ret => ret s

/-- A new ring with a free function. src/gutil_ring.c:65-82 and 116-124. -/
def new (reserved maxSize : Int) (f : Nat) : M State := do
  let r ← newFull reserved maxSize (some f)
  .ok { ring := r, stack := [], stored := [], taken := [], flat := false }

/-- There are less than 2^29 elements. No code of the library, a rule for those who use src/gutil_ring.c:51-443. -/
def room (s : State) : Bool :=
  match size s.ring with
  | .ok n => decide (n < 2 ^ 29)
  | .error _ => false

/-- The rules. The ring is used only while there's a reference, the last reference isn't dropped by a free function, there's always
a free function, NULL isn't stored, sizes are far from the limits of `int` and (see C23) nothing is added between flatten and
compact. No code of the library, a rule for those who use src/gutil_ring.c:51-443. -/
def Allowed (s : State) : Act → Prop
  | .ret => s.stack ≠ []
  | .call op => 0 < s.ring.refCount ∧
    match op with
    | .unref => s.ring.refCount = 1 → s.stack = []
    | .setFreeFunc f => f ≠ none
    | .put p | .putFront p => p ≠ 0 ∧ s.flat = false ∧ room s = true
    | .reserve n => n ≤ 2 ^ 29
    | .canPut n => -2 ^ 30 ≤ n ∧ n < 2 ^ 30
    | _ => True

instance (s : State) (a : Act) : Decidable (Allowed s a) := by
  cases a with
  | ret => unfold Allowed; infer_instance
  | call op => cases op <;> unfold Allowed <;> infer_instance

/-- The free functions called by drop (unless it removes everything) don't remove anything from the ring and don't add anything to its
front; those called by drop_last (unless it removes everything) don't remove anything from it.
No code of the library, a rule for those who use src/gutil_ring.c:51-443. -/
def Polite (s : State) : Act → Prop
  | .ret => True
  | .call op =>
    match s.stack with
    | .drop _ _ :: _ => Keeps op ∧ ∀ p, op ≠ .putFront p
    | .dropLast _ :: _ => Keeps op
    | _ => True

instance (op : Op) : Decidable (Keeps op) := by
  cases op <;> unfold Keeps <;> infer_instance

instance (op : Op) : Decidable (∀ p, op ≠ .putFront p) :=
  match op with
  | .putFront p => isFalse (fun h => h p rfl)
  | .ref | .unref | .setFreeFunc _ | .maxSize | .setMaxSize _ | .size | .clear | .compact | .reserve _ | .canPut _ | .put _ | .get
  | .getLast | .drop _ | .dropLast _ | .dataAt _ | .flatten => isTrue (by intro p h; cases h)

instance (s : State) (a : Act) : Decidable (Polite s a) := by
  cases a with
  | ret => unfold Polite; infer_instance
  | call op => unfold Polite; dsimp only; split <;> infer_instance

/-- What can be reached by following the rules, and additional ones given by `P`.
No code of the library, a sequence of uses of src/gutil_ring.c:51-443. -/
inductive Reach (P : State → Act → Prop) : State → Prop
  | new {reserved maxSize : Int} {f : Nat} {s : State} : 0 ≤ reserved → reserved ≤ 2 ^ 29 → new reserved maxSize f = .ok s →
      Reach P s
  | step {s s' : State} {a : Act} : Reach P s → Allowed s a → P s a → step s a = .ok s' → Reach P s'

/-- A number of steps. No code of the library, a sequence of uses of src/gutil_ring.c:51-443. -/
def exec (s : State) : List Act → M State
  | [] => .ok s
  | a :: t =>
    match step s a with
    | .ok s => exec s t
    | .error e => .error e

/-- Are the rules being followed? No code of the library, a rule for those who use src/gutil_ring.c:51-443. -/
def legal (P : State → Act → Prop) [∀ s a, Decidable (P s a)] (s : State) : List Act → Bool
  | [] => true
  | a :: t =>
    if Allowed s a ∧ P s a then
      match step s a with
      | .ok s => legal P s t
      | .error _ => false
    else false

end Verif.RingCb
