/-!
# Specification of `GUtilInts`

What a program using the library has: blocks of memory and objects referring to them. No code
from the model.
-/

namespace Verif.Ints.Spec

/-- How an object was made. -/
inductive Kind
  | static            -- of static data
  | gfree             -- of data to be freed with `g_free`
  | user              -- of data to be freed with some other function
  | part (of : Nat)   -- of a part of another object
  deriving DecidableEq

structure Obj where
  own : Nat           -- the number of references the program has
  kind : Kind
  block : Nat         -- where the data is
  off : Nat
  count : Nat

/-- To whom a block of memory belongs. -/
inductive Stat
  | mine              -- the program
  | lent (i : Nat)    -- given to the object
  | gone              -- released by the program
  deriving DecidableEq

structure Block where
  vals : List (BitVec 32)
  stat : Stat

structure State where
  blocks : List Block
  objs : List Obj

/-- An object is kept as long as there is a reference to it or to a part of it, or a part of
a part and so on. -/
inductive Kept (s : State) : Nat → Prop
  | own {i : Nat} {o : Obj} : s.objs[i]? = some o → 0 < o.own → Kept s i
  | part {i j : Nat} {o : Obj} : s.objs[j]? = some o → o.kind = .part i → Kept s j → Kept s i

/-- Which blocks should remain: those of the program, static ones, and those the object of
which is kept. All others should be released. -/
def Remains (s : State) (b : Block) : Prop :=
  match b.stat with
  | .mine => True
  | .gone => False
  | .lent i => Kept s i ∨ ∃ o, s.objs[i]? = some o ∧ o.kind = .static

/-- The ints of an object. -/
def State.data (s : State) (o : Obj) : List (BitVec 32) :=
  match s.blocks[o.block]? with
  | some b => (b.vals.drop o.off).take o.count
  | none => []

/-- What the program may do. -/
inductive Op
  | alloc (vals : List (BitVec 32))  -- allocate and fill a block
  | free (b : Nat)                   -- release one
  | new (b n : Nat)                  -- `gutil_ints_new`
  | take (b n : Nat)                 -- `gutil_ints_new_take`
  | static (b n : Nat)               -- `gutil_ints_new_static`
  | user (b n : Nat)                 -- `gutil_ints_new_with_free_func`
  | part (i off n : Nat)             -- `gutil_ints_new_from_ints`
  | ref (i : Nat)                    -- `gutil_ints_ref`
  | unref (i : Nat)                  -- `gutil_ints_unref`
  | toData (i : Nat)                 -- `gutil_ints_unref_to_data`

inductive Res
  | none
  | ints (i : Option Nat)   -- an object or `NULL`
  | data (b n : Nat)        -- a block of `n` ints
  deriving DecidableEq

def State.obj (s : State) (i : Nat) (p : Obj → Prop) : Prop := ∃ o, s.objs[i]? = some o ∧ p o
def State.mine (s : State) (b n : Nat) : Prop := ∃ k, s.blocks[b]? = some k ∧ k.stat = .mine ∧ n ≤ k.vals.length

/-- The object with one reference less. -/
def State.dropOwn (s : State) (i : Nat) : State :=
  { s with objs := s.objs.modify i (fun o => { o with own := o.own - 1 }) }

/-- The rules: only what belongs to the program is given to the functions; a part isn't empty
and its end fits in 32 bits; the last reference to an object of static data isn't dropped by
`gutil_ints_unref_to_data`. -/
def Pre (s : State) : Op → Prop
  | .alloc _ => True
  | .free b => s.mine b 0
  | .new b n => s.mine b n
  | .take b n => s.mine b n
  | .static b n => s.mine b n
  | .user b n => s.mine b n
  | .part i off n => s.obj i (fun o => 0 < o.own) ∧ 0 < n ∧ off + n < 2 ^ 32
  | .ref i => s.obj i (fun o => 0 < o.own)
  | .unref i => s.obj i (fun o => 0 < o.own)
  | .toData i => s.obj i (fun o => 0 < o.own ∧ (o.kind = .static → Kept (s.dropOwn i) i))

def State.setStat (s : State) (b : Nat) (t : Stat) : State :=
  { s with blocks := s.blocks.modify b (fun k => { k with stat := t }) }

def State.addObj (s : State) (o : Obj) : State := { s with objs := s.objs ++ [o] }

def State.addBlock (s : State) (b : Block) : State := { s with blocks := s.blocks ++ [b] }

/-- A new object made of the whole block (or its beginning). -/
def State.give (s : State) (b n : Nat) (k : Kind) : State × Res :=
  if n = 0 then (s, .ints none)
  else ((s.setStat b (.lent s.objs.length)).addObj ⟨1, k, b, 0, n⟩, .ints (some s.objs.length))

open Classical in
/-- What the functions should do. -/
noncomputable def next (s : State) : Op → State × Res
  | .alloc vals => (s.addBlock ⟨vals, .mine⟩, .data s.blocks.length vals.length)
  | .free b => (s.setStat b .gone, .none)
  | .new b n =>
    if n = 0 then (s, .ints none)
    else match s.blocks[b]? with
    | some k => (s.addBlock ⟨k.vals.take n, .mine⟩).give s.blocks.length n .gfree
    | none => (s, .none)
  | .take b n => s.give b n .gfree
  | .static b n => s.give b n .static
  | .user b n => s.give b n .user
  | .part i off n =>
    match s.objs[i]? with
    | some o =>
      if off < o.count then
        (s.addObj ⟨1, .part i, o.block, o.off + off, min n (o.count - off)⟩, .ints (some s.objs.length))
      else (s, .ints none)
    | none => (s, .none)
  | .ref i => ({ s with objs := s.objs.modify i (fun o => { o with own := o.own + 1 }) }, .none)
  | .unref i => (s.dropOwn i, .none)
  | .toData i =>
    match s.objs[i]? with
    | some o =>
      if o.kind = .gfree ∧ ¬ Kept (s.dropOwn i) i then
        ((s.dropOwn i).setStat o.block .mine, .data o.block o.count)
      else ((s.dropOwn i).addBlock ⟨s.data o, .mine⟩, .data s.blocks.length o.count)
    | none => (s, .none)

/-- The rules are followed at each step. -/
def Legal (s : State) : List Op → Prop
  | [] => True
  | op :: t => Pre s op ∧ Legal (next s op).1 t

noncomputable def run (s : State) : List Op → State × List Res
  | [] => (s, [])
  | op :: t => ((run (next s op).1 t).1, (next s op).2 :: (run (next s op).1 t).2)

end Verif.Ints.Spec
