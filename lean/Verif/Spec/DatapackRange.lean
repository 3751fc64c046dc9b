import Verif.Model.Datapack
import Verif.Spec.Datapack

/-! Vocabulary for talking about `GUtilRange` and about what the functions should do with it. -/

namespace Verif.Datapack
open Verif.C

/-- The bytes that a range stands for. -/
def Range.bytes (r : Range) : List Byte := (r.mem.drop r.ptr.toNat).take (r.fin - r.ptr).toNat

/-- A range which lies within its object (an empty one may lie at its end). -/
def Range.Valid (r : Range) : Prop := 0 ≤ r.ptr ∧ r.ptr ≤ r.fin ∧ r.fin ≤ r.mem.length

instance (r : Range) : Decidable r.Valid :=
  inferInstanceAs (Decidable (0 ≤ r.ptr ∧ r.ptr ≤ r.fin ∧ r.fin ≤ r.mem.length))

/-- The range without its first `n` bytes. -/
def Range.advance (r : Range) (n : Nat) : Range := { r with ptr := r.ptr + n }

/-- The range covering a whole block. -/
def Range.whole (bs : List Byte) : Range := ⟨bs, 0, bs.length⟩

/-- The bytes that a decoded value stands for. -/
def Val.bytes (v : Val) (mem : List Byte) : List Byte := (mem.drop v.off.toNat).take v.size

/-- The tags array: the list of tags (non-zero) terminated by zero. -/
def TagsArray (mem : List Nat) (tags : List Nat) : Prop :=
  (∀ t ∈ tags, t ≠ 0) ∧ ∃ junk, mem = tags ++ 0 :: junk

/-- The non-negative `int` with the given bits. -/
def IsMask (m : Int) (bits : Nat → Prop) : Prop :=
  0 ≤ m ∧ ∀ i, m.toNat.testBit i = true ↔ bits i

/-- What `vals` has to contain after a successful decoding of `es`: values of the known
    tags which are present, zeroes for those which aren't, old contents after that. -/
def ValsOk (mem : List Byte) (tags : List Nat) (es : List Spec.Entry)
    (old new : List (Option Val)) : Prop :=
  new.length = old.length ∧
  (∀ i, tags.length ≤ i → new[i]? = old[i]?) ∧
  (∀ e i, e ∈ es → Spec.TagAt tags e.tag i →
    ∃ v, new[i]? = some (some v) ∧ v.bytes mem = e.value ∧ v.size = e.value.length) ∧
  (∀ i, i < tags.length → (¬ ∃ e ∈ es, Spec.TagAt tags e.tag i) → new[i]? = some none)

/-- The same if the caller may have passed NULL. -/
def ValsState (mem : List Byte) (tags : List Nat) (es : List Spec.Entry) :
    Option (List (Option Val)) → Option (List (Option Val)) → Prop
  | none, none => True
  | some old, some new => ValsOk mem tags es old new
  | _, _ => False

/-- The output array is large enough (or isn't there). -/
def ValsRoom (tags : List Nat) : Option (List (Option Val)) → Prop
  | none => True
  | some v => tags.length ≤ v.length

end Verif.Datapack
