import Verif.Proof.MacrosCast

/-!
# Getting the structure from the address of its field (C126)

`member p fs i` is the address of the field number `i` of the structure at `p` whose fields are `fs`.
-/

namespace Verif.Macros
open Verif.C

/-- **C126** The address of a field is converted to the address of the structure, wherever the structure is. -/
theorem C126_back (p : Addr) (fs : List Field) (i : Nat) : cast (member p fs i) fs i = .ok p := by
  unfold cast member
  rw [if_pos (Nat.le_add_left _ _)]
  simp

/-- char, int, double, char; the structure is inside of something else. -/
example : member ⟨7, 24⟩ [⟨1, 1⟩, ⟨4, 4⟩, ⟨8, 8⟩, ⟨1, 1⟩] 2 = ⟨7, 32⟩ ∧ cast ⟨7, 32⟩ [⟨1, 1⟩, ⟨4, 4⟩, ⟨8, 8⟩, ⟨1, 1⟩] 2 = .ok ⟨7, 24⟩ ∧
    member ⟨7, 24⟩ [⟨1, 1⟩, ⟨4, 4⟩, ⟨8, 8⟩, ⟨1, 1⟩] 1 = ⟨7, 28⟩ := by decide +kernel

/-- **C126** Whatever is converted to the address of a structure is the address of the field of that structure. -/
theorem C126_only {p q : Addr} {fs : List Field} {i : Nat} (h : cast q fs i = .ok p) : q = member p fs i := by
  unfold cast at h
  split at h
  · next hl =>
    cases h
    unfold member
    dsimp only
    rw [Nat.sub_add_cancel hl]
  · cases h

example : cast ⟨3, 13⟩ [⟨1, 1⟩, ⟨4, 4⟩] 1 = .ok ⟨3, 9⟩ := by decide +kernel

/-- **C126**, exactly: the address of a field is converted to that of the structure if and only if that's the field which is named. It's undefined if and only if
the structure would begin before the memory does. -/
theorem C126_exactly (p : Addr) {fs : List Field} (ha : ∀ f ∈ fs, 0 < f.align) (hs : ∀ f ∈ fs, 0 < f.size) {i j : Nat} (hi : i < fs.length) (hj : j < fs.length) :
    (cast (member p fs j) fs i = .ok p ↔ i = j) ∧
    (cast (member p fs j) fs i = .error .badPtr ↔ ∀ q : Addr, q.block = p.block → member q fs i ≠ member p fs j) := by
  constructor
  · constructor
    · intro h
      have h1 := congrArg Addr.off (C126_only h)
      have h1 : p.off + offsetOf fs j = p.off + offsetOf fs i := h1
      rcases Nat.lt_trichotomy i j with h2 | h2 | h2
      · have h3 := offsetOf_lt ha h2 hj (List.getElem?_eq_getElem hi)
        have := hs _ (List.getElem_mem hi)
        omega
      · exact h2
      · have h3 := offsetOf_lt ha h2 hi (List.getElem?_eq_getElem hj)
        have := hs _ (List.getElem_mem hj)
        omega
    · rintro rfl
      exact C126_back p fs i
  · constructor
    · intro h q hq e
      rw [← e, C126_back] at h
      cases h
    · intro h
      unfold cast
      split
      · next hl =>
        refine absurd ?_ (h ⟨p.block, p.off + offsetOf fs j - offsetOf fs i⟩ rfl)
        unfold member at hl ⊢
        dsimp only at hl ⊢
        rw [Nat.sub_add_cancel hl]
      · rfl

/-- The wrong field has been named. -/
example : cast (member ⟨7, 24⟩ [⟨1, 1⟩, ⟨4, 4⟩, ⟨8, 8⟩] 1) [⟨1, 1⟩, ⟨4, 4⟩, ⟨8, 8⟩] 2 = .ok ⟨7, 20⟩ ∧
    cast (member ⟨7, 0⟩ [⟨1, 1⟩, ⟨4, 4⟩, ⟨8, 8⟩] 1) [⟨1, 1⟩, ⟨4, 4⟩, ⟨8, 8⟩] 2 = .error .badPtr := by decide +kernel

end Verif.Macros
