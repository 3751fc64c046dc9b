import Verif.Props.MiscParse
import Verif.Proof.ParseLaws

/-!
# Strings which stand for the same number: C142
-/

namespace Verif.Parse
open Verif.C Spec

/-- The four parsers -/
def SameNumber (s : List Byte) (base : Int) (t : List Byte) (base' : Int) : Prop :=
  parseInt64 (some s) base = parseInt64 (some t) base' ∧ parseInt (some s) base = parseInt (some t) base' ∧
  parseUInt64 (some s) base = parseUInt64 (some t) base' ∧ parseUInt (some s) base = parseUInt (some t) base'

/-- **C142** White space around the string doesn't matter (unless there's nothing else, see C53). -/
theorem C142_blanks (pre s post : List Byte) (h1 : AllBlank pre) (h2 : AllBlank post) (hs : s ≠ []) (base : Int) :
    SameNumber (pre ++ s ++ post) base s base := by
  have e := strip_around pre s post (allBlank_space h1) (allBlank_space h2)
  have hne : pre ++ s ++ post ≠ [] := by simp [hs]
  have a := parseInt64_strip base hne hs e
  have b := parseUInt64_strip base hne hs e
  exact ⟨a, parseInt_of a, b, parseUInt_of b⟩

/-- **C142** Upper and lower case are the same. -/
theorem C142_case (s t : List Byte) (h : SameLetters s t) (base : Int) : SameNumber s base t base := by
  have a : parseInt64 (some s) base = parseInt64 (some t) base := by rw [← parseInt64_upper s, ← parseInt64_upper t, h]
  have b : parseUInt64 (some s) base = parseUInt64 (some t) base := by rw [← parseUInt64_upper s, ← parseUInt64_upper t, h]
  exact ⟨a, parseInt_of a, b, parseUInt_of b⟩

/-- **C142** Base zero stands for the base which is written in front of the digits. -/
theorem C142_base (s : List Byte) : SameNumber s 0 s (writtenBase s) :=
  ⟨parseInt64_base s, parseInt_of (parseInt64_base s), parseUInt64_base s, parseUInt_of (parseUInt64_base s)⟩

/-- **C142** The functions agree on the numbers which are in the ranges of both, unless there's a minus. -/
theorem C142_agree_partial (s : List Byte) (hm : (0x2d : Byte) ∉ s) (base : Int) (n : Nat) :
    (n < 2 ^ 63 → (parseInt64 (some s) base = some (n : Int) ↔ parseUInt64 (some s) base = some n)) ∧
    (n < 2 ^ 32 → (parseUInt (some s) base = some n ↔ parseUInt64 (some s) base = some n)) ∧
    (n < 2 ^ 31 → (parseInt (some s) base = some (n : Int) ↔ parseUInt (some s) base = some n)) ∧
    (∀ v, parseInt64 (some s) base = some v → 0 ≤ v) := by
  have h32 : n < 2 ^ 32 → (parseUInt (some s) base = some n ↔ parseUInt64 (some s) base = some n) := by
    intro hn
    unfold parseUInt
    cases parseUInt64 (some s) base with
    | none => simp
    | some m =>
      dsimp only
      unfold uintMax
      constructor
      · intro h
        split at h
        · exact h
        · cases h
      · intro h
        injection h with h
        rw [if_pos (by omega), h]
  have h31 : n < 2 ^ 31 → (parseInt (some s) base = some (n : Int) ↔ parseInt64 (some s) base = some (n : Int)) := by
    intro hn
    unfold parseInt
    cases parseInt64 (some s) base with
    | none => simp
    | some m =>
      dsimp only
      unfold intMin intMax
      constructor
      · intro h
        split at h
        · exact h
        · cases h
      · intro h
        injection h with h
        rw [if_pos (by omega), h]
  refine ⟨parse_agree s hm base n, h32, fun hn => ?_, parse_positive s hm base⟩
  rw [h31 hn, h32 (by omega), parse_agree s hm base n (by omega)]

/-- **C142** isn't true of minus zero, which is zero for two of them. -/
theorem C142_refuted : parseInt64 (some [0x2d, 0x30]) 10 = some 0 ∧ parseInt (some [0x2d, 0x30]) 10 = some 0 ∧
    parseUInt64 (some [0x2d, 0x30]) 10 = none ∧ parseUInt (some [0x2d, 0x30]) 10 = none := by decide +kernel

/-- `" 0xaB\n"` -/
example : parseInt64 (some [32, 0x30, 0x78, 0x61, 0x42, 10]) 0 = some 171 ∧ parseUInt (some [0x30, 0x58, 0x41, 0x62]) 16 = some 171 ∧
    AllBlank [32] ∧ AllBlank [10] ∧ SameLetters [0x30, 0x78, 0x61, 0x42] [0x30, 0x58, 0x41, 0x62] ∧ writtenBase [32, 0x30, 0x78, 0x61, 0x42, 10] = 16 ∧
    (0x2d : Byte) ∉ ([32, 0x30, 0x78, 0x61, 0x42, 10] : List Byte) :=
  ⟨by decide +kernel, by decide +kernel, by simp [AllBlank], by simp [AllBlank], by unfold SameLetters; decide +kernel, by decide +kernel, by decide⟩

end Verif.Parse
