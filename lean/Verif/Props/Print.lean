import Verif.Props.MiscParse
import Verif.Proof.Print

/-!
# Parsing of printed numbers: C137

`Style.writeInt` (see the specification) prints any number, in any base from 2 to 36 or as a constant of C, with a sign.
-/

namespace Verif.Parse
open Verif.C
open Verif.Parse.Spec

/-- C137. A number which has been printed (in any of these ways, and with any white space around it) is parsed as that number if the
type has it, otherwise it's rejected: nothing wraps around or saturates. In particular, negative numbers are never taken for unsigned ones. -/
theorem C137_roundtrip (s : Style) (base : Int) (h : s.ReadBy base) (plus : Bool) (v : Int) (l r : Str) (hl : Blank l) (hr : Blank r) :
    parseInt64 (some (l ++ s.writeInt plus v ++ r)) base = (if -2 ^ 63 ≤ v ∧ v < 2 ^ 63 then some v else none) ∧
    parseInt (some (l ++ s.writeInt plus v ++ r)) base = (if -2 ^ 31 ≤ v ∧ v < 2 ^ 31 then some v else none) ∧
    parseUInt64 (some (l ++ s.writeInt plus v ++ r)) base = (if 0 ≤ v ∧ v < 2 ^ 64 then some v.toNat else none) ∧
    parseUInt (some (l ++ s.writeInt plus v ++ r)) base = (if 0 ≤ v ∧ v < 2 ^ 32 then some v.toNat else none) := by
  obtain ⟨hne, hp⟩ := writeInt_plain s base h plus v
  have hN := writeInt_number s base h plus v
  have hP := writeInt_positive s base h plus v
  obtain ⟨b, rfl, hb⟩ := readBy_base s base h
  have hB : intMin ≤ (b : Int) ∧ (b : Int) ≤ intMax := by simp only [intMin, intMax]; omega
  have hs := strip_between l (s.writeInt plus v) r hl hr hne (fun c hc => (hp c hc).1)
  generalize s.writeInt plus v = t at *
  have h11 : (11 : Byte) ∉ l ++ t ++ r := by
    intro hm
    rcases List.mem_append.mp hm with hm | hm
    · rcases List.mem_append.mp hm with hm | hm
      · have := hl 11 hm; revert this; decide
      · exact (hp 11 hm).2 rfl
    · have := hr 11 hm; revert this; decide
  have hx : ∃ c ∈ l ++ t ++ r, Strv.Spec.isSpace c = false := by
    cases t with
    | nil => exact absurd rfl hne
    | cons c t => exact ⟨c, by simp, (hp c (by simp)).1⟩
  have I := C52_int64_partial (l ++ t ++ r) b hB h11 hx
  have U := C52_uint64_partial (l ++ t ++ r) b hB h11 hx
  rw [hs] at I U
  have fin : ∀ (o : Option Int) (P : Int → Prop) [DecidablePred P], (∀ w, o = some w ↔ Number b t w ∧ P w) →
      o = if P v then some v else none := by
    intro o P _ ho
    by_cases hv : P v
    · rw [if_pos hv]; exact (ho v).mpr ⟨hN, hv⟩
    · rw [if_neg hv]
      cases o with
      | none => rfl
      | some w =>
        obtain ⟨n1, n2⟩ := (ho w).mp rfl
        rw [number_unique b hb t w v n1 hN] at n2
        exact absurd n2 hv
  have finU : ∀ (o : Option Nat) (k : Nat), (∀ n, o = some n ↔ Positive b t n ∧ n < k) →
      o = if 0 ≤ v ∧ v < k then some v.toNat else none := by
    intro o k ho
    by_cases hv : 0 ≤ v ∧ v < k
    · rw [if_pos hv]; exact (ho _).mpr ⟨(hP _).mpr (by omega), by omega⟩
    · rw [if_neg hv]
      cases o with
      | none => rfl
      | some n =>
        obtain ⟨n1, n2⟩ := (ho n).mp rfl
        have := (hP n).mp n1
        omega
  refine ⟨fin _ (fun v => -2 ^ 63 ≤ v ∧ v < 2 ^ 63) (fun w => (I w).1), fin _ (fun v => -2 ^ 31 ≤ v ∧ v < 2 ^ 31) (fun w => (I w).2),
    ?_, ?_⟩
  · exact finU _ (2 ^ 64) (fun n => (U n).1)
  · exact finU _ (2 ^ 32) (fun n => (U n).2)

/-- `" -0x1F\n"`, `"+31"` and `"037"` are such numbers. -/
example : Blank [32] ∧ Blank [10] ∧ Style.ReadBy (.hexadecimal false true) 0 ∧
    Style.writeInt (.hexadecimal false true) false (-31) = [0x2d, 0x30, 0x78, 0x31, 0x46] ∧
    Style.writeInt .decimal true 31 = [0x2b, 0x33, 0x31] ∧ Style.writeInt .octal false 31 = [0x30, 0x33, 0x37] := by
  refine ⟨by unfold Blank; decide, by unfold Blank; decide, .inl rfl, ?_, ?_, ?_⟩
  all_goals
    simp [Style.writeInt, Style.write, printed, numeral]

example : parseInt64 (some [32, 0x2d, 0x30, 0x78, 0x31, 0x46, 10]) 0 = some (-31) := by decide +kernel

end Verif.Parse
