import Verif.Props.MiscData
import Verif.Spec.RangeSkip

/-!
# Skipping several prefixes: C157
-/

namespace Verif.Misc
open Verif.C Spec

/-- **C157** Skipping prefixes one after another, until one of them isn't there: all of them are skipped exactly if the range (of a non-NULL object) starts with
all of them one after another, and what's skipped is what has been there: the bytes of the range are those of the skipped ones followed by the remaining ones;
the next one isn't there. -/
theorem C157_sequence (mode : Mode) (ps : List Data) (hp : ∀ p ∈ ps, Valid p ∧ Usable mode p.bytes) : ∀ r : Range, ValidRange r → r.mem ≠ none →
    ∃ r' n, skipEach mode r ps = .ok (r', n) ∧ n ≤ ps.length ∧ ValidRange r' ∧ r'.mem = r.mem ∧ r'.stop = r.stop ∧
      rangeBytes r = (ps.take n).flatMap contents ++ rangeBytes r' ∧ (∀ p, ps[n]? = some p → ¬ contents p <+: rangeBytes r') ∧
      (n = ps.length ↔ ps.flatMap contents <+: rangeBytes r) := by
  induction ps with
  | nil => exact fun r hr _ => ⟨r, 0, rfl, Nat.le_refl _, hr, rfl, rfl, rfl, by simp, by simp⟩
  | cons p ps ih =>
    intro r hr hm
    obtain ⟨hp1, hp2⟩ := hp p List.mem_cons_self
    obtain ⟨r', b, e1, _, e3, e4, e5, e6, e7, e8⟩ := C56_range mode r p hr hp1 hp2
    cases b with
    | false =>
      have hn : ¬ contents p <+: rangeBytes r := fun h => by simpa using e3.2 ⟨hm, h⟩
      refine ⟨r, 0, by rw [skipEach, e1]; rfl, Nat.zero_le _, hr, rfl, rfl, rfl, ?_, ?_⟩
      · intro q hq
        injection hq with hq
        exact hq ▸ hn
      · simp only [List.length_cons, List.flatMap_cons]
        constructor
        · omega
        · exact fun h => absurd ((List.prefix_append _ _).trans h) hn
    | true =>
      have hb := e7 rfl
      obtain ⟨r'', n, f1, f2, f3, f4, f5, f6, f7, f8⟩ := ih (fun q hq => hp q (List.mem_cons_of_mem _ hq)) r' e4 (by rw [e5]; exact hm)
      refine ⟨r'', n + 1, ?_, by simpa using f2, f3, f4.trans e5, f5.trans e6, ?_, ?_, ?_⟩
      · rw [skipEach, e1]
        show (do let (r', n) ← skipEach mode r' ps; Except.ok (r', n + 1)) = _
        rw [f1]; rfl
      · rw [hb, f6, List.take_succ_cons, List.flatMap_cons, List.append_assoc]
      · simpa using f7
      · rw [hb, List.flatMap_cons, List.prefix_append_right_inj, ← f8]
        simp

/-- **C157** Skipping the same non-empty prefix as long as it's there always ends, all of its copies are skipped, and no others. -/
theorem C157_repeat (mode : Mode) (p : Data) (hp : Valid p) (hu : Usable mode p.bytes) (hs : p.size ≠ 0) (r : Range) (hr : ValidRange r) :
    ∃ r' n, (∀ fuel, (rangeBytes r).length < fuel → skipAll mode p fuel r = .ok (some (r', n))) ∧ ValidRange r' ∧ r'.mem = r.mem ∧ r'.stop = r.stop ∧
      rangeBytes r = (List.replicate n (contents p)).flatten ++ rangeBytes r' ∧ ¬ contents p <+: rangeBytes r' := by
  have hl : (contents p).length = p.size := contents_length p hp
  obtain ⟨k, hk⟩ : ∃ k, (rangeBytes r).length ≤ k := ⟨_, Nat.le_refl _⟩
  induction k generalizing r with
  | zero =>
    have hz : rangeBytes r = [] := List.length_eq_zero_iff.1 (by omega)
    have hn : ¬ contents p <+: rangeBytes r := by
      intro h
      have := h.length_le
      omega
    obtain ⟨r', b, e1, _, e3, e4, e5, e6, e7, e8⟩ := C56_range mode r p hr hp hu
    cases b with
    | true => exact absurd (e3.1 rfl).2 hn
    | false =>
      refine ⟨r, 0, ?_, hr, rfl, rfl, by simp, hn⟩
      intro fuel hf
      obtain ⟨fuel, rfl⟩ : ∃ g, fuel = g + 1 := ⟨fuel - 1, by omega⟩
      rw [skipAll, e1]; rfl
  | succ k ih =>
    obtain ⟨r', b, e1, _, e3, e4, e5, e6, e7, e8⟩ := C56_range mode r p hr hp hu
    cases b with
    | false =>
      have hn : ¬ contents p <+: rangeBytes r := by
        intro h
        by_cases hm : r.mem = none
        · have hz : rangeBytes r = [] := by simp [rangeBytes, hm]
          have := h.length_le
          rw [hz, hl] at this
          simp at this
          omega
        · simpa using e3.2 ⟨hm, h⟩
      refine ⟨r, 0, ?_, hr, rfl, rfl, by simp, hn⟩
      intro fuel hf
      obtain ⟨fuel, rfl⟩ : ∃ g, fuel = g + 1 := ⟨fuel - 1, by omega⟩
      rw [skipAll, e1]; rfl
    | true =>
      have hb := e7 rfl
      have hlen := congrArg List.length hb
      rw [List.length_append] at hlen
      obtain ⟨r'', n, f1, f3, f4, f5, f6, f7⟩ := ih r' e4 (by omega)
      refine ⟨r'', n + 1, ?_, f3, f4.trans e5, f5.trans e6, ?_, f7⟩
      · intro fuel hf
        obtain ⟨fuel, rfl⟩ : ∃ g, fuel = g + 1 := ⟨fuel - 1, by omega⟩
        rw [skipAll, e1]
        show (do let x ← skipAll mode p fuel r'; Except.ok (x.map fun x : Range × Nat => (x.1, x.2 + 1))) = _
        rw [f1 fuel (by omega)]; rfl
      · rw [hb, f6, List.replicate_succ, List.flatten_cons, List.append_assoc]

/-- **C157** With an empty prefix, that would never end. -/
theorem C157_empty (mode : Mode) (p : Data) (hp : Valid p) (hu : Usable mode p.bytes) (hs : p.size = 0) (r : Range) (hr : ValidRange r) (hm : r.mem ≠ none)
    (fuel : Nat) : skipAll mode p fuel r = .ok none := by
  induction fuel generalizing r with
  | zero => rfl
  | succ fuel ih =>
    obtain ⟨r', b, e1, _, e3, e4, e5, e6, e7, e8⟩ := C56_range mode r p hr hp hu
    have hz : contents p = [] := List.length_eq_zero_iff.1 (by rw [contents_length p hp, hs])
    cases b with
    | false => simpa using e3.2 ⟨hm, by rw [hz]; exact List.nil_prefix⟩
    | true =>
      rw [skipAll, e1]
      show (do let x ← skipAll mode p fuel r'; Except.ok (x.map fun x : Range × Nat => (x.1, x.2 + 1))) = _
      rw [ih r' e4 (by rw [e5]; exact hm)]; rfl

/-- The hypotheses are met: two out of three are there. -/
example : skipEach .strict ⟨some [1, 2, 3, 4], 0, 4⟩ [⟨some [1, 2], 2⟩, ⟨some [3, 9], 1⟩, ⟨some [5], 1⟩] = .ok (⟨some [1, 2, 3, 4], 3, 4⟩, 2) := by
  decide +kernel

example : skipAll .strict ⟨some [7], 1⟩ 5 ⟨some [7, 7, 3, 7], 0, 4⟩ = .ok (some (⟨some [7, 7, 3, 7], 2, 4⟩, 2)) ∧
    skipAll .strict ⟨some [7], 0⟩ 5 ⟨some [7, 7, 3, 7], 0, 4⟩ = .ok none := ⟨by decide +kernel, by decide +kernel⟩

end Verif.Misc
