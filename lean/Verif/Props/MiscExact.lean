import Verif.Props.MiscHex
import Verif.Props.MiscData
import Verif.Props.TimeNotify

/-!
# What happens in the cases excluded by C51, C57 and C99
-/

namespace Verif.Misc
open Verif.C
open Spec (Valid contents bytesAt Readable)

theorem text_bad (prn : Byte → Bool) (cap : Nat) : ∀ (d pre rest out : List Byte), (∃ b ∈ d, 128 ≤ b.toNat) →
    out.length + (gap pre.length d).length < cap →
    hexdumpText .strict true prn cap (pre ++ d ++ rest) d.length pre.length out = .error .badArg := by
  intro d
  induction d with
  | nil => rintro pre rest out ⟨b, hb, -⟩; simp at hb
  | cons c t ih =>
    intro pre rest out hp h
    have hm : pre ++ c :: t ++ rest = pre ++ c :: (t ++ rest) := by simp
    rw [List.length_cons, hexdumpText, hm, rd_append_right _ _ _ _ rfl, ok_bind]
    rcases Nat.lt_or_ge c.toNat 128 with hc | hc
    · have hpr : isPrint .strict true prn c = .ok (prn c) := by
        unfold isPrint
        rw [if_neg]
        rintro ⟨-, h2⟩
        unfold charToInt at h2
        simp only [if_true] at h2
        rw [BitVec.toInt_eq_toNat_of_lt (by omega)] at h2
        omega
      rw [gap_cons] at h
      have hl : (if pre.length = 8 then [(0x20 : Byte), c] else [c]).length ≤ 2 := by split <;> simp
      have hl1 : 1 ≤ (if pre.length = 8 then [(0x20 : Byte), c] else [c]).length := by split <;> simp
      rw [List.length_append] at h
      rw [hpr, ok_bind, char_ok _ _ _ _ _ (by omega), ok_bind]
      have := ih (pre ++ [c]) rest (out ++ if pre.length = 8 then [0x20, if prn c then c else 0x2e] else [if prn c then c else 0x2e])
        (by
          obtain ⟨b, hb, hb'⟩ := hp
          rcases List.mem_cons.1 hb with rfl | hb
          · omega
          · exact ⟨b, hb, hb'⟩) (by
          by_cases h8 : pre.length = 8
          · rw [if_pos h8] at h ⊢; simp at h ⊢; omega
          · rw [if_neg h8] at h ⊢; simp at h ⊢; omega)
      have e1 : pre ++ c :: (t ++ rest) = pre ++ [c] ++ t ++ rest := by simp
      have e2 : pre.length + 1 = (pre ++ [c]).length := by simp
      rw [e1, e2, this]
    · have hpr : isPrint .strict true prn c = .error .badArg := by
        unfold isPrint
        rw [if_pos]
        refine ⟨rfl, ?_⟩
        unfold charToInt
        simp only [if_true]
        rw [BitVec.toInt_eq_toNat_bmod, Int.bmod_def]
        have := c.isLt
        split <;> omega
      rw [hpr, error_bind]

/-- **C51** in all the excluded cases: if `char` is signed and `isprint` accepts only what the standard says, dumping any byte over 0x7f
is undefined (no matter which other ones there are). -/
theorem C51_exactly (prn : Byte → Bool) (data : List Byte) (len : Nat) (hd : len ≤ data.length)
    (h : ∃ b ∈ data.take (min len 16), 128 ≤ b.toNat) : hexdump .strict true prn bufSize data len = .error .badArg := by
  have hl : ((List.range' 0 16).flatMap (fun i => sep i ++ [hi (data.take (min len 16)) i, lo (data.take (min len 16)) i])).length = 48 := by
    rw [hex_part]; rfl
  have ht := text_bad prn bufSize (data.take (min len 16)) [] (data.drop (min len 16))
    ((List.range' 0 16).flatMap (fun i => sep i ++ [hi (data.take (min len 16)) i, lo (data.take (min len 16)) i]) ++ [0x20, 0x20, 0x20, 0x20])
    h (by
      have h1 := gap_length ([] : List Byte).length (data.take (min len 16))
      have h2 : (data.take (min len 16)).length ≤ 16 := by rw [List.length_take]; omega
      rw [List.length_append, hl, bufSize]
      simp only [List.length_cons, List.length_nil] at h1 ⊢
      omega)
  have hn : (data.take (min len 16)).length = min len 16 := by rw [List.length_take]; omega
  rw [hn] at ht
  simp only [List.nil_append, List.take_append_drop, List.length_nil] at ht
  have e : ∀ l : List Byte, l ++ [0x20] ++ [0x20] ++ [0x20] ++ [0x20] = l ++ [0x20, 0x20, 0x20, 0x20] := by intro l; simp
  rw [hexdump, hex_ok _ _ _ hd _ _ _ (by simp [maxBytes, bufSize]), ok_bind, List.nil_append]
  simp only [maxBytes]
  rw [hex_part_take, put_ok _ _ _ (by rw [bufSize]; omega), ok_bind,
    put_ok _ _ _ (by simp only [bufSize, List.length_append, List.length_cons, List.length_nil]; omega), ok_bind,
    put_ok _ _ _ (by simp only [bufSize, List.length_append, List.length_cons, List.length_nil]; omega), ok_bind,
    put_ok _ _ _ (by simp only [bufSize, List.length_append, List.length_cons, List.length_nil]; omega), ok_bind, e, ht, error_bind]

example : ∃ b ∈ ([0x41, 0x42, 0xe4] : List Byte).take (min 3 16), 128 ≤ b.toNat := by decide

/-- **C57** for blocks of any size: the copy is a valid block which has the first bytes, as many as the size modulo 2^32. -/
theorem C57_exactly (mode : Mode) (d : Data) (hv : Valid d) :
    ∃ c, dataCopy mode (some d) = .ok (some c) ∧ Valid c ∧ contents c = (contents d).take (d.size % 2 ^ 32) := by
  cases hd : d.bytes with
  | none =>
    have hc : contents d = [] := by
      unfold contents bytesAt
      rw [hd]
      simp
    refine ⟨⟨none, 0⟩, by rw [dataCopy, hd]; rfl, rfl, ?_⟩
    rw [hc, List.take_nil]
    rfl
  | some l =>
    have hr : Readable (some l) (d.size % 2 ^ 32) := by
      have : Readable (some l) d.size := hd ▸ hv
      exact Readable.mono this (Nat.mod_le _ _)
    have hc : Valid ⟨some (l.take (d.size % 2 ^ 32)), d.size % 2 ^ 32⟩ := by
      show d.size % 2 ^ 32 ≤ (l.take (d.size % 2 ^ 32)).length
      have : d.size % 2 ^ 32 ≤ l.length := hr
      rw [List.length_take]
      omega
    refine ⟨_, by rw [dataCopy, hd, dataNew, access_ok mode _ _ hr (.inr (by simp)), ok_bind, ok_bind]; rfl, hc, ?_⟩
    unfold contents bytesAt
    rw [hd]
    show (l.take (d.size % 2 ^ 32)).take (d.size % 2 ^ 32) = (l.take d.size).take (d.size % 2 ^ 32)
    rw [List.take_take, List.take_take, Nat.min_self, Nat.min_eq_left (Nat.mod_le _ _)]

example : Valid ⟨some [1, 2, 3], 2⟩ ∧ dataCopy .strict (some ⟨some [1, 2, 3], 2⟩) = .ok (some ⟨some [1, 2], 2⟩) :=
  ⟨by unfold Valid Readable; decide, by decide⟩

end Verif.Misc

namespace Verif.TimeNotify
open Verif.C

/-- **C99** The value is right if `time_t` isn't longer than `long`, and undefined otherwise, whatever the sizes. -/
theorem C99_exactly (long time : Nat) (h0 : 0 < time) :
    (time ≤ long → ∃ m, timeTMax long time = .ok m ∧ Latest time m) ∧ (long < time → timeTMax long time = .error .badShift) := by
  refine ⟨C99_partial long time h0, fun h => ?_⟩
  unfold timeTMax
  rw [if_neg (by omega)]

example : (0 : Nat) < 64 ∧ 64 ≤ 64 ∧ 32 < 64 := by decide

end Verif.TimeNotify
