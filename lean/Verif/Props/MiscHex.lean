import Verif.Proof.Hexdump

/-!
# Hexadecimal conversions: C49-C51

Memory is a list of bytes; `s ++ rest` is a pointer to `s` with something behind it.  `signed`
tells whether `char` is signed.
-/

namespace Verif.Misc
open Verif.C

/-- C49. `gutil_hex2bytes` and `gutil_hex2bin`, given what `gutil_bin2hex` returned (as a string or
with its length; `data` is the place for the result with `tail` behind it), restore the data. -/
theorem C49_roundtrip (signed upper : Bool) (data : List Byte) (h : data ≠ []) :
    ∃ s, bin2hex data upper = .ok (s ++ [0]) ∧ s.length = 2 * data.length ∧ (0 : Byte) ∉ s ∧
      hex2bytes signed (some (s ++ [0])) (-1) = .ok (some data) ∧
      hex2bytes signed (some (s ++ [0])) s.length = .ok (some data) ∧
      ∀ buf tail : List Byte, buf.length = data.length →
        hex2bin signed (some (s ++ [0])) s.length (some (buf ++ tail)) = .ok (some (data ++ tail), true) := by
  have hne : Spec.toHex upper data ≠ [] := by
    intro e
    have := toHex_length upper data
    rw [e] at this
    cases data with
    | nil => exact h rfl
    | cons => simp at this
  refine ⟨Spec.toHex upper data, bin2hex_ok data upper, toHex_length upper data, toHex_no_zero upper data, ?_, ?_, ?_⟩
  · rw [hex2bytes_core signed _ _ _ (lenOf_neg _ _ (toHex_no_zero upper data) _ (by omega)), if_neg hne, fromHex_toHex]
  · rw [hex2bytes_core signed _ _ _ (lenOf_len _ _), if_neg hne, fromHex_toHex]
  · intro buf tail hb
    have := hex2bin_spec signed (Spec.toHex upper data) [0] buf tail hne (by rw [toHex_length, hb])
    rw [fromHex_toHex] at this
    exact this

/-- The digits are those of the bytes: two for each, the most significant first. -/
theorem C49_digits (upper : Bool) (data : List Byte) :
    ∃ s, bin2hex data upper = .ok (s ++ [0]) ∧ ∀ (i : Nat) (b : Byte), data[i]? = some b →
      s[2 * i]? = some (Spec.digit upper (b.toNat / 16)) ∧ s[2 * i + 1]? = some (Spec.digit upper (b.toNat % 16)) := by
  refine ⟨_, bin2hex_ok data upper, ?_⟩
  induction data with
  | nil => intro i b h; simp at h
  | cons c t ih =>
    intro i b h
    have e : Spec.toHex upper (c :: t) = Spec.digit upper (c.toNat / 16) :: Spec.digit upper (c.toNat % 16) :: Spec.toHex upper t := rfl
    rw [e]
    cases i with
    | zero =>
      simp only [List.getElem?_cons_zero, Option.some.injEq] at h
      subst h
      exact ⟨rfl, rfl⟩
    | succ i =>
      simp only [List.getElem?_cons_succ] at h
      have ei : 2 * (i + 1) = 2 * i + 1 + 1 := by omega
      rw [ei]
      simpa using ih i b h

example : bin2hex [0x00, 0xaf, 0x7e] true = .ok [0x30, 0x30, 0x41, 0x46, 0x37, 0x45, 0] := by decide +kernel
example : data2hex (some [0xaf]) false = .ok (some [0x61, 0x66, 0]) := by decide +kernel
/-- Neither function gives anything for no data. -/
example : hex2bytes true (some [0]) (-1) = .ok none := by decide +kernel

/-- C50. `gutil_hex2bytes` applied to the string `s`, of any length given either way, returns a
block iff `s` isn't empty, has an even number of characters and they all are digits; that block
consists of the values of the pairs. It returns `NULL` otherwise. -/
theorem C50_decode (signed : Bool) (s rest : List Byte) (len : Int)
    (hl : len = s.length ∨ (len < 0 ∧ (0 : Byte) ∉ s ∧ ∃ t, rest = 0 :: t)) :
    ∃ res, hex2bytes signed (some (s ++ rest)) len = .ok res ∧
      (res.isSome = true ↔ s ≠ [] ∧ s.length % 2 = 0 ∧ ∀ c ∈ s, (Spec.digitVal c).isSome = true) ∧
      ∀ r, res = some r → s.length = 2 * r.length ∧ ∀ (i : Nat) (b : Byte), r[i]? = some b →
        ∃ x y, (s[2 * i]?).bind Spec.digitVal = some x ∧ (s[2 * i + 1]?).bind Spec.digitVal = some y ∧ b.toNat = 16 * x + y := by
  have e : lenOf (s ++ rest) len = .ok (s.length : Int) := by
    rcases hl with rfl | ⟨h, h0, t, rfl⟩
    · exact lenOf_len s rest
    · exact lenOf_neg s t h0 len h
  refine ⟨_, hex2bytes_core signed s rest len e, ?_, ?_⟩
  · by_cases hs : s = []
    · subst hs; simp
    · rw [if_neg hs, fromHex_isSome]
      simp [hs]
  · intro r hr
    by_cases hs : s = []
    · rw [if_pos hs] at hr; simp at hr
    · rw [if_neg hs] at hr
      exact ⟨fromHex_length s r hr, fromHex_get s r hr⟩

/-- The same for `gutil_hex2bin`, with a buffer which has room for half of the length: it returns
the buffer under the same conditions, with the bytes there and nothing behind them changed. -/
theorem C50_decode_bin (signed : Bool) (s rest buf tail : List Byte) (h2 : s.length / 2 = buf.length) :
    ∃ d ok, hex2bin signed (some (s ++ rest)) s.length (some (buf ++ tail)) = .ok (some d, ok) ∧
      d.length = (buf ++ tail).length ∧
      (ok = true ↔ s ≠ [] ∧ s.length % 2 = 0 ∧ ∀ c ∈ s, (Spec.digitVal c).isSome = true) ∧
      (ok = true → hex2bytes signed (some (s ++ rest)) s.length = .ok (some (d.take buf.length)) ∧ d.drop buf.length = tail) := by
  have hi := fromHex_isSome s
  by_cases hs : s ≠ [] ∧ s.length % 2 = 0
  · have h := hex2bin_spec signed s rest buf tail hs.1 (by omega)
    cases e : Spec.fromHex s with
    | some r =>
      rw [e] at h hi
      have hr := fromHex_length s r e
      have hrl : r.length = buf.length := by omega
      refine ⟨_, _, h, by simp [hrl], by simp only [true_iff]; exact ⟨hs.1, hi.mp rfl⟩, ?_⟩
      intro _
      rw [hex2bytes_core signed s rest _ (lenOf_len s rest), if_neg hs.1, e, ← hrl]
      simp
    | none =>
      rw [e] at h hi
      obtain ⟨d, h, hd⟩ := h
      exact ⟨d, false, h, hd, by
        simp only [Bool.false_eq_true, false_iff]
        intro hc
        exact absurd (hi.mpr hc.2) (by simp), by simp⟩
  · refine ⟨buf ++ tail, false, ?_, rfl, ?_, by simp⟩
    · unfold hex2bin
      simp only []
      rw [if_neg]
      intro hc
      apply hs
      refine ⟨?_, by omega⟩
      rintro rfl
      simp at hc
    · simp only [Bool.false_eq_true, false_iff]
      intro hc
      exact hs ⟨hc.1, hc.2.1⟩

/-- `NULL` isn't a hex string, and there's nothing to do with a `NULL` buffer. -/
theorem C50_null (signed : Bool) (str : Option (List Byte)) (len : Int) (data : Option (List Byte)) :
    hex2bytes signed none len = .ok none ∧ hex2bin signed none len data = .ok (data, false) ∧
    hex2bin signed str len none = .ok (none, false) ∧ ∀ upper, data2hex none upper = .ok none := by
  refine ⟨rfl, rfl, ?_, fun _ => rfl⟩
  cases str <;> rfl

example : hex2bytes true (some [0x31, 0x66, 0x46, 0x30, 0]) (-1) = .ok (some [0x1f, 0xf0]) := by decide +kernel
/-- One bad digit, an odd number of digits; a character which is negative as `char` -/
example : hex2bytes true (some [0x31, 0x67, 0]) (-1) = .ok none := by decide +kernel
example : hex2bytes true (some [0x31, 0x66, 0x46, 0]) 3 = .ok none := by decide +kernel
example : hex2bytes true (some [0x31, 0xe6, 0]) 2 = .ok none := by decide +kernel

/-- C51 isn't true if `isprint` accepts only what the standard says, and `char` is signed: the
argument may be negative. -/
theorem C51_refuted : ∃ (data : List Byte), ∀ prn, hexdump .strict true prn bufSize data data.length = .error .badArg :=
  ⟨[0x80], fun _ => rfl⟩

/-- C51, under the condition that `isprint` accepts any `char` (as it does in glibc), or `char` is
unsigned, or there are no bytes over 0x7f among those being dumped. Nothing is written behind the
first `bufSize` (70) characters of the buffer, exactly `min(len,16)` bytes are dumped, and the
line is what the specification says. `prn` tells which characters are printable in the current
locale. -/
theorem C51_hexdump_partial (mode : Mode) (signed : Bool) (prn : Byte → Bool) (data : List Byte) (len : Nat)
    (hd : len ≤ data.length)
    (hp : mode = .wrap ∨ signed = false ∨ ∀ b ∈ data.take (min len 16), b.toNat < 128) :
    ∃ line, hexdump mode signed prn bufSize data len = .ok (line ++ [0], min len 16) ∧
      Spec.Line prn (data.take (min len 16)) line ∧ (line ++ [(0 : Byte)]).length ≤ bufSize := by
  refine ⟨_, hexdump_ok mode signed prn bufSize data len hd ?_ (by decide), lineOf_line prn _ (by simp; omega), ?_⟩
  · intro b hb
    unfold isPrint
    rw [if_neg]
    rintro ⟨h1, h2⟩
    unfold charToInt at h2
    rcases hp with h | h | h
    · rw [h] at h1; cases h1
    · rw [h] at h2; simp at h2; omega
    · have := h b hb
      cases signed
      · simp at h2; omega
      · simp only [if_true] at h2
        rw [BitVec.toInt_eq_toNat_of_lt (by omega)] at h2
        omega
  · rw [List.length_append, lineOf_length, List.length_take]
    simp only [bufSize, List.length_cons, List.length_nil]
    split <;> omega

example : hexdump .wrap true (fun b => decide (0x20 ≤ b.toNat ∧ b.toNat < 0x7f)) bufSize
    [0x61, 0x62, 0x63, 0x64, 0x65, 0x66, 0x67, 0x68, 0x80, 0x0a] 10 =
    .ok ("61 62 63 64 65 66 67 68  80 0a                      abcdefgh ..".toUTF8.toList.map (fun c => BitVec.ofNat 8 c.toNat) ++ [0], 10) := by
  decide +kernel

end Verif.Misc
