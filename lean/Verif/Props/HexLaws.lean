import Verif.Props.MiscHex

/-!
# Laws of hexadecimal strings: C153
-/

namespace Verif.Misc
open Verif.C Spec

theorem toHex_append (upper : Bool) (a b : List Byte) : toHex upper (a ++ b) = toHex upper a ++ toHex upper b := List.flatMap_append

theorem fromHex_append : ∀ (s t : List Byte), s.length % 2 = 0 → fromHex (s ++ t) = (fromHex s).bind fun x => (fromHex t).map (x ++ ·) := by
  intro s t
  fun_induction fromHex s with
  | case1 => intro _; cases h : fromHex t <;> simp [h]
  | case2 a b r x y z e3 e2 e1 ih =>
    intro hl
    have ih := ih (by simp only [List.length_cons] at hl; omega)
    rw [e3] at ih
    simp only [List.cons_append, fromHex, e1, e2, ih]
    cases fromHex t <;> simp
  | case3 a b r h ih =>
    intro hl
    have ih := ih (by simp only [List.length_cons] at hl; omega)
    simp only [List.cons_append, fromHex, ih, Option.bind_none]
    cases ha : digitVal a with
    | none => rfl
    | some x =>
      cases hb : digitVal b with
      | none => rfl
      | some y =>
        cases hr : fromHex r with
        | none => rfl
        | some z => exact absurd hr (by simpa [ha, hb] using h x y z ha hb)
  | case4 => intro hl; simp at hl

/-- **C153** The hexadecimal form of data which consists of two parts consists of the hexadecimal forms of these parts. -/
theorem C153_encode (upper : Bool) (a b : List Byte) :
    ∃ s t, bin2hex a upper = .ok (s ++ [0]) ∧ bin2hex b upper = .ok (t ++ [0]) ∧ bin2hex (a ++ b) upper = .ok (s ++ t ++ [0]) :=
  ⟨_, _, bin2hex_ok a upper, bin2hex_ok b upper, by rw [bin2hex_ok, toHex_append]⟩

/-- **C153** If the first part of the string has an even length, and none of the parts is empty, then the string can be decoded exactly if both parts can,
and the result consists of their results. -/
theorem C153_decode (signed : Bool) (s t rest : List Byte) (hs : s ≠ []) (ht : t ≠ []) (he : s.length % 2 = 0) :
    ∃ x y, hex2bytes signed (some (s ++ t ++ rest)) s.length = .ok x ∧ hex2bytes signed (some (t ++ rest)) t.length = .ok y ∧
      hex2bytes signed (some (s ++ t ++ rest)) (s ++ t).length = .ok (match (generalizing := false) x, y with | some x, some y => some (x ++ y) | _, _ => none) := by
  refine ⟨fromHex s, _, ?_, hex2bytes_core signed t rest _ (lenOf_len t rest), ?_⟩
  · rw [List.append_assoc, hex2bytes_core signed s (t ++ rest) _ (lenOf_len s _), if_neg hs]
  · rw [hex2bytes_core signed (s ++ t) rest _ (lenOf_len _ rest), if_neg (by simp [hs]), if_neg ht, fromHex_append s t he]
    cases fromHex s <;> cases fromHex t <;> rfl

theorem digit_order (upper : Bool) (n m : Nat) (hn : n < 16) (hm : m < 16) : (digit upper n < digit upper m ↔ n < m) ∧ (digit upper n = digit upper m ↔ n = m) := by
  have : ∀ n m : Fin 16, (digit upper n.val < digit upper m.val ↔ n.val < m.val) ∧ (digit upper n.val = digit upper m.val ↔ n.val = m.val) := by
    cases upper <;> decide +kernel
  exact this ⟨n, hn⟩ ⟨m, hm⟩

theorem toHex_order (upper : Bool) : ∀ a b : List Byte, toHex upper a < toHex upper b ↔ a < b
  | [], [] => by simp [toHex]
  | [], b :: t => by simp [toHex]
  | a :: s, [] => by simp [toHex]
  | a :: s, b :: t => by
    have ih := toHex_order upper s t
    have ha := a.isLt
    have hb := b.isLt
    obtain ⟨h1, h2⟩ := digit_order upper (a.toNat / 16) (b.toNat / 16) (by omega) (by omega)
    obtain ⟨h3, h4⟩ := digit_order upper (a.toNat % 16) (b.toNat % 16) (by omega) (by omega)
    have e : ∀ (c : Byte) (u : List Byte), toHex upper (c :: u) = digit upper (c.toNat / 16) :: digit upper (c.toNat % 16) :: toHex upper u := fun _ _ => rfl
    rw [e, e, List.cons_lt_cons_iff, List.cons_lt_cons_iff, List.cons_lt_cons_iff, h1, h2, h3, h4, ih, BitVec.lt_def, ← BitVec.toNat_inj]
    constructor
    · rintro (h | ⟨h, h' | ⟨h', h''⟩⟩)
      · left; omega
      · left; omega
      · right; exact ⟨by omega, h''⟩
    · rintro (h | ⟨h, h'⟩)
      · by_cases hq : a.toNat / 16 = b.toNat / 16
        · exact .inr ⟨hq, .inl (by omega)⟩
        · left; omega
      · exact .inr ⟨by omega, .inr ⟨by omega, h'⟩⟩

/-- **C153** Hexadecimal strings have the same order as the data: what's less byte by byte is also less character by character, if the case of letters is
the same. -/
theorem C153_order (upper : Bool) (a b : List Byte) :
    ∃ s t, bin2hex a upper = .ok (s ++ [0]) ∧ bin2hex b upper = .ok (t ++ [0]) ∧ (s < t ↔ a < b) ∧ (s = t ↔ a = b) := by
  refine ⟨_, _, bin2hex_ok a upper, bin2hex_ok b upper, toHex_order upper a b, ?_, fun h => by rw [h]⟩
  intro h
  have h1 := fromHex_toHex upper a
  rw [h, fromHex_toHex] at h1
  injection h1 with h1
  exact h1.symm

/-- The hypotheses are met: one part is fine, and one isn't. -/
example : hex2bytes true (some [0x31, 0x66, 0x46, 0x30, 0]) 2 = .ok (some [0x1f]) ∧ hex2bytes true (some [0x46, 0x30, 0]) 2 = .ok (some [0xf0]) ∧
    hex2bytes true (some [0x31, 0x66, 0x46, 0x30, 0]) 4 = .ok (some [0x1f, 0xf0]) ∧ hex2bytes true (some [0x31, 0x66, 0x47, 0x30, 0]) 4 = .ok none ∧
    hex2bytes true (some [0x47, 0x30, 0]) 2 = .ok none := ⟨by decide +kernel, by decide +kernel, by decide +kernel, by decide +kernel, by decide +kernel⟩

/-- That's why the first length has to be even, and the parts not empty. -/
example : hex2bytes true (some [0x31, 0x66, 0]) 1 = .ok none ∧ hex2bytes true (some [0x66, 0]) 1 = .ok none ∧
    hex2bytes true (some [0x31, 0x66, 0]) 2 = .ok (some [0x1f]) ∧ hex2bytes true (some [0]) 0 = .ok none := ⟨by decide +kernel, by decide +kernel, by decide +kernel, by decide +kernel⟩

example : ([0x0a, 0xff] : List Byte) < [0x10] ∧ bin2hex [0x0a, 0xff] false = .ok [0x30, 0x61, 0x66, 0x66, 0] ∧ bin2hex [0x10] false = .ok [0x31, 0x30, 0] :=
  ⟨by decide +kernel, by decide +kernel, by decide +kernel⟩

end Verif.Misc
