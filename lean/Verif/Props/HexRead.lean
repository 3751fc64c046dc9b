import Verif.Proof.HexRead

/-!
# What hex dumps tell: C138

`Misc.Spec.readLine` reads the digits of a line, see the specification.
-/

namespace Verif.Misc
open Verif.C

/-- C138, one line. Whenever `gutil_hexdump` produces one, the bytes it has consumed can be read from it. -/
theorem C138_read (mode : Mode) (signed : Bool) (prn : Byte → Bool) (data : List Byte) (len : Nat) (hd : len ≤ data.length)
    (line : List Byte) (n : Nat) (h : hexdump mode signed prn bufSize data len = .ok (line ++ [0], n)) :
    Spec.readLine line = some (data.take n) := by
  obtain ⟨h1, h2⟩ := hexdump_lineOf mode signed prn data len hd _ n h
  rw [List.append_cancel_right h2]
  exact read_lineOf prn _ (by rw [List.length_take]; omega)

/-- C138, one line. If two lines are the same (even if the locales aren't) then so are the bytes. -/
theorem C138_line (mode1 mode2 : Mode) (signed1 signed2 : Bool) (prn1 prn2 : Byte → Bool) (d1 d2 : List Byte) (len1 len2 : Nat)
    (hd1 : len1 ≤ d1.length) (hd2 : len2 ≤ d2.length) (line : List Byte) (n1 n2 : Nat)
    (h1 : hexdump mode1 signed1 prn1 bufSize d1 len1 = .ok (line, n1)) (h2 : hexdump mode2 signed2 prn2 bufSize d2 len2 = .ok (line, n2)) :
    n1 = n2 ∧ d1.take n1 = d2.take n2 := by
  obtain ⟨a1, a2⟩ := hexdump_lineOf mode1 signed1 prn1 d1 len1 hd1 _ n1 h1
  obtain ⟨b1, b2⟩ := hexdump_lineOf mode2 signed2 prn2 d2 len2 hd2 _ n2 h2
  have e := List.append_cancel_right (a2.symm.trans b2)
  have r1 := read_lineOf prn1 (d1.take n1) (by rw [List.length_take]; omega)
  have r2 := read_lineOf prn2 (d2.take n2) (by rw [List.length_take]; omega)
  rw [e, r2] at r1
  have := Option.some.inj r1
  refine ⟨?_, this.symm⟩
  have hl := congrArg List.length this
  rw [List.length_take, List.length_take] at hl
  omega

/-- The conditions are met, with a byte over 0x7f and one which isn't printable. -/
example : hexdump .wrap true (fun b => decide (0x20 ≤ b.toNat ∧ b.toNat < 0x7f)) bufSize [0x20, 0x2e, 0x80, 0x0a, 0x41] 4 =
    .ok ("20 2e 80 0a                                          ...".toUTF8.toList.map (fun c => BitVec.ofNat 8 c.toNat) ++ [0], 4) ∧
    Spec.readLine ("20 2e 80 0a                                          ...".toUTF8.toList.map (fun c => BitVec.ofNat 8 c.toNat)) =
      some [0x20, 0x2e, 0x80, 0x0a] := ⟨by decide +kernel, by decide +kernel⟩

end Verif.Misc

namespace Verif.Log
open Verif.C Spec

/-- C138, all lines. Two blocks of data logged with the same settings and arguments, whatever log function gets the messages (unless no
function does, and then nothing has been logged), look the same only if they are the same. This is about less than 4 GiB,
see C62. -/
theorem C138_dump (fuel1 fuel2 : Nat) (env : Env) (ct1 ct2 : Ctype) (s : State) (module : Option Nat) (level : Int) (pfx : Option Str) (d1 d2 : List Byte)
    (hs1 : d1.length < 2 ^ 32) (hs2 : d2.length < 2 ^ 32) (hf1 : d1.length < fuel1) (hf2 : d2.length < fuel2)
    (hc1 : Accepts ct1 d1) (hc2 : Accepts ct2 d2) (he : enabled s module level = .ok true) (out : List Out) (hne : out ≠ [])
    (h1 : dump fuel1 env ct1 s module level pfx d1 d1.length = .ok out)
    (h2 : dump fuel2 env ct2 s module level pfx d2 d2.length = .ok out) : d1 = d2 := by
  obtain ⟨m1, a1, a2, a3⟩ := C62_dump_partial fuel1 env ct1 s module level pfx d1 hs1 hf1 hc1 he
  obtain ⟨m2, b1, b2, b3⟩ := C62_dump_partial fuel2 env ct2 s module level pfx d2 hs2 hf2 hc2 he
  have e := logAll_shape _ (logv_shape env s module level) m1 out (a1 ▸ h1) (.inl hne) m2 (b1 ▸ h2) (.inr hne)
  subst e
  refine chunks_eq d1 d2 m1.length a2 b2 fun k hk => ?_
  obtain ⟨ad1, l1, x1, x2, x3⟩ := a3 k hk
  obtain ⟨ad2, l2, y1, y2, y3⟩ := b3 k hk
  have ea := hex4_unique _ _ _ x2 y2
  subst ea
  have el := List.append_cancel_left (Option.some.inj (x1.symm.trans y1))
  subst el
  exact Misc.line_inj _ _ _ _ _ x3 y3

/-- The conditions are met. -/
example : enabled exampleState (some 2) 1 = .ok true ∧ Accepts ⟨.wrap, true, fun b => b == 0x41⟩ (List.replicate 17 0x41) ∧
    (List.replicate 17 (0x41 : Byte)).length < 100 ∧
    dump 100 ⟨id, []⟩ ⟨.wrap, true, fun b => b == 0x41⟩ exampleState (some 2) 1 none (List.replicate 17 0x41) 17 =
    .ok [.call 5 (some (lit "b")) 1 (lit "0000: 41 41 41 41 41 41 41 41  41 41 41 41 41 41 41 41    AAAAAAAA AAAAAAAA"),
         .call 5 (some (lit "b")) 1 (lit "0010: 41                                                  A")] :=
  ⟨by decide +kernel, ⟨by decide, .inl rfl⟩, by decide, by decide +kernel⟩

end Verif.Log
