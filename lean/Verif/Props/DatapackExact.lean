import Verif.Props.DatapackMbn
import Verif.Props.DatapackTlv

/-!
# What happens in the cases excluded by C07 and C13
-/

namespace Verif.Datapack
open Verif.C Spec

/-- **C07** in each of the cases excluded by `C07_signed_decode_sign_partial`: all 10-byte frames starting with 0x81 or 0xfe are accepted,
and the result has the opposite sign: it's negative exactly if the sign bit isn't set. -/
theorem C07_exactly (mode : Mode) (r : Range) (hr : r.Valid) (f rest : List Byte) (hb : r.bytes = f ++ rest) (hf : Quirk f) :
    ∃ v, signedDecode mode true r = .ok ⟨true, r.advance 10, some v⟩ ∧ v ≠ sval128 f ∧
      (v < 0 ↔ ¬ ∃ b bs, f = b :: bs ∧ b &&& 0x40#8 ≠ 0#8) := by
  have hw := (C08_signed_decode_exact_partial r hr true).2.1 f rest hb hf
  obtain ⟨hfr, h10, hh⟩ := hf
  rw [if_pos rfl, h10] at hw
  obtain ⟨b, bs, rfl⟩ : ∃ b bs, f = b :: bs := by
    cases f with
    | nil => simp at h10
    | cons b bs => exact ⟨b, bs, rfl⟩
  have hm : signedDecode mode true r = .ok ⟨true, r.advance 10, some (BitVec.ofNat 64 (val128 (b :: bs))).toInt⟩ := by
    cases mode with
    | wrap => exact hw
    | strict =>
      rw [(C08_iso_c_partial r hr true).2, hw]
      rintro ⟨-, f', rest', hb', hfr', h9, -⟩
      have := (frame_unique hfr hfr' (hb.symm.trans hb')).1
      rw [← this] at h9
      omega
  refine ⟨_, hm, ?_⟩
  have hl : bs.length = 9 := by simpa using h10
  have hlt := val128_lt bs
  rw [hl] at hlt
  have hsign : (∃ b' bs', b :: bs = b' :: bs' ∧ b' &&& 0x40#8 ≠ 0#8) ↔ b &&& 0x40#8 ≠ 0#8 := by
    constructor
    · rintro ⟨b', bs', e, h⟩
      cases e
      exact h
    · intro h
      exact ⟨b, bs, rfl, h⟩
  rw [hsign]
  have ht : (BitVec.ofNat 64 (val128 (b :: bs))).toInt
      = if 2 * (val128 (b :: bs) % 2 ^ 64) < 2 ^ 64 then ((val128 (b :: bs) % 2 ^ 64 : Nat) : Int) else ((val128 (b :: bs) % 2 ^ 64 : Nat) : Int) - 2 ^ 64 := by
    rw [BitVec.toInt_eq_toNat_cond, BitVec.toNat_ofNat]
    rfl
  rw [ht]
  unfold sval128
  rw [h10]
  simp only [val128, hl]
  simp only [List.head?_cons, Option.some.injEq] at hh
  rcases hh with rfl | rfl
  · have e1 : (0x81#8 : Byte).toNat % 128 = 1 := by decide
    have h2 : ¬ (0x81#8 &&& 0x40#8 ≠ (0#8 : Byte)) := by decide
    rw [e1]
    generalize val128 bs = n at hlt
    refine ⟨?_, ?_⟩
    · split <;> split <;> omega
    · refine iff_of_true ?_ h2
      split <;> omega
  · have e1 : (0xfe#8 : Byte).toNat % 128 = 126 := by decide
    have h2 : (0xfe#8 &&& 0x40#8 ≠ (0#8 : Byte)) := by decide
    rw [e1]
    generalize val128 bs = n at hlt
    refine ⟨?_, ?_⟩
    · split <;> split <;> omega
    · refine iff_of_false ?_ (fun h => h h2)
      split <;> omega

/-- `81 80..80 00` spells 2^63, and is decoded as -2^63. -/
example : Quirk [0x81#8, 0x80#8, 0x80#8, 0x80#8, 0x80#8, 0x80#8, 0x80#8, 0x80#8, 0x80#8, 0x00#8] ∧
    signedDecode .strict true (Range.whole [0x81#8, 0x80#8, 0x80#8, 0x80#8, 0x80#8, 0x80#8, 0x80#8, 0x80#8, 0x80#8, 0x00#8]) =
      .ok ⟨true, (Range.whole [0x81#8, 0x80#8, 0x80#8, 0x80#8, 0x80#8, 0x80#8, 0x80#8, 0x80#8, 0x80#8, 0x00#8]).advance 10,
        some (-9223372036854775808)⟩ := by
  refine ⟨⟨⟨[0x81#8, 0x80#8, 0x80#8, 0x80#8, 0x80#8, 0x80#8, 0x80#8, 0x80#8, 0x80#8], 0x00#8, rfl, by decide, by decide⟩, rfl, .inl rfl⟩,
    by decide +kernel⟩

/-- How many of the tags have been found so far. -/
def found (mask : BitVec 32) : Nat := (List.range 31).countP (fun i => mask.getLsbD i)

theorem found_le (mask : BitVec 32) : found mask ≤ 31 := by
  have := List.countP_le_length (p := fun i => mask.getLsbD i) (l := List.range 31)
  rwa [List.length_range] at this

theorem countP_lt {α} {p q : α → Bool} {l : List α} (h : ∀ a ∈ l, p a = true → q a = true) {x : α} (hx : x ∈ l) (hp : p x = false)
    (hq : q x = true) : l.countP p < l.countP q := by
  induction l with
  | nil => cases hx
  | cons y t ih =>
    have hle : t.countP p ≤ t.countP q := List.countP_mono_left (fun a ha => h a (List.mem_cons_of_mem _ ha))
    rw [List.countP_cons, List.countP_cons]
    rcases List.mem_cons.1 hx with rfl | hm
    · simp [hp, hq]; omega
    · have := ih (fun a ha => h a (List.mem_cons_of_mem _ ha)) hm
      have hy := h y List.mem_cons_self
      cases hpy : p y <;> cases hqy : q y <;> simp_all <;> omega

theorem found_or {mask : BitVec 32} {i : Nat} (hi : i < 31) (h : mask &&& (1#32 <<< i) = 0#32) : found mask < found (mask ||| 1#32 <<< i) := by
  apply countP_lt (x := i)
  · intro a _ ha
    rw [BitVec.getLsbD_or, ha]
    rfl
  · exact List.mem_range.2 hi
  · have := congrArg (fun b => b.getLsbD i) h
    simp only [BitVec.getLsbD_and, BitVec.getLsbD_shiftLeft] at this
    simpa [show i < 32 by omega] using this
  · simp [BitVec.getLsbD_or, BitVec.getLsbD_shiftLeft, show i < 32 by omega]

theorem findTag_lt {tag i : Nat} : ∀ {l : List Nat} {k : Nat}, findTag tag l k = .ok (some i) → i < 31
  | [], _, h => by cases h
  | t :: ts, k, h => by
    rw [findTag] at h
    split at h
    · split at h
      · cases h
        omega
      · exact findTag_lt h
    · cases h

theorem tlvsStep_found {mode : Mode} {tags : List Nat} {s s' : TlvsState} (h : tlvsStep mode tags false s = .ok (.inr s')) :
    found s.mask < found s'.mask := by
  unfold tlvsStep at h
  cases ht : tlvDecode mode s.range with
  | error e => rw [ht] at h; cases h
  | ok t =>
    rw [ht, ok_bind] at h
    split at h
    · cases hf : findTag t.tag tags 0 with
      | error e => rw [hf] at h; cases h
      | ok o =>
        rw [hf, ok_bind] at h
        cases o with
        | none => cases h
        | some i =>
          dsimp only at h
          split at h
          · cases h
          · rename_i hm
            have hm : s.mask &&& (1#32 <<< i) = 0#32 := by
              rcases Classical.em (s.mask &&& (1#32 <<< i) = 0#32) with e | e
              · exact e
              · exact absurd e hm
            have := found_or (findTag_lt hf) hm
            split at h
            · rename_i vals _
              cases hw : wr vals i t.val with
              | error e => rw [hw] at h; cases h
              | ok vals' =>
                rw [hw] at h
                cases h
                exact this
            · cases h
              exact this
    · cases h

/-- **C09** As the C standard sees it (see C08), `gutil_signed_mbn_decode2` is undefined if the block begins with 9 bytes of a
negative number, whether or not anything follows them; other blocks are decoded as `C09_signed_decode2` says. -/
theorem C09_iso_c (wantOut : Bool) (bs : List Byte) :
    ((∃ f rest, bs = f ++ rest ∧ IsFrame f ∧ f.length = 9 ∧ sval128 f < 0) →
      signedDecode2 .strict wantOut (some bs) = .error .signedOverflow) ∧
    ((¬ ∃ f rest, bs = f ++ rest ∧ IsFrame f ∧ f.length = 9 ∧ sval128 f < 0) →
      signedDecode2 .strict wantOut (some bs) = signedDecode2 .wrap wantOut (some bs)) := by
  have hr : (Range.whole bs).Valid := ⟨by simp [Range.whole], by simp [Range.whole], by simp [Range.whole]⟩
  have hb : (Range.whole bs).bytes = bs := by simp [Range.whole, Range.bytes]
  have key := C08_iso_c_partial _ hr true
  rw [hb] at key
  simp only [true_and] at key
  constructor
  · rintro ⟨f, rest, h⟩
    have e := key.1 ⟨f, rest, h⟩
    have hl : bs.length ≠ 0 := by rw [h.1, List.length_append, h.2.2.1]; omega
    simp only [Range.whole] at e
    simp only [signedDecode2, hl, ne_eq, not_false_eq_true, if_true, e, bind, Except.bind]
  · intro h
    have e := key.2 h
    simp only [Range.whole] at e
    simp only [signedDecode2, e]

/-- -1 in 9 bytes isn't minimal but it's enough for C to be undefined; it's not with fewer of them. -/
example : (match signedDecode2 .strict true (some [0xff, 0xff, 0xff, 0xff, 0xff, 0xff, 0xff, 0xff, 0x7e]) with | .error .signedOverflow => true | _ => false) = true ∧
    (match signedDecode2 .strict true (some [0xff, 0xff, 0xff, 0xff, 0xff, 0xff, 0xff, 0x7e]) with | .ok (true, some (-2)) => true | _ => false) = true := by
  decide +kernel

/-- **C13** If unknown tags aren't to be skipped then decoding terminates, whatever the input is, and whether or not it leaves the object:
there are no more than 32 iterations. (So one has to ask for unknown tags to be skipped in order to have it run forever.) -/
theorem C13_known_tags (mode : Mode) (input : List Byte) (tags : List Nat) (vals : Option (List (Option Val))) (fuel : Nat)
    (hfuel : 32 ≤ fuel) : tlvsDecode mode fuel input tags vals false ≠ .ok none := by
  have key : ∀ (fuel : Nat) (s : TlvsState), 31 < fuel + found s.mask → tlvsLoop mode tags false fuel s ≠ .ok none := by
    intro fuel
    induction fuel with
    | zero =>
      intro s h
      have := found_le s.mask
      omega
    | succ n ih =>
      intro s h
      rw [tlvsLoop]
      cases hs : tlvsStep mode tags false s with
      | error e => simp [bind, Except.bind]
      | ok r =>
        cases r with
        | inl res => simp [bind, Except.bind]
        | inr s' =>
          have := tlvsStep_found hs
          exact ih s' (by omega)
  unfold tlvsDecode
  cases vals with
  | none => exact key _ _ (by omega)
  | some v =>
    dsimp only
    cases hc : clearVals tags v with
    | error e => intro h; cases h
    | ok v' => exact key fuel ⟨⟨input, 0, input.length⟩, 0#32, some v'⟩ (by omega)

/-- The block which is decoded forever if unknown tags are skipped. -/
example : (match tlvsDecode .wrap 32 hugeTlv [0] none false with | .ok (some (r, _)) => decide (r = UNKNOWN_TAG) | _ => false) = true ∧
    (match tlvsDecode .wrap 32 hugeTlv [0] none true with | .ok none => true | _ => false) = true := by
  decide +kernel

end Verif.Datapack
