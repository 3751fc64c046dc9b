import Verif.Proof.DatapackBasic

namespace Verif.Datapack
open Verif.C Spec

/-- `decodeLoop` on the list of remaining bytes, with `off = k` and `nbits = 7 * k`. -/
def loopP : List Byte → Nat → BitVec 64 → Byte → Option LoopExit
  | [], k, v, last => some ⟨k, 7 * k, v, last⟩
  | b :: bs, k, v, _ =>
    if 128 ≤ b.toNat then
      if 7 * k + 7 ≤ 64 then
        loopP bs (k + 1) ((v <<< 7) ||| (b &&& 0x7f#8).setWidth 64) b
      else none
    else some ⟨k + 1, 7 * k, v, b⟩

theorem decodeLoop_eq {r : Range} (h : r.Valid) (bs : List Byte) :
    ∀ (k : Nat) (v : BitVec 64) (last : Byte), r.bytes.drop k = bs → k ≤ r.bytes.length →
      decodeLoop r k (7 * k) v last = .ok (loopP bs k v last) := by
  induction bs with
  | nil =>
    intro k v last hd hk
    have hl := Range.length_bytes h
    have : r.bytes.length ≤ k := by simpa [List.drop_eq_nil_iff] using hd
    rw [decodeLoop, dif_neg (by omega)]
    rfl
  | cons b bs ih =>
    intro k v last hd hk
    have hl := Range.length_bytes h
    have hlen : k < r.bytes.length := by
      rcases Nat.lt_or_ge k r.bytes.length with h | h
      · exact h
      · rw [List.drop_eq_nil_of_le h] at hd; cases hd
    have hget : r.bytes[k]? = some b := by
      have := congrArg (·[0]?) hd
      simpa [List.getElem?_drop] using this
    have hd' : r.bytes.drop (k + 1) = bs := by
      have := congrArg (List.drop 1) hd
      simpa [List.drop_drop, Nat.add_comm] using this
    rw [decodeLoop, dif_pos (by omega), Range.rd_bytes h k b hget]
    simp only [loopP, byte_cont]
    by_cases hc : 128 ≤ b.toNat
    · simp only [hc, if_true]
      by_cases hn : 7 * k + 7 ≤ 64
      · simp only [hn, if_true]
        have := ih (k + 1) ((v <<< 7) ||| (b &&& 0x7f#8).setWidth 64) b hd' (by omega)
        rwa [Nat.mul_add] at this
      · simp only [hn, if_false]
    · simp only [hc, if_false]

/-- Effect of a run of continuation bytes on `value`. -/
def acc (v : BitVec 64) : List Byte → BitVec 64
  | [] => v
  | b :: bs => acc ((v <<< 7) ||| (b &&& 0x7f#8).setWidth 64) bs

theorem acc_toNat (bs : List Byte) : ∀ v : BitVec 64,
    (acc v bs).toNat = (v.toNat * 128 ^ bs.length + val128 bs) % 2 ^ 64 := by
  induction bs with
  | nil => intro v; simp [acc, val128]; omega
  | cons b bs ih =>
    intro v
    have h7 : ((b &&& 0x7f#8).setWidth 64).toNat = b.toNat % 128 := by
      rw [setWidth_byte_toNat, byte_and7f]
    rw [acc, ih, shl_or_toNat _ _ (by omega), h7, val128, List.length_cons, Nat.pow_succ]
    rw [Nat.add_mod, Nat.mod_mul_mod, ← Nat.add_mod]
    congr 1
    rw [Nat.add_mul, Nat.mul_assoc, Nat.mul_comm 128, Nat.add_assoc, ← Nat.pow_succ]

theorem loopP_append (init tail : List Byte) (hi : ∀ b ∈ init, 128 ≤ b.toNat) :
    ∀ (k : Nat) (v : BitVec 64) (last : Byte), k ≤ 9 →
      loopP (init ++ tail) k v last =
        if k + init.length ≤ 9 then
          loopP tail (k + init.length) (acc v init) ((last :: init).getLast (by simp))
        else none := by
  induction init with
  | nil => intro k v last hk; simp [acc, hk]
  | cons b bs ih =>
    intro k v last hk
    have hb : 128 ≤ b.toNat := hi b (by simp)
    simp only [List.cons_append, loopP, hb, if_true, List.length_cons]
    by_cases hn : 7 * k + 7 ≤ 64
    · rw [if_pos hn, ih (fun x hx => hi x (by simp [hx])) (k + 1) _ _ (by omega)]
      rw [acc, show k + (bs.length + 1) = k + 1 + bs.length by omega]
      rfl
    · rw [if_neg hn, if_neg (by omega)]

/-- Every list of bytes is a run of continuation bytes followed by something else. -/
theorem split_cont (bs : List Byte) : ∃ init tail, bs = init ++ tail ∧
    (∀ b ∈ init, 128 ≤ b.toNat) ∧ (tail = [] ∨ ∃ b rest, tail = b :: rest ∧ b.toNat < 128) := by
  induction bs with
  | nil => exact ⟨[], [], rfl, by simp, .inl rfl⟩
  | cons b bs ih =>
    by_cases hb : 128 ≤ b.toNat
    · obtain ⟨init, tail, rfl, h1, h2⟩ := ih
      exact ⟨b :: init, tail, rfl, by simpa [hb] using h1, h2⟩
    · exact ⟨[], b :: bs, rfl, by simp, .inr ⟨b, bs, rfl, by omega⟩⟩

/-- A frame is determined by what it is a prefix of. -/
theorem frame_unique {f g x y : List Byte} (hf : IsFrame f) (hg : IsFrame g)
    (h : f ++ x = g ++ y) : f = g ∧ x = y := by
  obtain ⟨i, a, rfl, hi, ha⟩ := hf
  obtain ⟨j, b, rfl, hj, hb⟩ := hg
  induction i generalizing j with
  | nil =>
    cases j with
    | nil => simp_all
    | cons c j =>
      simp only [List.nil_append, List.cons_append, List.cons.injEq] at h
      have := hj c (by simp)
      rw [h.1] at ha; omega
  | cons c i ih =>
    cases j with
    | nil =>
      simp only [List.nil_append, List.cons_append, List.cons.injEq] at h
      have := hi c (by simp)
      rw [← h.1] at hb; omega
    | cons d j =>
      simp only [List.cons_append, List.cons.injEq] at h
      have := ih (fun x hx => hi x (by simp [hx])) j h.2 (fun x hx => hj x (by simp [hx]))
      simp only [List.cons_append, h.1, this.1, this.2, and_self]

theorem frame_not_cont {init f x : List Byte} (hi : ∀ b ∈ init, 128 ≤ b.toNat)
    (hf : IsFrame f) (h : init = f ++ x) : False := by
  obtain ⟨i, a, rfl, _, ha⟩ := hf
  have := hi a (by rw [h]; simp)
  omega

/-- `x & ~((1 << 1) - 1) == 0x80` -/
theorem msc_pos (b : Byte) :
    b.setWidth 32 &&& ~~~((1#32 <<< (64 - 63)) - 1#32) = 0x80#32 ↔ b = 0x80#8 ∨ b = 0x81#8 := by
  revert b; decide

/-- `(x | ((1 << 1) - 1)) == 0xff` -/
theorem msc_neg (b : Byte) :
    b.setWidth 32 ||| ((1#32 <<< (64 - 63)) - 1#32) = 0xff#32 ↔ b = 0xfe#8 ∨ b = 0xff#8 := by
  revert b; decide

/-- What the loop does to a multi-byte frame `msc :: init ++ last :: rest`. -/
theorem decodeLoop_frame {r : Range} (h : r.Valid) (msc : Byte) (init : List Byte) (last : Byte)
    (rest : List Byte) (hb : r.bytes = msc :: (init ++ last :: rest))
    (hi : ∀ b ∈ init, 128 ≤ b.toNat) (hl : last.toNat < 128) :
    decodeLoop r 1 7 ((msc &&& 0x7f#8).setWidth 64) msc = .ok
      (if init.length ≤ 8 then
        some ⟨init.length + 2, 7 * (init.length + 1), acc 0#64 (msc :: init), last⟩
      else none) := by
  have := decodeLoop_eq h (init ++ last :: rest) 1 ((msc &&& 0x7f#8).setWidth 64) msc
    (by rw [hb]; rfl) (by rw [hb]; simp)
  rw [this, loopP_append _ _ hi _ _ _ (by omega)]
  congr 1
  by_cases hc : init.length ≤ 8
  · rw [if_pos (by omega), if_pos hc, loopP, if_neg (by omega), acc]
    have : (0#64 <<< 7) ||| (msc &&& 0x7f#8).setWidth 64 = (msc &&& 0x7f#8).setWidth 64 := by
      simp
    rw [this]
    simp only [Option.some.injEq, LoopExit.mk.injEq, and_true]
    omega
  · rw [if_neg (by omega), if_neg hc]

/-- What the loop does if there's no terminating byte. -/
theorem decodeLoop_cont {r : Range} (h : r.Valid) (msc : Byte) (init : List Byte)
    (hb : r.bytes = msc :: init) (hm : 128 ≤ msc.toNat) (hi : ∀ b ∈ init, 128 ≤ b.toNat) :
    decodeLoop r 1 7 ((msc &&& 0x7f#8).setWidth 64) msc = .ok none ∨
    ∃ x, decodeLoop r 1 7 ((msc &&& 0x7f#8).setWidth 64) msc = .ok (some x) ∧
      128 ≤ x.last.toNat := by
  have := decodeLoop_eq h init 1 ((msc &&& 0x7f#8).setWidth 64) msc
    (by rw [hb]; rfl) (by rw [hb]; simp)
  rw [this]
  have h2 := loopP_append init [] hi 1 ((msc &&& 0x7f#8).setWidth 64) msc (by omega)
  rw [List.append_nil] at h2
  rw [h2]
  by_cases hc : 1 + init.length ≤ 9
  · rw [if_pos hc]
    refine .inr ⟨_, rfl, ?_⟩
    have : (msc :: init).getLast (by simp) ∈ msc :: init := List.getLast_mem _
    rcases List.mem_cons.1 this with h | h
    · simp only [h, hm]
    · exact hi _ h
  · rw [if_neg hc]; exact .inl rfl

/-- Every non-empty list of bytes starts with a single byte frame, with a longer frame or
    has no terminating byte. -/
theorem bytes_cases (bs : List Byte) : bs = [] ∨
    (∃ b rest, bs = b :: rest ∧ b.toNat < 128) ∨
    (∃ msc init last rest, bs = msc :: (init ++ last :: rest) ∧ 128 ≤ msc.toNat ∧
      (∀ b ∈ init, 128 ≤ b.toNat) ∧ last.toNat < 128) ∨
    (∃ msc init, bs = msc :: init ∧ 128 ≤ msc.toNat ∧ (∀ b ∈ init, 128 ≤ b.toNat)) := by
  cases bs with
  | nil => exact .inl rfl
  | cons b bs =>
    by_cases hb : 128 ≤ b.toNat
    · obtain ⟨init, tail, rfl, h1, h2⟩ := split_cont bs
      rcases h2 with rfl | ⟨c, rest, rfl, hc⟩
      · exact .inr (.inr (.inr ⟨b, init, by simp, hb, h1⟩))
      · exact .inr (.inr (.inl ⟨b, init, c, rest, rfl, hb, h1, hc⟩))
    · exact .inr (.inl ⟨b, bs, rfl, by omega⟩)

theorem isFrame_multi {msc : Byte} {init : List Byte} {last : Byte} (hm : 128 ≤ msc.toNat)
    (hi : ∀ b ∈ init, 128 ≤ b.toNat) (hl : last.toNat < 128) :
    IsFrame (msc :: (init ++ [last])) :=
  ⟨msc :: init, last, by simp, by simpa [hm] using hi, hl⟩

theorem isFrame_single {b : Byte} (hb : b.toNat < 128) : IsFrame [b] :=
  ⟨[], b, rfl, by simp, hb⟩

theorem val128_single {b : Byte} (hb : b.toNat < 128) : val128 [b] = b.toNat := by
  simp [val128]; omega

theorem val128_multi (msc : Byte) (init : List Byte) (last : Byte) :
    val128 (msc :: (init ++ [last])) =
      (msc.toNat % 128) * 128 ^ (init.length + 1) + val128 init * 128 + last.toNat % 128 := by
  rw [val128, val128_append]
  simp [val128]; omega

/-- The word assembled by the decoders. -/
theorem assembled_toNat (msc : Byte) (init : List Byte) (last : Byte) (hl : last.toNat < 128) :
    ((acc 0#64 (msc :: init) <<< 7) ||| last.setWidth 64).toNat
      = val128 (msc :: (init ++ [last])) % 2 ^ 64 := by
  rw [shl_or_toNat _ _ (by rw [setWidth_byte_toNat]; exact hl), acc_toNat, setWidth_byte_toNat]
  have h : msc :: (init ++ [last]) = (msc :: init) ++ [last] := by simp
  rw [h, val128_append]
  simp only [val128, List.length_cons, List.length_nil, BitVec.toNat_ofNat]
  omega

theorem msc_val (msc : Byte) (init : List Byte) (last : Byte) (hm : 128 ≤ msc.toNat)
    (hi : init.length ≤ 8) :
    val128 (msc :: (init ++ [last])) < 2 ^ 64 ↔
      (7 * (init.length + 1) + 7 < 64 ∨
       msc.setWidth 32 &&& ~~~((1#32 <<< (64 - 7 * (init.length + 1))) - 1#32) = 0x80#32) := by
  rw [val128_multi]
  have hlt : val128 init < 128 ^ init.length := val128_lt init
  have hlt2 : last.toNat % 128 < 128 := Nat.mod_lt _ (by omega)
  by_cases hc : init.length = 8
  · have hx := msc_pos msc
    rw [hc] at hlt ⊢
    simp only [show 7 * (8 + 1) = 63 by rfl]
    rw [hx]
    have e1 : msc = 0x80#8 ↔ msc.toNat = 128 := by
      rw [← BitVec.toNat_inj]; rfl
    have e2 : msc = 0x81#8 ↔ msc.toNat = 129 := by
      rw [← BitVec.toNat_inj]; rfl
    rw [e1, e2]
    have := msc.isLt
    omega
  · have h7 : init.length ≤ 7 := by omega
    have hp : 128 ^ init.length ≤ 128 ^ 7 := Nat.pow_le_pow_right (by omega) h7
    have hp1 : 128 ^ (init.length + 1) ≤ 128 ^ 8 := Nat.pow_le_pow_right (by omega) (by omega)
    have hm' : msc.toNat % 128 * 128 ^ (init.length + 1) ≤ 127 * 128 ^ 8 :=
      Nat.mul_le_mul (by omega) hp1
    constructor
    · intro _; left; omega
    · intro _; omega

/-! ## Unsigned decoder -/

theorem rd_head {r : Range} (h : r.Valid) {b : Byte} {rest : List Byte}
    (hb : r.bytes = b :: rest) : r.ptr < r.fin ∧ rd r.mem r.ptr = .ok b := by
  have hl := Range.length_bytes h
  rw [hb, List.length_cons] at hl
  have := Range.rd_bytes h 0 b (by rw [hb]; rfl)
  simp only [Int.natCast_zero, Int.add_zero] at this
  exact ⟨by omega, this⟩

theorem bytes_nil_iff {r : Range} (h : r.Valid) : r.bytes = [] ↔ ¬ r.ptr < r.fin := by
  have hl := Range.length_bytes h
  rw [← List.length_eq_zero_iff]
  have := h.2.1
  omega

theorem unsignedDecode_frame {r : Range} (h : r.Valid) {f rest : List Byte} {v : Nat} (w : Bool)
    (hb : r.bytes = f ++ rest) (hf : UFrame f v) :
    unsignedDecode w r = .ok ⟨true, { r with ptr := r.ptr + f.length },
      if w then some (BitVec.ofNat 64 v) else none⟩ := by
  obtain ⟨⟨init, last, rfl, hi, hl⟩, hlen, hv, hlt⟩ := hf
  cases init with
  | nil =>
    obtain ⟨h1, h2⟩ := rd_head h (b := last) (rest := rest) (by simpa using hb)
    have hn : ¬ (last &&& 0x80#8 ≠ 0#8) := by rw [byte_cont]; omega
    simp only [unsignedDecode, h1, if_true, h2, bind, Except.bind, hn, if_false]
    have : last.setWidth 64 = BitVec.ofNat 64 v := by
      apply BitVec.eq_of_toNat_eq
      rw [setWidth_byte_toNat, BitVec.toNat_ofNat, Nat.mod_eq_of_lt hlt, ← hv]
      exact (val128_single hl).symm
    rw [this]; rfl
  | cons msc init =>
    have hm : 128 ≤ msc.toNat := hi msc (by simp)
    have hi' : ∀ b ∈ init, 128 ≤ b.toNat := fun b hb => hi b (by simp [hb])
    have hb' : r.bytes = msc :: (init ++ last :: rest) := by simpa using hb
    obtain ⟨h1, h2⟩ := rd_head h hb'
    simp only [List.cons_append, List.length_cons, List.length_append, List.length_nil] at hlen
    have hil : init.length ≤ 8 := by omega
    have hc : msc &&& 0x80#8 ≠ 0#8 := (byte_cont _).2 hm
    have hloop := decodeLoop_frame h msc init last rest hb' hi' hl
    rw [if_pos hil] at hloop
    have hlc : last &&& 0x80#8 = 0#8 := (byte_nocont _).2 hl
    have hval := assembled_toNat msc init last hl
    rw [List.cons_append] at hv
    have hmv := (msc_val msc init last hm hil).1 (by rw [hv]; exact hlt)
    simp only [unsignedDecode, h1, if_true, h2, bind, Except.bind, hc, hloop, hlc, hmv,
      ne_eq, not_false_eq_true]
    have : (acc 0#64 (msc :: init) <<< 7) ||| last.setWidth 64 = BitVec.ofNat 64 v := by
      apply BitVec.eq_of_toNat_eq
      rw [hval, hv, BitVec.toNat_ofNat]
    rw [this]
    simp only [List.cons_append, List.length_cons, List.length_append, List.length_nil]

theorem unsignedDecode_fail {r : Range} (h : r.Valid) (w : Bool)
    (hno : ¬ ∃ f rest v, r.bytes = f ++ rest ∧ UFrame f v) :
    unsignedDecode w r = .ok ⟨false, r, none⟩ := by
  rcases bytes_cases r.bytes with hb | ⟨b, rest, hb, hlt⟩ | ⟨msc, init, last, rest, hb, hm, hi, hl⟩ |
    ⟨msc, init, hb, hm, hi⟩
  · rw [bytes_nil_iff h] at hb
    simp only [unsignedDecode, hb, if_false]
  · exact absurd ⟨[b], rest, b.toNat, by simpa using hb, isFrame_single hlt, by simp,
      val128_single hlt, by omega⟩ hno
  · obtain ⟨h1, h2⟩ := rd_head h hb
    have hc : msc &&& 0x80#8 ≠ 0#8 := (byte_cont _).2 hm
    have hlc : last &&& 0x80#8 = 0#8 := (byte_nocont _).2 hl
    have hloop := decodeLoop_frame h msc init last rest hb hi hl
    by_cases hil : init.length ≤ 8
    · rw [if_pos hil] at hloop
      have hnv : ¬ val128 (msc :: (init ++ [last])) < 2 ^ 64 := fun hv =>
        hno ⟨msc :: (init ++ [last]), rest, _, by simp [hb], isFrame_multi hm hi hl,
          by simp; omega, rfl, hv⟩
      rw [msc_val msc init last hm hil] at hnv
      simp only [unsignedDecode, h1, if_true, h2, bind, Except.bind, hc, hloop, hlc, hnv,
        ne_eq, not_false_eq_true, if_false]
    · rw [if_neg hil] at hloop
      simp only [unsignedDecode, h1, if_true, h2, bind, Except.bind, hc, hloop, ne_eq,
        not_false_eq_true]
  · obtain ⟨h1, h2⟩ := rd_head h hb
    have hc : msc &&& 0x80#8 ≠ 0#8 := (byte_cont _).2 hm
    rcases decodeLoop_cont h msc init hb hm hi with hloop | ⟨x, hloop, hx⟩
    · simp only [unsignedDecode, h1, if_true, h2, bind, Except.bind, hc, hloop, ne_eq,
        not_false_eq_true]
    · have hxc : ¬ x.last &&& 0x80#8 = 0#8 := by rw [byte_nocont]; omega
      simp only [unsignedDecode, h1, if_true, h2, bind, Except.bind, hc, hloop, ne_eq,
        not_false_eq_true, hxc, if_false]

end Verif.Datapack
