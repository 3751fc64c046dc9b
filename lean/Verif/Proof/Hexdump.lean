import Verif.Proof.MiscHex

/-!
# Lemmas about `gutil_hexdump`
-/

namespace Verif.Misc
open Verif.C Spec

def hi (d : List Byte) (i : Nat) : Byte :=
  match d[i]? with
  | some b => digit false (b.toNat / 16)
  | none => 0x20

def lo (d : List Byte) (i : Nat) : Byte :=
  match d[i]? with
  | some b => digit false (b.toNat % 16)
  | none => 0x20

def sep (i : Nat) : List Byte := if i > 0 then (if i = 8 then [0x20, 0x20] else [0x20]) else []

theorem sep_ok (cap i : Nat) (out : List Byte) (h : out.length + 2 ≤ cap) : hexdumpSep cap i out = .ok (out ++ sep i) := by
  unfold hexdumpSep sep
  split
  · rw [put_ok _ _ _ (by omega), ok_bind]
    split
    · rw [put_ok _ _ _ (by simp; omega)]; simp
    · rfl
  · simp

theorem byte_ok (cap : Nat) (data : List Byte) (len i : Nat) (out : List Byte) (hd : len ≤ data.length) (h : out.length + 2 ≤ cap) :
    hexdumpByte cap data len i out = .ok (out ++ [hi (data.take len) i, lo (data.take len) i]) := by
  unfold hexdumpByte hi lo
  split
  · rename_i hi
    have e : data[i]? = some (data[i]'(by omega)) := List.getElem?_eq_getElem (by omega)
    have e1 : rd data i = .ok (data[i]'(by omega)) := by
      rw [rd, if_pos (by omega)]
      simp only [Int.toNat_natCast, e]
    have e2 : (data.take len)[i]? = some (data[i]'(by omega)) := by rw [List.getElem?_take, if_pos hi, e]
    rw [e1, ok_bind, putHex_ok _ _ _ _ h, e2]
  · rename_i hi
    have e2 : (data.take len)[i]? = none := by rw [List.getElem?_take, if_neg hi]
    rw [put_ok _ _ _ (by omega), ok_bind, put_ok _ _ _ (by simp; omega), e2]
    simp

theorem sep_length (i : Nat) : (sep i).length ≤ 2 := by
  unfold sep
  split
  · split <;> simp
  · simp

theorem hex_ok (cap : Nat) (data : List Byte) (len : Nat) (hd : len ≤ data.length) : ∀ (n i : Nat) (out : List Byte),
    out.length + 4 * n ≤ cap →
    hexdumpHex cap data len n i out =
      .ok (out ++ (List.range' i n).flatMap (fun i => sep i ++ [hi (data.take len) i, lo (data.take len) i])) := by
  intro n
  induction n with
  | zero => intro i out _; simp [hexdumpHex]
  | succ n ih =>
    intro i out h
    have := sep_length i
    rw [hexdumpHex, sep_ok _ _ _ (by omega), ok_bind, byte_ok _ _ _ _ _ hd (by simp; omega), ok_bind, ih _ _ (by simp; omega)]
    simp [List.range'_succ]

/-- The whole hexadecimal part -/
theorem hex_part (d : List Byte) : (List.range' 0 16).flatMap (fun i => sep i ++ [hi d i, lo d i]) =
    [hi d 0, lo d 0, 0x20, hi d 1, lo d 1, 0x20, hi d 2, lo d 2, 0x20, hi d 3, lo d 3, 0x20,
     hi d 4, lo d 4, 0x20, hi d 5, lo d 5, 0x20, hi d 6, lo d 6, 0x20, hi d 7, lo d 7, 0x20, 0x20,
     hi d 8, lo d 8, 0x20, hi d 9, lo d 9, 0x20, hi d 10, lo d 10, 0x20, hi d 11, lo d 11, 0x20,
     hi d 12, lo d 12, 0x20, hi d 13, lo d 13, 0x20, hi d 14, lo d 14, 0x20, hi d 15, lo d 15] := rfl

/-- The text part: a gap after the first eight characters -/
def gap (i : Nat) (l : List Byte) : List Byte :=
  if i ≤ 8 ∧ 8 < i + l.length then l.take (8 - i) ++ 0x20 :: l.drop (8 - i) else l

theorem gap_cons (i : Nat) (x : Byte) (l : List Byte) : gap i (x :: l) = (if i = 8 then [0x20, x] else [x]) ++ gap (i + 1) l := by
  unfold gap
  by_cases h : i = 8
  · subst h
    simp
  · rw [if_neg h]
    by_cases h1 : i ≤ 8 ∧ 8 < i + (x :: l).length
    · simp only [List.length_cons] at h1
      rw [if_pos (by simp; omega), if_pos (by omega)]
      obtain ⟨k, hk⟩ : ∃ k, 8 - i = k + 1 := ⟨7 - i, by omega⟩
      have hk' : 8 - (i + 1) = k := by omega
      rw [hk, hk']
      simp
    · simp only [List.length_cons] at h1
      rw [if_neg (by simp; omega), if_neg (by omega)]
      rfl

theorem gap_length (i : Nat) (l : List Byte) : (gap i l).length ≤ l.length + 1 := by
  unfold gap
  split
  · simp; omega
  · omega

theorem char_ok (cap i : Nat) (out : List Byte) (c : Byte) (p : Bool) (h : out.length + 2 ≤ cap) :
    hexdumpChar cap i out c p = .ok (out ++ if i = 8 then [0x20, if p then c else 0x2e] else [if p then c else 0x2e]) := by
  unfold hexdumpChar hexdumpGap
  split
  · rw [put_ok _ _ _ (by omega), ok_bind, put_ok _ _ _ (by simp; omega)]
    simp
  · rw [ok_bind, put_ok _ _ _ (by omega)]

theorem text_ok (mode : Mode) (signed : Bool) (prn : Byte → Bool) (cap : Nat) : ∀ (d pre rest out : List Byte),
    (∀ b ∈ d, isPrint mode signed prn b = .ok (prn b)) →
    out.length + (gap pre.length d).length < cap →
    hexdumpText mode signed prn cap (pre ++ d ++ rest) d.length pre.length out =
      .ok (out ++ gap pre.length (d.map (fun b => if prn b then b else 0x2e))) := by
  intro d
  induction d with
  | nil => intro pre rest out _ _; simp [hexdumpText, gap]
  | cons c t ih =>
    intro pre rest out hp h
    rw [gap_cons] at h
    have hm : pre ++ c :: t ++ rest = pre ++ c :: (t ++ rest) := by simp
    have hl : (if pre.length = 8 then [(0x20 : Byte), c] else [c]).length ≤ 2 := by split <;> simp
    have hl1 : 1 ≤ (if pre.length = 8 then [(0x20 : Byte), c] else [c]).length := by split <;> simp
    rw [List.length_append] at h
    rw [List.length_cons, hexdumpText, hm, rd_append_right _ _ _ _ rfl, ok_bind, hp c (by simp), ok_bind,
      char_ok _ _ _ _ _ (by omega), ok_bind]
    have := ih (pre ++ [c]) rest (out ++ if pre.length = 8 then [0x20, if prn c then c else 0x2e] else [if prn c then c else 0x2e])
      (fun b hb => hp b (by simp [hb])) (by
        by_cases h8 : pre.length = 8
        · rw [if_pos h8] at h ⊢; simp at h ⊢; omega
        · rw [if_neg h8] at h ⊢; simp at h ⊢; omega)
    have e1 : pre ++ c :: (t ++ rest) = pre ++ [c] ++ t ++ rest := by simp
    have e2 : pre.length + 1 = (pre ++ [c]).length := by simp
    rw [e1, e2, this, List.map_cons, gap_cons]
    simp [List.append_assoc]

/-- The line, without the terminator -/
def lineOf (prn : Byte → Bool) (d : List Byte) : List Byte :=
  (List.range' 0 16).flatMap (fun i => sep i ++ [hi d i, lo d i]) ++
    ([0x20, 0x20, 0x20, 0x20] ++ gap 0 (d.map (fun b => if prn b then b else 0x2e)))

theorem hi_take (d : List Byte) (len i : Nat) (h : i < 16) : hi (d.take len) i = hi (d.take (min len 16)) i ∧
    lo (d.take len) i = lo (d.take (min len 16)) i := by
  have : (d.take len)[i]? = (d.take (min len 16))[i]? := by
    rw [List.getElem?_take, List.getElem?_take]
    by_cases h1 : i < len
    · rw [if_pos h1, if_pos (by omega)]
    · rw [if_neg h1, if_neg (by omega)]
  unfold hi lo
  rw [this]
  exact ⟨rfl, rfl⟩

theorem hex_part_take (data : List Byte) (len : Nat) :
    (List.range' 0 16).flatMap (fun i => sep i ++ [hi (data.take len) i, lo (data.take len) i]) =
    (List.range' 0 16).flatMap (fun i => sep i ++ [hi (data.take (min len 16)) i, lo (data.take (min len 16)) i]) := by
  rw [List.flatMap_def, List.flatMap_def]
  congr 1
  apply List.map_congr_left
  intro i hi'
  have hi' : i < 16 := by
    have := List.mem_range'_1.mp hi'
    omega
  rw [(hi_take data len i hi').1, (hi_take data len i hi').2]

theorem hexdump_ok (mode : Mode) (signed : Bool) (prn : Byte → Bool) (cap : Nat) (data : List Byte) (len : Nat)
    (hd : len ≤ data.length) (hp : ∀ b ∈ data.take (min len 16), isPrint mode signed prn b = .ok (prn b)) (hc : 70 ≤ cap) :
    hexdump mode signed prn cap data len = .ok (lineOf prn (data.take (min len 16)) ++ [0], min len 16) := by
  have hl : ((List.range' 0 16).flatMap (fun i => sep i ++ [hi (data.take (min len 16)) i, lo (data.take (min len 16)) i])).length = 48 := by
    rw [hex_part]; rfl
  have ht := text_ok mode signed prn cap (data.take (min len 16)) [] (data.drop (min len 16))
    ((List.range' 0 16).flatMap (fun i => sep i ++ [hi (data.take (min len 16)) i, lo (data.take (min len 16)) i]) ++ [0x20, 0x20, 0x20, 0x20])
    hp (by
      have h1 := gap_length ([] : List Byte).length (data.take (min len 16))
      have h2 : (data.take (min len 16)).length ≤ 16 := by rw [List.length_take]; omega
      rw [List.length_append, hl]
      simp only [List.length_cons, List.length_nil] at h1 ⊢
      omega)
  have hn : (data.take (min len 16)).length = min len 16 := by rw [List.length_take]; omega
  rw [hn] at ht
  simp only [List.nil_append, List.take_append_drop, List.length_nil] at ht
  have hg := gap_length 0 ((data.take (min len 16)).map (fun b => if prn b then b else 0x2e))
  rw [List.length_map, hn] at hg
  have e : ∀ l : List Byte, l ++ [0x20] ++ [0x20] ++ [0x20] ++ [0x20] = l ++ [0x20, 0x20, 0x20, 0x20] := by intro l; simp
  rw [hexdump, hex_ok _ _ _ hd _ _ _ (by simp [maxBytes]; omega), ok_bind, List.nil_append]
  simp only [maxBytes]
  rw [hex_part_take, put_ok _ _ _ (by omega), ok_bind, put_ok _ _ _ (by simp only [List.length_append, List.length_cons, List.length_nil]; omega), ok_bind,
    put_ok _ _ _ (by simp only [List.length_append, List.length_cons, List.length_nil]; omega), ok_bind,
    put_ok _ _ _ (by simp only [List.length_append, List.length_cons, List.length_nil]; omega), ok_bind, e, ht, ok_bind,
    put_ok _ _ _ (by simp only [List.length_append, List.length_cons, List.length_nil]; omega), ok_bind, lineOf]
  simp only [List.append_assoc]

theorem lineOf_text (prn : Byte → Bool) (d : List Byte) (j : Nat) :
    (lineOf prn d)[52 + j]? = (gap 0 (d.map (fun b => if prn b then b else 0x2e)))[j]? := by
  unfold lineOf
  rw [hex_part]
  rw [List.getElem?_append_right (by simp; omega), List.getElem?_append_right (by simp; omega)]
  have : 52 + j - 48 - 4 = j := by omega
  simp [this]

theorem gap_get (l : List Byte) (i : Nat) : (gap 0 l)[i + if i < 8 then 0 else 1]? = l[i]? := by
  unfold gap
  by_cases h : 0 ≤ 8 ∧ 8 < 0 + l.length
  · rw [if_pos h]
    by_cases h8 : i < 8
    · rw [if_pos h8, List.getElem?_append_left (by simp; omega)]
      simp [h8]
    · rw [if_neg h8, List.getElem?_append_right (by simp; omega)]
      have : i + 1 - (l.take (8 - 0)).length = (i - 8) + 1 := by simp; omega
      rw [this, List.getElem?_cons_succ, List.getElem?_drop]
      congr 1
      omega
  · rw [if_neg h]
    by_cases h8 : i < 8
    · rw [if_pos h8]; simp
    · rw [if_neg h8, List.getElem?_eq_none (by omega), List.getElem?_eq_none (by omega)]

theorem gap_mid (l : List Byte) (h : 8 < l.length) : (gap 0 l)[8]? = some 0x20 := by
  unfold gap
  rw [if_pos (by omega), List.getElem?_append_right (by simp; omega)]
  have : 8 - (l.take (8 - 0)).length = 0 := by simp; omega
  rw [this]
  rfl

theorem gap_len (l : List Byte) : (gap 0 l).length = l.length + if l.length ≤ 8 then 0 else 1 := by
  unfold gap
  by_cases h : l.length ≤ 8
  · rw [if_neg (by omega), if_pos h]; omega
  · rw [if_pos (by omega), if_neg h]
    simp; omega

theorem lineOf_length (prn : Byte → Bool) (d : List Byte) :
    (lineOf prn d).length = 52 + d.length + if d.length ≤ 8 then 0 else 1 := by
  unfold lineOf
  rw [hex_part, List.length_append, List.length_append, gap_len, List.length_map]
  simp only [List.length_cons, List.length_nil]
  omega

/-- Column of the hexadecimal part -/
theorem lineOf_hex (prn : Byte → Bool) (d : List Byte) (i : Nat) (h : i < 16) :
    (lineOf prn d)[hexColumn i]? = some (hi d i) ∧ (lineOf prn d)[hexColumn i + 1]? = some (lo d i) := by
  unfold lineOf
  rw [hex_part]
  rcases i with _ | _ | _ | _ | _ | _ | _ | _ | _ | _ | _ | _ | _ | _ | _ | _ | i
  all_goals first | exact ⟨rfl, rfl⟩ | omega

theorem lineOf_sep (prn : Byte → Bool) (d : List Byte) (j : Nat) (h : j < 52)
    (hn : ∀ i, i < 16 → j ≠ hexColumn i ∧ j ≠ hexColumn i + 1) : (lineOf prn d)[j]? = some 0x20 := by
  unfold lineOf
  rw [hex_part]
  have hj : j = 2 ∨ j = 5 ∨ j = 8 ∨ j = 11 ∨ j = 14 ∨ j = 17 ∨ j = 20 ∨ j = 23 ∨ j = 24 ∨ j = 27 ∨ j = 30 ∨ j = 33 ∨ j = 36 ∨
      j = 39 ∨ j = 42 ∨ j = 45 ∨ j = 48 ∨ j = 49 ∨ j = 50 ∨ j = 51 := by
    have : ∀ j : Fin 52, (∀ i : Fin 16, j.val ≠ hexColumn i.val ∧ j.val ≠ hexColumn i.val + 1) →
        (j.val = 2 ∨ j.val = 5 ∨ j.val = 8 ∨ j.val = 11 ∨ j.val = 14 ∨ j.val = 17 ∨ j.val = 20 ∨ j.val = 23 ∨ j.val = 24 ∨ j.val = 27 ∨
          j.val = 30 ∨ j.val = 33 ∨ j.val = 36 ∨ j.val = 39 ∨ j.val = 42 ∨ j.val = 45 ∨ j.val = 48 ∨ j.val = 49 ∨ j.val = 50 ∨ j.val = 51) := by
      decide +kernel
    exact this ⟨j, h⟩ (fun i => hn i.val i.isLt)
  rcases hj with rfl | rfl | rfl | rfl | rfl | rfl | rfl | rfl | rfl | rfl | rfl | rfl | rfl | rfl | rfl | rfl | rfl | rfl | rfl | rfl
  all_goals rfl

theorem lineOf_line (prn : Byte → Bool) (d : List Byte) (hd : d.length ≤ 16) : Line prn d (lineOf prn d) where
  length := lineOf_length prn d
  digit1 := by
    intro i b hb
    have hi' : i < d.length := by
      have := List.getElem?_eq_some_iff.mp hb
      exact this.1
    rw [(lineOf_hex prn d i (by omega)).1, hi, hb]
  digit2 := by
    intro i b hb
    have hi' : i < d.length := by
      have := List.getElem?_eq_some_iff.mp hb
      exact this.1
    rw [(lineOf_hex prn d i (by omega)).2, lo, hb]
  text := by
    intro i b hb
    unfold textColumn
    rw [Nat.add_assoc, lineOf_text, gap_get, List.getElem?_map, hb]
    rfl
  blank := by
    intro j hj hn
    rw [lineOf_length] at hj
    by_cases h52 : j < 52
    · by_cases hc : ∃ i, i < 16 ∧ (j = hexColumn i ∨ j = hexColumn i + 1)
      · obtain ⟨i, hi', hc⟩ := hc
        have hge : d.length ≤ i := by
          rcases Nat.lt_or_ge i d.length with h | h
          · have := hn i h
            omega
          · exact h
        have e : d[i]? = none := List.getElem?_eq_none hge
        rcases hc with rfl | rfl
        · rw [(lineOf_hex prn d i hi').1, hi, e]
        · rw [(lineOf_hex prn d i hi').2, lo, e]
      · exact lineOf_sep prn d j h52 (fun i hi' => ⟨fun h => hc ⟨i, hi', .inl h⟩, fun h => hc ⟨i, hi', .inr h⟩⟩)
    · obtain ⟨k, rfl⟩ : ∃ k, j = 52 + k := ⟨j - 52, by omega⟩
      rw [lineOf_text]
      have h8 : k = 8 := by
        rcases Nat.lt_trichotomy k 8 with h | h | h
        · have hk : k < d.length := by
            by_cases hl : d.length ≤ 8
            · rw [if_pos hl] at hj; omega
            · omega
          have := (hn k hk).2.2
          unfold textColumn at this
          rw [if_pos h] at this
          omega
        · exact h
        · have hl : ¬ d.length ≤ 8 := by
            intro hl
            rw [if_pos hl] at hj; omega
          rw [if_neg hl] at hj
          have := (hn (k - 1) (by omega)).2.2
          unfold textColumn at this
          rw [if_neg (by omega)] at this
          omega
      subst h8
      apply gap_mid
      rw [List.length_map]
      by_cases hl : d.length ≤ 8
      · rw [if_pos hl] at hj
        omega
      · omega

end Verif.Misc
