import Verif.Proof.MiscParse
import Verif.Spec.ParseLaws

/-!
# Proofs about strings which stand for the same number
-/

namespace Verif.Parse
open Verif.C Spec Strv.Spec

theorem dropWhile_pre {p : Byte → Bool} : ∀ (pre s : Str), (∀ c ∈ pre, p c = true) → (pre ++ s).dropWhile p = s.dropWhile p
  | [], _, _ => rfl
  | c :: t, s, h => by
    rw [List.cons_append, List.dropWhile_cons, if_pos (h c (by simp))]
    exact dropWhile_pre t s (fun d hd => h d (by simp [hd]))

theorem dropWhile_post {p : Byte → Bool} : ∀ (s post : Str), (∀ c ∈ post, p c = true) →
    (s ++ post).dropWhile p = [] ∧ s.dropWhile p = [] ∨ (s ++ post).dropWhile p = s.dropWhile p ++ post
  | [], post, h => by
    left
    have := dropWhile_pre post [] h
    rw [List.append_nil] at this
    exact ⟨this, rfl⟩
  | c :: t, post, h => by
    rw [List.cons_append, List.dropWhile_cons, List.dropWhile_cons]
    cases p c
    · right; rfl
    · exact dropWhile_post t post h

theorem strip_around (pre s post : Str) (h1 : ∀ c ∈ pre, isSpace c = true) (h2 : ∀ c ∈ post, isSpace c = true) :
    strip (pre ++ s ++ post) = strip s := by
  unfold strip
  rw [List.append_assoc, dropWhile_pre pre _ h1]
  rcases dropWhile_post s post h2 with ⟨e1, e2⟩ | e
  · rw [e1, e2]
  · rw [e, List.reverse_append, dropWhile_pre post.reverse _ (fun c hc => h2 c (List.mem_reverse.1 hc))]

theorem allBlank_space {s : Str} (h : AllBlank s) : ∀ c ∈ s, isSpace c = true := by
  intro c hc
  rcases h c hc with rfl | rfl | rfl | rfl | rfl <;> decide

/-- The parsers see only the string without white space around it. -/
theorem parseInt64_strip {s t : Str} (base : Int) (hs : s ≠ []) (ht : t ≠ []) (h : strip s = strip t) :
    parseInt64 (some s) base = parseInt64 (some t) base := by
  cases s with
  | nil => exact absurd rfl hs
  | cons a s =>
    cases t with
    | nil => exact absurd rfl ht
    | cons b t =>
      unfold parseInt64
      dsimp only
      rw [strstrip_eq _ hs, strstrip_eq _ ht, h]

theorem minus_first {c : Byte} {t : Str} : (c ≠ 0x2d ∧ (strip (c :: t)).head? ≠ some 0x2d) ↔ (strip (c :: t)).head? ≠ some 0x2d := by
  constructor
  · exact And.right
  · intro h
    refine ⟨?_, h⟩
    rintro rfl
    exact h (strip_minus t)

theorem parseUInt64_strip {s t : Str} (base : Int) (hs : s ≠ []) (ht : t ≠ []) (h : strip s = strip t) :
    parseUInt64 (some s) base = parseUInt64 (some t) base := by
  cases s with
  | nil => exact absurd rfl hs
  | cons a s =>
    cases t with
    | nil => exact absurd rfl ht
    | cons b t =>
      unfold parseUInt64
      dsimp only
      rw [strstrip_eq _ hs, strstrip_eq _ ht]
      simp only [minus_first]
      rw [h]

theorem upper_space : ∀ c : Byte, isSpace (upper c) = isSpace c := by
  refine Misc.forall_byte ?_
  decide +kernel
theorem upper_spaceC : ∀ c : Byte, isSpaceC (upper c) = isSpaceC c := by
  refine Misc.forall_byte ?_
  decide +kernel
theorem upper_digit : ∀ c : Byte, digitOf (upper c) = digitOf c := by
  refine Misc.forall_byte ?_
  decide +kernel
theorem upper_other : ∀ c : Byte, (upper c = 0x2d ↔ c = 0x2d) ∧ (upper c = 0x2b ↔ c = 0x2b) ∧ (upper c = 0x30 ↔ c = 0x30) ∧
    ((upper c = 0x58 ∨ upper c = 0x78) ↔ (c = 0x58 ∨ c = 0x78)) := by
  refine Misc.forall_byte ?_
  decide +kernel

theorem dropWhile_upper {p : Byte → Bool} (hp : ∀ c, p (upper c) = p c) (s : Str) : (s.map upper).dropWhile p = (s.dropWhile p).map upper := by
  induction s with
  | nil => rfl
  | cons c t ih =>
    rw [List.map_cons, List.dropWhile_cons, List.dropWhile_cons, hp]
    split
    · exact ih
    · rfl

theorem strip_upper (s : Str) : strip (s.map upper) = (strip s).map upper := by
  unfold strip
  rw [dropWhile_upper upper_space, ← List.map_reverse, dropWhile_upper upper_space, List.map_reverse]

theorem sign_upper (s : Str) : sign (s.map upper) = ((sign s).1, (sign s).2.map upper) := by
  cases s with
  | nil => rfl
  | cons c t =>
    have h := upper_other c
    simp only [List.map_cons, sign, h.1, h.2.1]
    split
    · rfl
    · split <;> rfl

theorem head_upper (t : Str) : ((t.map upper).head? = some 0x58 ∨ (t.map upper).head? = some 0x78) ↔ (t.head? = some 0x58 ∨ t.head? = some 0x78) := by
  cases t with
  | nil => simp
  | cons c t => simpa using (upper_other c).2.2.2

theorem radix_upper (base : Nat) (s : Str) : radix base (s.map upper) = ((radix base s).1, (radix base s).2.map upper) := by
  cases s with
  | nil => rfl
  | cons c t =>
    simp only [List.map_cons, radix, (upper_other c).2.2.1, head_upper]
    split
    · split
      · simp only [List.map_drop]
      · rfl
    · rfl

theorem digitLoop_upper (b : Nat) : ∀ (s : Str) (v : Nat) (o : Bool),
    digitLoop b v o (s.map upper) = ((digitLoop b v o s).1, (digitLoop b v o s).2.1, (digitLoop b v o s).2.2.map upper)
  | [], _, _ => rfl
  | c :: t, v, o => by
    simp only [List.map_cons, digitLoop, upper_digit]
    cases digitOf c with
    | none => rfl
    | some d =>
      dsimp only
      split
      · rfl
      · split
        · exact digitLoop_upper b t v true
        · exact digitLoop_upper b t _ o

theorem digits_upper (nptr s : Str) (b : Nat) (ds : Str) :
    digits (nptr.map upper) (s.map upper) b (ds.map upper) =
      ((digits nptr s b ds).1, (digits nptr s b ds).2.1, (digits nptr s b ds).2.2.map upper) := by
  unfold digits
  simp only [digitLoop_upper, List.length_map]
  split
  · split
    · simp only [List.map_drop]
    · rfl
  · split <;> rfl

theorem parseLongLong_upper (s : Str) (base : Nat) : parseLongLong (s.map upper) base =
    ((parseLongLong s base).1, (parseLongLong s base).2.1, (parseLongLong s base).2.2.1, (parseLongLong s base).2.2.2.map upper) := by
  unfold parseLongLong
  rw [dropWhile_upper upper_spaceC]
  split
  · rfl
  · simp only [List.map_eq_nil_iff]
    split
    · rfl
    · simp only [sign_upper, radix_upper, digits_upper]

theorem parseInt64_upper (s : Str) (base : Int) : parseInt64 (some (s.map upper)) base = parseInt64 (some s) base := by
  cases s with
  | nil => rfl
  | cons c t =>
    unfold parseInt64
    simp only [List.map_cons]
    rw [← List.map_cons, strstrip_eq _ (by simp), strstrip_eq _ (by simp), strip_upper]
    unfold strtoll
    rw [parseLongLong_upper]
    dsimp only
    by_cases h1 : (parseLongLong (strip (c :: t)) (toUInt32 base)).2.1
    · by_cases h2 : (parseLongLong (strip (c :: t)) (toUInt32 base)).1 > 2 ^ 63 <;> simp [h1, h2]
    · by_cases h2 : (parseLongLong (strip (c :: t)) (toUInt32 base)).1 > 2 ^ 63 - 1 <;> simp [h1, h2]

theorem parseUInt64_upper (s : Str) (base : Int) : parseUInt64 (some (s.map upper)) base = parseUInt64 (some s) base := by
  cases s with
  | nil => rfl
  | cons c t =>
    have hh : ((strip (c :: t)).map upper).head? ≠ some 0x2d ↔ (strip (c :: t)).head? ≠ some 0x2d := by
      cases strip (c :: t) with
      | nil => simp
      | cons d u => simpa using not_congr (upper_other d).1
    unfold parseUInt64
    simp only [List.map_cons]
    rw [← List.map_cons, strstrip_eq _ (by simp), strstrip_eq _ (by simp), strip_upper]
    unfold strtoull
    rw [parseLongLong_upper]
    simp only [ne_eq, (upper_other c).1] at hh ⊢
    simp only [hh, List.map_eq_nil_iff]

theorem parseInt_of {s t : Str} {base base' : Int} (h : parseInt64 (some s) base = parseInt64 (some t) base') :
    parseInt (some s) base = parseInt (some t) base' := by
  unfold parseInt; rw [h]

theorem parseUInt_of {s t : Str} {base base' : Int} (h : parseUInt64 (some s) base = parseUInt64 (some t) base') :
    parseUInt (some s) base = parseUInt (some t) base' := by
  unfold parseUInt; rw [h]

theorem isSpaceC_eq : ∀ c : Byte, isSpaceC c = (isSpace c || c == 11) := by
  refine Misc.forall_byte ?_
  decide +kernel

theorem trim_eq (s : Str) : (strip s).dropWhile isSpaceC = trim s := by
  have : isSpaceC = fun c => isSpace c || c == 11 := funext isSpaceC_eq
  rw [trim, this]

theorem sign_unsign (s : Str) : (sign s).2 = unsign s := by
  cases s with
  | nil => rfl
  | cons c t =>
    unfold sign unsign
    dsimp only
    by_cases h1 : c = 0x2d
    · rw [if_pos h1, if_pos (.inl h1)]
    · by_cases h2 : c = 0x2b
      · rw [if_neg h1, if_pos h2, if_pos (.inr h2)]
      · rw [if_neg h1, if_neg h2, if_neg (fun h => h.elim h1 h2)]

/-- Base zero is the one which is written there. -/
theorem parseLongLong_base (s : Str) : parseLongLong (strip s) 0 = parseLongLong (strip s) (toUInt32 (writtenBase s)) := by
  have hb : toUInt32 16 = 16 ∧ toUInt32 8 = 8 ∧ toUInt32 10 = 10 := by decide
  have hr : radix 0 (unsign (trim s)) = radix (toUInt32 (writtenBase s)) (unsign (trim s)) := by
    unfold writtenBase
    cases h : unsign (trim s) with
    | nil => simp [radix, hb]
    | cons c t =>
      dsimp only
      by_cases h1 : c = 0x30
      · by_cases h2 : t.head? = some 0x58 ∨ t.head? = some 0x78
        · rw [if_pos h1, if_pos h2, hb.1, radix, radix, if_pos h1, if_pos ⟨.inl rfl, h2⟩, if_pos h1, if_pos ⟨.inr rfl, h2⟩]
        · have hx : ∀ P : Prop, ¬ (P ∧ (t.head? = some 0x58 ∨ t.head? = some 0x78)) := fun P h => h2 h.2
          rw [if_pos h1, if_neg h2, hb.2.1, radix, radix, if_pos h1, if_neg (hx _), if_pos h1, if_neg (hx _)]
          rfl
      · rw [if_neg h1, hb.2.2, radix, radix, if_neg h1, if_neg h1]
        rfl
  have hw : toUInt32 (writtenBase s) = 16 ∨ toUInt32 (writtenBase s) = 8 ∨ toUInt32 (writtenBase s) = 10 := by
    unfold writtenBase
    split
    · split
      · split
        · exact .inl hb.1
        · exact .inr (.inl hb.2.1)
      · exact .inr (.inr hb.2.2)
    · exact .inr (.inr hb.2.2)
  unfold parseLongLong
  have n1 : ¬ ((0 : Nat) = 1 ∨ 0 > 36) := by omega
  have n2 : ¬ (toUInt32 (writtenBase s) = 1 ∨ toUInt32 (writtenBase s) > 36) := by omega
  rw [if_neg n1, if_neg n2]
  simp only [trim_eq, sign_unsign, hr]

theorem parseInt64_base (s : Str) : parseInt64 (some s) 0 = parseInt64 (some s) (writtenBase s) := by
  have h0 : toUInt32 0 = 0 := by decide
  cases s with
  | nil => rfl
  | cons c t =>
    unfold parseInt64
    dsimp only
    unfold strtoll
    rw [strstrip_eq _ (by simp), h0, parseLongLong_base]

theorem parseUInt64_base (s : Str) : parseUInt64 (some s) 0 = parseUInt64 (some s) (writtenBase s) := by
  have h0 : toUInt32 0 = 0 := by decide
  cases s with
  | nil => rfl
  | cons c t =>
    unfold parseUInt64
    dsimp only
    unfold strtoull
    rw [strstrip_eq _ (by simp), h0, parseLongLong_base]

theorem digits_range (nptr s : Str) (b : Nat) (ds : Str) (h : (digits nptr s b ds).2.1 = .erange) : (digits nptr s b ds).1 = uint64Max := by
  unfold digits at *
  dsimp only at *
  split at h
  · cases h
  · rename_i h1
    rw [if_neg h1]
    split at h
    · rename_i h2
      rw [if_pos h2]
    · cases h

theorem parseLongLong_range (s : Str) (base : Nat) (h : (parseLongLong s base).2.2.1 = .erange) : (parseLongLong s base).1 = uint64Max := by
  unfold parseLongLong at *
  split at h
  · cases h
  · rename_i h1
    rw [if_neg h1]
    dsimp only at *
    split at h
    · cases h
    · rename_i h2
      rw [if_neg h2]
      exact digits_range _ _ _ _ h

theorem parseLongLong_plus (s : Str) (base : Nat) (h : (0x2d : Byte) ∉ s) : (parseLongLong s base).2.1 = false := by
  unfold parseLongLong
  split
  · rfl
  · dsimp only
    split
    · rfl
    · dsimp only
      rcases sign_spec (s.dropWhile isSpaceC) with ⟨-, e⟩ | ⟨e, -⟩
      · have : (0x2d : Byte) ∈ s.dropWhile isSpaceC := by rw [e]; simp
        exact absurd ((List.dropWhile_sublist _).mem this) h
      · exact e

theorem parse_agree (s : Str) (hm : (0x2d : Byte) ∉ s) (base : Int) (n : Nat) (hn : n < 2 ^ 63) :
    parseInt64 (some s) base = some (n : Int) ↔ parseUInt64 (some s) base = some n := by
  cases s with
  | nil => simp [parseInt64, parseUInt64]
  | cons c t =>
    have hm' : (0x2d : Byte) ∉ strip (c :: t) := fun h => hm (strip_subset _ _ h)
    have h1 := parseLongLong_range (strip (c :: t)) (toUInt32 base)
    have h2 := parseLongLong_plus _ (toUInt32 base) hm'
    have hd : c ≠ 0x2d ∧ (strip (c :: t)).head? ≠ some 0x2d := by
      refine minus_first.2 ?_
      intro h
      cases e : strip (c :: t) with
      | nil => rw [e] at h; cases h
      | cons d u => rw [e] at h hm'; cases h; exact hm' (by simp)
    unfold parseInt64 parseUInt64
    dsimp only
    rw [strstrip_eq _ (by simp), if_pos hd]
    unfold strtoll strtoull
    generalize parseLongLong (strip (c :: t)) (toUInt32 base) = r at *
    obtain ⟨v, neg, e, rest⟩ := r
    dsimp only at *
    subst h2
    simp only [Bool.false_eq_true, if_false]
    unfold uint64Max at *
    by_cases hv : v > 2 ^ 63 - 1
    · simp only [hv, if_true]
      constructor
      · intro h
        split at h
        · rename_i h'; exact (h'.2.1 (by simp)).elim
        · cases h
      · intro h
        split at h
        · injection h with h; omega
        · cases h
    · simp only [hv, if_false]
      have he : e ≠ .erange := fun h => by have := h1 h; omega
      constructor
      · intro h
        split at h
        · rename_i h'
          injection h with h
          rw [if_pos ⟨h'.1, fun x => he x.2, fun x => h'.2.2 ⟨by omega, x.2⟩⟩]
          congr 1; omega
        · cases h
      · intro h
        split at h
        · rename_i h'
          injection h with h
          rw [if_pos ⟨h'.1, fun x => he x.2, fun x => h'.2.2 ⟨by omega, x.2⟩⟩]
          congr 1; omega
        · cases h

theorem parse_positive (s : Str) (hm : (0x2d : Byte) ∉ s) (base : Int) (v : Int) (h : parseInt64 (some s) base = some v) : 0 ≤ v := by
  cases s with
  | nil => cases h
  | cons c t =>
    have hm' : (0x2d : Byte) ∉ strip (c :: t) := fun h => hm (strip_subset _ _ h)
    have h2 := parseLongLong_plus _ (toUInt32 base) hm'
    unfold parseInt64 at h
    dsimp only at h
    rw [strstrip_eq _ (by simp)] at h
    unfold strtoll at h
    generalize parseLongLong (strip (c :: t)) (toUInt32 base) = r at *
    obtain ⟨w, neg, e, rest⟩ := r
    dsimp only at *
    subst h2
    simp only [Bool.false_eq_true, if_false] at h
    by_cases hv : w > 2 ^ 63 - 1
    · simp only [hv, if_true] at h
      split at h
      · injection h with h; rw [← h]; decide
      · cases h
    · simp only [hv, if_false] at h
      split at h
      · injection h with h; omega
      · cases h

end Verif.Parse
