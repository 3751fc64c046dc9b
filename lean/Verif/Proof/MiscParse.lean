import Verif.Model.MiscParse
import Verif.Spec.Parse
import Verif.Proof.StrvLift
import Verif.Proof.MiscHex

/-!
# Lemmas about parsing of numbers
-/

namespace Verif.Parse
open Verif.C Spec

theorem digitOf_eq : ∀ c : Byte, digitOf c = digitVal c := by
  refine Misc.forall_byte ?_
  decide +kernel

/-- State of the loop when the digits so far make `tv` -/
def Good (v : Nat) (ovf : Bool) (tv : Nat) : Prop :=
  (ovf = false ∧ v = tv ∧ tv ≤ uint64Max) ∨ (ovf = true ∧ uint64Max < tv)

theorem overflow_iff (b v d : Nat) (hb : 0 < b) (hd : d < b) :
    (v > uint64Max / b ∨ (v = uint64Max / b ∧ d > uint64Max % b)) ↔ uint64Max < v * b + d := by
  have h1 := Nat.div_add_mod uint64Max b
  have h2 := Nat.mod_lt uint64Max hb
  generalize uint64Max / b = q at *
  generalize uint64Max % b = r at *
  constructor
  · rintro (h | ⟨rfl, h⟩)
    · have : (q + 1) * b ≤ v * b := Nat.mul_le_mul_right b h
      rw [Nat.add_mul, Nat.mul_comm q b] at this
      omega
    · rw [Nat.mul_comm]; omega
  · intro h
    rcases Nat.lt_trichotomy v q with hv | hv | hv
    · exfalso
      have : (v + 1) * b ≤ q * b := Nat.mul_le_mul_right b hv
      rw [Nat.add_mul, Nat.mul_comm q b] at this
      omega
    · right
      subst hv
      rw [Nat.mul_comm] at h
      exact ⟨rfl, by omega⟩
    · left; exact hv

theorem digitLoop_spec (b : Nat) (hb : 0 < b) : ∀ (s : Str) (v : Nat) (ovf : Bool) (tv : Nat), Good v ovf tv →
    ((digitLoop b v ovf s).2.2 = [] ↔ ∀ c ∈ s, IsDigit b c) ∧
    ((digitLoop b v ovf s).2.2 = [] → Good (digitLoop b v ovf s).1 (digitLoop b v ovf s).2.1
      (s.foldl (fun v c => v * b + (digitVal c).getD 0) tv)) ∧
    (digitLoop b v ovf s).2.2.length ≤ s.length ∧
    ((digitLoop b v ovf s).2.2.length = s.length ↔ ∀ c, s.head? = some c → ¬ IsDigit b c) := by
  intro s
  induction s with
  | nil => intro v ovf tv hg; simp [digitLoop, hg]
  | cons c t ih =>
    intro v ovf tv hg
    rw [digitLoop]
    rw [digitOf_eq]
    cases e : digitVal c with
    | none =>
      have hn : ¬ IsDigit b c := by rintro ⟨d, h, _⟩; rw [e] at h; cases h
      simp only []
      refine ⟨⟨by simp, fun h => absurd (h c (by simp)) hn⟩, by simp, Nat.le_refl _, by simp [hn]⟩
    | some d =>
      simp only []
      by_cases hd : d ≥ b
      · have hn : ¬ IsDigit b c := by rintro ⟨d', h, h'⟩; rw [e] at h; cases h; omega
        rw [if_pos hd]
        refine ⟨⟨by simp, fun h => absurd (h c (by simp)) hn⟩, by simp, Nat.le_refl _, by simp [hn]⟩
      · rw [if_neg hd]
        have hc : IsDigit b c := ⟨d, e, by omega⟩
        have key : ∀ v' ovf', Good v' ovf' (tv * b + d) →
            ((digitLoop b v' ovf' t).2.2 = [] ↔ ∀ c' ∈ c :: t, IsDigit b c') ∧
            ((digitLoop b v' ovf' t).2.2 = [] → Good (digitLoop b v' ovf' t).1 (digitLoop b v' ovf' t).2.1
              ((c :: t).foldl (fun v c => v * b + (digitVal c).getD 0) tv)) ∧
            (digitLoop b v' ovf' t).2.2.length ≤ (c :: t).length ∧
            ((digitLoop b v' ovf' t).2.2.length = (c :: t).length ↔ ∀ c', (c :: t).head? = some c' → ¬ IsDigit b c') := by
          intro v' ovf' hg'
          obtain ⟨h1, h2, h3, h4⟩ := ih v' ovf' _ hg'
          refine ⟨?_, ?_, by simp; omega, ?_⟩
          · rw [h1]; simp [hc]
          · intro h
            have := h2 h
            simpa [e] using this
          · constructor
            · intro h; simp at h; omega
            · intro h; exact absurd hc (h c rfl)
        by_cases ho : v > uint64Max / b ∨ (v = uint64Max / b ∧ d > uint64Max % b)
        · rw [if_pos ho]
          apply key
          right
          refine ⟨rfl, ?_⟩
          rw [overflow_iff b v d hb (by omega)] at ho
          rcases hg with ⟨_, rfl, _⟩ | ⟨_, h⟩
          · exact ho
          · have := Nat.le_mul_of_pos_right tv hb
            omega
        · rw [if_neg ho]
          apply key
          rw [overflow_iff b v d hb (by omega)] at ho
          rcases hg with ⟨h0, rfl, _⟩ | ⟨h0, h⟩
          · left; exact ⟨h0, rfl, by omega⟩
          · right
            refine ⟨h0, ?_⟩
            have := Nat.le_mul_of_pos_right tv hb
            omega

/-- All digits -/
theorem digits_all (nptr s : Str) (b : Nat) (hb : 0 < b) (ds : Str) (hne : ds ≠ []) (hd : ∀ c ∈ ds, IsDigit b c) :
    digits nptr s b ds = if value b ds ≤ uint64Max then (value b ds, .zero, []) else (uint64Max, .erange, []) := by
  obtain ⟨h1, h2, h3, h4⟩ := digitLoop_spec b hb ds 0 false 0 (.inl ⟨rfl, rfl, by decide⟩)
  have he := h1.mpr hd
  have hg := h2 he
  unfold digits
  simp only []
  rw [if_neg, he]
  · rcases hg with ⟨h5, h6, h7⟩ | ⟨h5, h6⟩
    · rw [h5, h6]
      have h7 : value b ds ≤ uint64Max := h7
      rw [if_pos h7]
      rfl
    · rw [h5]
      have h6 : uint64Max < value b ds := h6
      rw [if_neg (Nat.not_le.mpr h6)]
      rfl
  · rw [he]
    cases ds with
    | nil => exact absurd rfl hne
    | cons => simp

/-- The end isn't the end of the string unless there are digits and nothing else. -/
theorem digits_not (nptr s : Str) (b : Nat) (hb : 0 < b) (ds : Str) (hn : ¬ (ds ≠ [] ∧ ∀ c ∈ ds, IsDigit b c))
    (hnp : nptr ≠ []) (hs : ds.length < s.length → s.drop 1 ≠ []) : (digits nptr s b ds).2.2 ≠ [] := by
  obtain ⟨h1, h2, h3, h4⟩ := digitLoop_spec b hb ds 0 false 0 (.inl ⟨rfl, rfl, by decide⟩)
  unfold digits
  simp only []
  by_cases h : (digitLoop b 0 false ds).2.2.length = ds.length
  · rw [if_pos h]
    simp only []
    by_cases hl : ds.length < s.length
    · rw [if_pos hl]; exact hs hl
    · rw [if_neg hl]; exact hnp
  · rw [if_neg h]
    have hne : ds ≠ [] := by rintro rfl; exact h (by simpa using h3)
    have : (digitLoop b 0 false ds).2.2 ≠ [] := by
      intro e
      exact hn ⟨hne, h1.mp e⟩
    split <;> exact this

/-- The base is valid. -/
def Base (base : Int) : Prop := base = 0 ∨ (2 ≤ base ∧ base ≤ 36)

theorem base_cast (base : Int) (h1 : -2 ^ 31 ≤ base) (h2 : base < 2 ^ 31) :
    (Base base ∧ (toUInt32 base : Int) = base) ∨ (¬ Base base ∧ (toUInt32 base = 1 ∨ toUInt32 base > 36)) := by
  unfold Base toUInt32
  rw [BitVec.toNat_ofInt]
  by_cases h : 0 ≤ base
  · rw [Int.emod_eq_of_lt h (by omega)]
    omega
  · right
    have : base % ((2 ^ 32 : Nat) : Int) = base + 2 ^ 32 := by omega
    rw [this]
    omega

theorem radix_cases {base : Nat} {s : Str} {b : Nat} {ds : Str} (h : Radix base s b ds) :
    (2 ≤ base ∧ base ≤ 36 ∧ b = base ∧ ds = s) ∨
    (∃ x, (base = 0 ∨ base = 16) ∧ (x = 0x58 ∨ x = 0x78) ∧ s = 0x30 :: x :: ds ∧ b = 16) ∨
    (∃ t, base = 0 ∧ s = 0x30 :: t ∧ b = 8 ∧ ds = s) ∨
    (base = 0 ∧ s.head? ≠ some 0x30 ∧ b = 10 ∧ ds = s) := by
  generalize hb : (base : Int) = ib at h
  cases h with
  | given => rename_i h1 h2; left; exact ⟨by omega, by omega, by omega, rfl⟩
  | hex => rename_i h2 h1; right; left; exact ⟨_, by omega, h2, rfl, rfl⟩
  | octal t => right; right; left; exact ⟨t, by omega, rfl, rfl, rfl⟩
  | decimal => rename_i h1; right; right; right; exact ⟨by omega, h1, rfl, rfl⟩

/-- `radix` gives one of the possible readings, and the only one that can have only digits. -/
theorem radix_spec (base : Nat) (hb : Base base) (s : Str) :
    0 < (radix base s).1 ∧ Radix base s (radix base s).1 (radix base s).2 ∧
    (∀ b ds, Radix base s b ds → ds ≠ [] → (∀ c ∈ ds, IsDigit b c) → b = (radix base s).1 ∧ ds = (radix base s).2) ∧
    ((radix base s).2.length < s.length → s.drop 1 ≠ []) := by
  have hbn : base = 0 ∨ (2 ≤ base ∧ base ≤ 36) := by unfold Base at hb; omega
  cases s with
  | nil =>
    refine ⟨?_, ?_, ?_, by simp [radix]⟩
    · rw [radix]; simp only []; split <;> omega
    · rw [radix]
      simp only []
      by_cases h0 : base = 0
      · subst h0; exact .decimal [] (by simp)
      · rw [if_neg h0]; exact .given base [] (by omega) (by omega)
    · intro b ds h hne
      cases h <;> simp at hne
  | cons c t =>
    by_cases hc : c = 0x30
    · subst hc
      by_cases hx : (base = 0 ∨ base = 16) ∧ (t.head? = some 0x58 ∨ t.head? = some 0x78)
      · obtain ⟨x, t, rfl⟩ : ∃ x l, t = x :: l := by
          cases t with
          | nil => simp at hx
          | cons x l => exact ⟨x, l, rfl⟩
        have e : radix base (0x30 :: x :: t) = (16, t) := by
          rw [radix, if_pos rfl, if_pos hx]; rfl
        rw [e]
        have hx2 : x = 0x58 ∨ x = 0x78 := by simpa using hx.2
        refine ⟨Nat.succ_pos _, .hex base x t (by omega) hx2, ?_, by simp⟩
        have hnd : ∀ b, b ≤ 16 → ¬ IsDigit b x := by
          intro b hb
          rintro ⟨d, h, h'⟩
          rcases hx2 with rfl | rfl
          · have : digitVal 0x58 = some 33 := by decide
            rw [this] at h; cases h; omega
          · have : digitVal 0x78 = some 33 := by decide
            rw [this] at h; cases h; omega
        intro b ds h hne hd
        rcases radix_cases h with ⟨h1, h2, rfl, rfl⟩ | ⟨x', h1, h2, h3, rfl⟩ | ⟨t', h1, h2, rfl, rfl⟩ | ⟨h1, h2, h3, h4⟩
        · exact absurd (hd x (by simp)) (hnd _ (by omega))
        · simp only [List.cons.injEq, true_and] at h3
          exact ⟨rfl, h3.2.symm⟩
        · exact absurd (hd x (by simp)) (hnd 8 (by omega))
        · simp at h2
      · have e : radix base (0x30 :: t) = (if base = 0 then 8 else base, 0x30 :: t) := by
          rw [radix, if_pos rfl, if_neg hx]
        rw [e]
        refine ⟨by simp only []; split <;> omega, ?_, ?_, by simp⟩
        · simp only []
          by_cases h0 : base = 0
          · subst h0; exact .octal t
          · rw [if_neg h0]; exact .given base _ (by omega) (by omega)
        · intro b ds h hne hd
          rcases radix_cases h with ⟨h1, h2, h3, rfl⟩ | ⟨x', h1, h2, h3, rfl⟩ | ⟨t', h1, h2, h3, rfl⟩ | ⟨h1, h2, h3, h4⟩
          · refine ⟨?_, rfl⟩
            simp only []
            split <;> omega
          · exfalso
            apply hx
            simp only [List.cons.injEq, true_and] at h3
            rw [h3]
            exact ⟨h1, by simpa using h2⟩
          · refine ⟨?_, rfl⟩
            simp only []
            split <;> omega
          · simp at h2
    · have e : radix base (c :: t) = (if base = 0 then 10 else base, c :: t) := by
        rw [radix, if_neg hc]
      rw [e]
      refine ⟨by simp only []; split <;> omega, ?_, ?_, by simp⟩
      · simp only []
        by_cases h0 : base = 0
        · subst h0; exact .decimal _ (by simpa using hc)
        · rw [if_neg h0]; exact .given base _ (by omega) (by omega)
      · intro b ds h hne hd
        rcases radix_cases h with ⟨h1, h2, h3, rfl⟩ | ⟨x', h1, h2, h3, rfl⟩ | ⟨t', h1, h2, h3, rfl⟩ | ⟨h1, h2, h3, rfl⟩
        · refine ⟨?_, rfl⟩
          simp only []
          split <;> omega
        · simp only [List.cons.injEq] at h3; exact absurd h3.1 hc
        · simp only [List.cons.injEq] at h2; exact absurd h2.1 hc
        · refine ⟨?_, rfl⟩
          simp only []
          split <;> omega

/-- What follows the sign: either it's a number and everything has been parsed, or something
remains. -/
theorem digits_spec (nptr s : Str) (base : Nat) (hb : Base base) (hnp : nptr ≠ []) :
    (∃ n, Unsigned base s n ∧ (∀ m, Unsigned base s m → m = n) ∧
      digits nptr s (radix base s).1 (radix base s).2 = if n ≤ uint64Max then (n, .zero, []) else (uint64Max, .erange, [])) ∨
    ((∀ n, ¬ Unsigned base s n) ∧ (digits nptr s (radix base s).1 (radix base s).2).2.2 ≠ []) := by
  obtain ⟨h0, h1, h2, h3⟩ := radix_spec base hb s
  by_cases h : (radix base s).2 ≠ [] ∧ ∀ c ∈ (radix base s).2, IsDigit (radix base s).1 c
  · left
    refine ⟨_, ⟨_, _, h1, h.1, h.2, rfl⟩, ?_, digits_all nptr s _ h0 _ h.1 h.2⟩
    rintro m ⟨b, ds, hr, hne, hd, rfl⟩
    obtain ⟨rfl, rfl⟩ := h2 b ds hr hne hd
    rfl
  · right
    refine ⟨?_, digits_not nptr s _ h0 _ h hnp h3⟩
    rintro n ⟨b, ds, hr, hne, hd, rfl⟩
    obtain ⟨rfl, rfl⟩ := h2 b ds hr hne hd
    exact h ⟨hne, hd⟩

theorem sign_spec (s : Str) : ((sign s).1 = true ∧ s = 0x2d :: (sign s).2) ∨
    ((sign s).1 = false ∧ (s = 0x2b :: (sign s).2 ∨ (s = (sign s).2 ∧ s.head? ≠ some 0x2d ∧ s.head? ≠ some 0x2b))) := by
  cases s with
  | nil => simp [sign]
  | cons c t =>
    rw [sign]
    by_cases h1 : c = 0x2d
    · subst h1; simp
    · rw [if_neg h1]
      by_cases h2 : c = 0x2b
      · subst h2; simp
      · rw [if_neg h2]; right; refine ⟨rfl, .inr ⟨rfl, ?_, ?_⟩⟩ <;> simpa

theorem unsigned_head (base : Int) (s : Str) (n : Nat) (h : Unsigned base s n) : s.head? ≠ some 0x2d ∧ s.head? ≠ some 0x2b ∧ s ≠ [] := by
  obtain ⟨b, ds, hr, hne, hd, rfl⟩ := h
  have hnd : ∀ c, c = 0x2d ∨ c = 0x2b → ∀ b, ¬ IsDigit b c := by
    rintro c (rfl | rfl) b ⟨d, h, _⟩
    · have : digitVal 0x2d = none := by decide
      rw [this] at h; cases h
    · have : digitVal 0x2b = none := by decide
      rw [this] at h; cases h
  have key : ∀ (b : Nat) (ds : Str), ds ≠ [] → (∀ c ∈ ds, IsDigit b c) → ds.head? ≠ some 0x2d ∧ ds.head? ≠ some 0x2b ∧ ds ≠ [] := by
    intro b ds hne hd
    cases ds with
    | nil => exact absurd rfl hne
    | cons c t =>
      have := hd c (by simp)
      refine ⟨?_, ?_, by simp⟩
      · intro e; simp at e; exact hnd c (.inl e) b this
      · intro e; simp at e; exact hnd c (.inr e) b this
  cases hr with
  | given => exact key _ _ hne hd
  | hex => simp
  | octal => simp
  | decimal => exact key _ _ hne hd

/-- The number (of either sign) which a string without a white space at the beginning is. -/
theorem number_iff (base : Int) (s : Str) (v : Int) : Number base s v ↔
    ∃ n, Unsigned base (sign s).2 n ∧ v = if (sign s).1 then -(n : Int) else n := by
  rcases sign_spec s with ⟨h1, h2⟩ | ⟨h1, h2 | ⟨h2, h3, h4⟩⟩
  · rw [h1]
    simp only [if_true]
    constructor
    · rintro ⟨t, n, hu, h | h | h⟩
      · have := (unsigned_head base t n hu).1
        rw [← h.1, h2] at this
        simp at this
      · rw [h.1] at h2; simp at h2
      · have h2 := h.1.symm.trans h2
        simp only [List.cons.injEq, true_and] at h2
        exact ⟨n, h2 ▸ hu, h.2⟩
    · rintro ⟨n, hu, rfl⟩
      exact ⟨_, n, hu, .inr (.inr ⟨h2, rfl⟩)⟩
  · rw [h1]
    simp only [Bool.false_eq_true, if_false]
    constructor
    · rintro ⟨t, n, hu, h | h | h⟩
      · have := (unsigned_head base t n hu).2.1
        rw [← h.1, h2] at this
        simp at this
      · have h2 := h.1.symm.trans h2
        simp only [List.cons.injEq, true_and] at h2
        exact ⟨n, h2 ▸ hu, h.2⟩
      · rw [h.1] at h2; simp at h2
    · rintro ⟨n, hu, rfl⟩
      exact ⟨_, n, hu, .inr (.inl ⟨h2, rfl⟩)⟩
  · rw [h1, ← h2]
    simp only [Bool.false_eq_true, if_false]
    constructor
    · rintro ⟨t, n, hu, h | h | h⟩
      · rw [h.1]; exact ⟨n, hu, h.2⟩
      · rw [h.1] at h4; simp at h4
      · rw [h.1] at h3; simp at h3
    · rintro ⟨n, hu, rfl⟩
      exact ⟨s, n, hu, .inl ⟨rfl, rfl⟩⟩

theorem parseLongLong_bad (nptr : Str) (base : Nat) (h : base = 1 ∨ base > 36) : parseLongLong nptr base = (0, false, .einval, nptr) := by
  rw [parseLongLong, if_pos h]

theorem parseLongLong_ok (nptr : Str) (base : Nat) (hb : Base base) (hne : nptr.dropWhile isSpaceC ≠ []) :
    parseLongLong nptr base =
      ((digits nptr (sign (nptr.dropWhile isSpaceC)).2 (radix base (sign (nptr.dropWhile isSpaceC)).2).1
        (radix base (sign (nptr.dropWhile isSpaceC)).2).2).1, (sign (nptr.dropWhile isSpaceC)).1,
       (digits nptr (sign (nptr.dropWhile isSpaceC)).2 (radix base (sign (nptr.dropWhile isSpaceC)).2).1
        (radix base (sign (nptr.dropWhile isSpaceC)).2).2).2) := by
  rw [parseLongLong, if_neg (by unfold Base at hb; omega)]
  simp only []
  rw [if_neg hne]

theorem strstrip_eq (s : Str) (hs : s ≠ []) : strstrip s = Strv.Spec.strip s := by
  unfold strstrip
  split
  · exact Strv.chomp_chug s
  · rename_i h
    simp only [Bool.or_eq_true, not_or, Bool.not_eq_true] at h
    rw [← Strv.chomp_chug]
    obtain ⟨c, t, rfl⟩ : ∃ c t, s = c :: t := by
      cases s with
      | nil => exact absurd rfl hs
      | cons c t => exact ⟨c, t, rfl⟩
    have e1 : Strv.chug (c :: t) = c :: t := by
      unfold Strv.chug
      rw [List.dropWhile_cons]
      have : Strv.asciiIsSpace c = false := h.1
      rw [this]; rfl
    rw [e1]
    unfold Strv.chomp
    have h2 := h.2
    rw [List.getLast?_eq_head?_reverse] at h2
    generalize hr : (c :: t).reverse = r at *
    cases r with
    | nil => simp at hr
    | cons d u =>
      rw [List.dropWhile_cons]
      have : Strv.asciiIsSpace d = false := h2
      rw [this]
      simp only [Bool.false_eq_true, if_false]
      rw [← hr, List.reverse_reverse]

/-- The base is invalid: nothing is a number -/
theorem unsigned_base (base : Int) (s : Str) (n : Nat) (h : Unsigned base s n) : Base base := by
  obtain ⟨b, ds, hr, _⟩ := h
  unfold Base
  cases hr with
  | given => rename_i h1 h2; omega
  | hex => rename_i h2 h1; omega
  | octal => omega
  | decimal => omega

/-- Digits only: everything has been parsed and this is the outcome; or something remains. -/
theorem parse_spec (nptr : Str) (base : Int) (h1 : -2 ^ 31 ≤ base) (h2 : base < 2 ^ 31) (hne : nptr ≠ []) :
    (∃ n, Unsigned base (sign (nptr.dropWhile isSpaceC)).2 n ∧ (∀ m, Unsigned base (sign (nptr.dropWhile isSpaceC)).2 m → m = n) ∧
      parseLongLong nptr (toUInt32 base) = if n ≤ uint64Max then (n, (sign (nptr.dropWhile isSpaceC)).1, .zero, [])
        else (uint64Max, (sign (nptr.dropWhile isSpaceC)).1, .erange, [])) ∨
    ((∀ n, ¬ Unsigned base (sign (nptr.dropWhile isSpaceC)).2 n) ∧ (parseLongLong nptr (toUInt32 base)).2.2.2 ≠ []) := by
  rcases base_cast base h1 h2 with ⟨hb, e⟩ | ⟨hb, e⟩
  · by_cases hs : nptr.dropWhile isSpaceC = []
    · right
      constructor
      · intro n hu
        rw [hs] at hu
        exact (unsigned_head base [] n hu).2.2 rfl
      · rw [parseLongLong, if_neg (by unfold Base at hb; omega)]
        simp only []
        rw [if_pos hs]
        exact hne
    · rw [parseLongLong_ok nptr _ (by rw [e]; exact hb) hs]
      have := digits_spec nptr (sign (nptr.dropWhile isSpaceC)).2 (toUInt32 base) (by rw [e]; exact hb) hne
      rw [e] at this
      rcases this with ⟨n, hu, hun, hd⟩ | ⟨hu, hd⟩
      · left
        refine ⟨n, hu, hun, ?_⟩
        rw [hd]
        split <;> rfl
      · right
        exact ⟨hu, hd⟩
  · right
    refine ⟨fun n hu => hb (unsigned_base base _ n hu), ?_⟩
    rw [parseLongLong_bad _ _ e]
    exact hne

/-- The conditions on the result of `strtoll` -/
theorem parseInt64_core (c : Byte) (t : Str) (base : Int) (h1 : -2 ^ 31 ≤ base) (h2 : base < 2 ^ 31)
    (hne : Strv.Spec.strip (c :: t) ≠ []) (v : Int) :
    parseInt64 (some (c :: t)) base = some v ↔
      Number base ((Strv.Spec.strip (c :: t)).dropWhile isSpaceC) v ∧ int64Min ≤ v ∧ v ≤ int64Max := by
  rw [number_iff]
  unfold parseInt64 strtoll
  simp only []
  rw [strstrip_eq _ (by simp)]
  generalize Strv.Spec.strip (c :: t) = nptr at *
  rcases parse_spec nptr base h1 h2 hne with ⟨n, hu, hun, hp⟩ | ⟨hu, hp⟩
  · rw [hp]
    have huq : (∃ m, Unsigned base (sign (nptr.dropWhile isSpaceC)).2 m ∧ v = if (sign (nptr.dropWhile isSpaceC)).1 = true then -(m : Int) else m) ↔
        v = if (sign (nptr.dropWhile isSpaceC)).1 = true then -(n : Int) else n := by
      constructor
      · rintro ⟨m, hm, rfl⟩; rw [hun m hm]
      · intro h; exact ⟨n, hu, h⟩
    rw [huq]
    generalize (sign (nptr.dropWhile isSpaceC)).1 = neg
    by_cases hn : n ≤ uint64Max
    · rw [if_pos hn]
      simp only []
      cases neg
      · simp only [Bool.false_eq_true, if_false]
        by_cases hv : n > 2 ^ 63 - 1
        · rw [if_pos hv]
          simp only [int64Max, int64Min] at *
          simp
          omega
        · rw [if_neg hv]
          simp only [int64Max, int64Min] at *
          simp
          omega
      · simp only [if_true]
        by_cases hv : n > 2 ^ 63
        · rw [if_pos hv]
          simp only [int64Max, int64Min] at *
          simp
          omega
        · rw [if_neg hv]
          simp only [int64Max, int64Min] at *
          simp
          omega
    · rw [if_neg hn]
      simp only [uint64Max] at *
      cases neg
      · simp [int64Max, int64Min]
        omega
      · simp [int64Max, int64Min]
        omega
  · have hl : (match parseLongLong nptr (toUInt32 base) with
        | (v, neg, e, rest) =>
          if neg = true then if v > 2 ^ 63 then (int64Min, Errno.erange, rest) else (-(v : Int), e, rest)
          else if v > 2 ^ 63 - 1 then (int64Max, Errno.erange, rest) else ((v : Int), e, rest)).2.2 = (parseLongLong nptr (toUInt32 base)).2.2.2 := by
      simp only []
      split <;> split <;> rfl
    rw [if_neg]
    · constructor
      · intro h; cases h
      · rintro ⟨⟨n, h, _⟩, _⟩; exact absurd h (hu n)
    · rw [hl]
      intro h
      exact hp h.1

theorem parseUInt64_core (c : Byte) (t : Str) (base : Int) (h1 : -2 ^ 31 ≤ base) (h2 : base < 2 ^ 31)
    (hne : Strv.Spec.strip (c :: t) ≠ []) (hs : ((Strv.Spec.strip (c :: t)).dropWhile isSpaceC).head? ≠ some 0x2d)
    (hd : c ≠ 0x2d) (hd2 : (Strv.Spec.strip (c :: t)).head? ≠ some 0x2d) (n : Nat) :
    parseUInt64 (some (c :: t)) base = some n ↔
      Positive base ((Strv.Spec.strip (c :: t)).dropWhile isSpaceC) n ∧ n ≤ uint64Max := by
  have hpos : ∀ s : Str, s.head? ≠ some 0x2d → (Positive base s n ↔ Unsigned base (sign s).2 n ∧ (sign s).1 = false) := by
    intro s hs
    unfold Positive
    rcases sign_spec s with ⟨h1, h2⟩ | ⟨h1, h2 | ⟨h2, h3, h4⟩⟩
    · rw [h2] at hs; simp at hs
    · constructor
      · rintro (h | ⟨t, h, hu⟩)
        · have := (unsigned_head base s n h).2.1
          rw [h2] at this; simp at this
        · have h2 := h.symm.trans h2
          simp only [List.cons.injEq, true_and] at h2
          exact ⟨h2 ▸ hu, h1⟩
      · rintro ⟨h, _⟩; exact .inr ⟨_, h2, h⟩
    · rw [← h2]
      constructor
      · rintro (h | ⟨t, h, hu⟩)
        · exact ⟨h, h1⟩
        · rw [h] at h4; simp at h4
      · rintro ⟨h, _⟩; exact .inl h
  rw [hpos _ hs]
  unfold parseUInt64 strtoull
  simp only []
  rw [strstrip_eq _ (by simp), if_pos ⟨hd, hd2⟩]
  generalize Strv.Spec.strip (c :: t) = nptr at *
  have hneg : (sign (nptr.dropWhile isSpaceC)).1 = false := by
    rcases sign_spec (nptr.dropWhile isSpaceC) with ⟨_, h⟩ | ⟨h, _⟩
    · rw [h] at hs; simp at hs
    · exact h
  rcases parse_spec nptr base h1 h2 hne with ⟨m, hu, hun, hp⟩ | ⟨hu, hp⟩
  · rw [hp, hneg]
    have huq : (Unsigned base (sign (nptr.dropWhile isSpaceC)).2 n ∧ false = false) ↔ n = m := by
      constructor
      · rintro ⟨hm, _⟩; exact hun n hm
      · rintro rfl; exact ⟨hu, rfl⟩
    rw [huq]
    by_cases hn : m ≤ uint64Max
    · rw [if_pos hn]
      simp
      omega
    · rw [if_neg hn]
      simp
      omega
  · rw [if_neg]
    · constructor
      · intro h; cases h
      · rintro ⟨⟨h, _⟩, _⟩; exact absurd h (hu n)
    · intro h
      exact hp h.1

theorem strip_blank (s : Str) (h : ∀ c ∈ s, Strv.Spec.isSpace c = true) : Strv.Spec.strip s = [] := by
  unfold Strv.Spec.strip
  have : s.dropWhile Strv.Spec.isSpace = [] := by
    induction s with
    | nil => rfl
    | cons c t ih =>
      rw [List.dropWhile_cons, h c (by simp)]
      exact ih (fun c hc => h c (by simp [hc]))
  rw [this]
  rfl

theorem strip_nonblank (s : Str) (c : Byte) (hc : c ∈ s) (h : Strv.Spec.isSpace c = false) : c ∈ Strv.Spec.strip s := by
  obtain ⟨l, r, e, hl, hr⟩ := Strv.strip_mid s
  rw [e] at hc
  simp only [List.mem_append] at hc
  rcases hc with (hc | hc) | hc
  · have := hl c hc; rw [h] at this; cases this
  · exact hc
  · have := hr c hc; rw [h] at this; cases this

theorem strip_subset (s : Str) (c : Byte) (hc : c ∈ Strv.Spec.strip s) : c ∈ s := by
  obtain ⟨l, r, e, hl, hr⟩ := Strv.strip_mid s
  rw [e]
  simp [hc]

theorem strip_noVT (s : Str) (h : (11 : Byte) ∉ s) : (Strv.Spec.strip s).dropWhile isSpaceC = Strv.Spec.strip s := by
  have h1 := (Strv.strip_ends s).1
  have h2 : (11 : Byte) ∉ Strv.Spec.strip s := fun hc => h (strip_subset s 11 hc)
  generalize Strv.Spec.strip s = u at *
  cases u with
  | nil => rfl
  | cons c t =>
    have h3 := h1 c rfl
    have h4 : c ≠ 11 := by rintro rfl; exact h2 (by simp)
    have : isSpaceC c = false := by
      unfold Strv.Spec.isSpace at h3
      unfold isSpaceC
      simp only [decide_eq_false_iff_not, not_or] at h3
      simp
      grind
    rw [List.dropWhile_cons, this]
    rfl

theorem strip_minus (t : Str) : (Strv.Spec.strip (0x2d :: t)).head? = some 0x2d := by
  have e1 : Strv.Spec.isSpace (0x2d : Byte) = false := by decide
  unfold Strv.Spec.strip
  rw [List.dropWhile_cons, e1]
  simp only [Bool.false_eq_true, if_false, List.reverse_cons]
  have e2 : ∀ (l : List Byte), ((l ++ [(0x2d : Byte)]).dropWhile Strv.Spec.isSpace).reverse.head? = some 0x2d := by
    intro l
    induction l with
    | nil => decide
    | cons x l ih =>
      rw [List.cons_append, List.dropWhile_cons]
      split
      · exact ih
      · simp
  exact e2 _

theorem strip_head (s : Str) (x : Byte) (h : (Strv.Spec.strip s).head? = some x) : Strv.Spec.isSpace x = false := by
  unfold Strv.Spec.strip at h
  have hp : ((s.dropWhile Strv.Spec.isSpace).reverse.dropWhile Strv.Spec.isSpace).reverse <+: s.dropWhile Strv.Spec.isSpace := by
    rw [← List.reverse_suffix, List.reverse_reverse]
    exact List.dropWhile_suffix _
  obtain ⟨y, hy⟩ := hp
  have h2 : (s.dropWhile Strv.Spec.isSpace).head? = some x := by
    rw [← hy, List.head?_append, h]; rfl
  have := List.head?_dropWhile_not Strv.Spec.isSpace s
  rw [h2] at this
  simpa using this

end Verif.Parse
