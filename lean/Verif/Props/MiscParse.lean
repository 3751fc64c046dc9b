import Verif.Proof.MiscParse

/-!
# Parsing of numbers: C52, C53

`strip` removes white space from both ends, and the base is any `int`. A result of `none` is
`FALSE` and the output left alone.
-/

namespace Verif.Parse
open Verif.C
open Verif.Strv.Spec (strip isSpace)

/-- C52 isn't true if there's a vertical tab in front of the number: it isn't white space for
the functions removing white space, but is for those which parse the number. The former check that
there's no minus in front of an unsigned number. So minus one (here `"\v-1"`) is an unsigned
number. And a vertical tab behind a number makes it invalid, although there may be one in front
of it. -/
theorem C52_refuted :
    parseUInt64 (some [11, 0x2d, 0x31]) 10 = some (2 ^ 64 - 1) ∧
    (∀ n, ¬ Spec.Positive 10 (strip [11, 0x2d, 0x31]) n) ∧ (∀ n, ¬ Spec.Positive 10 [0x2d, 0x31] n) ∧
    parseInt64 (some [11, 0x35]) 10 = some 5 ∧ parseInt64 (some [0x35, 11]) 10 = none := by
  refine ⟨by decide +kernel, ?_, ?_, by decide +kernel, by decide +kernel⟩
  · have e : strip [11, 0x2d, 0x31] = [11, 0x2d, 0x31] := by decide +kernel
    rw [e]
    rintro n (⟨b, ds, hr, hne, hd, _⟩ | ⟨t, h, _⟩)
    · have hn : ∀ b, ¬ Spec.IsDigit b 11 := by
        rintro b ⟨d, h, _⟩
        have : Spec.digitVal 11 = none := by decide
        rw [this] at h; cases h
      have := @radix_cases 10 _ b ds hr
      rcases this with ⟨_, _, _, rfl⟩ | ⟨x, h, _⟩ | ⟨t, h, _⟩ | ⟨h, _⟩
      · exact hn b (hd 11 (by simp))
      all_goals omega
    · simp at h
  · rintro n (h | ⟨t, h, _⟩)
    · exact (unsigned_head _ _ _ h).1 rfl
    · simp at h

/-- Even a large negative number is one. -/
example : parseUInt (some [11, 0x2d, 0x31, 0x38, 0x34, 0x34, 0x36, 0x37, 0x34, 0x34, 0x30, 0x37, 0x33, 0x37, 0x30, 0x39, 0x35, 0x35,
    0x31, 0x36, 0x31, 0x36]) 10 = some 1 := by decide +kernel

/-- C52 for signed numbers, except that there must be no vertical tabs and the string must not be
blank (see C53). -/
theorem C52_int64_partial (s : List Byte) (base : Int) (hb : intMin ≤ base ∧ base ≤ intMax) (hv : (11 : Byte) ∉ s)
    (hs : ∃ c ∈ s, isSpace c = false) (v : Int) :
    (parseInt64 (some s) base = some v ↔ Spec.Number base (strip s) v ∧ -2 ^ 63 ≤ v ∧ v < 2 ^ 63) ∧
    (parseInt (some s) base = some v ↔ Spec.Number base (strip s) v ∧ -2 ^ 31 ≤ v ∧ v < 2 ^ 31) := by
  obtain ⟨c, hc, hn⟩ := hs
  have hm := strip_nonblank s c hc hn
  have hv' := strip_noVT s hv
  have hne : strip s ≠ [] := by intro e; rw [e] at hm; simp at hm
  obtain ⟨a, t, rfl⟩ : ∃ a t, s = a :: t := by
    cases s with
    | nil => simp at hc
    | cons a t => exact ⟨a, t, rfl⟩
  simp only [intMin, intMax] at hb
  have h := fun v => parseInt64_core a t base (by omega) (by omega) hne v
  rw [hv'] at h
  have e1 : int64Min = -2 ^ 63 := by decide
  have e2 : ∀ v, v ≤ int64Max ↔ v < 2 ^ 63 := by intro v; unfold int64Max; omega
  refine ⟨by rw [h v, e1, e2], ?_⟩
  unfold parseInt
  cases e : parseInt64 (some (a :: t)) base with
  | none =>
    simp only [reduceCtorEq, false_iff]
    rintro ⟨h1, h2, h3⟩
    have := (h v).mpr ⟨h1, by unfold int64Min; omega, by unfold int64Max; omega⟩
    rw [e] at this
    cases this
  | some w =>
    have hw := (h w).mp e
    have hu : Spec.Number base (strip (a :: t)) v ∧ -2 ^ 31 ≤ v ∧ v < 2 ^ 31 → v = w := by
      rintro ⟨h1, h2, h3⟩
      have := (h v).mpr ⟨h1, by unfold int64Min; omega, by unfold int64Max; omega⟩
      rw [e] at this
      cases this
      rfl
    simp only []
    by_cases hr : w ≥ intMin ∧ w ≤ intMax
    · rw [if_pos hr]
      simp only [intMin, intMax] at hr
      constructor
      · intro hx; cases hx; exact ⟨hw.1, by omega, by omega⟩
      · intro hx; rw [hu hx]
    · rw [if_neg hr]
      simp only [reduceCtorEq, false_iff]
      intro hx
      have := hu hx
      subst this
      simp only [intMin, intMax] at hr
      omega

/-- C52 for unsigned numbers, with the same exceptions. -/
theorem C52_uint64_partial (s : List Byte) (base : Int) (hb : intMin ≤ base ∧ base ≤ intMax) (hv : (11 : Byte) ∉ s)
    (hs : ∃ c ∈ s, isSpace c = false) (n : Nat) :
    (parseUInt64 (some s) base = some n ↔ Spec.Positive base (strip s) n ∧ n < 2 ^ 64) ∧
    (parseUInt (some s) base = some n ↔ Spec.Positive base (strip s) n ∧ n < 2 ^ 32) := by
  obtain ⟨c, hc, hn⟩ := hs
  have hm := strip_nonblank s c hc hn
  have hv' := strip_noVT s hv
  have hne : strip s ≠ [] := by intro e; rw [e] at hm; simp at hm
  obtain ⟨a, t, rfl⟩ : ∃ a t, s = a :: t := by
    cases s with
    | nil => simp at hc
    | cons a t => exact ⟨a, t, rfl⟩
  simp only [intMin, intMax] at hb
  have hp : ∀ s : List Byte, s.head? = some 0x2d → ∀ n, ¬ Spec.Positive base s n := by
    rintro s hs n (h | ⟨t, rfl, _⟩)
    · exact (unsigned_head _ _ _ h).1 hs
    · simp at hs
  have key : ∀ n, parseUInt64 (some (a :: t)) base = some n ↔ Spec.Positive base (strip (a :: t)) n ∧ n < 2 ^ 64 := by
    intro n
    by_cases hd2 : (strip (a :: t)).head? = some 0x2d
    · constructor
      · intro h
        unfold parseUInt64 at h
        simp only [] at h
        rw [if_neg (by rw [strstrip_eq _ (by simp)]; exact fun x => x.2 hd2)] at h
        cases h
      · intro h; exact absurd h.1 (hp _ hd2 n)
    · by_cases hd : a = 0x2d
      · exfalso
        subst hd
        apply hd2
        have e1 : Strv.Spec.isSpace (0x2d : Byte) = false := by decide
        unfold Strv.Spec.strip
        rw [List.dropWhile_cons, e1]
        simp only [Bool.false_eq_true, if_false, List.reverse_cons]
        have e2 : ∀ (l : List Byte), ((l ++ [(0x2d : Byte)]).dropWhile Strv.Spec.isSpace).reverse.head? = some 0x2d := by
          intro l
          induction l with
          | nil => decide
          | cons x l ih =>
            rw [List.cons_append, List.dropWhile_cons]
            split
            · exact ih
            · simp
        exact e2 _
      · have h := parseUInt64_core a t base (by omega) (by omega) hne (by rw [hv']; exact hd2) hd hd2 n
        rw [hv'] at h
        rw [h]
        unfold uint64Max
        constructor <;> (rintro ⟨h1, h2⟩; exact ⟨h1, by omega⟩)
  refine ⟨key n, ?_⟩
  unfold parseUInt
  cases e : parseUInt64 (some (a :: t)) base with
  | none =>
    simp only [reduceCtorEq, false_iff]
    rintro ⟨h1, h2⟩
    have := (key n).mpr ⟨h1, by omega⟩
    rw [e] at this
    cases this
  | some m =>
    have hw := (key m).mp e
    have hu : Spec.Positive base (strip (a :: t)) n ∧ n < 2 ^ 32 → n = m := by
      rintro ⟨h1, h2⟩
      have := (key n).mpr ⟨h1, by omega⟩
      rw [e] at this
      cases this
      rfl
    simp only []
    by_cases hr : m ≤ uintMax
    · rw [if_pos hr]
      simp only [uintMax] at hr
      constructor
      · intro hx; cases hx; exact ⟨hw.1, by omega⟩
      · intro hx; rw [hu hx]
    · rw [if_neg hr]
      simp only [reduceCtorEq, false_iff]
      intro hx
      have := hu hx
      subst this
      simp only [uintMax] at hr
      omega

/-- `NULL` and the empty string aren't numbers. -/
theorem C52_empty (base : Int) : parseInt64 none base = none ∧ parseInt none base = none ∧ parseUInt64 none base = none ∧
    parseUInt none base = none ∧ parseInt64 (some []) base = none ∧ parseInt (some []) base = none ∧
    parseUInt64 (some []) base = none ∧ parseUInt (some []) base = none :=
  ⟨rfl, rfl, rfl, rfl, rfl, rfl, rfl, rfl⟩

/-- `" -0x1f\n"` -/
example : parseInt64 (some [32, 0x2d, 0x30, 0x78, 0x31, 0x66, 10]) 0 = some (-31) := by decide +kernel
example : Spec.Number 0 (strip [32, 0x2d, 0x30, 0x78, 0x31, 0x66, 10]) (-31) :=
  ((C52_int64_partial [32, 0x2d, 0x30, 0x78, 0x31, 0x66, 10] 0 (by decide) (by decide) ⟨0x2d, by decide, by decide⟩ (-31)).1.mp
    (by decide +kernel)).1
/-- `"9223372036854775808"`: too much for the signed type. -/
example : parseInt64 (some [0x39, 0x32, 0x32, 0x33, 0x33, 0x37, 0x32, 0x30, 0x33, 0x36, 0x38, 0x35, 0x34, 0x37, 0x37, 0x35, 0x38, 0x30, 0x38]) 10
    = none := by decide +kernel
example : parseUInt64 (some [0x39, 0x32, 0x32, 0x33, 0x33, 0x37, 0x32, 0x30, 0x33, 0x36, 0x38, 0x35, 0x34, 0x37, 0x37, 0x35, 0x38, 0x30, 0x38]) 10
    = some (2 ^ 63) := by decide +kernel

private theorem trim_eq (s : List Byte) : Spec.trim s = (strip s).dropWhile isSpaceC := by
  unfold Spec.trim
  congr 1
  funext c
  unfold Strv.Spec.isSpace isSpaceC
  grind

/-- C52, other bases: nothing is a number. -/
theorem C52_base (str : Option (List Byte)) (base : Int) (hb : intMin ≤ base ∧ base ≤ intMax) (h : ¬ Spec.ValidBase base) :
    parseInt64 str base = none ∧ parseInt str base = none ∧ parseUInt64 str base = none ∧ parseUInt str base = none := by
  simp only [intMin, intMax] at hb
  have hbad : toUInt32 base = 1 ∨ toUInt32 base > 36 := by
    rcases base_cast base (by omega) (by omega) with ⟨h', _⟩ | ⟨_, e⟩
    · exact absurd h' h
    · exact e
  have e1 : parseInt64 str base = none := by
    unfold parseInt64
    split
    · simp only [strtoll, parseLongLong_bad _ _ hbad]
      exact if_neg fun x => x.2.2 ⟨rfl, rfl⟩
    · rfl
  have e2 : parseUInt64 str base = none := by
    unfold parseUInt64
    split
    · split
      · simp only [strtoull, parseLongLong_bad _ _ hbad]
        exact if_neg fun x => x.2.2 ⟨by simp, trivial⟩
      · rfl
    · rfl
  exact ⟨e1, by rw [parseInt, e1], e2, by rw [parseUInt, e2]⟩

example : parseInt64 (some [32]) 37 = none ∧ parseUInt64 (some [32]) 1 = none ∧ parseUInt (some [0x31]) (-10) = none := by decide +kernel

/-- C52, what exactly is accepted as a signed number, vertical tabs and blank strings included. -/
theorem C52_int64_exactly (s : List Byte) (base : Int) (hb : intMin ≤ base ∧ base ≤ intMax) (v : Int) :
    parseInt64 (some s) base = some v ↔
      (Spec.Number base (Spec.trim s) v ∧ -2 ^ 63 ≤ v ∧ v < 2 ^ 63) ∨ (s ≠ [] ∧ strip s = [] ∧ Spec.ValidBase base ∧ v = 0) := by
  simp only [intMin, intMax] at hb
  have hn0 : ∀ v, ¬ Spec.Number base [] v := by
    rintro v ⟨t, n, hu, h | h | h⟩
    · rw [← h.1] at hu
      obtain ⟨b, ds, hr, hne, _⟩ := hu
      cases hr <;> exact hne rfl
    · cases h.1
    · cases h.1
  cases s with
  | nil =>
    constructor
    · intro h; cases h
    · rintro (h | h)
      · exact absurd h.1 (hn0 v)
      · exact absurd rfl h.1
  | cons a t =>
    by_cases hne : strip (a :: t) = []
    · have ht : Spec.trim (a :: t) = [] := by unfold Spec.trim; rw [hne]; rfl
      rw [ht]
      have e0 : strstrip (a :: t) = [] := by rw [strstrip_eq _ (by simp), hne]
      by_cases hv : Spec.ValidBase base
      · have hbn : ¬ (toUInt32 base = 1 ∨ toUInt32 base > 36) := by
          rcases base_cast base (by omega) (by omega) with ⟨_, e⟩ | ⟨hn, _⟩
          · unfold Spec.ValidBase at hv; omega
          · exact absurd hv hn
        have e1 : parseLongLong [] (toUInt32 base) = (0, false, .zero, []) := by
          rw [parseLongLong, if_neg hbn]
          rfl
        have e2 : parseInt64 (some (a :: t)) base = some 0 := by
          simp only [parseInt64, e0, strtoll, e1]
          rfl
        rw [e2]
        constructor
        · intro h; cases h; exact .inr ⟨by simp, hne, hv, rfl⟩
        · rintro (h | h)
          · exact absurd h.1 (hn0 v)
          · rw [h.2.2.2]
      · rw [(C52_base (some (a :: t)) base (by simp only [intMin, intMax]; omega) hv).1]
        constructor
        · intro h; cases h
        · rintro (h | h)
          · exact absurd h.1 (hn0 v)
          · exact absurd h.2.2.1 hv
    · rw [parseInt64_core a t base (by omega) (by omega) hne v, trim_eq]
      have e1 : int64Min = -2 ^ 63 := by decide
      have e2 : ∀ v, v ≤ int64Max ↔ v < 2 ^ 63 := by intro v; unfold int64Max; omega
      rw [e1, e2]
      constructor
      · exact .inl
      · rintro (h | h)
        · exact h
        · exact absurd h.2.1 hne

/-- C52, what exactly is accepted as an unsigned number. A negative number behind a vertical tab is taken modulo 2^64, or
as minus 2^64-1 if it's less than that. -/
theorem C52_uint64_exactly (s : List Byte) (base : Int) (hb : intMin ≤ base ∧ base ≤ intMax) (n : Nat) :
    parseUInt64 (some s) base = some n ↔
      (Spec.Positive base (Spec.trim s) n ∧ n < 2 ^ 64) ∨
      (∃ t m, (strip s).head? = some 11 ∧ Spec.trim s = 0x2d :: t ∧ Spec.Unsigned base t m ∧ n = (2 ^ 64 - min m (2 ^ 64 - 1)) % 2 ^ 64) ∨
      (s ≠ [] ∧ strip s = [] ∧ Spec.ValidBase base ∧ n = 0) := by
  simp only [intMin, intMax] at hb
  have hu0 : ∀ n, ¬ Spec.Unsigned base [] n := by
    rintro n ⟨b, ds, hr, hne, _⟩
    cases hr <;> exact hne rfl
  have hn0 : ∀ n, ¬ Spec.Positive base [] n := by
    rintro n (h | ⟨t, h, _⟩)
    · exact hu0 n h
    · cases h
  have hp : ∀ s : List Byte, s.head? = some 0x2d → ∀ n, ¬ Spec.Positive base s n := by
    rintro s hs n (h | ⟨t, rfl, _⟩)
    · exact (unsigned_head _ _ _ h).1 hs
    · simp at hs
  cases s with
  | nil =>
    constructor
    · intro h; cases h
    · rintro (h | ⟨t, m, h, _⟩ | h)
      · exact absurd h.1 (hn0 n)
      · cases h
      · exact absurd rfl h.1
  | cons a t =>
    have ha : (strip (a :: t)).head? ≠ some 0x2d → a ≠ 0x2d := by
      rintro h rfl
      exact h (strip_minus t)
    by_cases hne : strip (a :: t) = []
    · have ht : Spec.trim (a :: t) = [] := by unfold Spec.trim; rw [hne]; rfl
      rw [ht]
      have e0 : strstrip (a :: t) = [] := by rw [strstrip_eq _ (by simp), hne]
      have ha := ha (by rw [hne]; simp)
      by_cases hv : Spec.ValidBase base
      · have hbn : ¬ (toUInt32 base = 1 ∨ toUInt32 base > 36) := by
          rcases base_cast base (by omega) (by omega) with ⟨_, e⟩ | ⟨hn, _⟩
          · unfold Spec.ValidBase at hv; omega
          · exact absurd hv hn
        have e1 : parseLongLong [] (toUInt32 base) = (0, false, .zero, []) := by
          rw [parseLongLong, if_neg hbn]
          rfl
        have e2 : parseUInt64 (some (a :: t)) base = some 0 := by
          simp only [parseUInt64, e0, strtoull, e1]
          rw [if_pos ⟨ha, by simp⟩]
          rfl
        rw [e2]
        constructor
        · intro h; cases h; exact .inr (.inr ⟨by simp, hne, hv, rfl⟩)
        · rintro (h | ⟨t, m, _, h, _⟩ | h)
          · exact absurd h.1 (hn0 n)
          · cases h
          · rw [h.2.2.2]
      · rw [(C52_base (some (a :: t)) base (by simp only [intMin, intMax]; omega) hv).2.2.1]
        constructor
        · intro h; cases h
        · rintro (h | ⟨t, m, _, h, _⟩ | h)
          · exact absurd h.1 (hn0 n)
          · cases h
          · exact absurd h.2.2.1 hv
    · by_cases hd2 : (strip (a :: t)).head? = some 0x2d
      · have e : parseUInt64 (some (a :: t)) base = none := by
          unfold parseUInt64
          simp only []
          rw [if_neg (by rw [strstrip_eq _ (by simp)]; exact fun x => x.2 hd2)]
        have ht : Spec.trim (a :: t) = strip (a :: t) := by
          unfold Spec.trim
          cases hx : strip (a :: t) with
          | nil => rfl
          | cons x y =>
            rw [hx] at hd2
            cases hd2
            rfl
        rw [e, ht]
        constructor
        · intro h; cases h
        · rintro (h | ⟨t, m, h, _⟩ | h)
          · exact absurd h.1 (hp _ hd2 n)
          · rw [hd2] at h; cases h
          · exact absurd h.2.1 hne
      · have hd := ha hd2
        by_cases hm : (Spec.trim (a :: t)).head? = some 0x2d
        · have h11 : (strip (a :: t)).head? = some 11 := by
            cases hx : strip (a :: t) with
            | nil => exact absurd hx hne
            | cons x y =>
              have hsp := strip_head (a :: t) x (by rw [hx]; rfl)
              rw [hx] at hd2
              unfold Spec.trim at hm
              rw [hx, List.dropWhile_cons] at hm
              split at hm
              · rename_i h
                rw [hsp] at h
                simp only [Bool.false_or, beq_iff_eq] at h
                rw [h]; rfl
              · exact absurd hm hd2
          obtain ⟨u, hu⟩ : ∃ u, Spec.trim (a :: t) = 0x2d :: u := by
            cases hx : Spec.trim (a :: t) with
            | nil => rw [hx] at hm; cases hm
            | cons x y => rw [hx] at hm; cases hm; exact ⟨y, rfl⟩
          have hs : sign ((strip (a :: t)).dropWhile isSpaceC) = (true, u) := by
            rw [← trim_eq, hu]; rfl
          have hlhs : parseUInt64 (some (a :: t)) base = some n ↔ ∃ m, Spec.Unsigned base u m ∧ n = (2 ^ 64 - min m (2 ^ 64 - 1)) % 2 ^ 64 := by
            unfold parseUInt64 strtoull
            simp only []
            rw [strstrip_eq _ (by simp), if_pos ⟨hd, hd2⟩]
            have hps := parse_spec (strip (a :: t)) base (by omega) (by omega) hne
            rw [hs] at hps
            rcases hps with ⟨m, h1, h2, h3⟩ | ⟨h1, h2⟩
            · have hr : (∃ m, Spec.Unsigned base u m ∧ n = (2 ^ 64 - min m (2 ^ 64 - 1)) % 2 ^ 64) ↔ n = (2 ^ 64 - min m (2 ^ 64 - 1)) % 2 ^ 64 := by
                constructor
                · rintro ⟨k, hk, e⟩
                  rw [h2 k hk] at e
                  exact e
                · exact fun e => ⟨m, h1, e⟩
              rw [hr, h3]
              by_cases hmx : m ≤ uint64Max
              · rw [if_pos hmx]
                have : min m (2 ^ 64 - 1) = m := by unfold uint64Max at hmx; omega
                rw [this]
                simp only [if_true, Option.some.injEq, reduceCtorEq, and_false, not_false_eq_true, and_true]
                exact eq_comm
              · rw [if_neg hmx]
                have : min m (2 ^ 64 - 1) = 2 ^ 64 - 1 := by unfold uint64Max at hmx; omega
                rw [this]
                have hx : ¬ ((2 ^ 64 - uint64Max) % 2 ^ 64 = uint64Max) := by decide
                have hy : (2 ^ 64 - (2 ^ 64 - 1)) % 2 ^ 64 = (2 ^ 64 - uint64Max) % 2 ^ 64 := by decide
                rw [hy]
                simp only [if_true, hx, Option.some.injEq, reduceCtorEq, false_and, and_false, not_false_eq_true, and_true]
                exact eq_comm
            · rw [if_neg (fun x => h2 x.1)]
              constructor
              · intro h; cases h
              · rintro ⟨m, h, _⟩; exact absurd h (h1 m)
          rw [hlhs]
          constructor
          · rintro ⟨m, h1, h2⟩; exact .inr (.inl ⟨u, m, h11, hu, h1, h2⟩)
          · rintro (h | ⟨u', m, _, h1, h2⟩ | h)
            · exact absurd h.1 (hp _ hm n)
            · rw [hu] at h1
              cases h1
              exact ⟨m, h2⟩
            · exact absurd h.2.1 hne
        · have h := parseUInt64_core a t base (by omega) (by omega) hne (by rw [← trim_eq]; exact hm) hd hd2 n
          rw [h, ← trim_eq]
          have e2 : n ≤ uint64Max ↔ n < 2 ^ 64 := by unfold uint64Max; omega
          rw [e2]
          constructor
          · exact .inl
          · rintro (h | ⟨u, m, _, h, _⟩ | h)
            · exact h
            · rw [h] at hm; exact absurd rfl hm
            · exact absurd h.2.1 hne

/-- `"\v -1"` -/
example : parseUInt64 (some [32, 11, 32, 0x2d, 0x31]) 10 = some (2 ^ 64 - 1) ∧ Spec.trim [32, 11, 32, 0x2d, 0x31] = [0x2d, 0x31] ∧
    (strip [32, 11, 32, 0x2d, 0x31]).head? = some 11 := by decide +kernel

/-- C53 is false: every blank string is zero in every valid base, for all the four functions. -/
theorem C53_refuted (s : List Byte) (hs : s ≠ []) (hb : ∀ c ∈ s, isSpace c = true) (base : Int)
    (h : base = 0 ∨ (2 ≤ base ∧ base ≤ 36)) :
    parseInt64 (some s) base = some 0 ∧ parseInt (some s) base = some 0 ∧
    parseUInt64 (some s) base = some 0 ∧ parseUInt (some s) base = some 0 := by
  obtain ⟨a, t, rfl⟩ : ∃ a t, s = a :: t := by
    cases s with
    | nil => exact absurd rfl hs
    | cons a t => exact ⟨a, t, rfl⟩
  have e0 : strstrip (a :: t) = [] := by rw [strstrip_eq _ (by simp), strip_blank _ hb]
  have ha : a ≠ 0x2d := by rintro rfl; have := hb 0x2d (by simp); revert this; decide
  have hbn : ¬ (toUInt32 base = 1 ∨ toUInt32 base > 36) := by
    rcases base_cast base (by omega) (by omega) with ⟨_, e⟩ | ⟨hn, _⟩
    · omega
    · exact absurd h hn
  have e1 : parseLongLong [] (toUInt32 base) = (0, false, .zero, []) := by
    rw [parseLongLong, if_neg hbn]
    rfl
  have e2 : parseInt64 (some (a :: t)) base = some 0 := by
    simp only [parseInt64, e0, strtoll, e1]
    rfl
  have e3 : parseUInt64 (some (a :: t)) base = some 0 := by
    simp only [parseUInt64, e0, strtoull, e1]
    rw [if_pos ⟨ha, by simp⟩]
    rfl
  refine ⟨e2, by rw [parseInt, e2]; rfl, e3, by rw [parseUInt, e3]; rfl⟩

example : parseInt (some [32]) 10 = some 0 := by decide +kernel

/-- C53 for strings with something other than white space: if there are no digits there (those
in base 36 being 0-9 and all letters), none of the functions succeeds. -/
theorem C53_partial (s : List Byte) (base : Int) (hb : intMin ≤ base ∧ base ≤ intMax)
    (hs : ∃ c ∈ s, isSpace c = false) (hd : ∀ c ∈ s, Spec.digitVal c = none) :
    parseInt64 (some s) base = none ∧ parseInt (some s) base = none ∧
    parseUInt64 (some s) base = none ∧ parseUInt (some s) base = none := by
  obtain ⟨c, hc, hn⟩ := hs
  have hm := strip_nonblank s c hc hn
  have hne : strip s ≠ [] := by intro e; rw [e] at hm; simp at hm
  obtain ⟨a, t, rfl⟩ : ∃ a t, s = a :: t := by
    cases s with
    | nil => simp at hc
    | cons a t => exact ⟨a, t, rfl⟩
  simp only [intMin, intMax] at hb
  have hsub : ∀ x ∈ (sign ((strip (a :: t)).dropWhile isSpaceC)).2, Spec.digitVal x = none := by
    intro x hx
    apply hd
    apply strip_subset
    apply (List.dropWhile_suffix isSpaceC).subset
    rcases sign_spec ((strip (a :: t)).dropWhile isSpaceC) with ⟨_, h⟩ | ⟨_, h | ⟨h, _⟩⟩
    all_goals
      rw [h]
      simp [hx]
  have hu : ∀ n, ¬ Spec.Unsigned base (sign ((strip (a :: t)).dropWhile isSpaceC)).2 n := by
    rintro n ⟨b, ds, hr, hne, hall, _⟩
    have hz : Spec.digitVal 0x30 = some 0 := by decide
    have key : ∀ l : List Byte, l ≠ [] → (∀ c ∈ l, Spec.IsDigit b c) → (∀ x ∈ l, Spec.digitVal x = none) → False := by
      intro l hl h1 h2
      cases l with
      | nil => exact hl rfl
      | cons x l =>
        obtain ⟨d, h3, _⟩ := h1 x (by simp)
        rw [h2 x (by simp)] at h3
        cases h3
    generalize (sign ((strip (a :: t)).dropWhile isSpaceC)).2 = u at *
    cases hr with
    | given => exact key _ hne hall hsub
    | hex => have := hsub 0x30 (by simp); rw [hz] at this; cases this
    | octal => exact key _ hne hall hsub
    | decimal => exact key _ hne hall hsub
  have h64 : parseInt64 (some (a :: t)) base = none := by
    cases e : parseInt64 (some (a :: t)) base with
    | none => rfl
    | some v =>
      have := (parseInt64_core a t base (by omega) (by omega) hne v).mp e
      obtain ⟨n, hn, _⟩ := (number_iff _ _ _).mp this.1
      exact absurd hn (hu n)
  have hu64 : parseUInt64 (some (a :: t)) base = none := by
    unfold parseUInt64
    simp only []
    split
    · unfold strtoull
      simp only []
      rw [strstrip_eq _ (by simp)]
      rcases parse_spec (strip (a :: t)) base (by omega) (by omega) hne with ⟨n, h, _⟩ | ⟨_, h⟩
      · exact absurd h (hu n)
      · rw [if_neg (fun x => h x.1)]
    · rfl
  refine ⟨h64, by rw [parseInt, h64], hu64, by rw [parseUInt, hu64]⟩

example : parseInt (some [0x2d, 0x2e]) 10 = none := by decide +kernel

/-- C53, exactly: a string without digits is a number if there is nothing but spaces in it, at least one, and the base is valid. -/
theorem C53_exactly (s : List Byte) (base : Int) (h : base = 0 ∨ (2 ≤ base ∧ base ≤ 36)) (hd : ∀ c ∈ s, Spec.digitVal c = none) :
    let r := if s ≠ [] ∧ ∀ c ∈ s, isSpace c = true then some 0 else none
    parseInt64 (some s) base = r ∧ parseInt (some s) base = r ∧ parseUInt64 (some s) base = r.map Int.toNat ∧
      parseUInt (some s) base = r.map Int.toNat := by
  by_cases h0 : s = []
  · subst h0
    refine ⟨rfl, rfl, rfl, rfl⟩
  · by_cases hb : ∀ c ∈ s, isSpace c = true
    · simp only [if_pos (show s ≠ [] ∧ ∀ c ∈ s, isSpace c = true from ⟨h0, hb⟩)]
      exact C53_refuted s h0 hb base h
    · simp only [if_neg (show ¬ (s ≠ [] ∧ ∀ c ∈ s, isSpace c = true) from fun e => hb e.2)]
      exact C53_partial s base (by unfold intMin intMax; omega) (by simpa using hb) hd

example : parseInt (some [0x20, 0x0a]) 10 = some 0 ∧ parseInt (some [0x20, 0x2d]) 10 = none ∧ parseInt (some []) 10 = none := by decide +kernel

end Verif.Parse
