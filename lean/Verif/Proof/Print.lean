import Verif.Spec.Print
import Verif.Proof.MiscParse

/-!
# Parsing of printed numbers, proof
-/

namespace Verif.Parse
open Verif.C
open Verif.Parse.Spec

theorem numeral_val (upper : Bool) (d : Nat) (h : d < 36) : digitVal (numeral upper d) = some d := by
  have : ∀ (u : Bool) (d : Fin 36), digitVal (numeral u d.val) = some d.val := by decide +kernel
  exact this upper ⟨d, h⟩

theorem numeral_plain (upper : Bool) (d : Nat) (h : d < 36) : Strv.Spec.isSpace (numeral upper d) = false ∧ numeral upper d ≠ 11 ∧
    (numeral upper d = 0x30 → d = 0) := by
  have : ∀ (u : Bool) (d : Fin 36), Strv.Spec.isSpace (numeral u d.val) = false ∧ numeral u d.val ≠ 11 ∧
    (numeral u d.val = 0x30 → d.val = 0) := by decide +kernel
  exact this upper ⟨d, h⟩

/-- The digits are digits, they have the value, and there's no zero in front of them. -/
theorem printed_ok (b : Nat) (h2 : 2 ≤ b) (h36 : b ≤ 36) (upper : Bool) : ∀ (k n : Nat), n ≤ k →
    printed b upper n ≠ [] ∧ (∀ c ∈ printed b upper n, ∃ d, d < b ∧ c = numeral upper d) ∧ value b (printed b upper n) = n ∧
    ((printed b upper n).head? = some 0x30 → n = 0) := by
  intro k
  induction k with
  | zero =>
    intro n hn
    have : n = 0 := by omega
    subst this
    rw [printed, dif_pos (.inl (by omega))]
    refine ⟨by simp, by simpa using ⟨0, by omega, rfl⟩, ?_, fun _ => rfl⟩
    simp only [value, List.foldl_cons, List.foldl_nil, numeral_val upper 0 (by omega)]
    simp
  | succ k ih =>
    intro n hn
    by_cases h : n < b
    · rw [printed, dif_pos (.inl h)]
      refine ⟨by simp, by simpa using ⟨n, h, rfl⟩, ?_, ?_⟩
      · simp only [value, List.foldl_cons, List.foldl_nil, numeral_val upper n (by omega)]
        simp
      · intro e
        exact (numeral_plain upper n (by omega)).2.2 (by simpa using e)
    · have hd : n / b < n := Nat.div_lt_self (by omega) (by omega)
      have hm : n % b < b := Nat.mod_lt _ (by omega)
      obtain ⟨i1, i2, i3, i4⟩ := ih (n / b) (by omega)
      rw [printed, dif_neg (by omega)]
      refine ⟨by simp, ?_, ?_, ?_⟩
      · intro c hc
        rcases List.mem_append.mp hc with hc | hc
        · exact i2 c hc
        · exact ⟨n % b, hm, by simpa using hc⟩
      · unfold value at i3 ⊢
        rw [List.foldl_append, i3]
        simp only [List.foldl_cons, List.foldl_nil, numeral_val upper (n % b) (by omega), Option.getD_some]
        exact Nat.div_add_mod' n b
      · intro e
        have : (printed b upper (n / b)).head? = some 0x30 := by
          cases hp : printed b upper (n / b) with
          | nil => exact absurd hp i1
          | cons c t => rw [hp] at e; simpa using e
        have h0 := i4 this
        have := (Nat.div_eq_zero_iff).mp h0
        omega

theorem printed_digits (b : Nat) (h2 : 2 ≤ b) (h36 : b ≤ 36) (upper : Bool) (n : Nat) : ∀ c ∈ printed b upper n, IsDigit b c := by
  intro c hc
  obtain ⟨d, hd, rfl⟩ := (printed_ok b h2 h36 upper n n (Nat.le_refl _)).2.1 c hc
  exact ⟨d, numeral_val upper d (by omega), hd⟩

theorem write_unsigned (s : Style) (base : Int) (h : s.ReadBy base) (n : Nat) : Unsigned base (s.write n) n := by
  have P := fun (b : Nat) (h2 : 2 ≤ b) (h36 : b ≤ 36) upper => printed_ok b h2 h36 upper n n (Nat.le_refl _)
  cases s with
  | digits b upper =>
    obtain ⟨rfl, h2, h36⟩ := h
    exact ⟨b, _, .given b _ h2 h36, (P b h2 h36 upper).1, printed_digits b h2 h36 upper n, (P b h2 h36 upper).2.2.1.symm⟩
  | decimal =>
    have p := P 10 (by omega) (by omega) false
    have q := printed_digits 10 (by omega) (by omega) false n
    rcases h with rfl | rfl
    · by_cases h0 : n = 0
      · subst h0
        have e : Style.write .decimal 0 = [0x30] := by
          show printed 10 false 0 = _
          rw [printed, dif_pos (.inl (by omega))]; rfl
        rw [e]
        exact ⟨8, _, .octal [], by simp, by simpa using ⟨0, by decide, by omega⟩, by decide⟩
      · exact ⟨10, _, .decimal _ (fun e => h0 (p.2.2.2 e)), p.1, q, p.2.2.1.symm⟩
    · exact ⟨10, _, .given 10 _ (by omega) (by omega), p.1, q, p.2.2.1.symm⟩
  | hexadecimal x upper =>
    have p := P 16 (by omega) (by omega) upper
    refine ⟨16, _, .hex base _ _ h ?_, p.1, printed_digits 16 (by omega) (by omega) upper n, p.2.2.1.symm⟩
    cases x
    · exact .inr rfl
    · exact .inl rfl
  | octal =>
    have p := P 8 (by omega) (by omega) false
    have q := printed_digits 8 (by omega) (by omega) false n
    have hv : value 8 (0x30 :: printed 8 false n) = n := by
      have e : (digitVal 0x30).getD 0 = 0 := by decide
      have p3 := p.2.2.1
      unfold value at p3 ⊢
      rw [List.foldl_cons, e]
      exact p3
    have hd : ∀ c ∈ (0x30 :: printed 8 false n : Str), IsDigit 8 c := by
      intro c hc
      rcases List.mem_cons.mp hc with rfl | hc
      · exact ⟨0, by decide, by omega⟩
      · exact q c hc
    rcases h with rfl | rfl
    · exact ⟨8, _, .octal _, by simp [Style.write], hd, hv.symm⟩
    · exact ⟨8, _, .given 8 _ (by omega) (by omega), by simp [Style.write], hd, hv.symm⟩

theorem readBy_base (s : Style) (base : Int) (h : s.ReadBy base) : ∃ b : Nat, base = b ∧ (b = 0 ∨ (2 ≤ b ∧ b ≤ 36)) := by
  cases s with
  | digits b upper => obtain ⟨rfl, h2, h36⟩ := h; exact ⟨b, rfl, .inr ⟨h2, h36⟩⟩
  | decimal => rcases h with rfl | rfl; (exact ⟨0, rfl, .inl rfl⟩); (exact ⟨10, rfl, .inr (by omega)⟩)
  | hexadecimal x upper => rcases h with rfl | rfl; (exact ⟨0, rfl, .inl rfl⟩); (exact ⟨16, rfl, .inr (by omega)⟩)
  | octal => rcases h with rfl | rfl; (exact ⟨0, rfl, .inl rfl⟩); (exact ⟨8, rfl, .inr (by omega)⟩)

theorem unsigned_unique (b : Nat) (hb : b = 0 ∨ (2 ≤ b ∧ b ≤ 36)) (s : Str) (n m : Nat) (h1 : Unsigned b s n) (h2 : Unsigned b s m) : n = m := by
  obtain ⟨_, _, u, _⟩ := radix_spec b (by unfold Base; omega) s
  obtain ⟨b1, d1, r1, n1, x1, rfl⟩ := h1
  obtain ⟨b2, d2, r2, n2, x2, rfl⟩ := h2
  obtain ⟨rfl, rfl⟩ := u _ _ r1 n1 x1
  obtain ⟨rfl, rfl⟩ := u _ _ r2 n2 x2
  rfl

theorem writeInt_number (s : Style) (base : Int) (h : s.ReadBy base) (plus : Bool) (v : Int) : Number base (s.writeInt plus v) v := by
  refine ⟨s.write v.natAbs, v.natAbs, write_unsigned s base h _, ?_⟩
  unfold Style.writeInt
  by_cases h0 : v < 0
  · rw [if_pos h0]; exact .inr (.inr ⟨rfl, by omega⟩)
  · rw [if_neg h0]
    cases plus
    · exact .inl ⟨rfl, by omega⟩
    · exact .inr (.inl ⟨rfl, by omega⟩)

theorem number_unique (b : Nat) (hb : b = 0 ∨ (2 ≤ b ∧ b ≤ 36)) (s : Str) (v w : Int) (h1 : Number b s v) (h2 : Number b s w) : v = w := by
  obtain ⟨n, u1, rfl⟩ := (number_iff _ _ _).mp h1
  obtain ⟨m, u2, rfl⟩ := (number_iff _ _ _).mp h2
  rw [unsigned_unique b hb _ n m u1 u2]

theorem writeInt_positive (s : Style) (base : Int) (h : s.ReadBy base) (plus : Bool) (v : Int) (n : Nat) :
    Positive base (s.writeInt plus v) n ↔ v = n := by
  obtain ⟨b, rfl, hb⟩ := readBy_base s base h
  have hu := write_unsigned s b h v.natAbs
  have hh := unsigned_head _ _ _ hu
  unfold Style.writeInt
  constructor
  · intro hp
    have hN : Number b (s.writeInt plus v) n := by
      unfold Style.writeInt
      rcases hp with hp | ⟨t, e, hp⟩
      · exact ⟨_, n, hp, .inl ⟨rfl, rfl⟩⟩
      · exact ⟨t, n, hp, .inr (.inl ⟨e, rfl⟩)⟩
    exact number_unique b hb _ _ _ (writeInt_number s b h plus v) hN
  · rintro rfl
    rw [if_neg (by omega)]
    cases plus
    · exact .inl hu
    · exact .inr ⟨_, rfl, hu⟩

theorem write_plain (s : Style) (base : Int) (h : s.ReadBy base) (n : Nat) :
    ∀ c ∈ s.write n, Strv.Spec.isSpace c = false ∧ c ≠ 11 := by
  have P := fun (b : Nat) (h2 : 2 ≤ b) (h36 : b ≤ 36) upper c hc => (printed_ok b h2 h36 upper n n (Nat.le_refl _)).2.1 c hc
  have Q : ∀ (b : Nat) (h2 : 2 ≤ b) (h36 : b ≤ 36) upper, ∀ c ∈ printed b upper n, Strv.Spec.isSpace c = false ∧ c ≠ 11 := by
    intro b h2 h36 upper c hc
    obtain ⟨d, hd, rfl⟩ := P b h2 h36 upper c hc
    exact ⟨(numeral_plain upper d (by omega)).1, (numeral_plain upper d (by omega)).2.1⟩
  intro c hc
  cases s with
  | digits b upper => exact Q b h.2.1 h.2.2 upper c hc
  | decimal => exact Q 10 (by omega) (by omega) false c hc
  | hexadecimal x upper =>
    rcases List.mem_cons.mp hc with rfl | hc
    · exact ⟨by decide, by decide⟩
    · rcases List.mem_cons.mp hc with rfl | hc
      · cases x <;> exact ⟨by decide, by decide⟩
      · exact Q 16 (by omega) (by omega) upper c hc
  | octal =>
    rcases List.mem_cons.mp hc with rfl | hc
    · exact ⟨by decide, by decide⟩
    · exact Q 8 (by omega) (by omega) false c hc

theorem writeInt_plain (s : Style) (base : Int) (h : s.ReadBy base) (plus : Bool) (v : Int) :
    s.writeInt plus v ≠ [] ∧ ∀ c ∈ s.writeInt plus v, Strv.Spec.isSpace c = false ∧ c ≠ 11 := by
  have hne := (unsigned_head _ _ _ (write_unsigned s base h v.natAbs)).2.2
  have hw := write_plain s base h v.natAbs
  unfold Style.writeInt
  split
  · refine ⟨by simp, fun c hc => ?_⟩
    rcases List.mem_cons.mp hc with rfl | hc
    · exact ⟨by decide, by decide⟩
    · exact hw c hc
  · split
    · refine ⟨by simp, fun c hc => ?_⟩
      rcases List.mem_cons.mp hc with rfl | hc
      · exact ⟨by decide, by decide⟩
      · exact hw c hc
    · exact ⟨hne, hw⟩

theorem dropWhile_blank (l t : Str) (hl : Blank l) (ht : ∀ c, t.head? = some c → Strv.Spec.isSpace c = false) :
    (l ++ t).dropWhile Strv.Spec.isSpace = t := by
  induction l with
  | nil =>
    cases t with
    | nil => rfl
    | cons c t =>
      rw [List.nil_append, List.dropWhile_cons, ht c rfl]
      rfl
  | cons c l ih =>
    rw [List.cons_append, List.dropWhile_cons, hl c (by simp)]
    exact ih (fun x hx => hl x (by simp [hx]))

theorem strip_between (l t r : Str) (hl : Blank l) (hr : Blank r) (hne : t ≠ []) (ht : ∀ c ∈ t, Strv.Spec.isSpace c = false) :
    Strv.Spec.strip (l ++ t ++ r) = t := by
  unfold Strv.Spec.strip
  rw [List.append_assoc, dropWhile_blank l (t ++ r) hl, List.reverse_append, dropWhile_blank, List.reverse_reverse]
  · intro c hc; exact hr c (by simpa using hc)
  · intro c hc
    exact ht c (by simpa using List.mem_of_mem_head? hc)
  · intro c hc
    cases t with
    | nil => exact absurd rfl hne
    | cons x t =>
      have : x = c := by simpa using hc
      subst this
      exact ht x (by simp)

end Verif.Parse
