import Verif.Model.MiscHex
import Verif.Spec.Hex

/-!
# Lemmas about the hexadecimal conversions
-/

namespace Verif.Misc
open Verif.C Spec

theorem forall_byte {p : Byte → Prop} (h : ∀ n : Fin 256, p (BitVec.ofNat 8 n.val)) (b : Byte) : p b := by
  have := h ⟨b.toNat, by have := b.isLt; omega⟩
  simpa using this

theorem isXDigit_iff : ∀ b : Byte, isXDigit b = (digitVal b).isSome := by
  refine forall_byte ?_
  decide +kernel

theorem table_digit (signed : Bool) : ∀ b : Byte, ∀ x, digitVal b = some x →
    rd hexTable (charToInt signed b - 0x30) = .ok (BitVec.ofNat 8 x) ∧ x < 16 := by
  have h : ∀ b : Byte, (digitVal b).isSome → rd hexTable (charToInt signed b - 0x30) = .ok (BitVec.ofNat 8 ((digitVal b).getD 0))
      ∧ (digitVal b).getD 0 < 16 := by
    cases signed
    all_goals
      refine forall_byte ?_
      decide +kernel
  intro b x e
  have := h b
  rw [e] at this
  exact this rfl

theorem combine (x y : Nat) (hx : x < 16) (hy : y < 16) :
    ((BitVec.ofNat 8 x) <<< 4) + BitVec.ofNat 8 y = BitVec.ofNat 8 (16 * x + y) := by
  have h : ∀ x y : Fin 16, ((BitVec.ofNat 8 x.val) <<< 4) + BitVec.ofNat 8 y.val = BitVec.ofNat 8 (16 * x.val + y.val) := by
    decide +kernel
  exact h ⟨x, hx⟩ ⟨y, hy⟩

theorem rd_append_right {α : Type} (pre : List α) (x : α) (t : List α) (i : Int) (hi : i = pre.length) :
    rd (pre ++ x :: t) i = .ok x := by
  subst hi
  rw [rd, if_pos (by omega)]
  simp

theorem rd_append_right1 {α : Type} (pre : List α) (y x : α) (t : List α) (i : Int) (hi : i = pre.length + 1) :
    rd (pre ++ y :: x :: t) i = .ok x := by
  have := rd_append_right (pre ++ [y]) x t i (by simp; omega)
  simpa using this

theorem fromHex_length : ∀ s r, fromHex s = some r → s.length = 2 * r.length := by
  intro s
  fun_induction fromHex s with
  | case1 => intro r h; simp at h; subst h; rfl
  | case2 a b t x y r e3 e2 e1 ih =>
    intro r' h
    simp only [Option.some.injEq] at h
    subst h
    have := ih r e3
    simp; omega
  | case3 => intro r h; simp at h
  | case4 => intro r h; simp at h

theorem hex2binLoop_spec (signed : Bool) (s : List Byte) : ∀ (pre rest done todo tail : List Byte) (fuel : Nat),
    pre.length = 2 * done.length → s.length = 2 * todo.length → s.length < fuel →
    match fromHex s with
    | some r => hex2binLoop signed (pre ++ s ++ rest) (pre.length + s.length) fuel pre.length done.length (done ++ todo ++ tail)
        = .ok (done ++ r ++ tail, true)
    | none => ∃ d, hex2binLoop signed (pre ++ s ++ rest) (pre.length + s.length) fuel pre.length done.length (done ++ todo ++ tail)
        = .ok (d, false) ∧ d.length = (done ++ todo ++ tail).length := by
  fun_induction fromHex s with
  | case1 =>
    intro pre rest done todo tail fuel h1 h2 hf
    obtain ⟨f, rfl⟩ : ∃ f, fuel = f + 1 := ⟨fuel - 1, by simp at hf; omega⟩
    rw [hex2binLoop, if_neg (by simp)]
    have : todo = [] := by
      cases todo with
      | nil => rfl
      | cons => simp at h2
    simp [this]
  | case2 a b t x y r e3 e2 e1 ih =>
    intro pre rest done todo tail fuel h1 h2 hf
    obtain ⟨f, rfl⟩ : ∃ f, fuel = f + 1 := ⟨fuel - 1, by omega⟩
    obtain ⟨z, todo, rfl⟩ : ∃ z l, todo = z :: l := by
      cases todo with
      | nil => simp at h2
      | cons z l => exact ⟨z, l, rfl⟩
    have hm : pre ++ a :: b :: t ++ rest = pre ++ a :: b :: (t ++ rest) := by simp
    rw [hex2binLoop, if_pos (by simp), hm, rd_append_right _ _ _ _ rfl, ok_bind,
      rd_append_right1 _ _ _ _ _ (by omega), ok_bind, if_pos (by simp [isXDigit_iff, e1, e2]),
      (table_digit signed a x e1).1, ok_bind, (table_digit signed b y e2).1, ok_bind,
      combine x y (table_digit signed a x e1).2 (table_digit signed b y e2).2, wr, if_pos (by simp), ok_bind]
    simp only [List.length_cons] at h2 hf
    have := ih (pre ++ [a, b]) rest (done ++ [BitVec.ofNat 8 (16 * x + y)]) todo tail f (by simp; omega) (by omega) (by omega)
    rw [e3] at this
    simp only [] at this
    have e4 : (done ++ z :: todo ++ tail).set done.length (BitVec.ofNat 8 (16 * x + y)) = done ++ [BitVec.ofNat 8 (16 * x + y)] ++ todo ++ tail := by
      simp
    have e5 : pre ++ a :: b :: (t ++ rest) = pre ++ [a, b] ++ t ++ rest := by simp
    have e6 : pre.length + (a :: b :: t).length = (pre ++ [a, b]).length + t.length := by simp; omega
    have e7 : pre.length + 2 = (pre ++ [a, b]).length := by simp
    have e8 : done.length + 1 = (done ++ [BitVec.ofNat 8 (16 * x + y)]).length := by simp
    rw [e4, e5, e6, e7, e8, this]
    simp
  | case3 a b t hno ih =>
    intro pre rest done todo tail fuel h1 h2 hf
    obtain ⟨f, rfl⟩ : ∃ f, fuel = f + 1 := ⟨fuel - 1, by omega⟩
    obtain ⟨z, todo, rfl⟩ : ∃ z l, todo = z :: l := by
      cases todo with
      | nil => simp at h2
      | cons z l => exact ⟨z, l, rfl⟩
    have hm : pre ++ a :: b :: t ++ rest = pre ++ a :: b :: (t ++ rest) := by simp
    rw [hex2binLoop, if_pos (by simp), hm, rd_append_right _ _ _ _ rfl, ok_bind,
      rd_append_right1 _ _ _ _ _ (by omega), ok_bind]
    cases e1 : digitVal a with
    | none => exact ⟨_, by rw [if_neg (by simp [isXDigit_iff, e1])], rfl⟩
    | some x =>
      cases e2 : digitVal b with
      | none => exact ⟨_, by rw [if_neg (by simp [isXDigit_iff, e2])], rfl⟩
      | some y =>
        have e3 : fromHex t = none := by
          cases e3 : fromHex t with
          | none => rfl
          | some r => exact absurd e3 (by intro h; exact hno x y r e1 e2 h)
        rw [if_pos (by simp [isXDigit_iff, e1, e2]),
          (table_digit signed a x e1).1, ok_bind, (table_digit signed b y e2).1, ok_bind,
          combine x y (table_digit signed a x e1).2 (table_digit signed b y e2).2, wr, if_pos (by simp), ok_bind]
        simp only [List.length_cons] at h2 hf
        have := ih (pre ++ [a, b]) rest (done ++ [BitVec.ofNat 8 (16 * x + y)]) todo tail f (by simp; omega) (by omega) (by omega)
        rw [e3] at this
        simp only [] at this
        obtain ⟨d, h, hd⟩ := this
        have e4 : (done ++ z :: todo ++ tail).set done.length (BitVec.ofNat 8 (16 * x + y)) = done ++ [BitVec.ofNat 8 (16 * x + y)] ++ todo ++ tail := by
          simp
        have e5 : pre ++ a :: b :: (t ++ rest) = pre ++ [a, b] ++ t ++ rest := by simp
        have e6 : pre.length + (a :: b :: t).length = (pre ++ [a, b]).length + t.length := by simp; omega
        have e7 : pre.length + 2 = (pre ++ [a, b]).length := by simp
        have e8 : done.length + 1 = (done ++ [BitVec.ofNat 8 (16 * x + y)]).length := by simp
        rw [e4, e5, e6, e7, e8, h]
        exact ⟨d, rfl, by simp at hd ⊢; omega⟩
  | case4 a =>
    intro pre rest done todo tail fuel h1 h2 hf
    simp at h2
    omega

/-- The loop at the beginning, where the size of the destination is at least what's needed -/
theorem hex2bin_spec (signed : Bool) (s rest data tail : List Byte) (hs : s ≠ []) (h2 : s.length = 2 * data.length) :
    match fromHex s with
    | some r => hex2bin signed (some (s ++ rest)) s.length (some (data ++ tail)) = .ok (some (r ++ tail), true)
    | none => ∃ d, hex2bin signed (some (s ++ rest)) s.length (some (data ++ tail)) = .ok (some d, false)
        ∧ d.length = (data ++ tail).length := by
  have hp : 0 < s.length := by cases s with | nil => exact absurd rfl hs | cons => simp
  have := hex2binLoop_spec signed s [] rest [] data tail (s.length + 1) rfl h2 (by omega)
  have e : ∀ x : M (Option (List Byte) × Bool), (do
      let (data, ok) ← hex2binLoop signed (s ++ rest) (s.length : Int).toNat ((s.length : Int).toNat + 1) 0 0 (data ++ tail)
      .ok (some data, ok)) = x → hex2bin signed (some (s ++ rest)) s.length (some (data ++ tail)) = x := by
    intro x hx
    rw [hex2bin, if_pos (by omega)]
    exact hx
  simp only [List.nil_append, List.length_nil, Nat.zero_add] at this
  cases h : fromHex s with
  | some r =>
    rw [h] at this
    refine e _ ?_
    simp only [Int.toNat_natCast, this, ok_bind]
  | none =>
    rw [h] at this
    obtain ⟨d, h1, h2⟩ := this
    refine ⟨d, e _ ?_, by simpa using h2⟩
    simp only [Int.toNat_natCast, h1, ok_bind]

theorem put_ok (cap : Nat) (out : List Byte) (c : Byte) (h : out.length < cap) : put cap out c = .ok (out ++ [c]) := by
  rw [put, if_pos h]

theorem digits (upper : Bool) : ∀ b : Byte,
    rd (hexMap upper) ((b >>> 4) &&& 0xf).toNat = .ok (digit upper (b.toNat / 16)) ∧
    rd (hexMap upper) (b &&& 0xf).toNat = .ok (digit upper (b.toNat % 16)) := by
  cases upper
  all_goals
    refine forall_byte ?_
    decide +kernel

theorem putHex_ok (cap : Nat) (upper : Bool) (out : List Byte) (b : Byte) (h : out.length + 2 ≤ cap) :
    putHex cap upper out b = .ok (out ++ [digit upper (b.toNat / 16), digit upper (b.toNat % 16)]) := by
  rw [putHex, (digits upper b).1, ok_bind, put_ok _ _ _ (by omega), ok_bind, (digits upper b).2, ok_bind,
    put_ok _ _ _ (by simp; omega)]
  simp

theorem bin2hexLoop_ok (cap : Nat) (upper : Bool) (data : List Byte) : ∀ out, out.length + 2 * data.length ≤ cap →
    bin2hexLoop cap upper data out = .ok (out ++ toHex upper data) := by
  induction data with
  | nil => intro out _; simp [bin2hexLoop, toHex]
  | cons b t ih =>
    intro out h
    simp only [List.length_cons] at h
    rw [bin2hexLoop, putHex_ok _ _ _ _ (by omega), ok_bind, ih _ (by simp; omega)]
    simp [toHex]

theorem toHex_length (upper : Bool) (data : List Byte) : (toHex upper data).length = 2 * data.length := by
  induction data with
  | nil => rfl
  | cons b t ih =>
    simp [toHex] at ih ⊢
    omega

theorem bin2hex_ok (data : List Byte) (upper : Bool) : bin2hex data upper = .ok (toHex upper data ++ [0]) := by
  rw [bin2hex, bin2hexLoop_ok _ _ _ _ (by simp), ok_bind, put_ok _ _ _ (by simp [toHex_length]), List.nil_append]

theorem digitVal_digit (upper : Bool) (n : Nat) (h : n < 16) : digitVal (digit upper n) = some n := by
  have : ∀ n : Fin 16, digitVal (digit upper n.val) = some n.val := by
    cases upper <;> decide +kernel
  exact this ⟨n, h⟩

theorem fromHex_toHex (upper : Bool) (data : List Byte) : fromHex (toHex upper data) = some data := by
  induction data with
  | nil => rfl
  | cons b t ih =>
    have hb := b.isLt
    have : toHex upper (b :: t) = digit upper (b.toNat / 16) :: digit upper (b.toNat % 16) :: toHex upper t := rfl
    rw [this, fromHex, digitVal_digit _ _ (by omega), digitVal_digit _ _ (by omega), ih]
    simp only [Option.some.injEq, List.cons.injEq, and_true]
    apply BitVec.eq_of_toNat_eq
    simp
    omega

theorem strlen_ok (s rest : List Byte) (h : (0 : Byte) ∉ s) : strlen (s ++ 0 :: rest) = .ok s.length := by
  induction s with
  | nil => simp [strlen]
  | cons c t ih =>
    simp only [List.mem_cons, not_or] at h
    rw [List.cons_append, strlen, if_neg (fun e => h.1 e.symm), ih h.2, ok_bind]
    rfl

theorem fromHex_odd : ∀ s : List Byte, s.length % 2 = 1 → fromHex s = none := by
  intro s h
  cases e : fromHex s with
  | none => rfl
  | some r => have := fromHex_length s r e; omega

theorem digit_ne_zero (upper : Bool) (n : Nat) (h : n < 16) : digit upper n ≠ 0 := by
  have : ∀ n : Fin 16, digit upper n.val ≠ 0 := by
    cases upper <;> decide +kernel
  exact this ⟨n, h⟩

theorem toHex_no_zero (upper : Bool) (data : List Byte) : (0 : Byte) ∉ toHex upper data := by
  intro h
  simp only [toHex, List.mem_flatMap, List.mem_cons, List.not_mem_nil, or_false] at h
  obtain ⟨b, _, h | h⟩ := h
  · exact digit_ne_zero upper (b.toNat / 16) (by have := b.isLt; omega) h.symm
  · exact digit_ne_zero upper (b.toNat % 16) (by omega) h.symm

end Verif.Misc

namespace Verif.Misc
open Verif.C Spec

theorem fromHex_isSome : ∀ s : List Byte, (fromHex s).isSome = true ↔ s.length % 2 = 0 ∧ ∀ c ∈ s, (digitVal c).isSome = true := by
  intro s
  fun_induction fromHex s with
  | case1 => simp
  | case2 a b t x y r e3 e2 e1 ih =>
    rw [e3] at ih
    simp only [Option.isSome_some, true_iff] at ih ⊢
    refine ⟨by simp; omega, ?_⟩
    intro c hc
    simp only [List.mem_cons] at hc
    rcases hc with rfl | rfl | hc
    · simp [e1]
    · simp [e2]
    · exact ih.2 c hc
  | case3 a b t hno ih =>
    simp only [Option.isSome_none, Bool.false_eq_true, false_iff, not_and]
    intro h1 h2
    obtain ⟨x, hx⟩ := Option.isSome_iff_exists.mp (h2 a (by simp))
    obtain ⟨y, hy⟩ := Option.isSome_iff_exists.mp (h2 b (by simp))
    have := ih.mpr ⟨by simp at h1; omega, fun c hc => h2 c (by simp [hc])⟩
    obtain ⟨r, hr⟩ := Option.isSome_iff_exists.mp this
    exact hno x y r hx hy hr
  | case4 => simp

theorem fromHex_get : ∀ (s r : List Byte), fromHex s = some r → ∀ (i : Nat) (b : Byte), r[i]? = some b →
    ∃ x y, (s[2 * i]?).bind digitVal = some x ∧ (s[2 * i + 1]?).bind digitVal = some y ∧ b.toNat = 16 * x + y := by
  intro s
  fun_induction fromHex s with
  | case1 => intro r h i b hb; simp at h; subst h; simp at hb
  | case2 a b t x y r e3 e2 e1 ih =>
    intro r' h i c hc
    simp only [Option.some.injEq] at h
    subst h
    cases i with
    | zero =>
      simp only [List.getElem?_cons_zero, Option.some.injEq] at hc
      subst hc
      refine ⟨x, y, by simpa using e1, by simpa using e2, ?_⟩
      have h1 := (table_digit false a x e1).2
      have h2 := (table_digit false b y e2).2
      simp
      omega
    | succ i =>
      simp only [List.getElem?_cons_succ] at hc
      obtain ⟨x', y', h1, h2, h3⟩ := ih r e3 i c hc
      have ei : 2 * (i + 1) = 2 * i + 1 + 1 := by omega
      refine ⟨x', y', ?_, ?_, h3⟩
      · rw [ei]; simpa using h1
      · rw [ei]; simpa using h2
  | case3 => intro r h; simp at h
  | case4 => intro r h; simp at h

theorem hex2bytes_core (signed : Bool) (s rest : List Byte) (len : Int) (hl : lenOf (s ++ rest) len = .ok (s.length : Int)) :
    hex2bytes signed (some (s ++ rest)) len = .ok (if s = [] then none else fromHex s) := by
  unfold hex2bytes
  simp only []
  rw [hl, ok_bind]
  by_cases hs : s = []
  · subst hs
    simp
  · rw [if_neg hs]
    have hp : 0 < s.length := by cases s with | nil => exact absurd rfl hs | cons => simp
    by_cases he : s.length % 2 = 0
    · rw [if_pos (by omega)]
      have h := hex2bin_spec signed s rest (List.replicate ((s.length : Int) / 2).toNat 0) [] hs (by simp; omega)
      simp only [List.append_nil] at h
      cases e : fromHex s with
      | some r =>
        rw [e] at h
        simp only [] at h
        rw [h, ok_bind]
        rfl
      | none =>
        rw [e] at h
        obtain ⟨d, h, _⟩ := h
        rw [h, ok_bind]
        rfl
    · rw [if_neg (by omega), fromHex_odd s (by omega)]

theorem lenOf_neg (s rest : List Byte) (h0 : (0 : Byte) ∉ s) (len : Int) (h : len < 0) :
    lenOf (s ++ 0 :: rest) len = .ok (s.length : Int) := by
  rw [lenOf, if_pos h, strlen_ok _ _ h0, ok_bind]

theorem lenOf_len (s rest : List Byte) : lenOf (s ++ rest) s.length = .ok (s.length : Int) := by
  rw [lenOf, if_neg (by omega)]

end Verif.Misc
