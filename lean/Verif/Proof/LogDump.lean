import Verif.Proof.Log
import Verif.Props.MiscHex

namespace Verif.Log
open Verif.C Spec

theorem hexDigit_eq (n : Nat) (h : n < 16) :
    hexDigit n = if n < 10 then BitVec.ofNat 8 (48 + n) else BitVec.ofNat 8 (55 + n) := by
  unfold hexDigit
  split
  · rfl
  · congr 1; omega

theorem printDigits_fuel : ∀ (f g n : Nat), n < f → n < g → printDigits f n = printDigits g n := by
  intro f
  induction f with
  | zero => intro g n h; omega
  | succ f ih =>
    intro g n h1 h2
    cases g with
    | zero => omega
    | succ g =>
      rw [printDigits, printDigits]
      by_cases h : n < 16
      · rw [if_pos h, if_pos h]
      · rw [if_neg h, if_neg h, ih g (n / 16) (by omega) (by omega)]

theorem printX_eq (n : Nat) : printX n = if n < 16 then [hexDigit n] else printX (n / 16) ++ [hexDigit (n % 16)] := by
  unfold printX
  rw [printDigits]
  by_cases h : n < 16
  · rw [if_pos h, if_pos h]
  · rw [if_neg h, if_neg h, printDigits_fuel n (n / 16 + 1) (n / 16) (by omega) (by omega)]

theorem printX_spec : ∀ n : Nat, 0 < (printX n).length ∧ n < 16 ^ (printX n).length ∧
    (1 < (printX n).length → 16 ^ ((printX n).length - 1) ≤ n) ∧
    ∀ k, k < (printX n).length → (printX n)[(printX n).length - 1 - k]? = some (hexDigit (n / 16 ^ k % 16)) := by
  intro n
  induction n using Nat.strongRecOn with
  | _ n ih =>
    rw [printX_eq]
    by_cases h : n < 16
    · rw [if_pos h]
      refine ⟨by simp, by simpa using h, by simp, ?_⟩
      intro k hk
      have : k = 0 := by simpa using hk
      subst this
      simp [Nat.mod_eq_of_lt h]
    · rw [if_neg h]
      obtain ⟨h1, h2, h3, h4⟩ := ih (n / 16) (by omega)
      generalize hL : (printX (n / 16)) = t at *
      rw [List.length_append, List.length_singleton]
      refine ⟨by omega, ?_, ?_, ?_⟩
      · rw [Nat.pow_succ]; omega
      · intro _
        rw [Nat.add_sub_cancel]
        by_cases h5 : 1 < t.length
        · have := h3 h5
          have e : t.length = (t.length - 1) + 1 := by omega
          rw [e, Nat.pow_succ]; omega
        · have e : t.length = 1 := by omega
          rw [e]; omega
      · intro k hk
        cases k with
        | zero => simp
        | succ k =>
          rw [List.getElem?_append_left (by omega)]
          have := h4 k (by omega)
          have e : t.length + 1 - 1 - (k + 1) = t.length - 1 - k := by omega
          rw [e, this, Nat.div_div_eq_div_mul, Nat.pow_succ, Nat.mul_comm 16]

theorem print04X_hex4 (n : Nat) : Hex4 n (print04X n) := by
  obtain ⟨h1, h2, h3, h4⟩ := printX_spec n
  unfold print04X
  generalize printX n = t at *
  have hl : (List.replicate (4 - t.length) (0x30 : Byte) ++ t).length = (4 - t.length) + t.length := by simp
  have hlt : n < 16 ^ ((4 - t.length) + t.length) :=
    Nat.lt_of_lt_of_le h2 (Nat.pow_le_pow_right (by omega) (by omega))
  refine ⟨by rw [hl]; omega, ?_, by rw [hl]; exact hlt, ?_⟩
  · intro k hk
    rw [hl] at hk ⊢
    rw [← hexDigit_eq _ (Nat.mod_lt _ (by omega))]
    by_cases hk2 : k < t.length
    · rw [List.getElem?_append_right (by simp; omega), List.length_replicate]
      have e : 4 - t.length + t.length - 1 - k - (4 - t.length) = t.length - 1 - k := by omega
      rw [e]
      exact h4 k hk2
    · rw [List.getElem?_append_left (by simp; omega), List.getElem?_replicate, if_pos (by omega)]
      have : n / 16 ^ k = 0 := Nat.div_eq_of_lt (Nat.lt_of_lt_of_le h2 (Nat.pow_le_pow_right (by omega) (by omega)))
      rw [this]
      rfl
  · intro h
    rw [hl] at h ⊢
    have e : 4 - t.length + t.length = t.length := by omega
    rw [e]
    exact h3 (by omega)

theorem digit_ne_zero : ∀ n : Fin 16, Misc.Spec.digit false n.1 ≠ 0 := by decide +kernel

theorem line_no_zero (prn : Byte → Bool) (data line : List Byte) (hp : prn 0 = false) (h : Misc.Spec.Line prn data line) :
    ∀ c ∈ line, c ≠ 0 := by
  intro c hc
  obtain ⟨j, hj, rfl⟩ := List.mem_iff_getElem.mp hc
  have hj' : line[j]? = some line[j] := List.getElem?_eq_getElem hj
  by_cases hb : ∀ i, i < data.length → j ≠ Misc.Spec.hexColumn i ∧ j ≠ Misc.Spec.hexColumn i + 1 ∧ j ≠ Misc.Spec.textColumn i
  · have := h.blank j hj hb
    rw [hj'] at this
    rw [Option.some.inj this]
    decide
  · simp only [Classical.not_forall] at hb
    obtain ⟨i, hi, hn⟩ := hb
    have hd : data[i]? = some data[i] := List.getElem?_eq_getElem hi
    have h1 := h.digit1 i _ hd
    have h2 := h.digit2 i _ hd
    have h3 := h.text i _ hd
    have hlt := (data[i]).isLt
    by_cases e1 : j = Misc.Spec.hexColumn i
    · rw [← e1, hj'] at h1
      rw [Option.some.inj h1]
      exact digit_ne_zero ⟨_, by omega⟩
    · by_cases e2 : j = Misc.Spec.hexColumn i + 1
      · rw [← e2, hj'] at h2
        rw [Option.some.inj h2]
        exact digit_ne_zero ⟨_, by omega⟩
      · have e3 : j = Misc.Spec.textColumn i := Classical.byContradiction (fun e3 => hn ⟨e1, e2, e3⟩)
        rw [← e3, hj'] at h3
        rw [Option.some.inj h3]
        split
        · rename_i hpr
          intro e
          rw [e, hp] at hpr
          cases hpr
        · decide

theorem takeWhile_line (line : List Byte) (h : ∀ c ∈ line, c ≠ 0) : (line ++ [0]).takeWhile (· ≠ 0) = line := by
  induction line with
  | nil => rfl
  | cons a t ih =>
    rw [List.cons_append, List.takeWhile_cons, if_pos (by simpa using h a (by simp)), ih (fun c hc => h c (by simp [hc]))]

theorem dumpLine_ok (ct : Ctype) (pfx : Str) (data : List Byte) (off size : Nat) (hct : Accepts ct data)
    (h : off + size % 2 ^ 32 ≤ data.length) :
    ∃ line, dumpLine ct pfx data off size = .ok (pfx ++ print04X off ++ lit ": " ++ line, min (size % 2 ^ 32) 16) ∧
      Misc.Spec.Line ct.printable ((data.drop off).take (min (size % 2 ^ 32) 16)) line := by
  obtain ⟨line, h1, h2, _⟩ := Misc.C51_hexdump_partial ct.mode ct.signed ct.printable (data.drop off) (size % 2 ^ 32)
    (by simp; omega) (by
      rcases hct.2 with h | h | h
      · exact .inl h
      · exact .inr (.inl h)
      · exact .inr (.inr (fun b hb => h b (List.mem_of_mem_drop (List.mem_of_mem_take hb)))))
  refine ⟨line, ?_, h2⟩
  rw [dumpLine, h1, ok_bind]
  simp only []
  rw [takeWhile_line line (line_no_zero _ _ _ hct.1 h2)]

theorem dumpLoop_ok (env : Env) (ct : Ctype) (s : State) (module : Option Nat) (level : Int) (pfx : Str) (data : List Byte)
    (hct : Accepts ct data) (hlen : data.length < 2 ^ 32) : ∀ (fuel off size : Nat), off + size = data.length → size < fuel →
    ∃ msgs, dumpLoop env ct s module level pfx data fuel off size = logAll (logv env s module level) msgs ∧
      msgs.length = (size + 15) / 16 ∧
      ∀ k, k < msgs.length → ∃ addr line, msgs[k]? = some (pfx ++ addr ++ lit ": " ++ line) ∧ Hex4 (off + 16 * k) addr ∧
        Misc.Spec.Line ct.printable ((data.drop (off + 16 * k)).take 16) line := by
  intro fuel
  induction fuel with
  | zero => intro off size _ h; omega
  | succ fuel ih =>
    intro off size h1 h2
    rw [dumpLoop]
    by_cases hz : size > 0
    · rw [if_pos hz]
      have e : size % 2 ^ 32 = size := Nat.mod_eq_of_lt (by omega)
      obtain ⟨line, h3, h4⟩ := dumpLine_ok ct pfx data off size hct (by rw [e]; omega)
      rw [e] at h3 h4
      rw [h3, ok_bind]
      dsimp only
      by_cases hs : size ≤ 16
      · have e2 : min size 16 = size := by omega
        rw [e2]
        obtain ⟨msgs, h5, h6, h7⟩ := ih ((off + size) % 2 ^ 32) (size - size) (by rw [Nat.mod_eq_of_lt (by omega)]; omega) (by omega)
        have h8 : msgs = [] := List.length_eq_zero_iff.mp (by omega)
        refine ⟨[pfx ++ print04X off ++ lit ": " ++ line], ?_, by simp; omega, ?_⟩
        · rw [h5, h8]; rfl
        · intro k hk
          have : k = 0 := by simpa using hk
          subst this
          refine ⟨_, line, rfl, print04X_hex4 _, ?_⟩
          rw [e2] at h4
          simp only [Nat.mul_zero, Nat.add_zero]
          rw [List.take_of_length_le (by simp; omega)] at h4 ⊢
          exact h4
      · have e2 : min size 16 = 16 := by omega
        rw [e2]
        have e3 : (off + 16) % 2 ^ 32 = off + 16 := Nat.mod_eq_of_lt (by omega)
        rw [e3]
        obtain ⟨msgs, h5, h6, h7⟩ := ih (off + 16) (size - 16) (by omega) (by omega)
        refine ⟨(pfx ++ print04X off ++ lit ": " ++ line) :: msgs, ?_, by simp; omega, ?_⟩
        · rw [h5]; rfl
        · intro k hk
          cases k with
          | zero =>
            refine ⟨_, line, rfl, print04X_hex4 _, ?_⟩
            rw [e2] at h4
            exact h4
          | succ k =>
            obtain ⟨addr, l2, h8, h9, h10⟩ := h7 k (by simpa using hk)
            have e4 : off + 16 * (k + 1) = off + 16 + 16 * k := by omega
            rw [e4]
            exact ⟨addr, l2, h8, h9, h10⟩
    · rw [if_neg hz]
      exact ⟨[], rfl, by simp; omega, by simp⟩

theorem dumpLoop_diverges (env : Env) (ct : Ctype) (s : State) (module : Option Nat) (level : Int) (pfx : Str) (data : List Byte)
    (hct : Accepts ct data) (hlog : ∀ msg, ∃ out, logv env s module level msg = .ok out) : ∀ (fuel off size : Nat),
    size ≥ 2 ^ 32 → off + size % 2 ^ 32 < 2 ^ 32 → off + size % 2 ^ 32 ≤ data.length →
    dumpLoop env ct s module level pfx data fuel off size = .error .diverge := by
  intro fuel
  induction fuel with
  | zero => intro off size _ _ _; rfl
  | succ fuel ih =>
    intro off size h1 h2 h3
    obtain ⟨line, h4, _⟩ := dumpLine_ok ct pfx data off size hct h3
    rw [dumpLoop, if_pos (by omega), h4, ok_bind]
    dsimp only
    obtain ⟨out, h5⟩ := hlog (pfx ++ print04X off ++ lit ": " ++ line)
    rw [h5, ok_bind]
    have e : (off + min (size % 2 ^ 32) 16) % 2 ^ 32 = off + min (size % 2 ^ 32) 16 := Nat.mod_eq_of_lt (by omega)
    rw [ih _ (size - min (size % 2 ^ 32) 16) (by omega) (by rw [e]; omega) (by rw [e]; omega), error_bind]

end Verif.Log
