import Verif.Spec.HexRead
import Verif.Props.MiscExact
import Verif.Props.LogExact
import Verif.Proof.LogThreadsHist

/-!
# What hex dumps tell, proof
-/

namespace Verif.Misc
open Verif.C

theorem digit_inj (a b : Nat) (ha : a < 16) (hb : b < 16) (h : Spec.digit false a = Spec.digit false b) : a = b := by
  have : ∀ a b : Fin 16, Spec.digit false a.val = Spec.digit false b.val → a.val = b.val := by decide +kernel
  exact this ⟨a, ha⟩ ⟨b, hb⟩ h

theorem digit_visible (a : Nat) (ha : a < 16) : (Spec.digit false a != 0x20) = true := by
  have : ∀ a : Fin 16, (Spec.digit false a.val != 0x20) = true := by decide +kernel
  exact this ⟨a, ha⟩

/-- A line shows one sequence of bytes. -/
theorem line_inj (p1 p2 : Byte → Bool) (d1 d2 line : List Byte) (h1 : Spec.Line p1 d1 line) (h2 : Spec.Line p2 d2 line) : d1 = d2 := by
  have hl : d1.length = d2.length := by
    have a := h1.length
    have b := h2.length
    split at a <;> split at b <;> omega
  apply List.ext_getElem hl
  intro i i1 i2
  have a1 := h1.digit1 i _ (List.getElem?_eq_getElem i1)
  have a2 := h1.digit2 i _ (List.getElem?_eq_getElem i1)
  have b1 := h2.digit1 i _ (List.getElem?_eq_getElem i2)
  have b2 := h2.digit2 i _ (List.getElem?_eq_getElem i2)
  have l1 := d1[i].isLt
  have l2 := d2[i].isLt
  have e1 := digit_inj _ _ (by omega) (by omega) (Option.some.inj (a1.symm.trans b1))
  have e2 := digit_inj _ _ (by omega) (by omega) (Option.some.inj (a2.symm.trans b2))
  apply BitVec.eq_of_toNat_eq
  omega

theorem sep_blank (i : Nat) : (sep i).filter (fun c => c != 0x20) = [] := by
  unfold sep
  split
  · split <;> decide
  · rfl

theorem filter_hex (d : List Byte) : ∀ n i : Nat,
    ((List.range' i n).flatMap (fun i => sep i ++ [hi d i, lo d i])).filter (fun c => c != 0x20) = Spec.toHex false ((d.drop i).take n) := by
  intro n
  induction n with
  | zero => intro i; simp [Spec.toHex]
  | succ n ih =>
    intro i
    rw [List.range'_succ, List.flatMap_cons, List.filter_append, ih (i + 1), List.filter_append, sep_blank, List.nil_append]
    cases h : d[i]? with
    | none =>
      have hlen : d.length ≤ i := List.getElem?_eq_none_iff.mp h
      have e1 : hi d i = 0x20 := by unfold hi; rw [h]
      have e2 : lo d i = 0x20 := by unfold lo; rw [h]
      rw [e1, e2, List.drop_of_length_le (by omega), List.drop_of_length_le hlen]
      simp [Spec.toHex]
    | some b =>
      have e1 : hi d i = Spec.digit false (b.toNat / 16) := by unfold hi; rw [h]
      have e2 : lo d i = Spec.digit false (b.toNat % 16) := by unfold lo; rw [h]
      obtain ⟨hi', hb⟩ := List.getElem?_eq_some_iff.mp h
      have hlt := b.isLt
      rw [e1, e2, List.drop_eq_getElem_cons hi', hb, List.take_succ_cons, List.filter_cons_of_pos (by exact digit_visible _ (by omega)),
        List.filter_cons_of_pos (by exact digit_visible _ (by omega))]
      simp [Spec.toHex]

theorem read_lineOf (prn : Byte → Bool) (d : List Byte) (h : d.length ≤ 16) : Spec.readLine (lineOf prn d) = some d := by
  have hl : ((List.range' 0 16).flatMap (fun i => sep i ++ [hi d i, lo d i])).length = 48 := by rw [hex_part]; rfl
  unfold Spec.readLine lineOf
  rw [List.take_append, List.filter_append, List.take_of_length_le (by omega), filter_hex, hl, List.drop_zero, List.take_of_length_le h]
  have : (([0x20, 0x20, 0x20, 0x20] ++ gap 0 (d.map (fun b => if prn b then b else 0x2e))).take (49 - 48) : List Byte) = [0x20] := rfl
  rw [this]
  have : ([0x20] : List Byte).filter (fun c => c != 0x20) = [] := by decide
  rw [this, List.append_nil, fromHex_toHex]

/-- Whenever a line is produced. -/
theorem hexdump_lineOf (mode : Mode) (signed : Bool) (prn : Byte → Bool) (data : List Byte) (len : Nat) (hd : len ≤ data.length)
    (buf : List Byte) (n : Nat) (h : hexdump mode signed prn bufSize data len = .ok (buf, n)) :
    n = min len 16 ∧ buf = lineOf prn (data.take n) ++ [0] := by
  have hp : mode = .wrap ∨ signed = false ∨ ∀ b ∈ data.take (min len 16), b.toNat < 128 := by
    rcases Classical.em (mode = .wrap ∨ signed = false ∨ ∀ b ∈ data.take (min len 16), b.toNat < 128) with hp | hp
    · exact hp
    · rw [not_or, not_or] at hp
      obtain ⟨h1, h2, h3⟩ := hp
      obtain ⟨b, hb, hn⟩ : ∃ b ∈ data.take (min len 16), 128 ≤ b.toNat := by
        rcases Classical.em (∃ b ∈ data.take (min len 16), 128 ≤ b.toNat) with h | h
        · exact h
        · exact absurd (fun b hb => Nat.lt_of_not_le (fun hn => h ⟨b, hb, hn⟩)) h3
      have em : mode = .strict := by cases mode; rfl; exact absurd rfl h1
      have es : signed = true := by cases signed; exact absurd rfl h2; rfl
      rw [em, es, C51_exactly prn data len hd ⟨b, hb, hn⟩] at h
      cases h
  have hk := hexdump_ok mode signed prn bufSize data len hd (by
    intro b hb
    unfold isPrint
    rw [if_neg]
    rintro ⟨h1, h2⟩
    unfold charToInt at h2
    rcases hp with h | h | h
    · rw [h] at h1; cases h1
    · rw [h] at h2; simp at h2; omega
    · have := h b hb
      cases signed
      · simp at h2; omega
      · simp only [if_true] at h2
        rw [BitVec.toInt_eq_toNat_of_lt (by omega)] at h2
        omega) (by decide)
  rw [hk] at h
  injection h with h
  injection h with h1 h2
  subst h2
  exact ⟨rfl, h1.symm⟩

end Verif.Misc

namespace Verif.Log
open Verif.C Spec

/-- What a message turns into is the same for all messages, and different for different ones. -/
def Shape (f : Str → M (List Out)) : Prop :=
  (∀ msg o, f msg = .ok o → o = []) ∨ ∃ F : Str → Out, (∀ a b, F a = F b → a = b) ∧ ∀ msg o, f msg = .ok o → o = [F msg]

theorem shape_one {f : Str → M (List Out)} (F : Str → Out) (hF : ∀ a b, F a = F b → a = b) (h : ∀ msg o, f msg = .ok o → o = [F msg]) : Shape f :=
  .inr ⟨F, hF, h⟩

theorem shape_none {f : Str → M (List Out)} (h : ∀ msg o, f msg = .ok o → o = []) : Shape f := .inl h

theorem stdio_shape (env : Env) (s : State) (err : Bool) (name : Option Str) (level : Int) : Shape (stdio env s err name level) := by
  cases hs : stampIf env s with
  | error e =>
    refine shape_none fun msg o h => ?_
    rw [stdio, hs] at h
    cases h
  | ok t =>
    refine shape_one (fun m => .stdio err (tidText env s ++ t ++ nameText (dropEmpty name) ++ stdioPrefix level ++ m ++ lit "\n")) (fun a b h => ?_)
      (fun msg o h => ?_)
    · injection h with _ h
      exact List.append_cancel_left (List.append_cancel_right h)
    · rw [stdio, hs, ok_bind] at h
      cases hf : format msg with
      | error e => rw [hf] at h; cases h
      | ok m =>
        rw [hf, ok_bind] at h
        injection h with h
        rw [← h, LogThreads.format_msg hf]

theorem syslog_shape (env : Env) (s : State) (name : Option Str) (level : Int) : Shape (syslog env s name level) := by
  cases hs : s.get 0 with
  | error e =>
    refine shape_none fun msg o h => ?_
    rw [syslog, hs] at h
    cases h
  | ok d =>
    rcases Classical.em ((syslogName d.name name).isSome ∨ (syslogPrefix level).isSome ∨ s.tid) with hc | hc
    · refine shape_one (fun m => .syslog (priority level) (tidText env s ++ nameText (syslogName d.name name) ++ (syslogPrefix level).getD [] ++ m))
        (fun a b h => ?_) (fun msg o h => ?_)
      · injection h with _ h
        exact List.append_cancel_left h
      · rw [syslog, hs, ok_bind, if_pos hc] at h
        cases hf : format msg with
        | error e => rw [hf] at h; cases h
        | ok m =>
          rw [hf, ok_bind] at h
          injection h with h
          rw [← h, LogThreads.format_msg hf]
    · refine shape_one (fun m => .syslog (priority level) m) (fun a b h => by injection h) (fun msg o h => ?_)
      rw [syslog, hs, ok_bind, if_neg hc] at h
      injection h with h
      exact h.symm

theorem callProc_shape (env : Env) (s : State) (p : Proc) (name : Option Str) (level : Int) : Shape (callProc env s p name level) := by
  cases p with
  | stdout => exact stdio_shape env s false name level
  | stderr => exact stdio_shape env s true name level
  | syslog => exact syslog_shape env s name level
  | glib =>
    refine shape_one (fun m => .glib name (if level = VERBOSE then 128 else if level = DEBUG then 64 else if level = WARN then 16
      else if level = ERR then 8 else 32) m) (fun a b h => by injection h) (fun msg o h => ?_)
    injection h with h
    exact h.symm
  | other id =>
    refine shape_one (fun m => .call id name level m) (fun a b h => by injection h) (fun msg o h => ?_)
    injection h with h
    exact h.symm

theorem callProc2_shape (env : Env) (s : State) (p : Proc2) (module : Nat) (level : Int) : Shape (callProc2 env s p module level) := by
  cases p with
  | default =>
    show Shape (defaultProc env s module level)
    unfold defaultProc
    cases s.get module with
    | error e => exact shape_none fun msg o h => by cases h
    | ok m =>
      cases s.func with
      | none => exact shape_none fun msg o h => by injection h with h; exact h.symm
      | some log => exact callProc_shape env s log _ level
  | wrap p =>
    unfold callProc2
    cases s.get module with
    | error e => exact shape_none fun msg o h => by cases h
    | ok m => exact callProc_shape env s p _ level
  | other id =>
    refine shape_one (fun m => .call2 id module level m) (fun a b h => by injection h) (fun msg o h => ?_)
    injection h with h
    exact h.symm

theorem emit_shape (env : Env) (s : State) (module : Option Nat) (level : Int) : Shape (emit env s module level) := by
  unfold emit
  dsimp only
  cases s.get (module.getD 0) with
  | error e => exact shape_none fun msg o h => by cases h
  | ok m =>
    simp only [ok_bind]
    cases (if m.proc.isSome then m.proc else s.func2) with
    | none => exact shape_none fun msg o h => by cases h
    | some log => exact callProc2_shape env s log _ level

theorem decide_shape (env : Env) (s : State) (module : Option Nat) (own : Option Int) (level : Int) : Shape (decide env s module own level) := by
  unfold decide
  cases s.get 0 with
  | error e => exact shape_none fun msg o h => by cases h
  | ok d =>
    simp only [ok_bind]
    split
    · exact emit_shape env s module level
    · exact shape_none fun msg o h => by injection h with h; exact h.symm

theorem logvR_shape (env : Env) (s : State) (module : Option Nat) (level : Int) : ∀ (fuel : Nat) (check : Option Nat),
    Shape (fun msg => logvR env s module level msg fuel check) := by
  intro fuel
  induction fuel with
  | zero => intro check; exact shape_none fun msg o h => by cases check <;> cases h
  | succ fuel ih =>
    intro check
    cases check with
    | none => exact decide_shape env s module none level
    | some i =>
      simp only [logvR]
      cases s.get i with
      | error e => exact shape_none fun msg o h => by cases h
      | ok m =>
        simp only [ok_bind]
        by_cases hd : m.disable = true
        · simp only [hd, if_true]
          exact shape_none fun msg o h => by injection h with h; exact h.symm
        · simp only [hd]
          cases m.parent with
          | none => exact decide_shape env s module _ level
          | some p =>
            by_cases hl : m.level = INHERIT
            · simp only [hl, if_true]; exact ih (some p)
            · simp only [hl, if_false]; exact decide_shape env s module _ level

theorem logv_shape (env : Env) (s : State) (module : Option Nat) (level : Int) : Shape (logv env s module level) := by
  unfold logv
  split
  · exact logvR_shape env s module level _ module
  · exact shape_none fun msg o h => by injection h with h; exact h.symm

theorem logAll_shape (f : Str → M (List Out)) (hf : Shape f) : ∀ (msgs : List Str) (o : List Out), logAll f msgs = .ok o →
    (o ≠ [] ∨ msgs = []) → ∀ (msgs' : List Str), logAll f msgs' = .ok o → msgs' = [] ∨ o ≠ [] → msgs = msgs' := by
  have key : ∀ (F : Str → Out), (∀ msg o, f msg = .ok o → o = [F msg]) → ∀ (msgs : List Str) (o : List Out), logAll f msgs = .ok o → o = msgs.map F := by
    intro F hF msgs
    induction msgs with
    | nil => intro o h; injection h with h; exact h.symm
    | cons m t ih =>
      intro o h
      rw [logAll] at h
      cases h1 : f m with
      | error e => rw [h1] at h; cases h
      | ok o1 =>
        cases h2 : logAll f t with
        | error e => rw [h1, ok_bind, h2] at h; cases h
        | ok o2 =>
          rw [h1, ok_bind, h2, ok_bind] at h
          injection h with h
          rw [← h, hF m o1 h1, ih o2 h2]
          rfl
  have key0 : (∀ msg o, f msg = .ok o → o = []) → ∀ (msgs : List Str) (o : List Out), logAll f msgs = .ok o → o = [] := by
    intro hF msgs
    induction msgs with
    | nil => intro o h; injection h with h; exact h.symm
    | cons m t ih =>
      intro o h
      rw [logAll] at h
      cases h1 : f m with
      | error e => rw [h1] at h; cases h
      | ok o1 =>
        cases h2 : logAll f t with
        | error e => rw [h1, ok_bind, h2] at h; cases h
        | ok o2 =>
          rw [h1, ok_bind, h2, ok_bind] at h
          injection h with h
          rw [← h, hF m o1 h1, ih o2 h2]
          rfl
  intro msgs o h hne msgs' h' hne'
  rcases hf with hf | ⟨F, hi, hf⟩
  · have e := key0 hf msgs o h
    subst e
    rcases hne with hne | rfl
    · exact absurd rfl hne
    · rcases hne' with rfl | hne'
      · rfl
      · exact absurd rfl hne'
  · have e1 := key F hf msgs o h
    have e2 := key F hf msgs' o h'
    have : ∀ (a b : List Str), a.map F = b.map F → a = b := by
      intro a
      induction a with
      | nil => intro b hb; cases b with | nil => rfl | cons => cases hb
      | cons x a ih =>
        intro b hb
        cases b with
        | nil => cases hb
        | cons y b =>
          injection hb with h1 h2
          rw [hi x y h1, ih b h2]
    exact this _ _ (e1.symm.trans e2)

theorem hex4_unique (n : Nat) (a b : Str) (ha : Hex4 n a) (hb : Hex4 n b) : a = b := by
  have hl : a.length = b.length := by
    have h1 := ha.long
    have h2 := hb.long
    rcases Nat.lt_trichotomy a.length b.length with h | h | h
    · have h3 := hb.short (by omega)
      have h4 := ha.all
      have : 16 ^ a.length ≤ 16 ^ (b.length - 1) := Nat.pow_le_pow_right (by omega) (by omega)
      omega
    · exact h
    · have h3 := ha.short (by omega)
      have h4 := hb.all
      have : 16 ^ b.length ≤ 16 ^ (a.length - 1) := Nat.pow_le_pow_right (by omega) (by omega)
      omega
  apply List.ext_getElem? 
  intro i
  by_cases hi : i < a.length
  · have h1 := ha.value (a.length - 1 - i) (by omega)
    have h2 := hb.value (b.length - 1 - i) (by omega)
    have e1 : a.length - 1 - (a.length - 1 - i) = i := by omega
    have e2 : b.length - 1 - (b.length - 1 - i) = i := by omega
    rw [e1] at h1
    rw [e2] at h2
    rw [h1, h2, hl]
  · rw [List.getElem?_eq_none (by omega), List.getElem?_eq_none (by omega)]

theorem chunks_eq (d1 d2 : List Byte) (n : Nat) (h1 : n = (d1.length + 15) / 16) (h2 : n = (d2.length + 15) / 16)
    (h : ∀ k, k < n → (d1.drop (16 * k)).take 16 = (d2.drop (16 * k)).take 16) : d1 = d2 := by
  apply List.ext_getElem?
  intro i
  by_cases hk : i / 16 < n
  · have e := congrArg (fun l => l[i % 16]?) (h (i / 16) hk)
    simp only [List.getElem?_take, List.getElem?_drop] at e
    rw [if_pos (by omega), if_pos (by omega)] at e
    have : 16 * (i / 16) + i % 16 = i := by omega
    rw [this] at e
    exact e
  · rw [List.getElem?_eq_none (by omega), List.getElem?_eq_none (by omega)]

end Verif.Log
