import Verif.Props.Log
import Verif.Props.MiscExact

/-!
# What happens in the cases excluded by C58, C60, C61, C62 and C87
-/

namespace Verif.Log
open Verif.C
open Spec (Chain SameText Denotes ascii Passes)

/-- C58 for `NULL`, without conditions on the default module: its handler gets the message if and
only if the level of the message passes the level stored in the default module. It doesn't matter
whether that module is disabled or has a parent (that's where it differs from
`gutil_log_enabled`). -/
theorem C58_null_exactly (env : Env) (s : State) (level : Int) (msg : Str) (d : Module) (hd : s.modules[0]? = some d)
    (h : Proc2) (hh : (if d.proc.isSome then d.proc else s.func2) = some h) :
    (level ≠ 0 → s.func2.isSome → Passes level d.level → logv env s none level msg = callProc2 env s h 0 level msg) ∧
    (level = 0 ∨ s.func2 = none ∨ ¬ Passes level d.level → logv env s none level msg = .ok []) := by
  have hp : passes level d.level = true ↔ Passes level d.level := by
    unfold passes Passes NONE ALWAYS
    exact decide_eq_true_iff
  constructor
  · intro h0 h1 h2
    rw [logv, if_pos ⟨h0, h1⟩, logvR, decide, get_ok s 0 d hd, ok_bind, Option.getD_none, if_pos (hp.mpr h2)]
    unfold emit
    simp only [Option.getD_none]
    rw [get_ok s 0 d hd, ok_bind, hh]
  · intro h0
    rw [logv]
    by_cases hc : level ≠ NONE ∧ s.func2.isSome = true
    · rw [if_pos hc, logvR, decide, get_ok s 0 d hd, ok_bind, Option.getD_none, if_neg]
      intro e
      rcases h0 with h0 | h0 | h0
      · exact hc.1 h0
      · rw [h0] at hc
        cases hc.2
      · exact h0 (hp.mp e)
    · rw [if_neg hc]

example : (initial 3 []).modules[0]? = some (defaultModule 3) ∧ Passes 3 3 ∧ ¬ Passes 4 3 := by
  refine ⟨rfl, .inl (by omega), ?_⟩
  rintro (h | h) <;> omega

/-- C58 for messages of no level, and without a common handler: no message goes anywhere and `gutil_log_enabled` says so, even if the module has a handler of its own. -/
theorem C58_nobody (env : Env) (s : State) (module : Option Nat) (level : Int) (msg : Str) (h : level = 0 ∨ s.func2 = none) :
    enabled s module level = .ok false ∧ logv env s module level msg = .ok [] := by
  have hc : ¬ (level ≠ NONE ∧ s.func2.isSome = true) := by
    rintro ⟨h1, h2⟩
    rcases h with h | h
    · exact h1 h
    · rw [h] at h2
      cases h2
  exact ⟨by rw [enabled, if_neg hc], by rw [logv, if_neg hc]⟩

/-- The module has got a handler, the common one has been set to `NULL`. -/
example : ∃ s : State, s.func2 = none ∧ ∃ m, s.modules[1]? = some m ∧ m.proc.isSome = true ∧ m.level = 5 :=
  ⟨{ initial 3 [{ defaultModule 5 with proc := some .default }] with func2 := none }, rfl, _, rfl, rfl, rfl⟩

/-- C60 with modules without a name among those given: the first one of them which either has this
name or has none decides. Those behind it don't matter, neither does a nameless one if the level
isn't valid. -/
theorem C60_exactly (s : State) (name t : Str) (pre post : List Nat) (i : Nat) (m : Module) (hc : (0x3a : Byte) ∉ name)
    (hpre : ∀ j ∈ pre, ∃ m n, s.modules[j]? = some m ∧ m.name = some n ∧ ¬ SameText n name) (hi : s.modules[i]? = some m) :
    ((∀ l, ¬ Denotes t l) → parseOption s (name ++ 0x3a :: t) (pre ++ i :: post) =
      .ok (s, false, some (ascii "Invalid log level '" ++ t ++ ascii "'"))) ∧
    (∀ l, Denotes t l → m.name = none → parseOption s (name ++ 0x3a :: t) (pre ++ i :: post) = .error .nullDeref) ∧
    (∀ l n, Denotes t l → m.name = some n → SameText n name → parseOption s (name ++ 0x3a :: t) (pre ++ i :: post) =
      .ok ({ s with modules := s.modules.modify i (fun m => { m with level := l }) }, true, none)) := by
  have hf : (name ++ 0x3a :: t).findIdx? (· == 0x3a) = some name.length := by
    rw [List.findIdx?_eq_some_iff_getElem]
    refine ⟨by simp, by simp, ?_⟩
    intro j hj h
    rw [List.getElem_append_left hj, beq_iff_eq] at h
    exact hc (h ▸ List.getElem_mem hj)
  have hd : (name ++ 0x3a :: t).drop (name.length + 1) = t := by
    have : name ++ 0x3a :: t = (name ++ [0x3a]) ++ t := by simp
    rw [this, List.drop_left' (by simp)]
  have htk : (name ++ 0x3a :: t).take name.length = name := List.take_left' rfl
  have hskip : findModule s (name ++ 0x3a :: t) name.length (pre ++ i :: post) =
      findModule s (name ++ 0x3a :: t) name.length (i :: post) := by
    clear hi
    induction pre with
    | nil => rfl
    | cons j rest ih =>
      obtain ⟨mj, n, h1, h2, h3⟩ := hpre j (by simp)
      rw [List.cons_append, findModule, get_ok s j mj h1, ok_bind, h2, nameMatches, ok_bind, if_neg]
      · exact ih (fun k hk => hpre k (by simp [hk]))
      · intro hb
        have := (strncaseEq_iff name.length n (name ++ 0x3a :: t) (by simp)).mp hb
        rw [htk] at this
        exact h3 this
  unfold parseOption
  rw [hf]
  simp only [hd]
  refine ⟨?_, ?_, ?_⟩
  · intro h
    cases hp : parseLevel t with
    | none => rfl
    | some i => exact absurd ((parseLevel_iff t i).mp hp) (h i)
  · intro l hl hn
    rw [(parseLevel_iff t l).mpr hl]
    simp only []
    rw [hskip, findModule, get_ok s i m hi, ok_bind, hn]
    rfl
  · intro l n hl hn hs
    rw [(parseLevel_iff t l).mpr hl]
    simp only []
    rw [hskip, findModule, get_ok s i m hi, ok_bind, hn, nameMatches, ok_bind, if_pos]
    · rfl
    · refine (strncaseEq_iff name.length n (name ++ 0x3a :: t) (by simp)).mpr ?_
      rw [htk]
      exact hs

example : (∀ j ∈ [2], ∃ m n, exampleState.modules[j]? = some m ∧ m.name = some n ∧ ¬ SameText n (ascii "x")) ∧
    exampleState.modules[0]?.map Module.name = some none := by
  refine ⟨?_, by decide +kernel⟩
  intro j hj
  simp only [List.mem_cons, List.not_mem_nil, or_false] at hj
  subst hj
  exact ⟨_, _, rfl, rfl, by unfold SameText; decide +kernel⟩

/-- C61, what exactly a failing call does: it calls `closelog` if the system log is being used (and
goes on using it), and changes the name of the default module if one is given. -/
theorem C61_failure_exactly (s : State) (type : Str) (name : Option Str)
    (ht : ∀ p ∈ [Proc.stdout, .stderr, .syslog, .glib], ¬ SameText type (typeName p)) :
    setType s type name = ({ s with
        opened := if s.func = some .syslog then false else s.opened
        modules := match name with
          | some n => s.modules.modify 0 (fun m => { m with name := some n })
          | none => s.modules }, false) := by
  have hno : ∀ q ∈ [Proc.stdout, .stderr, .syslog, .glib], ¬ strcaseEq type (typeName q) = true :=
    fun q hq h => ht q hq ((strcaseEq_iff _ _).mp h)
  unfold setType
  rw [if_neg (hno .syslog (by simp))]
  simp only []
  rw [if_neg (hno .stdout (by simp)), if_neg (hno .stderr (by simp)), if_neg (hno .glib (by simp))]
  unfold State.close State.setName
  by_cases h : s.func = some .syslog
  · rw [if_pos h, if_pos h]
    cases name <;> rfl
  · rw [if_neg h, if_neg h]
    cases name <;> rfl

example : ∀ p ∈ [Proc.stdout, .stderr, .syslog, .glib], ¬ SameText (ascii "systemd") (typeName p) := by
  unfold SameText
  decide +kernel

theorem dumpLine_high (prn : Byte → Bool) (pfx : Str) (data : List Byte) (off size : Nat) (hs : size < 2 ^ 32)
    (hd : off + size ≤ data.length) (h : ∃ b ∈ (data.drop off).take (min size 16), 128 ≤ b.toNat) :
    dumpLine ⟨.strict, true, prn⟩ pfx data off size = .error .badArg := by
  unfold dumpLine
  simp only []
  rw [Nat.mod_eq_of_lt hs, Misc.C51_exactly prn (data.drop off) size (by rw [List.length_drop]; omega) h, error_bind]

theorem dumpLoop_high (env : Env) (prn : Byte → Bool) (s : State) (module : Option Nat) (level : Int) (pfx : Str) (data : List Byte)
    (hlog : ∀ msg, ∃ out, logv env s module level msg = .ok out) :
    ∀ (fuel off size : Nat), size < fuel → off + size ≤ data.length → data.length < 2 ^ 32 →
    (∃ b ∈ (data.drop off).take size, 128 ≤ b.toNat) →
    dumpLoop env ⟨.strict, true, prn⟩ s module level pfx data fuel off size = .error .badArg := by
  intro fuel
  induction fuel with
  | zero => intro off size h; omega
  | succ fuel ih =>
    intro off size hf hd hs hb
    have h0 : 0 < size := by
      obtain ⟨b, hb, -⟩ := hb
      rcases Nat.eq_zero_or_pos size with h | h
      · rw [h] at hb
        simp at hb
      · exact h
    rw [dumpLoop, if_pos h0]
    rcases Classical.em (∃ b ∈ (data.drop off).take (min size 16), 128 ≤ b.toNat) with hc | hc
    · rw [dumpLine_high prn pfx data off size (by omega) hd hc, error_bind]
    · obtain ⟨line, h1, -, -⟩ := Misc.C51_hexdump_partial .strict true prn (data.drop off) size (by rw [List.length_drop]; omega)
        (.inr (.inr (fun b hb => Nat.lt_of_not_le (fun e => hc ⟨b, hb, e⟩))))
      have h2 : ∃ m, dumpLine ⟨.strict, true, prn⟩ pfx data off size = .ok (m, min size 16) := by
        unfold dumpLine
        simp only []
        rw [Nat.mod_eq_of_lt (by omega), h1, ok_bind]
        exact ⟨_, rfl⟩
      obtain ⟨m, h2⟩ := h2
      obtain ⟨o, ho⟩ := hlog m
      have h16 : 16 < size := by
        rcases Nat.lt_or_ge 16 size with h | h
        · exact h
        · rw [Nat.min_eq_left h] at hc
          exact absurd hb hc
      rw [Nat.min_eq_right (by omega)] at h2 hc
      rw [h2, ok_bind]
      simp only []
      rw [ho, ok_bind, Nat.mod_eq_of_lt (by omega), ih (off + 16) (size - 16) (by omega) (by omega) hs, error_bind]
      obtain ⟨b, hb, hb'⟩ := hb
      refine ⟨b, ?_, hb'⟩
      have e : (data.drop off).take size = (data.drop off).take 16 ++ ((data.drop (off + 16)).take (size - 16)) := by
        rw [← List.drop_drop, ← List.take_add, Nat.add_sub_cancel' (by omega)]
      rw [e, List.mem_append] at hb
      rcases hb with hb | hb
      · exact absurd ⟨b, hb, hb'⟩ hc
      · exact hb

/-- C62, the other excluded case: `char` is signed, `isprint` accepts only what the standard says
it does, and there's a byte over 0x7f anywhere in the data; this is undefined then. -/
theorem C62_exactly (fuel : Nat) (env : Env) (prn : Byte → Bool) (s : State) (module : Option Nat) (level : Int) (pfx : Option Str)
    (data : List Byte) (hs : data.length < 2 ^ 32) (hfuel : data.length < fuel) (hb : ∃ b ∈ data, 128 ≤ b.toNat)
    (he : enabled s module level = .ok true) (hlog : ∀ msg, ∃ out, logv env s module level msg = .ok out) :
    dump fuel env ⟨.strict, true, prn⟩ s module level pfx data data.length = .error .badArg := by
  rw [dump, he, ok_bind, if_pos rfl]
  refine dumpLoop_high env prn s module level _ data hlog fuel 0 data.length hfuel (by omega) hs ?_
  rw [List.drop_zero, List.take_length]
  exact hb

example (env : Env) : enabled exampleState (some 2) 1 = .ok true ∧ (∀ msg, ∃ out, logv env exampleState (some 2) 1 msg = .ok out) ∧
    ∃ b ∈ (List.replicate 20 0x20 ++ [0xe4] : List Byte), 128 ≤ b.toNat :=
  ⟨by decide +kernel, fun msg => ⟨_, rfl⟩, 0xe4, by simp, by decide⟩

theorem format_doubles (msg : Str) (h : 2 ^ 31 ≤ msg.length) : ∀ (k fuel : Nat) (size : Int), k ≤ fuel → 0 < size →
    2 ^ 31 ≤ size * 2 ^ k → size ≤ intMax → formatLoop msg fuel size = .error .signedOverflow := by
  intro k
  induction k with
  | zero =>
    intro fuel size _ _ h1 h2
    unfold intMax at h2
    omega
  | succ k ih =>
    intro fuel size hf h0 h1 h2
    cases fuel with
    | zero => omega
    | succ fuel =>
      rw [formatLoop]
      have hv : vsnprintf size msg = (msg.take (size.toNat - 1), -1) := by
        unfold vsnprintf intMax
        rw [if_neg (by omega)]
      rw [hv]
      simp only []
      rw [if_neg (by omega), nextSize, if_neg (by omega)]
      by_cases hc : intMin ≤ size * 2 ∧ size * 2 ≤ intMax
      · rw [chk32, if_pos hc, ok_bind]
        refine ih fuel (size * 2) (by omega) (by omega) ?_ hc.2
        rw [Int.pow_succ] at h1
        rw [Int.mul_assoc, Int.mul_comm 2]
        exact h1
      · rw [chk32, if_neg hc, error_bind]

/-- C87 in the excluded cases. The timestamp is enabled and has 32 characters or more:
uninitialised memory is printed, whatever else there is. The message has 2^31-1 characters or
more: the size of the buffer overflows. -/
theorem C87_exactly (env : Env) (s : State) (err : Bool) (name : Option Str) (level : Int) (msg f : Str) (hf : ftime s = .ok f) :
    (s.timestamp = true → f ≠ [] → 32 ≤ (env.strftime f).length →
      callProc env s (if err then .stderr else .stdout) name level msg = .error .uninit) ∧
    ((s.timestamp = true → f ≠ [] → (env.strftime f).length < 32) → 2 ^ 31 - 1 ≤ msg.length →
      callProc env s (if err then .stderr else .stdout) name level msg = .error .signedOverflow) := by
  rw [show callProc env s (if err then .stderr else .stdout) name level msg = stdio env s err name level msg by cases err <;> rfl]
  unfold stdio
  constructor
  · intro ht h0 hl
    rw [stampIf, if_pos ht, hf, ok_bind, if_pos h0, stamp, if_neg (by omega), error_bind]
  · intro ht hm
    have h1 : ∃ t, stampIf env s = .ok t := by
      unfold stampIf
      by_cases h : s.timestamp = true
      · rw [if_pos h, hf, ok_bind]
        by_cases h0 : f ≠ []
        · rw [if_pos h0, stamp, if_pos (ht h h0)]
          exact ⟨_, rfl⟩
        · rw [if_neg h0]
          exact ⟨_, rfl⟩
      · rw [if_neg h]
        exact ⟨_, rfl⟩
    obtain ⟨t, h1⟩ := h1
    rw [h1, ok_bind]
    have h2 : format msg = .error .signedOverflow := by
      rcases Nat.lt_or_ge msg.length (2 ^ 31) with h | h
      · exact C87_refuted_long msg (by omega)
      · exact format_doubles msg h 22 32 512 (by omega) (by omega) (by decide) (by decide)
    rw [h2, error_bind]

example : ftime exampleState = .ok ftimeDefault ∧ ftimeDefault ≠ [] := by decide +kernel

/-- C88, everything that gets to the system log: the priority, and the text which consists of thread id if that's enabled, the name (unless it's
the default one or empty), severity of warnings and errors, and the message. `LOG_ERR` is 3, `LOG_WARNING` 4, `LOG_NOTICE` 5, `LOG_INFO` 6,
`LOG_DEBUG` 7. Messages which are 2 GiB long or more are fine only if there's nothing else to print. -/
theorem C88_syslog_exactly (env : Env) (s : State) (d : Module) (hd : s.modules[0]? = some d) (name : Option Str) (level : Int) (msg : Str) :
    (msg.length < 2 ^ 31 - 1 ∨ s.tid = false ∧ (name = none ∨ name = some [] ∨ name = d.name) ∧ level ≠ 1 ∧ level ≠ 2 →
      callProc env s .syslog name level msg = .ok [.syslog
        (if level = 1 then 3 else if level = 2 then 4 else if level = 4 then 6 else if level = 5 then 7 else 5)
        ((if s.tid then ascii "[" ++ env.tid ++ ascii "] " else []) ++
          (match name with
            | some n => if n = [] ∨ some n = d.name then [] else ascii "[" ++ n ++ ascii "] "
            | none => []) ++
          (if level = 1 then ascii "ERROR! " else if level = 2 then ascii "WARNING! " else []) ++ msg)]) ∧
    (2 ^ 31 - 1 ≤ msg.length → ¬ (s.tid = false ∧ (name = none ∨ name = some [] ∨ name = d.name) ∧ level ≠ 1 ∧ level ≠ 2) →
      callProc env s .syslog name level msg = .error .signedOverflow) := by
  have hnt : nameText (syslogName d.name name) = match name with
            | some n => if n = [] ∨ some n = d.name then [] else ascii "[" ++ n ++ ascii "] "
            | none => [] := by
    unfold syslogName
    cases name with
    | none => by_cases h : (none : Option Str) = some [] ∨ none = d.name <;> simp [nameText]
    | some n =>
      by_cases h : n = [] ∨ some n = d.name
      · rw [if_pos (by simpa using h)]
        simp only [if_pos h]
        rfl
      · rw [if_neg (by simpa using h)]
        simp only [if_neg h]
        rfl
  have hname : (syslogName d.name name).isSome = true ↔ ¬ (name = none ∨ name = some [] ∨ name = d.name) := by
    unfold syslogName
    split
    · rename_i h
      constructor
      · intro e
        cases e
      · intro e
        exact absurd (.inr h) e
    · rename_i h
      cases name with
      | none => simp
      | some n => simpa using h
  have hpre : (syslogPrefix level).isSome = true ↔ ¬ (level ≠ 1 ∧ level ≠ 2) := by
    unfold syslogPrefix WARN ERR
    by_cases h2 : level = 2
    · rw [if_pos h2]
      simp [h2]
    · by_cases h1 : level = 1
      · rw [if_neg h2, if_pos h1]
        simp [h1]
      · rw [if_neg h2, if_neg h1]
        simp [h1, h2]
  have hprio : priority level = if level = 1 then 3 else if level = 2 then 4 else if level = 4 then 6 else if level = 5 then 7 else 5 := by
    unfold priority VERBOSE DEBUG WARN ERR
    repeat' split
    all_goals omega
  have hpt : (syslogPrefix level).getD [] = if level = 1 then ascii "ERROR! " else if level = 2 then ascii "WARNING! " else [] := by
    unfold syslogPrefix WARN ERR
    by_cases h2 : level = 2
    · rw [if_pos h2, if_neg (by omega), if_pos h2]
      rfl
    · by_cases h1 : level = 1
      · rw [if_neg h2, if_pos h1, if_pos h1]
        rfl
      · rw [if_neg h2, if_neg h1, if_neg h1, if_neg h2]
        rfl
  show (_ → syslog env s name level msg = _) ∧ (_ → _ → syslog env s name level msg = _)
  unfold syslog
  rw [get_ok s 0 d hd, ok_bind]
  constructor
  · intro hm
    rw [← hprio, ← hpt, ← hnt]
    split
    · rename_i h
      rcases hm with hm | hm
      · rw [format_ok msg hm, ok_bind]
        rfl
      · rcases h with h | h | h
        · exact absurd hm.2.1 (hname.mp h)
        · exact absurd hm.2.2 (hpre.mp h)
        · rw [hm.1] at h
          cases h
    · rename_i h
      have h1 : syslogName d.name name = none := by
        cases e : syslogName d.name name with
        | none => rfl
        | some n => exact absurd (.inl (by rw [e]; rfl)) h
      have h2 : syslogPrefix level = none := by
        cases e : syslogPrefix level with
        | none => rfl
        | some n => exact absurd (.inr (.inl (by rw [e]; rfl))) h
      have h3 : ¬ s.tid = true := fun e => h (.inr (.inr e))
      rw [h1, h2, if_neg h3]
      rfl
  · intro hl hn
    have h2 : format msg = .error .signedOverflow := by
      rcases Nat.lt_or_ge msg.length (2 ^ 31) with h | h
      · exact C87_refuted_long msg (by omega)
      · exact format_doubles msg h 22 32 512 (by omega) (by omega) (by decide) (by decide)
    rw [if_pos, h2, error_bind]
    rw [hname, hpre]
    by_cases ht : s.tid = true
    · exact .inr (.inr ht)
    · have ht' : s.tid = false := by simpa using ht
      by_cases h3 : name = none ∨ name = some [] ∨ name = d.name
      · exact .inr (.inl (fun e => hn ⟨ht', h3, e⟩))
      · exact .inl h3

/-- C88, everything that gets to GLib. `G_LOG_LEVEL_CRITICAL` is 8, `G_LOG_LEVEL_WARNING` 16, `G_LOG_LEVEL_MESSAGE` 32, `G_LOG_LEVEL_INFO` 64,
`G_LOG_LEVEL_DEBUG` 128. -/
theorem C88_glib_exactly (env : Env) (s : State) (name : Option Str) (level : Int) (msg : Str) :
    callProc env s .glib name level msg = .ok [.glib name
      (if level = 1 then 8 else if level = 2 then 16 else if level = 4 then 64 else if level = 5 then 128 else 32) msg] := by
  have h : (if level = VERBOSE then 128 else if level = DEBUG then 64 else if level = WARN then 16 else if level = ERR then 8 else 32) =
      if level = 1 then 8 else if level = 2 then 16 else if level = 4 then 64 else if level = 5 then 128 else 32 := by
    unfold VERBOSE DEBUG WARN ERR
    repeat' split
    all_goals omega
  show Except.ok (glib name level msg) = _
  unfold glib
  simp only [h]

example : callProc ⟨id, lit "42"⟩ { exampleState with tid := true } .syslog (some (lit "b")) 1 (lit "oops") =
    .ok [.syslog 3 (ascii "[42] [b] ERROR! oops")] := by decide +kernel

end Verif.Log
