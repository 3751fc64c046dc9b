import Verif.Proof.LogDump

/-!
# Logging: C58-C63, C86-C90
-/

namespace Verif.Log
open Verif.C Spec

/-! ### C59: levels -/

/-- C59. If the modules from `i` on whose settings matter are `i :: rest` then the message is let
through iff none of them is disabled, and its level passes the level of the last one (or the
default level if that has none). -/
theorem C59_level (s : State) (i : Nat) (rest : List Nat) (level : Int) (hc : Chain s.modules (i :: rest)) (hf : s.func2.isSome) :
    ∃ max b, levelOf s.modules (i :: rest) = some max ∧ enabled s (some i) level = .ok b ∧
      (b = true ↔ NoneDisabled s.modules (i :: rest) ∧ Passes level max) := by
  have hl := chain_length _ _ hc
  obtain ⟨d, hd⟩ : ∃ d, s.modules[0]? = some d := ⟨_, List.getElem?_eq_getElem (by simp at hl; omega)⟩
  obtain ⟨max, b, h1, h2, h3⟩ := enabledR_ok s level d hd rest i (s.modules.length + 1) hc (by simp at hl; omega)
  by_cases h0 : level = 0
  · subst h0
    refine ⟨max, false, h1, by unfold enabled NONE; simp, ?_⟩
    simp only [Bool.false_eq_true, false_iff, not_and]
    intro _ h
    rcases h with h | h
    · omega
    · omega
  · refine ⟨max, b, h1, ?_, h3⟩
    unfold enabled
    rw [if_pos ⟨h0, hf⟩]
    exact h2

/-- There's always such a chain, and just one, if no module is its own ancestor. -/
theorem C59_chain (ms : List Module) (rank : Nat → Nat)
    (hp : ∀ (i : Nat) m p, ms[i]? = some m → m.parent = some p → p < ms.length ∧ rank p < rank i) (i : Nat) (hi : i < ms.length) :
    ∃ rest, Chain ms (i :: rest) ∧ ∀ other, Chain ms (i :: other) → other = rest := by
  have : ∀ (n i : Nat), rank i < n → i < ms.length → ∃ rest, Chain ms (i :: rest) := by
    intro n
    induction n with
    | zero => intro i h; omega
    | succ n ih =>
      intro i hr hi
      have hm : ms[i]? = some ms[i] := List.getElem?_eq_getElem hi
      cases hpar : (ms[i]).parent with
      | none => exact ⟨[], _, hm, .inr hpar⟩
      | some p =>
        by_cases hl : (ms[i]).level = -1
        · obtain ⟨h1, h2⟩ := hp i _ p hm hpar
          obtain ⟨rest, h3⟩ := ih p (by omega) h1
          exact ⟨p :: rest, ⟨_, hm, hl, hpar⟩, h3⟩
        · exact ⟨[], _, hm, .inl hl⟩
  obtain ⟨rest, h⟩ := this (rank i + 1) i (by omega) hi
  exact ⟨rest, h, fun other ho => chain_unique ms other rest i ho h⟩

/-- Nothing is enabled without a handler, `NULL` stands for the default module. -/
theorem C59_null (s : State) (level : Int) :
    enabled s none level = enabled s (some 0) level ∧
    (s.func2 = none → ∀ m, enabled s m level = .ok false) := by
  refine ⟨rfl, ?_⟩
  intro h m
  unfold enabled
  simp [h]

/-- Grandchild of the default module which has the level "warning" -/
def exampleState : State :=
  { initial 2 [⟨some (lit "a"), some 0, none, -1, false, false⟩, ⟨some (lit "b"), some 1, none, -1, false, false⟩] with
    func := some (.other 5) }

example : Chain exampleState.modules [2, 1, 0] :=
  ⟨⟨_, rfl, rfl, rfl⟩, ⟨_, rfl, rfl, rfl⟩, ⟨_, rfl, .inl (by decide)⟩⟩
example : enabled exampleState (some 2) 2 = .ok true ∧ enabled exampleState (some 2) 3 = .ok false ∧
    enabled exampleState (some 2) (-2) = .ok true ∧ enabled exampleState (some 2) 0 = .ok false := by decide +kernel

/-! ### C58: logging happens iff enabled -/

/-- C58 is false for the `NULL` module: the message is printed although the default module is
disabled; and if the default module inherits its level from a parent, that's not taken into
account. -/
theorem C58_refuted (env : Env) : ∃ s1 s2 : State,
    enabled s1 none 1 = .ok false ∧ logv env s1 none 1 (lit "x") = .ok [.call 5 none 1 (lit "x")] ∧
    enabled s2 none 1 = .ok true ∧ logv env s2 none 1 (lit "x") = .ok [] := by
  refine ⟨{ initial 3 [] with modules := [⟨none, none, none, 3, false, true⟩], func := some (.other 5) },
    { initial 3 [] with modules := [⟨none, some 1, none, -1, false, false⟩, ⟨none, none, none, 5, false, false⟩] },
    by decide +kernel, rfl, by decide +kernel, rfl⟩

theorem logvR_call (env : Env) (s : State) (i : Nat) (module : Option Nat) (level : Int) (msg : Str)
    (hd : s.modules[0]?.isSome)
    (m : Module) (hm : s.modules[module.getD 0]? = some m) (h : Proc2) (hh : (if m.proc.isSome then m.proc else s.func2) = some h)
    (b : Bool) (hb : enabledR s level (s.modules.length + 1) i = .ok b) :
    logvR env s module level msg (s.modules.length + 1) (some i) =
      if b then callProc2 env s h (module.getD 0) level msg else .ok [] := by
  rw [logvR_ok env s module level msg hd _ i b hb]
  cases b with
  | false => rfl
  | true =>
    simp only [if_true]
    unfold emit
    simp only []
    rw [get_ok s _ m hm, ok_bind, hh]

/-- C58 for modules. The handler is the one of the module, or the common one. -/
theorem C58_module_partial (env : Env) (s : State) (i : Nat) (rest : List Nat) (level : Int) (msg : Str)
    (hc : Chain s.modules (i :: rest)) (m : Module) (hm : s.modules[i]? = some m)
    (h : Proc2) (hh : (if m.proc.isSome then m.proc else s.func2) = some h) :
    ∃ b, enabled s (some i) level = .ok b ∧
      logv env s (some i) level msg = if b then callProc2 env s h i level msg else .ok [] := by
  have hl := chain_length _ _ hc
  obtain ⟨d, hd'⟩ : ∃ d, s.modules[0]? = some d := ⟨_, List.getElem?_eq_getElem (by simp at hl; omega)⟩
  have hd : s.modules[0]?.isSome := by rw [hd']; rfl
  obtain ⟨max, b, h1, h2, h3⟩ := enabledR_ok s level d hd' rest i (s.modules.length + 1) hc (by simp at hl; omega)
  by_cases h0 : level ≠ NONE ∧ s.func2.isSome = true
  · refine ⟨b, by rw [enabled, if_pos h0]; exact h2, ?_⟩
    rw [logv, if_pos h0]
    exact logvR_call env s i (some i) level msg hd m hm h hh b h2
  · exact ⟨false, by rw [enabled, if_neg h0], by rw [logv, if_neg h0]; rfl⟩

/-- C58 for `NULL`, provided that the default module isn't disabled, and doesn't inherit anything
(it has no parent, normally). -/
theorem C58_null_partial (env : Env) (s : State) (level : Int) (msg : Str) (d : Module) (hd : s.modules[0]? = some d)
    (hdis : d.disable = false) (hc : d.level ≠ -1 ∨ d.parent = none)
    (h : Proc2) (hh : (if d.proc.isSome then d.proc else s.func2) = some h) :
    ∃ b, enabled s none level = .ok b ∧
      logv env s none level msg = if b then callProc2 env s h 0 level msg else .ok [] := by
  by_cases h0 : level ≠ NONE ∧ s.func2.isSome = true
  · refine ⟨passes level d.level, ?_, ?_⟩
    · rw [enabled, if_pos h0, enabledR]
      show (s.get 0 >>= _) = _
      rw [get_ok s 0 d hd, ok_bind, if_neg (by simp [hdis])]
      cases hp : d.parent with
      | some p =>
        simp only []
        rw [if_neg]
        rcases hc with hc | hc
        · exact hc
        · rw [hp] at hc; cases hc
      | none =>
        simp only []
        rw [ok_bind]
        split <;> rfl
    · rw [logv, if_pos h0, logvR, decide, get_ok s 0 d hd, ok_bind, Option.getD_none]
      unfold emit
      simp only [Option.getD_none]
      rw [get_ok s 0 d hd, ok_bind, hh]
  · exact ⟨false, by rw [enabled, if_neg h0], by rw [logv, if_neg h0]; rfl⟩

example (env : Env) : logv env exampleState (some 2) 2 (lit "hello") = .ok [.call 5 (some (lit "b")) 2 (lit "hello")] ∧
    logv env exampleState (some 2) 3 (lit "hello") = .ok [] := by
  constructor <;> rfl

/-! ### C86: handlers -/

/-- C86. A custom `GLogProc2` gets the module, the level and the message, once. The default one
forwards these to `gutil_log_func`, if there is one; the name of the module is `NULL` if it's
hidden. -/
theorem C86_handler (env : Env) (s : State) (i : Nat) (m : Module) (hm : s.modules[i]? = some m) (level : Int) (msg : Str) :
    (∀ id, callProc2 env s (.other id) i level msg = .ok [.call2 id i level msg]) ∧
    (∀ id, s.func = some (.other id) →
      callProc2 env s .default i level msg = .ok [.call id (if m.hideName then none else m.name) level msg]) ∧
    (s.func = none → callProc2 env s .default i level msg = .ok []) ∧
    (∀ id, callProc2 env s (.wrap (.other id)) i level msg = .ok [.call id m.name level msg]) := by
  refine ⟨fun _ => rfl, ?_, ?_, ?_⟩
  · intro id h
    rw [callProc2, defaultProc, get_ok s i m hm, ok_bind, h]
    rfl
  · intro h
    rw [callProc2, defaultProc, get_ok s i m hm, ok_bind, h]
  · intro id
    rw [callProc2, get_ok s i m hm, ok_bind]
    rfl

example : (logv ⟨id, []⟩ { exampleState with modules := exampleState.modules.map (fun m => { m with hideName := true }) } (some 1) 1 (lit "x")) =
    .ok [.call 5 none 1 (lit "x")] := rfl

/-- C86, the functions provided by the library: `gutil_log_func` gets the name unless it's hidden, `gutil_log_stdout2` and the other ones which
take a module get its name, hidden or not. See C87 and C88 about what they do. -/
theorem C86_provided (env : Env) (s : State) (i : Nat) (m : Module) (hm : s.modules[i]? = some m) (level : Int) (msg : Str) (p : Proc) :
    (s.func = some p → callProc2 env s .default i level msg = callProc env s p (if m.hideName then none else m.name) level msg) ∧
    callProc2 env s (.wrap p) i level msg = callProc env s p m.name level msg := by
  constructor
  · intro h
    rw [callProc2, defaultProc, get_ok s i m hm, ok_bind, h]
  · rw [callProc2, get_ok s i m hm, ok_bind]

example : callProc2 ⟨id, []⟩ { exampleState with modules := exampleState.modules.map (fun m => { m with hideName := true, name := some (lit "b") }) } (.wrap .stderr) 1 1 (lit "x") =
    .ok [.stdio true (ascii "[b] ERROR: x\n")] := by decide +kernel

/-! ### C87: what is printed -/

/-- C87 is false if the timestamp is longer than 31 characters: uninitialised memory is printed. Any
format producing such a timestamp does it. -/
theorem C87_refuted (env : Env) (s s' : State) (f : Str) (hs : s.custom = none) (hf : f ≠ []) (h : 32 ≤ (env.strftime f).length)
    (hset : setTimestampFormat s (some f) = .ok s') (err : Bool) (name : Option Str) (level : Int) (msg : Str) :
    stdio env { s' with timestamp := true } err name level msg = .error .uninit := by
  unfold setTimestampFormat cmpCustom at hset
  simp only [hs, ok_bind, gfree] at hset
  rw [if_pos (by decide)] at hset
  cases hset
  unfold stdio stampIf
  simp only [if_true]
  unfold ftime str
  simp only [List.getElem?_concat_length, ok_bind]
  rw [if_pos hf, stamp, if_neg (by omega), error_bind]

/-- Such formats: this one, in which nothing is replaced -/
example : 32 ≤ ((⟨id, []⟩ : Env).strftime (lit "This is a rather long timestamp:")).length := by decide +kernel

/-- C87 for timestamps which fit in their buffer: one line is printed, consisting of the thread id
(if enabled), the timestamp (if enabled), the name (if any) in square brackets, the severity of
warnings and errors, and the message. That's the full message, of any length (up to 2^31-2). Standard error is
used by `gutil_log_stderr`, and standard output by `gutil_log_stdout`. -/
theorem C87_line_partial (env : Env) (s : State) (err : Bool) (name : Option Str) (level : Int) (msg f : Str)
    (hf : ftime s = .ok f) (ht : (env.strftime f).length < 32) (hm : msg.length < 2 ^ 31 - 1) :
    callProc env s (if err then .stderr else .stdout) name level msg = .ok [.stdio err (
      (if s.tid then ascii "[" ++ env.tid ++ ascii "] " else []) ++
      (if s.timestamp ∧ f ≠ [] then env.strftime f else []) ++
      (match name with
        | some n => if n = [] then [] else ascii "[" ++ n ++ ascii "] "
        | none => []) ++
      (if level = 1 then ascii "ERROR: " else if level = 2 then ascii "WARNING: " else []) ++
      msg ++ ascii "\n")] := by
  rw [show callProc env s (if err then .stderr else .stdout) name level msg = stdio env s err name level msg by cases err <;> rfl]
  unfold stdio
  have h1 : stampIf env s = .ok (if s.timestamp ∧ f ≠ [] then env.strftime f else []) := by
    unfold stampIf
    by_cases h : s.timestamp = true
    · rw [if_pos h, hf, ok_bind]
      by_cases h0 : f ≠ []
      · rw [if_pos h0, if_pos ⟨h, h0⟩, stamp, if_pos ht]
      · rw [if_neg h0, if_neg (fun e => h0 e.2)]
    · rw [if_neg h, if_neg (fun e => h e.1)]
  have h2 : nameText (dropEmpty name) = (match name with
        | some n => if n = [] then [] else ascii "[" ++ n ++ ascii "] "
        | none => []) := by
    unfold dropEmpty
    cases name with
    | none => rfl
    | some n =>
      by_cases h : n = []
      · subst h; rfl
      · rw [if_neg (by simpa using h)]
        simp only []
        rw [if_neg h]
        rfl
  have h3 : stdioPrefix level = (if level = 1 then ascii "ERROR: " else if level = 2 then ascii "WARNING: " else []) := by
    unfold stdioPrefix WARN ERR
    by_cases e1 : level = 1
    · subst e1; rfl
    · by_cases e2 : level = 2
      · subst e2; rfl
      · rw [if_neg e2, if_neg e1, if_neg e1, if_neg e2]
  rw [h1, ok_bind, format_ok msg hm, ok_bind, h2, h3]
  rfl

/-- The message is too long only if there's an overflow of `int`. -/
theorem C87_refuted_long (msg : Str) (h : msg.length = 2 ^ 31 - 1) : format msg = .error .signedOverflow := by
  unfold format
  rw [formatLoop]
  have hv : vsnprintf 512 msg = (msg.take ((512 : Int).toNat - 1), (msg.length : Int)) := by
    unfold vsnprintf intMax
    rw [if_pos (by omega)]
  rw [hv]
  simp only []
  rw [if_neg (by omega), nextSize, if_pos (by omega), chk32, if_neg (by unfold intMin intMax; omega), error_bind]

example : stdio ⟨fun _ => lit "12:00 ", lit "42"⟩ { exampleState with timestamp := true, tid := true } true (some (lit "b")) 2 (lit "oops") =
    .ok [.stdio true (ascii "[42] 12:00 [b] WARNING: oops\n")] := by decide +kernel

/-! ### C88: severity -/

/-- C88. The messages which are more severe in terms of GLOG_LEVEL_ERR (1), ..., GLOG_LEVEL_VERBOSE (5)
are more severe in terms of syslog and glib too (smaller number means more severe). -/
theorem C88_severity (env : Env) (s : State) (d : Module) (hd : s.modules[0]? = some d) (l1 l2 : Int)
    (h1 : 1 ≤ l1 ∧ l1 ≤ 5) (h2 : 1 ≤ l2 ∧ l2 ≤ 5) (name : Option Str) (msg : Str) (hm : msg.length < 2 ^ 31 - 1) :
    (∃ p1 p2 t1 t2, syslog env s name l1 msg = .ok [.syslog p1 t1] ∧ syslog env s name l2 msg = .ok [.syslog p2 t2] ∧
      (p1 < p2 ↔ l1 < l2) ∧ msg <:+ t1 ∧ msg <:+ t2) ∧
    (∃ f1 f2, glib name l1 msg = [.glib name f1 msg] ∧ glib name l2 msg = [.glib name f2 msg] ∧ (f1 < f2 ↔ l1 < l2)) := by
  have hs : ∀ l, ∃ t, syslog env s name l msg = .ok [.syslog (priority l) t] ∧ msg <:+ t := by
    intro l
    unfold syslog
    rw [get_ok s 0 d hd, ok_bind]
    split
    · rw [format_ok msg hm, ok_bind]
      exact ⟨_, rfl, List.suffix_append _ _⟩
    · exact ⟨_, rfl, List.suffix_refl _⟩
  obtain ⟨t1, e1, e2⟩ := hs l1
  obtain ⟨t2, e3, e4⟩ := hs l2
  have hl : ∀ l : Int, 1 ≤ l ∧ l ≤ 5 → l = 1 ∨ l = 2 ∨ l = 3 ∨ l = 4 ∨ l = 5 := by omega
  refine ⟨⟨_, _, t1, t2, e1, e3, ?_, e2, e4⟩, ⟨_, _, rfl, rfl, ?_⟩⟩
  · rcases hl l1 h1 with rfl | rfl | rfl | rfl | rfl <;> rcases hl l2 h2 with rfl | rfl | rfl | rfl | rfl <;> decide
  · rcases hl l1 h1 with rfl | rfl | rfl | rfl | rfl <;> rcases hl l2 h2 with rfl | rfl | rfl | rfl | rfl <;> decide

/-- C88. That's what happens to a message logged by a module which has no function of its own, if it passes: the more important it is, the
more severe it gets. The module may have its name hidden. -/
theorem C88_logged (env : Env) (s : State) (i : Nat) (rest : List Nat) (level : Int) (msg : Str) (hc : Chain s.modules (i :: rest))
    (m : Module) (hm : s.modules[i]? = some m) (hp : m.proc = none) (h2 : s.func2 = some .default) (hl : 1 ≤ level ∧ level ≤ 5)
    (hb : enabled s (some i) level = .ok true) (hs : msg.length < 2 ^ 31 - 1) :
    (s.func = some .syslog → ∃ t, logv env s (some i) level msg = .ok [.syslog (level.toNat + 2) t] ∧ msg <:+ t) ∧
    (s.func = some .glib → logv env s (some i) level msg = .ok [.glib (if m.hideName then none else m.name) (2 ^ (level.toNat + 2)) msg]) := by
  obtain ⟨b, h3, h4⟩ := C58_module_partial env s i rest level msg hc m hm .default (by simp [hp, h2])
  rw [hb] at h3
  cases h3
  rw [if_pos rfl, callProc2, defaultProc, get_ok s i m hm, ok_bind] at h4
  obtain ⟨d, hd⟩ : ∃ d, s.modules[0]? = some d :=
    ⟨_, List.getElem?_eq_getElem (by have := chain_length _ _ hc; simp at this; omega)⟩
  have hv : level = 1 ∨ level = 2 ∨ level = 3 ∨ level = 4 ∨ level = 5 := by omega
  constructor <;> intro hf <;> rw [hf] at h4 <;> rw [h4]
  · have hpr : priority level = level.toNat + 2 := by rcases hv with rfl | rfl | rfl | rfl | rfl <;> decide
    rw [← hpr]
    unfold callProc syslog
    dsimp only
    rw [get_ok s 0 d hd, ok_bind, format_ok msg hs, ok_bind]
    generalize (if m.hideName = true then none else m.name) = shown
    by_cases hn : (syslogName d.name shown).isSome = true ∨ (syslogPrefix level).isSome = true ∨ s.tid = true
    · rw [if_pos hn]
      exact ⟨_, rfl, List.suffix_append _ _⟩
    · rw [if_neg hn]
      exact ⟨_, rfl, List.suffix_refl _⟩
  · rcases hv with rfl | rfl | rfl | rfl | rfl <;> rfl

example : Chain exampleState.modules [2, 1, 0] ∧ enabled exampleState (some 2) 2 = .ok true ∧ exampleState.func2 = some .default :=
  ⟨⟨⟨_, rfl, rfl, rfl⟩, ⟨_, rfl, rfl, rfl⟩, ⟨_, rfl, .inl (by decide)⟩⟩, by decide +kernel, by decide +kernel⟩

/-- The default name isn't repeated in the system log; the other ones are there. -/
theorem C88_name (env : Env) (s : State) (d : Module) (hd : s.modules[0]? = some d) (n : Str) (level : Int) (hl : level ≠ 1 ∧ level ≠ 2)
    (ht : s.tid = false) (msg : Str) (hm : msg.length < 2 ^ 31 - 1) :
    ∃ p, syslog env s (some n) level msg = .ok [.syslog p (if n = [] ∨ some n = d.name then msg else ascii "[" ++ n ++ ascii "] " ++ msg)] := by
  have hp : syslogPrefix level = none := by
    unfold syslogPrefix WARN ERR
    rw [if_neg hl.2, if_neg hl.1]
  unfold syslog
  rw [get_ok s 0 d hd, ok_bind, hp, ht]
  by_cases h : n = [] ∨ some n = d.name
  · have : syslogName d.name (some n) = none := by
      unfold syslogName
      rw [if_pos]
      rcases h with h | h
      · exact .inl (by rw [h])
      · exact .inr h
    rw [this, if_neg (by simp), if_pos h]
    exact ⟨_, rfl⟩
  · have : syslogName d.name (some n) = some n := by
      unfold syslogName
      rw [if_neg]
      intro e
      apply h
      rcases e with e | e
      · exact .inl (by simpa using e)
      · exact .inr e
    rw [this, if_pos (by simp), if_neg h, format_ok msg hm, ok_bind]
    refine ⟨priority level, ?_⟩
    unfold tidText
    rw [if_neg (by simp [ht])]
    simp only [List.nil_append, Option.getD_none, List.append_nil]
    rfl

example : syslog ⟨id, []⟩ exampleState (some (lit "b")) 1 (lit "oops") = .ok [.syslog 3 (ascii "[b] ERROR! oops")] := by decide +kernel

/-! ### C60: options -/

/-- The level is never ambiguous. -/
theorem C60_unique (t : Str) (i j : Nat) (hi : Denotes t i) (hj : Denotes t j) : i = j := by
  rw [← parseLevel_iff] at hi hj
  rw [hi] at hj
  exact Option.some.inj hj

/-- C60, an option without a colon: sets the default level, and nothing else; or it's not a level,
then nothing happens. -/
theorem C60_default (s : State) (opt : Str) (modules : List Nat) (hc : (0x3a : Byte) ∉ opt) :
    (∀ i, Denotes opt i → parseOption s opt modules =
      .ok ({ s with modules := s.modules.modify 0 (fun m => { m with level := i }) }, true, none)) ∧
    ((∀ i, ¬ Denotes opt i) → parseOption s opt modules = .ok (s, false, some (ascii "Invalid log level '" ++ opt ++ ascii "'"))) := by
  have hf : opt.findIdx? (· == 0x3a) = none := by
    rw [List.findIdx?_eq_none_iff]
    intro x hx
    simp only [beq_eq_false_iff_ne]
    rintro rfl
    exact hc hx
  unfold parseOption
  rw [hf]
  simp only []
  constructor
  · intro i hi
    rw [(parseLevel_iff opt i).mpr hi]
    rfl
  · intro h
    cases hp : parseLevel opt with
    | none => rfl
    | some i => exact absurd ((parseLevel_iff opt i).mp hp) (h i)

/-- C60 isn't true if one of the modules has no name: it crashes. -/
theorem C60_refuted : parseOption (initial 3 []) (lit "foo:debug") [0] = .error .nullDeref := by decide +kernel

/-- C60, an option with a colon: `name` is what's before the first one, `t` is what's after it. Sets
the level of the first module which has this name (in upper or lower case), and nothing else. If
there's none or it's not a level, nothing happens and the error tells why. All the modules have names. -/
theorem C60_module_partial (s : State) (name t : Str) (modules : List Nat) (hc : (0x3a : Byte) ∉ name)
    (hm : ∀ i ∈ modules, ∃ m n, s.modules[i]? = some m ∧ m.name = some n) :
    (∀ l pre i post m n, Denotes t l → modules = pre ++ i :: post → s.modules[i]? = some m → m.name = some n → SameText n name →
      (∀ j ∈ pre, ∀ m n, s.modules[j]? = some m → m.name = some n → ¬ SameText n name) →
      parseOption s (name ++ 0x3a :: t) modules =
        .ok ({ s with modules := s.modules.modify i (fun m => { m with level := l }) }, true, none)) ∧
    ((∀ l, ¬ Denotes t l) → parseOption s (name ++ 0x3a :: t) modules = .ok (s, false, some (ascii "Invalid log level '" ++ t ++ ascii "'"))) ∧
    (∀ l, Denotes t l → (∀ j ∈ modules, ∀ m n, s.modules[j]? = some m → m.name = some n → ¬ SameText n name) →
      parseOption s (name ++ 0x3a :: t) modules = .ok (s, false, some (ascii "Unknown log module '" ++ name ++ ascii "'"))) := by
  have hf : (name ++ 0x3a :: t).findIdx? (· == 0x3a) = some name.length := by
    rw [List.findIdx?_eq_some_iff_getElem]
    refine ⟨by simp, by simp, ?_⟩
    intro j hj h
    rw [List.getElem_append_left hj, beq_iff_eq] at h
    exact hc (h ▸ List.getElem_mem hj)
  have hd : (name ++ 0x3a :: t).drop (name.length + 1) = t := by
    have : name ++ 0x3a :: t = (name ++ [0x3a]) ++ t := by simp
    rw [this, List.drop_left' (by simp)]
  have htk : (name ++ 0x3a :: t).take name.length = name := List.take_left' rfl
  obtain ⟨r, h1, h2⟩ := findModule_ok s (name ++ 0x3a :: t) name.length (by simp) modules hm
  rw [htk] at h2
  unfold parseOption
  rw [hf]
  simp only [hd]
  refine ⟨?_, ?_, ?_⟩
  · intro l pre i post m n hl hmod hi hn hs hpre
    rw [(parseLevel_iff t l).mpr hl]
    simp only []
    rw [h1, ok_bind]
    cases r with
    | none => exact absurd hs (h2 i (by rw [hmod]; simp) m n hi hn)
    | some x =>
      obtain ⟨pre2, post2, e1, ⟨m2, n2, e2, e3, e4⟩, e5⟩ := h2
      -- both are the first match
      have : x = i := by
        rw [hmod] at e1
        rcases Nat.lt_trichotomy pre.length pre2.length with h | h | h
        · have hmem : i ∈ pre2 := by
            have : (pre ++ i :: post)[pre.length]? = some i := by simp
            rw [e1, List.getElem?_append_left h] at this
            exact List.mem_of_getElem? this
          exact absurd hs (e5 i hmem m n hi hn)
        · have e6 := congrArg (fun l => l[pre.length]?) e1
          rw [List.getElem?_append_right (Nat.le_refl _), h, List.getElem?_append_right (Nat.le_refl _)] at e6
          simpa using e6.symm
        · have hmem : x ∈ pre := by
            have : (pre2 ++ x :: post2)[pre2.length]? = some x := by simp
            rw [← e1, List.getElem?_append_left h] at this
            exact List.mem_of_getElem? this
          exact absurd e4 (hpre x hmem m2 n2 e2 e3)
      subst this
      rfl
  · intro h
    cases hp : parseLevel t with
    | none => rfl
    | some i => exact absurd ((parseLevel_iff t i).mp hp) (h i)
  · intro l hl h
    rw [(parseLevel_iff t l).mpr hl]
    simp only []
    rw [h1, ok_bind]
    cases r with
    | none =>
      simp only [htk]
      rfl
    | some x =>
      obtain ⟨pre2, post2, e1, ⟨m2, n2, e2, e3, e4⟩, e5⟩ := h2
      exact absurd e4 (h x (by rw [e1]; simp) m2 n2 e2 e3)

example : (parseOption exampleState (lit "B:deb") [1, 2]).map (fun r => (r.1.modules.map Module.level, r.2)) = .ok ([2, -1, 4], true, none) := by
  decide +kernel
example : Denotes (ascii "deb") 4 ∧ Denotes (ascii "3") 3 :=
  ⟨.inr ⟨"debug", rfl, by decide +kernel, by decide +kernel⟩, .inl ⟨by decide, by decide +kernel⟩⟩

/-! ### C61: types -/

/-- C61 isn't true: a failing call has closed the system log and changed the name. -/
theorem C61_refuted : ∃ (s : State) (type : Str), s.func = some .syslog ∧ s.opened = true ∧
    (setType s type (some (lit "x"))).2 = false ∧ (setType s type (some (lit "x"))).1.opened = false ∧
    (setType s type (some (lit "x"))).1.modules ≠ s.modules :=
  ⟨(setType (initial 3 []) (lit "syslog") (some (lit "y"))).1, lit "file", by decide +kernel, by decide +kernel, by decide +kernel,
    by decide +kernel, by decide +kernel⟩

/-- C61, success: if the type is one of the four (in upper or lower case) it's the current one
after that, the name of the default module is changed if it's given, the connection to the system log is opened if that's the type and it
wasn't, closed if it was and isn't anymore, and that's all. -/
theorem C61_success (s : State) (type : Str) (name : Option Str) (p : Proc) (hp : p ∈ [Proc.stdout, .stderr, .syslog, .glib])
    (ht : SameText type (typeName p)) :
    setType s type name = ({ s with
        func := some p
        opened := if p = .syslog then (if s.func = some .syslog then s.opened else true)
          else if s.func = some .syslog then false else s.opened
        modules := match name with
          | some n => s.modules.modify 0 (fun m => { m with name := some n })
          | none => s.modules }, true) ∧
      getType (setType s type name).1 = typeName p := by
  have hdiff : ∀ q ∈ [Proc.stdout, .stderr, .syslog, .glib], q ≠ p → ¬ (typeName q).map small = (typeName p).map small := by
    simp only [List.mem_cons, List.not_mem_nil, or_false] at hp
    intro q hq
    simp only [List.mem_cons, List.not_mem_nil, or_false] at hq
    rcases hp with rfl | rfl | rfl | rfl <;> rcases hq with rfl | rfl | rfl | rfl <;> decide
  have hyes : strcaseEq type (typeName p) = true := (strcaseEq_iff _ _).mpr ht
  have hno : ∀ q ∈ [Proc.stdout, .stderr, .syslog, .glib], q ≠ p → ¬ strcaseEq type (typeName q) = true := by
    intro q hq hqp h
    have h2 : SameText type (typeName q) := (strcaseEq_iff _ _).mp h
    unfold SameText at h2 ht
    exact hdiff q hq hqp (h2.symm.trans ht)
  have hname : ∀ (s : State) (f : Option Proc), { s.close.setName name with func := f } = { s with
        func := f
        opened := if s.func = some .syslog then false else s.opened
        modules := match name with
          | some n => s.modules.modify 0 (fun m => { m with name := some n })
          | none => s.modules } := by
    intro s f
    unfold State.close State.setName
    by_cases h : s.func = some .syslog
    · rw [if_pos h, if_pos h]
      cases name <;> rfl
    · rw [if_neg h, if_neg h]
      cases name <;> rfl
  simp only [List.mem_cons, List.not_mem_nil, or_false] at hp
  rcases hp with rfl | rfl | rfl | rfl
  · have ho := hname s (some .stdout)
    have e : setType s type name = ({ s.close.setName name with func := some .stdout }, true) := by
      unfold setType
      rw [if_neg (hno .syslog (by simp) (by simp))]
      simp only []
      rw [if_pos hyes]
    exact ⟨by rw [e, ho, if_neg (show ¬ Proc.stdout = Proc.syslog by decide)], by rw [e]; rfl⟩
  · have ho := hname s (some .stderr)
    have e : setType s type name = ({ s.close.setName name with func := some .stderr }, true) := by
      unfold setType
      rw [if_neg (hno .syslog (by simp) (by simp))]
      simp only []
      rw [if_neg (hno .stdout (by simp) (by simp)), if_pos hyes]
    exact ⟨by rw [e, ho, if_neg (show ¬ Proc.stderr = Proc.syslog by decide)], by rw [e]; rfl⟩
  · unfold setType
    rw [if_pos hyes]
    unfold State.setName
    by_cases h : s.func = some .syslog
    · rw [if_pos rfl, if_pos h, if_neg (fun e => e h)]
      cases name <;> exact ⟨rfl, rfl⟩
    · rw [if_pos rfl, if_neg h, if_pos h]
      cases name <;> exact ⟨rfl, rfl⟩
  · have ho := hname s (some .glib)
    have e : setType s type name = ({ s.close.setName name with func := some .glib }, true) := by
      unfold setType
      rw [if_neg (hno .syslog (by simp) (by simp))]
      simp only []
      rw [if_neg (hno .stdout (by simp) (by simp)), if_neg (hno .stderr (by simp) (by simp)), if_pos hyes]
    exact ⟨by rw [e, ho, if_neg (show ¬ Proc.glib = Proc.syslog by decide)], by rw [e]; rfl⟩

/-- C61, failure: the type remains the same; if the name isn't given and the system log isn't
used, nothing changes at all. -/
theorem C61_failure_partial (s : State) (type : Str) (name : Option Str)
    (ht : ∀ p ∈ [Proc.stdout, .stderr, .syslog, .glib], ¬ SameText type (typeName p)) :
    (setType s type name).2 = false ∧ (setType s type name).1.func = s.func ∧ getType (setType s type name).1 = getType s ∧
    (name = none → s.func ≠ some .syslog → setType s type name = (s, false)) := by
  have hno : ∀ q ∈ [Proc.stdout, .stderr, .syslog, .glib], ¬ strcaseEq type (typeName q) = true :=
    fun q hq h => ht q hq ((strcaseEq_iff _ _).mp h)
  have e : setType s type name = (s.close.setName name, false) := by
    unfold setType
    rw [if_neg (hno .syslog (by simp))]
    simp only []
    rw [if_neg (hno .stdout (by simp)), if_neg (hno .stderr (by simp)), if_neg (hno .glib (by simp))]
  have hf : (s.close.setName name).func = s.func := by
    unfold State.close State.setName
    by_cases h : s.func = some .syslog
    · rw [if_pos h]
      cases name <;> rfl
    · rw [if_neg h]
      cases name <;> rfl
  rw [e]
  refine ⟨rfl, hf, ?_, ?_⟩
  · unfold getType
    simp only [hf]
  · rintro rfl hs
    unfold State.close State.setName
    rw [if_neg hs]

example : getType (setType (initial 3 []) (lit "StdErr") none).1 = ascii "stderr" := by decide +kernel
example : ∀ p ∈ [Proc.stdout, .stderr, .syslog, .glib], ¬ SameText (ascii "file") (typeName p) := by
  unfold SameText
  decide +kernel

/-! ### C62: dump -/

/-- C62 is false for all blocks of 4 GiB or more: it never ends, no matter how long one waits. (The
handler works, and all bytes are acceptable for `isprint`.) -/
theorem C62_refuted (fuel : Nat) (env : Env) (ct : Ctype) (s : State) (module : Option Nat) (level : Int) (pfx : Option Str)
    (data : List Byte) (size : Nat) (hs : size ≥ 2 ^ 32) (hd : size ≤ data.length) (hct : Accepts ct data)
    (he : enabled s module level = .ok true) (hlog : ∀ msg, ∃ out, logv env s module level msg = .ok out) :
    dump fuel env ct s module level pfx data size = .error .diverge := by
  rw [dump, he, ok_bind, if_pos rfl]
  exact dumpLoop_diverges env ct s module level _ data hct hlog fuel 0 size hs (by omega) (by omega)

/-- The conditions of `C62_refuted` are met: the example state, and any large block. -/
example (env : Env) : enabled exampleState (some 2) 1 = .ok true ∧
    (∀ msg, ∃ out, logv env exampleState (some 2) 1 msg = .ok out) ∧
    ∃ data : List Byte, 2 ^ 32 ≤ data.length ∧ Accepts ⟨.wrap, true, fun b => b == 0x41⟩ data := by
  refine ⟨by decide +kernel, fun msg => ⟨_, rfl⟩, ?_⟩
  obtain ⟨n, hn⟩ : ∃ n, n = 2 ^ 32 := ⟨_, rfl⟩
  exact ⟨List.replicate n 0, by simp; omega, rfl, .inl rfl⟩

/-- C62 for less than 4 GiB: one message for each 16 bytes (the last one may be shorter) is logged.
It consists of the prefix, the offset, and the line showing these bytes. -/
theorem C62_dump_partial (fuel : Nat) (env : Env) (ct : Ctype) (s : State) (module : Option Nat) (level : Int) (pfx : Option Str)
    (data : List Byte) (hs : data.length < 2 ^ 32) (hfuel : data.length < fuel) (hct : Accepts ct data)
    (he : enabled s module level = .ok true) :
    ∃ msgs, dump fuel env ct s module level pfx data data.length = logAll (logv env s module level) msgs ∧
      msgs.length = (data.length + 15) / 16 ∧
      ∀ k, k < msgs.length → ∃ addr line, msgs[k]? = some (pfx.getD [] ++ addr ++ ascii ": " ++ line) ∧ Hex4 (16 * k) addr ∧
        Misc.Spec.Line ct.printable ((data.drop (16 * k)).take 16) line := by
  obtain ⟨msgs, h1, h2, h3⟩ := dumpLoop_ok env ct s module level (pfx.getD []) data hct hs fuel 0 data.length (by omega) hfuel
  refine ⟨msgs, by rw [dump, he, ok_bind, if_pos rfl, h1], h2, ?_⟩
  intro k hk
  have := h3 k hk
  rw [Nat.zero_add] at this
  exact this

/-- Nothing is logged if it's not enabled, or there are no bytes. -/
theorem C62_disabled (fuel : Nat) (env : Env) (ct : Ctype) (s : State) (module : Option Nat) (level : Int) (pfx : Option Str)
    (data : List Byte) (size : Nat) (he : enabled s module level = .ok false) :
    dump fuel env ct s module level pfx data size = .ok [] ∧ dumpBytes fuel env ct s module level pfx none = .ok [] ∧
    dumpBytes fuel env ct s module level pfx (some data) = .ok [] := by
  refine ⟨?_, rfl, ?_⟩
  · rw [dump, he, ok_bind, if_neg (by simp)]
  · rw [dumpBytes, dump, he, ok_bind, if_neg (by simp)]

example : dump 100 ⟨id, []⟩ ⟨.wrap, true, fun b => b == 0x41⟩ exampleState (some 2) 1 (some (lit "> ")) (List.replicate 17 0x41) 17 =
    .ok [.call 5 (some (lit "b")) 1 (lit "> 0000: 41 41 41 41 41 41 41 41  41 41 41 41 41 41 41 41    AAAAAAAA AAAAAAAA"),
         .call 5 (some (lit "b")) 1 (lit "> 0010: 41                                                  A")] := by
  decide +kernel

/-! ### C63: timestamp format -/

/-- Any number of calls, in a row -/
def setFormats (s : State) : List (Option Str) → M State
  | [] => .ok s
  | f :: t => do
    let s ← setTimestampFormat s f
    setFormats s t

/-- C63. After any sequence of calls the format is the last one set (the default one if that was
`NULL`, or nothing has been set), nothing has been released twice or used after that, and all
the copies have been released except for the current one. Nothing else changes. -/
theorem C63_format (dflt : Int) (others : List Module) (fs : List (Option Str)) :
    ∃ s, setFormats (initial dflt others) fs = .ok s ∧
      ftime s = .ok (match fs.getLast? with
        | some (some f) => f
        | _ => ascii "%Y-%m-%d %H:%M:%S ") ∧
      s.heap.countP Option.isSome = (match fs.getLast? with
        | some (some _) => 1
        | _ => 0) ∧
      { s with ftime := .default, custom := none, heap := [] } = initial dflt others := by
  have key : ∀ (fs : List (Option Str)) (s : State) (cur : Option Str),
      FormatIs s cur →
      ∃ s', setFormats s fs = .ok s' ∧
        ftime s' = .ok (((fs.getLast?).getD cur).getD (ascii "%Y-%m-%d %H:%M:%S ")) ∧
        s'.heap.countP Option.isSome = (if ((fs.getLast?).getD cur).isSome then 1 else 0) ∧
        { s' with ftime := .default, custom := none, heap := [] } = { s with ftime := .default, custom := none, heap := [] } := by
    intro fs
    induction fs with
    | nil =>
      intro s cur h
      refine ⟨s, rfl, ?_, ?_, rfl⟩
      · cases cur with
        | none =>
          unfold ftime
          rw [h.2.1]
          rfl
        | some f =>
          obtain ⟨a, _, h2, h3, _⟩ := h
          unfold ftime
          rw [h2]
          simp only [str, h3]
          rfl
      · cases cur with
        | none => simpa using h.2.2
        | some f =>
          obtain ⟨a, _, _, _, h4⟩ := h
          simpa using h4
    | cons f t ih =>
      intro s cur h
      obtain ⟨s1, e1, e2, e3⟩ := setFormat_ok s cur f h
      obtain ⟨s2, e4, e5, e6, e7⟩ := ih s1 f e2
      have hl : ((f :: t).getLast?).getD cur = (t.getLast?).getD f := by
        cases t with
        | nil => rfl
        | cons g u => rw [List.getLast?_cons_cons, List.getLast?_cons, Option.getD_some, Option.getD_some]
      refine ⟨s2, by rw [setFormats, e1, ok_bind, e4], by rw [hl]; exact e5, by rw [hl]; exact e6, by rw [e7, e3]⟩
  obtain ⟨s, h1, h2, h3, h4⟩ := key fs (initial dflt others) none ⟨rfl, rfl, rfl⟩
  refine ⟨s, h1, ?_, ?_, h4⟩
  · rw [h2]
    cases fs.getLast? with
    | none => rfl
    | some f => cases f <;> rfl
  · rw [h3]
    cases fs.getLast? with
    | none => rfl
    | some f => cases f <;> rfl

example : (setFormats (initial 3 []) [some (lit "%H"), some (lit "%H"), some (lit "%M"), none, some (lit "%S")]).map (fun s => (s.heap, s.custom)) =
    .ok ([none, none, some (ascii "%S")], some 2) := by decide +kernel

/-! ### C89: environment -/

/-- C89. The default level is what the variable says if that's an integer (decimal or hexadecimal)
not less than -1, otherwise it's not changed. Likewise the timestamps and thread ids are turned on
by positive numbers and off by zero. Nothing else is changed. -/
theorem C89_environment (s : State) (level timestamp tid : Option Str) :
    init s level timestamp tid = { s with
      modules := match Parse.parseInt level 0 with
        | some v => if v ≥ -1 then s.modules.modify 0 (fun m => { m with level := v }) else s.modules
        | none => s.modules
      timestamp := match Parse.parseInt timestamp 0 with
        | some v => if v > 0 then true else if v = 0 then false else s.timestamp
        | none => s.timestamp
      tid := match Parse.parseInt tid 0 with
        | some v => if v > 0 then true else if v = 0 then false else s.tid
        | none => s.tid } := by
  have hv : ∀ (var : Option Str) (b : Bool), initFlag b var = (match Parse.parseInt var 0 with
      | some v => if v > 0 then true else if v = 0 then false else b
      | none => b) := by
    intro var b
    unfold initFlag intVar
    cases Parse.parseInt var 0 with
    | none => rfl
    | some v =>
      simp only []
      by_cases h1 : v > 0
      · rw [if_pos (by omega), if_pos h1]
        simp [h1]
      · rw [if_neg h1]
        by_cases h2 : v = 0
        · subst h2; rfl
        · rw [if_neg (by omega), if_neg h2]
  have e1 : initLevel s level = { s with modules := match Parse.parseInt level 0 with
        | some v => if v ≥ -1 then s.modules.modify 0 (fun m => { m with level := v }) else s.modules
        | none => s.modules } := by
    unfold initLevel intVar INHERIT State.setLevel
    cases Parse.parseInt level 0 with
    | none => rfl
    | some v =>
      simp only []
      by_cases h : v ≥ -1
      · rw [if_pos h, if_pos h]
      · rw [if_neg h, if_neg h]
  unfold init
  rw [e1, hv, hv]

example : (init (initial 3 []) (some (lit "0x5")) (some (lit " 1 ")) (some (lit "-1"))).modules[0]?.map Module.level = some 5 ∧
    (init (initial 3 []) (some (lit "0x5")) (some (lit " 1 ")) (some (lit "-1"))).timestamp = true := by decide +kernel

/-! ### C90: description -/

/-- Each line, whether or not it's the default level -/
theorem describeLevel_eq (dflt : Int) (i : Nat) (t : String) (h : levelTable[i]? = some t) :
    describeLevel dflt i = .ok (ascii t ++ (if (i : Int) = dflt then ascii " (default)" else []) ++ ascii "\n") := by
  have key : ∀ j : Fin 6, ∃ name desc, rd levelNames j.1 = .ok name ∧ rd levelDescriptions j.1 = .ok desc ∧
      levelTable[j.1]?.map ascii = some (lit "   " ++ [BitVec.ofNat 8 (0x30 + j.1)] ++ lit ", " ++ pad8 name ++ lit "    " ++ desc) := by
    intro j
    rcases j with ⟨j, hj⟩
    have : j = 0 ∨ j = 1 ∨ j = 2 ∨ j = 3 ∨ j = 4 ∨ j = 5 := by omega
    clear dflt i t h
    rcases this with rfl | rfl | rfl | rfl | rfl | rfl <;> exact ⟨_, _, rfl, rfl, by revert hj; decide +kernel⟩
  have hi : i < 6 := (List.getElem?_eq_some_iff.mp h).1
  obtain ⟨name, desc, h1, h2, h3⟩ := key ⟨i, hi⟩
  rw [h] at h3
  unfold describeLevel
  rw [h1, ok_bind, h2, ok_bind, Option.some.inj h3]
  rfl

theorem describeLevels_eq (dflt : Int) : describeLevels dflt 6 0 = .ok (levelLines dflt) := by
  simp only [describeLevels, describeLevel_eq dflt 0 _ rfl, describeLevel_eq dflt 1 _ rfl, describeLevel_eq dflt 2 _ rfl,
    describeLevel_eq dflt 3 _ rfl, describeLevel_eq dflt 4 _ rfl, describeLevel_eq dflt 5 _ rfl, ok_bind]
  rfl

/-- C90. The description consists of the levels, the default one being marked, and a line for each module
(one without a name being printed as `(null)`). -/
theorem C90_description (dflt : Int) (s : State) (modules : List Nat) (hm : ∀ i ∈ modules, ∃ m, s.modules[i]? = some m) :
    description dflt s none = .ok (ascii "Log Levels:\n" ++ levelLines dflt) ∧
      description dflt s (some modules) = .ok (ascii "Log Levels:\n" ++ levelLines dflt ++ ascii "\nLog Modules:\n" ++
        modules.flatMap (fun i => ascii "  " ++ ((s.modules[i]?).bind Module.name).getD (ascii "(null)") ++ ascii "\n")) := by
  have h1 : describeModules s modules =
      .ok (modules.flatMap (fun i => ascii "  " ++ ((s.modules[i]?).bind Module.name).getD (ascii "(null)") ++ ascii "\n")) := by
    induction modules with
    | nil => rfl
    | cons i t ih =>
      obtain ⟨m, h1⟩ := hm i (by simp)
      rw [describeModules, get_ok s i m h1, ok_bind, ih (fun j hj => hm j (List.mem_cons_of_mem _ hj)), ok_bind,
        List.flatMap_cons, h1, Option.bind_some]
      cases hn : m.name <;> rfl
  have h2 : describeLevels dflt 6 0 = .ok (levelLines dflt) := describeLevels_eq dflt
  refine ⟨?_, ?_⟩
  · rw [description, h2, ok_bind, describeKnown, ok_bind, List.append_nil]
    rfl
  · rw [description, h2, ok_bind, describeKnown, h1, ok_bind, ok_bind]
    simp only [List.append_assoc]
    rfl

example : description 3 exampleState (some [1]) = .ok (
    ascii "Log Levels:\n" ++
    ascii "   0, none        Disable log output\n" ++
    ascii "   1, error       Errors only\n" ++
    ascii "   2, warning     From warning level to errors\n" ++
    ascii "   3, info        From information level to errors (default)\n" ++
    ascii "   4, debug       From debug messages to errors\n" ++
    ascii "   5, verbose     From verbose trace messages to errors\n" ++
    ascii "\n" ++
    ascii "Log Modules:\n" ++
    ascii "  a\n") := by decide +kernel

end Verif.Log
