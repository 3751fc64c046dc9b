import Verif.Spec.LogCb
import Verif.Props.Log

namespace Verif.LogCb
open Verif.C Spec
open Verif.Log (Module Proc Proc2 Out Env Ctype)

/-! ### A single message -/

/-- Messages can be logged. -/
structure Good (env : Env) (c : Config) : Prop where
  sane : Sane c.modules
  fmt : ∃ cur, Log.FormatIs c cur ∧ ∀ f, cur = some f → (env.strftime f).length < 32
  dflt : (env.strftime Log.ftimeDefault).length < 32

theorem ftime_ok {env : Env} {c : Config} (g : Good env c) : ∃ f, Log.ftime c = .ok f ∧ (env.strftime f).length < 32 := by
  obtain ⟨cur, h1, h2⟩ := g.fmt
  cases cur with
  | none => exact ⟨_, by unfold Log.ftime; rw [h1.2.1], g.dflt⟩
  | some f =>
    obtain ⟨a, _, h4, h5, _⟩ := h1
    refine ⟨f, ?_, h2 f rfl⟩
    unfold Log.ftime
    rw [h4]
    simp only [str, h5]

theorem first_module {env : Env} {c : Config} (g : Good env c) : ∃ d, c.modules[0]? = some d :=
  ⟨_, List.getElem?_eq_getElem (List.length_pos_iff.mpr g.sane.1)⟩

theorem callProc_ok {env : Env} {c : Config} (g : Good env c) (p : Proc) (name : Option Str) (level : Int) (msg : Str) (hm : msg.length < 2 ^ 31 - 1) :
    ∃ o, Log.callProc env c p name level msg = .ok [o] := by
  obtain ⟨f, h1, h2⟩ := ftime_ok g
  obtain ⟨d, hd⟩ := first_module g
  cases p with
  | stdout => exact ⟨_, Log.C87_line_partial env c false name level msg f h1 h2 hm⟩
  | stderr => exact ⟨_, Log.C87_line_partial env c true name level msg f h1 h2 hm⟩
  | glib => exact ⟨_, rfl⟩
  | other id => exact ⟨_, rfl⟩
  | syslog =>
    unfold Log.callProc Log.syslog
    dsimp only
    rw [Log.get_ok c 0 d hd, ok_bind, Log.format_ok msg hm, ok_bind]
    split
    · exact ⟨_, rfl⟩
    · exact ⟨_, rfl⟩

theorem callProc2_ok {env : Env} {c : Config} (g : Good env c) (p : Proc2) (i : Nat) (hi : i < c.modules.length) (level : Int) (msg : Str) (hm : msg.length < 2 ^ 31 - 1) :
    ∃ outs, Log.callProc2 env c p i level msg = .ok outs ∧ outs.length ≤ 1 := by
  have hg := Log.get_ok c i _ (List.getElem?_eq_getElem hi)
  cases p with
  | other id => exact ⟨_, rfl, by simp⟩
  | wrap p =>
    obtain ⟨o, ho⟩ := callProc_ok g p (c.modules[i]).name level msg hm
    exact ⟨[o], by rw [Log.callProc2, hg, ok_bind, ho], by simp⟩
  | default =>
    rw [Log.callProc2, Log.defaultProc, hg, ok_bind]
    split
    · rename_i p _
      obtain ⟨o, ho⟩ := callProc_ok g p (if (c.modules[i]).hideName then none else (c.modules[i]).name) level msg hm
      exact ⟨[o], ho, by simp⟩
    · exact ⟨[], rfl, by simp⟩

theorem logv_ok {env : Env} {c : Config} (g : Good env c) (module : Option Nat) (hi : module.getD 0 < c.modules.length) (level : Int) (msg : Str) (hm : msg.length < 2 ^ 31 - 1) :
    ∃ outs, Log.logv env c module level msg = .ok outs ∧ outs.length ≤ 1 := by
  by_cases h0 : level ≠ Log.NONE ∧ c.func2.isSome = true
  · obtain ⟨f2, hf2⟩ := Option.isSome_iff_exists.mp h0.2
    have hproc : ∀ m : Module, ∃ h, (if m.proc.isSome then m.proc else c.func2) = some h := by
      intro m
      by_cases hp : m.proc.isSome = true
      · obtain ⟨p, hp'⟩ := Option.isSome_iff_exists.mp hp
        exact ⟨p, by rw [if_pos hp, hp']⟩
      · exact ⟨f2, by rw [if_neg hp, hf2]⟩
    cases module with
    | some i =>
      have hi' : i < c.modules.length := hi
      obtain ⟨rank, hr⟩ := g.sane.2
      obtain ⟨rest, hc, _⟩ := Log.C59_chain c.modules rank hr i hi'
      obtain ⟨h, hh⟩ := hproc (c.modules[i])
      obtain ⟨b, _, h2⟩ := Log.C58_module_partial env c i rest level msg hc _ (List.getElem?_eq_getElem hi') h hh
      rw [h2]
      split
      · exact callProc2_ok g h i hi' level msg hm
      · exact ⟨[], rfl, by simp⟩
    | none =>
      obtain ⟨d, hd⟩ := first_module g
      obtain ⟨h, hh⟩ := hproc d
      rw [Log.logv, if_pos h0, Log.logvR, Log.decide, Log.get_ok c 0 d hd, ok_bind]
      split
      · rw [Log.emit]
        dsimp only [Option.getD]
        rw [Log.get_ok c 0 d hd, ok_bind, hh]
        exact callProc2_ok g h 0 hi level msg hm
      · exact ⟨[], rfl, by simp⟩
  · exact ⟨[], by rw [Log.logv, if_neg h0], by simp⟩

theorem enabled_ok {env : Env} {c : Config} (g : Good env c) (module : Option Nat) (hi : module.getD 0 < c.modules.length) (level : Int) :
    ∃ b, Log.enabled c module level = .ok b := by
  have he : Log.enabled c module level = Log.enabled c (some (module.getD 0)) level := rfl
  rw [he]
  by_cases h0 : c.func2.isSome = true
  · obtain ⟨rank, hr⟩ := g.sane.2
    obtain ⟨rest, hc, _⟩ := Log.C59_chain c.modules rank hr _ hi
    obtain ⟨_, b, _, h, _⟩ := Log.C59_level c _ rest level hc h0
    exact ⟨b, h⟩
  · exact ⟨false, by rw [Log.enabled, if_neg (fun h => h0 h.2)]⟩

theorem one_out {outs : List Out} (h : outs.length ≤ 1) (hc : outs.any custom = true) : ∃ o, outs = [o] ∧ custom o = true := by
  cases outs with
  | nil => simp at hc
  | cons o t =>
    cases t with
    | nil => exact ⟨o, rfl, by simpa using hc⟩
    | cons _ _ => simp at h

theorem no_custom {outs : List Out} (hc : ¬ outs.any custom = true) : ∀ o ∈ outs, custom o = false := by
  intro o ho
  cases h : custom o with
  | false => rfl
  | true => exact absurd (List.any_eq_true.mpr ⟨o, ho, h⟩) hc

/-! ### The configuration -/

theorem sane_modify {ms : List Module} (h : Sane ms) (i : Nat) (f : Module → Module) (hf : ∀ m, (f m).parent = m.parent) : Sane (ms.modify i f) := by
  obtain ⟨h1, rank, h2⟩ := h
  refine ⟨?_, rank, ?_⟩
  · intro e
    apply h1
    have := congrArg List.length e
    rw [List.length_modify] at this
    exact List.length_eq_zero_iff.mp this
  · intro j m p hm hp
    rw [List.getElem?_modify] at hm
    rw [List.length_modify]
    cases hj : ms[j]? with
    | none => rw [hj] at hm; simp at hm
    | some m' =>
      rw [hj] at hm
      refine h2 j m' p hj ?_
      by_cases e : i = j
      · simp [e] at hm
        rw [← hf, hm, hp]
      · simp [e] at hm
        rw [hm, hp]

theorem format_congr {c c' : Config} {cur : Option Str} (h : Log.FormatIs c cur) (h1 : c'.custom = c.custom) (h2 : c'.ftime = c.ftime) (h3 : c'.heap = c.heap) :
    Log.FormatIs c' cur := by
  unfold Log.FormatIs at *
  rw [h1, h2, h3]
  exact h

theorem good_congr {env : Env} {c c' : Config} (g : Good env c) (h0 : Sane c'.modules) (h1 : c'.custom = c.custom) (h2 : c'.ftime = c.ftime) (h3 : c'.heap = c.heap) :
    Good env c' := by
  obtain ⟨cur, h4, h5⟩ := g.fmt
  exact ⟨h0, ⟨cur, format_congr h4 h1 h2 h3, h5⟩, g.dflt⟩

/-- Nothing but names and levels of modules, `func` and `opened` -/
def Minor (c c' : Config) : Prop :=
  (Sane c.modules → Sane c'.modules) ∧ c'.modules.length = c.modules.length ∧ c'.custom = c.custom ∧ c'.ftime = c.ftime ∧ c'.heap = c.heap

theorem Minor.trans {a b c : Config} (h1 : Minor a b) (h2 : Minor b c) : Minor a c :=
  ⟨fun h => h2.1 (h1.1 h), by rw [h2.2.1, h1.2.1], by rw [h2.2.2.1, h1.2.2.1], by rw [h2.2.2.2.1, h1.2.2.2.1], by rw [h2.2.2.2.2, h1.2.2.2.2]⟩

theorem minor_setName (c : Config) (name : Option Str) : Minor c (c.setName name) := by
  cases name with
  | none => exact ⟨id, rfl, rfl, rfl, rfl⟩
  | some n => exact ⟨fun h => sane_modify h 0 _ (fun _ => rfl), by simp [Log.State.setName], rfl, rfl, rfl⟩

theorem minor_setLevel (c : Config) (i : Nat) (l : Int) : Minor c (c.setLevel i l) :=
  ⟨fun h => sane_modify h i _ (fun _ => rfl), by simp [Log.State.setLevel], rfl, rfl, rfl⟩

theorem minor_close (c : Config) : Minor c c.close := by
  unfold Log.State.close
  split <;> exact ⟨id, rfl, rfl, rfl, rfl⟩

theorem minor_setType (c : Config) (t : Str) (name : Option Str) : Minor c (Log.setType c t name).1 := by
  have h1 : Minor c (c.close.setName name) := (minor_close c).trans (minor_setName _ name)
  have h2 := minor_setName c name
  unfold Log.setType
  split
  · exact ⟨h2.1, h2.2.1, h2.2.2.1, h2.2.2.2.1, h2.2.2.2.2⟩
  · dsimp only
    split
    · exact ⟨h1.1, h1.2.1, h1.2.2.1, h1.2.2.2.1, h1.2.2.2.2⟩
    · split
      · exact ⟨h1.1, h1.2.1, h1.2.2.1, h1.2.2.2.1, h1.2.2.2.2⟩
      · split
        · exact ⟨h1.1, h1.2.1, h1.2.2.1, h1.2.2.2.1, h1.2.2.2.2⟩
        · exact h1

theorem minor_parseOption (c : Config) (opt : Str) (modules : List Nat) (h : ∀ i ∈ modules, ∃ m n, c.modules[i]? = some m ∧ m.name = some n) :
    ∃ r, Log.parseOption c opt modules = .ok r ∧ Minor c r.1 := by
  have hid : Minor c c := ⟨id, rfl, rfl, rfl, rfl⟩
  unfold Log.parseOption
  split
  · rename_i sep hsep
    split
    · rename_i l _
      have hk : sep ≤ opt.length := by
        have := (List.findIdx?_eq_some_iff_getElem.mp hsep).1
        omega
      obtain ⟨r, hr, _⟩ := Log.findModule_ok c opt sep hk modules h
      rw [hr, ok_bind]
      cases r with
      | none => exact ⟨_, rfl, hid⟩
      | some i => exact ⟨_, rfl, minor_setLevel c i l⟩
    · exact ⟨_, rfl, hid⟩
  · split
    · rename_i l _
      exact ⟨_, rfl, minor_setLevel c 0 l⟩
    · exact ⟨_, rfl, hid⟩

theorem change_ok {env : Env} {ct : Ctype} {s : State} (g : Good env s.cfg) (x : Setting) (ha : Allowed env ct s (.set x)) :
    ∃ c, change s.cfg x = .ok c ∧ Good env c ∧ s.cfg.modules.length ≤ c.modules.length := by
  have hminor : ∀ c', Minor s.cfg c' → Good env c' ∧ s.cfg.modules.length ≤ c'.modules.length := fun c' h =>
    ⟨good_congr g (h.1 g.sane) h.2.2.1 h.2.2.2.1 h.2.2.2.2, by rw [h.2.1]; omega⟩
  cases x with
  | assign modules func func2 timestamp tid => exact ⟨_, rfl, good_congr g ha.1 rfl rfl rfl, ha.2⟩
  | type t name => exact ⟨_, rfl, hminor _ (minor_setType s.cfg t name)⟩
  | option opt modules =>
    obtain ⟨r, hr, hm⟩ := minor_parseOption s.cfg opt modules ha
    exact ⟨r.1, by rw [change, hr, ok_bind], hminor _ hm⟩
  | format f =>
    obtain ⟨cur, h1, h2⟩ := g.fmt
    obtain ⟨c, h3, h4, h5⟩ := Log.setFormat_ok s.cfg cur f h1
    have hmod : c.modules = s.cfg.modules := by
      injection h5
    refine ⟨c, h3, ⟨by rw [hmod]; exact g.sane, ⟨f, h4, ?_⟩, g.dflt⟩, by rw [hmod]; omega⟩
    intro f' e
    subst e
    exact ha

/-! ### Lines of a dump -/

/-- What's logged by `gutil_log_dump` -/
structure DumpLines (ct : Ctype) (pfx : Str) (data : List Byte) (msgs : List Str) : Prop where
  spec : Lines ct pfx data msgs
  line : ∀ k msg, msgs[k]? = some msg → Log.dumpLine ct pfx data (16 * k) (data.length - 16 * k) = .ok (msg, min (data.length - 16 * k) 16)
  short : ∀ msg ∈ msgs, msg.length < 2 ^ 31 - 1

theorem hex4_short {n : Nat} {t : Str} (h : Log.Spec.Hex4 n t) (hn : n < 2 ^ 32) : t.length ≤ 8 := by
  apply Classical.byContradiction
  intro hc
  have h1 := h.short (by omega)
  have h2 : 16 ^ 8 ≤ 16 ^ (t.length - 1) := Nat.pow_le_pow_right (by omega) (by omega)
  omega

theorem lines_exist (ct : Ctype) (pfx : Str) (data : List Byte) (hct : Log.Spec.Accepts ct data) (hlen : data.length < 2 ^ 32) (hp : pfx.length < 2 ^ 30) :
    ∃ msgs, DumpLines ct pfx data msgs := by
  have h1 : ∀ k, k < (data.length + 15) / 16 → ∃ line,
      Log.dumpLine ct pfx data (16 * k) (data.length - 16 * k) = .ok (pfx ++ Log.print04X (16 * k) ++ Log.lit ": " ++ line, min (data.length - 16 * k) 16) ∧
      Misc.Spec.Line ct.printable ((data.drop (16 * k)).take 16) line := by
    intro k hk
    have e : (data.length - 16 * k) % 2 ^ 32 = data.length - 16 * k := Nat.mod_eq_of_lt (by omega)
    obtain ⟨line, h2, h3⟩ := Log.dumpLine_ok ct pfx data (16 * k) (data.length - 16 * k) hct (by rw [e]; omega)
    rw [e] at h2 h3
    refine ⟨line, h2, ?_⟩
    have e2 : (data.drop (16 * k)).take (min (data.length - 16 * k) 16) = (data.drop (16 * k)).take 16 := by
      rw [List.take_eq_take_iff, List.length_drop]
      omega
    rw [e2] at h3
    exact h3
  have h2 : ∀ n, n ≤ (data.length + 15) / 16 → ∃ msgs : List Str, msgs.length = n ∧ ∀ k msg, msgs[k]? = some msg →
      Log.dumpLine ct pfx data (16 * k) (data.length - 16 * k) = .ok (msg, min (data.length - 16 * k) 16) ∧
      ∃ line, msg = pfx ++ Log.print04X (16 * k) ++ Log.lit ": " ++ line ∧ Misc.Spec.Line ct.printable ((data.drop (16 * k)).take 16) line := by
    intro n
    induction n with
    | zero => intro _; exact ⟨[], rfl, by simp⟩
    | succ n ih =>
      intro hn
      obtain ⟨msgs, h3, h4⟩ := ih (by omega)
      obtain ⟨line, h5, h6⟩ := h1 n (by omega)
      refine ⟨msgs ++ [pfx ++ Log.print04X (16 * n) ++ Log.lit ": " ++ line], by rw [List.length_append, h3]; rfl, ?_⟩
      intro k msg hk
      by_cases hlt : k < msgs.length
      · rw [List.getElem?_append_left hlt] at hk
        exact h4 k msg hk
      · rw [List.getElem?_append_right (by omega)] at hk
        have hk0 : k - msgs.length = 0 := by
          have := (List.getElem?_eq_some_iff.mp hk).1
          simpa using this
        rw [hk0] at hk
        have hkn : k = n := by omega
        subst hkn
        simp only [List.getElem?_cons_zero, Option.some.injEq] at hk
        rw [← hk]
        exact ⟨h5, line, rfl, h6⟩
  obtain ⟨msgs, h3, h4⟩ := h2 _ (Nat.le_refl _)
  refine ⟨msgs, ⟨h3, ?_⟩, fun k msg hk => (h4 k msg hk).1, ?_⟩
  · intro k hk
    obtain ⟨_, line, h5, h6⟩ := h4 k _ (List.getElem?_eq_getElem hk)
    exact ⟨_, line, by rw [List.getElem?_eq_getElem hk, h5]; rfl, Log.print04X_hex4 _, h6⟩
  · intro msg hm
    obtain ⟨k, hk, rfl⟩ := List.mem_iff_getElem.mp hm
    obtain ⟨_, line, h5, h6⟩ := h4 k _ (List.getElem?_eq_getElem hk)
    rw [h5]
    have h7 := hex4_short (Log.print04X_hex4 (16 * k)) (by omega)
    have h8 := h6.length
    have h9 : ((data.drop (16 * k)).take 16).length ≤ 16 := by rw [List.length_take]; omega
    have h10 : (Log.lit ": ").length = 2 := by decide +kernel
    simp only [List.length_append, h10]
    split at h8 <;> omega

/-! ### Histories -/

theorem run_append {env : Env} {ct : Ctype} {c c1 : Config} {h : List Event} (h1 : Run env ct .calls c h c1) : ∀ {t : Task} {c1' c2 : Config} {h' : List Event},
    Run env ct t c1' h' c2 → t = .calls → c1' = c1 → Run env ct .calls c (h ++ h') c2 := by
  intro t c1' c2 h' h2
  induction h2 with
  | nothing _ => intro _ e; subst e; rw [List.append_nil]; exact h1
  | set _ hc ih =>
    intro ht e
    rw [← List.append_assoc]
    exact .set (ih ht e) hc
  | log _ hm ih _ =>
    intro ht e
    have := Run.log (ih ht e) hm
    simpa only [List.append_assoc, List.cons_append] using this
  | dump _ he hl hm ih _ =>
    intro ht e
    have := Run.dump (ih ht e) he hl hm
    simpa only [List.append_assoc, List.cons_append] using this
  | quiet _ he ih =>
    intro ht e
    rw [← List.append_assoc]
    exact .quiet (ih ht e) he
  | all => intro ht; cases ht
  | print => intro ht; cases ht
  | call => intro ht; cases ht

/-- The history so far, if there are calls in progress -/
inductive Open (env : Env) (ct : Ctype) (c0 : Config) : List Call → List Event → Config → Prop
  | base {h : List Event} {c : Config} : Run env ct .calls c0 h c → Open env ct c0 [] h c
  | log {st : List Call} {h h' : List Event} {c c' : Config} {module : Option Nat} {level : Int} {msg : Str} {o : Out} : Open env ct c0 st h c →
    Log.logv env c module level msg = .ok [o] → custom o = true → Run env ct .calls c h' c' →
    Open env ct c0 (.log :: st) (h ++ .log module level msg :: .out o :: h') c'
  | dump {st : List Call} {h h1 h2 : List Event} {c c1 c2 : Config} {module : Option Nat} {level : Int} {pfx : Option Str} {data : List Byte}
    {off size k : Nat} {msgs : List Str} {msg : Str} {o : Out} : Open env ct c0 st h c →
    Log.enabled c module level = .ok true → DumpLines ct (pfx.getD []) data msgs → data.length < 2 ^ 32 →
    msgs[k]? = some msg → Run env ct (.messages module level (msgs.take k)) c h1 c1 →
    Log.logv env c1 module level msg = .ok [o] → custom o = true → Run env ct .calls c1 h2 c2 →
    size = data.length - 16 * (k + 1) → (0 < size → off = 16 * (k + 1)) →
    Open env ct c0 (.dump module level (pfx.getD []) data off size :: st) (h ++ .dump module level pfx data :: h1 ++ .out o :: h2) c2

theorem open_append {env : Env} {ct : Ctype} {c0 c c' : Config} {st : List Call} {h h' : List Event} (ho : Open env ct c0 st h c) (hr : Run env ct .calls c h' c') :
    Open env ct c0 st (h ++ h') c' := by
  cases ho with
  | base hb => exact .base (run_append hb hr rfl rfl)
  | log h1 h2 h3 h4 =>
    have := Open.log h1 h2 h3 (run_append h4 hr rfl rfl)
    simpa only [List.append_assoc, List.cons_append] using this
  | dump h1 h2 h3 h4 h5 h6 h7 h8 h9 h10 h11 =>
    have := Open.dump h1 h2 h3 h4 h5 h6 h7 h8 (run_append h9 hr rfl rfl) h10 h11
    simpa only [List.append_assoc, List.cons_append] using this

/-- The module exists. -/
def Valid (c : Config) : Call → Prop
  | .log => True
  | .dump module _ _ _ _ _ => module.getD 0 < c.modules.length

structure Inv (env : Env) (ct : Ctype) (c0 : Config) (s : State) : Prop where
  good : Good env s.cfg
  hist : Open env ct c0 s.stack s.hist s.cfg
  valid : ∀ x ∈ s.stack, Valid s.cfg x

theorem take_snoc {α : Type} {l : List α} {k : Nat} {a : α} (h : l[k]? = some a) : l.take (k + 1) = l.take k ++ [a] := by
  rw [List.take_add_one, h]
  rfl

/-- The loop, from line `k` on -/
theorem dumpLoop_inv {env : Env} {ct : Ctype} {c0 c : Config} {st : List Call} {h : List Event} {module : Option Nat} {level : Int} {pfx : Option Str}
    {data : List Byte} {msgs : List Str} (ho : Open env ct c0 st h c) (he : Log.enabled c module level = .ok true)
    (hl : DumpLines ct (pfx.getD []) data msgs) (hlen : data.length < 2 ^ 32) : ∀ (fuel : Nat) (s : State) (k off size : Nat) (h1 : List Event),
    Good env s.cfg → module.getD 0 < s.cfg.modules.length → s.stack = st → s.hist = h ++ .dump module level pfx data :: h1 →
    Run env ct (.messages module level (msgs.take k)) c h1 s.cfg → k ≤ msgs.length → size = data.length - 16 * k → (0 < size → off = 16 * k) → size < fuel →
    ∃ s', dumpLoop env ct module level (pfx.getD []) data fuel s off size = .ok s' ∧ s'.cfg = s.cfg ∧ Open env ct c0 s'.stack s'.hist s'.cfg ∧
      (s'.stack = st ∨ ∃ off' size', s'.stack = .dump module level (pfx.getD []) data off' size' :: st ∧ size' < size) := by
  intro fuel
  induction fuel with
  | zero => intro s k off size h1 _ _ _ _ _ _ _ _ hf; omega
  | succ fuel ih =>
    intro s k off size h1 g hv hst hh hr hk hsz hoff hf
    have hN := hl.spec.1
    rw [dumpLoop]
    by_cases hz : size > 0
    · rw [if_pos hz]
      have hklt : k < msgs.length := by omega
      have hget := List.getElem?_eq_getElem hklt
      have hline := hl.line k _ hget
      rw [hoff hz, hsz, hline, ok_bind]
      dsimp only
      obtain ⟨outs, hv1, hv2⟩ := logv_ok g module hv level msgs[k] (hl.short _ (List.getElem_mem hklt))
      rw [hv1, ok_bind]
      have hoff' : 0 < data.length - 16 * k - min (data.length - 16 * k) 16 →
          (16 * k + min (data.length - 16 * k) 16) % 2 ^ 32 = 16 * (k + 1) := by
        intro h2
        have e : min (data.length - 16 * k) 16 = 16 := by omega
        rw [e, Nat.mod_eq_of_lt (by omega)]
        omega
      have hsz' : data.length - 16 * k - min (data.length - 16 * k) 16 = data.length - 16 * (k + 1) := by omega
      by_cases hc : outs.any custom = true
      · rw [if_pos hc]
        obtain ⟨o, rfl, hco⟩ := one_out hv2 hc
        refine ⟨_, rfl, rfl, ?_, .inr ⟨_, _, by rw [hst], by omega⟩⟩
        dsimp only [State.output]
        rw [hh, hst]
        exact Open.dump ho he hl hlen hget hr hv1 hco (.nothing _) hsz' hoff'
      · rw [if_neg hc]
        obtain ⟨s', h2, h3, h4, h5⟩ := ih (s.output outs) (k + 1) _ _ (h1 ++ outs.map .out) g hv hst
          (by dsimp only [State.output]; rw [hh]; simp only [List.append_assoc, List.cons_append])
          (by rw [take_snoc hget]; exact .print hr hv1 (no_custom hc)) (by omega) hsz' hoff' (by omega)
        refine ⟨s', h2, h3, h4, ?_⟩
        rcases h5 with h5 | ⟨off', size', h5, h6⟩
        · exact .inl h5
        · exact .inr ⟨off', size', h5, by omega⟩
    · rw [if_neg hz]
      refine ⟨_, rfl, rfl, ?_, .inl hst⟩
      dsimp only [State.note]
      have e : msgs.take k = msgs := List.take_of_length_le (by omega)
      rw [e] at hr
      have := open_append ho (Run.dump (pfx := pfx) (data := data) (.nothing c) he hl.spec hr)
      rw [hh, hst]
      simpa only [List.append_assoc, List.cons_append, List.nil_append] using this

theorem valid_mono {c c' : Config} (h : c.modules.length ≤ c'.modules.length) {x : Call} (hv : Valid c x) : Valid c' x := by
  cases x with
  | log => trivial
  | dump module _ _ _ _ _ => exact Nat.lt_of_lt_of_le hv h

/-- What remains to be done -/
def weight : List Call → Nat
  | [] => 0
  | .log :: t => 1 + weight t
  | .dump _ _ _ _ _ size :: t => size + 1 + weight t

/-- Everything that's allowed works. When a log function returns, less remains to be done. -/
theorem step_ok {env : Env} {ct : Ctype} {c0 : Config} {s : State} (i : Inv env ct c0 s) (a : Act) (ha : Allowed env ct s a) :
    ∃ s', step env ct s a = .ok s' ∧ Inv env ct c0 s' ∧ (a = .ret → weight s'.stack < weight s.stack) := by
  have g := i.good
  cases a with
  | set x =>
    obtain ⟨c, h1, h2, h3⟩ := change_ok g x ha
    refine ⟨{ s with cfg := c }.note (.set x), by rw [step, h1, ok_bind], ⟨h2, ?_, fun y hy => valid_mono h3 (i.valid y hy)⟩, by simp⟩
    exact open_append i.hist (.set (.nothing _) h1)
  | log module level msg =>
    obtain ⟨hm, hlen⟩ := ha
    obtain ⟨outs, h1, h2⟩ := logv_ok g module hm level msg hlen
    rw [step, log]
    dsimp only [State.note]
    rw [h1, ok_bind]
    by_cases hc : outs.any custom = true
    · rw [if_pos hc]
      obtain ⟨o, rfl, hco⟩ := one_out h2 hc
      refine ⟨_, rfl, ⟨g, ?_, ?_⟩, by simp⟩
      · have := Open.log i.hist h1 hco (.nothing _)
        simpa [State.output] using this
      · intro x hx
        rcases List.mem_cons.mp hx with rfl | hx
        · trivial
        · exact i.valid x hx
    · rw [if_neg hc]
      refine ⟨_, rfl, ⟨g, ?_, i.valid⟩, by simp⟩
      have := open_append i.hist (.log (.nothing _) (.print (.all module level _) h1 (no_custom hc)))
      simpa [State.output] using this
  | dump module level pfx data =>
    obtain ⟨hm, hp, hlen, hct⟩ := ha
    obtain ⟨b, hb⟩ := enabled_ok g module hm level
    rw [step, dump]
    dsimp only [State.note]
    rw [hb, ok_bind]
    cases b with
    | false =>
      rw [if_neg (by simp)]
      refine ⟨_, rfl, ⟨g, ?_, i.valid⟩, by simp⟩
      have := open_append i.hist (.quiet (pfx := pfx) (data := data) (.nothing _) hb)
      simpa using this
    | true =>
      rw [if_pos rfl]
      obtain ⟨msgs, hl⟩ := lines_exist ct (pfx.getD []) data hct hlen hp
      obtain ⟨s', h1, h2, h3, h4⟩ := dumpLoop_inv i.hist hb hl hlen (data.length + 1) { s with hist := s.hist ++ [.dump module level pfx data] } 0 0 data.length []
        g hm rfl rfl (.all module level _) (by omega) (by omega) (by omega) (by omega)
      refine ⟨s', h1, ⟨by rw [h2]; exact g, h3, ?_⟩, by simp⟩
      rw [h2]
      rcases h4 with h4 | ⟨_, _, h4, _⟩
      · rw [h4]; exact i.valid
      · rw [h4]
        intro x hx
        rcases List.mem_cons.mp hx with rfl | hx
        · exact hm
        · exact i.valid x hx
  | ret =>
    obtain ⟨cfg, stack, hist⟩ := s
    have ho : Open env ct c0 stack hist cfg := i.hist
    have hv : ∀ x ∈ stack, Valid cfg x := i.valid
    have g : Good env cfg := g
    rw [step, ret]
    dsimp only [State.note]
    cases ho with
    | base _ => exact absurd rfl ha
    | @log st h h' c c' module level msg o h1 h2 h3 h4 =>
      dsimp only
      refine ⟨_, rfl, ⟨g, ?_, fun x hx => hv x (List.mem_cons_of_mem _ hx)⟩, by intro _; dsimp only [weight]; omega⟩
      have := open_append h1 (.log (.nothing _) (.call (.all module level _) h2 h3 h4))
      simpa using this
    | @dump st h h1 h2 c c1 c2 module level pfx data off size k msgs msg o o1 o2 o3 o4 o5 o6 o7 o8 o9 o10 o11 =>
      dsimp only
      have hlt : k < msgs.length := (List.getElem?_eq_some_iff.mp o5).1
      have hm : module.getD 0 < cfg.modules.length := hv _ (List.mem_cons_self)
      obtain ⟨s', e1, e2, e3, e4⟩ := dumpLoop_inv o1 o2 o3 o4 (size + 1) ⟨cfg, st, h ++ .dump module level pfx data :: h1 ++ .out o :: h2 ++ [.ret]⟩ (k + 1) off size
        (h1 ++ .out o :: h2 ++ [.ret]) g hm rfl (by simp) (by rw [take_snoc o5]; exact .call o6 o7 o8 o9) hlt o10 o11 (by omega)
      refine ⟨s', e1, ⟨by rw [e2]; exact g, e3, ?_⟩, ?_⟩
      · rw [e2]
        have ht : ∀ x ∈ st, Valid cfg x := fun x hx => hv x (List.mem_cons_of_mem _ hx)
        rcases e4 with e4 | ⟨_, _, e4, _⟩
        · rw [e4]; exact ht
        · rw [e4]
          intro x hx
          rcases List.mem_cons.mp hx with rfl | hx
          · exact hm
          · exact ht x hx
      · intro _
        rcases e4 with e4 | ⟨_, _, e4, e5⟩
        · rw [e4]; dsimp only [weight]; omega
        · rw [e4]; dsimp only [weight]; omega

theorem init_inv {env : Env} {ct : Ctype} {c : Config} (g : Good env c) : Inv env ct c ⟨c, [], []⟩ :=
  ⟨g, .base (.nothing c), by simp⟩

theorem reach_inv {env : Env} {ct : Ctype} {c : Config} {s : State} (g : Good env c) (h : Reach env ct c s) : Inv env ct c s := by
  induction h with
  | init => exact init_inv g
  | step _ ha hs ih =>
    obtain ⟨s', h1, h2, _⟩ := step_ok ih _ ha
    rw [hs] at h1
    cases h1
    exact h2

theorem finish {env : Env} {ct : Ctype} {c : Config} : ∀ (n : Nat) (s : State), Inv env ct c s → weight s.stack ≤ n →
    ∃ k s', exec env ct s (List.replicate k .ret) = .ok s' ∧ s'.stack = [] ∧ Inv env ct c s' := by
  intro n
  induction n with
  | zero =>
    intro s i hw
    refine ⟨0, s, rfl, ?_, i⟩
    cases hs : s.stack with
    | nil => rfl
    | cons x t => cases x <;> simp [hs, weight] at hw <;> omega
  | succ n ih =>
    intro s i hw
    by_cases he : s.stack = []
    · exact ⟨0, s, rfl, he, i⟩
    · obtain ⟨s1, h1, h2, h3⟩ := step_ok i .ret he
      have := h3 rfl
      obtain ⟨k, s', h4, h5, h6⟩ := ih s1 h2 (by omega)
      refine ⟨k + 1, s', ?_, h5, h6⟩
      rw [List.replicate_succ, exec, h1]
      exact h4

theorem dumpLoop_prefix {env : Env} {ct : Ctype} {module : Option Nat} {level : Int} {pfx : Str} {data : List Byte} : ∀ (fuel : Nat) (s s' : State) (off size : Nat),
    dumpLoop env ct module level pfx data fuel s off size = .ok s' → s.hist <+: s'.hist := by
  intro fuel
  induction fuel with
  | zero => intro s s' off size h; cases h
  | succ fuel ih =>
    intro s s' off size h
    rw [dumpLoop] at h
    split at h
    · cases hd : Log.dumpLine ct pfx data off size with
      | error e => rw [hd, error_bind] at h; cases h
      | ok r =>
        obtain ⟨msg, consumed⟩ := r
        rw [hd, ok_bind] at h
        dsimp only at h
        cases hv : Log.logv env s.cfg module level msg with
        | error e => rw [hv, error_bind] at h; cases h
        | ok outs =>
          rw [hv, ok_bind] at h
          split at h
          · cases h
            exact List.prefix_append _ _
          · exact (List.prefix_append _ _).trans (ih _ _ _ _ h)
    · cases h
      exact List.prefix_append _ _

theorem step_prefix {env : Env} {ct : Ctype} {s s' : State} {a : Act} (h : step env ct s a = .ok s') : s.hist <+: s'.hist := by
  cases a with
  | set x =>
    rw [step] at h
    cases hc : change s.cfg x with
    | error e => rw [hc, error_bind] at h; cases h
    | ok c =>
      rw [hc, ok_bind] at h
      cases h
      exact List.prefix_append _ _
  | log module level msg =>
    rw [step, log] at h
    cases hv : Log.logv env (s.note (.log module level msg)).cfg module level msg with
    | error e => rw [hv, error_bind] at h; cases h
    | ok outs =>
      rw [hv, ok_bind] at h
      split at h
      · cases h
        exact (List.prefix_append _ _).trans (List.prefix_append _ _)
      · cases h
        exact ((List.prefix_append _ _).trans (List.prefix_append _ _)).trans (List.prefix_append _ _)
  | dump module level pfx data =>
    rw [step, dump] at h
    cases hv : Log.enabled (s.note (.dump module level pfx data)).cfg module level with
    | error e => rw [hv, error_bind] at h; cases h
    | ok b =>
      rw [hv, ok_bind] at h
      split at h
      · exact (List.prefix_append _ _).trans (dumpLoop_prefix _ _ _ _ _ h)
      · cases h
        exact (List.prefix_append _ _).trans (List.prefix_append _ _)
  | ret =>
    rw [step, ret] at h
    split at h
    · cases h
    · cases h
      exact (List.prefix_append _ _).trans (List.prefix_append _ _)
    · exact (List.prefix_append _ _).trans (dumpLoop_prefix _ _ _ _ _ h)

theorem exec_prefix {env : Env} {ct : Ctype} : ∀ (l : List Act) (s s' : State), exec env ct s l = .ok s' → s.hist <+: s'.hist := by
  intro l
  induction l with
  | nil => intro s s' h; cases h; exact List.prefix_refl _
  | cons a t ih =>
    intro s s' h
    rw [exec] at h
    split at h
    · rename_i s1 hs
      exact (step_prefix hs).trans (ih _ _ h)
    · cases h

theorem init_good {env : Env} {dflt : Int} {others : List Module} (h : Sane (Log.defaultModule dflt :: others))
    (hd : (env.strftime Log.ftimeDefault).length < 32) : Good env (Log.initial dflt others) :=
  ⟨h, ⟨none, ⟨rfl, rfl, rfl⟩, by simp⟩, hd⟩

end Verif.LogCb
