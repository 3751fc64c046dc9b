import Verif.Proof.LogThreadsAll

/-!
# C113: the log used by several threads
-/

namespace Verif.LogThreads
open Verif.C
open Verif.Log (Module Proc Proc2 Out Env lit)

/-- Any order of steps which follows the rules -/
abbrev AnyReach (env : Env) (c : Config) (s : State) : Prop := Reach (fun _ _ => True) env c s

/-! ### Messages -/

/-- C113. Whatever other threads do, each thing which a thread prints or passes to a log function from outside of the library carries the message which the thread
has been asked to log by the call in progress, with its level. -/
theorem C113_message {env : Env} {c : Config} {s : State} (h : AnyReach env c s) {before after : List Event} {t : Nat} {o : Out}
    (hh : s.hist = before ++ .out t o :: after) : ∃ j a b, During t before j a b ∧ Carries j o :=
  (reach_trace h).carried before after t o hh

/-- C113. A message is logged no more than once. -/
theorem C113_once {env : Env} {c : Config} {s : State} (h : AnyReach env c s) {t : Nat} {j : Job} {a b : List Event} (hd : During t s.hist j a b) :
    (outs t b).length ≤ 1 := by
  have := (reach_trace h).once t j a b hd
  omega

/-- C113. Calls of `gutil_log` and changes of the configuration are a part of the history. -/
theorem C113_recorded {env : Env} {s s' : State} {a : Act} (h : step env s a = .ok s') :
    match a with
    | .begin t j => s'.hist = s.hist ++ [.began t j] ∧ s'.pc t ≠ .idle
    | .set x => s'.hist = s.hist ++ [.set x]
    | .next _ => (∀ u j, Event.began u j ∈ s'.hist → Event.began u j ∈ s.hist) ∧ (∀ x, Event.set x ∈ s'.hist → Event.set x ∈ s.hist) := by
  cases a with
  | begin t j =>
    cases h
    exact ⟨rfl, by simp [State.goto]⟩
  | set x =>
    rw [step] at h
    cases hc : change s.cfg x with
    | error e => rw [hc] at h; cases h
    | ok c => rw [hc] at h; cases h; rfl
  | next t =>
    rw [step] at h
    cases hc : next env s.cfg (s.pc t) with
    | error e => rw [hc] at h; cases h
    | ok r =>
      rw [hc] at h
      cases h
      have hn : ∀ e, e ∈ r.2.map (Note.event t) ++ returned t r.1 → (∀ u j, e ≠ .began u j) ∧ ∀ x, e ≠ .set x := by
        intro e he
        rcases List.mem_append.mp he with he | he
        · obtain ⟨n, _, rfl⟩ := List.mem_map.mp he
          cases n <;> simp [Note.event]
        · unfold returned at he
          split at he <;> simp at he
          subst he
          simp
      constructor
      · intro u j hm
        dsimp only [State.goto] at hm
        rw [List.append_assoc] at hm
        rcases List.mem_append.mp hm with hm | hm
        · exact hm
        · exact absurd rfl ((hn _ hm).1 u j)
      · intro x hm
        dsimp only [State.goto] at hm
        rw [List.append_assoc] at hm
        rcases List.mem_append.mp hm with hm | hm
        · exact hm
        · exact absurd rfl ((hn _ hm).2 x)

/-! ### Functions -/

/-- C113. If the thread calls `gutil_log_func` then the function is one which the variable pointed to at some point since the call began; in particular, a function
which has been replaced may be called after that, but only by those who started to log before. -/
theorem C113_func {env : Env} {c : Config} {s : State} (h : AnyReach env c s) {before after : List Event} {t : Nat} {p : Proc}
    (hh : s.hist = before ++ .called t p :: after) :
    ∃ j a b1 b2, During t before j a (b1 ++ b2) ∧ funcAt c.func (a ++ .began t j :: b1) = some p :=
  (reach_trace h).called before after t p hh

/-- C113. A function of the other kind is only called for the module which the message belongs to, and that's what `gutil_log_func2`, or `log_proc` of the module,
points to at that moment. -/
theorem C113_func2 {env : Env} {c : Config} {s : State} (h : AnyReach env c s) {before after : List Event} {t i : Nat} {p : Proc2}
    (hh : s.hist = before ++ .called2 t i p :: after) :
    (∃ j a b, During t before j a b ∧ i = j.module.getD 0) ∧
    (func2At c.func2 before = some p ∨ ∃ m, c.modules[i]? = some m ∧ procAt i m.proc before = some p) :=
  (reach_trace h).called2 before after t i p hh

/-! ### Nothing is being changed -/

/-- C113. As long as nobody changes the configuration, each thread logs what it would log if it were alone, and in the same order, however steps of threads are
interleaved. -/
theorem C113_undisturbed {env : Env} {s s' : State} (h : Path env s s') {hist : List Event} (hh : s'.hist = s.hist ++ hist) (hs : ∀ x, Event.set x ∉ hist) (t : Nat)
    (h0 : s.pc t = .idle) (h1 : s'.pc t = .idle) (f : Job → List Out)
    (hf : ∀ j ∈ jobs t hist, Log.logv env s.cfg j.module j.level j.msg = .ok (f j)) : outs t hist = (jobs t hist).flatMap f := by
  obtain ⟨k, e1, h2⟩ := path_undisturbed (t := t) (f := f) h
  have : k = hist := List.append_cancel_left (e1.symm.trans hh)
  subst this
  obtain ⟨_, n, rest, h3, h4⟩ := h2 hs h0 hf
  rw [h1] at h3
  have := steps_idle h3
  rw [this, List.append_nil] at h4
  exact h4

/-! ### Safety -/

theorem fine_initial {env : Env} {dflt : Int} {others : List Module}
    (hp : ∀ m ∈ others, ∀ p, m.parent = some p → p ≤ others.length) (hd : (env.strftime (Log.Spec.ascii "%Y-%m-%d %H:%M:%S ")).length < 32) :
    Fine env (Log.initial dflt others) := by
  refine ⟨Nat.succ_pos _, ?_, ⟨none, ⟨rfl, rfl, rfl⟩, by simp⟩, hd⟩
  intro i m p hm hpar
  cases i with
  | zero =>
    injection hm with hm
    subst hm
    cases hpar
  | succ i =>
    have hm : others[i]? = some m := hm
    exact Nat.lt_succ_of_le (hp m (List.mem_of_getElem? hm) p hpar)

/-- C113. If log functions aren't set to `NULL`, and the format of timestamps isn't changed, while somebody is logging then nothing goes wrong, whatever else
is changed, and in whatever order threads run. -/
theorem C113_safe_partial {env : Env} {dflt : Int} {others : List Module} {s : State} (hp : ∀ m ∈ others, ∀ p, m.parent = some p → p ≤ others.length)
    (hd : (env.strftime (Log.Spec.ascii "%Y-%m-%d %H:%M:%S ")).length < 32) (h : Reach Careful env (Log.initial dflt others) s) (a : Act) (ha : Allowed env s a)
    (hc : Careful s a) : ∃ s', step env s a = .ok s' := by
  obtain ⟨s', h1, _⟩ := step_ok (reach_inv (fine_initial hp hd) h) a ha hc
  exact ⟨s', h1⟩

/-- C113. A thread which is given a chance to run returns from `gutil_log`: it doesn't wait for other threads, whatever they are doing. (Unless the configuration
is being changed all the time, or a module is its own ancestor.) -/
theorem C113_finish {env : Env} {dflt : Int} {others : List Module} {s : State} (hp : ∀ m ∈ others, ∀ p, m.parent = some p → p ≤ others.length)
    (hd : (env.strftime (Log.Spec.ascii "%Y-%m-%d %H:%M:%S ")).length < 32) (h : Reach Careful env (Log.initial dflt others) s) (t : Nat) (rank : Nat → Nat)
    (hr : ∀ (i : Nat) m p, s.cfg.modules[i]? = some m → m.parent = some p → rank p < rank i) :
    ∃ k s', exec env s (List.replicate k (.next t)) = .ok s' ∧ s'.pc t = .idle := by
  obtain ⟨k, s', _, h1, h2⟩ := finish t _ s (reach_inv (fine_initial hp hd) h) hr (Nat.le_refl _)
  exact ⟨k, s', h1, h2⟩

/-! ### Examples -/

/-- See below. -/
def easy (env : Env) (s : State) : Act → Bool
  | .begin t j => decide (s.pc t = .idle ∧ j.module.getD 0 < s.cfg.modules.length ∧ j.msg.length < 2 ^ 31 - 1)
  | .next t => decide (s.pc t ≠ .idle)
  | .set (.parent _ (some p)) => decide (p < s.cfg.modules.length)
  | .set (.format (some f)) => decide ((env.strftime f).length < 32)
  | .set _ => true

theorem easy_ok {env : Env} {s : State} {a : Act} (h : easy env s a = true) : Allowed env s a := by
  cases a with
  | begin t j => simp only [easy, decide_eq_true_eq] at h; exact h
  | next t => simp only [easy, decide_eq_true_eq] at h; exact h
  | set x =>
    cases x with
    | parent i p =>
      cases p with
      | none => trivial
      | some p => simp only [easy, decide_eq_true_eq] at h; exact h
    | format f =>
      cases f with
      | none => trivial
      | some f => simp only [easy, decide_eq_true_eq] at h; exact h
    | _ => trivial

/-- Whether these steps follow the rules, and lead to such a state -/
def leads (env : Env) (ok : Act → Bool) (q : State → Bool) (s : State) : List Act → Bool
  | [] => q s
  | a :: t => easy env s a && ok a && (match step env s a with | .error _ => false | .ok s' => leads env ok q s' t)

theorem leads_reach {env : Env} {c : Config} {P : State → Act → Prop} {ok : Act → Bool} (hP : ∀ s a, ok a = true → P s a) {q : State → Bool} :
    ∀ (acts : List Act) (s : State), Reach P env c s → leads env ok q s acts = true → ∃ s', Reach P env c s' ∧ exec env s acts = .ok s' ∧ q s' = true := by
  intro acts
  induction acts with
  | nil => intro s hs h; exact ⟨s, hs, rfl, h⟩
  | cons a acts ih =>
    intro s hs h
    rw [leads, Bool.and_eq_true, Bool.and_eq_true] at h
    obtain ⟨⟨h1, h2⟩, h3⟩ := h
    cases hst : step env s a with
    | error e => rw [hst] at h3; cases h3
    | ok s1 =>
      rw [hst] at h3
      rw [exec, hst]
      exact ih s1 (.step hs (easy_ok h1) (hP s a h2) hst) h3

theorem leads_any {env : Env} {c : Config} {q : State → Bool} (acts : List Act) (h : leads env (fun _ => true) q (start c) acts = true) :
    ∃ s, AnyReach env c s ∧ q s = true := by
  obtain ⟨s, h1, _, h2⟩ := leads_reach (P := fun _ _ => True) (fun _ _ _ => trivial) acts _ .start h
  exact ⟨s, h1, h2⟩

/-- Whether the thread, when it goes on, does that -/
def willFail (env : Env) (t : Nat) (e : UB) (s : State) : Bool :=
  easy env s (.next t) && (match step env s (.next t) with | .error e' => decide (e' = e) | .ok _ => false)

theorem willFail_iff {env : Env} {t : Nat} {e : UB} {s : State} (h : willFail env t e s = true) : Allowed env s (.next t) ∧ step env s (.next t) = .error e := by
  rw [willFail, Bool.and_eq_true] at h
  refine ⟨easy_ok h.1, ?_⟩
  have h2 := h.2
  cases hst : step env s (.next t) with
  | ok s' => rw [hst] at h2; cases h2
  | error e' => rw [hst] at h2; rw [of_decide_eq_true h2]

/-- An environment and a configuration for examples: there's a module with a parent, and a log function of its own, or not -/
def exampleEnv : Env := ⟨fun _ => lit "12:00 ", lit "42"⟩
/-- See `exampleEnv`. -/
def exampleConfig (p : Option Proc2) : Config := Log.initial 3 [⟨some (lit "m"), some 0, p, -1, false, false⟩]
/-- A message -/
def hello : Job := ⟨some 1, 2, lit "hello"⟩
/-- Another message -/
def bye : Job := ⟨none, 1, lit "bye"⟩

/-- C113. Log functions can't be removed safely: the thread calls `NULL` if `gutil_log_func2` is set to `NULL` after it has been compared with `NULL`. -/
theorem C113_func2_null_refuted : ¬ ∀ (env : Env) (s : State) (t : Nat), AnyReach env (exampleConfig none) s → Allowed env s (.next t) →
    ∃ s', step env s (.next t) = .ok s' := by
  intro hall
  obtain ⟨s, h1, h2⟩ := leads_any (env := exampleEnv) (c := exampleConfig none) (q := willFail exampleEnv 0 .nullCall)
    [.begin 0 bye, .next 0, .set (.func2 none), .next 0, .next 0, .next 0] (by decide +kernel)
  obtain ⟨h3, h4⟩ := willFail_iff h2
  obtain ⟨s', h5⟩ := hall _ s 0 h1 h3
  rw [h4] at h5
  cases h5

/-- C113. The same applies to `log_proc` of a module, even though `gutil_log_func2`, which is never set, could be called instead. -/
theorem C113_proc_null_refuted : ¬ ∀ (env : Env) (s : State) (t : Nat), AnyReach env (exampleConfig (some (.other 5))) s →
    (∀ x, Event.set x ∈ s.hist → x = .proc 1 none) → Allowed env s (.next t) → ∃ s', step env s (.next t) = .ok s' := by
  intro hall
  obtain ⟨s, h1, h2⟩ := leads_any (env := exampleEnv) (c := exampleConfig (some (.other 5)))
    (q := fun s => decide (s.hist = [.began 0 hello, .set (.proc 1 none)]) && willFail exampleEnv 0 .nullCall s)
    ([.begin 0 hello] ++ List.replicate 10 (.next 0) ++ [.set (.proc 1 none)]) (by decide +kernel)
  rw [Bool.and_eq_true] at h2
  obtain ⟨h3, h4⟩ := willFail_iff h2.2
  have hh := of_decide_eq_true h2.1
  obtain ⟨s', h5⟩ := hall _ s 0 h1 (by rw [hh]; simp) h3
  rw [h4] at h5
  cases h5

/-- C113. The format of timestamps can't be changed safely: the thread uses the string which has been freed. -/
theorem C113_format_refuted : ¬ ∀ (env : Env) (s : State) (t : Nat), AnyReach env (exampleConfig none) s →
    (∀ x, Event.set x ∈ s.hist → x = .timestamp true ∨ x = .format (some (lit "%H ")) ∨ x = .format (some (lit "%M "))) → Allowed env s (.next t) →
    ∃ s', step env s (.next t) = .ok s' := by
  intro hall
  obtain ⟨s, h1, h2⟩ := leads_any (env := exampleEnv) (c := exampleConfig none)
    (q := fun s => decide (∀ e ∈ s.hist, e ∈ [Event.set (.timestamp true), .set (.format (some (lit "%H "))), .set (.format (some (lit "%M "))), .began 0 bye,
        .called2 0 0 .default, .called 0 .stdout]) && willFail exampleEnv 0 .useAfterFree s)
    ([.set (.timestamp true), .set (.format (some (lit "%H "))), .begin 0 bye] ++ List.replicate 10 (.next 0) ++ [.set (.format (some (lit "%M ")))])
    (by decide +kernel)
  rw [Bool.and_eq_true] at h2
  obtain ⟨h3, h4⟩ := willFail_iff h2.2
  have hh := of_decide_eq_true h2.1
  obtain ⟨s', h5⟩ := hall _ s 0 h1 (by intro x hx; have := hh _ hx; simpa using this) h3
  rw [h4] at h5
  cases h5

/-- The configuration in which the settings have been changed like that -/
def configAt (c : Config) : List Event → M Config
  | [] => .ok c
  | .set x :: t => do
    let c ← change c x
    configAt c t
  | _ :: t => configAt c t

/-- C113. What's logged while settings are being changed doesn't always correspond to the configuration of any particular moment: a function may be called with
the name which the module got after the function had been replaced. -/
theorem C113_moment_refuted : ¬ ∀ (env : Env) (s : State) (t : Nat) (j : Job) (a b : List Event), AnyReach env (exampleConfig none) s → During t s.hist j a b →
    s.pc t = .idle → ∃ b1 c, b1 <+: b ∧ configAt (exampleConfig none) (a ++ .began t j :: b1) = .ok c ∧ Log.logv env c j.module j.level j.msg = .ok (outs t b) := by
  intro hall
  let b : List Event := [.called2 0 1 .default, .set (.func (some (.other 2))), .set (.name 1 (some (lit "n"))), .called 0 (.other 1),
    .out 0 (.call 1 (some (lit "n")) 2 (lit "hello")), .ended 0]
  obtain ⟨s, h1, h2⟩ := leads_any (env := exampleEnv) (c := exampleConfig none)
    (q := fun s => decide (s.hist = .set (.func (some (.other 1))) :: .began 0 hello :: b ∧ s.pc 0 = .idle))
    ([.set (.func (some (.other 1))), .begin 0 hello] ++ List.replicate 12 (.next 0) ++
      [.set (.func (some (.other 2))), .set (.name 1 (some (lit "n"))), .next 0, .next 0])
    (by decide +kernel)
  obtain ⟨h3, h4⟩ := of_decide_eq_true h2
  obtain ⟨b1, c, h5, h6, h7⟩ := hall exampleEnv s 0 hello [.set (.func (some (.other 1)))] b h1 ⟨h3, by intro k hk; revert hk; simp [b]⟩ h4
  have key : ∀ n, n < 7 → ((configAt (exampleConfig none) ([.set (.func (some (.other 1)))] ++ .began 0 hello :: b.take n)).bind
      (fun c => Log.logv exampleEnv c hello.module hello.level hello.msg)) ≠ .ok (outs 0 b) := by decide +kernel
  have hlen : b1.length < 7 := Nat.lt_succ_of_le h5.length_le
  apply key b1.length hlen
  rw [← List.prefix_iff_eq_take.mp h5, h6]
  exact h7

/-- Two threads log something while the default level is being changed: the first one has been told to log everything, the second one is late. -/
example : ∃ s, Reach Careful exampleEnv (exampleConfig none) s ∧ s.hist = [
    .began 0 hello, .began 1 bye, .called2 0 1 .default, .set (.level 0 0), .called 0 .stdout, .ended 1,
    .out 0 (.stdio false (lit "[m] WARNING: hello\n")), .ended 0] := by
  obtain ⟨s, h1, _, h2⟩ := leads_reach (env := exampleEnv) (c := exampleConfig none) (P := Careful)
    (ok := fun | .set x => !dangerous x | _ => true) (q := fun s => decide (s.hist = [
      .began 0 hello, .began 1 bye, .called2 0 1 .default, .set (.level 0 0), .called 0 .stdout, .ended 1, .out 0 (.stdio false (lit "[m] WARNING: hello\n")), .ended 0]))
    (by
      intro s a h
      cases a with
      | set x => intro hd; dsimp only at h; rw [hd] at h; cases h
      | _ => trivial)
    ([.begin 0 hello, .begin 1 bye, .next 1] ++ List.replicate 12 (.next 0) ++ [.set (.level 0 0), .next 0, .next 0, .next 0, .next 1, .next 1, .next 0])
    _ .start (by decide +kernel)
  exact ⟨s, h1, of_decide_eq_true h2⟩

theorem reach_path {env : Env} {c : Config} {s : State} (h : AnyReach env c s) : Path env (start c) s := by
  induction h with
  | start => exact .refl
  | step _ ha _ hs ih => exact .step ih ha hs

/-- Two threads, one of which logs two messages: they are printed one after another, in spite of the other thread. -/
example : ∃ s, Path exampleEnv (start (exampleConfig none)) s ∧ (∀ x, Event.set x ∉ s.hist) ∧ s.pc 0 = .idle ∧ jobs 0 s.hist = [hello, bye] ∧
    outs 0 s.hist = [.stdio false (lit "[m] WARNING: hello\n"), .stdio false (lit "ERROR: bye\n")] ∧
    Log.logv exampleEnv (exampleConfig none) (some 1) 2 (lit "hello") = .ok [.stdio false (lit "[m] WARNING: hello\n")] ∧
    Log.logv exampleEnv (exampleConfig none) none 1 (lit "bye") = .ok [.stdio false (lit "ERROR: bye\n")] ∧
    outs 1 s.hist = [.stdio false (lit "[m] WARNING: hello\n")] := by
  obtain ⟨s, h1, h2⟩ := leads_any (env := exampleEnv) (c := exampleConfig none)
    (q := fun s => decide ((∀ e ∈ s.hist, (match e with | .set _ => false | _ => true) = true) ∧ s.pc 0 = .idle ∧ jobs 0 s.hist = [hello, bye] ∧
      outs 0 s.hist = [.stdio false (lit "[m] WARNING: hello\n"), .stdio false (lit "ERROR: bye\n")] ∧
      outs 1 s.hist = [.stdio false (lit "[m] WARNING: hello\n")]))
    ([.begin 0 hello, .begin 1 hello] ++ List.replicate 8 (.next 1) ++ List.replicate 16 (.next 0) ++ [.begin 0 bye] ++
      (List.replicate 8 [.next 0, .next 1]).flatten ++ [.next 0, .next 0]) (by decide +kernel)
  obtain ⟨h3, h4, h5, h6, h7⟩ := of_decide_eq_true h2
  exact ⟨s, reach_path h1, (fun x hx => by have := h3 _ hx; cases this), h4, h5, h6, by decide +kernel, by decide +kernel, h7⟩

end Verif.LogThreads
