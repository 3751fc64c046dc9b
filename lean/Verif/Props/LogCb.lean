import Verif.Proof.LogCb

/-!
# C112: log functions which use the log
-/

namespace Verif.LogCb
open Verif.C Spec
open Verif.Log (Module Proc Proc2 Out Env Ctype lit)

/-- C112. Whatever log functions do (they may log and dump things, and change the configuration), nothing goes wrong. -/
theorem C112_safe {env : Env} {ct : Ctype} {dflt : Int} {others : List Module} {s : State} (hs : Sane (Log.defaultModule dflt :: others))
    (hd : (env.strftime (Log.Spec.ascii "%Y-%m-%d %H:%M:%S ")).length < 32) (h : Reach env ct (Log.initial dflt others) s) (a : Act) (ha : Allowed env ct s a) :
    ∃ s', step env ct s a = .ok s' := by
  obtain ⟨s', h1, _⟩ := step_ok (reach_inv (init_good hs hd) h) a ha
  exact ⟨s', h1⟩

/-- C112. When there are no calls in progress, the history is the one of complete calls, nested in one another: each message is treated according to the
configuration of the moment when it's logged, and lines of a dump are logged one after another, whatever log functions do between them. -/
theorem C112_history {env : Env} {ct : Ctype} {dflt : Int} {others : List Module} {s : State} (hs : Sane (Log.defaultModule dflt :: others))
    (hd : (env.strftime (Log.Spec.ascii "%Y-%m-%d %H:%M:%S ")).length < 32) (h : Reach env ct (Log.initial dflt others) s) (h0 : s.stack = []) :
    Run env ct .calls (Log.initial dflt others) s.hist s.cfg := by
  have := (reach_inv (init_good hs hd) h).hist
  rw [h0] at this
  cases this with
  | base h => exact h

/-- C112. If log functions just return from now on then all calls in progress return after some time; and therefore at any moment the history is a part of a
complete one. -/
theorem C112_finish {env : Env} {ct : Ctype} {dflt : Int} {others : List Module} {s : State} (hs : Sane (Log.defaultModule dflt :: others))
    (hd : (env.strftime (Log.Spec.ascii "%Y-%m-%d %H:%M:%S ")).length < 32) (h : Reach env ct (Log.initial dflt others) s) :
    ∃ k s', exec env ct s (List.replicate k .ret) = .ok s' ∧ s'.stack = [] ∧ s.hist <+: s'.hist ∧
      Run env ct .calls (Log.initial dflt others) s'.hist s'.cfg := by
  obtain ⟨k, s', h1, h2, h3⟩ := finish _ s (reach_inv (init_good hs hd) h) (Nat.le_refl _)
  refine ⟨k, s', h1, h2, exec_prefix _ _ _ h1, ?_⟩
  have := h3.hist
  rw [h2] at this
  cases this with
  | base h => exact h

theorem bind_some {α β : Type} {x : M α} {f : α → M β} {b : β} (h : (x >>= f) = .ok b) : ∃ a, x = .ok a ∧ f a = .ok b := by
  cases x with
  | error e => cases h
  | ok a => exact ⟨a, rfl, h⟩

/-- C112. Each call, each change of the configuration and each return of a log function is a part of the history, and all that's done then comes after it. -/
theorem C112_recorded {env : Env} {ct : Ctype} {s s' : State} {a : Act} (h : step env ct s a = .ok s') :
    ∃ e after, s'.hist = s.hist ++ e :: after ∧
      match a with
      | .log module level msg => e = .log module level msg
      | .dump module level pfx data => e = .dump module level pfx data
      | .set x => e = .set x ∧ after = []
      | .ret => e = .ret := by
  have fin : ∀ {l : List Event} {e : Event}, s.hist ++ [e] <+: l → ∃ after, l = s.hist ++ e :: after := by
    intro l e ⟨t, ht⟩
    exact ⟨t, by rw [← ht]; simp⟩
  cases a with
  | log module level msg =>
    rw [step, log] at h
    obtain ⟨outs, _, h⟩ := bind_some h
    obtain ⟨after, q⟩ := fin (l := s'.hist) (e := .log module level msg) (by
      split at h
      · cases h
        exact List.prefix_append _ _
      · cases h
        exact (List.prefix_append _ _).trans (List.prefix_append _ _))
    exact ⟨_, after, q, rfl⟩
  | dump module level pfx data =>
    rw [step, dump] at h
    obtain ⟨e, _, h⟩ := bind_some h
    obtain ⟨after, q⟩ := fin (l := s'.hist) (e := .dump module level pfx data) (by
      split at h
      · exact dumpLoop_prefix _ _ _ _ _ h
      · cases h
        exact List.prefix_append _ _)
    exact ⟨_, after, q, rfl⟩
  | set x =>
    obtain ⟨c, _, h⟩ := bind_some h
    cases h
    exact ⟨_, [], rfl, rfl, rfl⟩
  | ret =>
    rw [step, ret] at h
    obtain ⟨after, q⟩ := fin (l := s'.hist) (e := .ret) (by
      split at h
      · cases h
      · cases h
        exact List.prefix_append _ _
      · exact dumpLoop_prefix _ _ _ _ _ h)
    exact ⟨_, after, q, rfl⟩

/-- An environment and a configuration for examples: there's one more module -/
def exampleEnv : Env := ⟨fun _ => lit "12:00 ", lit "42"⟩
/-- See `exampleEnv`. -/
def exampleCt : Ctype := ⟨.wrap, true, fun b => b == 0x41⟩
/-- See `exampleEnv`. -/
def exampleModules (level : Int) : List Module := [⟨some (lit "m"), some 0, none, level, false, false⟩]

theorem exampleSane (d level : Int) : Sane (Log.defaultModule d :: exampleModules level) := by
  refine ⟨by simp, id, ?_⟩
  intro i m p hm hp
  match i, hm with
  | 0, hm => simp [Log.defaultModule] at hm; subst hm; simp at hp
  | 1, hm => simp [exampleModules] at hm; subst hm; simp at hp; subst hp; simp [exampleModules]

/-- The module's log function is changed to a custom one, and something is dumped. The function logs something else (that ends up on stdout, since it makes that
the log function first), changes the prefix of the timestamp and returns; the remaining line is printed on stdout, too. -/
def exampleActs : List Act := [
  .set (.assign (Log.defaultModule 3 :: exampleModules (-1)) (some (.other 7)) (some .default) false false),
  .dump (some 1) 1 none (List.replicate 17 0x41),
  .set (.type (lit "stdout") none),
  .log none 2 (lit "hm"),
  .set (.format (some (lit "%H:%M "))),
  .ret]

example : (exec exampleEnv exampleCt ⟨Log.initial 3 (exampleModules (-1)), [], []⟩ exampleActs).map (fun s => (s.stack, s.hist)) = .ok ([], [
    .set (.assign (Log.defaultModule 3 :: exampleModules (-1)) (some (.other 7)) (some .default) false false),
    .dump (some 1) 1 none (List.replicate 17 0x41),
    .out (.call 7 (some (lit "m")) 1 (lit "0000: 41 41 41 41 41 41 41 41  41 41 41 41 41 41 41 41    AAAAAAAA AAAAAAAA")),
    .set (.type (lit "stdout") none),
    .log none 2 (lit "hm"),
    .out (.stdio false (lit "WARNING: hm\n")),
    .done,
    .set (.format (some (lit "%H:%M "))),
    .ret,
    .out (.stdio false (lit "[m] ERROR: 0010: 41                                                  A\n")),
    .done]) := by decide +kernel

/-- These are allowed. -/
def easy (env : Env) (ct : Ctype) (s : State) : Act → Bool
  | .log module _ msg => decide (module.getD 0 < s.cfg.modules.length ∧ msg.length < 2 ^ 31 - 1)
  | .dump module _ pfx data => decide (module.getD 0 < s.cfg.modules.length ∧ (pfx.getD []).length < 2 ^ 30 ∧ data.length < 2 ^ 32 ∧
      ct.printable 0 = false ∧ ct.mode = .wrap)
  | .set (.format (some f)) => decide ((env.strftime f).length < 32)
  | .set (.type _ _) => true
  | .ret => decide (s.stack ≠ [])
  | _ => false

theorem easy_allowed {env : Env} {ct : Ctype} {s : State} {a : Act} (h : easy env ct s a = true) : Allowed env ct s a := by
  unfold easy at h
  split at h
  · have := of_decide_eq_true h
    exact this
  · have := of_decide_eq_true h
    exact ⟨this.1, this.2.1, this.2.2.1, this.2.2.2.1, .inl this.2.2.2.2⟩
  · have := of_decide_eq_true h
    exact this
  · trivial
  · have := of_decide_eq_true h
    exact this
  · cases h

/-- The same for several actions -/
def easyAll (env : Env) (ct : Ctype) (s : State) : List Act → Bool
  | [] => true
  | a :: t => easy env ct s a && match step env ct s a with
    | .ok s => easyAll env ct s t
    | .error _ => false

theorem easy_reach {env : Env} {ct : Ctype} {c : Config} : ∀ (l : List Act) (s s' : State), Reach env ct c s → easyAll env ct s l = true → exec env ct s l = .ok s' → Reach env ct c s' := by
  intro l
  induction l with
  | nil => intro s s' h _ he; cases he; exact h
  | cons a t ih =>
    intro s s' h hl he
    rw [exec] at he
    rw [easyAll, Bool.and_eq_true] at hl
    split at he
    · rename_i s1 hs
      rw [hs] at hl
      exact ih s1 s' (.step h (easy_allowed hl.1) hs) hl.2 he
    · cases he

/-- The actions above are allowed indeed, so the theorems apply to the final state, and to that in the middle of the dump. -/
example (k : Fin 6) : ∃ s', exec exampleEnv exampleCt ⟨Log.initial 3 (exampleModules (-1)), [], []⟩ (exampleActs.take (k + 1)) = .ok s' ∧
    Reach exampleEnv exampleCt (Log.initial 3 (exampleModules (-1))) s' := by
  have h1 : Reach exampleEnv exampleCt (Log.initial 3 (exampleModules (-1))) _ := .step (.init) (a := exampleActs.head (by decide)) ⟨exampleSane 3 (-1), by decide⟩ rfl
  have h2 : ∀ k : Fin 6, (exec exampleEnv exampleCt ⟨Log.initial 3 (exampleModules (-1)), [], []⟩ (exampleActs.take (k + 1))).isOk = true ∧
      easyAll exampleEnv exampleCt ⟨{ Log.initial 3 (exampleModules (-1)) with func := some (.other 7) }, [], [exampleActs.head (by decide)].map (fun
        | .set x => .set x
        | _ => .ret)⟩ (exampleActs.tail.take k) = true := by decide +kernel
  cases h3 : exec exampleEnv exampleCt ⟨Log.initial 3 (exampleModules (-1)), [], []⟩ (exampleActs.take (k + 1)) with
  | error e => have := (h2 k).1; rw [h3] at this; cases this
  | ok s' => exact ⟨s', rfl, easy_reach (exampleActs.tail.take k) _ s' h1 (h2 k).2 h3⟩
example : ((exampleEnv).strftime (Log.Spec.ascii "%Y-%m-%d %H:%M:%S ")).length < 32 := by decide +kernel

/-- A log function which switches the log off: the rest of the dump isn't there. -/
example : (exec exampleEnv exampleCt ⟨Log.initial 3 (exampleModules (-1)), [], []⟩ [
    .set (.assign (Log.defaultModule 3 :: exampleModules (-1)) (some (.other 7)) (some .default) false false),
    .dump (some 1) 1 none (List.replicate 17 0x41),
    .set (.option (lit "none") []),
    .ret]).map (fun s => (s.stack, s.hist.length, s.hist.getLast?)) = .ok ([], 6, some .done) := by decide +kernel

end Verif.LogCb
