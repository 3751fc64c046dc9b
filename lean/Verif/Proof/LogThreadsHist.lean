import Verif.Proof.LogThreadsSafe

namespace Verif.LogThreads
open Verif.C
open Verif.Log (Module Proc Proc2 Out Env Ftime)

/-! ### What's produced by a step -/

/-- What the thread is logging -/
def jobOf : Pc → Option Job
  | .idle => none
  | .entry j | .flags j _ | .inherit j _ | .hasParent j _ | .parent j _ | .own j _ | .ownLevel j _ | .default j | .hasProc j | .proc j | .func2 j | .func j
  | .hideName j _ | .name j _ | .wrap j _ | .stamp j _ _ | .format j _ _ | .first j _ _ _ | .again j _ _ | .strftime j _ _ _ | .print j _ _ _ => some j

theorem formatLoop_msg (msg : Str) : ∀ (fuel : Nat) (size : Int) (m : Str), Log.formatLoop msg fuel size = .ok m → m = msg := by
  intro fuel
  induction fuel with
  | zero => intro size m h; cases h
  | succ n ih =>
    intro size m h
    rw [Log.formatLoop] at h
    unfold Log.vsnprintf at h
    dsimp only at h
    split at h
    · split at h
      · rename_i hc
        injection h with h
        rw [← h]
        refine List.take_of_length_le ?_
        omega
      · cases hs : Log.nextSize size (msg.length : Int) with
        | error e => rw [hs] at h; cases h
        | ok sz => rw [hs, ok_bind] at h; exact ih sz m h
    · rw [if_neg (by omega)] at h
      cases hs : Log.nextSize size (-1) with
      | error e => rw [hs] at h; cases h
      | ok sz => rw [hs, ok_bind] at h; exact ih sz m h

theorem format_msg {msg m : Str} (h : Log.format msg = .ok m) : m = msg := formatLoop_msg msg _ _ _ h

/-- A thread produces no more than one thing, and that's the last thing it does. -/
def Effect (j : Job) (r : Pc × List Note) : Prop :=
  (noteOuts r.2 = [] ∨ r.1 = .idle ∧ ∃ o, noteOuts r.2 = [o] ∧ Carries j o) ∧ (jobOf r.1 = none ∨ jobOf r.1 = some j)

theorem effect_tau {j : Job} {pc : Pc} (h : jobOf pc = none ∨ jobOf pc = some j) : Effect j (pc, []) := ⟨.inl rfl, h⟩

theorem effect_out {j : Job} {o : Out} (h : Carries j o) : Effect j (.idle, [.out o]) := ⟨.inr ⟨rfl, o, rfl, h⟩, .inl rfl⟩

theorem syslog_out {env : Env} {c : Config} {name : Option Str} {j : Job} {o : List Out} (h : Log.syslog env c name j.level j.msg = .ok o) :
    ∃ x, o = [x] ∧ Carries j x := by
  rw [Log.syslog] at h
  cases hd : c.get 0 with
  | error e => rw [hd] at h; cases h
  | ok d =>
    rw [hd, ok_bind] at h
    split at h
    · cases hm : Log.format j.msg with
      | error e => rw [hm] at h; cases h
      | ok m =>
        rw [hm, ok_bind] at h
        injection h with h
        have := format_msg hm
        subst this
        exact ⟨_, h.symm, _, rfl⟩
    · injection h with h
      exact ⟨_, h.symm, [], rfl⟩

theorem enter_effect {env : Env} {c : Config} {j : Job} {p : Proc} {name : Option Str} {r : Pc × List Note} (h : enter env c j p name = .ok r) : Effect j r := by
  cases p with
  | stdout => injection h with h; subst h; exact effect_tau (.inr rfl)
  | stderr => injection h with h; subst h; exact effect_tau (.inr rfl)
  | glib => injection h with h; subst h; exact effect_out rfl
  | other id => injection h with h; subst h; exact effect_out ⟨rfl, rfl⟩
  | syslog =>
    rw [enter] at h
    cases ho : Log.syslog env c name j.level j.msg with
    | error e => rw [ho] at h; cases h
    | ok o =>
      rw [ho, ok_bind] at h
      injection h with h
      subst h
      obtain ⟨x, hx, hc⟩ := syslog_out ho
      subst hx
      exact effect_out hc

theorem enterFunc_effect {env : Env} {c : Config} {j : Job} {p : Proc} {name : Option Str} {r : Pc × List Note} (h : enterFunc env c j p name = .ok r) : Effect j r := by
  rw [enterFunc] at h
  cases he : enter env c j p name with
  | error e => rw [he] at h; cases h
  | ok r' =>
    rw [he, ok_bind] at h
    injection h with h
    subst h
    have := enter_effect he
    exact this

theorem enter2_effect {j : Job} {p : Option Proc2} {r : Pc × List Note} (h : enter2 j p = .ok r) : Effect j r := by
  cases p with
  | none => cases h
  | some p =>
    cases p with
    | default => injection h with h; subst h; exact ⟨.inl rfl, .inr rfl⟩
    | wrap p => injection h with h; subst h; exact ⟨.inl rfl, .inr rfl⟩
    | other id => injection h with h; subst h; exact ⟨.inr ⟨rfl, _, rfl, rfl, rfl, rfl⟩, .inl rfl⟩

theorem compare_job (j : Job) (max : Int) : jobOf (compare j max) = none ∨ jobOf (compare j max) = some j := by
  unfold compare
  split
  · exact .inr rfl
  · exact .inl rfl

theorem next_effect {env : Env} {c : Config} {pc : Pc} {r : Pc × List Note} {j : Job} (h : next env c pc = .ok r) (hj : jobOf pc = some j) : Effect j r := by
  have withModule : ∀ {i : Nat} {k : Module → M (Pc × List Note)}, (c.get i >>= k) = .ok r → ∃ m, k m = .ok r := by
    intro i k hk
    cases hm : c.get i with
    | error e => rw [hm] at hk; cases hk
    | ok m => rw [hm, ok_bind] at hk; exact ⟨m, hk⟩
  cases pc with
  | idle => cases h
  | entry j' =>
    cases hj
    injection h with h
    subst h
    apply effect_tau
    split
    · exact .inr rfl
    · exact .inl rfl
  | flags j' check =>
    cases hj
    cases check with
    | none => injection h with h; subst h; exact effect_tau (.inr rfl)
    | some i =>
      obtain ⟨m, h⟩ := withModule h
      injection h with h
      subst h
      apply effect_tau
      split
      · exact .inl rfl
      · exact .inr rfl
  | inherit j' i =>
    cases hj
    obtain ⟨m, h⟩ := withModule h
    injection h with h
    subst h
    apply effect_tau
    split <;> exact .inr rfl
  | hasParent j' i =>
    cases hj
    obtain ⟨m, h⟩ := withModule h
    injection h with h
    subst h
    apply effect_tau
    split <;> exact .inr rfl
  | parent j' i =>
    cases hj
    obtain ⟨m, h⟩ := withModule h
    injection h with h
    subst h
    exact effect_tau (.inr rfl)
  | own j' i =>
    cases hj
    obtain ⟨m, h⟩ := withModule h
    injection h with h
    subst h
    apply effect_tau
    split <;> exact .inr rfl
  | ownLevel j' i =>
    cases hj
    obtain ⟨m, h⟩ := withModule h
    injection h with h
    subst h
    exact effect_tau (compare_job _ _)
  | default j' =>
    cases hj
    obtain ⟨m, h⟩ := withModule h
    injection h with h
    subst h
    exact effect_tau (compare_job _ _)
  | hasProc j' =>
    cases hj
    obtain ⟨m, h⟩ := withModule h
    injection h with h
    subst h
    apply effect_tau
    split <;> exact .inr rfl
  | proc j' =>
    cases hj
    obtain ⟨m, h⟩ := withModule h
    exact enter2_effect h
  | func2 j' => cases hj; exact enter2_effect h
  | func j' =>
    cases hj
    rw [next] at h
    split at h
    · injection h with h; subst h; exact effect_tau (.inr rfl)
    · injection h with h; subst h; exact effect_tau (.inl rfl)
  | hideName j' p =>
    cases hj
    obtain ⟨m, h⟩ := withModule h
    split at h
    · exact enterFunc_effect h
    · injection h with h; subst h; exact effect_tau (.inr rfl)
  | name j' p =>
    cases hj
    obtain ⟨m, h⟩ := withModule h
    exact enterFunc_effect h
  | wrap j' p =>
    cases hj
    obtain ⟨m, h⟩ := withModule h
    exact enter_effect h
  | stamp j' err name =>
    cases hj
    injection h with h
    subst h
    apply effect_tau
    split <;> exact .inr rfl
  | format j' err name => cases hj; injection h with h; subst h; exact effect_tau (.inr rfl)
  | first j' err name f =>
    cases hj
    rw [next] at h
    cases hm : chars c f with
    | error e => rw [hm] at h; cases h
    | ok m =>
      rw [hm, ok_bind] at h
      injection h with h
      subst h
      apply effect_tau
      split <;> exact .inr rfl
  | again j' err name => cases hj; injection h with h; subst h; exact effect_tau (.inr rfl)
  | strftime j' err name f =>
    cases hj
    rw [next] at h
    cases hm : chars c f with
    | error e => rw [hm] at h; cases h
    | ok m =>
      rw [hm, ok_bind] at h
      cases ht : Log.stamp env m with
      | error e => rw [ht] at h; cases h
      | ok t => rw [ht, ok_bind] at h; injection h with h; subst h; exact effect_tau (.inr rfl)
  | print j' err name t =>
    cases hj
    rw [next] at h
    cases hm : Log.format j.msg with
    | error e => rw [hm] at h; cases h
    | ok m =>
      rw [hm, ok_bind] at h
      injection h with h
      subst h
      have := format_msg hm
      subst this
      have e : Log.lit "\n" = [0x0a] := by decide +kernel
      rw [e]
      exact effect_out ⟨_, rfl⟩

/-! ### Functions which are called -/

/-- No log functions are called. -/
def Quiet (l : List Note) : Prop := (∀ p, Note.called p ∉ l) ∧ ∀ i p, Note.called2 i p ∉ l

/-- Which functions are called in a step -/
inductive Calls (c : Config) (pc : Pc) : List Note → Prop
  | quiet {l : List Note} : Quiet l → Calls c pc l
  | func {l : List Note} {j : Job} {p : Proc} : (pc = .hideName j p ∨ pc = .name j p) → Quiet l → Calls c pc (.called p :: l)
  | func2 {l : List Note} {j : Job} {p : Proc2} : jobOf pc = some j →
    (c.func2 = some p ∨ ∃ m, c.modules[j.target]? = some m ∧ m.proc = some p) → Quiet l → Calls c pc (.called2 j.target p :: l)

theorem quiet_nil : Quiet [] := ⟨fun _ => by simp, fun _ _ => by simp⟩

theorem quiet_outs (l : List Out) : Quiet (l.map .out) := ⟨fun _ => by simp, fun _ _ => by simp⟩

theorem enter_quiet {env : Env} {c : Config} {j : Job} {p : Proc} {name : Option Str} {r : Pc × List Note} (h : enter env c j p name = .ok r) : Quiet r.2 := by
  cases p with
  | stdout => injection h with h; subst h; exact quiet_nil
  | stderr => injection h with h; subst h; exact quiet_nil
  | glib => injection h with h; subst h; exact quiet_outs _
  | other id => injection h with h; subst h; exact quiet_outs [_]
  | syslog =>
    rw [enter] at h
    cases ho : Log.syslog env c name j.level j.msg with
    | error e => rw [ho] at h; cases h
    | ok o => rw [ho, ok_bind] at h; injection h with h; subst h; exact quiet_outs o

theorem enterFunc_calls {env : Env} {c : Config} {pc : Pc} {j : Job} {p : Proc} {name : Option Str} {r : Pc × List Note} (hpc : pc = .hideName j p ∨ pc = .name j p)
    (h : enterFunc env c j p name = .ok r) : Calls c pc r.2 := by
  rw [enterFunc] at h
  cases he : enter env c j p name with
  | error e => rw [he] at h; cases h
  | ok r' =>
    rw [he, ok_bind] at h
    injection h with h
    subst h
    exact .func hpc (enter_quiet he)

theorem enter2_calls {c : Config} {pc : Pc} {j : Job} {p : Option Proc2} {r : Pc × List Note} (hj : jobOf pc = some j)
    (hp : c.func2 = p ∨ ∃ m, c.modules[j.target]? = some m ∧ m.proc = p) (h : enter2 j p = .ok r) : Calls c pc r.2 := by
  cases p with
  | none => cases h
  | some p =>
    cases p with
    | default => injection h with h; subst h; exact .func2 hj hp quiet_nil
    | wrap p => injection h with h; subst h; exact .func2 hj hp quiet_nil
    | other id => injection h with h; subst h; exact .func2 hj hp (quiet_outs [_])

theorem next_calls {env : Env} {c : Config} {pc : Pc} {r : Pc × List Note} (h : next env c pc = .ok r) : Calls c pc r.2 := by
  have withModule : ∀ {i : Nat} {k : Module → M (Pc × List Note)}, (c.get i >>= k) = .ok r → ∃ m, c.modules[i]? = some m ∧ k m = .ok r := by
    intro i k hk
    cases hm : c.get i with
    | error e => rw [hm] at hk; cases hk
    | ok m => rw [hm, ok_bind] at hk; exact ⟨m, get_some hm, hk⟩
  cases pc with
  | idle => cases h
  | entry j => injection h with h; subst h; exact .quiet quiet_nil
  | flags j check =>
    cases check with
    | none => injection h with h; subst h; exact .quiet quiet_nil
    | some i => obtain ⟨m, _, h⟩ := withModule h; injection h with h; subst h; exact .quiet quiet_nil
  | inherit j i => obtain ⟨m, _, h⟩ := withModule h; injection h with h; subst h; exact .quiet quiet_nil
  | hasParent j i => obtain ⟨m, _, h⟩ := withModule h; injection h with h; subst h; exact .quiet quiet_nil
  | parent j i => obtain ⟨m, _, h⟩ := withModule h; injection h with h; subst h; exact .quiet quiet_nil
  | own j i => obtain ⟨m, _, h⟩ := withModule h; injection h with h; subst h; exact .quiet quiet_nil
  | ownLevel j i => obtain ⟨m, _, h⟩ := withModule h; injection h with h; subst h; exact .quiet quiet_nil
  | default j => obtain ⟨m, _, h⟩ := withModule h; injection h with h; subst h; exact .quiet quiet_nil
  | hasProc j => obtain ⟨m, _, h⟩ := withModule h; injection h with h; subst h; exact .quiet quiet_nil
  | proc j =>
    obtain ⟨m, hm, h⟩ := withModule h
    exact enter2_calls rfl (.inr ⟨m, hm, rfl⟩) h
  | func2 j => exact enter2_calls rfl (.inl rfl) h
  | func j =>
    rw [next] at h
    split at h <;> (injection h with h; subst h; exact .quiet quiet_nil)
  | hideName j p =>
    obtain ⟨m, _, h⟩ := withModule h
    split at h
    · exact enterFunc_calls (.inl rfl) h
    · injection h with h; subst h; exact .quiet quiet_nil
  | name j p =>
    obtain ⟨m, _, h⟩ := withModule h
    exact enterFunc_calls (.inr rfl) h
  | wrap j p =>
    obtain ⟨m, _, h⟩ := withModule h
    exact .quiet (enter_quiet h)
  | stamp j err name => injection h with h; subst h; exact .quiet quiet_nil
  | format j err name => injection h with h; subst h; exact .quiet quiet_nil
  | first j err name f =>
    rw [next] at h
    cases hm : chars c f with
    | error e => rw [hm] at h; cases h
    | ok m => rw [hm, ok_bind] at h; injection h with h; subst h; exact .quiet quiet_nil
  | again j err name => injection h with h; subst h; exact .quiet quiet_nil
  | strftime j err name f =>
    rw [next] at h
    cases hm : chars c f with
    | error e => rw [hm] at h; cases h
    | ok m =>
      rw [hm, ok_bind] at h
      cases ht : Log.stamp env m with
      | error e => rw [ht] at h; cases h
      | ok t => rw [ht, ok_bind] at h; injection h with h; subst h; exact .quiet quiet_nil
  | print j err name t =>
    rw [next] at h
    cases hm : Log.format j.msg with
    | error e => rw [hm] at h; cases h
    | ok m => rw [hm, ok_bind] at h; injection h with h; subst h; exact .quiet (quiet_outs [_])

/-- `gutil_log_func` is called after it has been read. -/
theorem next_hideName {env : Env} {c : Config} {pc : Pc} {r : Pc × List Note} {j : Job} {p : Proc} (h : next env c pc = .ok r)
    (hr : r.1 = .hideName j p ∨ r.1 = .name j p) : (pc = .func j ∧ c.func = some p) ∨ pc = .hideName j p := by
  have hm9 : ∀ rank, measure rank r.1 = 8 ∨ measure rank r.1 = 7 := by
    intro rank
    rcases hr with hr | hr
    · rw [hr]; exact .inl rfl
    · rw [hr]; exact .inr rfl
  have withModule : ∀ {i : Nat} {k : Module → M (Pc × List Note)}, (c.get i >>= k) = .ok r → ∃ m, k m = .ok r := by
    intro i k hk
    cases hm : c.get i with
    | error e => rw [hm] at hk; cases hk
    | ok m => rw [hm, ok_bind] at hk; exact ⟨m, hk⟩
  have cmp : ∀ (j' : Job) max, r.1 ≠ compare j' max := by
    intro j' max e
    unfold compare at e
    split at e <;> (rw [e] at hr; rcases hr with hr | hr <;> cases hr)
  have ent : ∀ {j' : Job} {p' : Proc} {name : Option Str}, enter env c j' p' name ≠ .ok r := by
    intro j' p' name e
    have := enter_measure (rank := fun _ => 0) e
    rcases hm9 (fun _ => 0) with h | h <;> omega
  have entf : ∀ {j' : Job} {p' : Proc} {name : Option Str}, enterFunc env c j' p' name ≠ .ok r := by
    intro j' p' name e
    have := enterFunc_measure (rank := fun _ => 0) e
    rcases hm9 (fun _ => 0) with h | h <;> omega
  have ent2 : ∀ {j' : Job} {p' : Option Proc2}, enter2 j' p' ≠ .ok r := by
    intro j' p' e
    cases p' with
    | none => cases e
    | some p' => cases p' <;> (injection e with e; subst e; rcases hr with hr | hr <;> cases hr)
  cases pc with
  | idle => cases h
  | entry j' =>
    injection h with h; subst h
    dsimp only at hr
    split at hr <;> (rcases hr with hr | hr <;> cases hr)
  | flags j' check =>
    cases check with
    | none => injection h with h; subst h; rcases hr with hr | hr <;> cases hr
    | some i =>
      obtain ⟨m, h⟩ := withModule h
      injection h with h; subst h
      dsimp only at hr
      split at hr <;> (rcases hr with hr | hr <;> cases hr)
  | inherit j' i =>
    obtain ⟨m, h⟩ := withModule h
    injection h with h; subst h
    dsimp only at hr
    split at hr <;> (rcases hr with hr | hr <;> cases hr)
  | hasParent j' i =>
    obtain ⟨m, h⟩ := withModule h
    injection h with h; subst h
    dsimp only at hr
    split at hr <;> (rcases hr with hr | hr <;> cases hr)
  | parent j' i =>
    obtain ⟨m, h⟩ := withModule h
    injection h with h; subst h
    rcases hr with hr | hr <;> cases hr
  | own j' i =>
    obtain ⟨m, h⟩ := withModule h
    injection h with h; subst h
    dsimp only at hr
    split at hr <;> (rcases hr with hr | hr <;> cases hr)
  | ownLevel j' i =>
    obtain ⟨m, h⟩ := withModule h
    injection h with h
    exact absurd (congrArg Prod.fst h).symm (cmp _ _)
  | default j' =>
    obtain ⟨m, h⟩ := withModule h
    injection h with h
    exact absurd (congrArg Prod.fst h).symm (cmp _ _)
  | hasProc j' =>
    obtain ⟨m, h⟩ := withModule h
    injection h with h; subst h
    dsimp only at hr
    split at hr <;> (rcases hr with hr | hr <;> cases hr)
  | proc j' =>
    obtain ⟨m, h⟩ := withModule h
    exact absurd h ent2
  | func2 j' => exact absurd h ent2
  | func j' =>
    rw [next] at h
    split at h
    · rename_i p' hp'
      injection h with h; subst h
      rcases hr with hr | hr
      · injection hr with h1 h2; subst h1; subst h2; exact .inl ⟨rfl, hp'⟩
      · cases hr
    · injection h with h; subst h; rcases hr with hr | hr <;> cases hr
  | hideName j' p' =>
    obtain ⟨m, h⟩ := withModule h
    split at h
    · exact absurd h entf
    · injection h with h; subst h
      rcases hr with hr | hr
      · cases hr
      · injection hr with h1 h2; subst h1; subst h2; exact .inr rfl
  | name j' p' =>
    obtain ⟨m, h⟩ := withModule h
    exact absurd h entf
  | wrap j' p' =>
    obtain ⟨m, h⟩ := withModule h
    exact absurd h ent
  | stamp j' err name =>
    injection h with h; subst h
    dsimp only at hr
    split at hr <;> (rcases hr with hr | hr <;> cases hr)
  | format j' err name => injection h with h; subst h; rcases hr with hr | hr <;> cases hr
  | first j' err name f =>
    rw [next] at h
    cases hm : chars c f with
    | error e => rw [hm] at h; cases h
    | ok m =>
      rw [hm, ok_bind] at h
      injection h with h; subst h
      dsimp only at hr
      split at hr <;> (rcases hr with hr | hr <;> cases hr)
  | again j' err name => injection h with h; subst h; rcases hr with hr | hr <;> cases hr
  | strftime j' err name f =>
    rw [next] at h
    cases hm : chars c f with
    | error e => rw [hm] at h; cases h
    | ok m =>
      rw [hm, ok_bind] at h
      cases ht : Log.stamp env m with
      | error e => rw [ht] at h; cases h
      | ok t => rw [ht, ok_bind] at h; injection h with h; subst h; rcases hr with hr | hr <;> cases hr
  | print j' err name t =>
    rw [next] at h
    cases hm : Log.format j'.msg with
    | error e => rw [hm] at h; cases h
    | ok m => rw [hm, ok_bind] at h; injection h with h; subst h; rcases hr with hr | hr <;> cases hr

end Verif.LogThreads
