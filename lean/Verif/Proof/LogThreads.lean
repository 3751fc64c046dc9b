import Verif.Model.LogThreads
import Verif.Proof.LogCb

namespace Verif.LogThreads
open Verif.C
open Verif.Log (Module Proc Proc2 Out Env Ftime)

/-! ### A thread on its own -/

/-- What has been produced -/
def noteOuts (l : List Note) : List Out := l.filterMap (fun | .out o => some o | _ => none)

/-- The thread returns after some steps, having produced that, unless the configuration is changed. -/
inductive Steps (env : Env) (c : Config) : Nat → Pc → List Out → Prop
  | done : Steps env c 0 .idle []
  | step {pc pc' : Pc} {l : List Note} {o : List Out} {n : Nat} : next env c pc = .ok (pc', l) → Steps env c n pc' o → Steps env c (n + 1) pc (noteOuts l ++ o)

theorem Steps.tau {env : Env} {c : Config} {pc pc' : Pc} {o : List Out} {n : Nat} (h : next env c pc = .ok (pc', [])) (h1 : Steps env c n pc' o) : Steps env c (n + 1) pc o :=
  Steps.step h h1

theorem noteOuts_out (l : List Out) : noteOuts (l.map .out) = l := by
  induction l with
  | nil => rfl
  | cons a t ih =>
    rw [List.map_cons, noteOuts, List.filterMap_cons]
    dsimp only
    rw [← ih]
    congr 1
    rw [ih]
    exact ih

theorem stdio_steps {env : Env} {c : Config} {err : Bool} {name : Option Str} {j : Job} {o : List Out}
    (h : Log.stdio env c err name j.level j.msg = .ok o) : ∃ n, Steps env c n (.stamp j err name) o := by
  rw [Log.stdio] at h
  cases ht : Log.stampIf env c with
  | error e => rw [ht] at h; cases h
  | ok t =>
    rw [ht, ok_bind] at h
    cases hm : Log.format j.msg with
    | error e => rw [hm] at h; cases h
    | ok m =>
      rw [hm, ok_bind] at h
      injection h with h
      have hp : Steps env c 1 (.print j err name t) o := by
        rw [← h]
        refine Steps.step (pc' := .idle) (o := []) (n := 0) (l := [.out _]) ?_ Steps.done
        rw [next, hm, ok_bind]
      unfold Log.stampIf at ht
      split at ht
      · rename_i hts
        have e1 : next env c (.stamp j err name) = .ok (.format j err name, []) := by rw [next, if_pos hts]
        have hf : chars c c.ftime = Log.ftime c := rfl
        cases hfc : Log.ftime c with
        | error e => rw [hfc] at ht; cases ht
        | ok f =>
          rw [hfc, ok_bind] at ht
          split at ht
          · rename_i hne
            refine ⟨_, Steps.tau e1 (Steps.tau (pc' := .first j err name c.ftime) rfl (Steps.tau (pc' := .again j err name) ?_
              (Steps.tau (pc' := .strftime j err name c.ftime) rfl (Steps.tau (pc' := .print j err name t) ?_ hp))))⟩
            · rw [next, hf, hfc, ok_bind, if_pos hne]
            · rw [next, hf, hfc, ok_bind, ht, ok_bind]
          · rename_i hne
            injection ht with ht
            subst ht
            refine ⟨_, Steps.tau e1 (Steps.tau (pc' := .first j err name c.ftime) rfl (Steps.tau (pc' := .print j err name []) ?_ hp))⟩
            rw [next, hf, hfc, ok_bind, if_neg hne]
      · rename_i hts
        injection ht with ht
        subst ht
        exact ⟨_, Steps.tau (by rw [next, if_neg hts]) hp⟩

theorem enter_steps {env : Env} {c : Config} {p : Proc} {name : Option Str} {j : Job} {o : List Out}
    (h : Log.callProc env c p name j.level j.msg = .ok o) : ∃ r n o', enter env c j p name = .ok r ∧ Steps env c n r.1 o' ∧ o = noteOuts r.2 ++ o' := by
  cases p with
  | stdout => obtain ⟨n, h1⟩ := stdio_steps h; exact ⟨_, n, o, rfl, h1, rfl⟩
  | stderr => obtain ⟨n, h1⟩ := stdio_steps h; exact ⟨_, n, o, rfl, h1, rfl⟩
  | syslog =>
    refine ⟨(.idle, o.map .out), 0, [], ?_, Steps.done, ?_⟩
    · rw [enter]
      rw [Log.callProc] at h
      rw [h, ok_bind]
    · rw [noteOuts_out, List.append_nil]
  | glib =>
    injection h with h
    refine ⟨_, 0, [], rfl, Steps.done, ?_⟩
    rw [noteOuts_out, List.append_nil, h]
  | other id =>
    injection h with h
    refine ⟨_, 0, [], rfl, Steps.done, ?_⟩
    rw [List.append_nil, ← h]
    rfl

theorem get_some {c : Config} {i : Nat} {m : Module} (h : c.get i = .ok m) : c.modules[i]? = some m := by
  unfold Log.State.get at h
  split at h
  · injection h with h; subst h; assumption
  · cases h

/-- A step which has been taken -/
theorem first_step {env : Env} {c : Config} {pc : Pc} {r : Pc × List Note} {o' : List Out} {n : Nat} (h : next env c pc = .ok r) (h1 : Steps env c n r.1 o') :
    Steps env c (n + 1) pc (noteOuts r.2 ++ o') := Steps.step h h1

theorem enter2_steps {env : Env} {c : Config} {p : Proc2} {j : Job} {o : List Out} (h : Log.callProc2 env c p j.target j.level j.msg = .ok o) :
    ∃ r n o', enter2 j (some p) = .ok r ∧ Steps env c n r.1 o' ∧ o = noteOuts r.2 ++ o' := by
  cases p with
  | other id =>
    injection h with h
    exact ⟨_, 0, [], rfl, Steps.done, by rw [List.append_nil, ← h]; rfl⟩
  | wrap p =>
    rw [Log.callProc2] at h
    cases hm : c.get j.target with
    | error e => rw [hm] at h; cases h
    | ok m =>
      rw [hm, ok_bind] at h
      obtain ⟨r, n, o', h1, h2, h3⟩ := enter_steps h
      refine ⟨_, n + 1, o, rfl, ?_, rfl⟩
      rw [h3]
      refine first_step ?_ h2
      rw [next, hm, ok_bind, h1]
  | default =>
    rw [Log.callProc2, Log.defaultProc] at h
    cases hm : c.get j.target with
    | error e => rw [hm] at h; cases h
    | ok m =>
      rw [hm, ok_bind] at h
      rcases Option.eq_none_or_eq_some c.func with hf | ⟨f, hf⟩
      · rw [hf] at h
        injection h with h
        refine ⟨_, 1, o, rfl, ?_, rfl⟩
        rw [← h]
        refine Steps.tau (pc' := .idle) ?_ Steps.done
        rw [next, hf]
      · rw [hf] at h
        dsimp only at h
        obtain ⟨r, n, o', h1, h2, h3⟩ := enter_steps h
        have e : next env c (.func j) = .ok (.hideName j f, []) := by rw [next, hf]
        by_cases hh : m.hideName = true
        · rw [if_pos hh] at h1
          refine ⟨_, n + 2, o, rfl, ?_, rfl⟩
          refine Steps.tau e ?_
          rw [h3]
          have : noteOuts r.2 = noteOuts (.called f :: r.2) := rfl
          rw [this]
          refine Steps.step (pc' := r.1) ?_ h2
          rw [next, hm, ok_bind, if_pos hh, enterFunc, h1, ok_bind]
        · rw [if_neg hh] at h1
          refine ⟨_, n + 3, o, rfl, ?_, rfl⟩
          refine Steps.tau e (Steps.tau (pc' := .name j f) ?_ ?_)
          · rw [next, hm, ok_bind, if_neg hh]
          · rw [h3]
            have : noteOuts r.2 = noteOuts (.called f :: r.2) := rfl
            rw [this]
            refine Steps.step (pc' := r.1) ?_ h2
            rw [next, hm, ok_bind, enterFunc, h1, ok_bind]

theorem emit_steps {env : Env} {c : Config} {j : Job} {o : List Out} (h : Log.emit env c j.module j.level j.msg = .ok o) :
    ∃ n, Steps env c n (.hasProc j) o := by
  rw [Log.emit] at h
  have ht : j.module.getD 0 = j.target := rfl
  rw [ht] at h
  cases hm : c.get j.target with
  | error e => rw [hm] at h; cases h
  | ok m =>
    rw [hm, ok_bind] at h
    rcases Option.eq_none_or_eq_some m.proc with hp | ⟨p, hp⟩
    · rw [hp] at h
      rcases Option.eq_none_or_eq_some c.func2 with hf | ⟨f, hf⟩
      · rw [hf] at h; cases h
      · rw [hf] at h
        obtain ⟨r, n, o', h1, h2, h3⟩ := enter2_steps (p := f) h
        refine ⟨n + 2, Steps.tau (pc' := .func2 j) ?_ ?_⟩
        · rw [next, hm, ok_bind, hp]; rfl
        · rw [h3]
          refine first_step ?_ h2
          rw [next, hf, h1]
    · rw [hp] at h
      obtain ⟨r, n, o', h1, h2, h3⟩ := enter2_steps (p := p) h
      refine ⟨n + 2, Steps.tau (pc' := .proc j) ?_ ?_⟩
      · rw [next, hm, ok_bind, hp]; rfl
      · rw [h3]
        refine first_step ?_ h2
        rw [next, hm, ok_bind, hp, h1]

theorem compare_steps {env : Env} {c : Config} {j : Job} {o : List Out} {max : Int}
    (h : (if Log.passes j.level max then Log.emit env c j.module j.level j.msg else .ok []) = .ok o) : ∃ n, Steps env c n (compare j max) o := by
  unfold compare
  split at h
  · rename_i hp
    rw [if_pos hp]
    exact emit_steps h
  · rename_i hp
    rw [if_neg hp]
    injection h with h
    rw [← h]
    exact ⟨0, Steps.done⟩

theorem default_steps {env : Env} {c : Config} {j : Job} {o : List Out} (h : Log.decide env c j.module none j.level j.msg = .ok o) :
    ∃ n, Steps env c n (.default j) o := by
  rw [Log.decide] at h
  cases hm : c.get 0 with
  | error e => rw [hm] at h; cases h
  | ok d =>
    rw [hm, ok_bind] at h
    obtain ⟨n, h1⟩ := compare_steps h
    refine ⟨n + 1, Steps.tau ?_ h1⟩
    rw [next, hm, ok_bind]
    rfl

theorem own_steps {env : Env} {c : Config} {j : Job} {o : List Out} {i : Nat} {m : Module} (hm : c.get i = .ok m)
    (h : Log.decide env c j.module (if m.level = Log.INHERIT then none else some m.level) j.level j.msg = .ok o) :
    ∃ n, Steps env c n (.own j i) o := by
  by_cases hl : m.level = Log.INHERIT
  · rw [if_pos hl] at h
    obtain ⟨n, h1⟩ := default_steps h
    refine ⟨n + 1, Steps.tau ?_ h1⟩
    rw [next, hm, ok_bind, if_neg (fun h => h hl)]
  · rw [if_neg hl, Log.decide] at h
    cases hd : c.get 0 with
    | error e => rw [hd] at h; cases h
    | ok d =>
      rw [hd, ok_bind] at h
      obtain ⟨n, h1⟩ := compare_steps h
      refine ⟨n + 2, Steps.tau (pc' := .ownLevel j i) ?_ (Steps.tau ?_ h1)⟩
      · rw [next, hm, ok_bind, if_pos hl]
      · rw [next, hm, ok_bind]
        rfl

theorem walk_steps {env : Env} {c : Config} {j : Job} {o : List Out} : ∀ (fuel : Nat) (check : Option Nat),
    Log.logvR env c j.module j.level j.msg fuel check = .ok o → ∃ n, Steps env c n (.flags j check) o := by
  intro fuel
  induction fuel with
  | zero => intro check h; cases check <;> cases h
  | succ fuel ih =>
    intro check h
    cases check with
    | none =>
      obtain ⟨n, h1⟩ := default_steps h
      exact ⟨n + 1, Steps.tau rfl h1⟩
    | some i =>
      rw [Log.logvR] at h
      cases hm : c.get i with
      | error e => rw [hm] at h; cases h
      | ok m =>
        rw [hm, ok_bind] at h
        by_cases hd : m.disable = true
        · rw [if_pos hd] at h
          injection h with h
          refine ⟨1, ?_⟩
          rw [← h]
          refine Steps.tau (pc' := .idle) ?_ Steps.done
          rw [next, hm, ok_bind, if_pos hd]
        · rw [if_neg hd] at h
          have e0 : next env c (.flags j (some i)) = .ok (.inherit j i, []) := by rw [next, hm, ok_bind, if_neg hd]
          rcases Option.eq_none_or_eq_some m.parent with hp | ⟨p, hp⟩
          · rw [hp] at h
            dsimp only at h
            obtain ⟨n, h1⟩ := own_steps hm h
            by_cases hl : m.level = Log.INHERIT
            · refine ⟨n + 3, Steps.tau e0 (Steps.tau (pc' := .hasParent j i) ?_ (Steps.tau (pc' := .own j i) ?_ h1))⟩
              · rw [next, hm, ok_bind, if_pos hl]
              · rw [next, hm, ok_bind, hp]; rfl
            · refine ⟨n + 2, Steps.tau e0 (Steps.tau (pc' := .own j i) ?_ h1)⟩
              rw [next, hm, ok_bind, if_neg hl]
          · rw [hp] at h
            dsimp only at h
            by_cases hl : m.level = Log.INHERIT
            · rw [if_pos hl] at h
              obtain ⟨n, h1⟩ := ih (some p) h
              refine ⟨n + 4, Steps.tau e0 (Steps.tau (pc' := .hasParent j i) ?_ (Steps.tau (pc' := .parent j i) ?_ (Steps.tau (pc' := .flags j (some p)) ?_ h1)))⟩
              · rw [next, hm, ok_bind, if_pos hl]
              · rw [next, hm, ok_bind, hp]; rfl
              · rw [next, hm, ok_bind, hp]
            · rw [if_neg hl] at h
              obtain ⟨n, h1⟩ := own_steps (j := j) (o := o) hm (by rw [if_neg hl]; exact h)
              refine ⟨n + 2, Steps.tau e0 (Steps.tau (pc' := .own j i) ?_ h1)⟩
              rw [next, hm, ok_bind, if_neg hl]

/-- A thread which isn't disturbed does what it would do if it were alone. -/
theorem entry_steps {env : Env} {c : Config} {j : Job} {o : List Out} (h : Log.logv env c j.module j.level j.msg = .ok o) : ∃ n, Steps env c n (.entry j) o := by
  rw [Log.logv] at h
  split at h
  · rename_i hc
    obtain ⟨n, h1⟩ := walk_steps _ _ h
    exact ⟨n + 1, Steps.tau (by rw [next, if_pos hc]) h1⟩
  · rename_i hc
    injection h with h
    rw [← h]
    exact ⟨1, Steps.tau (pc' := .idle) (by rw [next, if_neg hc]) Steps.done⟩

end Verif.LogThreads
