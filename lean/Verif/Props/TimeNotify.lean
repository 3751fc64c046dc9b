import Verif.Proof.TimeNotify

/-!
# C97 - C99: notifications about clock changes

`Reach P s`: the client, the main loop and the kernel have done anything they are allowed to, following `P`.
-/

namespace Verif.TimeNotify
open Verif.C

def always (_ : Act) : Prop := True

/-- The timer gets created and never reports an error. -/
def Quiet : Act → Prop
  | .new ok => ok = true
  | .dispatch bad => bad = false
  | _ => True

/-- **C97** Whatever the client (also in handlers) and the kernel do, nothing is used after it's been freed. -/
theorem C97_safe {s : State} {a : Act} (h : Reach always s) (ha : Allowed s a) : ∃ s', step s a = .ok s' := by
  obtain ⟨s', h1, _⟩ := step_inv (reach_inv h) ha
  exact ⟨s', h1⟩

/-- **C97** The object is there as long as the client has a reference, and also (until the last handler returns) if handlers are being
called; `gutil_time_notify_new` returns the same object, and leaves the handlers alone. -/
theorem C97_shared {s s' : State} {ok : Bool} (h : Reach always s) (hc : 0 < s.client ∨ s.emit ≠ none) (hs : step s (.new ok) = .ok s') :
    ∃ o o', s.obj = some o ∧ s'.obj = some o' ∧ o'.gen = o.gen ∧ o'.handlers = o.handlers ∧ o'.watch = o.watch := by
  have h := reach_inv h
  obtain ⟨o, ho⟩ := InvE.obj h (by
    rcases hc with hc | hc
    · omega
    · cases he : s.emit with
      | none => exact absurd he hc
      | some t => simp)
  simp only [step, new, (h.there o ho).1, (ref_inv h ho (c' := s.client + 1) (e' := if s.emit.isSome then 1 else 0) (by omega)).1, bind,
    Except.bind] at hs
  cases hs
  exact ⟨o, _, ho, rfl, rfl, rfl, rfl⟩

/-- **C97** When the client has no references and no handler is being called, there's nothing left: no object, no source which could call
the callback, no open descriptor, and each descriptor has been closed exactly once. -/
theorem C97_end {s : State} (h : Reach always s) (hc : s.client = 0) (he : s.emit = none) :
    s.obj = none ∧ s.sources = [] ∧ s.fds = [] ∧ s.closed.Perm s.opened := by
  have h := reach_inv h
  have h' : InvE s 0 := by unfold Inv at h; rw [he] at h; exact h
  cases ho : s.obj with
  | none =>
    obtain ⟨_, _, _, h1, h2⟩ := h'.gone ho
    refine ⟨rfl, h1, h2, ?_⟩
    have := h'.opened
    rw [h2, List.append_nil] at this
    exact this.symm
  | some o => obtain ⟨_, h1, h2, _⟩ := h'.there o ho; omega

/-- **C97** No descriptor is ever closed twice, and those of live objects aren't closed. -/
theorem C97_once {s : State} (h : Reach always s) : s.closed.Nodup ∧ s.opened.Perm (s.closed ++ s.fds) ∧ ∀ fd ∈ s.fds, fd ∉ s.closed :=
  ⟨(reach_inv h).closed, (reach_inv h).opened, fun fd hfd => ((reach_inv h).fdsLt fd hfd).2⟩

/-- A handler drops the last reference, and gets a new one. -/
def example97 : List Act := [.new true, .add, .ref, .add, .clock, .unref, .dispatch false, .unref, .ret, .ret, .new true, .ref, .add, .dispatch true,
  .new false, .unref, .unref, .unref, .new false, .unref]

example : legal init example97 = true ∧
    (exec init example97).map (fun s => (s.obj, s.opened, s.closed, s.calls)) = (.ok (none, [1, 5], [1, 5], [3, 4]) : M _) := by decide +kernel

/-- The main loop has a reason to call the callback. -/
def Due (s : State) : Prop := ∃ src ∈ s.sources, src.fd ∈ s.readable

theorem quiet_wired {s : State} (h : Reach Quiet s) : ∀ o, s.obj = some o → ∃ c, o.chan = some c ∧ o.watch ≠ 0 := by
  induction h with
  | init => intro o ho; cases ho
  | @step s s' a hr ha hp hs ih =>
    have hi := reach_inv hr
    intro o' ho'
    have keep : ∀ o1, s.obj = some o1 → o'.chan = o1.chan → o'.watch = o1.watch → ∃ c, o'.chan = some c ∧ o'.watch ≠ 0 := by
      intro o1 h1 h2 h3
      rw [h2, h3]
      exact ih o1 h1
    have hun : ∀ (s1 s2 : State), (∀ o1, s1.obj = some o1 → ∃ c, o1.chan = some c ∧ o1.watch ≠ 0) → unref s1 = .ok s2 → s2.obj = some o' →
        ∃ c, o'.chan = some c ∧ o'.watch ≠ 0 := by
      intro s1 s2 h1 h2 h3
      cases ho1 : s1.obj with
      | none => simp [unref, State.self, ho1, bind, Except.bind] at h2
      | some o1 =>
        simp only [unref, self_ok ho1, bind, Except.bind] at h2
        by_cases hr : o1.refs = 1
        · rw [if_pos hr] at h2
          have : s2.obj = none := by
            simp only [finalize, chanUnref, bind, Except.bind] at h2
            grind
          rw [this] at h3
          cases h3
        · rw [if_neg hr] at h2
          cases h2
          cases h3
          exact h1 o1 ho1
    have hpump : ∀ (t : List Nat) (s1 s2 : State), (∀ o1, s1.obj = some o1 → ∃ c, o1.chan = some c ∧ o1.watch ≠ 0) → pump s1 t = .ok s2 →
        s2.obj = some o' → ∃ c, o'.chan = some c ∧ o'.watch ≠ 0 := by
      intro t
      induction t with
      | nil => intro s1 s2 h1 h2 h3; exact hun { s1 with emit := none } s2 h1 h2 h3
      | cons x t iht =>
        intro s1 s2 h1 h2 h3
        cases ho1 : s1.obj with
        | none => simp [pump, State.self, ho1, bind, Except.bind] at h2
        | some o1 =>
          simp only [pump, self_ok ho1, bind, Except.bind] at h2
          split at h2
          · cases h2
            exact h1 o' h3
          · exact iht s1 s2 h1 h2 h3
    cases a with
    | new ok =>
      cases ho : s.obj with
      | none =>
        have hp : ok = true := hp
        subst hp
        simp only [step, new, (hi.gone ho).1, bind, Except.bind, create, if_true] at hs
        cases hs
        cases ho'
        exact ⟨_, rfl, by simp⟩
      | some o =>
        simp only [step, new, (hi.there o ho).1, ref, self_ok ho, bind, Except.bind] at hs
        cases hs
        cases ho'
        exact keep o ho rfl rfl
    | ref =>
      obtain ⟨o, ho⟩ := InvE.obj hi (by have : 0 < s.client := ha; omega)
      simp only [step, ref, self_ok ho, bind, Except.bind] at hs
      cases hs
      cases ho'
      exact keep o ho rfl rfl
    | unref => exact hun { s with client := s.client - 1 } s' ih hs ho'
    | add =>
      obtain ⟨o, ho⟩ := InvE.obj hi (by have : 0 < s.client := ha; omega)
      simp only [step, add, self_ok ho, bind, Except.bind] at hs
      cases hs
      cases ho'
      exact keep o ho rfl rfl
    | remove h =>
      obtain ⟨o, ho⟩ := InvE.obj hi (by have : 0 < s.client := ha; omega)
      simp only [step, remove, self_ok ho, bind, Except.bind] at hs
      cases hs
      cases ho'
      exact keep o ho rfl rfl
    | clock => cases hs; exact ih o' ho'
    | dispatch bad =>
      have hp : bad = false := hp
      subst hp
      obtain ⟨he, ha⟩ := ha
      cases hsrc : s.sources with
      | nil => rw [hsrc] at ha; exact ha.elim
      | cons src t =>
        obtain ⟨rfl, o, ho⟩ := sources_of hi hsrc
        obtain ⟨c, s1, s2, h1, h2, h3, h4, h5, h6, h7, h8⟩ := callback_inv hi he ho hsrc
        simp only [step, hsrc, h6, h7] at hs
        cases hs
        refine hpump o.handlers s1 s' ?_ h7 ho'
        intro o1 ho1
        rw [h4] at ho1
        cases ho1
        exact ih o ho
    | ret =>
      cases he : s.emit with
      | none => exact absurd he ha
      | some t =>
        simp only [step, he] at hs
        exact hpump t s s' ih hs ho'

/-- How the timer of a working object is seen by the main loop -/
theorem quiet_source {s : State} {o : Obj} (h : Reach Quiet s) (ho : s.obj = some o) :
    ∃ src, s.sources = [src] ∧ s.fds = [src.fd] := by
  obtain ⟨c, h1, h2⟩ := quiet_wired h o ho
  obtain ⟨_, _, _, hw⟩ := (reach_inv h).there o ho
  simp only [Wired, h1] at hw
  rcases hw.2.2 with ⟨w, _⟩ | ⟨_, w, _⟩
  · exact absurd w h2
  · exact ⟨_, w, hw.2.1⟩

/-- **C98** When the clock is set, and there's an object, the callback has to be called ... -/
theorem C98_due_partial {s s' : State} (h : Reach Quiet s) (hc : 0 < s.client ∨ s.emit ≠ none) (hs : step s .clock = .ok s') : Due s' := by
  obtain ⟨o, ho⟩ := InvE.obj (reach_inv h) (by
    rcases hc with hc | hc
    · omega
    · cases he : s.emit with
      | none => exact absurd he hc
      | some t => simp)
  obtain ⟨src, h1, h2⟩ := quiet_source h ho
  cases hs
  exact ⟨src, by rw [h1]; simp, by simp [h2]⟩

/-- ... and will be: it stays that way until that's done, whatever else happens, unless all the references are dropped ... -/
theorem C98_kept_partial {s s' : State} {a : Act} (h : Reach Quiet s) (hd : Due s) (ha : Allowed s a) (hq : Quiet a) (hn : ∀ bad, a ≠ .dispatch bad)
    (hs : step s a = .ok s') (hc : 0 < s'.client ∨ s'.emit ≠ none) : Due s' := by
  have hr' : Reach Quiet s' := .step h ha hq hs
  have hi := reach_inv h
  obtain ⟨src, hm, hrd⟩ := hd
  have ho : ∃ o, s.obj = some o := by
    cases ho : s.obj with
    | none => rw [(hi.gone ho).2.2.2.1] at hm; cases hm
    | some o => exact ⟨o, rfl⟩
  obtain ⟨o, ho⟩ := ho
  obtain ⟨o', ho'⟩ := InvE.obj (reach_inv hr') (by
    rcases hc with hc | hc
    · omega
    · cases he : s'.emit with
      | none => exact absurd he hc
      | some t => simp)
  have keep : s'.sources = s.sources → s'.readable = s.readable → Due s' := fun e1 e2 => ⟨src, by rw [e1]; exact hm, by rw [e2]; exact hrd⟩
  have hun : ∀ (s1 : State), unref s1 = .ok s' → s1.sources = s.sources → s1.readable = s.readable → Due s' := by
    intro s1 h2 e1 e2
    cases ho1 : s1.obj with
    | none => simp [unref, State.self, ho1, bind, Except.bind] at h2
    | some o1 =>
      simp only [unref, self_ok ho1, bind, Except.bind] at h2
      by_cases hr : o1.refs = 1
      · rw [if_pos hr] at h2
        have : s'.obj = none := by
          simp only [finalize, chanUnref, bind, Except.bind] at h2
          grind
        rw [this] at ho'
        cases ho'
      · rw [if_neg hr] at h2
        cases h2
        exact keep e1 e2
  have hpump : ∀ (t : List Nat) (s1 : State), pump s1 t = .ok s' → s1.sources = s.sources → s1.readable = s.readable → Due s' := by
    intro t
    induction t with
    | nil => intro s1 h2 e1 e2; exact hun { s1 with emit := none } h2 e1 e2
    | cons x t iht =>
      intro s1 h2 e1 e2
      cases ho1 : s1.obj with
      | none => simp [pump, State.self, ho1, bind, Except.bind] at h2
      | some o1 =>
        simp only [pump, self_ok ho1, bind, Except.bind] at h2
        split at h2
        · cases h2
          exact keep e1 e2
        · exact iht s1 h2 e1 e2
  cases a with
  | new ok =>
    simp only [step, new, (hi.there o ho).1, ref, self_ok ho, bind, Except.bind] at hs
    cases hs
    exact keep rfl rfl
  | ref =>
    simp only [step, ref, self_ok ho, bind, Except.bind] at hs
    cases hs
    exact keep rfl rfl
  | unref => exact hun { s with client := s.client - 1 } hs rfl rfl
  | add =>
    simp only [step, add, self_ok ho, bind, Except.bind] at hs
    cases hs
    exact keep rfl rfl
  | remove h =>
    simp only [step, remove, self_ok ho, bind, Except.bind] at hs
    cases hs
    exact keep rfl rfl
  | clock => exact C98_due_partial h (by
      rcases hc with hc | hc
      · cases hs; exact .inl hc
      · cases hs; exact .inr hc) hs
  | dispatch bad => exact absurd rfl (hn bad)
  | ret =>
    cases he : s.emit with
    | none => exact absurd he ha
    | some t =>
      simp only [step, he] at hs
      exact hpump t s hs rfl rfl

/-- ... and then it's called (as soon as the previous call returns). -/
theorem C98_dispatched {s : State} (h : Reach always s) (hd : Due s) (he : s.emit = none) : Allowed s (.dispatch false) := by
  obtain ⟨src, hm, hr⟩ := hd
  cases hs : s.sources with
  | nil => rw [hs] at hm; cases hm
  | cons src' t =>
    obtain ⟨rfl, _⟩ := sources_of (reach_inv h) hs
    rw [hs, List.mem_singleton] at hm
    subst hm
    exact ⟨he, by rw [hs]; exact .inr hr⟩

/-- The handlers are being called until `emit` becomes `none`; meanwhile `acts` happen. -/
inductive Emission : State → List Act → State → Prop
  | done {s : State} : s.emit = none → Emission s [] s
  | step {s s1 s2 : State} {a : Act} {acts : List Act} : s.emit ≠ none → Allowed s a → step s a = .ok s1 → Emission s1 acts s2 →
      Emission s (a :: acts) s2

theorem emission_calls {s s2 : State} {acts : List Act} (h : Emission s acts s2) (hi : Inv s) :
    (s.emit = none → s2.calls = s.calls) ∧
    ∀ t o, s.emit = some t → s.obj = some o → ∃ called, s2.calls = s.calls ++ called ∧ called.Sublist t ∧
      ∀ x ∈ t, x ∈ o.handlers → Act.remove x ∉ acts → x ∈ called := by
  induction h with
  | done he => exact ⟨fun _ => rfl, fun t o ht => by rw [he] at ht; cases ht⟩
  | @step s s1 s2 a acts hne ha hs _ ih =>
    refine ⟨fun he => absurd he hne, fun t o ht ho => ?_⟩
    obtain ⟨s1', g1, g2⟩ := step_inv hi ha
    rw [g1] at hs
    cases hs
    obtain ⟨ih1, ih2⟩ := ih g2
    -- actions which don't affect the emission
    have keep : ∀ o1, s1.emit = some t → s1.calls = s.calls → s1.obj = some o1 →
        (∀ x, x ∈ o.handlers → a ≠ .remove x → x ∈ o1.handlers) →
        ∃ called, s2.calls = s.calls ++ called ∧ called.Sublist t ∧ ∀ x ∈ t, x ∈ o.handlers → Act.remove x ∉ a :: acts → x ∈ called := by
      intro o1 e1 e2 e3 e4
      obtain ⟨called, c1, c2, c3⟩ := ih2 t o1 e1 e3
      refine ⟨called, by rw [c1, e2], c2, fun x hx hxo hxa => ?_⟩
      rw [List.mem_cons, not_or] at hxa
      exact c3 x hx (e4 x hxo (fun e => hxa.1 e.symm)) hxa.2
    have h' : InvE s 1 := by unfold Inv at hi; rw [ht] at hi; exact hi
    cases a with
    | new ok =>
      simp only [step, new, (hi.there o ho).1, ref, self_ok ho, bind, Except.bind] at g1
      cases g1
      exact keep _ ht rfl rfl (fun x hx _ => hx)
    | ref =>
      simp only [step, ref, self_ok ho, bind, Except.bind] at g1
      cases g1
      exact keep _ ht rfl rfl (fun x hx _ => hx)
    | unref =>
      have hc : 0 < s.client := ha
      obtain ⟨_, hr, _⟩ := h'.there o ho
      have hr1 : ¬ o.refs = 1 := by omega
      simp only [step, unref, self_ok (s := { s with client := s.client - 1 }) ho, bind, Except.bind, if_neg hr1] at g1
      cases g1
      exact keep _ ht rfl rfl (fun x hx _ => hx)
    | add =>
      simp only [step, add, self_ok ho, bind, Except.bind] at g1
      cases g1
      exact keep _ ht rfl rfl (fun x hx _ => List.mem_append_left _ hx)
    | remove y =>
      simp only [step, remove, self_ok ho, bind, Except.bind] at g1
      cases g1
      refine keep _ ht rfl rfl (fun x hx hn => List.mem_filter.mpr ⟨hx, ?_⟩)
      simp only [decide_eq_true_eq]
      intro e
      exact hn (by rw [e])
    | clock =>
      cases g1
      exact keep _ ht rfl ho (fun x hx _ => hx)
    | dispatch bad => exact absurd ha.1 hne
    | ret =>
      simp only [step, ht] at g1
      obtain ⟨s1', f1, _, _, _, _, _, f2⟩ := pump_inv h' ho t
      rw [f1] at g1
      cases g1
      rcases f2 with ⟨f2, f3, f4⟩ | ⟨p, x, b, rfl, f3, f4, rfl⟩
      · exact ⟨[], by rw [ih1 f4, f3, List.append_nil], List.nil_sublist _, fun x hx hxo _ => absurd hxo (f2 x hx)⟩
      · obtain ⟨called, c1, c2, c3⟩ := ih2 b o rfl ho
        refine ⟨x :: called, by rw [c1]; simp, ?_, fun y hy hyo hya => ?_⟩
        · exact (c2.cons_cons x).trans (List.sublist_append_right _ _)
        · rw [List.mem_cons, not_or] at hya
          rcases List.mem_append.mp hy with hy | hy
          · exact absurd hyo (f3 y hy)
          · rcases List.mem_cons.mp hy with rfl | hy
            · exact List.mem_cons_self
            · exact List.mem_cons_of_mem _ (c3 y hy hyo hya.2)

/-- **C98** Each time, the handlers which are connected are called in the order in which they have been connected, each of them once, except
those which are removed in the meantime. Nothing else is called. -/
theorem C98_exact {s s1 s2 : State} {o : Obj} {acts : List Act} (h : Reach always s) (ho : s.obj = some o) (ha : Allowed s (.dispatch false))
    (hs : step s (.dispatch false) = .ok s1) (he : Emission s1 acts s2) :
    ∃ called, s2.calls = s.calls ++ called ∧ called.Sublist o.handlers ∧ called.Nodup ∧
      ∀ x ∈ o.handlers, Act.remove x ∉ acts → x ∈ called := by
  have hi := reach_inv h
  obtain ⟨hnone, ha⟩ := ha
  cases hsrc : s.sources with
  | nil => rw [hsrc] at ha; exact ha.elim
  | cons src t =>
    obtain ⟨rfl, _⟩ := sources_of hi hsrc
    obtain ⟨c, s', s1', _, _, h3, h4, h5, h6, h7, h8⟩ := callback_inv hi hnone ho hsrc
    simp only [step, hsrc, h6, h7] at hs
    cases hs
    obtain ⟨e1, e2⟩ := emission_calls he h8
    obtain ⟨s1', f1, _, _, _, _, _, f2⟩ := pump_inv h3 h4 o.handlers
    rw [f1] at h7
    cases h7
    have hnd := (hi.hand o ho).1
    have hcalls : s'.calls = s.calls := by rw [h5]
    rcases f2 with ⟨f2, f3, f4⟩ | ⟨p, x, b, f2, f3, f4, f5⟩
    · exact ⟨[], by rw [e1 f4, f3, hcalls, List.append_nil], List.nil_sublist _, List.nodup_nil, fun x hx _ => absurd hx (f2 x hx)⟩
    · obtain ⟨called, c1, c2, c3⟩ := e2 b { o with refs := o.refs + 1 } (by rw [f5]) (by rw [f5]; exact h4)
      have hsub : (x :: called).Sublist o.handlers := by
        rw [f2]
        exact (c2.cons_cons x).trans (List.sublist_append_right _ _)
      refine ⟨x :: called, by rw [c1, f5, hcalls]; simp, hsub, hnd.sublist hsub, fun y hy hya => ?_⟩
      have hy' := hy
      rw [f2] at hy'
      rcases List.mem_append.mp hy' with hy' | hy'
      · exact absurd hy (f3 y hy')
      · rcases List.mem_cons.mp hy' with rfl | hy'
        · exact List.mem_cons_self
        · exact List.mem_cons_of_mem _ (c3 y hy' hy hya)

/-- Three handlers; the first one removes the second one and drops the last reference, the third one adds one more. -/
def example98 : State := (exec init [.new true, .add, .add, .add, .clock]).toOption.getD init

example : Reach always example98 ∧ Allowed example98 (.dispatch false) ∧ (example98.obj.map (·.handlers)) = some [3, 4, 5] := by
  refine ⟨?_, by decide +kernel, by decide +kernel⟩
  exact .step (a := .clock) (.step (a := .add) (.step (a := .add) (.step (a := .add) (.step (a := .new true) .init (by decide +kernel) trivial rfl)
    (by decide +kernel) trivial rfl) (by decide +kernel) trivial rfl) (by decide +kernel) trivial rfl) (by decide +kernel) trivial rfl

example : legal example98 [.dispatch false, .remove 4, .ret, .add, .unref, .ret] = true ∧
    (exec example98 [.dispatch false, .remove 4, .ret, .add, .unref, .ret]).map (fun s => (s.calls, s.emit, s.obj)) =
      (.ok ([3, 5], none, none) : M _) := by decide +kernel

/-- Counting calls: `emit` is what remains of one of the rounds. -/
structure Count (s : State) : Prop where
  rounds : s.rounds ≤ s.ticks
  due : (∃ fd, fd ∈ s.readable) → s.rounds < s.ticks
  emit : ∀ t, s.emit = some t → t.Nodup
  calls : ∀ x, s.calls.count x + (if x ∈ s.emit.getD [] then 1 else 0) ≤ s.rounds

theorem Count.congr {s s' : State} (h : Count s) (h1 : s'.rounds = s.rounds) (h2 : s'.ticks = s.ticks) (h3 : ∀ fd, fd ∈ s'.readable → fd ∈ s.readable)
    (h4 : s'.emit = s.emit) (h5 : s'.calls = s.calls) : Count s' := by
  obtain ⟨g1, g2, g3, g4⟩ := h
  refine ⟨by rw [h1, h2]; exact g1, ?_, by rw [h4]; exact g3, by rw [h5, h4, h1]; exact g4⟩
  rintro ⟨fd, hfd⟩
  rw [h1, h2]
  exact g2 ⟨fd, h3 fd hfd⟩

theorem count_unref {s s' : State} (h : Count s) (hs : unref s = .ok s') : Count s' := by
  cases ho : s.obj with
  | none => simp [unref, State.self, ho, bind, Except.bind] at hs
  | some o =>
    simp only [unref, self_ok ho, bind, Except.bind] at hs
    split at hs
    · simp only [finalize, sourceRemove, chanUnref, State.close, bind, Except.bind] at hs
      refine h.congr ?_ ?_ ?_ ?_ ?_ <;> grind
    · cases hs
      exact h.congr rfl rfl (fun _ h => h) rfl rfl

theorem count_pump {s s' : State} {t : List Nat} (h1 : s.rounds ≤ s.ticks) (h2 : (∃ fd, fd ∈ s.readable) → s.rounds < s.ticks) (h3 : t.Nodup)
    (h4 : ∀ x, s.calls.count x + (if x ∈ t then 1 else 0) ≤ s.rounds) (hs : pump s t = .ok s') : Count s' := by
  induction t with
  | nil => exact count_unref (s := { s with emit := none }) ⟨h1, h2, by simp, h4⟩ hs
  | cons x t ih =>
    cases ho : s.obj with
    | none => simp [pump, State.self, ho, bind, Except.bind] at hs
    | some o =>
      simp only [pump, self_ok ho, bind, Except.bind] at hs
      rw [List.nodup_cons] at h3
      split at hs
      · cases hs
        refine ⟨h1, h2, fun t' ht => by cases ht; exact h3.2, fun y => ?_⟩
        have := h4 y
        simp only [List.count_append, List.count_cons, List.count_nil, Option.getD_some, List.mem_cons, beq_iff_eq] at *
        grind
      · refine ih h3.2 (fun y => ?_) hs
        have := h4 y
        simp only [List.mem_cons] at this
        grind

theorem count_step {s s' : State} {a : Act} (hi : Inv s) (h : Count s) (ha : Allowed s a) (hs : step s a = .ok s') : Count s' := by
  have hobj : 0 < s.client → ∃ o, s.obj = some o := fun hc => InvE.obj hi (by omega)
  cases a with
  | new ok =>
    cases ho : s.obj with
    | none =>
      simp only [step, new, (hi.gone ho).1, bind, Except.bind] at hs
      cases hs
      cases ok <;> exact h.congr rfl rfl (fun _ h => h) rfl rfl
    | some o =>
      simp only [step, new, (hi.there o ho).1, ref, self_ok ho, bind, Except.bind] at hs
      cases hs
      exact h.congr rfl rfl (fun _ h => h) rfl rfl
  | ref =>
    obtain ⟨o, ho⟩ := hobj ha
    simp only [step, ref, self_ok ho, bind, Except.bind] at hs
    cases hs
    exact h.congr rfl rfl (fun _ h => h) rfl rfl
  | unref => exact count_unref (s := { s with client := s.client - 1 }) (h.congr rfl rfl (fun _ h => h) rfl rfl) hs
  | add =>
    obtain ⟨o, ho⟩ := hobj ha
    simp only [step, add, self_ok ho, bind, Except.bind] at hs
    cases hs
    exact h.congr rfl rfl (fun _ h => h) rfl rfl
  | remove x =>
    obtain ⟨o, ho⟩ := hobj ha
    simp only [step, remove, self_ok ho, bind, Except.bind] at hs
    cases hs
    exact h.congr rfl rfl (fun _ h => h) rfl rfl
  | clock =>
    cases hs
    exact ⟨Nat.le_succ_of_le h.rounds, fun _ => Nat.lt_succ_of_le h.rounds, h.emit, h.calls⟩
  | dispatch bad =>
    obtain ⟨he, ha⟩ := ha
    cases hsrc : s.sources with
    | nil => rw [hsrc] at ha; exact ha.elim
    | cons src t =>
      rw [hsrc] at ha
      obtain ⟨rfl, o, ho⟩ := sources_of hi hsrc
      simp only [step, hsrc] at hs
      cases bad with
      | true =>
        obtain ⟨s2, h1, _⟩ := callback_bad hi he ho hsrc
        rw [h1] at hs
        cases hs
        simp only [callback, sourceRemove, chanUnref, State.close, State.self, bind, Except.bind] at h1
        refine h.congr ?_ ?_ ?_ ?_ ?_ <;> grind
      | false =>
        obtain ⟨c, s1, s2, h1, h2, h3, h4, h5, h6, h7, h8⟩ := callback_inv hi he ho hsrc
        rw [h6] at hs
        have hr : src.fd ∈ s.readable := by
          rcases ha with ha | ha
          · cases ha
          · exact ha
        have hlt := h.due ⟨_, hr⟩
        have hfds : s.fds = [c.fd] := by
          have hw := (hi.there o ho).2.2.2
          simp only [Wired, h1] at hw
          exact hw.2.1
        refine count_pump (s := s1) ?_ ?_ (hi.hand o ho).1 ?_ hs
        · rw [h5]; exact hlt
        · rintro ⟨fd, hfd⟩
          exfalso
          rw [h5] at hfd
          simp only [List.mem_filter, decide_eq_true_eq] at hfd
          have := hi.sub fd hfd.1
          rw [hfds, List.mem_singleton] at this
          exact hfd.2 this
        · intro x
          have := h.calls x
          rw [h5]
          simp only [he, Option.getD_none, List.not_mem_nil, if_false] at this ⊢
          split <;> omega
  | ret =>
    cases he : s.emit with
    | none => exact absurd he ha
    | some t =>
      simp only [step, he] at hs
      exact count_pump h.rounds h.due (h.emit t he) (fun x => by have := h.calls x; rw [he] at this; exact this) hs

/-- **C98** No handler is called more times than the clock has been set. -/
theorem C98_at_most {s : State} (h : Reach always s) (x : Nat) : s.calls.count x ≤ s.ticks := by
  have : Count s := by
    induction h with
    | init => exact ⟨by simp [init], by simp [init], by simp [init], by simp [init]⟩
    | step hr ha _ hs ih => exact count_step (reach_inv hr) ih ha hs
  have h1 := this.calls x
  have h2 := this.rounds
  omega

/-- **C98** is false if the timer can't be created, or if it reports an error once: nobody is told that, the object remains, and nothing is called
when the clock is set. -/
theorem C98_refuted :
    (∃ s, Reach always s ∧ 0 < s.client ∧ (s.obj.map (·.handlers)) = some [1] ∧ ∀ s', step s .clock = .ok s' → ¬ Due s') ∧
    (∃ s, Reach always s ∧ 0 < s.client ∧ (s.obj.map (·.handlers)) = some [3] ∧ ∀ s', step s .clock = .ok s' → ¬ Due s') := by
  constructor
  · refine ⟨_, .step (a := .add) (.step (a := .new false) .init (by decide +kernel) trivial rfl) (by decide +kernel) trivial rfl, by decide +kernel,
      by decide +kernel, ?_⟩
    rintro s' hs ⟨src, hm, _⟩
    cases hs
    cases hm
  · refine ⟨_, .step (a := .dispatch true) (.step (a := .add) (.step (a := .new true) .init (by decide +kernel) trivial rfl) (by decide +kernel) trivial rfl)
      (by decide +kernel) trivial rfl, by decide +kernel, by decide +kernel, ?_⟩
    rintro s' hs ⟨src, hm, _⟩
    cases hs
    cases hm

/-- The latest time which fits in a signed type of the given number of bits -/
def Latest (bits : Nat) (m : Int) : Prop :=
  (-2 ^ (bits - 1) ≤ m ∧ m < 2 ^ (bits - 1)) ∧ ∀ x : Int, x < 2 ^ (bits - 1) → x ≤ m

/-- **C99** The timer is set to the latest possible time, i.e. it doesn't expire by itself, provided that `time_t` isn't longer than `long` ... -/
theorem C99_partial (long time : Nat) (h0 : 0 < time) (h : time ≤ long) : ∃ m, timeTMax long time = .ok m ∧ Latest time m := by
  have h1 : (2 : Nat) ^ (time - 1) < 2 ^ long := Nat.pow_lt_pow_right (by omega) (by omega)
  have h2 : 0 < (2 : Nat) ^ (time - 1) := Nat.two_pow_pos _
  have h3 : (2 : Nat) ^ time = 2 * 2 ^ (time - 1) := by
    rw [← Nat.pow_succ']
    congr 1
    omega
  have h4 : (2 ^ (time - 1) % 2 ^ long + (2 ^ long - 1)) % 2 ^ long = 2 ^ (time - 1) - 1 := by
    rw [Nat.mod_eq_of_lt h1]
    rw [show 2 ^ (time - 1) + (2 ^ long - 1) = (2 ^ (time - 1) - 1) + 2 ^ long by omega]
    rw [Nat.add_mod_right, Nat.mod_eq_of_lt (by omega)]
  have h5 : (2 ^ (time - 1) - 1) % 2 ^ time = 2 ^ (time - 1) - 1 := Nat.mod_eq_of_lt (by omega)
  refine ⟨((2 ^ (time - 1) - 1 : Nat) : Int), ?_, ?_⟩
  · unfold timeTMax
    rw [if_pos (by omega)]
    simp only [h4, h5]
    rw [if_pos (by omega)]
  · have h6 : ((2 ^ (time - 1) - 1 : Nat) : Int) = (2 : Int) ^ (time - 1) - 1 := by
      rw [Int.natCast_sub h2]
      simp
    have h7 : (0 : Int) < (2 : Int) ^ (time - 1) := by
      have : (0 : Int) < ((2 ^ (time - 1) : Nat) : Int) := by omega
      simpa using this
    rw [h6]
    refine ⟨⟨by omega, by omega⟩, fun x hx => by omega⟩

example : timeTMax 64 64 = .ok 9223372036854775807 ∧ timeTMax 32 32 = .ok 2147483647 := by decide +kernel

/-- ... which isn't the case on 32-bit systems with 64-bit time: the shift is undefined there. -/
theorem C99_refuted : timeTMax 32 64 = .error .badShift := by decide +kernel

end Verif.TimeNotify
