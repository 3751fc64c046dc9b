import Verif.Proof.LogThreadsPass
import Verif.Props.LogThreads

/-!
# C113: which messages are logged, in spite of other threads
-/

namespace Verif.LogThreads
open Verif.C
open Verif.Log (Module Proc Proc2 Out Env lit)
open Verif.Log.Spec (Chain NoneDisabled levelOf Passes)

/-- C113. If levels, parents and flags of modules stay what they are while a thread is in `gutil_log`, and `gutil_log_func2` doesn't become `NULL` (or the other way
round), then the thread passes the message to a log function exactly once if it's to be logged, and doesn't do that if it isn't, whatever else is changed and
whatever other threads do in the meantime. -/
theorem C113_wanted {env : Env} {s s1 s2 : State} {t : Nat} {j : Job} {call : List Event} (hb : step env s (.begin t j) = .ok s1) (h : Path env s1 s2)
    (hh : s2.hist = s1.hist ++ call) (hn : ∀ k, Event.began t k ∉ call) (hend : s2.pc t = .idle)
    (hs : ∀ x, Event.set x ∈ call → selects x = false) (hf : ∀ p, Event.set (.func2 p) ∈ call → p.isSome = s.cfg.func2.isSome) :
    (Wanted s.cfg j → (passed t call).length = 1) ∧ (¬ Wanted s.cfg j → passed t call = []) := by
  injection hb with hb
  have h0 : Ahead s.cfg j (s1.pc t) [] := by
    rw [← hb]
    show Ahead s.cfg j ((s.goto t (.entry j)).pc t) []
    rw [goto_same]
    exact ⟨rfl, rfl⟩
  have g : Agree s.cfg s1.cfg := by rw [← hb]; exact agree_refl s.cfg
  obtain ⟨k, e1, h2⟩ := path_ahead g h0 h
  have : k = call := List.append_cancel_left (e1.symm.trans hh)
  subst this
  have := (h2 (fun x hx => ⟨hs x hx, fun p hp => hf p (by rw [← hp]; exact hx)⟩) hn).2
  rw [hend] at this
  exact this

theorem leads_path {env : Env} {s0 : State} {q : State → Bool} : ∀ (acts : List Act) (s : State), Path env s0 s → leads env (fun _ => true) q s acts = true →
    ∃ s', Path env s0 s' ∧ q s' = true := by
  intro acts
  induction acts with
  | nil => intro s hs h; exact ⟨s, hs, h⟩
  | cons a acts ih =>
    intro s hs h
    rw [leads, Bool.and_eq_true, Bool.and_eq_true] at h
    obtain ⟨⟨h1, _⟩, h3⟩ := h
    cases hst : step env s a with
    | error e => rw [hst] at h3; cases h3
    | ok s1 =>
      rw [hst] at h3
      exact ih s1 (.step hs (easy_ok h1) hst) h3

theorem wanted_hello : Wanted (exampleConfig none) hello :=
  ⟨by decide, [0], 3, ⟨⟨_, rfl, rfl, rfl⟩, _, rfl, .inl (by decide)⟩, by
    intro i hi m hm
    have : i = 1 ∨ i = 0 := by simpa using hi
    rcases this with rfl | rfl
    · injection hm with hm; subst hm; rfl
    · injection hm with hm; subst hm; rfl, rfl, .inl (by decide)⟩

/-- The function, the name and the timestamps are being changed, and another thread logs something. -/
example : ∃ (s1 s2 : State) (call : List Event), step exampleEnv (start (exampleConfig none)) (.begin 0 hello) = .ok s1 ∧ Path exampleEnv s1 s2 ∧
    s2.hist = s1.hist ++ call ∧ (∀ k, Event.began 0 k ∉ call) ∧ s2.pc 0 = .idle ∧ (∀ x, Event.set x ∈ call → selects x = false) ∧
    Event.set (.func2 (some (.other 1))) ∈ call ∧ Event.set (.name 1 none) ∈ call ∧ Event.set (.timestamp true) ∈ call ∧ outs 1 call ≠ [] ∧
    passed 0 call = [(1, .other 1)] := by
  let call : List Event := [.began 1 bye, .set (.func2 (some (.other 1))), .set (.name 1 none), .set (.timestamp true), .called2 1 0 (.other 1),
    .out 1 (.call2 1 0 1 (lit "bye")), .ended 1, .called2 0 1 (.other 1), .out 0 (.call2 1 1 2 (lit "hello")), .ended 0]
  have hr : Path exampleEnv ⟨exampleConfig none, fun u => if u = 0 then .entry hello else .idle, [.began 0 hello]⟩
      ⟨exampleConfig none, fun u => if u = 0 then .entry hello else .idle, [.began 0 hello]⟩ := .refl
  obtain ⟨s2, h1, h2⟩ := leads_path (q := fun s => decide (s.hist = [.began 0 hello] ++ call ∧ s.pc 0 = .idle))
    ([.begin 1 bye, .next 0, .set (.func2 (some (.other 1))), .set (.name 1 none), .set (.timestamp true)] ++ List.replicate 5 (.next 1) ++
      List.replicate 10 (.next 0)) _ hr (by decide +kernel)
  obtain ⟨h3, h4⟩ := of_decide_eq_true h2
  refine ⟨_, s2, call, rfl, h1, h3, ?_, h4, ?_, ?_⟩
  · intro k hk
    revert hk
    simp [call]
  · intro x hx
    have : x = .func2 (some (.other 1)) ∨ x = .name 1 none ∨ x = .timestamp true := by simpa [call] using hx
    rcases this with rfl | rfl | rfl <;> rfl
  · decide

/-- C113. A message may be lost when the level is being changed, although it was to be logged before, and it's to be logged after that: if the module has a level
of its own, and then starts to inherit the default level, a thread may compare the level of the message with that of "inherit". -/
theorem C113_level_refuted : ¬ ∀ (env : Env) (s : State) (t : Nat) (j : Job) (a b : List Event), AnyReach env (exampleConfig none) s → During t s.hist j a b →
    s.pc t = .idle → (∀ b1 c, b1 <+: b → configAt (exampleConfig none) (a ++ .began t j :: b1) = .ok c → Wanted c j) → passed t b ≠ [] := by
  intro hall
  let b : List Event := [.set (.level 1 (-1)), .ended 0]
  obtain ⟨s, h1, h2⟩ := leads_any (env := exampleEnv) (c := exampleConfig none)
    (q := fun s => decide (s.hist = .set (.level 1 2) :: .began 0 hello :: b ∧ s.pc 0 = .idle))
    ([.set (.level 1 2), .begin 0 hello] ++ List.replicate 4 (.next 0) ++ [.set (.level 1 (-1)), .next 0])
    (by decide +kernel)
  obtain ⟨h3, h4⟩ := of_decide_eq_true h2
  refine hall exampleEnv s 0 hello [.set (.level 1 2)] b h1 ⟨h3, by intro k hk; revert hk; simp [b]⟩ h4 ?_ rfl
  intro b1 c hp hc
  have two : Wanted (modify (exampleConfig none) 1 (fun m => { m with level := 2 })) hello :=
    ⟨by decide, [], 2, ⟨_, rfl, .inl (by decide)⟩, by
      intro i hi m hm
      have : i = 1 := by simpa using hi
      subst this
      injection hm with hm; subst hm; rfl, rfl, .inl (by decide)⟩
  have hb : b1 = b.take b1.length := List.prefix_iff_eq_take.mp hp
  have hlen : b1.length ≤ 2 := hp.length_le
  rw [hb] at hc
  generalize b1.length = n at hc hlen
  have : n = 0 ∨ n = 1 ∨ n = 2 := by omega
  rcases this with rfl | rfl | rfl
  · injection hc with hc
    rw [← hc]
    exact two
  · injection hc with hc
    rw [← hc]
    exact wanted_hello
  · injection hc with hc
    rw [← hc]
    exact wanted_hello

end Verif.LogThreads
