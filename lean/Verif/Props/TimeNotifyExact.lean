import Verif.Props.TimeNotifyMore

/-!
# C98: exactly when a change of the clock is noticed
-/

namespace Verif.TimeNotify
open Verif.C

/-- If the clock were set now, that would be noticed. -/
def Works (s : State) : Prop := ∀ s', step s .clock = .ok s' → Due s'

theorem works_iff {s : State} (hi : Inv s) : Works s ↔ s.sources ≠ [] := by
  constructor
  · intro h hn
    obtain ⟨src, hm, _⟩ := h _ rfl
    simp only [hn] at hm
    cases hm
  · intro h s' hs
    cases hs
    cases hsrc : s.sources with
    | nil => exact absurd hsrc h
    | cons src t =>
      obtain ⟨rfl, o, ho⟩ := sources_of hi hsrc
      obtain ⟨_, _, _, hw⟩ := hi.there o ho
      cases hc : o.chan with
      | none => simp [Wired, hc, hsrc] at hw
      | some c =>
        simp only [Wired, hc] at hw
        rcases hw.2.2 with ⟨_, w, _⟩ | ⟨_, w, _⟩
        · exact absurd w h
        · refine ⟨src, by simp [hsrc], ?_⟩
          rw [hsrc] at w
          cases w
          simp [hw.2.1]

theorem unref_sources {s s' : State} (h : unref s = .ok s') (ho' : s'.obj ≠ none) : s'.sources = s.sources ∧ s'.readable = s.readable := by
  unfold unref at h
  cases ho : s.obj with
  | none => simp [State.self, ho, bind, Except.bind] at h
  | some o =>
    simp only [self_ok ho, bind, Except.bind] at h
    split at h
    · exact absurd (finalize_obj h).1 ho'
    · cases h
      exact ⟨rfl, rfl⟩

theorem pump_sources {s s' : State} {t : List Nat} (h : pump s t = .ok s') (ho' : s'.obj ≠ none) :
    s'.sources = s.sources ∧ s'.readable = s.readable := by
  induction t with
  | nil => exact unref_sources (s := { s with emit := none }) h ho'
  | cons x t ih =>
    unfold pump at h
    cases ho : s.obj with
    | none => simp [State.self, ho, bind, Except.bind] at h
    | some o =>
      simp only [self_ok ho, bind, Except.bind] at h
      split at h
      · cases h
        exact ⟨rfl, rfl⟩
      · exact ih h

/-- What each step does to the sources and to what can be read, as long as there's an object afterwards -/
theorem sources_step {s s' : State} {a : Act} (hi : Inv s) (ha : Allowed s a) (hs : step s a = .ok s') (hal : s'.alive) :
    match (generalizing := false) a with
    | .new ok => (s.obj ≠ none ∧ s'.sources = s.sources ∧ s'.readable = s.readable) ∨
        (s.obj = none ∧ (s'.sources ≠ [] ↔ ok = true) ∧ ¬ Due s')
    | .dispatch bad => s.sources ≠ [] ∧ (s'.sources ≠ [] ↔ bad = false) ∧ ¬ Due s'
    | .clock => s'.sources = s.sources ∧ s'.readable = s.fds
    | _ => s'.sources = s.sources ∧ s'.readable = s.readable := by
  obtain ⟨s1, e1, hi'⟩ := step_inv hi ha
  rw [hs] at e1
  cases e1
  obtain ⟨o', ho'⟩ := hi'.objs hal
  have hne : s'.obj ≠ none := by rw [ho']; simp
  cases a with
  | new ok =>
    cases ho : s.obj with
    | none =>
      right
      have hg := hi.gone ho
      have hrd : s.readable = [] := by
        cases hr : s.readable with
        | nil => rfl
        | cons x t => have := hi.sub x (by rw [hr]; simp); rw [hg.2.2.2.2] at this; cases this
      simp only [step, new, hg.1, bind, Except.bind] at hs
      cases hs
      cases ok with
      | true =>
        refine ⟨rfl, by simp [create], ?_⟩
        rintro ⟨src, _, h⟩
        simp [create, hrd] at h
      | false =>
        refine ⟨rfl, by simp [create, hg.2.2.2.1], ?_⟩
        rintro ⟨src, _, h⟩
        simp [create, hrd] at h
    | some o =>
      left
      simp only [step, new, (hi.there o ho).1, ref, self_ok ho, bind, Except.bind] at hs
      cases hs
      exact ⟨by simp, rfl, rfl⟩
  | ref =>
    obtain ⟨o, ho⟩ := hi.objs (.inl ha)
    simp only [step, ref, self_ok ho, bind, Except.bind] at hs
    cases hs
    exact ⟨rfl, rfl⟩
  | unref => exact unref_sources (s := { s with client := s.client - 1 }) hs hne
  | add =>
    obtain ⟨o, ho⟩ := hi.objs (.inl ha)
    simp only [step, add, self_ok ho, bind, Except.bind] at hs
    cases hs
    exact ⟨rfl, rfl⟩
  | remove x =>
    obtain ⟨o, ho⟩ := hi.objs (.inl ha)
    simp only [step, remove, self_ok ho, bind, Except.bind] at hs
    cases hs
    exact ⟨rfl, rfl⟩
  | clock => cases hs; exact ⟨rfl, rfl⟩
  | dispatch bad =>
    obtain ⟨he, ha⟩ := ha
    cases hsrc : s.sources with
    | nil => rw [hsrc] at ha; exact ha.elim
    | cons src t =>
      obtain ⟨rfl, o, ho⟩ := sources_of hi hsrc
      refine ⟨by simp, ?_⟩
      cases bad with
      | false =>
        obtain ⟨c, s1, s2, h1, h2, h3, h4, h5, h6, h7, h8⟩ := callback_inv hi he ho hsrc
        simp only [step, hsrc, h6, h7] at hs
        cases hs
        obtain ⟨k1, k2⟩ := pump_sources h7 hne
        rw [h5] at k1 k2
        simp only at k1 k2
        refine ⟨by simp [k1, hsrc], ?_⟩
        rintro ⟨src', hm, hr⟩
        rw [k1, hsrc, List.mem_singleton] at hm
        subst hm
        rw [k2, h2] at hr
        simp at hr
      | true =>
        have hsn : s'.sources = [] := by
          simp only [step, hsrc, callback, self_ok ho, bind, Except.bind] at hs
          split at hs
          · cases hs
          · simp only [if_true] at hs
            split at hs
            · cases hs
            · split at hs
              · cases hs
              · next v hv =>
                cases hs
                simp only [sourceRemove, hsrc] at hv
                split at hv
                · simp only [chanUnref, State.close] at hv
                  repeat' split at hv
                  all_goals cases hv
                  all_goals simp
                · cases hv
        refine ⟨by simp [hsn], ?_⟩
        rintro ⟨src', hm, _⟩
        rw [hsn] at hm
        cases hm
  | ret =>
    cases he : s.emit with
    | none => exact absurd he ha
    | some t =>
      simp only [step, he] at hs
      exact pump_sources hs hne

/-- **C98** Exactly when changes of the clock are noticed: if the timer could be created together with the object, as long as the main loop hasn't reported an
error. Nothing else makes a difference; what's broken stays broken until the last reference is dropped. -/
theorem C98_works_exactly {s s' : State} {a : Act} (h : Reach always s) (ha : Allowed s a) (hs : step s a = .ok s') :
    (¬ s'.alive → ¬ Works s') ∧
    (s'.alive → (Works s' ↔ match (generalizing := false) a with
      | .new ok => (s.alive ∧ Works s) ∨ (¬ s.alive ∧ ok = true)
      | .dispatch bad => bad = false
      | _ => Works s)) := by
  have hi := reach_inv h
  have hi' := reach_inv (.step h ha trivial hs)
  refine ⟨fun hn => ?_, fun hal => ?_⟩
  · rw [works_iff hi']
    simp [(hi'.gone (hi'.noobj hn)).2.2.2.1]
  · have k := sources_step hi ha hs hal
    rw [works_iff hi']
    cases a with
    | new ok =>
      simp only [works_iff hi] at k ⊢
      by_cases hl : s.alive
      · obtain ⟨o, ho⟩ := hi.objs hl
        rcases k with ⟨_, k, _⟩ | ⟨k, _⟩
        · rw [k]; simp [hl]
        · rw [ho] at k; cases k
      · have ho := hi.noobj hl
        rcases k with ⟨k, _⟩ | ⟨_, k, _⟩
        · exact absurd ho k
        · rw [k]; simp [hl]
    | dispatch bad => exact k.2.1
    | ref | unref | add | remove | clock | ret => simp only [works_iff hi] at k ⊢; rw [k.1]

/-- **C98** Exactly when the callback is due: when the clock is set, if that's noticed, until the main loop calls it or the object is gone. -/
theorem C98_due_exactly {s s' : State} {a : Act} (h : Reach always s) (ha : Allowed s a) (hs : step s a = .ok s') :
    (¬ s'.alive → ¬ Due s') ∧
    (s'.alive → (Due s' ↔ match (generalizing := false) a with
      | .clock => Works s
      | .dispatch _ => False
      | _ => s.alive ∧ Due s)) := by
  have hi := reach_inv h
  have hi' := reach_inv (.step h ha trivial hs)
  have hl : Due s → s.alive := by
    rintro ⟨src, hm, _⟩
    refine Classical.byContradiction fun hn => ?_
    rw [(hi.gone (hi.noobj hn)).2.2.2.1] at hm
    cases hm
  have keep : s'.sources = s.sources ∧ s'.readable = s.readable → (Due s' ↔ s.alive ∧ Due s) := by
    rintro ⟨e1, e2⟩
    have : Due s' ↔ Due s := by unfold Due; rw [e1, e2]
    rw [this]
    exact ⟨fun h => ⟨hl h, h⟩, And.right⟩
  refine ⟨fun hn => ?_, fun hal => ?_⟩
  · rintro ⟨src, hm, _⟩
    rw [(hi'.gone (hi'.noobj hn)).2.2.2.1] at hm
    cases hm
  · have k := sources_step hi ha hs hal
    cases a with
    | new ok =>
      rcases k with ⟨_, k⟩ | ⟨ho, _, k⟩
      · exact keep k
      · refine ⟨fun h => absurd h k, fun ⟨ha, _⟩ => ?_⟩
        obtain ⟨o, ho'⟩ := hi.objs ha
        rw [ho] at ho'
        cases ho'
    | dispatch bad => exact ⟨fun h => absurd h k.2.2, False.elim⟩
    | clock =>
      refine ⟨fun hd s1 h1 => ?_, fun hw => hw s' hs⟩
      rw [hs] at h1
      cases h1
      exact hd
    | ref | unref | add | remove | ret => exact keep k

/-- The error is reported to the first object only; the next one works. -/
example : ∃ s1 s2, exec init [.new true, .add, .dispatch true, .clock] = .ok s1 ∧ Reach always s1 ∧ s1.alive ∧ ¬ Due s1 ∧
    exec s1 [.unref, .new true, .clock] = .ok s2 ∧ s2.alive ∧ Due s2 := by
  have r : Reach always _ := .step (a := .clock) (.step (a := .dispatch true) (.step (a := .add) (.step (a := .new true) .init (by decide +kernel) trivial rfl)
    (by decide +kernel) trivial rfl) (by decide +kernel) trivial rfl) (by decide +kernel) trivial rfl
  refine ⟨_, _, rfl, r, .inl (by decide +kernel), ?_, rfl, .inl (by decide +kernel), ?_⟩
  · rintro ⟨src, hm, _⟩
    cases hm
  · exact ⟨_, .head _, by decide +kernel⟩

end Verif.TimeNotify
