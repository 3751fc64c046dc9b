import Verif.Props.IdlePoolThreads

/-! # Idle pool whose sources are dispatched by another thread: when exactly things go wrong (C121) -/

namespace Verif.PoolThreads
open Verif.C Spec

/-- The pool remembers a source which doesn't exist, and nothing is going to clear it: neither is it attached, nor is the main thread about
to clear the id on its behalf. -/
def Stale (s : State) : Prop := s.idle ≠ 0 ∧ s.idle ∉ s.live ∧ ∀ r, s.main ≠ .clear s.idle r

/-- While it's about to remove the source, the owner has cleared the id, and nobody else sets it. -/
theorem drain_cleared {P : State → Act → Prop} {s : State} (h : Reach P s) (id : Nat) (ho : s.owner = .drainRemove id) : s.idle = 0 := by
  induction h with
  | new => rfl
  | @step s s' a hr ha _ hs ih =>
    have hi := reach_inv hr
    cases a with
    | ref =>
      simp only [step, bind, Except.bind] at hs
      split at hs <;> cases hs
      exact ih ho
    | unref =>
      have hw : s.owner = .ready := ha.1
      have key : ∀ t t' : State, unref t = .ok t' → t'.owner = t.owner := by
        intro t t' e
        simp only [unref, final, removeIdle, removeSource, destroyItems, State.access, bind, Except.bind] at e
        (repeat' split at e) <;> simp_all <;> (try subst e) <;> (repeat' split at *) <;> simp_all <;> grind
      have := key _ _ hs
      rw [this] at ho
      rw [show ({ s with owned := s.owned - 1 } : State).owner = s.owner from rfl, hw] at ho
      cases ho
    | add =>
      simp only [step, addStart, bind, Except.bind] at hs
      split at hs <;> cases hs
      cases ho
    | drain =>
      simp only [step, drainStart, bind, Except.bind] at hs
      split at hs <;> cases hs
      cases ho
    | go =>
      simp only [step, go, bind, Except.bind] at hs
      split at hs
      · cases hs
      · split at hs
        all_goals first
          | (cases hs; done)
          | (cases hs; revert ho; dsimp only; split <;> intro ho <;> cases ho; done)
          | (cases hs; cases ho; done)
          | (cases hs; rfl)
          | (split at hs <;> cases hs; cases ho)
    | dispatch src => cases hs; exact ih ho
    | main =>
      simp only [step, mainGo, bind, Except.bind] at hs
      split at hs
      · cases hs
      · split at hs
        · cases hs
        · cases hs; rfl
        · have key : ∀ t t' : State, unref t = .ok t' → t'.owner = t.owner ∧ (t'.idle = t.idle ∨ t'.idle = 0) := by
            intro t t' e
            simp only [unref, final, removeIdle, removeSource, destroyItems, State.access, bind, Except.bind] at e
            (repeat' split at e) <;> simp_all <;> (try subst e) <;> (repeat' split at *) <;> simp_all <;> grind
          have := key _ _ hs
          rw [this.1] at ho
          rcases this.2 with e | e
          · rw [e]; exact ih ho
          · exact e

theorem unref_frame {t t' : State} (e : unref t = .ok t') : t'.idle = 0 ∨ (t'.idle = t.idle ∧ t'.live = t.live ∧ t'.main = t.main) := by
  simp only [unref, final, removeIdle, removeSource, destroyItems, State.access, bind, Except.bind] at e
  (repeat' split at e) <;> simp_all <;> (try subst e) <;> (repeat' split at *) <;> simp_all <;> grind

/-- **C121** There's exactly one way to get there: the owner stores the id of the source which the main thread has dispatched meanwhile, having
cleared the id before it was stored. -/
theorem C121_stale_exactly {P : State → Act → Prop} {s s' : State} {a : Act} (h : Reach P s) (ha : Allowed s a) (hs : step s a = .ok s') (hn : ¬ Stale s) :
    Stale s' ↔ a = .go ∧ ∃ id, s.owner = .addStore id ∧ id ≠ 0 ∧ id ∉ s.live ∧ ∀ r, s.main ≠ .clear id r := by
  have no : (¬ Stale s') → (¬ (a = .go ∧ ∃ id, s.owner = .addStore id ∧ id ≠ 0 ∧ id ∉ s.live ∧ ∀ r, s.main ≠ .clear id r)) →
      (Stale s' ↔ a = .go ∧ ∃ id, s.owner = .addStore id ∧ id ≠ 0 ∧ id ∉ s.live ∧ ∀ r, s.main ≠ .clear id r) :=
    fun h1 h2 => ⟨fun h => absurd h h1, fun h => absurd h h2⟩
  cases a with
  | ref =>
    simp only [step, bind, Except.bind] at hs
    split at hs <;> cases hs
    exact no hn (by simp)
  | unref =>
    have hs' : unref { s with owned := s.owned - 1 } = .ok s' := hs
    refine no ?_ (by simp)
    rintro ⟨h1, h2, h3⟩
    rcases unref_frame hs' with e | ⟨e1, e2, e3⟩
    · exact h1 e
    · rw [e1] at h1 h2
      rw [e2] at h2
      refine hn ⟨h1, h2, fun r e => h3 r ?_⟩
      rw [e1, e3]; exact e
  | add =>
    simp only [step, addStart, bind, Except.bind] at hs
    split at hs <;> cases hs
    exact no hn (by simp)
  | drain =>
    simp only [step, drainStart, bind, Except.bind] at hs
    split at hs <;> cases hs
    exact no hn (by simp)
  | dispatch src =>
    cases hs
    obtain ⟨hm, hsrc⟩ : s.main = .away ∧ src ∈ s.live := ha
    refine no ?_ (by simp)
    rintro ⟨h1, h2, h3⟩
    have h1' : s.idle ≠ 0 := h1
    have h2' : s.idle ∉ s.live.erase src := h2
    have h3' : ∀ r, Main.clear src false ≠ .clear s.idle r := h3
    refine hn ⟨h1', ?_, by rw [hm]; intro r e; cases e⟩
    intro hl
    by_cases e : s.idle = src
    · exact h3' false (by rw [e])
    · exact h2' ((List.mem_erase_of_ne e).2 hl)
  | main =>
    refine no ?_ (by simp)
    simp only [step, mainGo, bind, Except.bind] at hs
    split at hs
    · cases hs
    · split at hs
      · cases hs
      · cases hs
        rintro ⟨h1, _⟩
        exact h1 rfl
      · next src r hm =>
        rintro ⟨h1, h2, h3⟩
        rcases unref_frame hs with e | ⟨e1, e2, e3⟩
        · exact h1 e
        · rw [e1] at h1 h2
          rw [e2] at h2
          exact hn ⟨h1, h2, by rw [hm]; intro r e; cases e⟩
  | go =>
    have hgo : s.owner ≠ .ready := ha
    simp only [step, go, bind, Except.bind] at hs
    split at hs
    · cases hs
    · split at hs
      · next hw => exact absurd hw hgo
      · next hw => cases hs; exact no hn (by rw [hw]; simp)
      · next hw => cases hs; exact no hn (by rw [hw]; simp)
      · next hw =>
        cases hs
        refine no ?_ (by rw [hw]; simp)
        rintro ⟨h1, h2, h3⟩
        exact hn ⟨h1, fun hm => h2 (List.mem_append_left _ hm), h3⟩
      · next id hw =>
        cases hs
        constructor
        · rintro ⟨h1, h2, h3⟩
          exact ⟨rfl, id, hw, h1, h2, h3⟩
        · rintro ⟨-, id', h0, h1, h2, h3⟩
          rw [hw] at h0
          cases h0
          exact ⟨h1, h2, h3⟩
      · next hw => cases hs; exact no hn (by rw [hw]; simp)
      · next hw => cases hs; exact no hn (by rw [hw]; simp)
      · next id hw =>
        cases hs
        exact no (fun h => h.1 rfl) (by rw [hw]; simp)
      · next id hw =>
        refine no ?_ (by rw [hw]; simp)
        have h0 := drain_cleared h id hw
        split at hs
        · cases hs
        · next t ht =>
          cases hs
          have : t.idle = s.idle := by
            simp only [removeSource] at ht
            (repeat' split at ht) <;> cases ht <;> rfl
          rintro ⟨h1, _⟩
          exact h1 (this.trans h0)

theorem reach_next {P : State → Act → Prop} {s : State} (h : Reach P s) : 0 < s.nextSource := by
  suffices Ids s from this.1
  induction h with
  | new => exact ⟨by decide, by simp [new]⟩
  | step hr ha _ hs ih => exact ids_step (reach_inv hr) ih ha hs

/-- **C121** And that's what decides whether adding something schedules a source when there are none: it doesn't if the pool remembers a source
which doesn't exist, and everything stays that way; otherwise it does. -/
theorem C121_exactly {P : State → Act → Prop} {s : State} (h : Reach P s) (hw : s.owner = .ready) (ho : 0 < s.owned) (hm : s.main = .away) (hl : s.live = []) :
    (Stale s → ∃ s', exec s [.add, .go] = .ok s' ∧ s'.owner = .ready ∧ s'.owned = s.owned ∧ s'.main = .away ∧ s'.live = [] ∧ Stale s' ∧
      s'.items.length = s.items.length + 1) ∧
    (¬ Stale s → ∃ s' id, exec s [.add, .go, .go, .go, .go] = .ok s' ∧ s'.owner = .ready ∧ s'.live = [id] ∧ s'.idle = id ∧ id ≠ 0 ∧
      s'.items.length = s.items.length + 1) := by
  have hi := reach_inv h
  have ha : s.alive = true := hi.alive.2 (by rw [hi.refs]; omega)
  constructor
  · intro hst
    refine ⟨{ s with items := s.items ++ [s.nextId], nextId := s.nextId + 1, log := s.log ++ [.added s.nextId], owner := .ready }, ?_, rfl, rfl, hm, hl, hst, by simp⟩
    simp [exec, step, addStart, go, State.access, ha, hst.1, bind, Except.bind]
  · intro hst
    have h0 : s.idle = 0 := Classical.byContradiction fun e => hst ⟨e, by rw [hl]; simp, by rw [hm]; intro r e; cases e⟩
    refine ⟨{ s with items := s.items ++ [s.nextId], nextId := s.nextId + 1, log := s.log ++ [.added s.nextId], owner := .ready, refs := s.refs + 1, live := [s.nextSource], nextSource := s.nextSource + 1, idle := s.nextSource }, s.nextSource, ?_, rfl, rfl, rfl, ?_, by simp⟩
    · simp [exec, step, addStart, go, State.access, ha, h0, hl, bind, Except.bind]
    · have := reach_next h
      omega

/-- How many times `g_source_remove` has complained -/
def complaints (l : List Event) : Nat := l.countP fun e => match e with
  | .critical _ => true
  | _ => false

theorem complaints_append (a b : List Event) : complaints (a ++ b) = complaints a + complaints b := List.countP_append

theorem complaints_items (l : List Nat) : complaints (l.map Event.destroy) = 0 := by
  rw [complaints, List.countP_eq_zero]
  intro e he
  obtain ⟨x, _, rfl⟩ := List.mem_map.mp he
  simp

theorem remove_complaints {s s' : State} {id : Nat} (h : removeSource s id = .ok s') : complaints s'.log =
    complaints s.log + if id ∉ s.live ∧ s.main ≠ .clear id false ∧ s.main ≠ .release id false then 1 else 0 := by
  simp only [removeSource] at h
  split at h
  · next h1 =>
    split at h <;> cases h
    rw [if_neg (by simp [h1])]; rfl
  · next h1 =>
    split at h
    · next h2 => cases h; rw [if_neg (by simp [h2])]; rfl
    · next h2 =>
      split at h
      · next h3 => cases h; rw [if_neg (by simp [h3])]; rfl
      · next h3 =>
        cases h
        rw [if_pos ⟨h1, h2, h3⟩]
        show complaints (_ ++ _) = _
        rw [complaints_append]; rfl

theorem unref_complaints {s s' : State} (hl : s.refs = 1 → s.live = [] ∧ s.main = .away) (h : unref s = .ok s') :
    complaints s'.log = complaints s.log + if s.refs = 1 ∧ s.idle ≠ 0 then 1 else 0 := by
  cases hal : s.alive with
  | false => simp [unref, State.access, hal, bind, Except.bind] at h
  | true =>
    rw [unref, access_ok hal, ok_bind] at h
    by_cases h1 : s.refs = 1
    · obtain ⟨hl, hm⟩ := hl h1
      rw [if_neg (by omega), if_pos h1, final] at h
      by_cases h0 : s.idle = 0
      · rw [if_neg (by simp [h0])]
        simp [removeIdle, destroyItems, h0, hal, bind, Except.bind] at h
        subst h
        show complaints (s.log ++ (s.items.map Event.destroy ++ [.freed])) = _
        rw [complaints_append, complaints_append, complaints_items]; rfl
      · rw [if_pos ⟨h1, h0⟩]
        simp [removeIdle, removeSource, destroyItems, h0, hal, hl, hm, bind, Except.bind] at h
        subst h
        show complaints (s.log ++ (s.items.map Event.destroy ++ [.critical s.idle, .freed])) = _
        rw [complaints_append, complaints_append, complaints_items]; rfl
    · rw [if_neg (by simp [h1])]
      split at h
      · cases h
      · cases h
        rfl

/-- **C121** `g_source_remove` complains in two cases: the source whose id has been read by `gutil_idle_pool_drain` has been dispatched since then
and that's over by now, or the last reference is dropped while the pool remembers a source (which doesn't exist then). -/
theorem C121_critical_exactly {P : State → Act → Prop} {s s' : State} {a : Act} (h : Reach P s) (ha : Allowed s a) (hs : step s a = .ok s') :
    let why := (∃ id, a = .go ∧ s.owner = .drainRemove id ∧ id ∉ s.live ∧ s.main ≠ .clear id false ∧ s.main ≠ .release id false) ∨
      (s.refs = 1 ∧ s.idle ≠ 0 ∧ (a = .unref ∨ a = .main ∧ ∃ src r, s.main = .release src r))
    (why → complaints s'.log = complaints s.log + 1) ∧ (¬ why → complaints s'.log = complaints s.log) := by
  intro why
  have hi := reach_inv h
  have hr := hi.refs
  have no : complaints s'.log = complaints s.log → ¬ why → (why → complaints s'.log = complaints s.log + 1) ∧ (¬ why → complaints s'.log = complaints s.log) :=
    fun h1 h2 => ⟨fun h => absurd h h2, fun _ => h1⟩
  cases a with
  | ref =>
    simp only [step, bind, Except.bind] at hs
    split at hs <;> cases hs
    exact no rfl (by simp [why])
  | add =>
    simp only [step, addStart, bind, Except.bind] at hs
    split at hs <;> cases hs
    exact no (by show complaints (_ ++ _) = _; rw [complaints_append]; rfl) (by simp [why])
  | drain =>
    simp only [step, drainStart, bind, Except.bind] at hs
    split at hs <;> cases hs
    exact no (by show complaints (_ ++ _) = _; rw [complaints_append, complaints_items]; rfl) (by simp [why])
  | dispatch src =>
    cases hs
    exact no rfl (by simp [why])
  | unref =>
    have ho : 0 < s.owned := ha.2
    have e := unref_complaints (s := { s with owned := s.owned - 1 }) (fun h1 => by
      have h1 : s.refs = 1 := h1
      constructor
      · exact List.length_eq_zero_iff.mp (show s.live.length = 0 by omega)
      · show s.main = .away
        cases hm : s.main <;> rw [hm] at hr <;> simp [mainRefs] at hr <;> first | rfl | omega) hs
    have e' : complaints s'.log = complaints s.log + if s.refs = 1 ∧ s.idle ≠ 0 then 1 else 0 := e
    rw [e']
    constructor
    · intro hw
      have : s.refs = 1 ∧ s.idle ≠ 0 := by
        rcases hw with ⟨_, hw, _⟩ | ⟨h1, h2, _⟩
        · cases hw
        · exact ⟨h1, h2⟩
      rw [if_pos this]
    · intro hw
      rw [if_neg (fun hc => hw (.inr ⟨hc.1, hc.2, .inl rfl⟩))]; rfl
  | main =>
    simp only [step, mainGo, bind, Except.bind] at hs
    split at hs
    · cases hs
    · split at hs
      · cases hs
      · next hm => cases hs; exact no rfl (by simp [why, hm])
      · next src r hm =>
        have e := unref_complaints (s := { s with main := .away }) (fun h1 => by
          have h1 : s.refs = 1 := h1
          rw [hm] at hr
          simp only [mainRefs] at hr
          exact ⟨List.length_eq_zero_iff.mp (show s.live.length = 0 by omega), rfl⟩) hs
        have e' : complaints s'.log = complaints s.log + if s.refs = 1 ∧ s.idle ≠ 0 then 1 else 0 := e
        rw [e']
        constructor
        · intro hw
          have : s.refs = 1 ∧ s.idle ≠ 0 := by
            rcases hw with ⟨_, hw, _⟩ | ⟨h1, h2, _⟩
            · cases hw
            · exact ⟨h1, h2⟩
          rw [if_pos this]
        · intro hw
          rw [if_neg (fun hc => hw (.inr ⟨hc.1, hc.2, .inr ⟨rfl, src, r, hm⟩⟩))]; rfl
  | go =>
    have hgo : s.owner ≠ .ready := ha
    simp only [step, go, bind, Except.bind] at hs
    split at hs
    · cases hs
    · split at hs
      · next hw => exact absurd hw hgo
      · next hw => cases hs; exact no rfl (by simp [why, hw])
      · next hw => cases hs; exact no rfl (by simp [why, hw])
      · next hw => cases hs; exact no rfl (by simp [why, hw])
      · next id hw => cases hs; exact no rfl (by simp [why, hw])
      · next hw => cases hs; exact no rfl (by simp [why, hw])
      · next hw => cases hs; exact no rfl (by simp [why, hw])
      · next id hw => cases hs; exact no rfl (by simp [why, hw])
      · next id hw =>
        split at hs
        · cases hs
        · next t ht =>
          have e := remove_complaints ht
          cases hs
          show (why → complaints t.log = _) ∧ (¬ why → complaints t.log = _)
          rw [e]
          constructor
          · intro hw'
            have : id ∉ s.live ∧ s.main ≠ .clear id false ∧ s.main ≠ .release id false := by
              rcases hw' with ⟨id', _, h1, h2⟩ | ⟨_, _, h1 | h1⟩
              · rw [hw] at h1; cases h1; exact h2
              · cases h1
              · cases h1.1
            rw [if_pos this]
          · intro hw'
            rw [if_neg (fun hc => hw' (.inl ⟨id, rfl, hw, hc⟩))]; rfl

/-- The states of `C121_stuck_refuted` and `C121_critical_refuted`, and the last reference dropped in the former -/
example : (∃ s, Reach (fun _ _ => True) s ∧ Stale s ∧ s.owner = .ready ∧ 0 < s.owned ∧ s.main = .away ∧ s.live = [] ∧
      ∃ s', step s .unref = .ok s' ∧ complaints s'.log = 1) ∧
    ¬ Stale new ∧ (∀ s, exec new (early.take 7) = .ok s → ¬ Stale s) := by
  refine ⟨⟨stuck, reach_exec (fun _ _ => trivial) .new early (by decide +kernel) (by decide +kernel), ⟨by decide, by decide, by intro r e; cases e⟩,
    rfl, by decide, rfl, rfl, ?_⟩, fun h => h.1 rfl, ?_⟩
  · exact ⟨{ stuck with alive := false, refs := 0, owned := 0, idle := 0, items := [], log := [.added 0, .destroy 0, .critical 1, .freed] }, by decide +kernel, by decide +kernel⟩
  · intro s h hst
    have : (exec new (early.take 7)).map (·.idle) = .ok 0 := by decide +kernel
    rw [h] at this
    exact hst.1 (Except.ok.inj this)

end Verif.PoolThreads
