import Verif.Props.IdlePool

/-!
# What happens to items and sources of an idle pool in the cases excluded by C71 and C91
-/

namespace Verif.Pool
open Verif.C

/-- There's an idle source attached to the main context which the pool knows about. -/
def Scheduled (s : State) : Prop := ∃ src, s.idle = some src ∧ src ∈ s.live

theorem scheduled_iff {s : State} (h : Inv False 0 s) : Scheduled s ↔ s.idle ≠ none := by
  constructor
  · rintro ⟨src, e, -⟩ h
    rw [e] at h
    cases h
  · intro hn
    cases hx : s.idle with
    | none => exact absurd hx hn
    | some src => exact ⟨src, hx, (h.idleIn src hx).1⟩

/-- **C71** exactly. It's only the idle callback being invoked by a wrong thread what leaves items without a source. That always happens then, unless the
source was holding the last reference (in which case there won't be a pool anymore); and there is a source again as soon as something else
is added. -/
theorem C71_exactly {s s' : State} {a : Act} (h : Reach any s) (ha : Allowed s a) (hs : step s a = .ok s') :
    (s.items = [] ∨ Scheduled s → s'.items ≠ [] → ¬ Scheduled s' → ∃ src, a = .dispatch src false) ∧
    (∀ src, a = .dispatch src false → 1 < s.refs → s'.items = s.items ∧ s'.live = s.live.erase src ∧ ¬ Scheduled s') ∧
    (a = .add → Scheduled s') := by
  have h1 := any_inv h
  have h2 := any_inv (h.step ha trivial hs)
  rw [scheduled_iff h1, scheduled_iff h2]
  refine ⟨?_, ?_, ?_⟩
  · intro hb hi hn
    obtain ⟨s1, e, -, h3⟩ := inv_step h1 ha (fun h => h.elim)
    rw [hs] at e
    cases e
    rcases Classical.em (∃ src, a = .dispatch src false) with hd | hd
    · exact hd
    · refine absurd (h3 (fun src e => hd ⟨src, e⟩) ?_ hi) hn
      intro hi'
      rcases hb with hb | hb
      · exact absurd hb hi'
      · exact hb
  · rintro src rfl hr
    have hal := h1.alive (.inr (by omega))
    have e : step s (.dispatch src false) = .ok { s with idle := none, live := s.live.erase src, refs := s.refs - 1 } := by
      show dispatch s src false = _
      rw [dispatch, access_ok hal, ok_bind, if_neg (by decide), unref, access_ok (by exact hal), ok_bind, if_neg (by show ¬ s.refs = 0; omega),
        if_neg (by show ¬ s.refs = 1; omega)]
    rw [e] at hs
    cases hs
    exact ⟨rfl, rfl, fun h => h rfl⟩
  · rintro rfl
    obtain ⟨s1, e, -, h3⟩ := inv_add h1 ha
    have hs : (do s.access; add s false) = .ok s' := hs
    rw [access_ok (h1.alive (.inr ha)), ok_bind, e] at hs
    cases hs
    exact h3

/-- A wrong thread, and then something else is added. -/
example : ∃ s s', Reach any s ∧ s.items ≠ [] ∧ s.live = [] ∧ Allowed s .add ∧ step s .add = .ok s' ∧ s'.live = [2] ∧ s'.items.length = 2 := by
  have h := reach_exec (P := any) (acts := [.add, .dispatch 1 false]) (fun _ _ _ => trivial) (.new false []) (by decide +kernel)
    (s' := ⟨true, 1, 1, none, [⟨0, false⟩], some 0, false, .null, [], false, [], 2, 1, [], [.added 0]⟩) (by decide +kernel)
  exact ⟨_, _, h, by simp, rfl, by decide, rfl, rfl, rfl⟩

/-! ## C91 -/

/-- What happens to sources of the others if the thread has its own main context. -/
def Touch (s s' : State) : Prop := s'.own = s.own ∧ (s.own = true →
  (s'.foreign = s.foreign ∧ (s'.idle = s.idle ∨ s'.idle = none)) ∨ ∃ id, s.idle = some id ∧ s'.idle = none ∧ s'.foreign = s.foreign.erase id)

theorem Touch.trans {a b c : State} (h : Touch a b) (h' : Touch b c) : Touch a c := by
  refine ⟨h'.1.trans h.1, fun ho => ?_⟩
  have h1 := h.2 ho
  have h2 := h'.2 (h.1.trans ho)
  grind

theorem touch_free {s s' : State} (h : free s = .ok s') : Touch s s' := by
  unfold free at h
  split at h
  · cases h
    exact ⟨rfl, fun _ => .inl ⟨rfl, .inl rfl⟩⟩
  · cases h

theorem touch_clear (s : State) : Touch s (clearCell s) := by
  unfold clearCell
  split <;> exact ⟨rfl, fun _ => .inl ⟨rfl, .inl rfl⟩⟩

theorem touch_proc {k : Cont} (l : List Item) : ∀ {s s' : State} {d : Bool}, proc l s k = .ok (s', d) → Touch s s' := by
  induction l with
  | nil =>
    intro s s' d h
    cases h
    exact ⟨rfl, fun _ => .inl ⟨rfl, .inl rfl⟩⟩
  | cons i t ih =>
    intro s s' d h
    unfold proc at h
    split at h
    · split at h
      · cases h
      · have := ih h
        exact this
    · cases h
      exact ⟨rfl, fun _ => .inl ⟨rfl, .inl rfl⟩⟩

theorem touch_removeIdle {s s' : State} {x : Nat} (hx : s.idle = some x) (h : removeIdle s x = .ok s') : Touch s s' := by
  unfold removeIdle at h
  split at h
  · cases h
    exact ⟨rfl, fun _ => .inr ⟨x, hx, rfl, rfl⟩⟩
  · rename_i ho
    split at h
    · split at h
      · cases h
      split at h
      · have := (touch_clear _).trans (touch_free h)
        exact ⟨this.1, fun hf => absurd hf ho⟩
      · cases h
        exact ⟨rfl, fun hf => absurd hf ho⟩
    · cases h

theorem touch_drainEnd {s s' : State} {cont : State → M State} (hc : ∀ a b, cont a = .ok b → Touch a b) (h : drainEnd s cont = .ok s') :
    Touch s s' := by
  cases hx : s.idle with
  | none =>
    rw [drainEnd_none hx] at h
    have := hc _ _ h
    exact this
  | some x =>
    rw [drainEnd_some hx] at h
    obtain ⟨a, h1, h2⟩ := bind_ok h
    have := hc _ _ h2
    exact (touch_removeIdle hx h1).trans this

theorem touch_drainNext {s s' : State} {k : Cont} {cont : State → M State} (hc : ∀ a b, cont a = .ok b → Touch a b)
    (h : drainNext s k cont = .ok s') : Touch s s' := by
  unfold drainNext at h
  obtain ⟨_, _, h⟩ := bind_ok h
  split at h
  · exact touch_drainEnd hc h
  · obtain ⟨⟨a, d⟩, h1, h2⟩ := bind_ok h
    have h3 := touch_proc _ h1
    have h3 : Touch s a := h3
    dsimp only at h2
    split at h2
    · split at h2
      · exact h3.trans (touch_drainEnd hc h2)
      · cases h2
    · cases h2
      exact h3

theorem touch_unref {s s' : State} (h : unref s = .ok s') : Touch s s' := by
  unfold unref at h
  obtain ⟨_, _, h⟩ := bind_ok h
  split at h
  · cases h
  · split at h
    · have h1 : Touch s (clearCell { s with refs := 0 }) := touch_clear { s with refs := 0 }
      exact h1.trans (touch_drainNext (fun _ _ => touch_free) h)
    · cases h
      exact ⟨rfl, fun _ => .inl ⟨rfl, .inl rfl⟩⟩

theorem touch_after {k : Cont} {s s' : State} (h : after k s = .ok s') : Touch s s' := by
  unfold after at h
  cases k with
  | ret => cases h; exact ⟨rfl, fun _ => .inl ⟨rfl, .inl rfl⟩⟩
  | destroy => exact touch_unref (s := { s with owned := s.owned - 1 }) h
  | idle src => exact touch_unref (s := { s with live := s.live.erase src }) h
  | final => exact touch_free h

theorem touch_drain {k : Cont} {s s' : State} (h : drain s k = .ok s') : Touch s s' := touch_drainNext (fun _ _ => touch_after) h

/-- **C91** exactly, if the thread has its own main context. No action of the client makes the pool remove anything but the one source which has the id of the pool's
own source at that moment, and then the pool forgets that id. -/
theorem C91_exactly {s s' : State} {a : Act} (ho : s.own = true) (hs : step s a = .ok s') :
    s'.foreign = s.foreign ∨ ∃ id, s.idle = some id ∧ s'.idle = none ∧ s'.foreign = s.foreign.erase id := by
  have key : ∀ {x y : State}, x.foreign = s.foreign → x.idle = s.idle → x.own = s.own → Touch x y →
      y.foreign = s.foreign ∨ ∃ id, s.idle = some id ∧ y.idle = none ∧ y.foreign = s.foreign.erase id := by
    intro x y e1 e2 e3 h
    have := h.2 (e3.trans ho)
    rw [e1, e2] at this
    rcases this with h | h
    · exact .inl h.1
    · exact .inr h
  cases a with
  | add =>
    obtain ⟨_, _, h⟩ := bind_ok hs
    obtain ⟨l, _, h⟩ := bind_ok h
    cases h
    unfold schedule
    split <;> exact .inl rfl
  | ref =>
    obtain ⟨_, _, h⟩ := bind_ok hs
    cases h
    exact .inl rfl
  | unref => exact key rfl rfl rfl (touch_unref (s := { s with owned := s.owned - 1 }) hs)
  | drain => exact key rfl rfl rfl (touch_drain hs)
  | destroy => exact key rfl rfl rfl (touch_drain hs)
  | dispatch src right =>
    obtain ⟨_, _, h⟩ := bind_ok hs
    have : ∀ {x y : State}, x.foreign = s.foreign → x.idle = none → x.own = s.own → Touch x y → y.foreign = s.foreign := by
      intro x y e1 e2 e3 h
      have := h.2 (e3.trans ho)
      rw [e1, e2] at this
      rcases this with h | ⟨id, h, -⟩
      · exact h.1
      · cases h
    split at h
    · exact .inl (this (x := { s with idle := none }) rfl rfl rfl (touch_drain h))
    · exact .inl (this (x := { s with idle := none, live := s.live.erase src }) rfl rfl rfl (touch_unref h))
  | ret =>
    unfold step ret at hs
    dsimp only at hs
    split at hs
    · cases hs
    · obtain ⟨⟨a, d⟩, h1, h2⟩ := bind_ok hs
      rename_i st _
      have h3 : Touch s a := touch_proc (s := { s with stack := st }) _ h1
      dsimp only at h2
      split at h2
      · exact key rfl rfl rfl (h3.trans (touch_drain h2))
      · cases h2; exact key rfl rfl rfl h3
  | cell c => cases hs; exact .inl rfl

/-- **C91** And draining a pool which is empty but still has a source (because it's inside of a destroy function, or because it has just been drained) does that. -/
theorem C91_empty_exactly {s : State} {id : Nat} (ho : s.own = true) (hal : s.alive = true) (hi : s.items = []) (hid : s.idle = some id) :
    ∃ s', step s .drain = .ok s' ∧ s'.foreign = s.foreign.erase id ∧ s'.live = s.live ∧ s'.idle = none ∧ s'.refs = s.refs := by
  refine ⟨{ s with idle := none, foreign := s.foreign.erase id, log := s.log ++ [.drained s.stack.length] }, ?_, rfl, rfl, rfl, rfl⟩
  show drain s .ret = _
  unfold drain drainNext
  rw [access_ok hal, ok_bind, if_pos hi]
  unfold drainEnd
  rw [hid]
  dsimp only
  rw [removeIdle, if_pos ho, ok_bind]
  rfl

/-- This state is reached by draining, with the destroy function of the only item waiting (`C91_foreign_refuted`). -/
example : ∃ s s', Reach any s ∧ Allowed s .drain ∧ s.own = true ∧ s.alive = true ∧ s.items = [] ∧ s.idle = some 1 ∧ step s .drain = .ok s' ∧
    s.foreign = [1, 2] ∧ s'.foreign = [2] := by
  have h := reach_exec (P := any) (acts := [.add, .drain]) (fun _ _ _ => trivial) (.new true [1, 2]) (by decide +kernel)
    (s' := ⟨true, 2, 1, some 1, [], none, false, .null, [1], true, [1, 2], 2, 1, [⟨[], .ret⟩], [.added 0, .destroy 0]⟩) (by decide +kernel)
  exact ⟨_, _, h, by decide, rfl, rfl, rfl, rfl, rfl, rfl, rfl⟩

end Verif.Pool
