import Verif.Proof.InotifyCb
import Verif.Proof.InotifyCbDone

/-!
# Handlers and callbacks of inotify watches (C106)

`Reach s`: the state `s` can be reached from the initial one by following the rules (`Allowed`), `s.log` is the history of the handlers and
`s.ino.log` is that of the watches. `Later s s'`: `s'` can be reached from `s`.
-/

namespace Verif.InotifyCb
open Verif.C

/-- Two callbacks and a handler for two watches. The first callback (with the handler 1) is freed by its own function, the handler 3 which comes next is
called anyway; it disconnects itself and connects another one, which has to wait for the next event. The second callback is for another file. -/
def sampleActs : List Act :=
  [.callbackNew 7 6 3 true, .callbackNew 8 6 3 true, .ino (.ref 0), .addHandler 0 true, .addHandler 0 true, .ino (.happen 7 ⟨2, 0, []⟩), .ino (.happen 8 ⟨4, 0, []⟩),
    .ino (.happen 7 ⟨4, 0, []⟩), .ino (.dispatch 3),
    .next, .callbackFree 0, .ret,
    .next, .removeHandler 0 3, .removeHandler 0 4, .addHandler 0 true, .ret,
    .next, .next,
    .next, .ret, .next,
    .next, .ret, .next]

theorem sample_exists : ∃ s, Reach s ∧ s.ino.frame = none ∧ s.cbs = [none, some ⟨1, 2⟩] ∧ s.conns = [(2, 1), (5, 0)] ∧
    s.log = [.connected 1 0, .connected 2 1, .connected 3 0, .connected 4 0,
      .emit 0 ⟨2, 0, []⟩, .call 1 0 ⟨2, 0, []⟩, .disconnected 1, .call 3 0 ⟨2, 0, []⟩, .disconnected 3, .disconnected 4, .connected 5 0, .done 0 ⟨2, 0, []⟩,
      .emit 1 ⟨4, 0, []⟩, .call 2 1 ⟨4, 0, []⟩, .done 1 ⟨4, 0, []⟩,
      .emit 0 ⟨4, 0, []⟩, .call 5 0 ⟨4, 0, []⟩, .done 0 ⟨4, 0, []⟩] :=
  reach_check (acts := sampleActs) (by decide +kernel) (by decide +kernel)

/-- Whatever the handlers do (including getting rid of the callback which is running), nothing which has been freed is used. -/
theorem C106_safe {s : State} (h : Reach s) {a : Act} (ha : Allowed s a) : ∃ s', step s a = .ok s' := by
  obtain ⟨s', e, _⟩ := inv_step (reach_inv h) ha
  exact ⟨s', e⟩

/-- The callback is freed by its own function, it has the only reference to the watch. -/
example : ∃ s, Reach s ∧ Allowed s (.callbackFree 0) ∧ s.ino.frame = some (0, []) ∧ s.ino.owned 0 = 1 ∧ s.log = [.connected 1 0, .emit 0 ⟨2, 0, []⟩, .call 1 0 ⟨2, 0, []⟩] :=
  reach_check (acts := [.callbackNew 7 6 3 true, .ino (.happen 7 ⟨2, 0, []⟩), .ino (.dispatch 1), .next]) (by decide +kernel) (by decide +kernel)

/-- For every event the handlers are called which were connected to the watch when the event came, except for those which have been disconnected before
their turn, once each, in the order of connection, with the arguments of the event, one event at a time. If the library isn't in the middle of
something, all of that has been done. -/
theorem C106_exact {s : State} (h : Reach s) : ∃ m, monitor s.log = some m ∧ (s.ino.frame = none → m.cur = none) := by
  have hi := reach_inv h
  refine ⟨_, hi.mon, fun hf => ?_⟩
  have := hi.frame
  rw [hf] at this
  have he : s.emit = none := by simpa using this
  rw [he]
  rfl

/-- The same event for a different handler, a missed handler, the wrong order or a handler called for the second time would be noticed. -/
example : monitor [.connected 1 0, .connected 2 1, .emit 0 ⟨2, 0, []⟩, .call 2 0 ⟨2, 0, []⟩] = none ∧
    monitor [.connected 1 0, .emit 0 ⟨2, 0, []⟩, .done 0 ⟨2, 0, []⟩] = none ∧
    monitor [.connected 1 0, .connected 2 0, .emit 0 ⟨2, 0, []⟩, .call 2 0 ⟨2, 0, []⟩] = none ∧
    monitor [.connected 1 0, .emit 0 ⟨2, 0, []⟩, .call 1 0 ⟨2, 0, []⟩, .call 1 0 ⟨2, 0, []⟩] = none ∧
    monitor [.connected 1 0, .emit 0 ⟨2, 0, []⟩, .disconnected 1, .call 1 0 ⟨2, 0, []⟩] = none ∧
    monitor [.connected 1 0, .emit 0 ⟨2, 0, []⟩, .call 1 0 ⟨4, 0, []⟩] = none ∧
    monitor [.connected 1 0, .emit 0 ⟨2, 0, []⟩, .connected 2 0, .call 1 0 ⟨2, 0, []⟩, .done 0 ⟨2, 0, []⟩] = some ⟨[(1, 0), (2, 0)], none⟩ := by
  decide

/-- And these are exactly the events which the watch has been told about. -/
theorem C106_events {s : State} (h : Reach s) : emits s.log = deliveries s.ino.log := (reach_inv h).emits

example : ∃ s, Reach s ∧ s.ino.frame = none ∧ emits s.log = [(0, ⟨2, 0, []⟩), (1, ⟨4, 0, []⟩), (0, ⟨4, 0, []⟩)] := by
  obtain ⟨s, h, h1, _, _, h2⟩ := sample_exists
  exact ⟨s, h, h1, by rw [h2]; decide⟩

/-- Once a handler has been disconnected, it's never called again. -/
theorem C106_removed {s s' s'' : State} (h : Reach s) {w id : Nat} (e : step s (.removeHandler w id) = .ok s') (hl : Later s' s'') :
    calls id s''.log = calls id s.log := by
  obtain ⟨h1, h2, _⟩ := removed_absent (reach_inv h) e
  exact (absent_later hl h1).2.trans h2

/-- The handler 1 disconnects 2 before its turn. -/
example : ∃ s, Reach s ∧ Allowed s (.removeHandler 0 2) ∧ s.emit = some (0, ⟨2, 0, []⟩, [2]) ∧ calls 1 s.log = 1 ∧ calls 2 s.log = 0 :=
  reach_check (acts := [.ino (.new 7 6 3), .addHandler 0 true, .addHandler 0 true, .ino (.happen 7 ⟨2, 0, []⟩), .ino (.dispatch 1), .next]) (by decide +kernel) (by decide +kernel)

/-- Once a callback has been freed (even by its own function), its function is never called again. -/
theorem C106_freed {s s' s'' : State} (h : Reach s) {c : Nat} {cb : Callback} (hc : s.cbs[c]? = some (some cb)) (e : step s (.callbackFree c) = .ok s')
    (hl : Later s' s'') : calls cb.id s''.log = calls cb.id s.log := by
  unfold step at e
  dsimp only at e
  unfold callbackFree at e
  rw [hc] at e
  dsimp only at e
  obtain ⟨s1, e1, e⟩ := Inotify.bind_ok' e
  obtain ⟨ino, _, e⟩ := Inotify.bind_ok' e
  cases e
  obtain ⟨h1, h2, _⟩ := removed_absent (reach_inv h) e1
  exact (absent_later hl h1).2.trans h2

/-- There's one more event for the callback which is being freed. -/
example : ∃ s, Reach s ∧ Allowed s (.callbackFree 0) ∧ s.cbs[0]? = some (some ⟨0, 1⟩) ∧ s.ino.frame = some (0, [(1, ⟨4, 0, []⟩)]) ∧ calls 1 s.log = 1 :=
  reach_check (acts := [.callbackNew 7 6 3 true, .ino (.happen 7 ⟨2, 0, []⟩), .ino (.happen 7 ⟨4, 0, []⟩), .ino (.dispatch 2), .next]) (by decide +kernel) (by decide +kernel)

/-- A callback drops its only reference to the watch when it's freed. -/
theorem C106_released {s s' : State} (h : Reach s) {c : Nat} {cb : Callback} (hc : s.cbs[c]? = some (some cb)) (e : step s (.callbackFree c) = .ok s') (w : Nat) :
    s'.ino.owned w = if w = cb.watch then s.ino.owned w - 1 else s.ino.owned w := by
  unfold step at e
  dsimp only at e
  unfold callbackFree at e
  rw [hc] at e
  dsimp only at e
  obtain ⟨s1, e1, e⟩ := Inotify.bind_ok' e
  obtain ⟨ino, e2, e⟩ := Inotify.bind_ok' e
  cases e
  have h3 := (removed_absent (reach_inv h) e1).2.2
  have := (Inotify.quiet_step e2 (by simp) (by simp)).2.2 w
  rw [h3] at this
  exact this

/-- If it was the last reference then the watch is gone, unless its handlers are being called. -/
theorem C106_gone {s s' : State} (h : Reach s) {c : Nat} {cb : Callback} (hc : s.cbs[c]? = some (some cb)) (ha : Allowed s (.callbackFree c)) (e : step s (.callbackFree c) = .ok s')
    (h1 : s.ino.owned cb.watch = 1) (h2 : s.ino.frame.map (·.1) ≠ some cb.watch) : s'.ino.watch cb.watch = .error .useAfterFree := by
  have ho := C106_released h hc e cb.watch
  rw [if_pos rfl, h1] at ho
  have hr := (reach_inv (h.step ha e)).ino
  unfold step at e
  dsimp only at e
  unfold callbackFree at e
  rw [hc] at e
  dsimp only at e
  obtain ⟨s1, e1, e⟩ := Inotify.bind_ok' e
  obtain ⟨ino, e2, e⟩ := Inotify.bind_ok' e
  cases e
  have h3 := (removed_absent (reach_inv h) e1).2.2
  have hq := Inotify.quiet_step e2 (by simp) (by simp)
  refine Inotify.gone_watch hr ?_ ho ?_
  · have hl := Inotify.unref_length e2
    dsimp only
    rw [hl, h3]
    apply Classical.byContradiction
    intro hn
    have : s.ino.owned cb.watch = 0 := by
      unfold Inotify.State.owned
      rw [List.getElem?_eq_none (by omega)]
      rfl
    omega
  · dsimp only
    rw [hq.1, h3]
    exact h2

example : ∃ s, Reach s ∧ Allowed s (.callbackFree 1) ∧ s.cbs[1]? = some (some ⟨1, 2⟩) ∧ s.ino.owned 1 = 1 ∧ s.ino.frame.map (·.1) = some 0 :=
  reach_check (acts := [.callbackNew 7 6 3 true, .callbackNew 8 6 3 true, .ino (.happen 7 ⟨2, 0, []⟩), .ino (.dispatch 1), .next]) (by decide +kernel) (by decide +kernel)

/-- A new callback has a new watch all to itself, and its function is connected to it. -/
theorem C106_created {s s' : State} (h : Reach s) {file fd : Nat} {mask : BitVec 32} {fn : Bool} (e : step s (.callbackNew file mask fd fn) = .ok s') :
    ∃ id, s'.cbs = s.cbs ++ [some ⟨s.ino.watches.length, id⟩] ∧ s'.ino.owned s.ino.watches.length = 1 ∧
      if fn then 0 < id ∧ s'.log = s.log ++ [.connected id s.ino.watches.length] else id = 0 ∧ s'.log = s.log := by
  unfold step callbackNew at e
  obtain ⟨ino, e1, e⟩ := Inotify.bind_ok' e
  obtain ⟨⟨n, s1⟩, e2, e⟩ := Inotify.bind_ok' e
  cases e
  have hq := (Inotify.quiet_step e1 (by simp) (by simp)).2.2 s.ino.watches.length
  unfold Inotify.ownedBy at hq
  dsimp only at hq
  rw [if_pos rfl] at hq
  unfold addHandler at e2
  cases fn with
  | false =>
    cases e2
    exact ⟨0, rfl, hq, rfl, rfl⟩
  | true =>
    rw [if_pos rfl] at e2
    obtain ⟨x, _, e2⟩ := Inotify.bind_ok' e2
    cases e2
    exact ⟨_, rfl, hq, (reach_inv h).nextPos, rfl⟩

example : ∃ s, Reach s ∧ Allowed s (.callbackNew 9 2 3 true) ∧ s.ino.watches.length = 1 ∧ s.emit ≠ none :=
  reach_check (acts := [.callbackNew 7 6 3 true, .ino (.happen 7 ⟨2, 0, []⟩), .ino (.dispatch 1), .next]) (by decide +kernel) (by decide +kernel)

/-- A function which is given to add_handler gets connected under an id which isn't zero and has never been used, remove_handler disconnects
the handler unless its id is zero, and nothing else is connected or disconnected by these functions. -/
theorem C106_recorded {s s' : State} (h : Reach s) {a : Act} (e : step s a = .ok s') :
    match a with
    | .addHandler w true => ∃ id, 0 < id ∧ (∀ v, Event.connected id v ∉ s.log) ∧ s'.log = s.log ++ [.connected id w]
    | .addHandler _ false => s'.log = s.log
    | .removeHandler _ id => s'.log = s.log ++ (if id = 0 then [] else [.disconnected id])
    | _ => True := by
  cases a with
  | addHandler w fn =>
    obtain ⟨⟨n, s1⟩, e1, e⟩ := Inotify.bind_ok' e
    cases e
    have q := addHandler_eff e1
    cases fn with
    | false => exact congrArg State.log q
    | true => exact ⟨s.nextId, (reach_inv h).nextPos, fun v hv => Nat.lt_irrefl _ (reach_old h _ v hv), q.2.2⟩
  | removeHandler w id => exact (removeHandler_eff e).2
  | _ => trivial

example : ∃ s, Reach s ∧ Allowed s (.addHandler 0 true) ∧ Allowed s (.removeHandler 0 2) ∧ s.emit ≠ none :=
  reach_check (acts := [.callbackNew 7 6 3 true, .addHandler 0 true, .ino (.happen 7 ⟨2, 0, []⟩), .ino (.dispatch 1), .next]) (by decide +kernel) (by decide +kernel)

/-- As long as handlers return, events get handled: the library calls them one by one and then it's done. -/
theorem C106_done {s : State} (h : Reach s) :
    ∃ (as : List Act) (s' : State), (∀ a ∈ as, a = .next ∨ a = .ret) ∧ legal s as = true ∧ exec s as = .ok s' ∧ s'.ino.frame = none ∧ s'.client = true := by
  have hi := reach_inv h
  have frame : ∀ {s : State}, Inv s → s.emit = none → s.ino.frame = none := by
    intro s hi he
    have := hi.frame
    rw [he] at this
    cases hf : s.ino.frame with
    | none => rfl
    | some p => rw [hf] at this; cases this
  cases he : s.emit with
  | none =>
    refine ⟨[], s, by simp, rfl, rfl, frame hi he, ?_⟩
    cases hc : s.client with
    | true => rfl
    | false => exact absurd he (hi.client hc)
  | some p =>
    obtain ⟨w, ev, l⟩ := p
    have hf := hi.frame
    rw [he] at hf
    cases hq : s.ino.frame with
    | none => rw [hq] at hf; cases hf
    | some p =>
      obtain ⟨v, t⟩ := p
      rw [hq] at hf
      have : w = v := by simpa using hf
      subst this
      obtain ⟨as, s', g1, g2, g3, g4, g5⟩ := goes_on t.length l.length h he hq (Nat.le_refl _) (Nat.le_refl _)
      exact ⟨as, s', g1, g2, g3, frame (reach_inv (reach_exec h g2 g3)) g4, g5⟩

example : ∃ s, Reach s ∧ s.emit.map (fun p => (p.1, p.2.2)) = some (0, [3]) ∧ s.ino.frame.map (fun f => f.2.length) = some 2 ∧ s.client = true :=
  reach_check (acts := [.callbackNew 7 6 3 true, .callbackNew 8 6 3 true, .addHandler 0 true, .ino (.happen 7 ⟨2, 0, []⟩), .ino (.happen 8 ⟨2, 0, []⟩),
    .ino (.happen 7 ⟨4, 0, []⟩), .ino (.dispatch 3), .next]) (by decide +kernel) (by decide +kernel)

end Verif.InotifyCb
