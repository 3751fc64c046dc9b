import Verif.Proof.InotifyQuiet

/-!
# Watches of the same file (C73, C104), what the calls mean (C73, C74)

`groups` (Spec/InotifyShared.lean) are the watches which share what the kernel has got for a file. `Reach anything s`: the state `s` can be reached by following the rules,
`s.log` is the history.
-/

namespace Verif.Inotify
open Verif.C

/-- **C73** Handlers are only called for the newest one of the watches sharing a file, and only if none of them has been stopped. -/
theorem C73_newest {s : State} (h : Reach anything s) {pre post : List Event} {w : Nat} {ev : Ev} (hl : s.log = pre ++ .delivered w ev :: post) :
    ∃ g ∈ groups pre, g.members.head? = some w ∧ g.ended = false := by
  obtain ⟨base, g⟩ := reach_g h
  exact g.newest pre w ev post hl

/-- **C73** What the watches sharing a file are told about, all of them together, is what the kernel has reported, each event once and in that order. -/
theorem C73_group_prefix {s : State} (h : Reach anything s) {g : Group} (hg : g ∈ groups s.log) : deliveredTo g.members s.log <+: g.events := by
  obtain ⟨base, G⟩ := reach_g h
  exact G.pre g hg

/-- **C73** If none of them has been stopped, then they are told about all of it. -/
theorem C73_group_complete {s : State} (h : Reach anything s) (hq : s.queue = []) (hf : s.frame = none) {g : Group} (hg : g ∈ groups s.log) (he : g.ended = false) :
    deliveredTo g.members s.log = g.events := by
  obtain ⟨base, G⟩ := reach_g h
  obtain ⟨n, hn⟩ := List.getElem?_of_mem hg
  have hge : ¬ n < base := fun hlt => by rw [G.done n g hn hlt] at he; cases he
  have := G.pend (n + 1 - base) g (by omega) (by rw [show base + (n + 1 - base) - 1 = n by omega]; exact hn) he
  rw [hf, hq] at this
  simpa [bOf, pend] using this

/-- **C73** A watch belongs to a group from the moment it has been created. -/
theorem C73_group_member {s : State} (h : Reach anything s) {w file : Nat} {mask : BitVec 32} (hc : Event.created w file mask ∈ s.log) (hn : ¬ isStopped w s.log) :
    ∃ g ∈ groups s.log, w ∈ g.members := by
  obtain ⟨base, G⟩ := reach_g h
  have hr := reach_rest h
  obtain ⟨x, hx, _⟩ := hr.hist.made w file mask hc
  cases hd : x.wd with
  | none => exact absurd (hr.hist.stop w x hx hd).1 hn
  | some d =>
    obtain ⟨g, hg, hm⟩ := G.mem w x d hx hd
    exact ⟨g, List.mem_of_getElem? hg, hm⟩

/-- The first of two watches gets what happens before the second one is created, then the second one gets everything, and nobody gets anything after
the first one is destroyed. -/
example : ∃ s, Reach anything s ∧ s.queue = [] ∧ s.frame = none ∧ (∃ l, s.log = l ++ [.happened 7 ⟨2, 0, []⟩]) ∧
    groups s.log = [⟨7, 6, [1, 0], false, true, [⟨2, 0, []⟩, ⟨4, 0, []⟩, ignored]⟩] ∧
    delivered 0 s.log = [⟨2, 0, []⟩] ∧ delivered 1 s.log = [⟨4, 0, []⟩] := by
  obtain ⟨s, e, h⟩ := reach_exec (l := [.new 7 2 3, .happen 7 ⟨2, 0, []⟩, .dispatch 1, .ret, .new 7 6 3, .happen 7 ⟨4, 0, []⟩, .dispatch 1, .ret, .destroy 0, .dispatch 1,
    .happen 7 ⟨2, 0, []⟩]) (.init [] List.nodup_nil) (by decide)
  cases e
  exact ⟨_, h, by decide, by decide, ⟨_, rfl⟩, by decide, by decide, by decide⟩

/-- Both watches exist: everything goes to the second one. -/
example : ∃ s, Reach anything s ∧ s.queue = [] ∧ s.frame = none ∧ ∃ g ∈ groups s.log, g.ended = false ∧ g.members = [1, 0] ∧ g.events = [⟨4, 0, []⟩] ∧
    delivered 0 s.log = [] ∧ delivered 1 s.log = [⟨4, 0, []⟩] := by
  obtain ⟨s, e, h⟩ := reach_exec (l := [.new 7 2 3, .new 7 4 3, .happen 7 ⟨2, 0, []⟩, .happen 7 ⟨4, 0, []⟩, .dispatch 1, .ret]) (.init [] List.nodup_nil) (by decide)
  cases e
  exact ⟨_, h, by decide, by decide, _, List.mem_cons_self, by decide, by decide, by decide, by decide, by decide⟩

/-- With `IN_MASK_ADD` the second watch gets what the first one was created for, too. The kernel stops watching the file (like it does after the first event with `IN_ONESHOT`),
and the file is watched once again. -/
example : ∃ s, Reach anything s ∧ s.queue = [] ∧ s.frame = none ∧
    groups s.log = [⟨7, 0x20000006, [1, 0], false, false, [⟨2, 0, []⟩, ⟨4, 0, []⟩, ignored]⟩, ⟨7, 2, [2], true, false, [⟨2, 0, []⟩]⟩] ∧
    delivered 0 s.log = [] ∧ delivered 1 s.log = [⟨2, 0, []⟩, ⟨4, 0, []⟩, ignored] ∧ delivered 2 s.log = [⟨2, 0, []⟩] := by
  obtain ⟨s, e, h⟩ := reach_exec (l := [.new 7 2 3, .new 7 0x20000004 3, .happen 7 ⟨2, 0, []⟩, .happen 7 ⟨4, 0, []⟩, .happen 7 ⟨8, 0, []⟩, .vanish 7, .happen 7 ⟨2, 0, []⟩, .new 7 2 3,
    .happen 7 ⟨2, 0, []⟩, .dispatch 4, .ret, .ret, .ret, .ret]) (.init [] List.nodup_nil) (by decide)
  cases e
  exact ⟨_, h, by decide, by decide, by decide, by decide, by decide, by decide⟩

/-- **C104**, exactly: in a debug build an assertion fails if and only if a watch is stopped and another one, which it has been sharing the file with, has been stopped before
it. Otherwise the debug build does the same as the release build. -/
theorem C104_exactly {s : State} (h : Reach anything s) {a : Act} (ha : Allowed s a) {race : Option Nat} (hr : ∀ fd, race = some fd → fd ∉ s.foreign) :
    (Debug.step race s a = .error .assertFail ↔
      ∃ s' w post, Inotify.step race s a = .ok s' ∧ s'.log = s.log ++ .stopped w :: post ∧ ∃ g ∈ groups s.log, w ∈ g.members ∧ g.ended = true) ∧
    (Debug.step race s a ≠ .error .assertFail → Debug.step race s a = Inotify.step race s a) := by
  obtain ⟨base, G⟩ := reach_g h
  have hrest := reach_rest h
  obtain ⟨d1, d2⟩ := Debug.step_dich hrest ha hr
  obtain ⟨s', e, _⟩ := rest_step hrest ha hr (fun _ _ _ _ h => h.elim) (fun h => h.elim)
  obtain ⟨l1, l2⟩ := Debug.step_log hrest ha hr e
  have hu := fun w => Debug.unknown_iff (w := w) G hrest.hist hrest.inv
  constructor
  · constructor
    · intro hf
      rcases Classical.em (∃ w, Debug.Stops s a w ∧ Debug.Unknown s w) with ⟨w, h1, h2⟩ | hn
      · obtain ⟨h3, h4⟩ := (hu w).1 h2
        obtain ⟨post, h5, _⟩ := l1 w h1 h3
        exact ⟨s', w, post, e, h5, h4⟩
      · rw [d2 hn, e] at hf
        cases hf
    · rintro ⟨s1, w, post, e1, h5, h4⟩
      rw [e] at e1
      cases e1
      refine d1 ?_
      rcases Classical.em (∃ v, Debug.Stops s a v ∧ Debug.Running s v) with ⟨v, h1, h2⟩ | hn
      · obtain ⟨l, h6, _⟩ := l1 v h1 h2
        rw [h5] at h6
        have := List.append_cancel_left h6
        cases this
        exact ⟨w, h1, (hu w).2 ⟨h2, h4⟩⟩
      · obtain ⟨l, h6, h7⟩ := l2 (fun v h1 h2 => hn ⟨v, h1, h2⟩)
        rw [h5] at h6
        have := List.append_cancel_left h6
        exact absurd (this ▸ List.mem_cons_self) (h7 w)
  · intro hf
    exact d2 (fun hx => hf (d1 hx))

/-- Two watches of a file, the first one is destroyed, and then there are two more: the assertion fails for the second one but not for the third one. -/
example : ∃ s, Reach anything s ∧ groups s.log = [⟨7, 6, [1, 0], false, true, [ignored]⟩, ⟨7, 6, [3, 2], true, false, []⟩] ∧
    Allowed s (.destroy 1) ∧ Debug.step none s (.destroy 1) = .error .assertFail ∧ Allowed s (.destroy 2) ∧ Debug.step none s (.destroy 2) = Inotify.step none s (.destroy 2) := by
  obtain ⟨s, e, h⟩ := reach_exec (l := [.new 7 6 3, .new 7 6 3, .destroy 0, .new 7 6 3, .new 7 6 3]) (.init [] List.nodup_nil) (by decide)
  cases e
  exact ⟨_, h, by decide, by decide, by decide, by decide, by decide⟩

/-- **C73** A watch is stopped when it's destroyed, no matter how many references to it there are, or when the last reference to it is dropped. While its handlers are being called
there's one more reference. -/
theorem C73_stops {s s' : State} (h : Reach anything s) {a : Act} (ha : Allowed s a) {race : Option Nat} (hr : ∀ fd, race = some fd → fd ∉ s.foreign)
    (e : step race s a = .ok s') (w : Nat) :
    isStopped w s'.log ↔ isStopped w s.log ∨ a = .destroy w ∨ (a = .unref w ∧ s.owned w = 1 ∧ s.frame.map (·.1) ≠ some w) ∨
      (a = .ret ∧ s.owned w = 0 ∧ s.frame.map (·.1) = some w) := by
  exact step_stops h ha hr e w

/-- A watch with two references is destroyed; the only reference is dropped by a handler, and the watch is stopped when the handler is done. -/
example : ∃ s s1 s2 s3, Reach anything s ∧ s.owned 0 = 2 ∧ s.frame = some (1, []) ∧ s.owned 1 = 1 ∧ ¬ isStopped 0 s.log ∧
    Allowed s (.destroy 0) ∧ step none s (.destroy 0) = .ok s1 ∧ s1.owned 0 = 1 ∧ isStopped 0 s1.log ∧
    Allowed s (.unref 1) ∧ step none s (.unref 1) = .ok s2 ∧ ¬ isStopped 1 s2.log ∧ Allowed s2 .ret ∧ step none s2 .ret = .ok s3 ∧ isStopped 1 s3.log := by
  obtain ⟨s, e, h⟩ := reach_exec (l := [.new 7 2 3, .ref 0, .new 8 4 3, .happen 8 ⟨4, 0, []⟩, .dispatch 1]) (.init [] List.nodup_nil) (by decide)
  cases e
  exact ⟨_, _, _, _, h, by decide, by decide, by decide, by unfold isStopped; decide, by decide, rfl, by decide, by unfold isStopped; decide, by decide, rfl, by unfold isStopped; decide,
    by decide, rfl, by unfold isStopped; decide⟩

/-- **C73** Once a watch has been stopped, its handlers aren't called for anything, even if that has happened before. -/
theorem C73_silent {s : State} (h : Reach anything s) {w : Nat} {pre post : List Event} (hl : s.log = pre ++ .stopped w :: post) : delivered w post = [] := by
  exact silent h hl

/-- Two events have happened, the watch is destroyed by its handler when it's told about the first one. Another watch is being told about its events. -/
example : ∃ s pre post, Reach anything s ∧ s.frame = none ∧ s.queue = [] ∧ s.log = pre ++ .stopped 0 :: post ∧ delivered 0 pre = [⟨2, 0, []⟩] ∧
    expected 0 pre = [⟨2, 0, []⟩, ⟨4, 0, []⟩] ∧ delivered 1 post = [⟨8, 0, []⟩] := by
  obtain ⟨s, e, h⟩ := reach_exec (l := [.new 7 6 3, .new 8 8 3, .happen 7 ⟨2, 0, []⟩, .happen 7 ⟨4, 0, []⟩, .happen 8 ⟨8, 0, []⟩, .dispatch 3, .destroy 0, .ret, .ret, .dispatch 1])
    (.init [] List.nodup_nil) (by decide)
  cases e
  exact ⟨_, [.opened 3, .created 0 7 6, .created 1 8 8, .happened 7 ⟨2, 0, []⟩, .happened 7 ⟨4, 0, []⟩, .happened 8 ⟨8, 0, []⟩, .delivered 0 ⟨2, 0, []⟩], [.delivered 1 ⟨8, 0, []⟩],
    h, by decide, by decide, by decide, by decide, by decide, by decide⟩

/-- **C73** Handlers are only called from the main loop, that is not by the functions which the client calls. -/
theorem C73_main_loop {s s' : State} {a : Act} {race : Option Nat} (e : step race s a = .ok s') (h1 : ∀ n, a ≠ .dispatch n) (h2 : a ≠ .ret) (w : Nat) :
    delivered w s'.log = delivered w s.log := by
  obtain ⟨l, hl, hk⟩ := step_adds e
  have key : delivered w l = [] := by
    refine List.filterMap_eq_nil_iff.2 (fun x hx => ?_)
    have hk := hk x hx
    cases a <;> simp only [Kind] at hk <;> grind
  unfold delivered at key ⊢
  rw [hl, List.filterMap_append, key, List.append_nil]

/-- **C73** What the rest of the history means: a new watch is the next one, it's created for the given file and events and has got one reference. The events in the history are those which happen. -/
theorem C73_recorded {s s' : State} {a : Act} {race : Option Nat} (e : step race s a = .ok s') :
    (∀ file mask fd, a = .new file mask fd → s'.owned s.watches.length = 1 ∧ ∃ l, s'.log = s.log ++ l ++ [.created s.watches.length file mask] ∧ (l = [] ∨ l = [.opened fd])) ∧
    (∀ file ev, a = .happen file ev → s'.log = s.log ++ [.happened file ev]) ∧ (∀ file, a = .vanish file → s'.log = s.log ++ [.vanished file]) ∧
    (∀ file ev, a = .merge file ev → s'.log = s.log ++ [.merged file ev]) ∧ (∀ file ev, a = .lose file ev → s'.log = s.log ++ [.lost file ev]) ∧
    (∀ file, a = .vanishLost file → s'.log = s.log ++ [.vanishedLost file]) := by
  refine ⟨?_, ?_, ?_, ?_, ?_, ?_⟩
  · rintro file mask fd rfl
    cases e
    have h3 : ∀ t : State, (kernelAdd t file mask).1.log = t.log ∧ (kernelAdd t file mask).1.watches = t.watches := fun t => by unfold kernelAdd; split <;> exact ⟨rfl, rfl⟩
    have h4 : (newInst s fd).1.watches = s.watches ∧ ∃ l, (newInst s fd).1.log = s.log ++ l ∧ (l = [] ∨ l = [.opened fd]) := by
      unfold newInst
      split
      · exact ⟨rfl, [], by simp, .inl rfl⟩
      · exact ⟨rfl, _, rfl, .inr rfl⟩
    obtain ⟨h4, l, h5, h6⟩ := h4
    constructor
    · unfold State.owned newWatch
      dsimp only
      rw [(h3 _).2, h4]
      simp
    · refine ⟨l, ?_, h6⟩
      unfold newWatch
      dsimp only
      rw [(h3 _).1, (h3 _).2, h4, h5]
  all_goals (intros; subst_vars; cases e; rfl)

/-- **C73** What an iteration of the main loop does if the handlers do nothing to the watches: the given number of events is taken from those which the kernel has reported, handlers are called
and that's it. (Which ones is told by `C73_group_complete`.) -/
theorem C73_iteration {s : State} (h : Reach anything s) {n : Nat} (ha : Allowed s (.dispatch n)) :
    ∃ (l : List (Nat × Ev)) (s' : State), exec s (.dispatch n :: List.replicate l.length .ret) = .ok s' ∧ s'.frame = none ∧ s'.queue = s.queue.drop n ∧
      s'.log = s.log ++ l.map (fun p => .delivered p.1 p.2) ∧ l.length ≤ n ∧ ∀ w, s'.owned w = s.owned w := by
  have hr := reach_rest h
  obtain ⟨_, h1, hf, i, hi, _⟩ := ha
  have ht : ∀ d w, tableLookup i.table d = some w → ∃ x, s.watches[w]? = some x ∧ 0 < x.refs := by
    intro d w hl
    obtain ⟨x, hx, hd⟩ := hr.inv.table i hi d w (lookup_mem hl)
    refine ⟨x, hx, ?_⟩
    rcases Nat.eq_zero_or_pos x.refs with h0 | h0
    · rw [hr.inv.dead w x hx h0] at hd; cases hd
    · exact h0
  obtain ⟨s1, e, q⟩ := proc_quiet hi (hr.inv.pos i hi) hf (q := s.queue.drop n) ht (s.queue.take n) s.log
  refine ⟨toCall i.table (s.queue.take n), _, cons_rets (s0 := s1) ?_ q, hf, rfl, rfl, ?_, fun w => rfl⟩
  · show dispatch none s n = _
    unfold dispatch
    rw [hi]
    exact e
  · have := List.length_filterMap_le (fun p : Nat × Ev => (tableLookup i.table p.1).map (fun w => (w, p.2))) (s.queue.take n)
    unfold toCall
    rw [List.length_take] at this
    omega

/-- Events of two watches, and one which nobody is going to be told about -/
example : ∃ s s', Reach anything s ∧ Allowed s (.dispatch 3) ∧ s.queue.length = 4 ∧ exec s (.dispatch 3 :: List.replicate 2 .ret) = .ok s' ∧ s'.queue.length = 1 ∧
    s'.log = s.log ++ [.delivered 1 ⟨4, 0, []⟩, .delivered 2 ⟨2, 0, []⟩] := by
  obtain ⟨s, e, h⟩ := reach_exec (l := [.new 7 2 3, .new 8 4 3, .new 9 2 3, .happen 7 ⟨2, 0, []⟩, .destroy 0, .dispatch 1, .happen 8 ⟨4, 0, []⟩, .happen 9 ⟨2, 0, []⟩, .happen 8 ⟨4, 0, []⟩])
    (.init [] List.nodup_nil) (by decide)
  cases e
  exact ⟨_, _, h, by decide, by decide, rfl, by decide, by decide⟩

/-- **C74** How many references belong to the client: one for a new watch, one more if it's been referenced, one less if it's been dereferenced or destroyed. -/
theorem C74_references {s s' : State} {a : Act} (ha : Allowed s a) {race : Option Nat} (e : step race s a = .ok s') (w : Nat) :
    s'.owned w = match a with
      | .new _ _ _ => if w = s.watches.length then 1 else s.owned w
      | .ref v => if w = v then s.owned w + 1 else s.owned w
      | .unref v | .destroy v => if w = v then s.owned w - 1 else s.owned w
      | _ => s.owned w := by
  cases a with
  | new file mask fd =>
    cases e
    unfold newWatch State.owned
    dsimp only
    rw [(kernelAdd_same _ _ _).2, newInst_watches, List.getElem?_append]
    split
    · next hlt => rw [if_neg (by omega)]
    · next hlt =>
      split
      · next he => subst he; simp
      · next he =>
        rw [List.getElem?_eq_none (by simp; omega), List.getElem?_eq_none (by omega)]
  | newFails fd => exact newFails_owned e w
  | ref v =>
    obtain ⟨s1, h1, e⟩ := bind_inv e
    cases e
    have q := ref_owned h1
    have hv : 0 < s.owned v := ha
    have := modify_owned s1 v (fun x => { x with owned := x.owned + 1 }) (· + 1) (fun _ => rfl) (lt_of_owned (by rw [q v]; exact hv)) w
    rw [this, q w]
  | unref v =>
    have e : unrefWatch race (disown s v) v = .ok s' := e
    have := modify_owned s v (fun x => { x with owned := x.owned - 1 }) (· - 1) (fun _ => rfl) (lt_of_owned ha) w
    exact (unrefWatch_owned e w).trans this
  | destroy v =>
    have e : destroy race s v = .ok s' := e
    unfold destroy at e
    obtain ⟨x, hx, e⟩ := bind_inv e
    obtain ⟨s1, h1, e⟩ := bind_inv e
    have q := stop_owned (watch_ok_inv hx) h1
    have hv : 0 < s.owned v := ha
    have := modify_owned s1 v (fun x => { x with owned := x.owned - 1 }) (· - 1) (fun _ => rfl) (lt_of_owned (by rw [q v]; exact hv)) w
    rw [← q w]
    exact (unrefWatch_owned e w).trans this
  | dispatch n =>
    have e : dispatch race s n = .ok s' := e
    unfold dispatch at e
    split at e
    · cases e
    · have q := proc_owned e w
      exact q
  | readFails =>
    have e : readFails s = .ok s' := e
    unfold readFails at e
    split at e
    · cases e
    · cases e; rfl
  | ret =>
    have e : ret race s = .ok s' := e
    unfold ret at e
    split at e
    · obtain ⟨s1, h1, e⟩ := bind_inv e
      have q := (unrefWatch_owned h1).trans (proc_owned e)
      have q := q w
      exact q
    · cases e
  | happen file ev => cases e; rfl
  | vanish file => cases e; rfl
  | merge file ev => cases e; rfl
  | lose file ev => cases e; rfl
  | vanishLost file => cases e; rfl
  | fopen fd => cases e; rfl
  | fclose fd => cases e; rfl

example : ∃ s s', Reach anything s ∧ Allowed s (.destroy 0) ∧ s.owned 0 = 2 ∧ step none s (.destroy 0) = .ok s' ∧ s'.owned 0 = 1 := by
  obtain ⟨s, e, h⟩ := reach_exec (l := [.new 7 2 3, .ref 0]) (.init [] List.nodup_nil) (by decide)
  cases e
  exact ⟨_, _, h, by decide, by decide, rfl, by decide⟩

end Verif.Inotify
