import Verif.Props.TimeNotify

/-!
# C97, C98: what each call does to references and handlers
-/

namespace Verif.TimeNotify
open Verif.C

/-- The handlers which are connected, in the order of connection -/
def State.connected (s : State) : List Nat := (s.obj.map (·.handlers)).getD []

/-- Is the object there? -/
def State.alive (s : State) : Prop := 0 < s.client ∨ s.emit ≠ none

theorem connected_some {s : State} {o : Obj} (h : s.obj = some o) : s.connected = o.handlers := by simp [State.connected, h]

theorem Inv.objs {s : State} (h : Inv s) (ha : s.alive) : ∃ o, s.obj = some o := by
  refine InvE.obj h ?_
  rcases ha with ha | ha
  · omega
  · cases he : s.emit with
    | none => exact absurd he ha
    | some t => simp

theorem Inv.noobj {s : State} (h : Inv s) (ha : ¬ s.alive) : s.obj = none := by
  unfold State.alive at ha
  rw [not_or] at ha
  obtain ⟨hc, he⟩ := ha
  have he : s.emit = none := Classical.byContradiction he
  unfold Inv at h
  rw [he] at h
  cases ho : s.obj with
  | none => rfl
  | some o => obtain ⟨_, h1, h2, _⟩ := h.there o ho; simp at h1; omega

theorem chanUnref_kept {s s' : State} {c c' : Chan} (h : chanUnref s c = .ok (s', c')) : s'.calls = s.calls ∧ s'.client = s.client ∧ s'.emit = s.emit := by
  unfold chanUnref at h
  split at h
  · cases h
  · split at h
    · split at h <;> (cases h; exact ⟨rfl, rfl, rfl⟩)
    · cases h
      exact ⟨rfl, rfl, rfl⟩

theorem sourceRemove_kept {s s' : State} {c c' : Chan} {id : Nat} (h : sourceRemove s c id = .ok (s', c')) : s'.calls = s.calls ∧ s'.client = s.client ∧ s'.emit = s.emit := by
  unfold sourceRemove at h
  split at h
  · have q := chanUnref_kept h
    exact q
  · cases h

theorem finalize_obj {s s' : State} {o : Obj} (h : finalize s o = .ok s') : s'.obj = none ∧ s'.calls = s.calls ∧ s'.client = s.client ∧ s'.emit = s.emit := by
  unfold finalize at h
  cases hc : o.chan with
  | none => rw [hc] at h; cases h; exact ⟨rfl, rfl, rfl, rfl⟩
  | some c =>
    rw [hc] at h
    have fin : ∀ (s1 : State) (c1 : Chan), (s1.calls = s.calls ∧ s1.client = s.client ∧ s1.emit = s.emit) →
        (chanUnref (s1.close c1.fd) { c1 with closeOnUnref := false } >>= fun x => (.ok { x.1 with obj := none } : M State)) = .ok s' →
        s'.obj = none ∧ s'.calls = s.calls ∧ s'.client = s.client ∧ s'.emit = s.emit := by
      intro s1 c1 k h
      simp only [bind, Except.bind] at h
      split at h
      · cases h
      · next v2 hv2 =>
        obtain ⟨s2, c2⟩ := v2
        cases h
        obtain ⟨k1, k2, k3⟩ := chanUnref_kept hv2
        obtain ⟨g1, g2, g3⟩ := k
        exact ⟨rfl, k1.trans g1, k2.trans g2, k3.trans g3⟩
    dsimp only at h
    split at h
    · cases hv : sourceRemove s c o.watch with
      | error e => rw [hv] at h; cases h
      | ok v =>
        rw [hv] at h
        exact fin v.1 v.2 (sourceRemove_kept hv) h
    · exact fin s c ⟨rfl, rfl, rfl⟩ h

/-- Dropping a reference doesn't disconnect anything, unless that's the last one. -/
theorem unref_kept {s s' : State} (h : unref s = .ok s') : s'.calls = s.calls ∧ s'.client = s.client ∧ s'.emit = s.emit ∧ (s'.obj ≠ none → s'.connected = s.connected) := by
  unfold unref at h
  cases ho : s.obj with
  | none => simp [State.self, ho, bind, Except.bind] at h
  | some o =>
    simp only [self_ok ho, bind, Except.bind] at h
    split at h
    · obtain ⟨h1, h2, h3, h4⟩ := finalize_obj h
      exact ⟨h2, h3, h4, fun h => absurd h1 h⟩
    · cases h
      exact ⟨rfl, rfl, rfl, fun _ => by rw [connected_some ho, connected_some rfl]⟩

/-- Going on with an emission doesn't either. -/
theorem pump_kept {s s' : State} {t : List Nat} (h : pump s t = .ok s') :
    (s'.calls = s.calls ∨ ∃ x ∈ s.connected, s'.calls = s.calls ++ [x]) ∧ s'.client = s.client ∧ (s'.obj ≠ none → s'.connected = s.connected) := by
  induction t with
  | nil =>
    obtain ⟨h1, h2, _, h3⟩ := unref_kept h
    exact ⟨.inl h1, h2, h3⟩
  | cons x t ih =>
    unfold pump at h
    cases ho : s.obj with
    | none => simp [State.self, ho, bind, Except.bind] at h
    | some o =>
      simp only [self_ok ho, bind, Except.bind] at h
      split at h
      · next hx =>
        cases h
        exact ⟨.inr ⟨x, by rw [connected_some ho]; exact hx, rfl⟩, rfl, fun _ => rfl⟩
      · exact ih h

theorem callback_kept {s s' : State} {src : Source} {bad : Bool} (h : callback s src bad = .ok s') :
    (s'.calls = s.calls ∨ ∃ x ∈ s.connected, s'.calls = s.calls ++ [x]) ∧ s'.client = s.client ∧ (s'.obj ≠ none → s'.connected = s.connected) := by
  unfold callback at h
  cases ho : s.obj with
  | none => simp [State.self, ho, bind, Except.bind] at h
  | some o =>
    simp only [self_ok ho, bind, Except.bind, ref] at h
    split at h
    · cases h
    · split at h
      · simp only [sourceRemove, chanUnref, State.close] at h
        split at h
        · cases h
        · split at h
          · cases h
          · rename_i h1
            cases h
            repeat' split at h1
            all_goals cases h1
            all_goals exact ⟨.inl rfl, rfl, fun _ => by rw [connected_some ho, connected_some rfl]⟩
      · split at h
        · cases h
        · obtain ⟨h1, h2, h3⟩ := pump_kept h
          have hc : ∀ r k, State.connected { s with obj := some { o with refs := o.refs + 1 }, readable := r, rounds := k } = s.connected := fun r k => by
            rw [connected_some ho, connected_some rfl]
          rw [hc] at h1 h3
          exact ⟨h1, h2, h3⟩

/-- **C97** How many references belong to the client -/
theorem C97_references {s s' : State} {a : Act} (h : Reach always s) (ha : Allowed s a) (hs : step s a = .ok s') :
    s'.client = match a with
      | .new _ | .ref => s.client + 1
      | .unref => s.client - 1
      | _ => s.client := by
  have hi := reach_inv h
  have hobj : 0 < s.client → ∃ o, s.obj = some o := fun hc => hi.objs (.inl hc)
  cases a with
  | new ok =>
    cases hn : s.inst with
    | none =>
      simp only [step, new, hn, bind, Except.bind] at hs
      cases hs
      unfold create
      split <;> rfl
    | some g =>
      cases ho : s.obj with
      | none => rw [(hi.gone ho).1] at hn; cases hn
      | some o =>
        simp only [step, new, hn, ref, self_ok ho, bind, Except.bind] at hs
        cases hs
        rfl
  | ref =>
    obtain ⟨o, ho⟩ := hobj ha
    simp only [step, ref, self_ok ho, bind, Except.bind] at hs
    cases hs
    rfl
  | unref => exact (unref_kept hs).2.1
  | add =>
    obtain ⟨o, ho⟩ := hobj ha
    simp only [step, add, self_ok ho, bind, Except.bind] at hs
    cases hs
    rfl
  | remove x =>
    obtain ⟨o, ho⟩ := hobj ha
    simp only [step, remove, self_ok ho, bind, Except.bind] at hs
    cases hs
    rfl
  | clock => cases hs; rfl
  | dispatch bad =>
    simp only [step] at hs
    split at hs
    · cases hs
    · exact (callback_kept hs).2.1
  | ret =>
    simp only [step] at hs
    split at hs
    · cases hs
    · exact (pump_kept hs).2.1

/-- **C98** Which handlers are connected: those which have been added (ids are never reused) and haven't been removed, in the order in which they have been added, until the last reference is gone. -/
theorem C98_connected {s s' : State} {a : Act} (h : Reach always s) (ha : Allowed s a) (hs : step s a = .ok s') :
    (¬ s'.alive → s'.connected = []) ∧
    (s'.alive → match a with
      | .add => ∃ x, x ≠ 0 ∧ x ∉ s.connected ∧ s'.connected = s.connected ++ [x]
      | .remove x => s'.connected = s.connected.filter (· ≠ x)
      | _ => s'.connected = s.connected) := by
  have hi := reach_inv h
  obtain ⟨s1, e1, hi'⟩ := step_inv hi ha
  rw [hs] at e1
  cases e1
  refine ⟨fun hn => by simp [State.connected, hi'.noobj hn], fun hl => ?_⟩
  have hobj : 0 < s.client → ∃ o, s.obj = some o := fun hc => hi.objs (.inl hc)
  have hne : s'.obj ≠ none := by
    obtain ⟨o, ho⟩ := hi'.objs hl
    rw [ho]
    simp
  cases a with
  | new ok =>
    cases ho : s.obj with
    | none =>
      simp only [step, new, (hi.gone ho).1, bind, Except.bind] at hs
      cases hs
      dsimp only
      have h1 : s.connected = [] := by simp [State.connected, ho]
      rw [h1]
      unfold create State.connected
      cases ok <;> rfl
    | some o =>
      simp only [step, new, (hi.there o ho).1, ref, self_ok ho, bind, Except.bind] at hs
      cases hs
      dsimp only
      rw [connected_some ho, connected_some rfl]
  | ref =>
    obtain ⟨o, ho⟩ := hobj ha
    simp only [step, ref, self_ok ho, bind, Except.bind] at hs
    cases hs
    dsimp only
    rw [connected_some ho, connected_some rfl]
  | unref => exact (unref_kept hs).2.2.2 hne
  | add =>
    obtain ⟨o, ho⟩ := hobj ha
    simp only [step, add, self_ok ho, bind, Except.bind] at hs
    cases hs
    dsimp only
    rw [connected_some ho, connected_some rfl]
    have := InvE.next hi
    exact ⟨s.next, by omega, fun hx => absurd ((InvE.hand hi o ho).2 _ hx) (by omega), rfl⟩
  | remove x =>
    obtain ⟨o, ho⟩ := hobj ha
    simp only [step, remove, self_ok ho, bind, Except.bind] at hs
    cases hs
    dsimp only
    rw [connected_some ho, connected_some rfl]
  | clock => cases hs; rfl
  | dispatch bad =>
    simp only [step] at hs
    split at hs
    · cases hs
    · exact (callback_kept hs).2.2 hne
  | ret =>
    simp only [step] at hs
    split at hs
    · cases hs
    · exact (pump_kept hs).2.2 hne

example : ∃ s s', Reach always s ∧ Allowed s (.remove 4) ∧ s.connected = [3, 4, 5] ∧ step s (.remove 4) = .ok s' ∧ s'.connected = [3, 5] := by
  refine ⟨example98, _, ?_, by decide +kernel, by decide +kernel, rfl, by decide +kernel⟩
  exact .step (a := .clock) (.step (a := .add) (.step (a := .add) (.step (a := .add) (.step (a := .new true) .init (by decide +kernel) trivial rfl)
    (by decide +kernel) trivial rfl) (by decide +kernel) trivial rfl) (by decide +kernel) trivial rfl) (by decide +kernel) trivial rfl

/-- **C98** Handlers are only called by the main loop, or when another one returns, one at a time, and only if they are (still) connected. -/
theorem C98_called {s s' : State} {a : Act} (h : Reach always s) (ha : Allowed s a) (hs : step s a = .ok s') :
    s'.calls = s.calls ∨ (a = .dispatch false ∨ a = .ret) ∧ ∃ x ∈ s.connected, s'.calls = s.calls ++ [x] := by
  have hi := reach_inv h
  have hobj : 0 < s.client → ∃ o, s.obj = some o := fun hc => hi.objs (.inl hc)
  cases a with
  | new ok =>
    cases ho : s.obj with
    | none =>
      simp only [step, new, (hi.gone ho).1, bind, Except.bind] at hs
      cases hs
      unfold create
      split <;> exact .inl rfl
    | some o =>
      simp only [step, new, (hi.there o ho).1, ref, self_ok ho, bind, Except.bind] at hs
      cases hs
      exact .inl rfl
  | ref =>
    obtain ⟨o, ho⟩ := hobj ha
    simp only [step, ref, self_ok ho, bind, Except.bind] at hs
    cases hs
    exact .inl rfl
  | unref => exact .inl (unref_kept hs).1
  | add =>
    obtain ⟨o, ho⟩ := hobj ha
    simp only [step, add, self_ok ho, bind, Except.bind] at hs
    cases hs
    exact .inl rfl
  | remove x =>
    obtain ⟨o, ho⟩ := hobj ha
    simp only [step, remove, self_ok ho, bind, Except.bind] at hs
    cases hs
    exact .inl rfl
  | clock => cases hs; exact .inl rfl
  | dispatch bad =>
    cases hsrc : s.sources with
    | nil => simp only [step, hsrc] at hs; cases hs
    | cons src t =>
      simp only [step, hsrc] at hs
      cases bad with
      | false =>
        rcases (callback_kept hs).1 with h1 | h1
        · exact .inl h1
        · exact .inr ⟨.inl rfl, h1⟩
      | true =>
        obtain ⟨rfl, o, ho⟩ := sources_of hi hsrc
        obtain ⟨s1, e1, _, _, h1, _⟩ := callback_bad hi ha.1 ho hsrc
        rw [hs] at e1
        cases e1
        exact .inl h1
  | ret =>
    simp only [step] at hs
    split at hs
    · cases hs
    · rcases (pump_kept hs).1 with h1 | h1
      · exact .inl h1
      · exact .inr ⟨.inr rfl, h1⟩

/-- Handlers returning -/
theorem pump_quiet {s : State} {o : Obj} (ho : s.obj = some o) (hr : o.refs ≠ 1) : ∀ (t : List Nat) (l : List Nat) (e : Option (List Nat)), (∀ x ∈ t, x ∈ o.handlers) →
    ∃ s1, pump { s with emit := e, calls := l } t = .ok s1 ∧
      exec s1 (List.replicate t.length .ret) = .ok { s with emit := none, calls := l ++ t, obj := some { o with refs := o.refs - 1 } } := by
  intro t
  induction t with
  | nil =>
    intro l e _
    refine ⟨_, ?_, rfl⟩
    simp [pump, unref, self_ok (s := { s with emit := none, calls := l }) ho, bind, Except.bind, hr]
  | cons x t ih =>
    intro l e hx
    refine ⟨{ s with emit := some t, calls := l ++ [x] }, ?_, ?_⟩
    · simp [pump, self_ok (s := { s with emit := e, calls := l }) ho, bind, Except.bind, hx x List.mem_cons_self]
    · obtain ⟨s1, h1, h2⟩ := ih (l ++ [x]) (some t) (fun y hy => hx y (List.mem_cons_of_mem _ hy))
      rw [List.length_cons, List.replicate_succ]
      unfold exec
      simp only [step]
      rw [h1]
      dsimp only
      rw [h2, List.append_assoc]
      rfl

/-- **C98** What an iteration of the main loop does if the clock has been set, and the handlers just return: all of them are called, and nothing is due anymore. -/
theorem C98_round {s : State} (h : Reach always s) (hc : 0 < s.client) (ha : Allowed s (.dispatch false)) :
    ∃ s', exec s (.dispatch false :: List.replicate s.connected.length .ret) = .ok s' ∧ s'.calls = s.calls ++ s.connected ∧ s'.connected = s.connected ∧
      s'.client = s.client ∧ s'.emit = none ∧ ¬ Due s' := by
  have hi := reach_inv h
  obtain ⟨o, ho⟩ := hi.objs (.inl hc)
  obtain ⟨he, ha⟩ := ha
  cases hsrc : s.sources with
  | nil => rw [hsrc] at ha; exact ha.elim
  | cons src t =>
    obtain ⟨rfl, _⟩ := sources_of hi hsrc
    obtain ⟨c, s1, s2, hch, hfd, hi1, ho1, es1, h1, h2, _⟩ := callback_inv hi he ho hsrc
    obtain ⟨_, hr, hp, hw⟩ := InvE.there hi o ho
    obtain ⟨s3, h3, h4⟩ := pump_quiet (s := s1) (o := { o with refs := o.refs + 1 }) ho1 (by dsimp only; omega) o.handlers s1.calls s1.emit (fun x hx => hx)
    have h3 : pump s1 o.handlers = .ok s3 := h3
    have h5 : exec s (.dispatch false :: List.replicate s.connected.length .ret) = exec s3 (List.replicate o.handlers.length .ret) := by
      conv => lhs; unfold exec
      simp only [step, hsrc]
      rw [h1, h3]
      dsimp only
      rw [connected_some ho]
    refine ⟨_, h5.trans h4, ?_, ?_, ?_, rfl, ?_⟩
    · dsimp only
      rw [es1, connected_some ho]
    · rw [connected_some ho, connected_some rfl]
    · dsimp only
      rw [es1]
    · rintro ⟨x, hx, hrd⟩
      rw [es1] at hx hrd
      dsimp only at hx hrd
      rw [hsrc, List.mem_singleton] at hx
      rw [List.mem_filter] at hrd
      subst hx
      simp [hfd] at hrd

example : ∃ s', exec example98 (.dispatch false :: List.replicate 3 .ret) = .ok s' ∧ s'.calls = [3, 4, 5] := ⟨_, rfl, by decide +kernel⟩

end Verif.TimeNotify
