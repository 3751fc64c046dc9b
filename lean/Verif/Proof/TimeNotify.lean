import Verif.Model.TimeNotify

namespace Verif.TimeNotify
open Verif.C

/-- The channel and the watch of a live object -/
def Wired (s : State) (o : Obj) : Prop :=
  match o.chan with
  | none => o.watch = 0 ∧ s.sources = [] ∧ s.fds = []
  | some c => c.closeOnUnref = true ∧ s.fds = [c.fd] ∧
    ((o.watch = 0 ∧ s.sources = [] ∧ c.refs = 1) ∨
     (o.watch ≠ 0 ∧ s.sources = [{ id := o.watch, fd := c.fd, gen := o.gen }] ∧ c.refs = 2))

/-- `e` is the number of references which don't belong to the client. -/
structure InvE (s : State) (e : Nat) : Prop where
  gone : s.obj = none → s.inst = none ∧ s.client = 0 ∧ e = 0 ∧ s.sources = [] ∧ s.fds = []
  there : ∀ o, s.obj = some o → s.inst = some o.gen ∧ o.refs = s.client + e ∧ 0 < o.refs ∧ Wired s o
  hand : ∀ o, s.obj = some o → o.handlers.Nodup ∧ ∀ h ∈ o.handlers, h < s.next
  closed : s.closed.Nodup
  closedLt : ∀ fd ∈ s.closed, fd < s.next
  fdsLt : ∀ fd ∈ s.fds, fd < s.next ∧ fd ∉ s.closed
  sub : ∀ fd ∈ s.readable, fd ∈ s.fds
  next : 0 < s.next
  opened : s.opened.Perm (s.closed ++ s.fds)

def Inv (s : State) : Prop := InvE s (if s.emit.isSome then 1 else 0)

theorem self_ok {s : State} {o : Obj} (h : s.obj = some o) : s.self = .ok o := by
  simp [State.self, h]

theorem InvE.obj {s : State} {e : Nat} (h : InvE s e) (hc : 0 < s.client + e) : ∃ o, s.obj = some o := by
  cases ho : s.obj with
  | none => obtain ⟨_, h1, h2, _⟩ := h.gone ho; omega
  | some o => exact ⟨o, rfl⟩

/-- Closing the only descriptor -/
theorem close_inv {s : State} {e : Nat} {o : Obj} {c : Chan} (h : InvE s e) (ho : s.obj = some o) (hc : o.chan = some c) :
    (s.close c.fd).fds = [] ∧ (s.close c.fd).readable = [] ∧ (s.close c.fd).closed.Nodup ∧
      (∀ fd ∈ (s.close c.fd).closed, fd < s.next) := by
  obtain ⟨_, _, _, hw⟩ := h.there o ho
  simp only [Wired, hc] at hw
  have hf := h.fdsLt c.fd (by rw [hw.2.1]; simp)
  refine ⟨by simp [State.close, hw.2.1], ?_, ?_, ?_⟩
  · simp only [State.close, List.filter_eq_nil_iff]
    intro fd hfd
    have := h.sub fd hfd
    rw [hw.2.1, List.mem_singleton] at this
    simp [this]
  · simp only [State.close]
    rw [List.nodup_append]
    refine ⟨h.closed, by simp, ?_⟩
    intro a ha b hb
    rw [List.mem_singleton] at hb
    subst hb
    intro e; subst e
    exact hf.2 ha
  · intro fd hfd
    simp only [State.close, List.mem_append, List.mem_singleton] at hfd
    rcases hfd with hfd | rfl
    · exact h.closedLt fd hfd
    · exact hf.1

theorem finalize_inv {s : State} {e : Nat} {o : Obj} (h : InvE s e) (ho : s.obj = some o) (hr : o.refs = 1) (hs : s.client + e = 1)
    {s2 : State} (h2 : s2 = { s with client := 0, inst := none, emit := none }) :
    ∃ s', finalize s2 o = .ok s' ∧ InvE s' 0 ∧ s'.emit = none ∧ s'.obj = none ∧ s'.calls = s.calls ∧ s'.rounds = s.rounds ∧ s'.ticks = s.ticks ∧
      s'.created = s.created ∧ s'.next = s.next ∧ (∀ fd, fd ∈ s'.closed ↔ fd ∈ s.closed ∨ fd ∈ s.fds) := by
  obtain ⟨_, _, _, hw⟩ := h.there o ho
  cases hc : o.chan with
  | none =>
    simp only [Wired, hc] at hw
    refine ⟨{ s2 with obj := none }, by simp [finalize, hc], ?_, ?_, rfl, ?_⟩
    · subst h2
      exact ⟨fun _ => ⟨rfl, rfl, rfl, hw.2.1, hw.2.2⟩, by simp, by simp, h.closed, h.closedLt, h.fdsLt, h.sub, h.next, h.opened⟩
    · subst h2; rfl
    · subst h2; simp [hw.2.2]
  | some c =>
    obtain ⟨h3, h4, h5, h6⟩ := close_inv h ho hc
    simp only [Wired, hc] at hw
    obtain ⟨hw1, hw2, hw3⟩ := hw
    refine ⟨{ s with client := 0, inst := none, emit := none, obj := none, sources := [], fds := [], readable := [], closed := (s.close c.fd).closed }, ?_, ?_, rfl,
      rfl, rfl, rfl, rfl, rfl, rfl, ?_⟩
    · simp only [State.close] at h3 h4
      rcases hw3 with ⟨hw3, hw4, hw5⟩ | ⟨hw3, hw4, hw5⟩
      · simp only [finalize, hc, hw3, bind, Except.bind, ne_eq, not_true_eq_false, if_false, chanUnref, hw5, Nat.one_ne_zero, if_true, Bool.false_eq_true]
        subst h2
        simp only [State.close, h3, h4, hw4]
      · simp only [finalize, hc, bind, Except.bind, hw3, ne_eq, not_false_eq_true, if_true, sourceRemove, chanUnref, hw5]
        subst h2
        simp [State.close, h3, hw4]
        intro a ha
        have := h.sub a ha
        rw [hw2] at this
        simpa using this
    · refine ⟨fun _ => ⟨rfl, rfl, rfl, rfl, rfl⟩, by simp, by simp, h5, h6, by simp, by simp, h.next, ?_⟩
      have := h.opened
      rw [hw2] at this
      simpa [State.close] using this
    · intro fd
      simp [State.close, hw2]

/-- Dropping a reference, which is the client's or (`e`) not -/
theorem unref_inv {s s2 : State} {e : Nat} (h : InvE s e) {c' e' : Nat} (hce : s.client + e = c' + e' + 1)
    (h2 : s2 = { s with client := c', emit := if e' = 0 then none else s.emit }) (he' : e' ≤ 1) (hem : e' = 1 → s.emit.isSome) :
    ∃ s', unref s2 = .ok s' ∧ InvE s' e' ∧ s'.calls = s.calls ∧ s'.rounds = s.rounds ∧ s'.ticks = s.ticks ∧ s'.created = s.created ∧
      s'.next = s.next ∧ s'.emit = s2.emit := by
  obtain ⟨o, ho⟩ := h.obj (by omega)
  obtain ⟨h3, h4, h5, h6⟩ := h.there o ho
  have hself : s2.self = .ok o := self_ok (by rw [h2]; exact ho)
  simp only [unref, hself, bind, Except.bind]
  by_cases h1 : o.refs = 1
  · rw [if_pos h1]
    have hz : c' = 0 ∧ e' = 0 := by omega
    obtain ⟨rfl, rfl⟩ := hz
    obtain ⟨s', g1, g2, g3, g4, g5, g6, g7, g8, g9, _⟩ := finalize_inv h ho h1 (by omega) (s2 := { s2 with inst := none })
      (by rw [h2]; rfl)
    exact ⟨s', g1, g2, g5, g6, g7, g8, g9, by rw [g3, h2]; rfl⟩
  · rw [if_neg h1]
    subst h2
    refine ⟨_, rfl, ?_, rfl, rfl, rfl, rfl, rfl, rfl⟩
    refine ⟨by simp, ?_, ?_, h.closed, h.closedLt, h.fdsLt, h.sub, h.next, h.opened⟩
    · intro o' ho'
      simp only [Option.some.injEq] at ho'
      subst ho'
      refine ⟨h3, by simp only; omega, by simp only; omega, h6⟩
    · intro o' ho'
      simp only [Option.some.injEq] at ho'
      subst ho'
      exact h.hand o ho

/-- Going on with an emission: either it's over, or the next handler which is still there is called. -/
theorem pump_inv {s : State} {o : Obj} (h : InvE s 1) (ho : s.obj = some o) (t : List Nat) :
    ∃ s', pump s t = .ok s' ∧ Inv s' ∧ s'.rounds = s.rounds ∧ s'.ticks = s.ticks ∧ s'.created = s.created ∧ s'.next = s.next ∧
      (((∀ x ∈ t, x ∉ o.handlers) ∧ s'.calls = s.calls ∧ s'.emit = none) ∨
       (∃ a x b, t = a ++ x :: b ∧ (∀ y ∈ a, y ∉ o.handlers) ∧ x ∈ o.handlers ∧
         s' = { s with emit := some b, calls := s.calls ++ [x] })) := by
  induction t with
  | nil =>
    obtain ⟨s', h1, h2, h3, h4, h5, h6, h7, h8⟩ := unref_inv (s2 := { s with emit := none }) h (c' := s.client) (e' := 0) rfl rfl
      (by omega) (by omega)
    refine ⟨s', h1, ?_, h4, h5, h6, h7, .inl ⟨by simp, h3, h8⟩⟩
    unfold Inv
    rw [h8]
    exact h2
  | cons x t ih =>
    simp only [pump, self_ok ho, bind, Except.bind]
    by_cases hx : x ∈ o.handlers
    · rw [if_pos hx]
      refine ⟨_, rfl, ?_, rfl, rfl, rfl, rfl, .inr ⟨[], x, t, rfl, by simp, hx, rfl⟩⟩
      exact ⟨h.gone, h.there, h.hand, h.closed, h.closedLt, h.fdsLt, h.sub, h.next, h.opened⟩
    · rw [if_neg hx]
      obtain ⟨s', h1, h2, h3, h4, h5, h6, h7⟩ := ih
      refine ⟨s', h1, h2, h3, h4, h5, h6, ?_⟩
      rcases h7 with ⟨g1, g2⟩ | ⟨a, y, b, rfl, g2, g3, g4⟩
      · refine .inl ⟨?_, g2⟩
        intro y hy
        rcases List.mem_cons.mp hy with rfl | hy
        · exact hx
        · exact g1 y hy
      · refine .inr ⟨x :: a, y, b, rfl, ?_, g3, g4⟩
        intro z hz
        rcases List.mem_cons.mp hz with rfl | hz
        · exact hx
        · exact g2 z hz

theorem init_inv : Inv init := by
  refine ⟨fun _ => ⟨rfl, rfl, rfl, rfl, rfl⟩, ?_, ?_, ?_, ?_, ?_, ?_, ?_, ?_⟩ <;> simp [init]

/-- Changing the object without changing how it's connected to the rest -/
theorem InvE.update {s s' : State} {e e' : Nat} {o o' : Obj} (h : InvE s e) (ho : s.obj = some o) (ho' : s'.obj = some o')
    (h1 : s'.inst = s.inst) (h2 : o'.gen = o.gen) (h3 : o'.refs = s'.client + e') (h4 : 0 < o'.refs) (h5 : Wired s' o')
    (h6 : o'.handlers.Nodup ∧ ∀ x ∈ o'.handlers, x < s'.next) (h7 : s'.closed = s.closed) (h8 : s'.fds = s.fds)
    (h9 : ∀ fd ∈ s'.readable, fd ∈ s'.fds) (h10 : s.next ≤ s'.next) (h11 : s'.opened = s.opened) : InvE s' e' where
  gone := by rw [ho']; simp
  there := by
    intro o1 ho1
    rw [ho'] at ho1
    cases ho1
    exact ⟨by rw [h1, h2]; exact (h.there o ho).1, h3, h4, h5⟩
  hand := by
    intro o1 ho1
    rw [ho'] at ho1
    cases ho1
    exact h6
  closed := by rw [h7]; exact h.closed
  closedLt := by rw [h7]; intro fd hfd; have := h.closedLt fd hfd; omega
  fdsLt := by rw [h7, h8]; intro fd hfd; obtain ⟨g1, g2⟩ := h.fdsLt fd hfd; exact ⟨by omega, g2⟩
  sub := h9
  next := by have := h.next; omega
  opened := by rw [h7, h8, h11]; exact h.opened

theorem ref_inv {s : State} {e c' e' : Nat} {o : Obj} (h : InvE s e) (ho : s.obj = some o) (hce : c' + e' = s.client + e + 1) :
    ref s = .ok { s with obj := some { o with refs := o.refs + 1 } } ∧
      ∀ em, InvE { s with obj := some { o with refs := o.refs + 1 }, client := c', emit := em } e' := by
  obtain ⟨h1, h2, h3, h4⟩ := h.there o ho
  refine ⟨by simp only [ref, self_ok ho, bind, Except.bind], fun em => ?_⟩
  exact h.update ho rfl rfl rfl (by simp only; omega) (by simp only; omega) h4 (h.hand o ho) rfl rfl h.sub (Nat.le_refl _) rfl

theorem create_inv {s : State} {e : Nat} (h : InvE s e) (ho : s.obj = none) (ok : Bool) (em : Option (List Nat)) :
    InvE { create s ok with client := s.client + 1, emit := em } e := by
  obtain ⟨h1, h2, h3, h4, h5⟩ := h.gone ho
  subst h3
  have hn := h.next
  cases ok with
  | false =>
    refine ⟨by simp [create], ?_, ?_, h.closed, h.closedLt, h.fdsLt, h.sub, h.next, h.opened⟩
    · intro o ho
      simp only [create, Bool.false_eq_true, if_false, Option.some.injEq] at ho
      subst ho
      exact ⟨rfl, by simp only [h2], by simp, rfl, h4, h5⟩
    · intro o ho
      simp only [create, Bool.false_eq_true, if_false, Option.some.injEq] at ho
      subst ho
      simp
  | true =>
    refine ⟨by simp [create], ?_, ?_, h.closed, ?_, ?_, ?_, by simp [create], ?_⟩
    · intro o ho
      simp only [create, if_true, Option.some.injEq] at ho
      subst ho
      refine ⟨rfl, by simp only [h2], by simp, ?_⟩
      simp [Wired, create, h4, h5]
    · intro o ho
      simp only [create, if_true, Option.some.injEq] at ho
      subst ho
      simp
    · intro fd hfd
      have := h.closedLt fd hfd
      simp only [create, if_true]
      omega
    · intro fd hfd
      simp only [create, if_true, h5, List.mem_singleton] at hfd ⊢
      subst hfd
      refine ⟨by omega, fun hc => ?_⟩
      have := h.closedLt _ hc
      omega
    · intro fd hfd
      have := h.sub fd hfd
      rw [h5] at this
      cases this
    · have := h.opened
      rw [h5, List.append_nil] at this
      simp only [create, if_true, h5]
      exact this.append_right _

/-- Wiring doesn't depend on the handlers and the number of references. -/
theorem Wired.congr {s s' : State} {o o' : Obj} (h : Wired s o) (h1 : s'.sources = s.sources) (h2 : s'.fds = s.fds)
    (h3 : o'.chan = o.chan) (h4 : o'.watch = o.watch) (h5 : o'.gen = o.gen) : Wired s' o' := by
  unfold Wired at *
  rw [h1, h2, h3, h4, h5]
  exact h

/-- The callback when there's something to read -/
theorem callback_inv {s : State} {o : Obj} (h : Inv s) (he : s.emit = none) (ho : s.obj = some o) {src : Source} (hsrc : s.sources = [src]) :
    ∃ c s1 s', o.chan = some c ∧ src.fd = c.fd ∧ InvE s1 1 ∧ s1.obj = some { o with refs := o.refs + 1 } ∧
      s1 = { s with obj := some { o with refs := o.refs + 1 }, readable := s.readable.filter (· ≠ c.fd), rounds := s.rounds + 1 } ∧
      callback s src false = pump s1 o.handlers ∧ pump s1 o.handlers = .ok s' ∧ Inv s' := by
  have h' : InvE s 0 := by unfold Inv at h; rw [he] at h; exact h
  obtain ⟨h1, h2, h3, h4⟩ := h'.there o ho
  obtain hc | ⟨c, hc⟩ := Option.eq_none_or_eq_some o.chan
  · simp [Wired, hc, hsrc] at h4
  · have hw := h4
    simp only [Wired, hc] at hw
    obtain ⟨w1, w2, w3⟩ := hw
    rcases w3 with ⟨_, w3, _⟩ | ⟨w3, w4, w5⟩
    · rw [hsrc] at w3; cases w3
    · rw [hsrc] at w4
      have w4 := List.cons.inj w4
      obtain ⟨w4, _⟩ := w4
      have hinv : InvE { s with obj := some { o with refs := o.refs + 1 }, readable := s.readable.filter (· ≠ c.fd), rounds := s.rounds + 1 } 1 := by
        refine h'.update ho rfl rfl rfl (by simp only; omega) (by simp only; omega) (h4.congr rfl rfl rfl rfl rfl) (h'.hand o ho) rfl rfl ?_ (Nat.le_refl _) rfl
        intro fd hfd
        exact h'.sub fd (List.mem_filter.mp hfd).1
      obtain ⟨s', g1, g2, _⟩ := pump_inv hinv rfl o.handlers
      refine ⟨c, _, s', hc, by rw [w4], hinv, rfl, rfl, ?_, g1, g2⟩
      subst w4
      simp only [callback, self_ok ho, bind, Except.bind, ne_eq, not_true_eq_false, if_false, Bool.false_eq_true, ref, hc]

theorem callback_bad {s : State} {o : Obj} (h : Inv s) (he : s.emit = none) (ho : s.obj = some o) {src : Source} (hsrc : s.sources = [src]) :
    ∃ s', callback s src true = .ok s' ∧ Inv s' ∧ s'.emit = none ∧ s'.calls = s.calls ∧ s'.rounds = s.rounds ∧ s'.ticks = s.ticks ∧
      s'.created = s.created := by
  have h' : InvE s 0 := by unfold Inv at h; rw [he] at h; exact h
  obtain ⟨h1, h2, h3, h4⟩ := h'.there o ho
  cases hc : o.chan with
  | none => simp [Wired, hc, hsrc] at h4
  | some c =>
    have hw := h4
    simp only [Wired, hc] at hw
    obtain ⟨w1, w2, w3⟩ := hw
    rcases w3 with ⟨_, w3, _⟩ | ⟨w3, w4, w5⟩
    · rw [hsrc] at w3; cases w3
    · rw [hsrc] at w4
      obtain ⟨w4, _⟩ := List.cons.inj w4
      subst w4
      refine ⟨{ s with sources := [], obj := some { o with chan := some { c with refs := 1 }, watch := 0 } }, ?_, ?_, he, rfl, rfl, rfl, rfl⟩
      · simp only [callback, self_ok ho, bind, Except.bind, ne_eq, not_true_eq_false, if_false, if_true, hc, sourceRemove, hsrc, List.any_cons,
          beq_self_eq_true, Bool.true_or, chanUnref, w5, List.filter_cons, decide_false, Bool.false_eq_true, List.filter_nil]
        rfl
      · unfold Inv
        simp only [he, Option.isSome_none, Bool.false_eq_true, if_false]
        refine h'.update ho rfl rfl rfl h2 h3 ?_ (h'.hand o ho) rfl rfl h'.sub (Nat.le_refl _) rfl
        simp only [Wired]
        exact ⟨w1, w2, .inl ⟨trivial, trivial, trivial⟩⟩

/-- At most one source -/
theorem sources_of {s : State} {e : Nat} {src : Source} {t : List Source} (h : InvE s e) (hs : s.sources = src :: t) :
    t = [] ∧ ∃ o, s.obj = some o := by
  cases ho : s.obj with
  | none => obtain ⟨_, _, _, h1, _⟩ := h.gone ho; rw [hs] at h1; cases h1
  | some o =>
    obtain ⟨_, _, _, hw⟩ := h.there o ho
    cases hc : o.chan with
    | none => simp [Wired, hc, hs] at hw
    | some c =>
      simp only [Wired, hc] at hw
      rcases hw.2.2 with ⟨_, w, _⟩ | ⟨_, w, _⟩
      · rw [hs] at w; cases w
      · rw [hs] at w; exact ⟨(List.cons.inj w).2, o, rfl⟩

theorem step_inv {s : State} {a : Act} (h : Inv s) (ha : Allowed s a) : ∃ s', step s a = .ok s' ∧ Inv s' := by
  cases a with
  | new ok =>
    simp only [step, new, bind, Except.bind]
    cases ho : s.obj with
    | none =>
      have := (h.gone ho).1
      rw [this]
      refine ⟨_, rfl, ?_⟩
      cases ok <;> exact create_inv h ho _ _
    | some o =>
      rw [(h.there o ho).1]
      obtain ⟨h1, h2⟩ := ref_inv h ho (c' := s.client + 1) (e' := if s.emit.isSome then 1 else 0) (by omega)
      simp only [h1]
      exact ⟨_, rfl, h2 _⟩
  | ref =>
    obtain ⟨o, ho⟩ := InvE.obj h (by have : 0 < s.client := ha; omega)
    obtain ⟨h1, h2⟩ := ref_inv h ho (c' := s.client + 1) (e' := if s.emit.isSome then 1 else 0) (by omega)
    simp only [step, bind, Except.bind, h1]
    exact ⟨_, rfl, h2 _⟩
  | unref =>
    have hc : 0 < s.client := ha
    simp only [step]
    obtain he | ⟨t, he⟩ := Option.eq_none_or_eq_some s.emit
    · have h' : InvE s 0 := by unfold Inv at h; rw [he] at h; exact h
      obtain ⟨s', h1, h2, _, _, _, _, _, h3⟩ := unref_inv (s2 := { s with client := s.client - 1 }) h' (c' := s.client - 1) (e' := 0) (by omega)
        (by rw [if_pos rfl, he]) (by omega) (by omega)
      refine ⟨s', h1, ?_⟩
      unfold Inv
      rw [h3]
      dsimp only
      rw [he]
      exact h2
    · have h' : InvE s 1 := by unfold Inv at h; rw [he] at h; exact h
      obtain ⟨s', h1, h2, _, _, _, _, _, h3⟩ := unref_inv (s2 := { s with client := s.client - 1 }) h' (c' := s.client - 1) (e' := 1) (by omega)
        (by rw [if_neg (by omega)]) (by omega) (by rw [he]; simp)
      refine ⟨s', h1, ?_⟩
      unfold Inv
      rw [h3]
      dsimp only
      rw [he]
      exact h2
  | add =>
    obtain ⟨o, ho⟩ := InvE.obj h (by have : 0 < s.client := ha; omega)
    obtain ⟨h1, h2, h3, h4⟩ := h.there o ho
    obtain ⟨h5, h6⟩ := h.hand o ho
    simp only [step, add, self_ok ho, bind, Except.bind]
    refine ⟨_, rfl, InvE.update h ho rfl rfl rfl h2 h3 (h4.congr rfl rfl rfl rfl rfl) ?_ rfl rfl h.sub (Nat.le_succ _) rfl⟩
    refine ⟨?_, ?_⟩
    · simp only
      rw [List.nodup_append]
      refine ⟨h5, by simp, ?_⟩
      intro a ha b hb
      rw [List.mem_singleton] at hb
      have := h6 a ha
      omega
    · intro x hx
      simp only [List.mem_append, List.mem_singleton] at hx ⊢
      rcases hx with hx | hx
      · have := h6 x hx; omega
      · omega
  | remove x =>
    obtain ⟨o, ho⟩ := InvE.obj h (by have : 0 < s.client := ha; omega)
    obtain ⟨h1, h2, h3, h4⟩ := h.there o ho
    obtain ⟨h5, h6⟩ := h.hand o ho
    simp only [step, remove, self_ok ho, bind, Except.bind]
    refine ⟨_, rfl, InvE.update h ho rfl rfl rfl h2 h3 (h4.congr rfl rfl rfl rfl rfl) ?_ rfl rfl h.sub (Nat.le_refl _) rfl⟩
    exact ⟨h5.filter _, fun y hy => h6 y (List.mem_filter.mp hy).1⟩
  | clock =>
    refine ⟨_, rfl, ?_⟩
    exact ⟨h.gone, h.there, h.hand, h.closed, h.closedLt, h.fdsLt, fun _ h => h, h.next, h.opened⟩
  | dispatch bad =>
    obtain ⟨he, ha⟩ := ha
    cases hs : s.sources with
    | nil => rw [hs] at ha; exact ha.elim
    | cons src t =>
      obtain ⟨rfl, o, ho⟩ := sources_of h hs
      simp only [step, hs]
      cases bad with
      | true =>
        obtain ⟨s', h1, h2, _⟩ := callback_bad h he ho hs
        exact ⟨s', h1, h2⟩
      | false =>
        obtain ⟨c, s1, s', _, _, _, _, _, h1, h2, h3⟩ := callback_inv h he ho hs
        exact ⟨s', h1.trans h2, h3⟩
  | ret =>
    cases he : s.emit with
    | none => exact absurd he ha
    | some t =>
      have h' : InvE s 1 := by unfold Inv at h; rw [he] at h; exact h
      obtain ⟨o, ho⟩ := h'.obj (by omega)
      simp only [step, he]
      obtain ⟨s', h1, h2, _⟩ := pump_inv h' ho t
      exact ⟨s', h1, h2⟩

theorem reach_inv {P : Act → Prop} {s : State} (h : Reach P s) : Inv s := by
  induction h with
  | init => exact init_inv
  | step _ ha _ hs ih =>
    obtain ⟨s1, h1, h2⟩ := step_inv ih ha
    rw [h1] at hs
    cases hs
    exact h2

end Verif.TimeNotify
