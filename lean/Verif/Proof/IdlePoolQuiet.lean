import Verif.Props.IdlePool

/-!
# The idle pool if destroy functions do nothing to it
-/

namespace Verif.Pool
open Verif.C

theorem bind_inv {α β : Type} {x : M α} {f : α → M β} {b : β} (h : (x >>= f) = .ok b) : ∃ a, x = .ok a ∧ f a = .ok b := by
  cases x with
  | error e => rw [error_bind] at h; cases h
  | ok a => exact ⟨a, rfl, h⟩

/-- The number of the functions of the client -/
def clients (l : List Item) : Nat := l.countP (fun i => !i.self)

/-- Nothing has been called, and nothing has been added. -/
structure Still (s s' : State) : Prop where
  stack : s'.stack = s.stack
  items : s'.items = s.items
  destroys : destroys s'.log = destroys s.log
  adds : adds s'.log = adds s.log

theorem Still.trans {s s1 s2 : State} (h1 : Still s s1) (h2 : Still s1 s2) : Still s s2 :=
  ⟨h2.stack.trans h1.stack, h2.items.trans h1.items, h2.destroys.trans h1.destroys, h2.adds.trans h1.adds⟩

theorem still_drained (s : State) : Still s { s with log := s.log ++ [.drained s.stack.length] } :=
  ⟨rfl, rfl, by rw [destroys_snoc]; simp [destroysOf], by rw [adds_snoc]; simp [addsOf]⟩

theorem still_free {s s' : State} (h : free s = .ok s') : Still s s' := by
  unfold free at h
  split at h
  · cases h; exact ⟨rfl, rfl, rfl, rfl⟩
  · cases h

theorem still_clearCell (s : State) : Still s (clearCell s) := by
  unfold clearCell
  split <;> exact ⟨rfl, rfl, rfl, rfl⟩

theorem still_removeIdle {s s' : State} {id : Nat} (h : removeIdle s id = .ok s') : Still s s' := by
  unfold removeIdle at h
  split at h
  · cases h; exact ⟨rfl, rfl, rfl, rfl⟩
  · split at h
    · split at h
      · cases h
      · split at h
        · have q := (still_clearCell _).trans (still_free h)
          exact ⟨q.1, q.2, q.3, q.4⟩
        · cases h; exact ⟨rfl, rfl, rfl, rfl⟩
    · cases h

theorem still_drainEnd {s s' : State} {cont : State → M State} (h : drainEnd s cont = .ok s') (hc : ∀ s1, s1.items = s.items → cont s1 = .ok s' → Still s1 s') : Still s s' := by
  unfold drainEnd at h
  split at h
  · exact (still_drained s).trans (hc _ rfl h)
  · obtain ⟨s1, h1, h⟩ := bind_inv h
    have q := still_removeIdle h1
    exact (q.trans (still_drained s1)).trans (hc _ q.items h)

theorem still_drainNext {s s' : State} {k : Cont} {cont : State → M State} (hi : s.items = []) (h : drainNext s k cont = .ok s')
    (hc : ∀ s1, s1.items = s.items → cont s1 = .ok s' → Still s1 s') : Still s s' := by
  unfold drainNext at h
  obtain ⟨_, _, h⟩ := bind_inv h
  rw [if_pos hi] at h
  exact still_drainEnd h hc

theorem still_unref {s s' : State} (hi : s.items = []) (h : unref s = .ok s') : Still s s' := by
  unfold unref at h
  obtain ⟨_, _, h⟩ := bind_inv h
  split at h
  · cases h
  · split at h
    · have q0 := still_clearCell { s with refs := 0 }
      have q := still_drainNext (q0.items.trans hi) h (fun s1 _ h1 => still_free h1)
      have q2 := q0.trans q
      exact ⟨q2.1, q2.2, q2.3, q2.4⟩
    · cases h; exact ⟨rfl, rfl, rfl, rfl⟩

theorem still_after {s s' : State} {k : Cont} (hi : s.items = []) (h : after k s = .ok s') : Still s s' := by
  unfold after at h
  split at h
  · cases h; exact ⟨rfl, rfl, rfl, rfl⟩
  · have q := still_unref (s := { s with owned := s.owned - 1 }) hi h
    exact ⟨q.1, q.2, q.3, q.4⟩
  · next src =>
    have q := still_unref (s := { s with live := s.live.erase src }) hi h
    exact ⟨q.1, q.2, q.3, q.4⟩
  · exact still_free h

theorem still_drain {s s' : State} {k : Cont} (hi : s.items = []) (h : drain s k = .ok s') : Still s s' :=
  still_drainNext hi h (fun s1 h1 h2 => still_after (h1.trans hi) h2)

/-- What `proc` has done -/
theorem proc_spec {k : Cont} (l : List Item) : ∀ {s s' : State} {done : Bool}, proc l s k = .ok (s', done) →
    s'.items = s.items ∧ adds s'.log = adds s.log ∧
    ((done = true ∧ clients l = 0 ∧ s'.stack = s.stack ∧ destroys s'.log = destroys s.log ++ l.map Item.id) ∨
     (done = false ∧ ∃ p i t, l = p ++ i :: t ∧ clients l = 1 + clients t ∧ s'.stack = ⟨t, k⟩ :: s.stack ∧ destroys s'.log = destroys s.log ++ (p ++ [i]).map Item.id)) := by
  induction l with
  | nil =>
    intro s s' done h
    cases h
    exact ⟨rfl, rfl, .inl ⟨rfl, rfl, rfl, by simp⟩⟩
  | cons i t ih =>
    intro s s' done h
    rw [proc] at h
    split at h
    · next hs =>
      split at h
      · cases h
      · obtain ⟨h1, h2, h3⟩ := ih h
        have hc : clients (i :: t) = clients t := by simp [clients, hs]
        have hd : destroys (s.log ++ [.destroy i.id]) = destroys s.log ++ [i.id] := by rw [destroys_snoc]; rfl
        refine ⟨h1, h2.trans (by rw [adds_snoc]; simp [addsOf]), ?_⟩
        rcases h3 with ⟨a, b, c, d⟩ | ⟨a, p, j, u, b, c, d, e⟩
        · exact .inl ⟨a, hc.trans b, c, by rw [d]; dsimp only; rw [hd]; simp⟩
        · exact .inr ⟨a, i :: p, j, u, by rw [b]; rfl, hc.trans c, d, by rw [e]; dsimp only; rw [hd]; simp⟩
    · next hs =>
      cases h
      refine ⟨rfl, by rw [adds_snoc]; simp [addsOf], .inr ⟨rfl, [], i, t, rfl, ?_, rfl, by rw [destroys_snoc]; rfl⟩⟩
      have : i.self = false := by simpa using hs
      simp [clients, this]
      omega

theorem exec_append {a b : List Act} : ∀ {s s1 s2 : State}, exec s a = .ok s1 → exec s1 b = .ok s2 → exec s (a ++ b) = .ok s2 := by
  induction a with
  | nil => intro s s1 s2 h1 h2; cases h1; exact h2
  | cons x t ih =>
    intro s s1 s2 h1 h2
    unfold exec at h1
    rw [List.cons_append]
    unfold exec
    split at h1
    · exact ih h1 h2
    · cases h1

/-- `n` destroy functions return. -/
def Rets (n : Nat) (s s' : State) : Prop := exec s (List.replicate n .ret) = .ok s'

theorem cons_rets {n : Nat} {a : Act} {s s0 s' : State} (h : step s a = .ok s0) (q : Rets n s0 s') : exec s (a :: List.replicate n .ret) = .ok s' := by
  unfold exec
  rw [h]
  exact q

/-- Something to be called, then the end of it -/
theorem top_quiet (n : Nat) : ∀ {s : State} {l : List Item} {k : Cont} {st : List Frame}, clients l = n → Reach any s → s.stack = ⟨l, k⟩ :: st → s.items = [] →
    ∃ s', Rets (n + 1) s s' ∧ Reach any s' ∧ s'.stack = st ∧ s'.items = [] ∧ destroys s'.log = destroys s.log ++ l.map Item.id ∧ adds s'.log = adds s.log := by
  induction n with
  | zero =>
    intro s l k st hn h hs hi
    have ha : Allowed s .ret := by show s.stack ≠ []; rw [hs]; simp
    obtain ⟨s1, e⟩ := C70_safe_partial h ha
    have h1 : Reach any s1 := h.step ha trivial e
    have e0 := e
    have e : ret s = .ok s1 := e
    unfold ret at e
    rw [hs] at e
    obtain ⟨⟨s2, done⟩, e1, e⟩ := bind_inv e
    obtain ⟨q1, q2, q3⟩ := proc_spec _ e1
    rcases q3 with ⟨rfl, _, q4, q5⟩ | ⟨rfl, p, i, t, _, q4, _⟩
    · have e : drain s2 k = .ok s1 := e
      have q := still_drain (q1.trans hi) e
      exact ⟨s1, cons_rets (n := 0) e0 rfl, h1, q.stack.trans q4, q.items.trans (q1.trans hi), q.destroys.trans q5, q.adds.trans q2⟩
    · dsimp only at q4; omega
  | succ n ih =>
    intro s l k st hn h hs hi
    have ha : Allowed s .ret := by show s.stack ≠ []; rw [hs]; simp
    obtain ⟨s1, e⟩ := C70_safe_partial h ha
    have h1 : Reach any s1 := h.step ha trivial e
    have e0 := e
    have e : ret s = .ok s1 := e
    unfold ret at e
    rw [hs] at e
    obtain ⟨⟨s2, done⟩, e1, e⟩ := bind_inv e
    obtain ⟨q1, q2, q3⟩ := proc_spec _ e1
    rcases q3 with ⟨rfl, q4, _⟩ | ⟨rfl, p, i, t, q4, q5, q6, q7⟩
    · dsimp only at q4; omega
    · have e : (.ok s2 : M State) = .ok s1 := e
      cases e
      dsimp only at q4 q5
      obtain ⟨s', r1, r2, r3, r4, r5, r6⟩ := ih (by omega) h1 q6 (q1.trans hi)
      refine ⟨s', cons_rets e0 r1, r2, r3, r4, ?_, r6.trans q2⟩
      rw [r5, q7, q4]
      simp

/-- `gutil_idle_pool_drain` with something following it -/
theorem drainNext_spec {s s' : State} {k : Cont} {cont : State → M State} (h : drainNext s k cont = .ok s') (hc : ∀ s1, s1.items = [] → cont s1 = .ok s' → Still s1 s') :
    s'.items = [] ∧ adds s'.log = adds s.log ∧
    ((clients s.items = 0 ∧ s'.stack = s.stack ∧ destroys s'.log = destroys s.log ++ s.items.map Item.id) ∨
     (∃ p i t, s.items = p ++ i :: t ∧ clients s.items = 1 + clients t ∧ s'.stack = ⟨t, k⟩ :: s.stack ∧ destroys s'.log = destroys s.log ++ (p ++ [i]).map Item.id)) := by
  cases hi : s.items with
  | nil =>
    have q := still_drainNext hi h (fun s1 h1 h2 => hc s1 (h1.trans hi) h2)
    exact ⟨q.items.trans hi, q.adds, .inl ⟨rfl, q.stack, by rw [q.destroys]; simp⟩⟩
  | cons a b =>
    unfold drainNext at h
    obtain ⟨_, _, h⟩ := bind_inv h
    rw [if_neg (by rw [hi]; simp)] at h
    obtain ⟨⟨s2, done⟩, e1, h⟩ := bind_inv h
    obtain ⟨q1, q2, q3⟩ := proc_spec _ e1
    rw [← hi]
    rcases q3 with ⟨rfl, q4, q5, q6⟩ | ⟨rfl, p, i, t, q4, q5, q6, q7⟩
    · dsimp only at h q1
      rw [if_pos rfl, if_pos q1] at h
      have q := still_drainEnd h (fun s1 h1 h2 => hc s1 (h1.trans q1) h2)
      exact ⟨q.items.trans q1, q.adds.trans q2, .inl ⟨q4, q.stack.trans q5, q.destroys.trans q6⟩⟩
    · have h : (.ok s2 : M State) = .ok s' := h
      cases h
      exact ⟨q1, q2, .inr ⟨p, i, t, q4, q5, q6, q7⟩⟩

/-- From the beginning to the end -/
theorem quiet {s s0 : State} {a : Act} (h : Reach any s) (ha : Allowed s a) (e : step s a = .ok s0)
    (hq : s0.items = [] ∧ adds s0.log = adds s.log ∧
    ((clients s.items = 0 ∧ s0.stack = s.stack ∧ destroys s0.log = destroys s.log ++ s.items.map Item.id) ∨
     (∃ k p i t, s.items = p ++ i :: t ∧ clients s.items = 1 + clients t ∧ s0.stack = ⟨t, k⟩ :: s.stack ∧ destroys s0.log = destroys s.log ++ (p ++ [i]).map Item.id))) :
    ∃ s', exec s (a :: List.replicate (clients s.items) .ret) = .ok s' ∧ Reach any s' ∧ s'.stack = s.stack ∧ s'.items = [] ∧
      destroys s'.log = destroys s.log ++ s.items.map Item.id ∧ adds s'.log = adds s.log := by
  have h0 : Reach any s0 := h.step ha trivial e
  obtain ⟨h1, h2, h3⟩ := hq
  rcases h3 with ⟨h4, h5, h6⟩ | ⟨k, p, i, t, h4, h5, h6, h7⟩
  · exact ⟨s0, cons_rets e (by rw [h4]; rfl), h0, h5, h1, h6, h2⟩
  · obtain ⟨s', r1, r2, r3, r4, r5, r6⟩ := top_quiet _ rfl h0 h6 h1
    refine ⟨s', cons_rets e ?_, r2, r3, r4, ?_, r6.trans h2⟩
    · rw [h5, Nat.add_comm]; exact r1
    · rw [r5, h7, h4]; simp

end Verif.Pool
