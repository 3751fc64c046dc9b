import Verif.Props.IdlePoolQuiet

/-!
# The order in which an idle pool destroys its items (C70)
-/

namespace Verif.Pool
open Verif.C

/-- What's left to be done by the drains which are waiting for their destroy functions to return, beginning with the one which
was the first to be called -/
def leftovers (stack : List Frame) : List Nat := (stack.reverse.flatMap Frame.rest).map Item.id

/-- The drains which the given action isn't a part of. It's all of those which are waiting for their destroy functions, except that
a destroy function returns to the last one. -/
def outer (s : State) (a : Act) : List Frame :=
  match a with
  | .ret => s.stack.tail
  | _ => s.stack

/-- Everything that hasn't been destroyed yet -/
def line (s : State) : List Nat := leftovers s.stack ++ s.items.map Item.id

theorem leftovers_cons (f : Frame) (st : List Frame) : leftovers (f :: st) = leftovers st ++ f.rest.map Item.id := by
  unfold leftovers
  simp

/-- Something has been destroyed, beginning with what comes right after the items of the outer drains. -/
def Eff (o : List Frame) (s s' : State) : Prop :=
  ∃ d m, destroys s'.log = destroys s.log ++ d ∧ adds s'.log = adds s.log ∧ line s = leftovers o ++ (d ++ m) ∧ line s' = leftovers o ++ m

theorem eff_still {s s' : State} (h : Still s s') : Eff s.stack s s' :=
  ⟨[], s.items.map Item.id, by rw [h.destroys]; simp, h.adds, rfl, by unfold line; rw [h.stack, h.items]⟩

theorem eff_drain {s s' : State} {k : Cont} {cont : State → M State} (h : drainNext s k cont = .ok s') (hc : ∀ s1, s1.items = [] → cont s1 = .ok s' → Still s1 s') :
    Eff s.stack s s' := by
  obtain ⟨h1, h2, h3⟩ := drainNext_spec h hc
  rcases h3 with ⟨_, h4, h5⟩ | ⟨p, i, t, h4, _, h5, h6⟩
  · exact ⟨s.items.map Item.id, [], h5, h2, by simp [line], by simp [line, h4, h1]⟩
  · exact ⟨(p ++ [i]).map Item.id, t.map Item.id, h6, h2, by simp [line, h4], by simp [line, h5, h1, leftovers_cons]⟩

theorem eff_same {s0 s s' : State} {o : List Frame} (h : Eff o s s') (h1 : s.stack = s0.stack) (h2 : s.items = s0.items) (h3 : destroys s.log = destroys s0.log)
    (h4 : adds s.log = adds s0.log) : Eff o s0 s' := by
  obtain ⟨d, m, e1, e2, e3, e4⟩ := h
  exact ⟨d, m, by rw [e1, h3], by rw [e2, h4], by rw [← e3]; simp [line, h1, h2], e4⟩

theorem eff_unref {s s' : State} (h : unref s = .ok s') : Eff s.stack s s' := by
  unfold unref at h
  obtain ⟨_, _, h⟩ := bind_inv h
  split at h
  · cases h
  · split at h
    · have q := still_clearCell { s with refs := 0 }
      have := eff_drain h (fun s1 _ h => still_free h)
      rw [q.stack] at this
      exact eff_same this q.stack q.items q.destroys q.adds
    · cases h
      exact eff_still ⟨rfl, rfl, rfl, rfl⟩

theorem eff_step {s s' : State} {a : Act} (hadd : a ≠ .add) (h : step s a = .ok s') : Eff (outer s a) s s' := by
  cases a with
  | add => exact absurd rfl hadd
  | ref =>
    obtain ⟨_, _, h⟩ := bind_inv h
    cases h
    exact eff_still ⟨rfl, rfl, rfl, rfl⟩
  | unref => exact eff_same (eff_unref (s := { s with owned := s.owned - 1 }) h) rfl rfl rfl rfl
  | drain => exact eff_drain (k := .ret) h (fun s1 hi h => still_after hi h)
  | destroy => exact eff_drain (k := .destroy) h (fun s1 hi h => still_after hi h)
  | dispatch src right =>
    obtain ⟨_, _, h⟩ := bind_inv h
    split at h
    · exact eff_same (eff_drain (s := { s with idle := none }) (k := .idle src) h (fun s1 hi h => still_after hi h)) rfl rfl rfl rfl
    · exact eff_same (eff_unref (s := { s with idle := none, live := s.live.erase src }) h) rfl rfl rfl rfl
  | ret =>
    have h : ret s = .ok s' := h
    unfold ret at h
    split at h
    · cases h
    · rename_i f st hs
      obtain ⟨⟨s2, done⟩, e1, h⟩ := bind_inv h
      obtain ⟨q1, q2, q3⟩ := proc_spec _ e1
      dsimp only at q1 q2 q3 h
      show Eff s.stack.tail s s'
      rw [hs, List.tail_cons]
      have hline : line s = leftovers st ++ (f.rest.map Item.id ++ s.items.map Item.id) := by
        unfold line
        rw [hs, leftovers_cons, List.append_assoc]
      rcases q3 with ⟨rfl, _, q4, q5⟩ | ⟨rfl, p, i, t, q4, _, q6, q7⟩
      · have h : drainNext s2 f.cont (after f.cont) = .ok s' := h
        obtain ⟨d, m, e1, e2, e3, e4⟩ := eff_drain h (fun s1 hi h => still_after hi h)
        rw [q4] at e3 e4
        refine ⟨f.rest.map Item.id ++ d, m, by rw [e1, q5, List.append_assoc], e2.trans q2, ?_, e4⟩
        unfold line at e3
        rw [q4, q1] at e3
        have := List.append_cancel_left e3
        rw [hline, this, List.append_assoc]
      · have h : (.ok s2 : M State) = .ok s' := h
        cases h
        refine ⟨(p ++ [i]).map Item.id, t.map Item.id ++ s.items.map Item.id, q7, q2, ?_, ?_⟩
        · rw [hline, q4]
          simp
        · unfold line
          rw [q6, leftovers_cons, q1, List.append_assoc]
  | cell c =>
    cases h
    exact eff_still ⟨rfl, rfl, rfl, rfl⟩

theorem mem_line {s : State} {x : Nat} : x ∈ line s ↔ x ∈ (rests s.stack ++ s.items).map Item.id := by
  unfold line leftovers rests
  simp only [List.map_append, List.mem_append, List.mem_map, List.mem_flatMap, List.mem_reverse]

theorem line_sorted {P : State → Act → Prop} {s : State} (h : Reach P s) : (line s).Pairwise (· < ·) := by
  induction h with
  | new own foreign => simp [line, leftovers, new]
  | shared hs =>
    cases hs
    simp [line, leftovers, schedule, new]
  | @step s s' a h ha hp e ih =>
    have hi := any_inv h
    by_cases hadd : a = .add
    · subst hadd
      have e : (s.access >>= fun _ => add s false) = .ok s' := e
      rw [access_ok (hi.alive (.inr ha)), ok_bind, add, append_last hi.sorted hi.lastEq, ok_bind] at e
      cases e
      have hl : line (schedule { s with items := s.items ++ [⟨s.nextId, false⟩], last := some s.nextId, nextId := s.nextId + 1, log := s.log ++ [.added s.nextId] }) =
          line s ++ [s.nextId] := by
        unfold schedule line
        dsimp only
        split <;> simp
      rw [hl, List.pairwise_append]
      refine ⟨ih, by simp, fun x hx y hy => ?_⟩
      rw [List.mem_singleton] at hy
      subst hy
      exact (hi.hist.mem x).2 (.inr (mem_line.1 hx))
    · obtain ⟨d, m, _, _, e3, e4⟩ := eff_step hadd e
      rw [e3, List.pairwise_append, List.pairwise_append] at ih
      rw [e4, List.pairwise_append]
      exact ⟨ih.1, ih.2.1.2.1, fun x hx y hy => ih.2.2 x hx y (List.mem_append.2 (.inr hy))⟩

/-- The order of destruction, whatever the destroy functions do. The items destroyed by an action (the destroy functions called between two
moments when the client is in control) are destroyed in the order of addition. The earlier items which they overtake are exactly those which
the drains interrupted by this one haven't got to yet: that's the only way in which the order of addition may be broken. -/
theorem C70_order_exactly {s s' : State} {a : Act} (h : Reach any s) (ha : Allowed s a) (e : step s a = .ok s') :
    ∃ d, destroys s'.log = destroys s.log ++ d ∧ d.Pairwise (· < ·) ∧
      ∀ y ∈ d, ∀ x, (x ∈ adds s'.log ∧ x ∉ destroys s'.log ∧ x < y) ↔ x ∈ leftovers (outer s a) := by
  by_cases hadd : a = .add
  · subst hadd
    obtain ⟨id, _, hl, _⟩ := C70_added h ha e
    exact ⟨[], by rw [hl, destroys_snoc]; simp [destroysOf], by simp, by simp⟩
  · have hsort := line_sorted h
    have hsort' := line_sorted (h.step ha trivial e)
    have hi' := any_inv (h.step ha trivial e)
    obtain ⟨d, m, e1, e2, e3, e4⟩ := eff_step hadd e
    rw [e3, List.pairwise_append, List.pairwise_append] at hsort
    obtain ⟨_, ⟨hd, _, hdm⟩, hod⟩ := hsort
    refine ⟨d, e1, hd, fun y hy x => ?_⟩
    have hnd := (List.nodup_append.1 hi'.hist.nodup).2.2
    constructor
    · rintro ⟨h1, h2, h3⟩
      rw [hi'.hist.adds, List.mem_range, hi'.hist.mem] at h1
      rcases h1 with h1 | h1
      · exact absurd h1 h2
      · rw [← mem_line, e4, List.mem_append] at h1
        rcases h1 with h1 | h1
        · exact h1
        · have := hdm y hy x h1
          omega
    · intro hx
      have hl : x ∈ line s' := by rw [e4]; exact List.mem_append.2 (.inl hx)
      refine ⟨?_, fun hc => hnd x hc x (mem_line.1 hl) rfl, hod x hx y (List.mem_append.2 (.inl hy))⟩
      rw [hi'.hist.adds, List.mem_range, hi'.hist.mem]
      exact .inr (mem_line.1 hl)

/-- Three items. The first one's function adds another one and drains the pool: the fourth one is destroyed before the second and the third. -/
example : ∃ s s', Reach any s ∧ Allowed s .drain ∧ step s .drain = .ok s' ∧ destroys s.log = [0] ∧ destroys s'.log = [0, 3] ∧ leftovers (outer s .drain) = [1, 2] := by
  refine ⟨_, _, reach_exec (P := any) (acts := [.add, .add, .add, .drain, .add]) (fun _ _ _ => trivial) (.new false []) (by decide +kernel) rfl, ?_, rfl, ?_⟩ <;> decide +kernel

/-- Everything in its order: an item added by the first function is destroyed after the one which was there already. -/
example : ∃ s s', Reach any s ∧ Allowed s .ret ∧ step s .ret = .ok s' ∧ destroys s.log = [0, 1] ∧ destroys s'.log = [0, 1, 2] ∧ leftovers (outer s .ret) = [] := by
  refine ⟨_, _, reach_exec (P := any) (acts := [.add, .add, .drain, .add, .ret]) (fun _ _ _ => trivial) (.new false []) (by decide +kernel) rfl, ?_, rfl, ?_⟩ <;> decide +kernel

end Verif.Pool
