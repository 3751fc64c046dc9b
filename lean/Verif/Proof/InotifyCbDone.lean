import Verif.Proof.InotifyCb

/-!
# Handlers of inotify watches: ids are never reused, and events get handled
-/

namespace Verif.InotifyCb
open Verif.C
open Verif.Inotify (Ev Watch)

theorem emission_conn {s : State} {id w : Nat} : Event.connected id w ∈ (emission s).log ↔ Event.connected id w ∈ s.log := by
  unfold emission
  split <;> simp

theorem emission_nextId {s : State} : (emission s).nextId = s.nextId := by
  unfold emission
  split <;> rfl

theorem addHandler_eff {s s' : State} {w n : Nat} {fn : Bool} (e : addHandler s w fn = .ok (n, s')) :
    if fn then n = s.nextId ∧ s'.nextId = s.nextId + 1 ∧ s'.log = s.log ++ [.connected s.nextId w] else s' = s := by
  unfold addHandler at e
  cases fn with
  | false => cases e; rfl
  | true =>
    rw [if_pos rfl] at e
    obtain ⟨x, _, e⟩ := Inotify.bind_ok' e
    cases e
    exact ⟨rfl, rfl, rfl⟩

theorem removeHandler_eff {s s' : State} {w id : Nat} (e : removeHandler s w id = .ok s') :
    s'.nextId = s.nextId ∧ s'.log = s.log ++ (if id = 0 then [] else [.disconnected id]) := by
  unfold removeHandler at e
  split at e
  · next h => cases e; simp [h]
  · next h =>
    obtain ⟨x, _, e⟩ := Inotify.bind_ok' e
    split at e
    · cases e; simp [h]
    · cases e

/-- The ids in the history are those which have been given out. -/
def Old (s : State) : Prop := ∀ id w, Event.connected id w ∈ s.log → id < s.nextId

theorem old_add {s s' : State} {w n : Nat} {fn : Bool} (h : Old s) (e : addHandler s w fn = .ok (n, s')) : Old s' := by
  have q := addHandler_eff e
  cases fn with
  | false => rw [if_neg (by simp)] at q; rw [q]; exact h
  | true =>
    obtain ⟨_, q1, q2⟩ := q
    intro id v hm
    rw [q2] at hm
    rw [q1]
    rcases List.mem_append.mp hm with hm | hm
    · have := h id v hm; omega
    · simp only [List.mem_singleton, Event.connected.injEq] at hm; omega

theorem old_step {s s' : State} {a : Act} (h : Old s) (e : step s a = .ok s') : Old s' := by
  have ino : ∀ a, (∀ n, a ≠ .dispatch n) → step s (.ino a) = .ok s' → Old s' := by
    intro a ha e
    have : ∃ i, s' = { s with ino := i } := by
      cases a <;> first
        | exact absurd rfl (ha _)
        | (obtain ⟨i, _, e⟩ := Inotify.bind_ok' e; cases e; exact ⟨_, rfl⟩)
    obtain ⟨i, rfl⟩ := this
    exact h
  cases a with
  | ino a =>
    by_cases hd : ∃ n, a = .dispatch n
    · obtain ⟨n, rfl⟩ := hd
      obtain ⟨i, _, e⟩ := Inotify.bind_ok' e
      cases e
      intro id w hm
      rw [emission_conn] at hm
      rw [emission_nextId]
      exact h id w hm
    · exact ino a (fun n hn => hd ⟨n, hn⟩) e
  | addHandler w fn =>
    obtain ⟨⟨n, s1⟩, e1, e⟩ := Inotify.bind_ok' e
    cases e
    exact old_add h e1
  | removeHandler w id =>
    have q := removeHandler_eff e
    intro i v hm
    rw [q.2] at hm
    rw [q.1]
    rcases List.mem_append.mp hm with hm | hm
    · exact h i v hm
    · split at hm <;> simp at hm
  | callbackNew file mask fd fn =>
    rw [step, callbackNew] at e
    obtain ⟨i, _, e⟩ := Inotify.bind_ok' e
    obtain ⟨⟨n, s1⟩, e1, e⟩ := Inotify.bind_ok' e
    cases e
    have q := old_add (s := { s with ino := i }) h e1
    exact q
  | callbackFree c =>
    rw [step, callbackFree] at e
    split at e
    · cases e
    · cases e
    · obtain ⟨s1, e1, e⟩ := Inotify.bind_ok' e
      obtain ⟨i, _, e⟩ := Inotify.bind_ok' e
      cases e
      have q := removeHandler_eff e1
      intro i v hm
      dsimp only at hm ⊢
      rw [q.2] at hm
      rw [q.1]
      rcases List.mem_append.mp hm with hm | hm
      · exact h i v hm
      · split at hm <;> simp at hm
  | next =>
    rw [step, next] at e
    split at e
    · cases e
    · obtain ⟨i, _, e⟩ := Inotify.bind_ok' e
      cases e
      intro id w hm
      rw [emission_conn] at hm
      rw [emission_nextId]
      exact h id w (by simpa using hm)
    · split at e
      · cases e
        intro id w hm
        exact h id w (by simpa using hm)
      · cases e
        exact h
  | ret =>
    cases e
    exact h

theorem reach_old {s : State} (h : Reach s) : Old s := by
  induction h with
  | init foreign hn => intro id w hm; cases hm
  | step _ _ e ih => exact old_step ih e

/-! ## Progress -/

theorem proc_shorter {id : Nat} {l : List (Nat × Ev)} : ∀ {s s' : Inotify.State}, s.frame = none → Inotify.proc none s id l = .ok s' →
    s'.frame = none ∨ ∃ w t, s'.frame = some (w, t) ∧ t.length < l.length := by
  induction l with
  | nil =>
    intro s s' hf e
    rw [Inotify.proc] at e
    exact .inl ((Inotify.quiet_unrefInst e).frame.trans hf)
  | cons x l ih =>
    intro s s' hf e
    obtain ⟨wd, ev⟩ := x
    rw [Inotify.proc] at e
    obtain ⟨i, _, e⟩ := Inotify.bind_ok' e
    split at e
    · rcases ih hf e with q | ⟨w, t, q, hl⟩
      · exact .inl q
      · exact .inr ⟨w, t, q, by rw [List.length_cons]; omega⟩
    · obtain ⟨s1, _, e⟩ := Inotify.bind_ok' e
      cases e
      exact .inr ⟨_, _, rfl, by simp⟩

theorem ret_shorter {s s' : Inotify.State} {w : Nat} {t : List (Nat × Ev)} (hf : s.frame = some (w, t)) (e : Inotify.step none s .ret = .ok s') :
    s'.frame = none ∨ ∃ w' t', s'.frame = some (w', t') ∧ t'.length < t.length := by
  rw [Inotify.step, Inotify.ret, hf] at e
  split at e
  · next heq _ =>
    cases heq
    obtain ⟨s1, e1, e⟩ := Inotify.bind_ok' e
    exact proc_shorter (Inotify.quiet_unrefWatch e1).frame e
  · cases e

/-- What the library does, and handlers returning -/
def Goes (a : Act) : Prop := a = .next ∨ a = .ret

theorem goes_on : ∀ (n m : Nat) {s : State} {w : Nat} {ev : Ev} {l : List Nat} {t : List (Nat × Ev)}, Reach s → s.emit = some (w, ev, l) →
    s.ino.frame = some (w, t) → t.length ≤ n → l.length ≤ m →
    ∃ (as : List Act) (s' : State), (∀ a ∈ as, Goes a) ∧ legal s as = true ∧ exec s as = .ok s' ∧ s'.emit = none ∧ s'.client = true := by
  intro n
  induction n using Nat.strongRecOn with
  | _ n ihn =>
  intro m
  induction m with
  | zero =>
    intro s w ev l t h he hf hn hm
    have hl : l = [] := List.eq_nil_of_length_eq_zero (by omega)
    subst hl
    -- The library is in control
    have main : ∀ {s : State}, Reach s → s.emit = some (w, ev, []) → s.ino.frame = some (w, t) → s.client = false →
        ∃ (as : List Act) (s' : State), (∀ a ∈ as, Goes a) ∧ legal s as = true ∧ exec s as = .ok s' ∧ s'.emit = none ∧ s'.client = true := by
      intro s h he hf hc
      have ha : Allowed s .next := hc
      obtain ⟨s1, e1, h1⟩ := inv_step (reach_inv h) ha
      have r1 : Reach s1 := .step h ha e1
      have e2 := e1
      rw [step, next, he] at e2
      obtain ⟨i, e3, e2⟩ := Inotify.bind_ok' e2
      have first : ∀ as, legal s (.next :: as) = legal s1 as ∧ exec s (.next :: as) = exec s1 as := by
        intro as
        rw [legal, if_pos ha, exec, e1]
        exact ⟨rfl, rfl⟩
      rcases ret_shorter hf e3 with q | ⟨w', t', q, hlt⟩
      · refine ⟨[.next], s1, by simp [Goes], (first []).1, (first []).2, ?_⟩
        cases e2
        unfold emission
        dsimp only
        rw [q]
        exact ⟨rfl, rfl⟩
      · have he1 : s1.emit = some (w', Verif.InotifyCb.event i, handlers s.conns w') ∧ s1.ino.frame = some (w', t') := by
          cases e2
          unfold emission
          dsimp only
          rw [q]
          exact ⟨rfl, q⟩
        obtain ⟨as, s', g1, g2, g3, g4⟩ := ihn t'.length (by omega) _ r1 he1.1 he1.2 (Nat.le_refl _) (Nat.le_refl _)
        refine ⟨.next :: as, s', ?_, (first as).1.trans g2, (first as).2.trans g3, g4⟩
        intro a ham
        rcases List.mem_cons.mp ham with rfl | ham
        · exact .inl rfl
        · exact g1 a ham
    by_cases hc : s.client = false
    · exact main h he hf hc
    · have hc : s.client = true := by simpa using hc
      have ha : Allowed s .ret := ⟨hc, by rw [he]; simp⟩
      have r1 : Reach { s with client := false } := .step h ha rfl
      obtain ⟨as, s', g1, g2, g3, g4⟩ := main r1 he hf rfl
      refine ⟨.ret :: as, s', ?_, ?_, g3, g4⟩
      · intro a ham
        rcases List.mem_cons.mp ham with rfl | ham
        · exact .inr rfl
        · exact g1 a ham
      · rw [legal, if_pos ha]; exact g2
  | succ m ihm =>
    intro s w ev l t h he hf hn hm
    cases l with
    | nil => exact ihm h he hf hn (Nat.zero_le _)
    | cons id l =>
    have main : ∀ {s : State}, Reach s → s.emit = some (w, ev, id :: l) → s.ino.frame = some (w, t) → s.client = false →
        ∃ (as : List Act) (s' : State), (∀ a ∈ as, Goes a) ∧ legal s as = true ∧ exec s as = .ok s' ∧ s'.emit = none ∧ s'.client = true := by
      intro s h he hf hc
      have ha : Allowed s .next := hc
      obtain ⟨s1, e1, h1⟩ := inv_step (reach_inv h) ha
      have r1 : Reach s1 := .step h ha e1
      have e2 := e1
      rw [step, next, he] at e2
      have he1 : s1.emit = some (w, ev, l) ∧ s1.ino.frame = some (w, t) := by
        dsimp only at e2
        split at e2 <;> cases e2 <;> exact ⟨rfl, hf⟩
      obtain ⟨as, s', g1, g2, g3, g4⟩ := ihm r1 he1.1 he1.2 hn (by rw [List.length_cons] at hm; omega)
      refine ⟨.next :: as, s', ?_, ?_, ?_, g4⟩
      · intro a ham
        rcases List.mem_cons.mp ham with rfl | ham
        · exact .inl rfl
        · exact g1 a ham
      · rw [legal, if_pos ha, e1]; exact g2
      · rw [exec, e1]; exact g3
    by_cases hc : s.client = false
    · exact main h he hf hc
    · have hc : s.client = true := by simpa using hc
      have ha : Allowed s .ret := ⟨hc, by rw [he]; simp⟩
      have r1 : Reach { s with client := false } := .step h ha rfl
      obtain ⟨as, s', g1, g2, g3, g4⟩ := main r1 he hf rfl
      refine ⟨.ret :: as, s', ?_, ?_, g3, g4⟩
      · intro a ham
        rcases List.mem_cons.mp ham with rfl | ham
        · exact .inr rfl
        · exact g1 a ham
      · rw [legal, if_pos ha]; exact g2

end Verif.InotifyCb
