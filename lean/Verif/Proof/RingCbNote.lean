import Verif.Model.RingCb

/-!
# What is recorded about rings
-/

namespace Verif.RingCb
open Verif.C Verif.Ring
open Verif.Ring.Spec (Ptr Op Out)

theorem note_bind {α β : Type} {x : M α} {f : α → M β} {b : β} (h : (x >>= f) = .ok b) : ∃ a, x = .ok a ∧ f a = .ok b := by
  cases x with
  | error e => cases h
  | ok a => exact ⟨a, rfl, h⟩

/-- Nothing has been recorded. -/
def Same (s s' : State) : Prop := s'.stored = s.stored ∧ s'.taken = s.taken

theorem same_finish (s : State) (m : Option Int) : Same s (finish s m) := by
  cases m <;> exact ⟨rfl, rfl⟩

theorem same_clearIter {s s' : State} {f n : Nat} {m : Option Int} (h : clearIter s f n m = .ok s') : Same s s' := by
  obtain ⟨⟨p, r⟩, _, h⟩ := note_bind h
  cases h
  exact ⟨rfl, rfl⟩

theorem same_clear {s s' : State} {m : Option Int} (h : clear s m = .ok s') : Same s s' := by
  obtain ⟨n, _, h⟩ := note_bind h
  split at h
  · split at h
    · exact same_clearIter h
    · cases h
      exact same_finish { s with ring := _ } m
  · cases h
    exact same_finish s m

theorem same_dropIter {s s' : State} {n : Nat} {m : Option Int} (h : dropIter s n m = .ok s') : Same s s' := by
  obtain ⟨p, _, h⟩ := note_bind h
  split at h
  · cases h
    exact ⟨rfl, rfl⟩
  · cases h

theorem same_drop {s s' : State} {n : Int} {m : Option Int} (h : drop s n m = .ok s') : Same s s' := by
  unfold drop at h
  split at h
  · obtain ⟨sz, _, h⟩ := note_bind h
    split at h
    · split at h
      · exact same_clear h
      · split at h
        · exact same_dropIter h
        · obtain ⟨_, _, h⟩ := note_bind h
          obtain ⟨_, _, h⟩ := note_bind h
          cases h
          exact same_finish { s with ring := _ } m
    · cases h
      exact same_finish s m
  · cases h
    exact same_finish s m

theorem same_dropLastIter {s s' : State} {n : Nat} (h : dropLastIter s n = .ok s') : Same s s' := by
  obtain ⟨_, _, h⟩ := note_bind h
  obtain ⟨_, _, h⟩ := note_bind h
  obtain ⟨_, _, h⟩ := note_bind h
  split at h
  · cases h
    exact ⟨rfl, rfl⟩
  · cases h

theorem same_dropLast {s s' : State} {n : Int} (h : dropLast s n = .ok s') : Same s s' := by
  unfold dropLast at h
  split at h
  · obtain ⟨sz, _, h⟩ := note_bind h
    split at h
    · split at h
      · exact same_clear h
      · split at h
        · exact same_dropLastIter h
        · obtain ⟨_, _, h⟩ := note_bind h
          obtain ⟨_, _, h⟩ := note_bind h
          cases h
          exact ⟨rfl, rfl⟩
    · cases h
      exact ⟨rfl, rfl⟩
  · cases h
    exact ⟨rfl, rfl⟩

theorem same_unrefIter {s s' : State} {i n : Nat} (h : unrefIter s i n = .ok s') : Same s s' := by
  obtain ⟨_, _, h⟩ := note_bind h
  obtain ⟨_, _, h⟩ := note_bind h
  obtain ⟨_, _, h⟩ := note_bind h
  split at h
  · cases h
    exact ⟨rfl, rfl⟩
  · cases h

theorem same_unref {s s' : State} (h : unref s = .ok s') : Same s s' := by
  unfold unref at h
  split at h
  · dsimp only at h
    split at h
    · obtain ⟨_, _, h⟩ := note_bind h
      split at h
      · have q := same_unrefIter h
        exact q
      · cases h
        exact ⟨rfl, rfl⟩
    · cases h
      exact ⟨rfl, rfl⟩
  · cases h
    exact ⟨rfl, rfl⟩

theorem same_setMaxSize {s s' : State} {n : Int} (h : setMaxSize s n = .ok s') : Same s s' := by
  unfold setMaxSize at h
  generalize hm : (if n < 0 then (-1 : Int) else n) = m at h
  dsimp only at h
  split at h
  · obtain ⟨_, _, h⟩ := note_bind h
    split at h
    · exact same_drop h
    · cases h
      exact same_finish s (some m)
  · cases h
    exact ⟨rfl, rfl⟩

theorem same_ret {s s' : State} (h : ret s = .ok s') : Same s s' := by
  unfold ret at h
  split at h
  · cases h
  · split at h
    · cases h
    · dsimp only at h
      obtain ⟨_, _, h⟩ := note_bind h
      split at h
      · have q := same_clearIter h
        exact q
      · cases h
        have q := same_finish
        exact q _ _
  · split at h
    · cases h
    · obtain ⟨_, _, h⟩ := note_bind h
      obtain ⟨_, _, h⟩ := note_bind h
      dsimp only at h
      split at h
      · have q := same_dropIter h
        exact q
      · cases h
        have q := same_finish
        exact q _ _
  · split at h
    · cases h
    · dsimp only at h
      split at h
      · have q := same_dropLastIter h
        exact q
      · cases h
        exact ⟨rfl, rfl⟩
  · dsimp only at h
    split at h
    · have q := same_unrefIter h
      exact q
    · cases h
      exact ⟨rfl, rfl⟩

/-- What a call adds to the records, the result being as in the plain model. -/
theorem recorded {s s' : State} {a : Act} (h : step s a = .ok s') :
    match a with
    | .call (.put p) => ∃ o, (∃ r, Ring.exec s.ring (.put p) = .ok (o, r)) ∧ s'.stored = s.stored ++ (if o = .bool true then [p] else []) ∧ s'.taken = s.taken
    | .call (.putFront p) =>
      ∃ o, (∃ r, Ring.exec s.ring (.putFront p) = .ok (o, r)) ∧ s'.stored = s.stored ++ (if o = .bool true then [p] else []) ∧ s'.taken = s.taken
    | .call .get => ∃ p, (∃ r, Ring.exec s.ring .get = .ok (.ptr p, r)) ∧ s'.taken = s.taken ++ (if p = 0 then [] else [p]) ∧ s'.stored = s.stored
    | .call .getLast => ∃ p, (∃ r, Ring.exec s.ring .getLast = .ok (.ptr p, r)) ∧ s'.taken = s.taken ++ (if p = 0 then [] else [p]) ∧ s'.stored = s.stored
    | _ => s'.stored = s.stored ∧ s'.taken = s.taken := by
  cases a with
  | ret => exact same_ret h
  | call op =>
    have alive : s.ring.refCount ≠ 0 := by
      intro h0
      rw [step] at h
      unfold call at h
      rw [if_pos h0] at h
      cases h
    have h : call s op = .ok s' := h
    unfold call at h
    rw [if_neg alive] at h
    · have plain : ∀ {op' : Op}, (∀ p, op' ≠ .put p) → (∀ p, op' ≠ .putFront p) → op' ≠ .get → op' ≠ .getLast → ∀ o r, Same s (note s r op' o) := by
        intro op' h1 h2 h3 h4 o r
        cases op' <;> first
          | exact absurd rfl (h1 _)
          | exact absurd rfl (h2 _)
          | exact absurd rfl h3
          | exact absurd rfl h4
          | exact ⟨rfl, rfl⟩
      cases op with
      | clear => exact same_clear h
      | drop n => exact same_drop h
      | dropLast n => exact same_dropLast h
      | setMaxSize n => exact same_setMaxSize h
      | unref => exact same_unref h
      | put p =>
        obtain ⟨⟨o, r⟩, e, h⟩ := note_bind h
        cases h
        refine ⟨o, ⟨r, e⟩, ?_⟩
        cases o with
        | bool b => cases b <;> simp [note]
        | _ => simp [note]
      | putFront p =>
        obtain ⟨⟨o, r⟩, e, h⟩ := note_bind h
        cases h
        refine ⟨o, ⟨r, e⟩, ?_⟩
        cases o with
        | bool b => cases b <;> simp [note]
        | _ => simp [note]
      | get =>
        obtain ⟨⟨o, r⟩, e, h⟩ := note_bind h
        cases h
        have e2 := e
        rw [Ring.exec, if_neg alive] at e2
        obtain ⟨⟨p, r1⟩, _, e2⟩ := note_bind e2
        cases e2
        refine ⟨p, ⟨_, e⟩, ?_⟩
        by_cases hp : p = 0 <;> simp [note, hp]
      | getLast =>
        obtain ⟨⟨o, r⟩, e, h⟩ := note_bind h
        cases h
        have e2 := e
        rw [Ring.exec, if_neg alive] at e2
        obtain ⟨⟨p, r1⟩, _, e2⟩ := note_bind e2
        cases e2
        refine ⟨p, ⟨_, e⟩, ?_⟩
        by_cases hp : p = 0 <;> simp [note, hp]
      | _ =>
        obtain ⟨⟨o, r⟩, e, h⟩ := note_bind h
        cases h
        exact plain (by simp) (by simp) (by simp) (by simp) o r

end Verif.RingCb
