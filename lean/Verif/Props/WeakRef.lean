import Verif.Proof.WeakRef

/-!
# Properties of weak references (C76)

`Reach s`: the state `s` can be reached by creating a weak reference and following the rules (`Allowed`), `s.log` is the history.
-/

namespace Verif.Weak
open Verif.C

/-- The program creates two objects, drops one, and gets the other one from the weak reference. -/
theorem sample : ∃ s, Reach s ∧ s.log = [.set none, .create 0, .create 1, .set (some 0), .unref 0, .set (some 1), .got (some 1)] ∧
    s.objs = [0, 2] ∧ s.owned = 1 := by
  have h0 : Reach _ := .new (n := 0) (o := none) (by simp) rfl
  have h1 := h0.step (a := .objNew) (by decide) rfl
  have h2 := h1.step (a := .objNew) (by decide) rfl
  have h3 := h2.step (a := .set (some 0)) (by decide) rfl
  have h4 := h3.step (a := .objUnref 0) (by decide) rfl
  have h5 := h4.step (a := .set (some 1)) (by decide) rfl
  have h6 := h5.step (a := .get) (by decide) rfl
  exact ⟨_, h6, rfl, rfl, rfl⟩

/-- What's returned is the object which was assigned to the weak reference the last time if the program is still
holding references to it, and `NULL` if there are none. What's returned is one more reference. -/
theorem C76_get {s : State} (h : Reach s) (ho : 0 < s.owned) :
    ∃ s' r, get s = .ok (s', r) ∧ s'.log = s.log ++ [.got r] ∧
      ∀ o, r = some o ↔ lastSet s.log = some o ∧ 0 < strong o s.log := by
  have h1 := reach_inv h
  obtain ⟨s', e, _, h2⟩ := get_eq h1 ho
  refine ⟨s', _, e, h2, fun o => ?_⟩
  rw [h1.last (h1.aliveIff.2 ho), ← h1.count]
  constructor <;> rintro ⟨a, b⟩ <;> exact ⟨a, by omega⟩

example : ∃ s, Reach s ∧ 0 < s.owned ∧ lastSet s.log = some 1 ∧ 0 < strong 1 s.log := by
  obtain ⟨s, h, e, _, e2⟩ := sample
  exact ⟨s, h, by omega, by rw [e]; rfl, by rw [e]; decide⟩

/-- Objects exist exactly as long as the program is holding references to them: weak references don't count. -/
theorem C76_weak {s : State} (h : Reach s) (o : Nat) : (s.objs.getD o 0 : Int) = strong o s.log := (reach_inv h).count o

/-- The object which the weak reference points to can go away. -/
example : ∃ s, Reach s ∧ s.objs = [0] ∧ lastSet s.log = some 0 ∧ s.alive = true := by
  have h0 : Reach _ := .new (n := 0) (o := none) (by simp) rfl
  have h1 := h0.step (a := .objNew) (by decide) rfl
  have h2 := h1.step (a := .set (some 0)) (by decide) rfl
  have h3 := h2.step (a := .objUnref 0) (by decide) rfl
  exact ⟨_, h3, rfl, rfl, rfl⟩

/-- Creating a weak reference always succeeds. -/
theorem C76_new {n : Nat} {o : Option Nat} (ho : ∀ x, o = some x → x < n) :
    ∃ s, new (List.replicate n 1) ((List.range n).map Event.create) o = .ok s ∧ s.owned = 1 := by
  unfold new weakSet
  cases o with
  | none => exact ⟨_, rfl, rfl⟩
  | some y =>
    have e : (List.replicate n 1)[y]? = some 1 := by simp [ho y rfl]
    dsimp only
    rw [e]
    exact ⟨_, rfl, rfl⟩

example : ∃ s, new (List.replicate 3 1) ((List.range 3).map Event.create) (some 2) = .ok s ∧ s.target = some 2 := ⟨_, rfl, rfl⟩

/-- The weak reference itself exists exactly as long as there are references to it. -/
theorem C76_lifetime {s : State} (h : Reach s) : s.alive = true ↔ 0 < s.owned := (reach_inv h).aliveIff

/-- Nothing undefined happens if the rules are followed. In particular, objects may outlive the weak reference pointing to them. -/
theorem C76_safe {s : State} {a : Act} (h : Reach s) (ha : Allowed s a) : ∃ s', step s a = .ok s' := by
  obtain ⟨s', e, _⟩ := inv_step (reach_inv h) ha
  exact ⟨s', e⟩

example : ∃ s, Reach s ∧ s.alive = false ∧ lastSet s.log = some 0 ∧ Allowed s (.objUnref 0) := by
  have h0 : Reach _ := .new (n := 0) (o := none) (by simp) rfl
  have h1 := h0.step (a := .objNew) (by decide) rfl
  have h2 := h1.step (a := .set (some 0)) (by decide) rfl
  have h3 := h2.step (a := .unref) (by decide) rfl
  exact ⟨_, h3, rfl, rfl, by decide⟩

/-- **C76** What each call means for the history, and for the number of references to the weak reference which the program is holding -/
theorem C76_recorded {s s' : State} {a : Act} (e : step s a = .ok s') :
    (match a with
      | .objNew => s'.log = s.log ++ [.create s.objs.length]
      | .objRef x => s'.log = s.log ++ [.ref x]
      | .objUnref x => s'.log = s.log ++ [.unref x]
      | .get => ∃ r, get s = .ok (s', r) ∧ s'.log = s.log ++ [.got r]
      | .set o => s'.log = s.log ++ [.set o]
      | .ref | .unref => s'.log = s.log) ∧
    s'.owned = match a with
      | .ref => s.owned + 1
      | .unref => s.owned - 1
      | _ => s.owned := by
  cases a with
  | objNew => cases e; exact ⟨rfl, rfl⟩
  | objRef x =>
    unfold step objRef at e
    dsimp only at e
    split at e <;> cases e
    exact ⟨rfl, rfl⟩
  | objUnref x =>
    unfold step objUnref at e
    dsimp only at e
    repeat' split at e
    all_goals cases e
    all_goals exact ⟨rfl, rfl⟩
  | ref =>
    unfold step ref State.access at e
    dsimp only at e
    split at e <;> cases e
    exact ⟨rfl, rfl⟩
  | unref =>
    unfold step unref State.access at e
    dsimp only at e
    split at e
    · rw [ok_bind] at e
      repeat' split at e
      all_goals cases e
      all_goals exact ⟨rfl, rfl⟩
    · cases e
  | get =>
    unfold step at e
    dsimp only at e
    cases hg : get s with
    | error x => rw [hg] at e; cases e
    | ok v =>
      rw [hg] at e
      cases e
      refine ⟨⟨v.2, rfl, ?_⟩, ?_⟩
      all_goals
        unfold get State.access at hg
        split at hg
        · rw [ok_bind] at hg
          repeat' split at hg
          all_goals cases hg
          all_goals rfl
        · cases hg
  | set o =>
    unfold step set weakSet State.access at e
    dsimp only at e
    split at e
    · rw [ok_bind] at e
      repeat' split at e
      all_goals cases e
      all_goals exact ⟨rfl, rfl⟩
    · cases e

example : ∃ s s', Reach s ∧ Allowed s (.set (some 1)) ∧ step s (.set (some 1)) = .ok s' ∧ lastSet s.log = some 0 ∧ lastSet s'.log = some 1 := by
  have h0 : Reach _ := .new (n := 2) (o := some 0) (by decide) rfl
  exact ⟨_, _, h0, by decide, rfl, by decide, by decide⟩

/-- **C76** The weak reference is created pointing to the given object. -/
theorem C76_created {n : Nat} {o : Option Nat} {s : State} (e : new (List.replicate n 1) ((List.range n).map Event.create) o = .ok s) :
    lastSet s.log = o ∧ s.owned = 1 ∧ s.alive = true := by
  have hl : ∀ l : List Event, lastSet (l ++ [.set o]) = o := fun l => lastSet_snoc l _
  unfold new weakSet at e
  repeat' split at e
  all_goals cases e
  all_goals exact ⟨hl _, rfl, rfl⟩

example : ∃ s, new (List.replicate 2 1) ((List.range 2).map Event.create) (some 1) = .ok s := ⟨_, rfl⟩

end Verif.Weak
