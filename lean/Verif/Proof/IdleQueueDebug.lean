import Verif.Props.IdleQueue
import Verif.Model.IdleQueueDebug

namespace Verif.Idle.Debug
open Verif.C

theorem gassert_err {c : Prop} [Decidable c] (h : ¬ c) : gassert c = .error .assertFail := if_neg h

theorem gassert_ok {c : Prop} [Decidable c] (h : c) : gassert c = .ok () := if_pos h

theorem cancelScan_eq : ∀ (items : List Item) (last : Option Nat), cancelScan items last = .ok (Idle.cancelScan items last)
  | [], _ => rfl
  | i :: t, last => by
    rw [cancelScan, Idle.cancelScan]
    by_cases hc : i.completed = true
    · rw [if_pos hc, if_pos hc, gassert_ok hc, ok_bind]
      by_cases hd : i.destroy = true
      · rw [if_pos hd, if_pos hd]
      · rw [if_neg hd, if_neg hd, cancelScan_eq t, ok_bind]
    · rw [if_neg hc, if_neg hc]

theorem cancelLoop_eq (s : State) (b : Nat) (z : Bool) : cancelLoop s b z = Idle.cancelLoop s b z := by
  rw [cancelLoop, cancelScan_eq, ok_bind, Idle.cancelLoop]
  rfl

theorem append_eq {s : State} (h : s.last = s.items.getLast?.map Item.id) (i : Item) :
    append s.items s.last i = Idle.append s.items s.last i := by
  rw [append]
  cases hi : s.items with
  | nil => rw [hi] at h; simp at h; simp [h, gassert, ok_bind]
  | cons a t =>
    rw [hi] at h
    rw [List.getLast?_eq_some_getLast (by simp)] at h
    simp [h, gassert, ok_bind]

theorem removeTag_eq (tag : Nat) : ∀ (items : List Item) (prev : Item) (last : Option Nat),
    (items ≠ [] → last = items.getLast?.map Item.id) → removeTag tag prev items last = .ok (Idle.removeTag tag prev items last)
  | [], _, _, _ => rfl
  | i :: t, prev, last, h => by
    rw [removeTag, Idle.removeTag]
    by_cases hc : i.tag = tag
    · rw [if_pos hc, if_pos hc]
      cases t with
      | nil =>
        have := h (by simp)
        simp at this
        simp [this, gassert, ok_bind]
      | cons a t => simp
    · rw [if_neg hc, if_neg hc, removeTag_eq tag t i last (by
        intro hn
        rw [h (by simp)]
        cases t with
        | nil => exact absurd rfl hn
        | cons a t => simp), ok_bind]
      split <;> simp_all

theorem itemDestroy_eq (s : State) (i : Item) (f : Frame) (k : State → M State) :
    itemDestroy s { i with completed := true } f k = Idle.itemDestroy s i f k := by
  rw [itemDestroy, gassert_ok rfl, ok_bind]; rfl

/-- What's true of the assertions if the queue isn't being used against the rules -/
theorem step_eq {s : State} (h : Inv s) {a : Act} (ha : Allowed s a) :
    step s a =
      if a = .ret ∧ inTagFirst s = true ∧ s.source = none then .error .assertFail else Idle.step s a := by
  have hal : 0 < s.refs → s.alive = true := by
    intro hr
    cases hx : s.alive with
    | true => rfl
    | false => have := (h.dead hx).2.2.2; omega
  have hal' : s.stack ≠ [] → s.alive = true := by
    intro hr
    cases hx : s.alive with
    | true => rfl
    | false => exact absurd (h.dead hx).2.2.1 hr
  cases a with
  | add tag run destroy =>
    rw [if_neg (by simp), step, Idle.step, add, Idle.add, append_eq h.lastEq]
  | cancelTag tag =>
    rw [if_neg (by simp), step, Idle.step]
    congr 1
    have : cancelTag s tag = Idle.cancelTag s tag := by
      unfold cancelTag Idle.cancelTag
      cases hi : s.items with
      | nil => rfl
      | cons i t =>
        dsimp only
        have hsrc : s.source ≠ none := h.sched (by simp [hi])
        by_cases hc : i.tag = tag
        · rw [if_pos hc, if_pos hc, itemDestroy_eq]
          congr 1
          unfold Idle.itemDestroy
          split
          · rfl
          · rw [tagEnd, gassert_ok hsrc, ok_bind]
        · rw [if_neg hc, if_neg hc, removeTag_eq tag t i s.last (by
            intro hn
            rw [h.lastEq, hi]
            cases t with
            | nil => exact absurd rfl hn
            | cons a t => simp), ok_bind]
          cases Idle.removeTag tag i t s.last with
          | none => rfl
          | some x =>
            dsimp only
            rw [itemDestroy_eq]
    rw [this]
  | cancelAll => rw [if_neg (by simp), step, Idle.step, cancelAll, cancelLoop_eq, Idle.cancelAll]
  | ref =>
    have hr : 0 < s.refs := ha
    rw [if_neg (by simp), step, Idle.step, gassert_ok hr, State.access, if_pos (hal hr), ok_bind, ok_bind]
  | unref =>
    have hr : 0 < s.refs := by rcases ha with ha | ha <;> omega
    rw [if_neg (by simp), step, Idle.step, unref, Idle.unref, gassert_ok hr, ok_bind, cancelAll, cancelLoop_eq, Idle.cancelAll]
  | dispatch src => rw [if_neg (by simp), step, Idle.step]
  | ret =>
    show ret s = if _ then _ else Idle.ret s
    unfold ret
    cases hs : s.stack with
    | nil => rw [if_neg (by simp [inTagFirst, hs])]
    | cons f rest =>
      have ha := hal' (by simp [hs])
      cases f with
      | tagFirst i =>
        rw [Idle.ret, hs]
        dsimp only
        rw [State.access, if_pos ha, ok_bind, ok_bind, tagEnd]
        dsimp only
        by_cases hn : s.source = none
        · rw [if_pos ⟨rfl, by simp [inTagFirst, hs, isTagFirst], hn⟩, gassert_err (by simp [hn])]; rfl
        · rw [if_neg (by simp [hn]), gassert_ok hn, ok_bind]
      | all b z i =>
        rw [Idle.ret, hs]
        dsimp only
        rw [if_neg (by simp [inTagFirst, hs, isTagFirst]), cancelLoop_eq]
      | run => rw [if_neg (by simp [inTagFirst, hs, isTagFirst])]
      | runDestroy => rw [if_neg (by simp [inTagFirst, hs, isTagFirst])]
      | tagOther => rw [if_neg (by simp [inTagFirst, hs, isTagFirst])]

theorem bind_elim {α β : Type} {x : M α} {f : α → M β} {b : β} (h : (x >>= f) = .ok b) :
    ∃ a, x = .ok a ∧ f a = .ok b := by
  cases x with
  | error e => cases h
  | ok a => exact ⟨a, rfl, h⟩

theorem CalmReach.reach {s : State} (h : CalmReach s) : Reach s := by
  induction h with
  | new => exact .new
  | step _ ha _ he ih => exact ih.step ha he

/-- None of them is waiting at line 269. -/
def NoTag (s : State) : Prop := ∀ f ∈ s.stack, isTagFirst f = false

theorem runLoop_noTag {s : State} (h : NoTag s) (d src b : Nat) : NoTag (runLoop s d src b) := by
  unfold runLoop
  split
  · split <;> (intro f hf; simp only [List.mem_cons] at hf; rcases hf with rfl | hf; rfl; exact h f hf)
  · unfold runEnd; split <;> exact h

theorem clearSource_stack {s s' : State} (e : s.clearSource = .ok s') : s'.stack = s.stack := by
  unfold State.clearSource at e
  split at e
  · cases e; rfl
  · split at e <;> cases e; rfl

theorem clearIfEmpty_stack {s s' : State} (e : clearIfEmpty s = .ok s') : s'.stack = s.stack := by
  unfold clearIfEmpty at e
  split at e
  · exact clearSource_stack e
  · cases e; rfl

theorem cancelLoop_noTag {s s' : State} (h : NoTag s) {b : Nat} {z : Bool} (e : Idle.cancelLoop s b z = .ok s') : NoTag s' := by
  unfold Idle.cancelLoop at e
  split at e
  · cases e; intro f hf; simp only [List.mem_cons] at hf; rcases hf with rfl | hf; rfl; exact h f hf
  · unfold cancelEnd at e
    obtain ⟨t, e1, e2⟩ := bind_elim e
    cases e2
    intro f hf
    exact h f (by have := clearIfEmpty_stack e1; dsimp only at this hf; rw [this] at hf; exact hf)

/-- One of them may be waiting at line 269, the last one called, and there's a source. -/
def TagTop (s : State) : Prop :=
  NoTag s ∨ ∃ f rest, s.stack = f :: rest ∧ s.source ≠ none ∧ ∀ f ∈ rest, isTagFirst f = false

theorem access_elim {β : Type} {s : State} {f : Unit → M β} {b : β} (h : (s.access >>= f) = .ok b) : f () = .ok b := by
  obtain ⟨_, _, h⟩ := bind_elim h
  exact h

theorem schedule_stack (s : State) : (schedule s).stack = s.stack ∧ ((schedule s).source ≠ none) := by
  unfold schedule
  split
  · rename_i x hx; exact ⟨rfl, by simp [hx]⟩
  · exact ⟨rfl, by simp⟩

theorem NoTag.of_stack {s s' : State} (h : NoTag s) (e : s'.stack = s.stack) : NoTag s' := by
  intro f hf; rw [e] at hf; exact h f hf

theorem itemDestroy_stack {s s' : State} {i : Item} {f : Frame} {k : State → M State}
    (hk : ∀ t t' : State, t.stack = s.stack → k t = .ok t' → t'.stack = s.stack)
    (e : Idle.itemDestroy s i f k = .ok s') :
    (s'.stack = f :: s.stack ∧ s'.source = s.source) ∨ s'.stack = s.stack := by
  unfold Idle.itemDestroy at e
  split at e
  · cases e; exact .inl ⟨rfl, rfl⟩
  · exact .inr (hk { s with log := s.log ++ [.cancel i.id] } _ rfl e)

theorem tagTop_step {s s' : State} {a : Act} (h : Inv s) (ht : TagTop s) (hc : Calm s a)
    (e : Idle.step s a = .ok s') : TagTop s' := by
  have key : NoTag s ∨ inTagFirst s = true := by
    rcases ht with h | ⟨f, rest, hs, _, hr⟩
    · exact .inl h
    · cases hf : isTagFirst f with
      | true => exact .inr (by simp [inTagFirst, hs, hf])
      | false => left; intro g hg; rw [hs, List.mem_cons] at hg; rcases hg with rfl | hg; exact hf; exact hr g hg
  cases a with
  | add tag run destroy =>
    have e := access_elim e
    unfold Idle.add at e
    obtain ⟨items, _, e⟩ := bind_elim e
    cases e
    obtain ⟨h1, h2⟩ := schedule_stack { s with items := items, last := some s.nextId, nextId := s.nextId + 1, log := s.log ++ [.added s.nextId run destroy] }
    rcases ht with ht | ⟨f, rest, hs, _, hr⟩
    · exact .inl (ht.of_stack h1)
    · exact .inr ⟨f, rest, h1.trans hs, h2, hr⟩
  | ref =>
    have e := access_elim e
    cases e
    exact ht
  | ret =>
    replace e : Idle.ret s = .ok s' := e
    left
    cases hs : s.stack with
    | nil => unfold Idle.ret at e; rw [hs] at e; cases e
    | cons f rest =>
      have hr : NoTag { s with stack := rest } := by
        rcases ht with ht | ⟨f', rest', hs', _, hr⟩
        · intro g hg; exact ht g (by rw [hs]; exact List.mem_cons_of_mem _ hg)
        · rw [hs] at hs'; cases hs'; exact hr
      unfold Idle.ret at e
      rw [hs] at e
      cases f with
      | run d src b i =>
        dsimp only at e
        unfold afterRun at e
        split at e
        · cases e; intro f hf; simp only [List.mem_cons] at hf; rcases hf with rfl | hf; rfl; exact hr f hf
        · have e := access_elim e
          cases e
          exact runLoop_noTag hr _ _ _
      | runDestroy d src b i =>
        have e := access_elim e
        cases e
        exact runLoop_noTag hr _ _ _
      | tagFirst i =>
        have e := access_elim e
        exact hr.of_stack (clearIfEmpty_stack e)
      | tagOther i => cases e; exact hr
      | all b z i =>
        have e := access_elim e
        exact cancelLoop_noTag hr e
  | cancelTag tag =>
    have hn : NoTag s := by
      rcases key with h | h
      · exact h
      · rcases hc h with h | h | ⟨_, _, _, h⟩ <;> cases h
    have e := access_elim e
    obtain ⟨⟨s1, b⟩, e1, e2⟩ := bind_elim e
    cases e2
    unfold Idle.cancelTag at e1
    split at e1
    · cases e1; exact .inl hn
    · rename_i i t hi
      split at e1
      · obtain ⟨s2, e3, e4⟩ := bind_elim e1
        cases e4
        rcases itemDestroy_stack (by intro t t' h1 h2; exact (clearIfEmpty_stack h2).trans h1) e3 with ⟨h1, h2⟩ | h1
        · right
          refine ⟨_, _, h1, ?_, hn⟩
          rw [h2]
          exact h.sched (by rw [hi]; simp)
        · exact .inl (hn.of_stack h1)
      · split at e1
        · obtain ⟨s2, e3, e4⟩ := bind_elim e1
          cases e4
          rcases itemDestroy_stack (by intro t t' h1 h2; cases h2; exact h1) e3 with ⟨h1, h2⟩ | h1
          · left; intro f hf; rw [h1, List.mem_cons] at hf; rcases hf with rfl | hf; rfl; exact hn f hf
          · exact .inl (hn.of_stack h1)
        · cases e1; exact .inl hn
  | cancelAll =>
    have hn : NoTag s := by
      rcases key with h | h
      · exact h
      · rcases hc h with h | h | ⟨_, _, _, h⟩ <;> cases h
    have e := access_elim e
    exact .inl (cancelLoop_noTag (s := { s with items := markAll s.items, log := s.log ++ [.allCalled s.nextId] }) hn e)
  | unref =>
    have hn : NoTag s := by
      rcases key with h | h
      · exact h
      · rcases hc h with h | h | ⟨_, _, _, h⟩ <;> cases h
    have e := access_elim e
    unfold Idle.unref at e
    split at e
    · exact .inl (cancelLoop_noTag (s := { s with refs := 0, items := markAll s.items, log := s.log ++ [.allCalled s.nextId] }) hn e)
    · cases e; exact .inl hn
  | dispatch src =>
    have hn : NoTag s := by
      rcases key with h | h
      · exact h
      · rcases hc h with h | h | ⟨_, _, _, h⟩ <;> cases h
    have e := access_elim e
    cases e
    exact .inl (runLoop_noTag (s := { s with items := markAll s.items, nextRun := s.nextRun + 1, log := s.log ++ [.begin s.nextRun] }) hn _ _ _)

theorem calm_tagTop {s : State} (h : CalmReach s) : TagTop s := by
  induction h with
  | new => exact .inl (by simp [NoTag, Idle.new])
  | step h ha hc he ih => exact tagTop_step (Verif.Idle.reach_inv h.reach) ih hc he

end Verif.Idle.Debug
