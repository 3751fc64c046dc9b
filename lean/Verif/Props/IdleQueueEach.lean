import Verif.Props.IdleQueueQuiet

/-!
# Cancelling everything and cancelling each item: C162
-/

namespace Verif.Idle
open Verif.C

/-- `gutil_idle_queue_cancel_tag` is called; if it invokes a callback then the callback returns without having done anything. -/
def cancelTagQuietly (s : State) (tag : Nat) : M State := do
  let s' ← step s (.cancelTag tag)
  if s.stack.length < s'.stack.length then step s' .ret else .ok s'

/-- That's done for each of the tags. -/
def cancelTagsQuietly : State → List Nat → M State
  | s, [] => .ok s
  | s, t :: ts => do
    let s ← cancelTagQuietly s t
    cancelTagsQuietly s ts

theorem cancelLoop_exactly {b : Nat} {items : List Item} : ∀ {s : State}, s.items = items → s.alive = true → s.live = s.source.toList → (∀ i ∈ items, i.completed = true) →
    ∃ s0, cancelLoop s b false = .ok s0 ∧ Rets (destructors (items.map Item.entry)) s0
      { s with items := [], last := (if items = [] then s.last else none), source := none, live := [], log := s.log ++ cancelEach (items.map Item.entry) ++ [.allDone b] } := by
  induction items with
  | nil =>
    intro s hi ha hl _
    have e : cancelLoop s b false = .ok { s with items := [], source := none, live := [], log := s.log ++ [.allDone b] } := by
      unfold cancelLoop
      rw [hi, cancelScan]
      dsimp only
      unfold cancelEnd clearIfEmpty
      rw [if_pos rfl]
      unfold State.clearSource
      dsimp only
      cases hs : s.source with
      | none =>
        rw [hs] at hl
        rw [ok_bind]
        simp [hl, ha]
      | some id =>
        rw [hs] at hl
        dsimp only
        rw [if_pos (by rw [hl]; simp), ok_bind]
        simp [hl, ha]
    exact ⟨_, e, by rw [List.map_nil, destructors]; simpa [cancelEach] using rets_zero _⟩
  | cons i t ih =>
    intro s hi ha hl hc
    have hci := hc i List.mem_cons_self
    have hct : ∀ i ∈ t, i.completed = true := fun j hj => hc j (List.mem_cons_of_mem _ hj)
    have hlast : (if t = [] then lastOf t s.last else none) = if i :: t = [] then s.last else none := by
      cases t <;> simp [lastOf]
    cases hx : i.destroy with
    | false =>
      rw [cancelLoop_skip hi hci hx]
      obtain ⟨s0, e, q⟩ := ih (s := { s with items := t, last := lastOf t s.last, log := s.log ++ [.cancel i.id] }) rfl ha hl hct
      refine ⟨s0, e, ?_⟩
      rw [List.map_cons, Item.entry, hx, destructors, cancelEach]
      dsimp only at q
      rw [hlast] at q
      simpa using q
    | true =>
      obtain ⟨s0, e, q⟩ := ih (s := { s with items := t, last := lastOf t s.last, log := s.log ++ [.cancel i.id, .destroy i.id] }) rfl ha hl hct
      refine ⟨{ s with items := t, last := lastOf t s.last, stack := .all b false i :: s.stack, log := s.log ++ [.cancel i.id, .destroy i.id] }, ?_, ?_⟩
      · unfold cancelLoop
        rw [hi, cancelScan, if_pos hci, if_pos hx]
        simp
      · rw [List.map_cons, Item.entry, hx, destructors, cancelEach]
        dsimp only at q
        rw [hlast] at q
        refine Rets.trans (rets_one (s' := s0) ?_) (by simpa using q)
        unfold ret State.access
        dsimp only
        rw [if_pos ha, ok_bind]
        exact e

theorem removeTag_found {tag : Nat} : ∀ {l : List Item} (prev : Item) (last : Option Nat), tag ∈ l.map Item.tag →
    ∃ x l' last', removeTag tag prev l last = some (x, l', last') ∧ l.Perm (x :: l') ∧ x.tag = tag
  | [], _, _, h => by simp at h
  | i :: t, prev, last, h => by
    rw [removeTag]
    by_cases hc : i.tag = tag
    · rw [if_pos hc]
      exact ⟨i, t, _, rfl, .refl _, hc⟩
    · rw [if_neg hc]
      have h' : tag ∈ t.map Item.tag := by
        rw [List.map_cons] at h
        rcases List.mem_cons.1 h with h | h
        · exact absurd h.symm hc
        · exact h
      obtain ⟨x, l', last', e, p, hx⟩ := removeTag_found i last h'
      rw [e]
      exact ⟨x, i :: l', last', rfl, (p.cons i).trans (.swap _ _ _), hx⟩

theorem clear_last {s : State} (hl : s.live = s.source.toList) (hi : s.items = []) : clearIfEmpty s = .ok { s with source := none, live := [] } := by
  unfold clearIfEmpty
  rw [if_pos hi]
  unfold State.clearSource
  cases hs : s.source with
  | none =>
    rw [hs] at hl
    cases s
    simp_all
  | some id =>
    rw [hs] at hl
    dsimp only
    rw [if_pos (by rw [hl]; simp)]
    simp [hl]

theorem cancelTagQuietly_ok {s : State} {tag : Nat} (ha : s.alive = true) (hl : s.live = s.source.toList) (ht : tag ∈ s.items.map Item.tag) :
    ∃ x l' last', s.items.Perm (x :: l') ∧ x.tag = tag ∧ (∀ i t, s.items = i :: t → i.tag = tag → x = i ∧ l' = t) ∧
      cancelTagQuietly s tag = .ok (if l' = [] then { s with items := [], last := none, source := none, live := [], log := s.log ++ cancelEach [x.entry] }
        else { s with items := l', last := last', log := s.log ++ cancelEach [x.entry] }) := by
  cases hi : s.items with
  | nil => rw [hi] at ht; simp at ht
  | cons i t =>
    by_cases hc : i.tag = tag
    · refine ⟨i, t, lastOf t s.last, .refl _, hc, fun _ _ e _ => by cases e; exact ⟨rfl, rfl⟩, ?_⟩
      unfold cancelTagQuietly
      show ((do s.access; let (s, _) ← cancelTag s tag; .ok s) >>= _) = _
      unfold State.access cancelTag
      rw [if_pos ha, ok_bind, hi]
      dsimp only
      rw [if_pos hc]
      unfold itemDestroy
      cases hx : i.destroy with
      | true =>
        simp only [if_true, ok_bind]
        rw [if_pos (by simp)]
        rw [step]
        unfold ret State.access
        dsimp only
        rw [if_pos ha, ok_bind]
        by_cases he : t = []
        · rw [clear_last (s := { s with items := t, last := lastOf t s.last, log := s.log ++ [.cancel i.id, .destroy i.id] }) hl he, if_pos he]
          simp [he, lastOf, cancelEach, Item.entry, hx]
        · unfold clearIfEmpty
          rw [if_neg he, if_neg he]
          simp [cancelEach, Item.entry, hx]
      | false =>
        simp only [Bool.false_eq_true, if_false]
        by_cases he : t = []
        · rw [clear_last (s := { s with items := t, last := lastOf t s.last, log := s.log ++ [.cancel i.id] }) hl he, if_pos he]
          simp only [ok_bind]
          rw [if_neg (by simp)]
          simp [he, lastOf, cancelEach, Item.entry, hx]
        · unfold clearIfEmpty
          rw [if_neg he, if_neg he]
          simp only [ok_bind]
          rw [if_neg (by simp)]
          simp [cancelEach, Item.entry, hx]
    · have h' : tag ∈ t.map Item.tag := by
        rw [hi, List.map_cons] at ht
        rcases List.mem_cons.1 ht with h | h
        · exact absurd h.symm hc
        · exact h
      obtain ⟨x, l', last', e, p, hx'⟩ := removeTag_found i s.last h'
      refine ⟨x, i :: l', last', (p.cons i).trans (.swap _ _ _), hx', fun _ _ e h => by cases e; exact absurd h hc, ?_⟩
      rw [if_neg (by simp)]
      unfold cancelTagQuietly
      show ((do s.access; let (s, _) ← cancelTag s tag; .ok s) >>= _) = _
      unfold State.access cancelTag
      rw [if_pos ha, ok_bind, hi]
      dsimp only
      rw [if_neg hc, e]
      dsimp only
      unfold itemDestroy
      cases hx : x.destroy with
      | true =>
        simp only [if_true, ok_bind]
        rw [if_pos (by simp)]
        rw [step]
        unfold ret
        simp [cancelEach, Item.entry, hx]
      | false =>
        simp only [Bool.false_eq_true, if_false, ok_bind]
        rw [if_neg (by simp)]
        simp [cancelEach, Item.entry, hx]

theorem cancelEach_append (a b : List Entry) : cancelEach (a ++ b) = cancelEach a ++ cancelEach b := by
  induction a with
  | nil => rfl
  | cons x a ih =>
    obtain ⟨id, r, d⟩ := x
    rw [List.cons_append, cancelEach, cancelEach, ih]
    simp

theorem cancelTagsQuietly_ok : ∀ (ts : List Nat) (s : State), s.alive = true → s.live = s.source.toList → ts ≠ [] → ts.Perm (s.items.map Item.tag) →
    ∃ es, es.Perm (s.items.map Item.entry) ∧ (ts = s.items.map Item.tag → es = s.items.map Item.entry) ∧
      cancelTagsQuietly s ts = .ok { s with items := [], last := none, source := none, live := [], log := s.log ++ cancelEach es }
  | [], _, _, _, h, _ => absurd rfl h
  | t :: ts, s, ha, hl, _, hp => by
    obtain ⟨x, l', last', p, hx, hf, e⟩ := cancelTagQuietly_ok (tag := t) ha hl (hp.subset List.mem_cons_self)
    have hp' : ts.Perm (l'.map Item.tag) := by
      have h1 := hp.trans (p.map Item.tag)
      rw [List.map_cons, hx] at h1
      exact h1.cons_inv
    rw [cancelTagsQuietly, e, ok_bind]
    by_cases he : l' = []
    · rw [if_pos he]
      subst he
      have hts : ts = [] := by simpa using hp'
      subst hts
      have hone : s.items = [x] := by simpa using p
      exact ⟨[x.entry], by rw [hone]; exact .refl _, fun _ => by rw [hone]; rfl, rfl⟩
    · rw [if_neg he]
      have hne : ts ≠ [] := by
        rintro rfl
        have := hp'.length_eq
        simp only [List.length_nil, List.length_map] at this
        exact he (List.length_eq_zero_iff.1 this.symm)
      obtain ⟨es, q1, q2, q3⟩ := cancelTagsQuietly_ok ts { s with items := l', last := last', log := s.log ++ cancelEach [x.entry] } ha hl hne hp'
      refine ⟨x.entry :: es, ((q1.cons x.entry).trans (p.symm.map Item.entry)), ?_, ?_⟩
      · intro hts
        cases hi : s.items with
        | nil => rw [hi] at hts; cases hts
        | cons i u =>
          rw [hi, List.map_cons] at hts
          injection hts with h1 h2
          obtain ⟨rfl, rfl⟩ := hf i u hi h1.symm
          rw [q2 h2]
          rfl
      · rw [q3]
        rw [show x.entry :: es = [x.entry] ++ es from rfl, cancelEach_append]
        simp

/-- **C162** Cancelling everything is the same as cancelling each of the items, if there are any, by its tag, in any order, as long as the callbacks do nothing: everything is the same in
the end, except for what has been recorded. The callbacks of the same items are invoked; in the same order, if the tags are in the order of the items. -/
theorem C162_each {s : State} (h : Reach s) (hr : 0 < s.refs) (hi : s.items ≠ []) (ts : List Nat) (hp : ts.Perm (s.items.map Item.tag)) :
    ∃ s1 s2 n es, exec s (.cancelAll :: List.replicate (destructors (s.items.map Item.entry)) .ret) = .ok s1 ∧ cancelTagsQuietly s ts = .ok s2 ∧
      s1 = { s2 with log := s.log ++ cancellation n (s.items.map Item.entry) } ∧ s2.log = s.log ++ cancelEach es ∧
      es.Perm (s.items.map Item.entry) ∧ (ts = s.items.map Item.tag → es = s.items.map Item.entry) := by
  have hv := reach_inv h
  have hal : s.alive = true := by
    cases e : s.alive with
    | true => rfl
    | false =>
      have := (hv.dead e).2.2.2
      omega
  have hne : ts ≠ [] := by
    rintro rfl
    have := hp.length_eq
    simp only [List.length_nil, List.length_map] at this
    exact hi (List.length_eq_zero_iff.1 this.symm)
  obtain ⟨es, q1, q2, q3⟩ := cancelTagsQuietly_ok ts s hal hv.liveEq hne hp
  obtain ⟨s0, e, q⟩ := cancelLoop_exactly (b := s.nextId) (s := { s with items := markAll s.items, log := s.log ++ [.allCalled s.nextId] }) rfl hal hv.liveEq markAll_completed
  rw [markAll_entry] at q
  refine ⟨_, _, s.nextId, es, cons_rets (s0 := s0) ?_ q, q3, ?_, rfl, q1, q2⟩
  · show (do s.access; cancelAll s false) = _
    unfold State.access
    rw [if_pos hal, ok_bind]
    exact e
  · have : markAll s.items ≠ [] := by
      unfold markAll
      simpa using hi
    simp [this, cancellation]

/-- Three items, two of which have the same tag; they are cancelled in another order. -/
example : ∃ s s2, Reach s ∧ 0 < s.refs ∧ s.items ≠ [] ∧ s.items.map Item.tag = [1, 2, 1] ∧ [2, 1, 1].Perm [1, 2, 1] ∧ cancelTagsQuietly s [2, 1, 1] = .ok s2 ∧
    s2.log.drop s.log.length = [.cancel 1, .destroy 1, .cancel 0, .destroy 0, .cancel 2] := by
  refine ⟨_, _, reach_exec (acts := [.add 1 true true, .add 2 false true, .add 1 true false]) .new (by decide +kernel) rfl, by decide +kernel,
    by decide +kernel, by decide +kernel, .swap _ _ _, rfl, by decide +kernel⟩

end Verif.Idle
