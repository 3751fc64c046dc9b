import Verif.Props.IdleQueue
import Verif.Spec.IdleQueueQuiet

/-!
# The idle queue if callbacks do nothing to it
-/

namespace Verif.Idle
open Verif.C

/-- What the history knows about an item -/
def Item.entry (i : Item) : Entry := (i.id, i.run, i.destroy)

theorem exec_append {a b : List Act} : ∀ {s s1 s2 : State}, exec s a = .ok s1 → exec s1 b = .ok s2 → exec s (a ++ b) = .ok s2 := by
  induction a with
  | nil => intro s s1 s2 h1 h2; cases h1; exact h2
  | cons x t ih =>
    intro s s1 s2 h1 h2
    unfold exec at h1
    rw [List.cons_append]
    unfold exec
    split at h1
    · exact ih h1 h2
    · cases h1

/-- `n` callbacks return. -/
def Rets (n : Nat) (s s' : State) : Prop := exec s (List.replicate n .ret) = .ok s'

theorem rets_zero (s : State) : Rets 0 s s := rfl

theorem Rets.trans {n m : Nat} {s s1 s2 : State} (h1 : Rets n s s1) (h2 : Rets m s1 s2) : Rets (n + m) s s2 := by
  unfold Rets
  rw [← List.replicate_append_replicate]
  exact exec_append h1 h2

theorem rets_one {s s' : State} (h : ret s = .ok s') : Rets 1 s s' := by
  show exec s [.ret] = .ok s'
  have h : step s .ret = .ok s' := h
  unfold exec
  rw [h]
  rfl

theorem runLoop_skip {s : State} {d src b : Nat} {i : Item} {t : List Item} (hi : s.items = i :: t) (hc : i.completed = true) (hr : i.run = false) (hx : i.destroy = false) :
    runLoop s d src b = runLoop { s with items := t, last := lastOf t s.last } d src b := by
  unfold runLoop
  rw [hi, runScan, if_pos hc, if_neg (by simp [hr, hx])]

theorem runLoop_quiet {d src b : Nat} {items : List Item} : ∀ {s : State}, s.items = items → s.alive = true → (∀ i ∈ items, i.completed = true) →
    ∃ s', Rets (callbacks (items.map Item.entry)) (runLoop s d src b) s' ∧ s'.log = s.log ++ runEach d (items.map Item.entry) ++ [.ended d] ∧ s'.items = [] ∧
      s'.stack = s.stack ∧ s'.source = none ∧ s'.live = s.live.erase src ∧ s'.alive = true ∧ s'.refs = s.refs := by
  induction items with
  | nil =>
    intro s hi ha _
    refine ⟨_, rets_zero _, ?_⟩
    unfold runLoop
    rw [hi, runScan]
    dsimp only
    unfold runEnd
    rw [if_neg (by simp)]
    exact ⟨by simp [runEach], rfl, rfl, rfl, rfl, ha, rfl⟩
  | cons i t ih =>
    intro s hi ha hc
    have hci := hc i List.mem_cons_self
    have hct : ∀ i ∈ t, i.completed = true := fun j hj => hc j (List.mem_cons_of_mem _ hj)
    cases hr : i.run with
    | false =>
      cases hx : i.destroy with
      | false =>
        rw [runLoop_skip hi hci hr hx]
        obtain ⟨s', q, h1, h2⟩ := ih (s := { s with items := t, last := lastOf t s.last }) rfl ha hct
        refine ⟨s', ?_, ?_, h2⟩
        · rw [List.map_cons, Item.entry, hr, hx, callbacks]
          simpa using q
        · rw [h1, List.map_cons, Item.entry, hr, hx, runEach]
          simp
      | true =>
        have e : runLoop s d src b = { s with items := t, last := lastOf t s.last, stack := .runDestroy d src b i :: s.stack, log := s.log ++ [.destroy i.id] } := by
          unfold runLoop
          rw [hi, runScan, if_pos hci, if_pos (by simp [hx])]
          dsimp only
          rw [if_neg (by simp [hr])]
        rw [e]
        obtain ⟨s', q, h1, h2⟩ := ih (s := { s with items := t, last := lastOf t s.last, log := s.log ++ [.destroy i.id] }) rfl ha hct
        refine ⟨s', ?_, ?_, h2⟩
        · rw [List.map_cons, Item.entry, hr, hx, callbacks]
          refine Rets.trans (rets_one ?_) q
          unfold ret State.access
          dsimp only
          rw [if_pos ha, ok_bind]
        · rw [h1, List.map_cons, Item.entry, hr, hx, runEach]
          simp
    | true =>
      have e : runLoop s d src b = { s with items := t, last := lastOf t s.last, stack := .run d src b i :: s.stack, log := s.log ++ [.run d i.id] } := by
        unfold runLoop
        rw [hi, runScan, if_pos hci, if_pos (by simp [hr])]
        dsimp only
        rw [if_pos hr]
      rw [e]
      cases hx : i.destroy with
      | false =>
        obtain ⟨s', q, h1, h2⟩ := ih (s := { s with items := t, last := lastOf t s.last, log := s.log ++ [.run d i.id] }) rfl ha hct
        refine ⟨s', ?_, ?_, h2⟩
        · rw [List.map_cons, Item.entry, hr, hx, callbacks]
          refine Rets.trans (rets_one ?_) q
          unfold ret afterRun State.access
          dsimp only
          rw [if_neg (by simp [hx]), if_pos ha, ok_bind]
        · rw [h1, List.map_cons, Item.entry, hr, hx, runEach]
          simp
      | true =>
        obtain ⟨s', q, h1, h2⟩ := ih (s := { s with items := t, last := lastOf t s.last, log := s.log ++ [.run d i.id] ++ [.destroy i.id] }) rfl ha hct
        refine ⟨s', ?_, ?_, h2⟩
        · rw [List.map_cons, Item.entry, hr, hx, callbacks]
          have q1 : Rets 1 { s with items := t, last := lastOf t s.last, stack := .run d src b i :: s.stack, log := s.log ++ [.run d i.id] }
              { s with items := t, last := lastOf t s.last, stack := .runDestroy d src b i :: s.stack, log := s.log ++ [.run d i.id] ++ [.destroy i.id] } := by
            refine rets_one ?_
            unfold ret afterRun
            dsimp only
            rw [if_pos hx]
          have q2 := Rets.trans (rets_one (s := { s with items := t, last := lastOf t s.last, stack := .runDestroy d src b i :: s.stack, log := s.log ++ [.run d i.id] ++ [.destroy i.id] }) (by
            unfold ret State.access
            dsimp only
            rw [if_pos ha, ok_bind])) q
          have q3 := q1.trans q2
          rw [show (true.toNat + true.toNat + callbacks (t.map Item.entry)) = 1 + (1 + callbacks (t.map Item.entry)) from by simp [Bool.toNat]; omega]
          exact q3
        · rw [h1, List.map_cons, Item.entry, hr, hx, runEach]
          simp

theorem markAll_entry (items : List Item) : (markAll items).map Item.entry = items.map Item.entry := by
  unfold markAll
  rw [List.map_map]
  rfl

theorem cancelLoop_skip {s : State} {b : Nat} {final : Bool} {i : Item} {t : List Item} (hi : s.items = i :: t) (hc : i.completed = true) (hx : i.destroy = false) :
    cancelLoop s b final = cancelLoop { s with items := t, last := lastOf t s.last, log := s.log ++ [.cancel i.id] } b final := by
  unfold cancelLoop
  rw [hi, cancelScan, if_pos hc, if_neg (by simp [hx])]
  dsimp only
  rcases cancelScan t (lastOf t s.last) with ⟨items, last, gone, stop⟩
  cases stop <;> simp

theorem cancelLoop_quiet {b : Nat} {final : Bool} {items : List Item} : ∀ {s : State}, s.items = items → s.alive = true → s.live = s.source.toList → (∀ i ∈ items, i.completed = true) →
    ∃ s0 s', cancelLoop s b final = .ok s0 ∧ Rets (destructors (items.map Item.entry)) s0 s' ∧ s'.log = s.log ++ cancelEach (items.map Item.entry) ++ [.allDone b] ∧ s'.items = [] ∧
      s'.stack = s.stack ∧ s'.source = none ∧ s'.live = [] ∧ s'.alive = !final ∧ s'.refs = s.refs := by
  induction items with
  | nil =>
    intro s hi ha hl _
    have e : ∃ s0, cancelLoop s b final = .ok s0 ∧ s0.log = s.log ++ [.allDone b] ∧ s0.items = [] ∧ s0.stack = s.stack ∧ s0.source = none ∧ s0.live = [] ∧ s0.alive = !final ∧
        s0.refs = s.refs := by
      unfold cancelLoop
      rw [hi, cancelScan]
      dsimp only
      unfold cancelEnd clearIfEmpty
      rw [if_pos rfl]
      unfold State.clearSource
      dsimp only
      cases hs : s.source with
      | none =>
        rw [ok_bind]
        rw [hs] at hl
        exact ⟨_, rfl, by simp, rfl, rfl, rfl, hl, rfl, rfl⟩
      | some id =>
        rw [hs] at hl
        dsimp only
        rw [if_pos (by rw [hl]; simp), ok_bind]
        exact ⟨_, rfl, by simp, rfl, rfl, rfl, by dsimp only; rw [hl]; simp, rfl, rfl⟩
    obtain ⟨s0, e, h⟩ := e
    exact ⟨s0, s0, e, rets_zero _, by simpa [cancelEach] using h.1, h.2⟩
  | cons i t ih =>
    intro s hi ha hl hc
    have hci := hc i List.mem_cons_self
    have hct : ∀ i ∈ t, i.completed = true := fun j hj => hc j (List.mem_cons_of_mem _ hj)
    cases hx : i.destroy with
    | false =>
      rw [cancelLoop_skip hi hci hx]
      obtain ⟨s0, s', e, q, h1, h2⟩ := ih (s := { s with items := t, last := lastOf t s.last, log := s.log ++ [.cancel i.id] }) rfl ha hl hct
      refine ⟨s0, s', e, ?_, ?_, h2⟩
      · rw [List.map_cons, Item.entry, hx, destructors]
        simpa using q
      · rw [h1, List.map_cons, Item.entry, hx, cancelEach]
        simp
    | true =>
      obtain ⟨s0, s', e, q, h1, h2⟩ := ih (s := { s with items := t, last := lastOf t s.last, log := s.log ++ [.cancel i.id, .destroy i.id] }) rfl ha hl hct
      refine ⟨{ s with items := t, last := lastOf t s.last, stack := .all b final i :: s.stack, log := s.log ++ [.cancel i.id, .destroy i.id] }, s', ?_, ?_, ?_, h2⟩
      · unfold cancelLoop
        rw [hi, cancelScan, if_pos hci, if_pos hx]
        simp
      · rw [List.map_cons, Item.entry, hx, destructors]
        refine Rets.trans (rets_one ?_) q
        unfold ret State.access
        dsimp only
        rw [if_pos ha, ok_bind]
        exact e
      · rw [h1, List.map_cons, Item.entry, hx, cancelEach]
        simp

theorem cons_rets {n : Nat} {a : Act} {s s0 s' : State} (h : step s a = .ok s0) (q : Rets n s0 s') : exec s (a :: List.replicate n .ret) = .ok s' := by
  unfold exec
  rw [h]
  exact q

end Verif.Idle
