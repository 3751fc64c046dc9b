import Verif.Proof.WeakThreads

/-!
# Weak references shared by threads (C123)

`Reach s`: the state `s` can be reached by following the rules (`Allowed`), the steps of threads being mixed in any order.
`s.log` is the history, see `Spec/WeakThreads.lean`.
-/

namespace Verif.WeakThreads
open Verif.C

/-- Thread 0 creates an object and a weak reference to it, and takes another reference to the weak reference for thread 1.
Thread 0 drops its reference to the object while thread 1 is getting it, and both threads are done with the weak reference. -/
def story : List Act :=
  [.call 0 .objNew, .call 0 (.new (some 0)), .call 0 (.ref 0), .call 1 (.get 0), .call 0 (.objUnref 0), .call 1 (.get 0),
   .call 0 (.unref 0), .call 1 (.unref 0), .call 0 (.objUnref 0), .go 1, .call 0 (.objUnref 0), .go 1]

/-- A number of steps -/
def exec (s : State) : List Act → M State
  | [] => .ok s
  | a :: t =>
    match step s a with
    | .ok s => exec s t
    | .error e => .error e

/-- Are the rules being followed? -/
def Legal (s : State) : List Act → Prop
  | [] => True
  | a :: t => Allowed s a ∧ match step s a with | .ok s => Legal s t | .error _ => True

instance (s : State) (a : Act) : Decidable (Allowed s a) := by
  cases a with
  | go t => unfold Allowed; infer_instance
  | call t c =>
    cases c with
    | set w o => cases o <;> unfold Allowed <;> infer_instance
    | new o => cases o <;> unfold Allowed <;> infer_instance
    | _ => unfold Allowed; infer_instance

instance decLegal (s : State) : (l : List Act) → Decidable (Legal s l)
  | [] => .isTrue trivial
  | a :: t => by
    unfold Legal
    cases step s a with
    | error e => exact inferInstance
    | ok s => exact @instDecidableAnd _ _ _ (decLegal s t)

theorem reach_exec {s s' : State} {l : List Act} (h : Reach s) (hl : Legal s l) (e : exec s l = .ok s') : Reach s' := by
  induction l generalizing s with
  | nil => cases e; exact h
  | cons a t ih =>
    rw [Legal] at hl
    rw [exec] at e
    cases ha : step s a with
    | error u => rw [ha] at e; cases e
    | ok s1 =>
      rw [ha] at hl e
      exact ih (h.step hl.1 ha) hl.2 e

theorem story_legal : Legal init story := by decide +kernel

/-- The outcome of a number of steps, and what has been seen -/
def outcome (l : List Act) : Option (List Event) :=
  match exec init l with
  | .ok s => some s.log
  | .error _ => none

example : outcome story = some [.create 0, .new 0, .set 0 (some 0), .hold 0, .got 0 (some 0), .unref 0, .got 0 (some 0), .drop 0,
    .drop 0, .unref 0, .unref 0, .freed 0] := by decide +kernel

theorem outcome_reach {l : List Act} {log : List Event} (hl : Legal init l) (e : outcome l = some log) :
    ∃ s, Reach s ∧ exec init l = .ok s ∧ s.log = log := by
  unfold outcome at e
  split at e
  · rename_i s h
    cases e
    exact ⟨s, reach_exec .init hl h, h, rfl⟩
  · cases e

/-- **C123** Nothing undefined happens, whatever the threads do at the same time: nothing is used or released after it has been
released. In particular, the last references to the object and to the weak reference may be dropped by different threads
at the same time. -/
theorem C123_safe {s : State} {a : Act} (h : Reach s) (ha : Allowed s a) : ∃ s', step s a = .ok s' := by
  obtain ⟨s', e, _⟩ := inv_step (reach_inv h) ha
  exact ⟨s', e⟩

/-- Thread 1 is about to clear the weak reference, and thread 0 about to drop the last reference to the object. -/
example : ∃ s, Reach s ∧ s.pc 1 = .clear 0 ∧ strong 0 s.log = 1 ∧ Allowed s (.call 0 (.objUnref 0)) ∧ Allowed s (.go 1) := by
  obtain ⟨s, h, e, _⟩ := outcome_reach (l := story.take 9)
    (log := [.create 0, .new 0, .set 0 (some 0), .hold 0, .got 0 (some 0), .unref 0, .got 0 (some 0), .drop 0, .drop 0, .unref 0])
    (by decide +kernel) (by decide +kernel)
  refine ⟨s, h, ?_⟩
  have : (exec init (story.take 9)) = .ok s := e
  cases this
  decide +kernel

/-- **C123** At any moment, what's returned is the object which was assigned to the weak reference the last time if there are still
references to it, and `NULL` if there are none. What's returned is one more reference. -/
theorem C123_get {s : State} {w : Nat} (h : Reach s) (hw : 0 < held w s.log) :
    ∃ s' r, get s w = .ok (s', r) ∧ s'.log = s.log ++ [.got w r] ∧
      ∀ o, r = some o ↔ lastSet w s.log = some o ∧ 0 < strong o s.log := by
  have i := reach_inv h
  obtain ⟨s', e, _, hl⟩ := inv_get i hw
  refine ⟨s', _, e, hl, fun o => ?_⟩
  rw [i.last w (by have := i.heldEq w; omega), ← i.strongEq]
  constructor <;> rintro ⟨a, b⟩ <;> exact ⟨a, by omega⟩

example : ∃ s, Reach s ∧ held 0 s.log = 2 ∧ lastSet 0 s.log = some 0 ∧ strong 0 s.log = 1 := by
  obtain ⟨s, h, _, e⟩ := outcome_reach (l := story.take 5) (by decide +kernel) (by rfl)
  exact ⟨s, h, by rw [e]; decide +kernel, by rw [e]; decide +kernel, by rw [e]; decide +kernel⟩

/-- **C123** Objects exist exactly as long as the program is holding references to them: weak references don't count. -/
theorem C123_weak {s : State} (h : Reach s) (o : Nat) : ((s.objs o).refs : Int) = strong o s.log := (reach_inv h).strongEq o

/-- **C123** The weak reference exists as long as there are references to it, and is released once when there are none: either it has
been released, or there's a thread which is about to do that, and there's only one such thread. -/
theorem C123_alive {s : State} {w : Nat} (h : Reach s) (hw : .new w ∈ s.log) :
    0 ≤ held w s.log ∧
    (0 < held w s.log → (s.refs w).alive = true ∧ s.log.count (.freed w) = 0 ∧ ∀ t, s.pc t ≠ .clear w ∧ s.pc t ≠ .free w) ∧
    (held w s.log = 0 →
      ((s.refs w).alive = false ∧ s.log.count (.freed w) = 1 ∧ ∀ t, s.pc t ≠ .clear w ∧ s.pc t ≠ .free w) ∨
      ((s.refs w).alive = true ∧ s.log.count (.freed w) = 0 ∧
        ∃ t, (s.pc t = .clear w ∨ s.pc t = .free w) ∧ ∀ t', s.pc t' = .clear w ∨ s.pc t' = .free w → t' = t)) := by
  have i := reach_inv h
  have hn := (i.made w).1 hw
  have hh := i.heldEq w
  have hf := i.freed w
  have hi := i.aliveIff w
  refine ⟨by omega, fun hp => ?_, fun hz => ?_⟩
  · have ha := hi.2 (.inl (by omega))
    refine ⟨ha, by rw [hf, ha]; simp, fun t => ?_⟩
    constructor <;> intro e
    · have := i.releasing t w (.inl e); omega
    · have := i.releasing t w (.inr e); omega
  · cases ha : (s.refs w).alive with
    | false =>
      refine .inl ⟨rfl, by rw [hf, ha]; simp [hn], fun t => ?_⟩
      constructor <;> intro e
      · have := hi.2 (.inr ⟨t, .inl e⟩); rw [ha] at this; cases this
      · have := hi.2 (.inr ⟨t, .inr e⟩); rw [ha] at this; cases this
    | true =>
      refine .inr ⟨rfl, by rw [hf, ha]; simp, ?_⟩
      rcases hi.1 ha with h0 | ⟨t, ht⟩
      · omega
      · exact ⟨t, ht, fun t' ht' => i.unique t' t w ht' ht⟩

/-- The weak reference of `story` has been released at the end. -/
example : ∃ s, Reach s ∧ .new 0 ∈ s.log ∧ held 0 s.log = 0 ∧ s.log.count (.freed 0) = 1 := by
  obtain ⟨s, h, _, e⟩ := outcome_reach story_legal (by rfl)
  exact ⟨s, h, by rw [e]; decide +kernel, by rw [e]; decide +kernel, by rw [e]; decide +kernel⟩

/-- **C123** Once all threads are outside of the functions, exactly those weak references have been released to which there are no
references anymore. -/
theorem C123_quiet {s : State} {w : Nat} (h : Reach s) (hq : ∀ t, s.pc t = .idle) (hw : .new w ∈ s.log) :
    s.log.count (.freed w) = if held w s.log = 0 then 1 else 0 := by
  obtain ⟨h0, h1, h2⟩ := C123_alive h hw
  split
  · rename_i e
    rcases h2 e with h3 | ⟨_, _, t, ht, _⟩
    · exact h3.2.1
    · rw [hq t] at ht
      simp at ht
  · exact (h1 (by omega)).2.1

example : ∃ s, Reach s ∧ (∀ t, s.pc t = .idle) ∧ .new 0 ∈ s.log :=
  ⟨_, (((Reach.init.step (a := .call 0 .objNew) (by decide) rfl).step (a := .call 0 (.new (some 0))) (by decide) rfl)), fun _ => rfl, by decide⟩

theorem weakClear_log (s : State) (w : Nat) : (weakClear s w).log = s.log ∧ (weakClear s w).pc = s.pc := by
  unfold weakClear
  split <;> exact ⟨rfl, rfl⟩

theorem weakSet_log {s s' : State} {w : Nat} {o : Option Nat} (e : weakSet s w o = .ok s') : s'.log = s.log ∧ s'.pc = s.pc := by
  cases o with
  | none => cases e; exact weakClear_log s w
  | some x =>
    unfold weakSet at e
    dsimp only at e
    split at e
    · cases e
    · cases e; exact weakClear_log s w

/-- **C123** What each step means for the history. After its counter has dropped to zero, the weak reference is released by the next two
steps of the same thread (others don't matter). -/
theorem C123_recorded {s s' : State} {a : Act} (e : step s a = .ok s') :
    (match a with
      | .call _ .objNew => s'.log = s.log ++ [.create s.nobj]
      | .call _ (.objRef x) => s'.log = s.log ++ [.ref x]
      | .call _ (.objUnref x) => s'.log = s.log ++ [.unref x]
      | .call _ (.new o) => s'.log = s.log ++ [.new s.nref, .set s.nref o]
      | .call _ (.ref w) => s'.log = s.log ++ [.hold w]
      | .call _ (.unref w) => s'.log = s.log ++ [.drop w]
      | .call _ (.get w) => ∃ r, get s w = .ok (s', r) ∧ s'.log = s.log ++ [.got w r]
      | .call _ (.set w o) => s'.log = s.log ++ [.set w o]
      | .go t => ∃ w, (s.pc t = .clear w ∧ s'.pc t = .free w ∧ s'.log = s.log) ∨
          (s.pc t = .free w ∧ s'.pc t = .idle ∧ s'.log = s.log ++ [.freed w])) ∧
    (match a with
      | .call t (.unref _) | .go t => ∀ t', t' ≠ t → s'.pc t' = s.pc t'
      | _ => s'.pc = s.pc) := by
  cases a with
  | go t =>
    unfold step go at e
    dsimp only at e
    split at e
    · cases e
    · rename_i w hp
      unfold access at e
      split at e
      · rw [ok_bind] at e
        cases e
        have h1 := weakClear_log s w
        refine ⟨⟨w, .inl ⟨hp, by simp [upd], h1.1⟩⟩, fun t' ht => ?_⟩
        simp [upd, ht, h1.2]
      · cases e
    · rename_i w hp
      split at e
      · cases e
        refine ⟨⟨w, .inr ⟨hp, by simp [upd], rfl⟩⟩, fun t' ht => ?_⟩
        simp [upd, ht]
      · cases e
  | call t c =>
    cases c with
    | objNew => cases e; exact ⟨rfl, rfl⟩
    | objRef x =>
      unfold step objRef at e
      dsimp only at e
      split at e <;> cases e
      exact ⟨rfl, rfl⟩
    | objUnref x =>
      unfold step objUnref at e
      dsimp only at e
      repeat' split at e
      all_goals cases e
      all_goals exact ⟨rfl, rfl⟩
    | new o => exact weakSet_log (o := o) e
    | ref w =>
      unfold step ref access at e
      dsimp only at e
      split at e <;> cases e
      exact ⟨rfl, rfl⟩
    | unref w =>
      unfold step unref access at e
      dsimp only at e
      split at e
      · rw [ok_bind] at e
        split at e
        · cases e
        · cases e
          refine ⟨rfl, fun t' ht => ?_⟩
          dsimp only
          split <;> simp [upd, ht]
      · cases e
    | get w =>
      unfold step at e
      dsimp only at e
      cases hg : get s w with
      | error u => rw [hg] at e; cases e
      | ok p =>
        obtain ⟨s1, r⟩ := p
        rw [hg, ok_bind] at e
        cases e
        have hg0 := hg
        unfold get access at hg
        split at hg
        · rw [ok_bind] at hg
          unfold weakGet at hg
          split at hg
          · cases hg; exact ⟨⟨_, hg0, rfl⟩, rfl⟩
          · split at hg
            · cases hg
            · cases hg; exact ⟨⟨_, hg0, rfl⟩, rfl⟩
        · cases hg
    | set w o =>
      unfold step set access at e
      dsimp only at e
      split at e
      · rw [ok_bind] at e
        exact weakSet_log (o := o) e
      · cases e

example : outcome (story.take 2) = some [.create 0, .new 0, .set 0 (some 0)] := by decide +kernel

end Verif.WeakThreads
