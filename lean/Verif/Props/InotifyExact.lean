import Verif.Props.Inotify

/-!
# What happens to the descriptors opened by others if the inotify descriptor is closed twice
-/

namespace Verif.Inotify
open Verif.C

/-- Either nothing is closed, or the inotify descriptor is. -/
def Closes (race : Option Nat) (s s' : State) : Prop :=
  ∃ new, s'.log = s.log ++ new ∧
    ((∀ fd, .closed fd ∉ new) ∧ s'.foreign = s.foreign ∧ s'.fd = s.fd ∨
     ∃ fd, s.fd = some fd ∧ s'.fd = none ∧ .closed fd ∈ new ∧ s'.foreign = (s.foreign ++ race.toList).erase fd)

theorem bind_closes {α β : Type} {x : M α} {f : α → M β} {y : β} (h : (x >>= f) = .ok y) : ∃ a, x = .ok a ∧ f a = .ok y := by
  cases x with
  | error e => cases h
  | ok a => exact ⟨a, rfl, h⟩

theorem Closes.same {race : Option Nat} {s s' : State} {new : List Event} (hl : s'.log = s.log ++ new) (hn : ∀ fd, .closed fd ∉ new) (hf : s'.foreign = s.foreign)
    (hd : s'.fd = s.fd) : Closes race s s' := ⟨new, hl, .inl ⟨hn, hf, hd⟩⟩

theorem Closes.trans {race : Option Nat} {s s1 s2 : State} (h1 : Closes race s s1) (h2 : Closes race s1 s2) : Closes race s s2 := by
  obtain ⟨n1, l1, h1⟩ := h1
  obtain ⟨n2, l2, h2⟩ := h2
  refine ⟨n1 ++ n2, by rw [l2, l1, List.append_assoc], ?_⟩
  rcases h1 with ⟨a1, a2, a3⟩ | ⟨fd, a1, a2, a3, a4⟩
  · rcases h2 with ⟨b1, b2, b3⟩ | ⟨fd, b1, b2, b3, b4⟩
    · exact .inl ⟨fun fd h => (List.mem_append.1 h).elim (a1 fd) (b1 fd), b2.trans a2, b3.trans a3⟩
    · exact .inr ⟨fd, a3 ▸ b1, b2, List.mem_append.2 (.inr b3), a2 ▸ b4⟩
  · rcases h2 with ⟨b1, b2, b3⟩ | ⟨fd2, b1, b2, b3, b4⟩
    · exact .inr ⟨fd, a1, b3.trans a2, List.mem_append.2 (.inl a3), b2.trans a4⟩
    · rw [a2] at b1
      cases b1

theorem closes_unrefInst {race : Option Nat} {s s' : State} {id : Nat} (h : unrefInst race s id = .ok s') : Closes race s s' := by
  unfold unrefInst State.access at h
  cases hi : s.inst with
  | none => rw [hi] at h; cases h
  | some i =>
    rw [hi] at h
    dsimp only at h
    by_cases hd : i.id = id
    · rw [if_pos hd, ok_bind] at h
      split at h <;> cases h
      · exact ⟨_, rfl, .inr ⟨i.fd, by simp [State.fd, hi], rfl, by simp, rfl⟩⟩
      · exact .same (List.append_nil _).symm (by simp) rfl (by simp [State.fd, hi])
    · rw [if_neg hd] at h
      cases h

theorem closes_stop {race : Option Nat} {s s' : State} {w : Nat} {x : Watch} (h : stop s w x = .ok s') : Closes race s s' := by
  unfold stop State.access at h
  split at h
  · cases h
    exact .same (List.append_nil _).symm (by simp) rfl rfl
  · rename_i wd _
    cases hi : s.inst with
    | none => rw [hi] at h; cases h
    | some i =>
      rw [hi] at h
      dsimp only at h
      by_cases hd : i.id = x.inst
      · rw [if_pos hd, ok_bind] at h
        cases h
        exact .same rfl (by simp) (by unfold kernelRemove; split <;> rfl) (by simp [State.fd, hi])
      · rw [if_neg hd] at h
        cases h

theorem watch_ok {s : State} {w : Nat} {x : Watch} (h : s.watch w = .ok x) : s.watches[w]? = some x := by
  unfold State.watch at h
  split at h
  · split at h <;> cases h
    assumption
  · cases h

theorem closes_unrefWatch {race : Option Nat} {s s' : State} {w : Nat} (h : unrefWatch race s w = .ok s') : Closes race s s' := by
  unfold unrefWatch at h
  obtain ⟨x, _, h⟩ := bind_closes h
  split at h
  · obtain ⟨s1, h1, h2⟩ := bind_closes h
    have c1 : Closes race s { s with watches := s.watches.set w { x with refs := 0 } } := .same (List.append_nil _).symm (by simp) rfl rfl
    exact (c1.trans (closes_stop h1)).trans (closes_unrefInst h2)
  · cases h
    exact .same (List.append_nil _).symm (by simp) rfl rfl

theorem closes_proc {race : Option Nat} {id : Nat} {b : List (Nat × Ev)} : ∀ {s s' : State}, proc race s id b = .ok s' → Closes race s s' := by
  induction b with
  | nil => intro s s' h; exact closes_unrefInst h
  | cons p t ih =>
    intro s s' h
    obtain ⟨wd, ev⟩ := p
    unfold proc at h
    obtain ⟨i, _, h⟩ := bind_closes h
    split at h
    · exact ih h
    · obtain ⟨s1, h1, h⟩ := bind_closes h
      unfold ref at h1
      obtain ⟨x, _, h1⟩ := bind_closes h1
      cases h1
      cases h
      exact .same rfl (by simp) rfl rfl

theorem erase_race {foreign : List Nat} {race : Option Nat} {fd : Nat} (h : fd ∉ foreign) :
    (foreign ++ race.toList).erase fd = if race = some fd then foreign else foreign ++ race.toList := by
  rw [List.erase_append_right _ h]
  cases race with
  | none => simp
  | some n =>
    by_cases hn : n = fd
    · subst hn
      simp
    · rw [if_neg (by simpa using hn)]
      simp [hn]

/-- The only way in which the library affects the descriptors of others is the inotify descriptor being closed for the second time:
if another thread opens a descriptor between those two calls, that descriptor is closed by the second one if and only if it's the
same number. -/
theorem C74_foreign_exactly {s s' : State} {a : Act} (h : Reach anything s) (ha : Allowed s a) {race : Option Nat} (h1 : ∀ fd, a ≠ .fopen fd) (h2 : ∀ fd, a ≠ .fclose fd)
    (e : step race s a = .ok s') :
    ∃ new, s'.log = s.log ++ new ∧
      ((∀ fd, .closed fd ∉ new) ∧ s'.foreign = s.foreign ∨
       ∃ fd, .closed fd ∈ new ∧ s'.foreign = if race = some fd then s.foreign else s.foreign ++ race.toList) := by
  have hnf := (reach_rest h).fd.notForeign
  have key : ∀ {s' : State}, Closes race s s' → ∃ new, s'.log = s.log ++ new ∧
      ((∀ fd, .closed fd ∉ new) ∧ s'.foreign = s.foreign ∨
       ∃ fd, .closed fd ∈ new ∧ s'.foreign = if race = some fd then s.foreign else s.foreign ++ race.toList) := by
    rintro s' ⟨new, hl, ⟨h3, h4, _⟩ | ⟨fd, h3, h4, h5, h6⟩⟩
    · exact ⟨new, hl, .inl ⟨h3, h4⟩⟩
    · refine ⟨new, hl, .inr ⟨fd, h5, h6.trans (erase_race ?_)⟩⟩
      cases hi : s.inst with
      | none => rw [State.fd, hi] at h3; cases h3
      | some i =>
        rw [State.fd, hi] at h3
        cases h3
        exact hnf i hi
  have own : ∀ (w : Nat), Closes race s (disown s w) := fun w => .same (List.append_nil _).symm (by simp) rfl rfl
  cases a with
  | new file mask fd =>
    cases e
    have hka : ∀ t : State, (kernelAdd t file mask).1.foreign = t.foreign ∧ (kernelAdd t file mask).1.log = t.log := fun t => by unfold kernelAdd; split <;> exact ⟨rfl, rfl⟩
    have hf : (newWatch s file mask fd).foreign = s.foreign := by
      show (kernelAdd (newInst s fd).1 file mask).1.foreign = _
      rw [(hka _).1]
      unfold newInst
      split <;> rfl
    obtain ⟨w, hl⟩ : ∃ w, (newWatch s file mask fd).log = (newInst s fd).1.log ++ [.created w file mask] := by
      rw [← (hka (newInst s fd).1).2]
      exact ⟨_, rfl⟩
    cases hi : s.inst with
    | some i =>
      have : (newInst s fd).1.log = s.log := by unfold newInst; rw [hi]
      rw [this] at hl
      exact ⟨_, hl, .inl ⟨by simp, hf⟩⟩
    | none =>
      have : (newInst s fd).1.log = s.log ++ [.opened fd] := by unfold newInst; rw [hi]
      rw [this, List.append_assoc] at hl
      exact ⟨_, hl, .inl ⟨by simp, hf⟩⟩
  | newFails fd =>
    have e : unrefInst race (newInst s fd).1 (newInst s fd).2.id = .ok s' := e
    obtain ⟨new, hl, hc⟩ := closes_unrefInst e
    cases hi : s.inst with
    | some i =>
      refine key (Closes.trans ?_ (closes_unrefInst e))
      unfold newInst
      rw [hi]
      exact .same (List.append_nil _).symm (by simp) rfl (by simp [State.fd, hi])
    | none =>
      unfold newInst at hl hc
      rw [hi] at hl hc
      refine ⟨.opened fd :: new, by simpa using hl, ?_⟩
      rcases hc with ⟨h3, h4, _⟩ | ⟨fd', h3, _, h5, h6⟩
      · exact .inl ⟨by simpa using h3, h4⟩
      · cases h3
        exact .inr ⟨fd, List.mem_cons_of_mem _ h5, h6.trans (erase_race ha)⟩
  | ref w =>
    obtain ⟨s1, h3, h4⟩ := bind_closes e
    unfold ref at h3
    obtain ⟨x, _, h3⟩ := bind_closes h3
    cases h3
    cases h4
    exact key (.same (List.append_nil _).symm (by simp) rfl rfl)
  | unref w => exact key ((own w).trans (closes_unrefWatch e))
  | destroy w =>
    obtain ⟨x, _, e⟩ := bind_closes e
    obtain ⟨s1, h3, h4⟩ := bind_closes e
    have c2 : Closes race s1 (disown s1 w) := .same (List.append_nil _).symm (by simp) rfl rfl
    exact key (((closes_stop h3).trans c2).trans (closes_unrefWatch h4))
  | dispatch n =>
    have e : dispatch race s n = .ok s' := e
    unfold dispatch at e
    split at e
    · cases e
    · rename_i i hi
      refine key (Closes.trans ?_ (closes_proc e))
      exact .same (List.append_nil _).symm (by simp) rfl (by simp [State.fd, hi])
  | readFails =>
    have e : readFails s = .ok s' := e
    unfold readFails at e
    split at e
    · cases e
    · rename_i i hi
      cases e
      exact key (.same (List.append_nil _).symm (by simp) rfl (by simp [State.fd, hi]))
  | ret =>
    have e : ret race s = .ok s' := e
    unfold ret at e
    split at e
    · obtain ⟨s1, h3, h4⟩ := bind_closes e
      have c1 : Closes race s { s with frame := none } := .same (List.append_nil _).symm (by simp) rfl rfl
      exact key ((c1.trans (closes_unrefWatch h3)).trans (closes_proc h4))
    · cases e
  | happen file ev => cases e; exact key (.same rfl (by simp) rfl rfl)
  | vanish file => cases e; exact key (.same rfl (by simp) rfl rfl)
  | merge file ev => cases e; exact key (.same rfl (by simp) rfl rfl)
  | lose file ev => cases e; exact key (.same rfl (by simp) rfl rfl)
  | vanishLost file => cases e; exact key (.same rfl (by simp) rfl rfl)
  | fopen fd => exact absurd rfl (h1 fd)
  | fclose fd => exact absurd rfl (h2 fd)

/-- Two watches; the descriptor is closed when the second one is destroyed. Both numbers the other thread may get. -/
example : ∃ s, Reach anything s ∧ Allowed s (.destroy 1) ∧ s.foreign = [5] ∧ s.fd = some 3 ∧
    (∃ s', step (some 3) s (.destroy 1) = .ok s' ∧ s'.foreign = [5]) ∧ (∃ s', step (some 4) s (.destroy 1) = .ok s' ∧ s'.foreign = [5, 4]) := by
  obtain ⟨s, e, h⟩ := reach_exec (l := [.fopen 5, .new 7 6 3, .new 8 6 4, .destroy 0]) (.init [] List.nodup_nil) (by decide)
  cases e
  exact ⟨_, h, by decide, by decide, by decide, ⟨_, rfl, by decide⟩, ⟨_, rfl, by decide⟩⟩

end Verif.Inotify
