import Verif.Props.IdlePool

/-!
# References to the idle pool which belong to the client: helpers
-/

namespace Verif.Pool
open Verif.C

/-- `gutil_idle_pool_destroy` is going to drop a reference. -/
def Cont.drops : Cont → Nat
  | .destroy => 1
  | _ => 0

/-- How many of those are in progress -/
def drops (st : List Frame) : Nat := (st.map (fun f => f.cont.drops)).sum

theorem drops_le : ∀ st, drops st ≤ need st := by
  intro st
  induction st with
  | nil => exact Nat.le_refl _
  | cons f st ih =>
    obtain ⟨rest, k⟩ := f
    have e : drops (⟨rest, k⟩ :: st) = k.drops + drops st := rfl
    rw [e]
    cases k <;> simp only [Cont.drops, need] <;> omega

/-- The client has `n` references less than before. -/
def Lost (n : Nat) (s s' : State) : Prop := s'.owned + drops s.stack + n = s.owned + drops s'.stack

theorem Lost.trans {a b c : State} {n : Nat} (h : Lost 0 a b) (h' : Lost n b c) : Lost n a c := by
  unfold Lost at *
  omega

theorem Lost.refl (s : State) : Lost 0 s s := rfl

theorem lost_free {s s' : State} (h : free s = .ok s') : Lost 0 s s' := by
  unfold free at h
  split at h
  · cases h
    exact Lost.refl s
  · cases h

theorem lost_clear (s : State) : Lost 0 s (clearCell s) := by
  unfold clearCell
  split <;> exact Lost.refl s

theorem lost_proc {k : Cont} (l : List Item) : ∀ {s s' : State} {d : Bool}, proc l s k = .ok (s', d) → Lost (if d then 0 else k.drops) s s' := by
  induction l with
  | nil =>
    intro s s' d h
    cases h
    exact Lost.refl s
  | cons i t ih =>
    intro s s' d h
    unfold proc at h
    split at h
    · split at h
      · cases h
      · have := ih h
        exact this
    · cases h
      unfold Lost
      have e : drops (⟨t, k⟩ :: s.stack) = k.drops + drops s.stack := rfl
      dsimp only
      rw [e, if_neg (by decide)]
      omega

theorem lost_removeIdle {s s' : State} {x : Nat} (h : removeIdle s x = .ok s') : Lost 0 s s' := by
  unfold removeIdle at h
  split at h
  · cases h
    exact Lost.refl s
  · split at h
    · split at h
      · cases h
      split at h
      · have := (lost_clear _).trans (lost_free h)
        exact this
      · cases h
        exact Lost.refl s
    · cases h

theorem lost_drainEnd {s s' : State} {n : Nat} {cont : State → M State} (hn : drops s.stack + n ≤ s.owned)
    (hc : ∀ a b, drops a.stack + n ≤ a.owned → cont a = .ok b → Lost n a b) (h : drainEnd s cont = .ok s') : Lost n s s' := by
  cases hx : s.idle with
  | none =>
    rw [drainEnd_none hx] at h
    have := hc { s with log := s.log ++ [.drained s.stack.length] } _ hn h
    exact this
  | some x =>
    rw [drainEnd_some hx] at h
    obtain ⟨a, h1, h2⟩ := bind_ok h
    have h3 := lost_removeIdle h1
    have := hc _ _ (by dsimp only; unfold Lost at h3; omega) h2
    exact h3.trans this

theorem lost_drainNext {s s' : State} {k : Cont} {cont : State → M State} (hn : drops s.stack + k.drops ≤ s.owned)
    (hc : ∀ a b, drops a.stack + k.drops ≤ a.owned → cont a = .ok b → Lost k.drops a b) (h : drainNext s k cont = .ok s') : Lost k.drops s s' := by
  unfold drainNext at h
  obtain ⟨_, _, h⟩ := bind_ok h
  split at h
  · exact lost_drainEnd hn hc h
  · obtain ⟨⟨a, d⟩, h1, h2⟩ := bind_ok h
    have h3 := lost_proc _ h1
    have h3 : Lost (if d then 0 else k.drops) s a := h3
    dsimp only at h2
    split at h2
    · rename_i hd
      rw [if_pos hd] at h3
      split at h2
      · exact h3.trans (lost_drainEnd (by unfold Lost at h3; omega) hc h2)
      · cases h2
    · rename_i hd
      rw [if_neg hd] at h3
      cases h2
      exact h3

theorem lost_unref {s s' : State} (hn : drops s.stack ≤ s.owned) (h : unref s = .ok s') : Lost 0 s s' := by
  unfold unref at h
  obtain ⟨_, _, h⟩ := bind_ok h
  split at h
  · cases h
  · split at h
    · have h1 : Lost 0 s (clearCell { s with refs := 0 }) := lost_clear { s with refs := 0 }
      exact h1.trans (lost_drainNext (k := .final) (by unfold Lost at h1; simp only [Cont.drops]; omega) (fun _ _ _ => lost_free) h)
    · cases h
      exact Lost.refl s

theorem lost_after {k : Cont} {s s' : State} (hn : drops s.stack + k.drops ≤ s.owned) (h : after k s = .ok s') : Lost k.drops s s' := by
  unfold after at h
  cases k with
  | ret => cases h; exact Lost.refl s
  | destroy =>
    simp only [Cont.drops] at hn ⊢
    have := lost_unref (s := { s with owned := s.owned - 1 }) (by dsimp only; omega) h
    unfold Lost at *
    dsimp only at this
    omega
  | idle src => exact lost_unref (s := { s with live := s.live.erase src }) hn h
  | final => exact lost_free h

theorem lost_drain {k : Cont} {s s' : State} (hn : drops s.stack + k.drops ≤ s.owned) (h : drain s k = .ok s') : Lost k.drops s s' :=
  lost_drainNext hn (fun _ _ => lost_after) h

/-- References taken by the client -/
def taken : Act → Nat
  | .ref => 1
  | _ => 0

/-- References dropped by the client, or being dropped -/
def dropped : Act → Nat
  | .unref | .destroy => 1
  | _ => 0

theorem step_owned {s s' : State} {a : Act} (hi : need s.stack ≤ s.owned) (ha : Allowed s a) (h : step s a = .ok s') :
    s'.owned + drops s.stack + dropped a = s.owned + drops s'.stack + taken a := by
  have hd := drops_le s.stack
  cases a with
  | add =>
    obtain ⟨_, _, h⟩ := bind_ok h
    obtain ⟨l, _, h⟩ := bind_ok h
    cases h
    unfold schedule
    split <;> rfl
  | ref =>
    obtain ⟨_, _, h⟩ := bind_ok h
    cases h
    simp only [taken, dropped]
    omega
  | unref =>
    have ha : need s.stack + 1 ≤ s.owned := ha
    have := lost_unref (s := { s with owned := s.owned - 1 }) (by dsimp only; omega) h
    unfold Lost at this
    simp only [taken, dropped]
    dsimp only at this
    omega
  | drain => exact lost_drain (k := .ret) (by simp only [Cont.drops]; omega) h
  | destroy =>
    have ha : need s.stack + 1 ≤ s.owned := ha
    exact lost_drain (k := .destroy) (by simp only [Cont.drops]; omega) h
  | dispatch src right =>
    obtain ⟨_, _, h⟩ := bind_ok h
    split at h
    · have := lost_drain (s := { s with idle := none }) (k := .idle src) (by simp only [Cont.drops]; omega) h
      exact this
    · exact lost_unref (s := { s with idle := none, live := s.live.erase src }) (by dsimp only; omega) h
  | ret =>
    unfold step ret at h
    dsimp only at h
    split at h
    · cases h
    · obtain ⟨⟨a, d⟩, h1, h2⟩ := bind_ok h
      rename_i f st hst
      have h3 := lost_proc (s := { s with stack := st }) _ h1
      have e : drops (f :: st) = f.cont.drops + drops st := rfl
      rw [hst, e] at hd
      rw [hst, e]
      unfold Lost at h3
      dsimp only at h2 h3
      simp only [taken, dropped]
      split at h2
      · rename_i hdn
        rw [if_pos hdn] at h3
        have := lost_drain (s := a) (k := f.cont) (by rw [hst] at hi; omega) h2
        unfold Lost at this
        omega
      · rename_i hdn
        rw [if_neg hdn] at h3
        cases h2
        omega
  | cell c => cases h; rfl

theorem exec_owned : ∀ (acts : List Act) {s s' : State}, Reach any s → legal s acts = true → exec s acts = .ok s' →
    s'.owned + drops s.stack + (acts.map dropped).sum = s.owned + drops s'.stack + (acts.map taken).sum := by
  intro acts
  induction acts with
  | nil => intro s s' _ _ h; injection h with h; rw [h]; rfl
  | cons a t ih =>
    intro s s' hr hl h
    unfold legal at hl
    unfold exec at h
    split at hl
    · rename_i ha
      cases hs : step s a with
      | error e => rw [hs] at h; cases h
      | ok s1 =>
        rw [hs] at hl h
        have h1 := ih (hr.step ha trivial hs) hl h
        have h2 := step_owned (any_inv hr).needOk ha hs
        rw [List.map_cons, List.map_cons, List.sum_cons, List.sum_cons]
        omega
    · cases hl

end Verif.Pool
