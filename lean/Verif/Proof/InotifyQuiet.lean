import Verif.Proof.InotifyDelta

/-!
# Inotify if handlers do nothing to the watches; references which belong to the client
-/

namespace Verif.Inotify
open Verif.C

/-- Which handlers are called -/
def toCall (table : List (Nat × Nat)) (b : List (Nat × Ev)) : List (Nat × Ev) := b.filterMap (fun p => (tableLookup table p.1).map (fun w => (w, p.2)))

/-- `n` times handlers return. -/
def Rets (n : Nat) (s s' : State) : Prop := exec s (List.replicate n .ret) = .ok s'

theorem cons_rets {n : Nat} {a : Act} {s s0 s' : State} (h : step none s a = .ok s0) (q : Rets n s0 s') : exec s (a :: List.replicate n .ret) = .ok s' := by
  unfold exec
  rw [h]
  exact q

theorem proc_quiet {s : State} {i : Inst} (hi : s.inst = some i) (hr : 0 < i.refs) (hf : s.frame = none) {q : List (Nat × Ev)}
    (ht : ∀ d w, tableLookup i.table d = some w → ∃ x, s.watches[w]? = some x ∧ 0 < x.refs) (b : List (Nat × Ev)) : ∀ (l : List Event),
    ∃ s1, proc none { s with inst := some { i with refs := i.refs + 1 }, queue := q, log := l } i.id b = .ok s1 ∧
      Rets (toCall i.table b).length s1 { s with queue := q, log := l ++ (toCall i.table b).map (fun p => .delivered p.1 p.2) } := by
  induction b with
  | nil =>
    intro l
    refine ⟨{ s with queue := q, log := l }, ?_, ?_⟩
    · unfold proc unrefInst
      rw [access_eq (i := { i with refs := i.refs + 1 }) rfl, ok_bind, if_neg (by dsimp only; omega)]
      simp only [Nat.add_sub_cancel, ← hi]
    · simp [toCall, Rets, exec]
  | cons p t ih =>
    intro l
    obtain ⟨d, ev⟩ := p
    unfold proc
    rw [access_eq (i := { i with refs := i.refs + 1 }) rfl, ok_bind]
    dsimp only
    cases hl : tableLookup i.table d with
    | none =>
      dsimp only
      obtain ⟨s1, e, h⟩ := ih l
      refine ⟨s1, e, ?_⟩
      have hc : toCall i.table ((d, ev) :: t) = toCall i.table t := by simp [toCall, hl]
      rw [hc]
      exact h
    | some w =>
      dsimp only
      obtain ⟨x, hx, hp⟩ := ht d w hl
      have hc : toCall i.table ((d, ev) :: t) = (w, ev) :: toCall i.table t := by simp [toCall, hl]
      unfold ref
      rw [watch_eq (s := { s with inst := some { i with refs := i.refs + 1 }, queue := q, log := l }) (x := x) hx hp, ok_bind, ok_bind]
      refine ⟨_, rfl, ?_⟩
      obtain ⟨s1, e, h⟩ := ih (l ++ [.delivered w ev])
      rw [hc, List.length_cons]
      have hlt := lt_of_some hx
      have hr1 : step none { s with inst := some { i with refs := i.refs + 1 }, queue := q, watches := s.watches.set w { x with refs := x.refs + 1 }, frame := some (w, t), log := l ++ [.delivered w ev] } .ret = .ok s1 := by
        rw [step, ret]
        unfold unrefWatch
        dsimp only
        rw [watch_eq (x := { x with refs := x.refs + 1 }) (by dsimp only; rw [List.getElem?_set_self hlt]) (by dsimp only; omega), ok_bind,
          if_neg (by dsimp only; omega), ok_bind]
        rw [← e]
        dsimp only
        rw [List.set_set, Nat.add_sub_cancel, set_self hx]
        congr 1
        rw [hf]
      have q := cons_rets hr1 h
      unfold Rets
      rw [List.replicate_succ, q]
      simp

/-- The references which belong to the client are the same. -/
def SameOwned (s s' : State) : Prop := ∀ w, s'.owned w = s.owned w

theorem owned_set_same {s : State} {w : Nat} {x y : Watch} (h : s.watches[w]? = some x) (ho : y.owned = x.owned) (s' : State) (hs : s'.watches = s.watches.set w y) : SameOwned s s' := by
  intro v
  unfold State.owned
  rw [hs, getElem?_set h]
  split
  · next e => rw [e, h]; simp [ho]
  · rfl

theorem owned_watches {s s' : State} (h : s'.watches = s.watches) : SameOwned s s' := fun w => by unfold State.owned; rw [h]

theorem SameOwned.trans {s s1 s2 : State} (h1 : SameOwned s s1) (h2 : SameOwned s1 s2) : SameOwned s s2 := fun w => (h2 w).trans (h1 w)

theorem watch_ok_inv {s : State} {w : Nat} {x : Watch} (h : s.watch w = .ok x) : s.watches[w]? = some x := by
  unfold State.watch at h
  split at h
  · next y hy =>
    split at h
    · cases h
    · cases h; exact hy
  · cases h

theorem unrefInst_owned {race : Option Nat} {s s' : State} {id : Nat} (h : unrefInst race s id = .ok s') : SameOwned s s' := by
  unfold unrefInst at h
  obtain ⟨i, _, h⟩ := bind_inv h
  split at h <;> (cases h; exact owned_watches rfl)

theorem stop_owned {s s' : State} {w : Nat} {x : Watch} (hw : s.watches[w]? = some x) (h : stop s w x = .ok s') : SameOwned s s' := by
  unfold stop at h
  split at h
  · cases h; exact owned_watches rfl
  · obtain ⟨i, _, h⟩ := bind_inv h
    cases h
    exact owned_set_same hw (y := { x with wd := none }) rfl _ rfl

theorem unrefWatch_owned {race : Option Nat} {s s' : State} {w : Nat} (h : unrefWatch race s w = .ok s') : SameOwned s s' := by
  unfold unrefWatch at h
  obtain ⟨x, hx, h⟩ := bind_inv h
  have hx := watch_ok_inv hx
  have hlt := lt_of_some hx
  split at h
  · obtain ⟨s1, h1, h⟩ := bind_inv h
    have q0 : SameOwned s { s with watches := s.watches.set w { x with refs := 0 } } := owned_set_same hx (y := { x with refs := 0 }) rfl _ rfl
    have q1 := stop_owned (by dsimp only; rw [List.getElem?_set_self hlt]) h1
    exact (q0.trans q1).trans (unrefInst_owned h)
  · cases h
    exact owned_set_same hx (y := { x with refs := x.refs - 1 }) rfl _ rfl

theorem ref_owned {s s' : State} {w : Nat} (h : ref s w = .ok s') : SameOwned s s' := by
  unfold ref at h
  obtain ⟨x, hx, h⟩ := bind_inv h
  cases h
  exact owned_set_same (watch_ok_inv hx) (y := { x with refs := x.refs + 1 }) rfl _ rfl

theorem proc_owned {race : Option Nat} {id : Nat} : ∀ {b : List (Nat × Ev)} {s s' : State}, proc race s id b = .ok s' → SameOwned s s' := by
  intro b
  induction b with
  | nil => intro s s' h; exact unrefInst_owned h
  | cons p t ih =>
    intro s s' h
    obtain ⟨d, ev⟩ := p
    unfold proc at h
    obtain ⟨i, _, h⟩ := bind_inv h
    split at h
    · exact ih h
    · obtain ⟨s1, h1, h⟩ := bind_inv h
      cases h
      exact (ref_owned h1).trans (owned_watches rfl)

theorem modify_owned (s : State) (w : Nat) (f : Watch → Watch) (g : Nat → Nat) (hf : ∀ x, (f x).owned = g x.owned) (hw : w < s.watches.length) (v : Nat) :
    ({ s with watches := s.watches.modify w f } : State).owned v = if v = w then g (s.owned v) else s.owned v := by
  unfold State.owned
  dsimp only
  rw [List.getElem?_modify]
  split
  · next e =>
    subst e
    rw [if_pos rfl, List.getElem?_eq_getElem hw]
    simp [hf]
  · next e =>
    rw [if_neg (fun h => e h.symm)]
    simp

theorem newFails_owned {race : Option Nat} {s s' : State} {fd : Nat} (h : newFails race s fd = .ok s') : SameOwned s s' := by
  have h : unrefInst race (newInst s fd).1 (newInst s fd).2.id = .ok s' := h
  exact (owned_watches (newInst_watches s fd)).trans (unrefInst_owned h)

theorem lt_of_owned {s : State} {w : Nat} (h : 0 < s.owned w) : w < s.watches.length := by
  obtain ⟨x, hx, _⟩ := owned_some h
  exact lt_of_some hx

end Verif.Inotify
