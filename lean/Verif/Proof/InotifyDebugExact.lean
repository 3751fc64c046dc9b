import Verif.Proof.InotifyDebug
import Verif.Proof.InotifyShared

namespace Verif.Inotify.Debug
open Verif.C

/-- The watch which is stopped by the action, if it hasn't been stopped before -/
def Stops (s : State) : Act → Nat → Prop
  | .destroy v, w => v = w
  | .unref v, w => v = w ∧ ∃ x, s.watches[w]? = some x ∧ x.refs = 1
  | .ret, w => s.frame.map (·.1) = some w ∧ ∃ x, s.watches[w]? = some x ∧ x.refs = 1
  | _, _ => False

/-- It has got a descriptor which nobody knows. -/
def Unknown (s : State) (w : Nat) : Prop := ∃ x d i, s.watches[w]? = some x ∧ x.wd = some d ∧ s.inst = some i ∧ tableLookup i.table d = none

theorem stop_dich {s : State} {w : Nat} {x : Watch} {i : Inst} (hi : s.inst = some i) (hw : s.watches[w]? = some x) (hx : x.inst = i.id) (ws : List Watch) (r : Nat) :
    (Unknown s w → stop { s with watches := ws } w { x with refs := r } = .error .assertFail) ∧
    (¬ Unknown s w → stop { s with watches := ws } w { x with refs := r } = Inotify.stop { s with watches := ws } w { x with refs := r }) := by
  have hacc : State.access { s with watches := ws } x.inst = .ok i := by
    rw [hx]
    exact access_eq (s := { s with watches := ws }) hi
  constructor
  · rintro ⟨y, d, j, hy, hd, hj, hl⟩
    rw [hw] at hy
    cases hy
    rw [hi] at hj
    cases hj
    unfold stop
    rw [hd]
    dsimp only
    rw [hacc, ok_bind]
    have : gassert (tableLookup i.table d ≠ none) = .error .assertFail := if_neg (fun h => h hl)
    rw [this, error_bind]
  · intro hn
    unfold stop
    cases hd : x.wd with
    | none => simp only [Inotify.stop, hd]
    | some d =>
      dsimp only
      rw [hacc, ok_bind, gassert_ok (show tableLookup i.table d ≠ none from fun hl => hn ⟨x, d, i, hw, hd, hi, hl⟩), ok_bind]

theorem unrefWatch_dich {q : Nat → Prop} {r : Prop} {race : Option Nat} {c : Nat} {e : Nat → Nat} {b : List (Nat × Ev)} {s : State} {w : Nat} {x : Watch} (h : Full q r c e b s)
    (hw : s.watches[w]? = some x) (he : 0 < e w) :
    (x.refs = 1 ∧ Unknown s w → unrefWatch race s w = .error .assertFail) ∧ (¬ (x.refs = 1 ∧ Unknown s w) → unrefWatch race s w = Inotify.unrefWatch race s w) := by
  have hown := h.inv.own w x hw
  have hx : 0 < x.refs := by omega
  obtain ⟨i, hi, hxi⟩ := h.inv.ptr w x hw hx
  rw [unrefWatch, Inotify.unrefWatch, watch_eq hw hx, ok_bind, ok_bind]
  obtain ⟨s1, s2⟩ := stop_dich (w := w) (x := x) hi hw hxi (s.watches.set w { x with refs := 0 }) 0
  constructor
  · rintro ⟨h1, hu⟩
    rw [if_pos h1, s1 hu, error_bind]
  · intro hn
    by_cases h1 : x.refs = 1
    · rw [if_pos h1, if_pos h1, s2 (fun hu => hn ⟨h1, hu⟩), stop_eq hi hxi 0 hw, ok_bind, ok_bind]
      have h3 := stopSt_inv (c' := c + 1) (r := 0) (n := 0) h.inv hw hx (by omega) (by simp; omega)
      obtain ⟨t, ht, _⟩ := stopSt_inst (w := w) (x := x) (r := 0) hi
      rw [hxi]
      exact unrefInst_eq (i := { i with table := t }) h3 ht
    · rw [if_neg h1, if_neg h1]

theorem drop_dich {q : Nat → Prop} {r : Prop} {race : Option Nat} {c : Nat} {e : Nat → Nat} {b : List (Nat × Ev)} {s : State} {w : Nat} {x : Watch} (h : Full q r c e b s)
    (hw : s.watches[w]? = some x) (ho : 0 < x.owned) :
    (x.refs = 1 ∧ Unknown s w → unrefWatch race (disown s w) w = .error .assertFail) ∧
    (¬ (x.refs = 1 ∧ Unknown s w) → unrefWatch race (disown s w) w = Inotify.unrefWatch race (disown s w) w) := by
  have hw' : (disown s w).watches[w]? = some { x with owned := x.owned - 1 } := by
    rw [disown_eq hw]
    dsimp only
    rw [getElem?_set hw, if_pos rfl]
  have hu : Unknown (disown s w) w ↔ Unknown s w := by
    constructor
    · rintro ⟨y, d, j, hy, hd, hj, hl⟩
      rw [hw'] at hy
      cases hy
      exact ⟨x, d, j, hw, hd, by rw [disown_eq hw] at hj; exact hj, hl⟩
    · rintro ⟨y, d, j, hy, hd, hj, hl⟩
      rw [hw] at hy
      cases hy
      exact ⟨_, d, j, hw', hd, by rw [disown_eq hw]; exact hj, hl⟩
  have := unrefWatch_dich (race := race) (full_disown h hw ho) hw' (by simp [upd])
  rw [hu] at this
  exact this

/-- When an assertion fails, in terms of the state -/
theorem step_dich {q : Nat → Prop} {r : Prop} {s : State} {a : Act} {race : Option Nat} (h : Rest q r s) (ha : Allowed s a) (hr : ∀ fd, race = some fd → fd ∉ s.foreign) :
    ((∃ w, Stops s a w ∧ Unknown s w) → step race s a = .error .assertFail) ∧ (¬ (∃ w, Stops s a w ∧ Unknown s w) → step race s a = Inotify.step race s a) := by
  cases a with
  | new file mask fd =>
    refine ⟨fun ⟨w, hs, _⟩ => hs.elim, fun _ => ?_⟩
    show newWatch s file mask fd = _
    rw [newWatch, newInst_eq h.inv, ok_bind]; rfl
  | newFails fd =>
    refine ⟨fun ⟨w, hs, _⟩ => hs.elim, fun _ => ?_⟩
    obtain ⟨i, hi, hi2, h1, hf, hws, hk, hfo⟩ := full_newInst h bOf_nil ha
    show newFails race s fd = Inotify.newFails race s fd
    rw [newFails, newInst_eq h.inv, ok_bind]
    show unrefInst race (Inotify.newInst s fd).1 (Inotify.newInst s fd).2.id = Inotify.unrefInst race (Inotify.newInst s fd).1 (Inotify.newInst s fd).2.id
    rw [hi2]
    exact unrefInst_eq h1.inv hi
  | unref w =>
    obtain ⟨x, hw, ho⟩ := owned_some ha
    obtain ⟨d1, d2⟩ := drop_dich (race := race) h hw ho
    constructor
    · rintro ⟨v, ⟨rfl, y, hy, h1⟩, hu⟩
      rw [hw] at hy
      cases hy
      exact d1 ⟨h1, hu⟩
    · intro hn
      exact d2 (fun ⟨h1, hu⟩ => hn ⟨w, ⟨rfl, x, hw, h1⟩, hu⟩)
  | destroy w =>
    obtain ⟨x, hw, ho⟩ := owned_some ha
    have hown := h.inv.own w x hw
    have hx : 0 < x.refs := by omega
    obtain ⟨i, hi, hxi⟩ := h.inv.ptr w x hw hx
    obtain ⟨d1, d2⟩ := stop_dich (w := w) (x := x) hi hw hxi s.watches x.refs
    have d1 : Unknown s w → stop s w x = .error .assertFail := d1
    have d2 : ¬ Unknown s w → stop s w x = Inotify.stop s w x := d2
    show (_ → destroy race s w = _) ∧ (_ → destroy race s w = Inotify.destroy race s w)
    rw [destroy, Inotify.destroy, watch_eq hw hx, ok_bind, ok_bind]
    constructor
    · rintro ⟨v, rfl, hu⟩
      rw [d1 hu, error_bind]
    · intro hn
      have e1 := stop_eq hi hxi x.refs hw
      have e2 : s.watches.set w { x with refs := x.refs } = s.watches := set_self hw
      rw [e2] at e1
      have e1 : Inotify.stop s w x = .ok (stopSt s w x x.refs) := e1
      rw [d2 (fun hu => hn ⟨w, rfl, hu⟩), e1, ok_bind, ok_bind]
      obtain ⟨f1, f2, f3, f4, f6⟩ := stopSt_fields s w x x.refs
      have h1 : Full q r (cOf s.frame) (eOf s.frame) (bOf s.frame) (stopSt s w x x.refs) := by
        refine ⟨?_, fd_stop h.fd x.refs, hist_stop h.hist hi hw x.refs⟩
        have := stopSt_inv (c' := cOf s.frame) (r := x.refs) (n := eOf s.frame w) h.inv hw hx hown (by rw [if_pos hx]; omega)
        rw [upd_self] at this
        exact this
      have hw' : (stopSt s w x x.refs).watches[w]? = some { x with wd := none, refs := x.refs } := by
        rw [f1, getElem?_set hw, if_pos rfl]
      refine (drop_dich h1 hw' ho).2 ?_
      rintro ⟨_, y, d, j, hy, hd, _⟩
      rw [hw'] at hy
      cases hy
      cases hd
  | dispatch n =>
    refine ⟨fun ⟨w, hs, _⟩ => hs.elim, fun _ => ?_⟩
    obtain ⟨hn1, hn2, hf, i, hi, hs⟩ := ha
    show dispatch race s n = Inotify.dispatch race s n
    unfold dispatch Inotify.dispatch
    rw [hi]
    dsimp only
    unfold Rest at h
    rw [hf, eOf_none] at h
    have h0 : Full q r 0 (fun _ => 0) [] s := h
    rw [gassert_ok (h0.inv.pos i hi), ok_bind]
    exact proc_eq (i := { i with refs := i.refs + 1 }) (full_dispatch h0 hi n).inv rfl
  | ret =>
    cases hf : s.frame with
    | none => exact absurd hf ha
    | some p =>
      obtain ⟨w, t⟩ := p
      unfold Rest at h
      rw [hf] at h
      have h : Full q r 1 (eOf (some (w, t))) t s := h
      cases hi : s.inst with
      | none => exact absurd (h.inv.noInst hi).1 (by simp)
      | some i =>
        have h1 := full_frame h none
        have he : eOf (some (w, t)) w = 1 := by simp [eOf]
        obtain ⟨x, hw⟩ := some_of_extra (w := w) h.inv (by rw [he]; omega)
        have hw0 : ({ s with frame := none } : State).watches[w]? = some x := hw
        obtain ⟨d1, d2⟩ := unrefWatch_dich (race := race) (w := w) h1 hw0 (by rw [he]; omega)
        show (_ → ret race s = _) ∧ (_ → ret race s = Inotify.ret race s)
        unfold ret Inotify.ret
        rw [hf, hi]
        dsimp only
        constructor
        · rintro ⟨v, ⟨hv, y, hy, h2⟩, hu⟩
          rw [hf] at hv
          cases hv
          rw [hw] at hy
          cases hy
          have d1 := d1 ⟨h2, hu⟩
          rw [hi] at d1
          rw [d1, error_bind]
        · intro hn
          have e0 := d2 (fun ⟨h2, hu⟩ => hn ⟨w, ⟨by rw [hf]; rfl, x, hw, h2⟩, hu⟩)
          obtain ⟨s', e1, e2, e3, e4, _⟩ := full_unrefWatch (race := race) (w := w) h1 (by rw [he]; omega) hr (by simp)
          rw [hi] at e1 e0
          rw [e0, e1, ok_bind, ok_bind]
          obtain ⟨i', hi', hid⟩ := (e4 (by omega)).2 i hi
          rw [← hid]
          exact proc_eq e2.inv hi'
  | ref w => exact ⟨fun ⟨w, hs, _⟩ => hs.elim, fun _ => rfl⟩
  | readFails => exact ⟨fun ⟨w, hs, _⟩ => hs.elim, fun _ => rfl⟩
  | happen file ev => exact ⟨fun ⟨w, hs, _⟩ => hs.elim, fun _ => rfl⟩
  | vanish file => exact ⟨fun ⟨w, hs, _⟩ => hs.elim, fun _ => rfl⟩
  | merge file ev => exact ⟨fun ⟨w, hs, _⟩ => hs.elim, fun _ => rfl⟩
  | lose file ev => exact ⟨fun ⟨w, hs, _⟩ => hs.elim, fun _ => rfl⟩
  | vanishLost file => exact ⟨fun ⟨w, hs, _⟩ => hs.elim, fun _ => rfl⟩
  | fopen fd => exact ⟨fun ⟨w, hs, _⟩ => hs.elim, fun _ => rfl⟩
  | fclose fd => exact ⟨fun ⟨w, hs, _⟩ => hs.elim, fun _ => rfl⟩

/-! ## The log -/

/-- Nothing is stopped. -/
def NoStop (l : List Event) : Prop := ∀ v, Event.stopped v ∉ l

theorem nostop_nil : NoStop [] := fun _ h => by cases h

theorem unrefInst_log {race : Option Nat} {s s' : State} {id : Nat} (h : Inotify.unrefInst race s id = .ok s') : ∃ l, s'.log = s.log ++ l ∧ NoStop l := by
  unfold Inotify.unrefInst at h
  cases e : s.access id with
  | error _ => rw [e, error_bind] at h; cases h
  | ok i =>
    rw [e, ok_bind] at h
    split at h
    · cases h; exact ⟨_, rfl, fun v hv => by simp at hv⟩
    · cases h; exact ⟨[], by simp, nostop_nil⟩

theorem proc_log {race : Option Nat} {id : Nat} : ∀ {b : List (Nat × Ev)} {s s' : State}, Inotify.proc race s id b = .ok s' → ∃ l, s'.log = s.log ++ l ∧ NoStop l := by
  intro b
  induction b with
  | nil => intro s s' h; exact unrefInst_log h
  | cons p t ih =>
    intro s s' h
    obtain ⟨d, ev⟩ := p
    unfold Inotify.proc at h
    cases e : s.access id with
    | error _ => rw [e, error_bind] at h; cases h
    | ok i =>
      rw [e, ok_bind] at h
      split at h
      · exact ih h
      · unfold Inotify.ref at h
        rename_i w hl
        cases e2 : s.watch w with
        | error _ => rw [e2, error_bind, error_bind] at h; cases h
        | ok x =>
          rw [e2, ok_bind, ok_bind] at h
          cases h
          exact ⟨_, rfl, fun v hv => by simp at hv⟩

theorem unrefWatch_log {c : Nat} {e : Nat → Nat} {race : Option Nat} {s s' : State} {w : Nat} {x : Watch} (hv : Inv c e s) (hw : s.watches[w]? = some x) (he : 0 < e w)
    (h : Inotify.unrefWatch race s w = .ok s') :
    (x.refs = 1 ∧ x.wd ≠ none → ∃ l, s'.log = s.log ++ .stopped w :: l ∧ NoStop l) ∧ (¬ (x.refs = 1 ∧ x.wd ≠ none) → ∃ l, s'.log = s.log ++ l ∧ NoStop l) := by
  obtain ⟨s1, e1, _, e3⟩ := unrefWatch_inv (race := race) hv hw he
  rw [h] at e1
  cases e1
  have hlog : (stopSt s w x 0).log = s.log ++ (if x.wd = none then [] else [.stopped w]) := by
    unfold stopSt
    cases hd : x.wd with
    | none => simp
    | some d => simp
  rcases e3 with ⟨rfl, h1⟩ | ⟨h1, i, hi, rfl⟩ | ⟨h1, i, hi, hc, hall, rfl⟩
  · exact ⟨fun ⟨h2, _⟩ => by omega, fun _ => ⟨[], by simp, nostop_nil⟩⟩
  · constructor
    · rintro ⟨_, hd⟩
      exact ⟨[], by dsimp only; rw [hlog, if_neg hd], nostop_nil⟩
    · intro hn
      have hd : x.wd = none := Classical.byContradiction (fun hd => hn ⟨h1, hd⟩)
      exact ⟨[], by dsimp only; rw [hlog, if_pos hd], nostop_nil⟩
  · constructor
    · rintro ⟨_, hd⟩
      exact ⟨[.closed i.fd, .closed i.fd], by unfold closeSt; dsimp only; rw [hlog, if_neg hd, List.append_assoc]; rfl, fun v hv => by simp at hv⟩
    · intro hn
      have hd : x.wd = none := Classical.byContradiction (fun hd => hn ⟨h1, hd⟩)
      exact ⟨[.closed i.fd, .closed i.fd], by unfold closeSt; dsimp only; rw [hlog, if_pos hd, List.append_nil], fun v hv => by simp at hv⟩

/-- A watch which hasn't been stopped -/
def Running (s : State) (w : Nat) : Prop := ∃ x, s.watches[w]? = some x ∧ x.wd ≠ none

theorem step_log {q : Nat → Prop} {r : Prop} {s s' : State} {a : Act} {race : Option Nat} (h : Rest q r s) (ha : Allowed s a) (hr : ∀ fd, race = some fd → fd ∉ s.foreign)
    (hs : Inotify.step race s a = .ok s') :
    (∀ w, Stops s a w → Running s w → ∃ l, s'.log = s.log ++ .stopped w :: l ∧ NoStop l) ∧ ((∀ w, Stops s a w → ¬ Running s w) → ∃ l, s'.log = s.log ++ l ∧ NoStop l) := by
  cases a with
  | new file mask fd =>
    refine ⟨fun w hw => hw.elim, fun _ => ?_⟩
    cases hs
    have h3 : ∀ t : State, (kernelAdd t file mask).1.log = t.log := fun t => by unfold kernelAdd; split <;> rfl
    have h4 : ∃ l, (Inotify.newInst s fd).1.log = s.log ++ l ∧ NoStop l := by
      unfold Inotify.newInst
      split
      · exact ⟨[], by simp, nostop_nil⟩
      · exact ⟨_, rfl, fun v hv => by simp at hv⟩
    obtain ⟨l, h5, h6⟩ := h4
    refine ⟨l ++ [.created (kernelAdd (Inotify.newInst s fd).1 file mask).1.watches.length file mask], ?_, ?_⟩
    · unfold Inotify.newWatch
      dsimp only
      rw [h3, h5, List.append_assoc]
    · intro v hv
      rcases List.mem_append.1 hv with hv | hv
      · exact h6 v hv
      · simp at hv
  | newFails fd =>
    refine ⟨fun w hw => hw.elim, fun _ => ?_⟩
    have hs : Inotify.unrefInst race (Inotify.newInst s fd).1 (Inotify.newInst s fd).2.id = .ok s' := hs
    obtain ⟨l, h1, h2⟩ := unrefInst_log hs
    have h4 : ∃ l, (Inotify.newInst s fd).1.log = s.log ++ l ∧ NoStop l := by
      unfold Inotify.newInst
      split
      · exact ⟨[], by simp, nostop_nil⟩
      · exact ⟨_, rfl, fun v hv => by simp at hv⟩
    obtain ⟨l', h5, h6⟩ := h4
    refine ⟨l' ++ l, by rw [h1, h5, List.append_assoc], fun v hv => ?_⟩
    rcases List.mem_append.1 hv with hv | hv
    · exact h6 v hv
    · exact h2 v hv
  | ref w =>
    refine ⟨fun w hw => hw.elim, fun _ => ?_⟩
    obtain ⟨x, hw, ho⟩ := owned_some ha
    have hown := h.inv.own w x hw
    unfold Inotify.step at hs
    dsimp only at hs
    unfold Inotify.ref at hs
    rw [watch_eq hw (by omega), ok_bind, ok_bind] at hs
    cases hs
    exact ⟨[], by simp, nostop_nil⟩
  | unref w =>
    obtain ⟨x, hw, ho⟩ := owned_some ha
    have hw' : (disown s w).watches[w]? = some { x with owned := x.owned - 1 } := by
      rw [disown_eq hw]
      dsimp only
      rw [getElem?_set hw, if_pos rfl]
    have hs : Inotify.unrefWatch race (disown s w) w = .ok s' := hs
    have hl := unrefWatch_log (full_disown h hw ho).inv hw' (by simp [upd]) hs
    have e : (disown s w).log = s.log := by rw [disown_eq hw]
    rw [e] at hl
    constructor
    · rintro v ⟨rfl, y, hy, h1⟩ ⟨z, hz, h2⟩
      rw [hw] at hy hz
      cases hy
      cases hz
      exact hl.1 ⟨h1, h2⟩
    · intro hn
      exact hl.2 (fun ⟨h1, h2⟩ => hn w ⟨rfl, x, hw, h1⟩ ⟨x, hw, h2⟩)
  | destroy w =>
    obtain ⟨x, hw, ho⟩ := owned_some ha
    have hown := h.inv.own w x hw
    have hx : 0 < x.refs := by omega
    obtain ⟨i, hi, hxi⟩ := h.inv.ptr w x hw hx
    have hs : Inotify.destroy race s w = .ok s' := hs
    unfold Inotify.destroy at hs
    rw [watch_eq hw hx, ok_bind] at hs
    have e1 := stop_eq hi hxi x.refs hw
    have e2 : s.watches.set w { x with refs := x.refs } = s.watches := set_self hw
    rw [e2] at e1
    have e1 : Inotify.stop s w x = .ok (stopSt s w x x.refs) := e1
    rw [e1, ok_bind] at hs
    obtain ⟨f1, f2, f3, f4, f6⟩ := stopSt_fields s w x x.refs
    have h1 : Full q r (cOf s.frame) (eOf s.frame) (bOf s.frame) (stopSt s w x x.refs) := by
      refine ⟨?_, fd_stop h.fd x.refs, hist_stop h.hist hi hw x.refs⟩
      have := stopSt_inv (c' := cOf s.frame) (r := x.refs) (n := eOf s.frame w) h.inv hw hx hown (by rw [if_pos hx]; omega)
      rw [upd_self] at this
      exact this
    have hw' : (stopSt s w x x.refs).watches[w]? = some { x with wd := none, refs := x.refs } := by
      rw [f1, getElem?_set hw, if_pos rfl]
    have hw2 : (disown (stopSt s w x x.refs) w).watches[w]? = some { x with wd := none, refs := x.refs, owned := x.owned - 1 } := by
      rw [disown_eq hw']
      dsimp only
      rw [getElem?_set hw', if_pos rfl]
    have hl := unrefWatch_log (full_disown h1 hw' ho).inv hw2 (by simp [upd]) hs
    have e : (disown (stopSt s w x x.refs) w).log = (stopSt s w x x.refs).log := by rw [disown_eq hw']
    rw [e] at hl
    have hlog : (stopSt s w x x.refs).log = s.log ++ (if x.wd = none then [] else [.stopped w]) := by
      unfold stopSt
      cases hd : x.wd with
      | none => simp
      | some d => simp
    obtain ⟨l, h2, h3⟩ := hl.2 (fun ⟨_, hn⟩ => hn rfl)
    rw [hlog] at h2
    constructor
    · rintro v rfl ⟨z, hz, h4⟩
      have hz : s.watches[w]? = some z := hz
      rw [hw] at hz
      cases hz
      rw [if_neg h4, List.append_assoc] at h2
      exact ⟨l, h2, h3⟩
    · intro hn
      have hd : x.wd = none := Classical.byContradiction (fun hd => hn w rfl ⟨x, hw, hd⟩)
      rw [if_pos hd, List.append_nil] at h2
      exact ⟨l, h2, h3⟩
  | dispatch n =>
    refine ⟨fun w hw => hw.elim, fun _ => ?_⟩
    have hs : Inotify.dispatch race s n = .ok s' := hs
    unfold Inotify.dispatch at hs
    split at hs
    · cases hs
    · have q := proc_log hs
      exact q
  | readFails =>
    refine ⟨fun w hw => hw.elim, fun _ => ?_⟩
    have hs : Inotify.readFails s = .ok s' := hs
    unfold Inotify.readFails at hs
    split at hs
    · cases hs
    · cases hs; exact ⟨[], by simp, nostop_nil⟩
  | ret =>
    cases hf : s.frame with
    | none => exact absurd hf ha
    | some p =>
      obtain ⟨w, t⟩ := p
      unfold Rest at h
      rw [hf] at h
      have h : Full q r 1 (eOf (some (w, t))) t s := h
      cases hi : s.inst with
      | none => exact absurd (h.inv.noInst hi).1 (by simp)
      | some i =>
        have h1 := full_frame h none
        have he : eOf (some (w, t)) w = 1 := by simp [eOf]
        obtain ⟨x, hw⟩ := some_of_extra (w := w) h.inv (by rw [he]; omega)
        have hw0 : ({ s with frame := none } : State).watches[w]? = some x := hw
        have hs : Inotify.ret race s = .ok s' := hs
        unfold Inotify.ret at hs
        rw [hf, hi] at hs
        dsimp only at hs
        obtain ⟨s1, e1, _⟩ := full_unrefWatch (race := race) (w := w) h1 (by rw [he]; omega) hr (by simp)
        have hl := unrefWatch_log h1.inv hw0 (by rw [he]; omega) e1
        rw [hi] at e1
        rw [e1, ok_bind] at hs
        obtain ⟨l2, g1, g2⟩ := proc_log hs
        constructor
        · rintro v ⟨hv, y, hy, h1⟩ ⟨z, hz, h2⟩
          rw [hf] at hv
          cases hv
          rw [hw] at hy hz
          cases hy
          cases hz
          obtain ⟨l, h3, h4⟩ := hl.1 ⟨h1, h2⟩
          refine ⟨l ++ l2, by rw [g1, h3]; simp, fun u hu => ?_⟩
          rcases List.mem_append.1 hu with hu | hu
          · exact h4 u hu
          · exact g2 u hu
        · intro hn
          obtain ⟨l, h3, h4⟩ := hl.2 (fun ⟨h1, h2⟩ => hn w ⟨by rw [hf]; rfl, x, hw, h1⟩ ⟨x, hw, h2⟩)
          refine ⟨l ++ l2, by rw [g1, h3]; simp, fun v hv => ?_⟩
          rcases List.mem_append.1 hv with hv | hv
          · exact h4 v hv
          · exact g2 v hv
  | happen file ev => cases hs; exact ⟨fun w hw => hw.elim, fun _ => ⟨_, rfl, fun v hv => by simp at hv⟩⟩
  | vanish file => cases hs; exact ⟨fun w hw => hw.elim, fun _ => ⟨_, rfl, fun v hv => by simp at hv⟩⟩
  | merge file ev => cases hs; exact ⟨fun w hw => hw.elim, fun _ => ⟨_, rfl, fun v hv => by simp at hv⟩⟩
  | lose file ev => cases hs; exact ⟨fun w hw => hw.elim, fun _ => ⟨_, rfl, fun v hv => by simp at hv⟩⟩
  | vanishLost file => cases hs; exact ⟨fun w hw => hw.elim, fun _ => ⟨_, rfl, fun v hv => by simp at hv⟩⟩
  | fopen fd => cases hs; exact ⟨fun w hw => hw.elim, fun _ => ⟨[], by simp, nostop_nil⟩⟩
  | fclose fd => cases hs; exact ⟨fun w hw => hw.elim, fun _ => ⟨[], by simp, nostop_nil⟩⟩

/-- A watch whose group has ended isn't known anymore. -/
theorem unknown_iff {base : Nat} {b : List (Nat × Ev)} {s : State} (h : G base b s) {Q : Nat → Prop} (hh : Hist Q b s) {c : Nat} {e : Nat → Nat} (hv : Inv c e s) {w : Nat} :
    Unknown s w ↔ Running s w ∧ ∃ g ∈ groups s.log, w ∈ g.members ∧ g.ended = true := by
  constructor
  · rintro ⟨x, d, i, hw, hd, hi, hl⟩
    refine ⟨⟨x, hw, by rw [hd]; simp⟩, ?_⟩
    obtain ⟨g, hg, hm⟩ := h.mem w x d hw hd
    have ht := h.tab i hi d (hh.wdLt w x d hw hd).1
    rw [hl, hg, Option.bind_some] at ht
    refine ⟨g, List.mem_of_getElem? hg, hm, ?_⟩
    cases he : g.ended with
    | true => rfl
    | false =>
      rw [he] at ht
      cases hm' : g.members with
      | nil => rw [hm'] at hm; cases hm
      | cons a t => rw [hm'] at ht; cases ht
  · rintro ⟨⟨x, hw, hd⟩, g, hg, hm, he⟩
    cases hd' : x.wd with
    | none => exact absurd hd' hd
    | some d =>
      have hx : 0 < x.refs := by
        apply Classical.byContradiction
        intro h0
        exact hd (hv.dead w x hw (by omega))
      obtain ⟨i, hi, _⟩ := hv.ptr w x hw hx
      obtain ⟨g', hg', hm'⟩ := h.mem w x d hw hd'
      obtain ⟨n, hn⟩ := List.getElem?_of_mem hg
      have hnn := h.uniq n _ g g' w hn hg' hm hm'
      rw [hnn, hg'] at hn
      cases hn
      have ht := h.tab i hi d (hh.wdLt w x d hw hd').1
      rw [hg', Option.bind_some, if_pos he] at ht
      exact ⟨x, d, i, hw, hd', hi, ht⟩

end Verif.Inotify.Debug
