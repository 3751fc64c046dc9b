import Verif.Props.Inotify
import Verif.Model.InotifyDebug

namespace Verif.Inotify.Debug
open Verif.C

theorem gassert_ok {c : Prop} [Decidable c] (h : c) : gassert c = .ok () := if_pos h

theorem unrefInst_eq {race : Option Nat} {c : Nat} {e : Nat → Nat} {s : State} {i : Inst} (h : Inv (c + 1) e s) (hi : s.inst = some i) :
    unrefInst race s i.id = Inotify.unrefInst race s i.id := by
  rw [unrefInst, access_eq hi, ok_bind, gassert_ok (h.pos i hi), ok_bind]
  split
  · rename_i h1
    have hr := h.refs i hi
    have hc : s.watches.countP alive = 0 := by omega
    have ht : i.table = [] := by
      rw [List.eq_nil_iff_forall_not_mem]
      rintro ⟨d, w⟩ hm
      obtain ⟨x, hx, hd⟩ := h.table i hi d w hm
      have h0 := List.countP_eq_zero.1 hc x (List.mem_of_getElem? hx)
      simp only [alive, decide_eq_true_eq] at h0
      rw [h.dead w x hx (by omega)] at hd
      cases hd
    rw [gassert_ok ht, ok_bind]
  · rfl

theorem lookup_some {t : List (Nat × Nat)} {d w : Nat} (h : (d, w) ∈ t) : tableLookup t d ≠ none :=
  fun e => lookup_none e h

theorem stop_same {b : List (Nat × Ev)} {s : State} {w : Nat} {x : Watch} {i : Inst} (h : Hist (fun _ => True) b s) (hi : s.inst = some i) (hw : s.watches[w]? = some x)
    (hx : x.inst = i.id) (ws : List Watch) (r : Nat) :
    stop { s with watches := ws } w { x with refs := r } = Inotify.stop { s with watches := ws } w { x with refs := r } := by
  unfold stop
  cases hd : x.wd with
  | none => simp only [Inotify.stop, hd]
  | some d =>
    dsimp only
    obtain ⟨j, hj, hm⟩ := h.wdT w x d hw hd trivial
    rw [hi] at hj
    cases hj
    have hacc : State.access { s with watches := ws } x.inst = .ok i := by
      rw [hx]
      exact access_eq (s := { s with watches := ws }) hi
    rw [hacc, ok_bind, gassert_ok (lookup_some hm), ok_bind]

theorem unrefWatch_eq {r : Prop} {race : Option Nat} {c : Nat} {e : Nat → Nat} {b : List (Nat × Ev)} {s : State} {w : Nat} (h : Full (fun _ => True) r c e b s)
    (he : 0 < e w) : unrefWatch race s w = Inotify.unrefWatch race s w := by
  have hlt : w < s.watches.length := by
    apply Classical.byContradiction
    intro hge
    have := h.inv.extra w (by omega)
    omega
  have hw : s.watches[w]? = some s.watches[w] := List.getElem?_eq_getElem hlt
  generalize s.watches[w] = x at hw
  have hown := h.inv.own w x hw
  have hx : 0 < x.refs := by omega
  obtain ⟨i, hi, hxi⟩ := h.inv.ptr w x hw hx
  rw [unrefWatch, Inotify.unrefWatch, watch_eq hw hx, ok_bind, ok_bind]
  by_cases h1 : x.refs = 1
  · rw [if_pos h1, if_pos h1, stop_same h.hist hi hw hxi, stop_eq hi hxi 0 hw, ok_bind, ok_bind]
    have h3 := stopSt_inv (c' := c + 1) (r := 0) (n := 0) h.inv hw hx (by omega) (by simp; omega)
    obtain ⟨t, ht, _⟩ := stopSt_inst (w := w) (x := x) (r := 0) hi
    rw [hxi]
    exact unrefInst_eq (i := { i with table := t }) h3 ht
  · rw [if_neg h1, if_neg h1]

theorem proc_eq {race : Option Nat} {e : Nat → Nat} : ∀ {b : List (Nat × Ev)} {s : State} {i : Inst}, Inv 1 e s → s.inst = some i →
    proc race s i.id b = Inotify.proc race s i.id b := by
  intro b
  induction b with
  | nil => intro s i h hi; exact unrefInst_eq (c := 0) h hi
  | cons p t ih =>
    intro s i h hi
    obtain ⟨d, ev⟩ := p
    rw [proc, Inotify.proc, access_eq hi, ok_bind, ok_bind]
    cases tableLookup i.table d with
    | none => exact ih h hi
    | some w => rfl

theorem drop_eq {r : Prop} {race : Option Nat} {c : Nat} {e : Nat → Nat} {b : List (Nat × Ev)} {s : State} {w : Nat} {x : Watch} (h : Full (fun _ => True) r c e b s)
    (hw : s.watches[w]? = some x) (ho : 0 < x.owned) : unrefWatch race (disown s w) w = Inotify.unrefWatch race (disown s w) w :=
  unrefWatch_eq (full_disown h hw ho) (by simp [upd])

theorem newInst_eq {c : Nat} {e : Nat → Nat} {s : State} (h : Inv c e s) (fd : Nat) : newInst s fd = .ok (Inotify.newInst s fd) := by
  rw [newInst]
  cases hi : s.inst with
  | none => rw [ok_bind]
  | some i => dsimp only; rw [gassert_ok (h.pos i hi), ok_bind]

theorem step_eq {r : Prop} {s : State} {a : Act} {race : Option Nat} (h : Rest (fun _ => True) r s) (ha : Allowed s a) (hr : ∀ fd, race = some fd → fd ∉ s.foreign) :
    step race s a = Inotify.step race s a := by
  cases a with
  | new file mask fd =>
    show newWatch s file mask fd = _
    rw [newWatch, newInst_eq h.inv, ok_bind]; rfl
  | newFails fd =>
    obtain ⟨i, hi, hi2, h1, hf, hws, hk, hfo⟩ := full_newInst h bOf_nil ha
    show newFails race s fd = Inotify.newFails race s fd
    rw [newFails, newInst_eq h.inv, ok_bind]
    show unrefInst race (Inotify.newInst s fd).1 (Inotify.newInst s fd).2.id = Inotify.unrefInst race (Inotify.newInst s fd).1 (Inotify.newInst s fd).2.id
    rw [hi2]
    exact unrefInst_eq h1.inv hi
  | unref w =>
    obtain ⟨x, hw, ho⟩ := owned_some ha
    exact drop_eq h hw ho
  | destroy w =>
    obtain ⟨x, hw, ho⟩ := owned_some ha
    have hown := h.inv.own w x hw
    have hx : 0 < x.refs := by omega
    obtain ⟨i, hi, hxi⟩ := h.inv.ptr w x hw hx
    show destroy race s w = Inotify.destroy race s w
    rw [destroy, Inotify.destroy, watch_eq hw hx, ok_bind, ok_bind]
    have e0 : stop s w x = Inotify.stop s w x := stop_same h.hist hi hw hxi s.watches x.refs
    have e1 := stop_eq hi hxi x.refs hw
    have e2 : s.watches.set w { x with refs := x.refs } = s.watches := set_self hw
    rw [e2] at e1
    have e1 : Inotify.stop s w x = .ok (stopSt s w x x.refs) := e1
    rw [e0, e1, ok_bind, ok_bind]
    obtain ⟨f1, f2, f3, f4, f6⟩ := stopSt_fields s w x x.refs
    have h1 : Full (fun _ => True) r (cOf s.frame) (eOf s.frame) (bOf s.frame) (stopSt s w x x.refs) := by
      refine ⟨?_, fd_stop h.fd x.refs, hist_stop h.hist hi hw x.refs⟩
      have := stopSt_inv (c' := cOf s.frame) (r := x.refs) (n := eOf s.frame w) h.inv hw hx hown (by rw [if_pos hx]; omega)
      rw [upd_self] at this
      exact this
    have hw' : (stopSt s w x x.refs).watches[w]? = some { x with wd := none, refs := x.refs } := by
      rw [f1, getElem?_set hw, if_pos rfl]
    exact drop_eq h1 hw' ho
  | dispatch n =>
    obtain ⟨hn1, hn2, hf, i, hi, hs⟩ := ha
    show dispatch race s n = Inotify.dispatch race s n
    unfold dispatch Inotify.dispatch
    rw [hi]
    dsimp only
    unfold Rest at h
    rw [hf, eOf_none] at h
    have hv : Inv 0 (fun _ => 0) s := h.inv
    rw [gassert_ok (hv.pos i hi), ok_bind]
    refine proc_eq (i := { i with refs := i.refs + 1 }) (e := fun _ => 0) ?_ rfl
    constructor
    · rintro j ⟨⟩; have := hv.refs i hi; dsimp only; omega
    · rintro j ⟨⟩; dsimp only; omega
    · intro hn; cases hn
    · intro w x hw hx
      obtain ⟨j, hj, e⟩ := hv.ptr w x hw hx
      rw [hi] at hj
      cases hj
      exact ⟨_, rfl, e⟩
    · exact hv.dead
    · exact hv.own
    · exact hv.extra
    · rintro j ⟨⟩; exact hv.table i hi
    · rintro j ⟨⟩; exact hv.ids i hi
  | ret =>
    cases hf : s.frame with
    | none => exact absurd hf ha
    | some p =>
      obtain ⟨w, t⟩ := p
      unfold Rest at h
      rw [hf] at h
      have h : Full (fun _ => True) r 1 (eOf (some (w, t))) t s := h
      cases hi : s.inst with
      | none => exact absurd (h.inv.noInst hi).1 (by simp)
      | some i =>
        show ret race s = Inotify.ret race s
        unfold ret Inotify.ret
        rw [hf, hi]
        dsimp only
        have h1 := full_frame h none
        have he : eOf (some (w, t)) w = 1 := by simp [eOf]
        obtain ⟨s', e1, e2, e3, e4, _⟩ := full_unrefWatch (race := race) (w := w) h1 (by rw [he]; omega) hr (by simp)
        have e0 := unrefWatch_eq (race := race) (w := w) h1 (by rw [he]; omega)
        rw [hi] at e1 e0
        rw [e0, e1, ok_bind, ok_bind]
        obtain ⟨i', hi', hid⟩ := (e4 (by omega)).2 i hi
        rw [← hid]
        exact proc_eq e2.inv hi'
  | ref w => rfl
  | readFails => rfl
  | happen file ev => rfl
  | vanish file => rfl
  | merge file ev => rfl
  | lose file ev => rfl
  | vanishLost file => rfl
  | fopen fd => rfl
  | fclose fd => rfl

theorem parseLoop_eq {little : Bool} : ∀ {es : List KEvent} {fuel : Nat}, (∀ e ∈ es, NameOk e.ev.name) → (es.flatMap (encode little)).length ≤ fuel →
    parseLoop little fuel (es.flatMap (encode little)) = .ok es := by
  intro es
  induction es with
  | nil =>
    intro fuel _ _
    cases fuel <;> rfl
  | cons e t ih =>
    intro fuel h hf
    have he := h e List.mem_cons_self
    rw [List.flatMap_cons] at hf ⊢
    have hl := encode_length little e
    rw [List.length_append] at hf
    obtain ⟨m, rfl⟩ : ∃ m, fuel = m + 1 := ⟨fuel - 1, by omega⟩
    unfold parseLoop
    rw [if_pos (by rw [List.length_append]; omega)]
    have f : field little (encode little e ++ t.flatMap (encode little)) 12 = .ok (BitVec.ofNat 32 (padded e.ev.name).length) := by
      have : encode little e ++ t.flatMap (encode little) = (word little e.wd ++ word little e.ev.mask ++ word little e.ev.cookie) ++
        word little (BitVec.ofNat 32 (padded e.ev.name).length) ++ (padded e.ev.name ++ t.flatMap (encode little)) := by simp [encode]
      rw [this]
      exact field_word (by simp only [List.length_append, word_length])
    rw [f, ok_bind, len_toNat he, gassert_ok (by rw [List.length_append, hl]; unfold headerSize; omega), ok_bind,
      if_neg (by rw [List.length_append, hl]; unfold headerSize; omega), parseEvent_eq he, ok_bind]
    have hd : (encode little e ++ t.flatMap (encode little)).drop (headerSize + (padded e.ev.name).length) = t.flatMap (encode little) :=
      List.drop_left' hl
    rw [hd, ih (fun x hx => h x (List.mem_cons_of_mem _ hx)) (by omega), ok_bind]

end Verif.Inotify.Debug
