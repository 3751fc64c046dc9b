import Verif.Model.InotifyCb
import Verif.Props.Inotify

/-!
# Handlers of inotify watches: lemmas
-/

namespace Verif.Inotify
open Verif.C
open Verif.InotifyCb (deliveries)

theorem bind_ok' {α β : Type} {x : M α} {f : α → M β} {b : β} (h : (x >>= f) = .ok b) : ∃ a, x = .ok a ∧ f a = .ok b := by
  cases x with
  | error e => cases h
  | ok a => exact ⟨a, rfl, h⟩

theorem deliveries_append (a b : List Event) : deliveries (a ++ b) = deliveries a ++ deliveries b := List.filterMap_append

/-- Nothing that matters to handlers has changed. -/
structure Quiet (s s' : State) : Prop where
  frame : s'.frame = s.frame
  owned : ∀ v, s'.owned v = s.owned v
  dels : deliveries s'.log = deliveries s.log

theorem Quiet.refl (s : State) : Quiet s s := ⟨rfl, fun _ => rfl, rfl⟩

theorem Quiet.trans {a b c : State} (h : Quiet a b) (h' : Quiet b c) : Quiet a c :=
  ⟨h'.frame.trans h.frame, fun v => (h'.owned v).trans (h.owned v), h'.dels.trans h.dels⟩

theorem owned_set {s : State} {w : Nat} {x y : Watch} (h : s.watches[w]? = some x) (ho : y.owned = x.owned) {s' : State} (hs : s'.watches = s.watches.set w y)
    (v : Nat) : s'.owned v = s.owned v := by
  unfold State.owned
  rw [hs, getElem?_set h]
  split
  · next e => rw [e, h]; simp [ho]
  · rfl

theorem quiet_unrefInst {race : Option Nat} {s s' : State} {id : Nat} (h : unrefInst race s id = .ok s') : Quiet s s' := by
  unfold unrefInst at h
  obtain ⟨i, _, h⟩ := bind_ok' h
  split at h
  · cases h
    exact ⟨rfl, fun _ => rfl, by simp [deliveries]⟩
  · cases h
    exact ⟨rfl, fun _ => rfl, rfl⟩

theorem quiet_kernelRemove (s : State) (wd : Nat) : Quiet s (kernelRemove s wd) := by
  unfold kernelRemove
  split
  · exact ⟨rfl, fun _ => rfl, rfl⟩
  · exact .refl s

theorem quiet_stop {s s' : State} {w : Nat} {x : Watch} (hw : s.watches[w]? = some x) (h : stop s w x = .ok s') : Quiet s s' := by
  unfold stop at h
  split at h
  · cases h
    exact .refl s
  · rename_i wd _
    obtain ⟨i, _, h⟩ := bind_ok' h
    cases h
    refine ⟨?_, fun v => owned_set hw (y := { x with wd := none }) rfl rfl v, ?_⟩
    · exact (quiet_kernelRemove s wd).frame
    · simp [deliveries]

theorem watch_inv {s : State} {w : Nat} {x : Watch} (h : s.watch w = .ok x) : s.watches[w]? = some x ∧ x.refs ≠ 0 := by
  unfold State.watch at h
  split at h
  · split at h
    · cases h
    · rename_i h1 h2
      cases h
      exact ⟨h1, h2⟩
  · cases h

theorem quiet_unrefWatch {race : Option Nat} {s s' : State} {w : Nat} (h : unrefWatch race s w = .ok s') : Quiet s s' := by
  unfold unrefWatch at h
  obtain ⟨x, hx, h⟩ := bind_ok' h
  obtain ⟨hw, _⟩ := watch_inv hx
  split at h
  · obtain ⟨s1, h1, h⟩ := bind_ok' h
    have q1 : Quiet s { s with watches := s.watches.set w { x with refs := 0 } } :=
      ⟨rfl, fun v => owned_set hw (y := { x with refs := 0 }) rfl rfl v, rfl⟩
    have q2 := quiet_stop (by dsimp only; rw [getElem?_set hw, if_pos rfl]) h1
    exact (q1.trans q2).trans (quiet_unrefInst h)
  · cases h
    exact ⟨rfl, fun v => owned_set hw (y := { x with refs := x.refs - 1 }) rfl rfl v, rfl⟩

theorem owned_disown {s : State} {w : Nat} (v : Nat) : (disown s w).owned v = if v = w then s.owned v - 1 else s.owned v := by
  unfold disown State.owned
  dsimp only
  rw [List.getElem?_modify]
  split
  · rename_i h
    subst h
    rw [if_pos rfl]
    cases s.watches[w]? <;> simp
  · rename_i h
    rw [if_neg (fun e => h e.symm)]
    cases s.watches[v]? <;> simp

/-- The handlers of a watch are about to be called, or it's over. -/
structure Handled (s s' : State) : Prop where
  owned : ∀ v, s'.owned v = s.owned v
  frame : (s'.frame = none ∧ deliveries s'.log = deliveries s.log) ∨
    ∃ w t ev, s'.frame = some (w, t) ∧ s'.log.getLast? = some (.delivered w ev) ∧ deliveries s'.log = deliveries s.log ++ [(w, ev)]

theorem handled_proc {race : Option Nat} {id : Nat} : ∀ {b : List (Nat × Ev)} {s s' : State}, s.frame = none → proc race s id b = .ok s' → Handled s s' := by
  intro b
  induction b with
  | nil =>
    intro s s' hf h
    have q := quiet_unrefInst h
    exact ⟨q.owned, .inl ⟨q.frame.trans hf, q.dels⟩⟩
  | cons p t ih =>
    intro s s' hf h
    obtain ⟨d, ev⟩ := p
    unfold proc at h
    obtain ⟨i, _, h⟩ := bind_ok' h
    split at h
    · exact ih hf h
    · rename_i w _
      obtain ⟨s1, h1, h⟩ := bind_ok' h
      cases h
      unfold ref at h1
      obtain ⟨x, hx, h1⟩ := bind_ok' h1
      cases h1
      obtain ⟨hw, _⟩ := watch_inv hx
      refine ⟨fun v => owned_set hw (y := { x with refs := x.refs + 1 }) rfl rfl v, .inr ⟨w, t, ev, rfl, by simp, ?_⟩⟩
      simp [deliveries]

theorem handled_dispatch {race : Option Nat} {s s' : State} {n : Nat} (hf : s.frame = none) (h : step race s (.dispatch n) = .ok s') : Handled s s' := by
  have h : dispatch race s n = .ok s' := h
  unfold dispatch at h
  split at h
  · cases h
  · have := handled_proc (by exact hf) h
    exact ⟨this.owned, this.frame⟩

theorem handled_ret {race : Option Nat} {s s' : State} (h : step race s .ret = .ok s') : Handled s s' := by
  have h : ret race s = .ok s' := h
  unfold ret at h
  split at h
  · obtain ⟨s1, h1, h⟩ := bind_ok' h
    have q := quiet_unrefWatch h1
    have p := handled_proc (q.frame.trans rfl) h
    refine ⟨fun v => (p.owned v).trans (q.owned v), ?_⟩
    have f := p.frame
    rw [q.dels] at f
    exact f
  · cases h

/-- The number of references which belong to the client changes this way -/
def ownedBy (s : State) (v : Nat) : Act → Nat
  | .new _ _ _ => if v = s.watches.length then 1 else s.owned v
  | .ref w => if v = w then s.owned v + 1 else s.owned v
  | .unref w | .destroy w => if v = w then s.owned v - 1 else s.owned v
  | _ => s.owned v

theorem newInst_quiet (s : State) (fd : Nat) : Quiet s (newInst s fd).1 ∧ (newInst s fd).1.watches = s.watches := by
  unfold newInst
  split
  · exact ⟨⟨rfl, fun _ => rfl, rfl⟩, rfl⟩
  · exact ⟨⟨rfl, fun _ => rfl, by simp [deliveries]⟩, rfl⟩

theorem kernelAdd_quiet (s : State) (file : Nat) (mask : BitVec 32) : Quiet s (kernelAdd s file mask).1 ∧ (kernelAdd s file mask).1.watches = s.watches := by
  unfold kernelAdd
  split <;> exact ⟨⟨rfl, fun _ => rfl, rfl⟩, rfl⟩

/-- The other actions don't call handlers. -/
theorem quiet_step {race : Option Nat} {s s' : State} {a : Act} (h : step race s a = .ok s') (h1 : ∀ n, a ≠ .dispatch n) (h2 : a ≠ .ret) :
    s'.frame = s.frame ∧ deliveries s'.log = deliveries s.log ∧ ∀ v, s'.owned v = ownedBy s v a := by
  cases a with
  | new file mask fd =>
    cases h
    obtain ⟨q1, w1⟩ := newInst_quiet s fd
    obtain ⟨q2, w2⟩ := kernelAdd_quiet (newInst s fd).1 file mask
    refine ⟨q2.frame.trans q1.frame, ?_, fun v => ?_⟩
    · unfold newWatch
      dsimp only
      rw [deliveries_append, q2.dels, q1.dels]
      simp [deliveries]
    · unfold newWatch State.owned ownedBy
      dsimp only
      rw [w2, w1, List.getElem?_append]
      split
      · rw [if_neg (by omega)]
        rfl
      · by_cases hv : v = s.watches.length
        · simp [hv]
        · rw [if_neg hv]
          unfold State.owned
          rw [List.getElem?_eq_none (by simp; omega), List.getElem?_eq_none (by omega)]
  | newFails fd =>
    have q := quiet_unrefInst (show unrefInst race (newInst s fd).1 (newInst s fd).2.id = .ok s' from h)
    have q := (newInst_quiet s fd).1.trans q
    exact ⟨q.frame, q.dels, q.owned⟩
  | ref w =>
    obtain ⟨s1, e1, h⟩ := bind_ok' h
    cases h
    unfold ref at e1
    obtain ⟨x, hx, e1⟩ := bind_ok' e1
    cases e1
    obtain ⟨hw, _⟩ := watch_inv hx
    refine ⟨rfl, rfl, fun v => ?_⟩
    unfold State.owned ownedBy
    dsimp only
    rw [List.getElem?_modify, getElem?_set hw]
    by_cases hv : v = w
    · subst hv
      simp [State.owned, hw]
    · have hv' : ¬ w = v := fun e => hv e.symm
      rw [if_neg hv, if_neg hv]
      unfold State.owned
      cases s.watches[v]? <;> simp [hv']
  | unref w =>
    have q := quiet_unrefWatch (show unrefWatch race (disown s w) w = .ok s' from h)
    exact ⟨q.frame, q.dels, fun v => (q.owned v).trans (owned_disown v)⟩
  | destroy w =>
    have h : destroy race s w = .ok s' := h
    unfold destroy at h
    obtain ⟨x, hx, h⟩ := bind_ok' h
    obtain ⟨s1, e1, h⟩ := bind_ok' h
    have q1 := quiet_stop (watch_inv hx).1 e1
    have q := quiet_unrefWatch h
    refine ⟨q.frame.trans q1.frame, q.dels.trans q1.dels, fun v => ?_⟩
    rw [q.owned, owned_disown, q1.owned]
    rfl
  | dispatch n => exact absurd rfl (h1 n)
  | readFails =>
    have h : readFails s = .ok s' := h
    unfold readFails at h
    split at h
    · cases h
    · cases h
      exact ⟨rfl, rfl, fun _ => rfl⟩
  | ret => exact absurd rfl h2
  | happen file ev =>
    cases h
    exact ⟨rfl, by simp [happen, deliveries], fun _ => rfl⟩
  | vanish file =>
    cases h
    exact ⟨rfl, by simp [vanish, deliveries], fun _ => rfl⟩
  | merge file ev =>
    cases h
    exact ⟨rfl, by simp [merge, deliveries], fun _ => rfl⟩
  | lose file ev =>
    cases h
    exact ⟨rfl, by simp [lose, deliveries], fun _ => rfl⟩
  | vanishLost file =>
    cases h
    exact ⟨rfl, by simp [vanishLost, deliveries], fun _ => rfl⟩
  | fopen fd =>
    cases h
    exact ⟨rfl, rfl, fun _ => rfl⟩
  | fclose fd =>
    cases h
    exact ⟨rfl, rfl, fun _ => rfl⟩

/-- What may be used does exist. -/
theorem usable_watch {s : State} (h : Reach anything s) {w : Nat} (hu : 0 < s.owned w ∨ s.frame.map (·.1) = some w) : ∃ x, s.watch w = .ok x := by
  have hi := (reach_rest h).inv
  rcases hu with hu | hu
  · obtain ⟨x, hw, ho⟩ := owned_some hu
    have := hi.own w x hw
    exact ⟨x, watch_eq hw (by omega)⟩
  · have he : eOf s.frame w = 1 := by simp [eOf, hu]
    have hlt : w < s.watches.length := by
      apply Classical.byContradiction
      intro hn
      have := hi.extra w (by omega)
      omega
    have hw : s.watches[w]? = some s.watches[w] := List.getElem?_eq_getElem hlt
    have := hi.own w _ hw
    exact ⟨_, watch_eq hw (by omega)⟩

theorem unref_length {s s' : State} {w : Nat} (h : step none s (.unref w) = .ok s') : s'.watches.length = s.watches.length := by
  have h : unrefWatch none (disown s w) w = .ok s' := h
  have : s'.watches.length = (disown s w).watches.length := by
    unfold unrefWatch at h
    obtain ⟨x, _, h⟩ := bind_ok' h
    split at h
    · obtain ⟨s1, h1, h⟩ := bind_ok' h
      have h2 : s'.watches = s1.watches := by
        unfold unrefInst at h
        obtain ⟨i, _, h⟩ := bind_ok' h
        split at h <;> cases h <;> rfl
      rw [h2]
      unfold stop at h1
      split at h1
      · cases h1
        simp
      · obtain ⟨i, _, h1⟩ := bind_ok' h1
        cases h1
        simp
    · cases h
      simp
  rw [this]
  simp [disown]

theorem gone_watch {s : State} (h : Reach anything s) {w : Nat} (hw : w < s.watches.length) (ho : s.owned w = 0) (hf : s.frame.map (·.1) ≠ some w) :
    s.watch w = .error .useAfterFree := by
  have hi := (reach_rest h).inv
  have hw : s.watches[w]? = some s.watches[w] := List.getElem?_eq_getElem hw
  have he : eOf s.frame w = 0 := by
    simp [eOf, hf]
  have := hi.own w _ hw
  unfold State.owned at ho
  rw [hw] at ho
  simp at ho
  unfold State.watch
  rw [hw]
  dsimp only
  rw [if_pos (by omega)]

end Verif.Inotify

namespace Verif.InotifyCb
open Verif.C
open Verif.Inotify (Ev Watch bind_ok')

theorem monitor_append {log : List Event} {m : Monitor} (h : monitor log = some m) (e : Event) : monitor (log ++ [e]) = m.next e := by
  unfold monitor at h ⊢
  rw [List.foldlM_append, h]
  simp

theorem emits_append (log : List Event) (e : Event) : emits (log ++ [e]) = emits log ++ emits [e] := List.filterMap_append

/-- The handlers which are yet to be called -/
def due (conns : List (Nat × Nat)) : Option (Nat × Ev × List Nat) → Option (Nat × Ev × List Nat) :=
  Option.map (fun (w, ev, l) => (w, ev, l.filter (fun id => decide ((id, w) ∈ conns))))

structure Inv (s : State) : Prop where
  ino : Inotify.Reach Inotify.anything s.ino
  mon : monitor s.log = some ⟨s.conns, due s.conns s.emit⟩
  frame : s.emit.map (·.1) = s.ino.frame.map (·.1)
  client : s.client = false → s.emit ≠ none
  ids : ∀ c ∈ s.conns, 0 < c.1 ∧ c.1 < s.nextId
  nodup : (s.conns.map (·.1)).Nodup
  pend : ∀ w ev l, s.emit = some (w, ev, l) → ∀ id ∈ l, id < s.nextId
  held : ∀ w, s.held w ≤ s.ino.owned w
  cbs : ∀ cb, some cb ∈ s.cbs → cb.id = 0 ∨ (cb.id, cb.watch) ∈ s.conns
  cbIds : ∀ (i j : Nat) (cb cb' : Callback), s.cbs[i]? = some (some cb) → s.cbs[j]? = some (some cb') → cb.id ≠ 0 → cb.id = cb'.id → i = j
  emits : emits s.log = deliveries s.ino.log
  nextPos : 0 < s.nextId

theorem inv_init {foreign : List Nat} (h : foreign.Nodup) : Inv (init foreign) where
  ino := .init foreign h
  mon := rfl
  frame := rfl
  client := fun h => by cases h
  ids := fun c h => by cases h
  nodup := List.nodup_nil
  pend := fun w ev l h => by cases h
  held := fun w => Nat.zero_le _
  cbs := fun cb h => by cases h
  cbIds := fun i j cb cb' h => by simp [init] at h
  emits := rfl
  nextPos := Nat.zero_lt_one

theorem due_connect {conns : List (Nat × Nat)} {emit : Option (Nat × Ev × List Nat)} {n w : Nat}
    (h : ∀ w ev l, emit = some (w, ev, l) → ∀ id ∈ l, id < n) : due (conns ++ [(n, w)]) emit = due conns emit := by
  cases emit with
  | none => rfl
  | some p =>
    obtain ⟨v, ev, l⟩ := p
    unfold due
    simp only [Option.map_some, Option.some.injEq, Prod.mk.injEq, true_and]
    apply List.filter_congr
    intro id hid
    have := h v ev l rfl id hid
    have : id ≠ n := by omega
    simp [this]

theorem due_disconnect (conns : List (Nat × Nat)) (emit : Option (Nat × Ev × List Nat)) (n : Nat) :
    (due conns emit).map (fun (w, ev, l) => (w, ev, l.filter (· ≠ n))) = due (conns.filter (fun c => c.1 ≠ n)) emit := by
  cases emit with
  | none => rfl
  | some p =>
    obtain ⟨v, ev, l⟩ := p
    unfold due
    simp only [Option.map_some, Option.some.injEq, Prod.mk.injEq, true_and, List.filter_filter]
    apply List.filter_congr
    intro id hid
    by_cases h1 : (id, v) ∈ conns <;> by_cases h2 : id = n <;> simp [h1, h2]

theorem inv_addHandler {s : State} {w : Nat} {fn : Bool} (h : Inv s) (hu : s.usable w) :
    ∃ id s', addHandler s w fn = .ok (id, s') ∧ Inv s' ∧ s'.ino = s.ino ∧ s'.cbs = s.cbs ∧ (id = 0 ∨ ((id, w) ∈ s'.conns ∧ s.nextId ≤ id)) ∧ s'.client = s.client := by
  unfold addHandler
  cases fn with
  | false => exact ⟨0, s, rfl, h, rfl, rfl, .inl rfl, rfl⟩
  | true =>
    obtain ⟨x, hx⟩ := Inotify.usable_watch h.ino hu
    rw [if_pos rfl, hx, ok_bind]
    refine ⟨_, _, rfl, ?_, rfl, rfl, .inr ⟨?_, Nat.le_refl _⟩, rfl⟩
    · refine { h with mon := ?_, ids := ?_, nodup := ?_, pend := ?_, cbs := ?_, emits := ?_, nextPos := ?_, held := h.held }
      · dsimp only
        rw [monitor_append h.mon, due_connect h.pend]
        rfl
      · intro c hc
        dsimp only at hc ⊢
        rw [List.mem_append, List.mem_singleton] at hc
        rcases hc with hc | rfl
        · have := h.ids c hc; omega
        · exact ⟨h.nextPos, Nat.lt_succ_self _⟩
      · dsimp only
        rw [List.map_append, List.nodup_append]
        refine ⟨h.nodup, by simp, ?_⟩
        intro a ha b hb
        obtain ⟨c, hc, rfl⟩ := List.mem_map.1 ha
        simp only [List.map_cons, List.map_nil, List.mem_singleton] at hb
        have := h.ids c hc
        omega
      · intro w ev l he id hid
        have := h.pend w ev l he id hid
        dsimp only
        omega
      · intro cb hc
        exact (h.cbs cb hc).imp id (fun hm => List.mem_append_left _ hm)
      · dsimp only
        rw [emits_append, h.emits]
        simp [InotifyCb.emits]
      · exact Nat.succ_pos _
    · simp

theorem inv_disconnect {s : State} {id : Nat} (h : Inv s) (hc : ∀ cb, some cb ∈ s.cbs → cb.id ≠ id) :
    Inv { s with conns := s.conns.filter (fun c => c.1 ≠ id), log := s.log ++ [.disconnected id] } := by
  refine { h with mon := ?_, ids := ?_, nodup := ?_, cbs := ?_, emits := ?_, held := h.held }
  · dsimp only
    rw [monitor_append h.mon, ← due_disconnect]
    rfl
  · exact fun c hm => h.ids c (List.mem_filter.1 hm).1
  · exact (List.filter_sublist.map _).nodup h.nodup
  · intro cb hm
    rcases h.cbs cb hm with h1 | h1
    · exact .inl h1
    · exact .inr (List.mem_filter.2 ⟨h1, by simpa using hc cb hm⟩)
  · dsimp only
    rw [emits_append, h.emits]
    simp [InotifyCb.emits]

theorem handlers_mem {conns : List (Nat × Nat)} {w id : Nat} : id ∈ handlers conns w ↔ (id, w) ∈ conns := by
  unfold handlers
  simp only [List.mem_map, List.mem_filter, beq_iff_eq]
  constructor
  · rintro ⟨⟨a, b⟩, ⟨h1, h2⟩, h3⟩
    dsimp only at h2 h3
    subst h2 h3
    exact h1
  · intro h
    exact ⟨_, ⟨h, rfl⟩, rfl⟩

theorem due_handlers (conns : List (Nat × Nat)) (w : Nat) (ev : Ev) : due conns (some (w, ev, handlers conns w)) = some (w, ev, handlers conns w) := by
  unfold due
  simp only [Option.map_some, Option.some.injEq, Prod.mk.injEq, true_and]
  rw [List.filter_eq_self]
  intro id hid
  simpa using handlers_mem.1 hid

theorem event_eq {s : Inotify.State} {w : Nat} {ev : Ev} (h : s.log.getLast? = some (.delivered w ev)) : event s = ev := by
  unfold event
  rw [h]

/-- The library gets to the next event, or to the end of them. -/
theorem inv_emission {s : State} {ino : Inotify.State} {log : List Event} (h : Inv s) (hr : Inotify.Reach Inotify.anything ino) (hd : Inotify.Handled s.ino ino)
    (hm : monitor log = some ⟨s.conns, none⟩) (he : InotifyCb.emits log = InotifyCb.emits s.log) : Inv (emission { s with ino := ino, log := log }) := by
  have hheld : ∀ w, s.held w ≤ ino.owned w := fun w => by rw [hd.owned]; exact h.held w
  unfold emission
  rcases hd.frame with ⟨h1, h2⟩ | ⟨w, t, ev, h1, h2, h3⟩
  · dsimp only
    rw [h1]
    refine { h with ino := hr, mon := hm, frame := ?_, client := fun h => (by cases h), pend := fun w ev l h => (by cases h), emits := ?_, held := hheld }
    · dsimp only
      rw [h1]
      rfl
    · dsimp only
      rw [he, h.emits, h2]
  · dsimp only
    rw [h1]
    dsimp only
    rw [event_eq h2]
    refine { h with ino := hr, mon := ?_, frame := ?_, client := fun _ h => (by cases h), pend := ?_, emits := ?_, held := hheld }
    · dsimp only
      rw [monitor_append hm, due_handlers]
      rfl
    · dsimp only
      rw [h1]
      rfl
    · intro w' ev' l e id hid
      cases e
      exact (h.ids _ (handlers_mem.1 hid)).2
    · dsimp only
      rw [emits_append, he, h.emits, h3]
      rfl

theorem inv_next {s : State} (h : Inv s) (hc : s.client = false) : ∃ s', next s = .ok s' ∧ Inv s' := by
  unfold next
  have hne := h.client hc
  split
  · rename_i e
    exact absurd e hne
  · rename_i w ev e
    have hf : s.ino.frame ≠ none := by
      intro hn
      have := h.frame
      rw [e, hn] at this
      cases this
    have ha : Inotify.Allowed s.ino .ret := hf
    obtain ⟨ino, e1⟩ := Inotify.C93_safe h.ino ha (race := none) (fun _ h => by cases h)
    rw [e1, ok_bind]
    refine ⟨_, rfl, inv_emission h (h.ino.step ha (fun _ h => by cases h) trivial e1) (Inotify.handled_ret e1) ?_ ?_⟩
    · rw [monitor_append h.mon, e]
      simp [due, Monitor.next]
    · rw [emits_append]
      simp [InotifyCb.emits]
  · rename_i w ev id t e
    split
    · rename_i hm
      refine ⟨_, rfl, ?_⟩
      refine { h with mon := ?_, frame := ?_, client := fun h => (by cases h), pend := ?_, emits := ?_, held := h.held }
      · dsimp only
        rw [monitor_append h.mon, e]
        simp [due, Monitor.next, hm]
      · dsimp only
        rw [← h.frame, e]
        rfl
      · intro w' ev' l e' i hi
        cases e'
        exact h.pend _ _ _ e i (List.mem_cons_of_mem _ hi)
      · dsimp only
        rw [emits_append, h.emits]
        simp [InotifyCb.emits]
    · rename_i hm
      refine ⟨_, rfl, ?_⟩
      refine { h with mon := ?_, frame := ?_, client := fun _ h => (by cases h), pend := ?_, held := h.held }
      · dsimp only
        rw [h.mon, e]
        simp [due, hm]
      · dsimp only
        rw [← h.frame, e]
        rfl
      · intro w' ev' l e' i hi
        cases e'
        exact h.pend _ _ _ e i (List.mem_cons_of_mem _ hi)

theorem held_le {s : State} (h : Inv s) {a : Inotify.Act} {w : Nat} (hm : s.mine a) : s.held w ≤ Inotify.ownedBy s.ino w a := by
  have h1 := h.held w
  cases a <;> unfold Inotify.ownedBy <;> dsimp only <;> try exact h1
  · split
    · rename_i e
      subst e
      have : s.ino.owned s.ino.watches.length = 0 := by simp [Inotify.State.owned]
      omega
    · exact h1
  · split <;> omega
  all_goals
    have hm : _ < _ := hm
    split
    · rename_i e
      subst e
      omega
    · exact h1

theorem inv_ino {s : State} {a : Inotify.Act} (h : Inv s) (ha : Inotify.Allowed s.ino a) (h1 : ∀ n, a ≠ .dispatch n) (h2 : a ≠ .ret) (hm : ∀ w ino', Inotify.step none s.ino a = .ok ino' → s.held w ≤ ino'.owned w) :
    ∃ ino', Inotify.step none s.ino a = .ok ino' ∧ Inv { s with ino := ino' } := by
  obtain ⟨ino', e⟩ := Inotify.C93_safe h.ino ha (race := none) (fun _ h => by cases h)
  obtain ⟨q1, q2, q3⟩ := Inotify.quiet_step e h1 h2
  refine ⟨ino', e, { h with ino := h.ino.step ha (fun _ h => by cases h) trivial e, frame := ?_, held := fun w => hm w ino' e, emits := ?_ }⟩
  · dsimp only
    rw [q1]
    exact h.frame
  · dsimp only
    rw [q2]
    exact h.emits

theorem held_append {s : State} (cb : Callback) (w : Nat) :
    State.held { s with cbs := s.cbs ++ [some cb] } w = s.held w + if cb.watch = w then 1 else 0 := by
  unfold State.held
  dsimp only
  rw [List.countP_append]
  congr 1
  by_cases h : cb.watch = w <;> simp [h]

theorem held_set {s : State} {c : Nat} {cb : Callback} (h : s.cbs[c]? = some (some cb)) (w : Nat) :
    s.held w = State.held { s with cbs := s.cbs.set c none } w + if cb.watch = w then 1 else 0 := by
  unfold State.held
  dsimp only
  obtain ⟨hlt, e⟩ := List.getElem?_eq_some_iff.1 h
  have h1 : s.cbs = s.cbs.take c ++ some cb :: s.cbs.drop (c + 1) := by
    rw [← e, List.getElem_cons_drop, List.take_append_drop]
  have h2 : s.cbs.set c none = s.cbs.take c ++ none :: s.cbs.drop (c + 1) := by
    rw [List.set_eq_take_append_cons_drop, if_pos hlt]
  rw [h2, List.countP_append, List.countP_cons]
  conv => lhs; rw [h1, List.countP_append, List.countP_cons]
  by_cases h : cb.watch = w <;> simp [h]
  omega

theorem inv_step {s : State} {a : Act} (h : Inv s) (ha : Allowed s a) : ∃ s', step s a = .ok s' ∧ Inv s' := by
  cases a with
  | ino a =>
    obtain ⟨h1, h2, h3, h4⟩ := ha
    by_cases hd : ∃ n, a = .dispatch n
    · obtain ⟨n, rfl⟩ := hd
      obtain ⟨ino', e⟩ := Inotify.C93_safe h.ino h1 (race := none) (fun _ h => by cases h)
      have hf : s.ino.frame = none := h1.2.2.1
      have hem : s.emit = none := by
        have := h.frame
        rw [hf] at this
        simpa using this
      unfold step
      dsimp only
      rw [e, ok_bind]
      refine ⟨_, rfl, inv_emission h (h.ino.step h1 (fun _ h => by cases h) trivial e) (Inotify.handled_dispatch hf e) ?_ rfl⟩
      rw [h.mon, hem]
      rfl
    · have hd : ∀ n, a ≠ .dispatch n := fun n e => hd ⟨n, e⟩
      obtain ⟨ino', e, h'⟩ := inv_ino h h1 hd h2 (fun w ino' e => by
        rw [(Inotify.quiet_step e hd h2).2.2]
        exact held_le h h4)
      refine ⟨_, ?_, h'⟩
      cases a <;> first | exact absurd rfl (hd _) | (unfold step; dsimp only; rw [e, ok_bind])
  | addHandler w fn =>
    obtain ⟨id, s', e, h', _⟩ := inv_addHandler (fn := fn) h ha.2
    refine ⟨s', ?_, h'⟩
    unfold step
    dsimp only
    rw [e, ok_bind]
  | removeHandler w id =>
    obtain ⟨hc, hu, hi⟩ := ha
    unfold step
    dsimp only
    unfold removeHandler
    split
    · exact ⟨s, rfl, h⟩
    · rename_i h0
      obtain ⟨hm, hcb⟩ := hi.resolve_left h0
      obtain ⟨x, hx⟩ := Inotify.usable_watch h.ino hu
      rw [hx, ok_bind, if_pos hm]
      exact ⟨_, rfl, inv_disconnect h hcb⟩
  | callbackNew file mask fd fn =>
    obtain ⟨hc, ha⟩ := ha
    have hq : ∀ {ino'}, Inotify.step none s.ino (.new file mask fd) = .ok ino' → ∀ v, ino'.owned v = if v = s.ino.watches.length then 1 else s.ino.owned v :=
      fun e v => (Inotify.quiet_step e (by simp) (by simp)).2.2 v
    have hz : s.ino.owned s.ino.watches.length = 0 := by simp [Inotify.State.owned]
    obtain ⟨ino', e, h1⟩ := inv_ino h ha (by simp) (by simp) (fun w ino' e => by
      rw [hq e]
      have := h.held w
      split
      · rename_i hw
        subst hw
        omega
      · exact this)
    obtain ⟨id, s', e2, h2, e3, e4, e5, _⟩ := inv_addHandler (fn := fn) (w := s.ino.watches.length) h1 (.inl (by dsimp only; rw [hq e, if_pos rfl]; exact Nat.one_pos))
    unfold step
    dsimp only
    unfold callbackNew
    rw [e, ok_bind]
    dsimp only
    rw [e2, ok_bind]
    refine ⟨_, rfl, { h2 with held := ?_, cbs := ?_, cbIds := ?_ }⟩
    · intro w
      rw [held_append]
      dsimp only
      rw [e3]
      dsimp only
      rw [hq e]
      have hh : s'.held w = s.held w := by unfold State.held; rw [e4]
      rw [hh]
      have := h.held w
      by_cases hw : w = s.ino.watches.length
      · rw [if_pos hw, if_pos hw.symm]
        subst hw
        omega
      · rw [if_neg hw, if_neg (fun e => hw e.symm)]
        exact this
    · intro cb hm
      dsimp only at hm
      rw [List.mem_append, List.mem_singleton] at hm
      rcases hm with hm | hm
      · exact h2.cbs cb hm
      · cases hm
        exact e5.imp _root_.id (·.1)
    · intro i j cb cb' hi hj h0 he
      dsimp only at hi hj
      rw [e4] at hi hj
      dsimp only at hi hj
      have hold : ∀ (k : Nat) (x : Callback), s.cbs[k]? = some (some x) → x.id ≠ 0 → x.id < s.nextId := by
        intro k x hk hx
        exact (h.ids _ ((h.cbs x (List.mem_of_getElem? hk)).resolve_left hx)).2
      have hget : ∀ (k : Nat) (x : Callback), (s.cbs ++ [some (⟨s.ino.watches.length, id⟩ : Callback)])[k]? = some (some x) →
          s.cbs[k]? = some (some x) ∨ (k = s.cbs.length ∧ x = ⟨s.ino.watches.length, id⟩) := by
        intro k x hk
        rw [List.getElem?_append] at hk
        split at hk
        · exact .inl hk
        · rename_i hlt
          by_cases hkk : k = s.cbs.length
          · subst hkk
            simp at hk
            exact .inr ⟨rfl, hk.symm⟩
          · rw [List.getElem?_eq_none (by simp; omega)] at hk
            cases hk
      have hnew : id ≠ 0 → s.nextId ≤ id := fun h0 => (e5.resolve_left h0).2
      rcases hget i cb hi with h3 | ⟨h3, h4⟩ <;> rcases hget j cb' hj with h5 | ⟨h5, h6⟩
      · exact h.cbIds i j cb cb' h3 h5 h0 he
      · rw [h6] at he
        dsimp only at he
        have := hold i cb h3 h0
        have := hnew (by omega)
        omega
      · rw [h4] at he h0
        dsimp only at he h0
        have := hold j cb' h5 (by omega)
        have := hnew h0
        omega
      · omega
  | callbackFree c =>
    obtain ⟨hc, cb, hcb⟩ := ha
    have hmem : some cb ∈ s.cbs := List.mem_of_getElem? hcb
    have hheld : 0 < s.held cb.watch := by
      have := held_set hcb cb.watch
      rw [if_pos rfl] at this
      omega
    have hown : 0 < s.ino.owned cb.watch := Nat.lt_of_lt_of_le hheld (h.held _)
    -- The handler is gone and so is the callback
    have hinv : ∃ s1, removeHandler s cb.watch cb.id = .ok s1 ∧ s1.ino = s.ino ∧ s1.cbs = s.cbs ∧ Inv { s1 with cbs := s1.cbs.set c none } := by
      have hrest : ∀ x, some x ∈ s.cbs.set c none → cb.id = 0 ∨ x.id ≠ cb.id := by
        intro x hx
        obtain ⟨k, hk⟩ := List.getElem?_of_mem hx
        rw [List.getElem?_set] at hk
        split at hk
        · split at hk <;> cases hk
        · rename_i hkc
          by_cases h0 : cb.id = 0
          · exact .inl h0
          · exact .inr (fun e => hkc (h.cbIds c k cb x hcb hk h0 e.symm))
      have h1 : Inv { s with cbs := s.cbs.set c none } := by
        refine { h with held := fun w => ?_, cbs := ?_, cbIds := ?_ }
        · have := held_set hcb w
          have := h.held w
          dsimp only
          omega
        · intro x hx
          have : some x ∈ s.cbs := by
            rcases List.mem_or_eq_of_mem_set hx with hx | hx
            · exact hx
            · cases hx
          exact h.cbs x this
        · intro i j x y hi hj h0 he
          dsimp only at hi hj
          have hs : ∀ (k : Nat) (z : Callback), (s.cbs.set c none)[k]? = some (some z) → s.cbs[k]? = some (some z) := by
            intro k z hk
            rw [List.getElem?_set] at hk
            split at hk
            · split at hk <;> cases hk
            · exact hk
          exact h.cbIds i j x y (hs _ _ hi) (hs _ _ hj) h0 he
      unfold removeHandler
      split
      · exact ⟨s, rfl, rfl, rfl, h1⟩
      · rename_i h0
        obtain ⟨x, hx⟩ := Inotify.usable_watch h.ino (.inl hown)
        have hm := (h.cbs cb hmem).resolve_left h0
        rw [hx, ok_bind, if_pos hm]
        refine ⟨_, rfl, rfl, rfl, ?_⟩
        exact inv_disconnect h1 (fun x hx => (hrest x hx).resolve_left h0)
    obtain ⟨s1, e1, e2, e3, h1⟩ := hinv
    have ha : Inotify.Allowed s1.ino (.unref cb.watch) := by
      show 0 < s1.ino.owned cb.watch
      rw [e2]
      exact hown
    obtain ⟨ino', e, h2⟩ := inv_ino h1 ha (by simp) (by simp) (fun w ino' e => by
      rw [(Inotify.quiet_step e (by simp) (by simp)).2.2]
      unfold Inotify.ownedBy
      dsimp only
      have hh := held_set hcb w
      have : State.held { s1 with cbs := s1.cbs.set c none } w = State.held { s with cbs := s.cbs.set c none } w := by
        unfold State.held
        rw [e3]
      rw [this, e2]
      have := h.held w
      split
      · rename_i hw
        rw [if_pos hw.symm] at hh
        omega
      · omega)
    unfold step
    dsimp only
    unfold callbackFree
    rw [hcb]
    dsimp only
    rw [e1, ok_bind]
    have e : Inotify.step none s1.ino (.unref cb.watch) = .ok ino' := e
    rw [e, ok_bind]
    exact ⟨_, rfl, h2⟩
  | next => exact inv_next h ha
  | ret =>
    refine ⟨_, rfl, { h with client := fun _ => ha.2, held := h.held }⟩

theorem reach_inv {s : State} (h : Reach s) : Inv s := by
  induction h with
  | init foreign hn => exact inv_init hn
  | step _ ha e ih =>
    obtain ⟨s', e', h'⟩ := inv_step ih ha
    rw [e] at e'
    cases e'
    exact h'

theorem reach_exec {acts : List Act} : ∀ {s s' : State}, Reach s → legal s acts = true → exec s acts = .ok s' → Reach s' := by
  induction acts with
  | nil =>
    intro s s' h _ e
    cases e
    exact h
  | cons a t ih =>
    intro s s' h hl e
    unfold legal at hl
    unfold exec at e
    split at hl
    · rename_i ha
      split at e
      · rename_i s1 hs
        rw [hs] at hl
        exact ih (h.step ha hs) hl e
      · cases e
    · cases hl

theorem reach_check {acts : List Act} {P : State → Prop} [DecidablePred P] (hl : legal (init []) acts = true)
    (hp : (match exec (init []) acts with | .ok s => decide (P s) | .error _ => false) = true) : ∃ s, Reach s ∧ P s := by
  split at hp
  · rename_i s e
    exact ⟨s, reach_exec (.init [] List.nodup_nil) hl e, of_decide_eq_true hp⟩
  · cases hp

/-- There has been such handler, or there's never going to be one. -/
def Absent (id : Nat) (s : State) : Prop := id < s.nextId ∧ ∀ w, (id, w) ∉ s.conns

theorem calls_append (id : Nat) (log : List Event) (e : Event) (h : ∀ w ev, e ≠ .call id w ev) : calls id (log ++ [e]) = calls id log := by
  unfold calls
  rw [List.countP_append, List.countP_singleton, if_neg, Nat.add_zero]
  split
  · rename_i i w ev
    intro hi
    exact h w ev (by simp at hi; rw [hi])
  · simp

theorem absent_add {s s' : State} {w id n : Nat} {fn : Bool} (e : addHandler s w fn = .ok (n, s')) (h : Absent id s) :
    Absent id s' ∧ calls id s'.log = calls id s.log := by
  unfold addHandler at e
  split at e
  · obtain ⟨x, _, e⟩ := bind_ok' e
    cases e
    have := h.1
    refine ⟨⟨?_, fun v hv => ?_⟩, calls_append _ _ _ (by simp)⟩
    · dsimp only
      omega
    · dsimp only at hv
      rw [List.mem_append, List.mem_singleton] at hv
      rcases hv with hv | hv
      · exact h.2 v hv
      · cases hv
        omega
  · cases e
    exact ⟨h, rfl⟩

theorem absent_remove {s s' : State} {w id n : Nat} (e : removeHandler s w n = .ok s') (h : Absent id s) :
    Absent id s' ∧ calls id s'.log = calls id s.log := by
  unfold removeHandler at e
  split at e
  · cases e
    exact ⟨h, rfl⟩
  · obtain ⟨x, _, e⟩ := bind_ok' e
    split at e
    · cases e
      exact ⟨⟨h.1, fun v hv => h.2 v (List.mem_filter.1 hv).1⟩, calls_append _ _ _ (by simp)⟩
    · cases e

theorem absent_emission {s : State} {id : Nat} (h : Absent id s) : Absent id (emission s) ∧ calls id (emission s).log = calls id s.log := by
  unfold emission
  split
  · exact ⟨h, rfl⟩
  · exact ⟨h, calls_append _ _ _ (by simp)⟩

theorem absent_step {s s' : State} {a : Act} {id : Nat} (e : step s a = .ok s') (h : Absent id s) : Absent id s' ∧ calls id s'.log = calls id s.log := by
  cases a with
  | ino a =>
    by_cases hd : ∃ n, a = .dispatch n
    · obtain ⟨n, rfl⟩ := hd
      unfold step at e
      obtain ⟨ino, _, e⟩ := bind_ok' e
      cases e
      exact absent_emission (s := { s with ino := ino }) h
    · have hs : step s (.ino a) = (do
          let ino ← Inotify.step none s.ino a
          .ok { s with ino := ino }) := by
        cases a <;> first | exact absurd ⟨_, rfl⟩ hd | rfl
      rw [hs] at e
      obtain ⟨ino, _, e⟩ := bind_ok' e
      cases e
      exact ⟨h, rfl⟩
  | addHandler w fn =>
    unfold step at e
    obtain ⟨⟨n, s1⟩, e1, e⟩ := bind_ok' e
    cases e
    exact absent_add e1 h
  | removeHandler w n => exact absent_remove e h
  | callbackNew file mask fd fn =>
    unfold step callbackNew at e
    obtain ⟨ino, _, e⟩ := bind_ok' e
    obtain ⟨⟨n, s1⟩, e1, e⟩ := bind_ok' e
    cases e
    have := absent_add e1 (id := id) h
    exact this
  | callbackFree c =>
    unfold step at e
    dsimp only at e
    unfold callbackFree at e
    split at e
    · cases e
    · cases e
    · obtain ⟨s1, e1, e⟩ := bind_ok' e
      obtain ⟨ino, _, e⟩ := bind_ok' e
      cases e
      have := absent_remove e1 h
      exact this
  | next =>
    unfold step at e
    dsimp only at e
    unfold next at e
    split at e
    · cases e
    · obtain ⟨ino, _, e⟩ := bind_ok' e
      cases e
      rename_i w ev _ _
      have := absent_emission (s := { s with ino := ino, log := s.log ++ [.done w ev] }) (id := id) h
      rw [calls_append _ _ _ (by simp)] at this
      exact this
    · split at e
      · rename_i hm
        cases e
        refine ⟨h, calls_append _ _ _ ?_⟩
        intro w ev he
        cases he
        exact h.2 _ hm
      · cases e
        exact ⟨h, rfl⟩
  | ret =>
    cases e
    exact ⟨h, rfl⟩

theorem absent_later {s s' : State} {id : Nat} (hl : Later s s') (h : Absent id s) : Absent id s' ∧ calls id s'.log = calls id s.log := by
  induction hl with
  | refl => exact ⟨h, rfl⟩
  | step _ _ e ih =>
    have := absent_step e ih.1
    exact ⟨this.1, this.2.trans ih.2⟩

theorem removed_absent {s s' : State} {w id : Nat} (h : Inv s) (e : removeHandler s w id = .ok s') : Absent id s' ∧ calls id s'.log = calls id s.log ∧ s'.ino = s.ino := by
  unfold removeHandler at e
  split at e
  · rename_i h0
    cases e
    subst h0
    exact ⟨⟨h.nextPos, fun w hm => absurd (h.ids _ hm).1 (Nat.lt_irrefl 0)⟩, rfl, rfl⟩
  · obtain ⟨x, _, e⟩ := bind_ok' e
    split at e
    · rename_i hm
      cases e
      refine ⟨⟨(h.ids _ hm).2, fun v hv => ?_⟩, calls_append _ _ _ (by simp), rfl⟩
      have := (List.mem_filter.1 hv).2
      simp at this
    · cases e

end Verif.InotifyCb
