import Verif.Model.IdlePool

/-!
# The invariant of the idle pool
-/

namespace Verif.Pool
open Verif.C

/-! ## History -/

def addsOf : Event → List Nat
  | .added id => [id]
  | _ => []

def destroysOf : Event → List Nat
  | .destroy id => [id]
  | _ => []

theorem adds_snoc (log : List Event) (e : Event) : adds (log ++ [e]) = adds log ++ addsOf e := by
  unfold adds
  rw [List.filterMap_append]
  cases e <;> rfl

theorem destroys_snoc (log : List Event) (e : Event) : destroys (log ++ [e]) = destroys log ++ destroysOf e := by
  unfold destroys
  rw [List.filterMap_append]
  cases e <;> rfl

theorem mem_adds {log : List Event} {id : Nat} : id ∈ adds log ↔ .added id ∈ log := by
  unfold adds
  rw [List.mem_filterMap]
  constructor
  · rintro ⟨e, he, h⟩
    cases e <;> simp at h
    subst h
    exact he
  · intro h
    exact ⟨_, h, rfl⟩

theorem mem_destroys {log : List Event} {id : Nat} : id ∈ destroys log ↔ .destroy id ∈ log := by
  unfold destroys
  rw [List.mem_filterMap]
  constructor
  · rintro ⟨e, he, h⟩
    cases e <;> simp at h
    subst h
    exact he
  · intro h
    exact ⟨_, h, rfl⟩

theorem At.snoc {log pre : List Event} {e e' : Event} (h : At (log ++ [e']) pre e) :
    At log pre e ∨ (pre = log ∧ e = e') := by
  obtain ⟨post, h⟩ := h
  rcases List.eq_nil_or_concat post with rfl | ⟨p, x, rfl⟩
  · have := List.append_inj' h rfl
    simp at this
    exact .inr ⟨this.1.symm, this.2.symm⟩
  · refine .inl ⟨p, ?_⟩
    rw [List.concat_eq_append, ← List.cons_append, ← List.append_assoc] at h
    exact (List.append_inj' h rfl).1

/-- What can be said about the events before the given one. -/
def Good (pre : List Event) : Event → Prop
  | .destroy id => id ∈ adds pre
  | .drained depth => depth = 0 → ∀ id ∈ adds pre, id ∈ destroys pre
  | _ => True

def Trace (log : List Event) : Prop := ∀ pre e, At log pre e → Good pre e

theorem Trace.snoc {log : List Event} {e : Event} (h : Trace log) (he : Good log e) : Trace (log ++ [e]) := by
  intro pre x hx
  rcases hx.snoc with hx | ⟨rfl, rfl⟩
  · exact h _ _ hx
  · exact he

/-- Items being processed -/
def rests (stack : List Frame) : List Item := stack.flatMap Frame.rest

/-- What's yet to be destroyed, and has been destroyed. `q`: the order is known. -/
structure Hist q (items : List Item) (stack : List Frame) (n : Nat) (log : List Event) : Prop where
  adds : adds log = List.range n
  nodup : (destroys log ++ (rests stack ++ items).map Item.id).Nodup
  mem : ∀ id, id < n ↔ id ∈ destroys log ∨ id ∈ (rests stack ++ items).map Item.id
  trace : Trace log
  order : q → destroys log ++ (rests stack ++ items).map Item.id = List.range n
  top : q → ∀ f ∈ stack.tail, f.rest = []

theorem rests_nil {st : List Frame} (h : ∀ f ∈ st, f.rest = []) : rests st = [] := by
  unfold rests
  rw [List.flatMap_eq_nil_iff]
  exact h

variable {q : Prop}

section
variable {items : List Item} {stack st : List Frame} {n : Nat} {log : List Event} {k : Cont} {t : List Item} {i : Item}

theorem rests_cons (f : Frame) : rests (f :: st) = f.rest ++ rests st := rfl

theorem Hist.push (h : Hist q items st n log) (hq : q → ∀ f ∈ st, f.rest = []) : Hist q items (⟨[], k⟩ :: st) n log :=
  ⟨h.adds, h.nodup, h.mem, h.trace, h.order, hq⟩

theorem Hist.pop (h : Hist q items (⟨[], k⟩ :: st) n log) : Hist q items st n log :=
  ⟨h.adds, h.nodup, h.mem, h.trace, h.order, fun hq f hf => h.top hq f (List.mem_of_mem_tail hf)⟩

theorem Hist.take (h : Hist q items (⟨[], k⟩ :: st) n log) : Hist q [] (⟨items, k⟩ :: st) n log := by
  refine ⟨h.adds, ?_, ?_, h.trace, ?_, h.top⟩
  · have := h.nodup
    simp only [rests_cons, List.nil_append, List.map_append, List.append_nil] at this ⊢
    exact (List.Perm.nodup_iff (List.Perm.append_left _ List.perm_append_comm)).1 this
  · intro id
    rw [h.mem]
    simp only [rests_cons, List.nil_append, List.append_nil, List.map_append, List.mem_append]
    grind
  · intro hq
    have ht : rests st = [] := rests_nil (h.top hq)
    rw [← h.order hq]
    simp only [rests_cons, ht, List.nil_append, List.append_nil]

theorem Hist.destroy (h : Hist q items (⟨i :: t, k⟩ :: st) n log) : Hist q items (⟨t, k⟩ :: st) n (log ++ [.destroy i.id]) := by
  refine ⟨?_, ?_, ?_, ?_, ?_, ?_⟩
  · rw [adds_snoc, h.adds]
    simp [addsOf]
  · have := h.nodup
    rw [destroys_snoc]
    simpa [destroysOf, rests_cons] using this
  · intro id
    rw [h.mem, destroys_snoc]
    simp only [destroysOf, rests_cons, List.cons_append, List.map_cons, List.mem_append, List.mem_cons, List.mem_singleton]
    grind
  · refine h.trace.snoc ?_
    show i.id ∈ Pool.adds log
    rw [h.adds, List.mem_range, h.mem]
    exact .inr (by simp [rests_cons])
  · intro hq
    rw [← h.order hq, destroys_snoc]
    simp [destroysOf, rests_cons]
  · exact h.top

theorem Hist.drained (h : Hist q [] st n log) : Hist q [] st n (log ++ [.drained st.length]) := by
  refine ⟨?_, ?_, ?_, ?_, ?_, ?_⟩
  · rw [adds_snoc, h.adds]
    simp [addsOf]
  · rw [destroys_snoc]
    simpa [destroysOf] using h.nodup
  · intro id
    rw [h.mem, destroys_snoc]
    simp [destroysOf]
  · refine h.trace.snoc ?_
    intro hl id hid
    have hs : st = [] := List.eq_nil_of_length_eq_zero hl
    subst hs
    rw [h.adds, List.mem_range, h.mem] at hid
    simpa [rests] using hid
  · intro hq
    rw [← h.order hq, destroys_snoc]
    simp [destroysOf]
  · exact h.top

theorem Hist.add (h : Hist q items st n log) (x : Bool) : Hist q (items ++ [⟨n, x⟩]) st (n + 1) (log ++ [.added n]) := by
  refine ⟨?_, ?_, ?_, ?_, ?_, ?_⟩
  · rw [adds_snoc, h.adds, List.range_succ]
    rfl
  · have hn : n ∉ destroys log ++ (rests st ++ items).map Item.id := by
      intro hc
      rw [List.mem_append, ← h.mem] at hc
      omega
    rw [destroys_snoc]
    have e : destroys log ++ destroysOf (.added n) ++ (rests st ++ (items ++ [(⟨n, x⟩ : Item)])).map Item.id =
        (destroys log ++ (rests st ++ items).map Item.id) ++ [n] := by simp [destroysOf]
    rw [e, List.nodup_append]
    refine ⟨h.nodup, by simp, ?_⟩
    intro a ha b hb e2
    rw [List.mem_singleton] at hb
    rw [e2, hb] at ha
    exact hn ha
  · intro id
    have := h.mem id
    rw [destroys_snoc]
    simp only [destroysOf, List.append_nil, ← List.append_assoc, List.map_append, List.mem_append, List.map_cons, List.map_nil,
      List.mem_singleton] at this ⊢
    grind
  · exact h.trace.snoc trivial
  · intro hq
    rw [List.range_succ, ← h.order hq, destroys_snoc]
    simp [destroysOf]
  · exact h.top

end

/-! ## Everything else -/

def calls : List Frame → List Nat
  | [] => []
  | ⟨_, .idle src⟩ :: st => src :: calls st
  | ⟨_, .ret⟩ :: st | ⟨_, .destroy⟩ :: st | ⟨_, .final⟩ :: st => calls st

def selfs (l : List Item) : Nat := l.countP (fun i => i.self)

structure Inv (q : Prop) (e : Nat) (s : State) : Prop where
  hist : Hist q s.items s.stack s.nextId s.log
  sorted : s.items.Pairwise (fun a b => a.id < b.id)
  lastEq : s.last = s.items.getLast?.map Item.id
  refsEq : s.refs = s.owned + s.live.length + selfs s.items + selfs (rests s.stack) + e
  needOk : need s.stack ≤ s.owned
  liveNd : s.live.Nodup
  liveLt : ∀ x ∈ s.live, x < s.nextSource
  idleIn : ∀ x, s.idle = some x → x ∈ s.live ∧ x ∉ calls s.stack
  callIn : ∀ x ∈ calls s.stack, x ∈ s.live
  callNd : (calls s.stack).Nodup
  quiet : s.stack = [] → s.items = [] → s.idle = none
  tight : s.own = false → ∀ x ∈ s.live, s.idle = some x ∨ x ∈ calls s.stack
  fin : ∀ f ∈ s.stack, f.cont = .final → s.refs = 0 ∧ s.stack = [f]
  refs0 : s.alive = true → s.refs = 0 → ∃ f ∈ s.stack, f.cont = .final
  cellOk : s.cell = .this ↔ s.shared = true ∧ s.alive = true ∧ 0 < s.refs
  dead : s.alive = false → s.stack = [] ∧ s.items = [] ∧ s.refs = 0

theorem inv_new (own : Bool) (foreign : List Nat) : Inv q 0 (new own foreign) := by
  constructor
  case hist =>
    constructor <;> simp [new, Pool.adds, Pool.destroys, rests]
    intro pre e h
    obtain ⟨post, h⟩ := h
    simp at h
  all_goals simp [new, calls, need, selfs, rests]

theorem Inv.alive {e : Nat} {s : State} (h : Inv q e s) (hs : s.stack ≠ [] ∨ 0 < s.refs) : s.alive = true := by
  cases ha : s.alive with
  | true => rfl
  | false =>
    have := h.dead ha
    rcases hs with hs | hs
    · exact absurd this.1 hs
    · omega

theorem access_ok {s : State} (h : s.alive = true) : s.access = .ok () := by
  unfold State.access
  rw [if_pos h]

theorem selfs_append (a b : List Item) : selfs (a ++ b) = selfs a + selfs b := List.countP_append ..

theorem selfs_cons (i : Item) (t : List Item) : selfs (i :: t) = selfs t + if i.self then 1 else 0 := by
  unfold selfs
  rw [List.countP_cons]

theorem calls_cons {a b : List Item} {k : Cont} {st : List Frame} : calls (⟨a, k⟩ :: st) = calls (⟨b, k⟩ :: st) := by
  cases k <;> rfl

theorem need_cons {a b : List Item} {k : Cont} {st : List Frame} : need (⟨a, k⟩ :: st) = need (⟨b, k⟩ :: st) := by
  cases k <;> rfl

/-- The frame on the top of the stack has something to do. There's a reference to spare. -/
theorem Inv.spare {s : State} {l : List Item} {k : Cont} (h : Inv q 0 { s with stack := ⟨l, k⟩ :: s.stack }) (hk : k ≠ .final) :
    selfs s.items + selfs l + 1 ≤ s.refs := by
  have hr := h.refsEq
  have hn := h.needOk
  have hc := h.callIn
  dsimp only at hr hn hc
  rw [rests_cons, selfs_append] at hr
  dsimp only at hr
  cases k with
  | ret => simp only [need] at hn; omega
  | destroy => simp only [need] at hn; omega
  | idle src =>
    have := hc src (by simp [calls])
    have := List.length_pos_of_mem this
    omega
  | final => exact absurd rfl hk

theorem Inv.final_refs {s : State} {l : List Item} (h : Inv q 0 { s with stack := ⟨l, .final⟩ :: s.stack }) :
    s.refs = 0 ∧ s.stack = [] ∧ s.owned = 0 ∧ s.live = [] ∧ selfs l = 0 ∧ selfs s.items = 0 ∧ s.idle = none := by
  obtain ⟨h1, h2⟩ := h.fin _ (List.mem_cons_self ..) rfl
  have hr := h.refsEq
  have hi := h.idleIn
  dsimp only at hr h1 h2 hi
  rw [rests_cons, selfs_append] at hr
  have hl : s.live = [] := List.eq_nil_of_length_eq_zero (by omega)
  refine ⟨h1, ?_, by omega, hl, by dsimp only at hr; omega, by omega, ?_⟩
  · injection h2
  · cases hh : s.idle with
    | none => rfl
    | some x => have := (hi x hh).1; rw [hl] at this; cases this

/-- The frame on the top of the stack, and the items of the pool -/
theorem Inv.top {s : State} {a b : List Item} {k : Cont} {items : List Item} {last : Option Nat} {refs : Nat} {log : List Event}
    (h : Inv q 0 { s with stack := ⟨a, k⟩ :: s.stack })
    (hh : Hist q items (⟨b, k⟩ :: s.stack) s.nextId log) (hso : items.Pairwise (fun a b => a.id < b.id))
    (hl : last = items.getLast?.map Item.id)
    (hr : refs + selfs s.items + selfs a = s.refs + selfs items + selfs b) (hr0 : s.refs = 0 ↔ refs = 0) :
    Inv q 0 { s with items := items, last := last, refs := refs, log := log, stack := ⟨b, k⟩ :: s.stack } := by
  refine ⟨hh, hso, hl, ?_, ?_, h.liveNd, h.liveLt, ?_, ?_, ?_, by simp, ?_, ?_, ?_, ?_, ?_⟩
  · have := h.refsEq
    simp only [rests_cons, selfs_append] at this ⊢
    omega
  · have := h.needOk
    dsimp only at this ⊢
    rw [need_cons]
    exact this
  · have := h.idleIn
    dsimp only at this ⊢
    rw [calls_cons]
    exact this
  · have := h.callIn
    dsimp only at this ⊢
    rw [calls_cons]
    exact this
  · have := h.callNd
    dsimp only at this ⊢
    rw [calls_cons]
    exact this
  · have := h.tight
    dsimp only at this ⊢
    rw [calls_cons]
    exact this
  · intro f hf hz
    dsimp only at hf
    rw [List.mem_cons] at hf
    rcases hf with rfl | hf
    · have hk : k = .final := hz
      subst hk
      have := h.final_refs
      exact ⟨hr0.1 this.1, by rw [this.2.1]⟩
    · have := h.fin f (by simp [hf]) hz
      have h2 : (⟨a, k⟩ :: s.stack : List Frame) = [f] := this.2
      injection h2 with h2 h3
      rw [h3] at hf
      cases hf
  · intro ha hz
    obtain ⟨f, hf, hz⟩ := h.refs0 ha (hr0.2 hz)
    dsimp only at hf
    rw [List.mem_cons] at hf
    rcases hf with rfl | hf
    · exact ⟨_, List.mem_cons_self .., hz⟩
    · exact ⟨f, by simp [hf], hz⟩
  · have h1 := h.cellOk
    dsimp only at h1 ⊢
    rw [h1, Nat.pos_iff_ne_zero, Nat.pos_iff_ne_zero, Ne, Ne, hr0]
  · intro ha
    have := (h.dead ha).1
    simp at this

/-- The inner loop -/
theorem inv_proc {k : Cont} (l : List Item) : ∀ {s : State}, Inv q 0 { s with stack := ⟨l, k⟩ :: s.stack } →
    ∃ s' done, proc l s k = .ok (s', done) ∧
      ((done = false ∧ Inv q 0 s' ∧ s'.items = s.items ∧ s'.idle = s.idle ∧ s'.stack ≠ []) ∨
       (done = true ∧ Inv q 0 { s' with stack := ⟨[], k⟩ :: s'.stack } ∧ s'.items = s.items)) := by
  induction l with
  | nil =>
    intro s h
    exact ⟨s, true, rfl, .inr ⟨rfl, h, rfl⟩⟩
  | cons i t ih =>
    intro s h
    unfold proc
    by_cases hi : i.self = true
    · rw [if_pos hi]
      have hk : k ≠ .final := by
        rintro rfl
        have := h.final_refs.2.2.2.2.1
        rw [selfs_cons, if_pos hi] at this
        omega
      have hsp := h.spare hk
      rw [selfs_cons, if_pos hi] at hsp
      rw [if_neg (by omega)]
      have := ih (s := { s with refs := s.refs - 1, log := s.log ++ [.destroy i.id] })
        (h.top (refs := s.refs - 1) h.hist.destroy h.sorted h.lastEq (by dsimp only; rw [selfs_cons, if_pos hi]; omega) (by omega))
      exact this
    · rw [if_neg hi]
      refine ⟨_, _, rfl, .inl ⟨rfl, ?_, rfl, rfl, by simp⟩⟩
      exact h.top h.hist.destroy h.sorted h.lastEq (by rw [selfs_cons, if_neg hi]; omega) (by omega)

theorem drainEnd_none {s : State} {cont : State → M State} (hx : s.idle = none) :
    drainEnd s cont = cont { s with log := s.log ++ [.drained s.stack.length] } := by
  unfold drainEnd
  split
  · rfl
  · rename_i h
    rw [hx] at h
    cases h

theorem drainEnd_some {s : State} {x : Nat} {cont : State → M State} (hx : s.idle = some x) :
    drainEnd s cont = (removeIdle s x >>= fun s => cont { s with log := s.log ++ [.drained s.stack.length] }) := by
  unfold drainEnd
  split
  · rename_i h
    rw [hx] at h
    cases h
  · rename_i y h
    rw [hx] at h
    cases h
    rfl

/-- The end of the loop: the items have been taken care of -/
theorem inv_drainEnd {s : State} {k : Cont} {cont : State → M State} (h : Inv q 0 { s with stack := ⟨[], k⟩ :: s.stack })
    (hi : s.items = [])
    (hc : ∀ s' : State, Inv q 0 { s' with stack := ⟨[], k⟩ :: s'.stack } → s'.items = [] → s'.idle = none →
      ∃ s'', cont s' = .ok s'' ∧ Inv q 0 s'' ∧ s''.items = []) :
    ∃ s', drainEnd s cont = .ok s' ∧ Inv q 0 s' ∧ s'.items = [] := by
  have hlog : Hist q s.items (⟨[], k⟩ :: s.stack) s.nextId (s.log ++ [.drained s.stack.length]) := by
    have h1 := h.hist.pop
    have h1' : Hist q s.items s.stack s.nextId s.log := h1
    rw [hi] at h1' ⊢
    exact h1'.drained.push h.hist.top
  have h1 := h.top (b := []) hlog h.sorted h.lastEq (refs := s.refs) rfl Iff.rfl
  cases hx : s.idle with
  | none =>
    have := hc { s with log := s.log ++ [.drained s.stack.length] } h1 hi hx
    rw [drainEnd_none hx]
    exact this
  | some x =>
    rw [drainEnd_some hx]
    unfold removeIdle
    by_cases ho : s.own = true
    · rw [if_pos ho, ok_bind]
      refine hc { s with idle := none, foreign := s.foreign.erase x, log := s.log ++ [.drained s.stack.length] } ?_ hi rfl
      refine ⟨h1.hist, h1.sorted, h1.lastEq, h1.refsEq, h1.needOk, h1.liveNd, h1.liveLt, by simp, h1.callIn, h1.callNd, by simp,
        ?_, h1.fin, h1.refs0, h1.cellOk, h1.dead⟩
      intro hf
      dsimp only at hf
      rw [ho] at hf
      cases hf
    · rw [if_neg ho]
      have hidle : x ∈ s.live ∧ x ∉ calls (⟨[], k⟩ :: s.stack) := h.idleIn x hx
      have hk : k ≠ .final := by
        rintro rfl
        have := h.final_refs.2.2.2.2.2.2
        rw [hx] at this
        cases this
      have hlen : (s.live.erase x).length = s.live.length - 1 := List.length_erase_of_mem hidle.1
      have hpos := List.length_pos_of_mem hidle.1
      have hmem : ∀ y, y ∈ s.live.erase x ↔ y ≠ x ∧ y ∈ s.live := fun y => h.liveNd.mem_erase_iff
      have hr2 : 2 ≤ s.refs := by
        have hr := h.refsEq
        have hn := h.needOk
        have hcl := h.callIn
        dsimp only at hr hn hcl
        cases k with
        | ret => simp only [need] at hn; omega
        | destroy => simp only [need] at hn; omega
        | idle src =>
          have h3 := hcl src (by simp [calls])
          have h4 : src ≠ x := by
            rintro rfl
            exact hidle.2 (by simp [calls])
          have h5 := List.length_pos_of_mem ((hmem src).2 ⟨h4, h3⟩)
          omega
        | final => exact absurd rfl hk
      rw [if_pos hidle.1, if_neg (by omega), if_neg (by omega), ok_bind]
      refine hc { s with idle := none, live := s.live.erase x, refs := s.refs - 1, log := s.log ++ [.drained s.stack.length] } ?_ hi rfl
      refine ⟨h1.hist, h1.sorted, h1.lastEq, ?_, h1.needOk, h.liveNd.erase x, ?_, by simp, ?_, h1.callNd, by simp, ?_, ?_, ?_, ?_, ?_⟩
      · have := h1.refsEq
        dsimp only at this ⊢
        rw [hlen]
        omega
      · intro y hy
        exact h.liveLt y ((hmem y).1 hy).2
      · intro y hy
        exact (hmem y).2 ⟨fun e => hidle.2 (e ▸ hy), h.callIn y hy⟩
      · intro hf y hy
        have hy' := (hmem y).1 hy
        rcases h.tight hf y hy'.2 with h6 | h6
        · have h6' : s.idle = some y := h6
          rw [hx] at h6'
          exact absurd (Option.some.inj h6').symm hy'.1
        · exact .inr h6
      · intro f hf hz
        have := (h1.fin f hf hz).1
        dsimp only at this
        omega
      · intro _ hz
        dsimp only at hz
        omega
      · have := h1.cellOk
        dsimp only at this ⊢
        rw [this]
        constructor <;> rintro ⟨a, b, c⟩ <;> exact ⟨a, b, by omega⟩
      · intro ha
        have := (h.dead ha).1
        simp at this

theorem inv_drainNext {s : State} {k : Cont} {cont : State → M State} (h : Inv q 0 { s with stack := ⟨[], k⟩ :: s.stack })
    (hc : ∀ s' : State, Inv q 0 { s' with stack := ⟨[], k⟩ :: s'.stack } → s'.items = [] → s'.idle = none →
      ∃ s'', cont s' = .ok s'' ∧ Inv q 0 s'' ∧ s''.items = []) :
    ∃ s', drainNext s k cont = .ok s' ∧ Inv q 0 s' ∧ s'.items = [] := by
  have ha : s.alive = true := h.alive (.inl (by simp))
  unfold drainNext
  rw [access_ok ha, ok_bind]
  by_cases hi : s.items = []
  · rw [if_pos hi]
    exact inv_drainEnd h hi hc
  · rw [if_neg hi]
    have h1 : Inv q 0 { s with items := [], last := none, stack := ⟨s.items, k⟩ :: s.stack } :=
      h.top (b := s.items) h.hist.take (by simp) rfl (by simp [selfs]) Iff.rfl
    obtain ⟨s', done, e, h2⟩ := inv_proc (k := k) s.items (s := { s with items := [], last := none }) h1
    rw [e, ok_bind]
    rcases h2 with ⟨rfl, h2, h3, _⟩ | ⟨rfl, h2, h3⟩
    · exact ⟨s', rfl, h2, h3⟩
    · dsimp only
      have h3' : s'.items = [] := h3
      rw [if_pos rfl, if_pos h3']
      exact inv_drainEnd h2 h3' hc

/-- `gutil_slice_free` at the end of `gutil_idle_pool_unref` -/
theorem inv_free {s : State} (h : Inv q 0 { s with stack := ⟨[], .final⟩ :: s.stack }) (hi : s.items = [])
    (_hd : s.idle = none) : ∃ s', free s = .ok s' ∧ Inv q 0 s' ∧ s'.items = [] := by
  have ha : s.alive = true := h.alive (.inl (by simp))
  obtain ⟨h1, h2, h3, h4, h5, h6, h7⟩ := h.final_refs
  unfold free
  rw [if_pos ha]
  refine ⟨_, rfl, ?_, hi⟩
  have hc : s.cell ≠ .this := by
    intro hc
    have := (h.cellOk.1 hc).2.2
    dsimp only at this
    omega
  have e := h.refsEq
  dsimp only at e
  refine ⟨h.hist.pop, h.sorted, h.lastEq, ?_, ?_, h.liveNd, h.liveLt, ?_, ?_, ?_, ?_, ?_, ?_, by simp, ?_, ?_⟩
  · dsimp only
    rw [h1, h2, h3, h4, hi]
    rfl
  · dsimp only; rw [h2]; simp [need]
  · intro x hx
    dsimp only at hx
    rw [h7] at hx
    cases hx
  · dsimp only; rw [h2]; simp [calls]
  · dsimp only; rw [h2]; simp [calls]
  · intro _ _; exact h7
  · dsimp only; rw [h4]; simp
  · dsimp only; rw [h2]; simp
  · dsimp only
    constructor
    · intro hc'; exact absurd hc' hc
    · rintro ⟨_, h8, _⟩; cases h8
  · intro _; exact ⟨h2, hi, h1⟩

/-- The caller's reference (which is the one that's not accounted for) is dropped. -/
theorem inv_unref {s : State} (h : Inv q 1 s) :
    ∃ s', unref s = .ok s' ∧ Inv q 0 s' ∧ (s'.items = [] ∨ s' = { s with refs := s.refs - 1 }) := by
  have hr := h.refsEq
  have ha : s.alive = true := h.alive (.inr (by omega))
  unfold unref
  rw [access_ok ha, ok_bind, if_neg (by omega)]
  by_cases h1 : s.refs = 1
  · rw [if_pos h1]
    have ho : s.owned = 0 := by omega
    have hl : s.live = [] := List.eq_nil_of_length_eq_zero (by omega)
    have hs1 : selfs s.items = 0 := by omega
    have hs2 : selfs (rests s.stack) = 0 := by omega
    have hidle : s.idle = none := by
      cases hh : s.idle with
      | none => rfl
      | some x => have := (h.idleIn x hh).1; rw [hl] at this; cases this
    have hst : s.stack = [] := by
      cases hst : s.stack with
      | nil => rfl
      | cons f st =>
        have hn := h.needOk
        have hci := h.callIn
        rw [hst] at hn hci
        obtain ⟨l, k⟩ := f
        cases k with
        | ret => simp only [need] at hn; omega
        | destroy => simp only [need] at hn; omega
        | idle src => have := hci src (by simp [calls]); rw [hl] at this; cases this
        | final => have := (h.fin ⟨l, .final⟩ (by rw [hst]; simp) rfl).1; omega
    -- with the cell cleared
    have hce : (clearCell { s with refs := 0 }).cell ≠ .this := by
      unfold clearCell
      split
      · simp
      · rename_i hsh
        intro hc
        exact absurd (h.cellOk.1 hc).1 hsh
    have hsame : ∃ c, clearCell { s with refs := 0 } = { s with refs := 0, cell := c } ∧ c ≠ .this := by
      unfold clearCell at hce ⊢
      split
      · exact ⟨.null, rfl, by simp⟩
      · rename_i hsh
        rw [if_neg hsh] at hce
        exact ⟨s.cell, rfl, hce⟩
    obtain ⟨c, e, hcn⟩ := hsame
    rw [e]
    have h2 : Inv q 0 { s with refs := 0, cell := c, stack := ⟨[], .final⟩ :: s.stack } := by
      refine ⟨h.hist.push (by simp [hst]), h.sorted, h.lastEq, ?_, ?_, h.liveNd, h.liveLt, ?_, ?_, ?_, by simp, ?_, ?_, ?_, ?_, ?_⟩
      · dsimp only
        rw [ho, hl, hs1, hst]
        rfl
      · dsimp only; rw [hst]; simp [need]
      · intro x hx; dsimp only at hx; rw [hidle] at hx; cases hx
      · dsimp only; rw [hst]; simp [calls]
      · dsimp only; rw [hst]; simp [calls]
      · dsimp only; rw [hl]; simp
      · dsimp only; rw [hst]; simp
      · intro _ _; exact ⟨_, List.mem_cons_self .., rfl⟩
      · dsimp only
        constructor
        · intro hc; exact absurd hc hcn
        · rintro ⟨_, _, h8⟩; omega
      · intro hd; dsimp only at hd; rw [ha] at hd; cases hd
    obtain ⟨s', e', h3, h4⟩ := inv_drainNext (s := { s with refs := 0, cell := c }) h2 (fun s' h' hi hd => inv_free h' hi hd)
    exact ⟨s', e', h3, .inl h4⟩
  · rw [if_neg h1]
    refine ⟨_, rfl, ?_, .inr rfl⟩
    refine ⟨h.hist, h.sorted, h.lastEq, by dsimp only; omega, h.needOk, h.liveNd, h.liveLt, h.idleIn, h.callIn, h.callNd, h.quiet, h.tight,
      ?_, ?_, ?_, ?_⟩
    · intro f hf hz
      have := (h.fin f hf hz).1
      omega
    · intro _ hz; dsimp only at hz; omega
    · have := h.cellOk
      dsimp only
      rw [this]
      constructor <;> rintro ⟨a, b, c⟩ <;> exact ⟨a, b, by omega⟩
    · intro hd; dsimp only at hd; rw [ha] at hd; cases hd

/-- Whatever follows the loop -/
theorem inv_after {s : State} {k : Cont} (h : Inv q 0 { s with stack := ⟨[], k⟩ :: s.stack }) (hi : s.items = [])
    (hd : s.idle = none) : ∃ s', after k s = .ok s' ∧ Inv q 0 s' ∧ s'.items = [] := by
  have hfin : k ≠ .final → ∀ f ∈ s.stack, f.cont ≠ .final := by
    intro hk f hf hz
    have := (h.fin f (by simp [hf]) hz).2
    dsimp only at this
    injection this with h1 h2
    rw [h2] at hf
    cases hf
  have ha : s.alive = true := h.alive (.inl (by simp))
  have hrefs : k ≠ .final → 0 < s.refs := by
    intro hk
    have := h.spare hk
    omega
  unfold after
  cases k with
  | ret =>
    refine ⟨s, rfl, ?_, hi⟩
    refine ⟨h.hist.pop, h.sorted, h.lastEq, h.refsEq, ?_, h.liveNd, h.liveLt, h.idleIn, h.callIn, h.callNd, fun _ _ => hd, h.tight,
      ?_, ?_, h.cellOk, ?_⟩
    · have := h.needOk
      simp only [need] at this
      omega
    · intro f hf hz
      exact absurd hz (hfin (by simp) f hf)
    · intro _ hz
      have := hrefs (by simp)
      omega
    · intro hf; rw [ha] at hf; cases hf
  | destroy =>
    have hn := h.needOk
    simp only [need] at hn
    have h1 : Inv q 1 { s with owned := s.owned - 1 } := by
      refine ⟨h.hist.pop, h.sorted, h.lastEq, ?_, ?_, h.liveNd, h.liveLt, h.idleIn, h.callIn, h.callNd, fun _ _ => hd, h.tight,
        ?_, ?_, h.cellOk, ?_⟩
      · have := h.refsEq
        rw [rests_cons] at this
        dsimp only [List.nil_append] at this ⊢
        omega
      · dsimp only; omega
      · intro f hf hz
        exact absurd hz (hfin (by simp) f hf)
      · intro _ hz
        have := hrefs (by simp)
        dsimp only at hz
        omega
      · intro hf; dsimp only at hf; rw [ha] at hf; cases hf
    obtain ⟨s', e, h2, h3⟩ := inv_unref h1
    refine ⟨s', e, h2, ?_⟩
    rcases h3 with h3 | rfl
    · exact h3
    · exact hi
  | idle src =>
    have hl := h.callIn src (by simp [calls])
    have hl' : src ∈ s.live := hl
    have hlen : (s.live.erase src).length = s.live.length - 1 := List.length_erase_of_mem hl'
    have hpos := List.length_pos_of_mem hl'
    have hmem : ∀ y, y ∈ s.live.erase src ↔ y ≠ src ∧ y ∈ s.live := fun y => h.liveNd.mem_erase_iff
    have hnd : src ∉ calls s.stack ∧ (calls s.stack).Nodup := by
      have := h.callNd
      simpa [calls] using this
    have h1 : Inv q 1 { s with live := s.live.erase src } := by
      refine ⟨h.hist.pop, h.sorted, h.lastEq, ?_, h.needOk, h.liveNd.erase src, ?_, ?_, ?_, hnd.2, fun _ _ => hd, ?_,
        ?_, ?_, h.cellOk, ?_⟩
      · have := h.refsEq
        rw [rests_cons] at this
        dsimp only [List.nil_append] at this ⊢
        omega
      · intro x hx
        exact h.liveLt x ((hmem x).1 hx).2
      · intro x hx
        dsimp only at hx
        rw [hd] at hx
        cases hx
      · intro x hx
        exact (hmem x).2 ⟨fun e => hnd.1 (e ▸ hx), h.callIn x (by simp only [calls, List.mem_cons]; exact .inr hx)⟩
      · intro hf x hx
        obtain ⟨h3, h4⟩ := (hmem x).1 hx
        rcases h.tight hf x h4 with h5 | h5
        · exact .inl h5
        · simp only [calls, List.mem_cons] at h5
          rcases h5 with h5 | h5
          · exact absurd h5 h3
          · exact .inr h5
      · intro f hf hz
        exact absurd hz (hfin (by simp) f hf)
      · intro _ hz
        have := hrefs (by simp)
        dsimp only at hz
        omega
      · intro hf; dsimp only at hf; rw [ha] at hf; cases hf
    obtain ⟨s', e, h2, h3⟩ := inv_unref h1
    refine ⟨s', e, h2, ?_⟩
    rcases h3 with h3 | rfl
    · exact h3
    · exact hi
  | final => exact inv_free h hi hd

theorem inv_drain {s : State} {k : Cont} (h : Inv q 0 { s with stack := ⟨[], k⟩ :: s.stack }) :
    ∃ s', drain s k = .ok s' ∧ Inv q 0 s' ∧ s'.items = [] :=
  inv_drainNext h (fun _ h' hi hd => inv_after h' hi hd)

/-- A destroy function returns -/
theorem inv_ret {s : State} (h : Inv q 0 s) (hs : s.stack ≠ []) :
    ∃ s', ret s = .ok s' ∧ Inv q 0 s' ∧ (s'.items = [] ∨ (s'.items = s.items ∧ s'.idle = s.idle ∧ s'.stack ≠ [])) := by
  unfold ret
  cases hst : s.stack with
  | nil => exact absurd hst hs
  | cons f st =>
    obtain ⟨l, k⟩ := f
    have h0 : Inv q 0 { ({ s with stack := st } : State) with stack := ⟨l, k⟩ :: ({ s with stack := st } : State).stack } := by
      have : s = { s with stack := ⟨l, k⟩ :: st } := by rw [← hst]
      rw [this] at h
      exact h
    obtain ⟨s', done, e, h2⟩ := inv_proc l h0
    dsimp only
    rw [e, ok_bind]
    dsimp only
    rcases h2 with ⟨rfl, h2, h3⟩ | ⟨rfl, h2, h3⟩
    · exact ⟨s', rfl, h2, .inr h3⟩
    · obtain ⟨s'', e', h5, h6⟩ := inv_drain h2
      rw [if_pos rfl]
      exact ⟨s'', e', h5, .inl h6⟩

/-- `gutil_idle_pool_drain` can be called -/
theorem Inv.push {s : State} {k : Cont} (h : Inv q 0 s) (hq : q → ∀ f ∈ s.stack, f.rest = []) (hk : k = .ret ∨ k = .destroy) (hn : need (⟨[], k⟩ :: s.stack) ≤ s.owned) :
    Inv q 0 { s with stack := ⟨[], k⟩ :: s.stack } := by
  have hc : calls (⟨[], k⟩ :: s.stack) = calls s.stack := by
    rcases hk with rfl | rfl <;> rfl
  have hkf : k ≠ .final := by
    rcases hk with rfl | rfl <;> simp
  have ho : 0 < s.owned := by
    rcases hk with rfl | rfl <;> simp only [need] at hn <;> omega
  have hr := h.refsEq
  refine ⟨h.hist.push hq, h.sorted, h.lastEq, h.refsEq, hn, h.liveNd, h.liveLt, ?_, ?_, ?_, by simp, ?_, ?_, ?_, h.cellOk, ?_⟩
  · dsimp only; rw [hc]; exact h.idleIn
  · dsimp only; rw [hc]; exact h.callIn
  · dsimp only; rw [hc]; exact h.callNd
  · dsimp only; rw [hc]; exact h.tight
  · intro f hf hz
    dsimp only at hf
    rw [List.mem_cons] at hf
    rcases hf with rfl | hf
    · exact absurd hz hkf
    · have := (h.fin f hf hz).1
      omega
  · intro _ hz
    dsimp only at hz
    omega
  · intro ha
    have := (h.dead ha).2.2
    omega

theorem mem_calls {st : List Frame} {src : Nat} : src ∈ calls st ↔ ∃ f ∈ st, f.cont = .idle src := by
  induction st with
  | nil => simp [calls]
  | cons f st ih =>
    obtain ⟨l, k⟩ := f
    cases k <;> simp [calls, ih, eq_comm]

/-- The source is dispatched by the right thread -/
theorem Inv.pushIdle {s : State} {src : Nat} (h : Inv q 0 s) (hq : q → ∀ f ∈ s.stack, f.rest = []) (hl : src ∈ s.live) (hc : src ∉ calls s.stack) :
    Inv q 0 { s with idle := none, stack := ⟨[], .idle src⟩ :: s.stack } := by
  have hr := h.refsEq
  have hpos := List.length_pos_of_mem hl
  refine ⟨h.hist.push hq, h.sorted, h.lastEq, h.refsEq, h.needOk, h.liveNd, h.liveLt, ?_, ?_, ?_, by simp, ?_, ?_, ?_, h.cellOk, ?_⟩
  · intro x hx
    cases hx
  · intro x hx
    simp only [calls, List.mem_cons] at hx
    rcases hx with rfl | hx
    · exact hl
    · exact h.callIn x hx
  · simp only [calls, List.nodup_cons]
    exact ⟨hc, h.callNd⟩
  · intro hf x hx
    rcases h.tight hf x hx with h1 | h1
    · rcases h.tight hf src hl with h2 | h2
      · rw [h1] at h2
        cases h2
        exact .inr (by simp [calls])
      · exact absurd h2 hc
    · exact .inr (by simp only [calls, List.mem_cons]; exact .inr h1)
  · intro f hf hz
    dsimp only at hf
    rw [List.mem_cons] at hf
    rcases hf with rfl | hf
    · cases hz
    · have := (h.fin f hf hz).1
      omega
  · intro _ hz
    dsimp only at hz
    omega
  · intro ha
    have := (h.dead ha).2.2
    omega

/-- The source is dispatched by a wrong thread -/
theorem Inv.drop {s : State} {src : Nat} (h : Inv q 0 s) (hl : src ∈ s.live) (hc : src ∉ calls s.stack) :
    Inv q 1 { s with idle := none, live := s.live.erase src } := by
  have hlen : (s.live.erase src).length = s.live.length - 1 := List.length_erase_of_mem hl
  have hpos := List.length_pos_of_mem hl
  have hmem : ∀ y, y ∈ s.live.erase src ↔ y ≠ src ∧ y ∈ s.live := fun y => h.liveNd.mem_erase_iff
  refine ⟨h.hist, h.sorted, h.lastEq, ?_, h.needOk, h.liveNd.erase src, ?_, by simp, ?_, h.callNd, by simp, ?_,
    h.fin, h.refs0, h.cellOk, h.dead⟩
  · have := h.refsEq
    dsimp only
    omega
  · intro x hx
    exact h.liveLt x ((hmem x).1 hx).2
  · intro x hx
    exact (hmem x).2 ⟨fun e => hc (e ▸ hx), h.callIn x hx⟩
  · intro hf x hx
    obtain ⟨h3, h4⟩ := (hmem x).1 hx
    rcases h.tight hf x h4 with h1 | h1
    · rcases h.tight hf src hl with h2 | h2
      · rw [h1] at h2
        cases h2
        exact absurd rfl h3
      · exact absurd h2 hc
    · exact .inr h1

theorem append_last {items : List Item} {last : Option Nat} {i : Item} (hs : items.Pairwise (fun a b => a.id < b.id))
    (hl : last = items.getLast?.map Item.id) : append items last i = .ok (items ++ [i]) := by
  unfold append
  rcases List.eq_nil_or_concat items with rfl | ⟨t, x, rfl⟩
  · rw [hl]
    rfl
  · rw [List.concat_eq_append] at hs hl ⊢
    rw [List.getLast?_concat] at hl
    rw [hl]
    dsimp only [Option.map]
    have : List.findIdx? (fun i => i.id == x.id) (t ++ [x]) = some t.length := by
      rw [List.findIdx?_eq_some_iff_getElem]
      refine ⟨by simp, by simp, ?_⟩
      intro j hj
      rw [List.getElem_append_left hj]
      have := (List.pairwise_append.1 hs).2.2 t[j] (List.getElem_mem _) x (by simp)
      simp only [Bool.not_eq_true, beq_eq_false_iff_ne]
      omega
    rw [this]
    dsimp only
    rw [List.take_of_length_le (by simp)]

theorem Inv.idLt {s : State} {e : Nat} (h : Inv q e s) : ∀ i ∈ s.items, i.id < s.nextId := by
  intro i hi
  rw [h.hist.mem]
  exact .inr (List.mem_map_of_mem (List.mem_append_right _ hi))

theorem inv_schedule {s : State} (h : Inv q 0 s) (hr : 0 < s.refs) (hi : s.items ≠ []) : Inv q 0 (schedule s) := by
  unfold schedule
  split
  · exact h
  · rename_i hd
    have ha := h.alive (.inr hr)
    have hno : s.nextSource ∉ s.live := fun hm => Nat.lt_irrefl _ (h.liveLt _ hm)
    refine ⟨h.hist, h.sorted, h.lastEq, ?_, h.needOk, ?_, ?_, ?_, ?_, h.callNd, fun _ he => absurd he hi, ?_, ?_, ?_, ?_, ?_⟩
    · have := h.refsEq
      simp only [List.length_append, List.length_cons, List.length_nil]
      omega
    · rw [List.nodup_append]
      refine ⟨h.liveNd, by simp, ?_⟩
      intro a ha b hb e
      rw [List.mem_singleton] at hb
      rw [e, hb] at ha
      exact hno ha
    · intro x hx
      rw [List.mem_append, List.mem_singleton] at hx
      rcases hx with hx | rfl
      · have := h.liveLt x hx
        dsimp only
        omega
      · dsimp only; omega
    · intro x hx
      cases hx
      exact ⟨by simp, fun hm => hno (h.callIn _ hm)⟩
    · intro x hx
      exact List.mem_append_left _ (h.callIn x hx)
    · intro hf x hx
      rw [List.mem_append, List.mem_singleton] at hx
      rcases hx with hx | rfl
      · rcases h.tight hf x hx with h1 | h1
        · rw [hd] at h1; cases h1
        · exact .inr h1
      · exact .inl rfl
    · intro f hf hz
      have := (h.fin f hf hz).1
      omega
    · intro _ hz
      dsimp only at hz
      omega
    · have := h.cellOk
      dsimp only
      rw [this]
      constructor <;> rintro ⟨a, b, c⟩ <;> exact ⟨a, b, by omega⟩
    · intro hf; dsimp only at hf; rw [ha] at hf; cases hf

/-- `gutil_idle_pool_add` -/
theorem inv_add {s : State} (h : Inv q 0 s) (hr : 0 < s.refs) : ∃ s', add s false = .ok s' ∧ Inv q 0 s' ∧ s'.idle ≠ none := by
  unfold add
  rw [append_last h.sorted h.lastEq, ok_bind]
  refine ⟨_, rfl, ?_, ?_⟩
  · apply inv_schedule
    · have ha := h.alive (.inr hr)
      refine ⟨h.hist.add false, ?_, by simp, ?_, h.needOk, h.liveNd, h.liveLt, h.idleIn, h.callIn, h.callNd, by simp, h.tight, h.fin, h.refs0,
        h.cellOk, ?_⟩
      · refine List.pairwise_append.2 ⟨h.sorted, by simp, ?_⟩
        intro a ha b hb
        rw [List.mem_singleton] at hb
        rw [hb]
        exact h.idLt a ha
      · have := h.refsEq
        dsimp only
        rw [selfs_append]
        have e : selfs [(⟨s.nextId, false⟩ : Item)] = 0 := rfl
        omega
      · intro hf; dsimp only at hf; rw [ha] at hf; cases hf
    · exact hr
    · simp
  · unfold schedule
    split
    · rename_i h1
      rw [h1]
      simp
    · simp

theorem inv_shared {own : Bool} {foreign : List Nat} : ∃ s, newShared own foreign = .ok s ∧ Inv q 0 s ∧ s.idle ≠ none := by
  refine ⟨_, rfl, ?_, by simp [schedule, new]⟩
  constructor
  case hist =>
    have h0 := (inv_new (q := q) own foreign).hist.add true
    exact h0
  all_goals simp [new, calls, need, selfs, rests, schedule]

/-- Nothing is drained inside of a drain which isn't done with its items. -/
def Orderly (s : State) (a : Act) : Prop :=
  (a = .drain ∨ a = .destroy ∨ ∃ src right, a = .dispatch src right) → ∀ f ∈ s.stack, f.rest = []

/-- Items in the pool have a source. -/
def Sched (s : State) : Prop := s.items ≠ [] → s.idle ≠ none

/-- Every action of the client which follows the rules is fine. -/
theorem inv_step {s : State} {a : Act} (h : Inv q 0 s) (ha : Allowed s a) (hq : q → Orderly s a) :
    ∃ s', step s a = .ok s' ∧ Inv q 0 s' ∧ ((∀ src, a ≠ .dispatch src false) → Sched s → Sched s') := by
  have hr := h.refsEq
  cases a with
  | add =>
    have ha : 0 < s.refs := ha
    obtain ⟨s', e, h1, h2⟩ := inv_add h ha
    refine ⟨s', ?_, h1, fun _ _ _ => h2⟩
    unfold step
    rw [access_ok (h.alive (.inr ha)), ok_bind]
    exact e
  | ref =>
    have ha : 0 < s.refs := ha
    have hal := h.alive (.inr ha)
    refine ⟨{ s with refs := s.refs + 1, owned := s.owned + 1 }, ?_, ?_, fun _ h1 => h1⟩
    · unfold step
      dsimp only
      rw [access_ok hal, ok_bind]
    · refine ⟨h.hist, h.sorted, h.lastEq, by dsimp only; omega, ?_, h.liveNd, h.liveLt, h.idleIn, h.callIn, h.callNd, h.quiet, h.tight,
        ?_, ?_, ?_, ?_⟩
      · have := h.needOk
        dsimp only
        omega
      · intro f hf hz
        have := (h.fin f hf hz).1
        omega
      · intro _ hz; dsimp only at hz; omega
      · have := h.cellOk
        dsimp only
        rw [this]
        constructor <;> rintro ⟨a, b, c⟩ <;> exact ⟨a, b, by omega⟩
      · intro hf; dsimp only at hf; rw [hal] at hf; cases hf
  | unref =>
    have ha : need s.stack + 1 ≤ s.owned := ha
    have h1 : Inv q 1 { s with owned := s.owned - 1 } :=
      ⟨h.hist, h.sorted, h.lastEq, by dsimp only; omega, by dsimp only; omega, h.liveNd, h.liveLt, h.idleIn, h.callIn, h.callNd, h.quiet, h.tight,
        h.fin, h.refs0, h.cellOk, h.dead⟩
    obtain ⟨s', e, h2, h3⟩ := inv_unref h1
    refine ⟨s', e, h2, fun _ h4 => ?_⟩
    rcases h3 with h3 | rfl
    · exact fun h5 => absurd h3 h5
    · exact h4
  | drain =>
    have ha : max 1 (need s.stack) ≤ s.owned := ha
    obtain ⟨s', e, h1, h2⟩ := inv_drain (h.push (k := .ret) (fun hh => hq hh (.inl rfl)) (.inl rfl) ha)
    exact ⟨s', e, h1, fun _ _ h3 => absurd h2 h3⟩
  | destroy =>
    have ha : need s.stack + 1 ≤ s.owned := ha
    obtain ⟨s', e, h1, h2⟩ := inv_drain (h.push (k := .destroy) (fun hh => hq hh (.inr (.inl rfl))) (.inr rfl) ha)
    exact ⟨s', e, h1, fun _ _ h3 => absurd h2 h3⟩
  | dispatch src right =>
    obtain ⟨h1, h2⟩ : src ∈ s.live ∧ ∀ f ∈ s.stack, f.cont ≠ .idle src := ha
    have hc : src ∉ calls s.stack := by
      rw [mem_calls]
      rintro ⟨f, hf, hz⟩
      exact h2 f hf hz
    have hal : s.alive = true := h.alive (.inr (by have := List.length_pos_of_mem h1; omega))
    unfold step dispatch
    dsimp only
    rw [access_ok hal, ok_bind]
    cases right with
    | true =>
      rw [if_pos rfl]
      obtain ⟨s', e, h3, h4⟩ := inv_drain (s := { s with idle := none })
        (h.pushIdle (fun hh => hq hh (.inr (.inr ⟨_, _, rfl⟩))) h1 hc)
      exact ⟨s', e, h3, fun _ _ h5 => absurd h4 h5⟩
    | false =>
      rw [if_neg (by simp)]
      obtain ⟨s', e, h3, _⟩ := inv_unref (h.drop h1 hc)
      exact ⟨s', e, h3, fun h5 => absurd rfl (h5 src)⟩
  | ret =>
    obtain ⟨s', e, h1, h2⟩ := inv_ret h ha
    refine ⟨s', e, h1, fun _ h3 => ?_⟩
    rcases h2 with h2 | ⟨h2, h4, _⟩
    · exact fun h5 => absurd h2 h5
    · unfold Sched
      rw [h2, h4]
      exact h3
  | cell c =>
    refine ⟨{ s with cell := c }, rfl, ?_, fun _ h1 => h1⟩
    refine ⟨h.hist, h.sorted, h.lastEq, h.refsEq, h.needOk, h.liveNd, h.liveLt, h.idleIn, h.callIn, h.callNd, h.quiet, h.tight,
      h.fin, h.refs0, ?_, h.dead⟩
    have hc := h.cellOk
    dsimp only
    rw [← hc]
    rcases ha with ⟨h1, h2⟩ | ⟨h1, h2⟩ <;> rw [h1, h2] <;> simp

theorem reach_inv {P : State → Act → Prop} (hP : q → ∀ s a, P s a → Orderly s a) {s : State} (h : Reach P s) : Inv q 0 s := by
  induction h with
  | new own foreign => exact inv_new own foreign
  | shared e =>
    obtain ⟨s', e', h1, _⟩ := inv_shared
    rw [e] at e'
    cases e'
    exact h1
  | step _ ha hp e ih =>
    obtain ⟨s', e', h1, _⟩ := inv_step ih ha (fun hh => hP hh _ _ hp)
    rw [e] at e'
    cases e'
    exact h1

theorem reach_sched {P : State → Act → Prop} (hP : ∀ s src, ¬ P s (.dispatch src false)) {s : State} (h : Reach P s) : Sched s := by
  induction h with
  | new own foreign => intro h; exact absurd rfl h
  | shared e =>
    obtain ⟨s', e', _, h1⟩ := inv_shared (q := False)
    rw [e] at e'
    cases e'
    exact fun _ => h1
  | step hr ha hp e ih =>
    obtain ⟨s', e', _, h1⟩ := inv_step (reach_inv (q := False) (fun h => h.elim) hr) ha (fun h => h.elim)
    rw [e] at e'
    cases e'
    refine h1 ?_ ih
    rintro src rfl
    exact hP _ _ hp

/-! ## Sources of everyone else -/

/-- Nobody else's sources have been touched. -/
def Same (s s' : State) : Prop := s'.own = s.own ∧ (s.own = false → s'.foreign = s.foreign)

theorem Same.trans {a b c : State} (h : Same a b) (h' : Same b c) : Same a c :=
  ⟨h'.1.trans h.1, fun hf => (h'.2 (h.1.trans hf)).trans (h.2 hf)⟩

theorem same_free {s s' : State} (h : free s = .ok s') : Same s s' := by
  unfold free at h
  split at h
  · cases h
    exact ⟨rfl, fun _ => rfl⟩
  · cases h

theorem same_clear (s : State) : Same s (clearCell s) := by
  unfold clearCell
  split <;> exact ⟨rfl, fun _ => rfl⟩

theorem same_proc {k : Cont} (l : List Item) : ∀ {s s' : State} {d : Bool}, proc l s k = .ok (s', d) → Same s s' := by
  induction l with
  | nil =>
    intro s s' d h
    cases h
    exact ⟨rfl, fun _ => rfl⟩
  | cons i t ih =>
    intro s s' d h
    unfold proc at h
    split at h
    · split at h
      · cases h
      · have := ih h
        exact this
    · cases h
      exact ⟨rfl, fun _ => rfl⟩

theorem same_removeIdle {s s' : State} {x : Nat} (h : removeIdle s x = .ok s') : Same s s' := by
  unfold removeIdle at h
  split at h
  · rename_i ho
    cases h
    exact ⟨rfl, fun hf => by rw [ho] at hf; cases hf⟩
  · split at h
    · split at h
      · cases h
      split at h
      · have := (same_clear _).trans (same_free h)
        exact this
      · cases h
        exact ⟨rfl, fun _ => rfl⟩
    · cases h

theorem bind_ok {α β : Type} {x : M α} {f : α → M β} {b : β} (h : (x >>= f) = .ok b) : ∃ a, x = .ok a ∧ f a = .ok b := by
  cases x with
  | error e => cases h
  | ok a => exact ⟨a, rfl, h⟩

theorem same_drainEnd {s s' : State} {cont : State → M State} (hc : ∀ a b, cont a = .ok b → Same a b) (h : drainEnd s cont = .ok s') :
    Same s s' := by
  cases hx : s.idle with
  | none =>
    rw [drainEnd_none hx] at h
    have := hc _ _ h
    exact this
  | some x =>
    rw [drainEnd_some hx] at h
    obtain ⟨a, h1, h2⟩ := bind_ok h
    have := hc _ _ h2
    exact (same_removeIdle h1).trans this

theorem same_drainNext {s s' : State} {k : Cont} {cont : State → M State} (hc : ∀ a b, cont a = .ok b → Same a b)
    (h : drainNext s k cont = .ok s') : Same s s' := by
  unfold drainNext at h
  obtain ⟨_, _, h⟩ := bind_ok h
  split at h
  · exact same_drainEnd hc h
  · obtain ⟨⟨a, d⟩, h1, h2⟩ := bind_ok h
    have h3 := same_proc _ h1
    have h3 : Same s a := h3
    dsimp only at h2
    split at h2
    · split at h2
      · exact h3.trans (same_drainEnd hc h2)
      · cases h2
    · cases h2
      exact h3

theorem same_unref {s s' : State} (h : unref s = .ok s') : Same s s' := by
  unfold unref at h
  obtain ⟨_, _, h⟩ := bind_ok h
  split at h
  · cases h
  · split at h
    · have h1 : Same s (clearCell { s with refs := 0 }) := same_clear { s with refs := 0 }
      exact h1.trans (same_drainNext (fun _ _ => same_free) h)
    · cases h
      exact ⟨rfl, fun _ => rfl⟩

theorem same_after {k : Cont} {s s' : State} (h : after k s = .ok s') : Same s s' := by
  unfold after at h
  cases k with
  | ret => cases h; exact ⟨rfl, fun _ => rfl⟩
  | destroy => exact same_unref (s := { s with owned := s.owned - 1 }) h
  | idle src => exact same_unref (s := { s with live := s.live.erase src }) h
  | final => exact same_free h

theorem same_drain {k : Cont} {s s' : State} (h : drain s k = .ok s') : Same s s' := same_drainNext (fun _ _ => same_after) h

theorem same_step {s s' : State} {a : Act} (h : step s a = .ok s') : Same s s' := by
  cases a with
  | add =>
    obtain ⟨_, _, h⟩ := bind_ok h
    obtain ⟨l, _, h⟩ := bind_ok h
    cases h
    unfold schedule
    split <;> exact ⟨rfl, fun _ => rfl⟩
  | ref =>
    obtain ⟨_, _, h⟩ := bind_ok h
    cases h
    exact ⟨rfl, fun _ => rfl⟩
  | unref => exact same_unref (s := { s with owned := s.owned - 1 }) h
  | drain => exact same_drain h
  | destroy => exact same_drain h
  | dispatch src right =>
    obtain ⟨_, _, h⟩ := bind_ok h
    split at h
    · exact same_drain (s := { s with idle := none }) h
    · exact same_unref (s := { s with idle := none, live := s.live.erase src }) h
  | ret =>
    unfold step ret at h
    dsimp only at h
    split at h
    · cases h
    · obtain ⟨⟨a, d⟩, h1, h2⟩ := bind_ok h
      rename_i st _
      have h3 : Same s a := same_proc (s := { s with stack := st }) _ h1
      dsimp only at h2
      split at h2
      · exact h3.trans (same_drain h2)
      · cases h2; exact h3
  | cell c => cases h; exact ⟨rfl, fun _ => rfl⟩

end Verif.Pool
