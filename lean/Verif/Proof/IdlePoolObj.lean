import Verif.Model.IdlePoolObj
import Verif.Props.IdlePool

namespace Verif.Pool
open Verif.C

/-- Nothing has been removed from the history. -/
def Grow (s s' : State) : Prop := s.log <+: s'.log

theorem Grow.trans {a b c : State} (h : Grow a b) (h' : Grow b c) : Grow a c := List.IsPrefix.trans h h'

theorem grow_free {s s' : State} (h : free s = .ok s') : Grow s s' := by
  unfold free at h
  split at h
  · cases h
    exact List.prefix_refl _
  · cases h

theorem grow_clear (s : State) : Grow s (clearCell s) := by
  unfold clearCell
  split <;> exact List.prefix_refl _

theorem grow_proc {k : Cont} (l : List Item) : ∀ {s s' : State} {d : Bool}, proc l s k = .ok (s', d) → Grow s s' := by
  induction l with
  | nil =>
    intro s s' d h
    cases h
    exact List.prefix_refl _
  | cons i t ih =>
    intro s s' d h
    unfold proc at h
    split at h
    · split at h
      · cases h
      · exact (List.prefix_append _ _).trans (ih h)
    · cases h
      exact List.prefix_append _ _

theorem grow_removeIdle {s s' : State} {x : Nat} (h : removeIdle s x = .ok s') : Grow s s' := by
  unfold removeIdle at h
  split at h
  · cases h
    exact List.prefix_refl _
  · split at h
    · split at h
      · cases h
      split at h
      · have := (grow_clear _).trans (grow_free h)
        exact this
      · cases h
        exact List.prefix_refl _
    · cases h

theorem grow_drainEnd {s s' : State} {cont : State → M State} (hc : ∀ a b, cont a = .ok b → Grow a b) (h : drainEnd s cont = .ok s') :
    Grow s s' := by
  cases hx : s.idle with
  | none =>
    rw [drainEnd_none hx] at h
    exact (List.prefix_append _ _).trans (hc _ _ h)
  | some x =>
    rw [drainEnd_some hx] at h
    obtain ⟨a, h1, h2⟩ := bind_ok h
    exact (grow_removeIdle h1).trans ((List.prefix_append _ _).trans (hc _ _ h2))

theorem grow_drainNext {s s' : State} {k : Cont} {cont : State → M State} (hc : ∀ a b, cont a = .ok b → Grow a b)
    (h : drainNext s k cont = .ok s') : Grow s s' := by
  unfold drainNext at h
  obtain ⟨_, _, h⟩ := bind_ok h
  split at h
  · exact grow_drainEnd hc h
  · obtain ⟨⟨a, d⟩, h1, h2⟩ := bind_ok h
    have h3 := grow_proc _ h1
    have h3 : Grow s a := h3
    dsimp only at h2
    split at h2
    · split at h2
      · exact h3.trans (grow_drainEnd hc h2)
      · cases h2
    · cases h2
      exact h3

theorem grow_unref {s s' : State} (h : unref s = .ok s') : Grow s s' := by
  unfold unref at h
  obtain ⟨_, _, h⟩ := bind_ok h
  split at h
  · cases h
  · split at h
    · have h1 : Grow s (clearCell { s with refs := 0 }) := grow_clear { s with refs := 0 }
      exact h1.trans (grow_drainNext (fun _ _ => grow_free) h)
    · cases h
      exact List.prefix_refl _

theorem grow_after {k : Cont} {s s' : State} (h : after k s = .ok s') : Grow s s' := by
  unfold after at h
  cases k with
  | ret => cases h; exact List.prefix_refl _
  | destroy => exact grow_unref (s := { s with owned := s.owned - 1 }) h
  | idle src => exact grow_unref (s := { s with live := s.live.erase src }) h
  | final => exact grow_free h

theorem grow_drain {k : Cont} {s s' : State} (h : drain s k = .ok s') : Grow s s' := grow_drainNext (fun _ _ => grow_after) h

theorem grow_step {s s' : State} {a : Act} (h : step s a = .ok s') : Grow s s' := by
  cases a with
  | add =>
    obtain ⟨_, _, h⟩ := bind_ok h
    obtain ⟨l, _, h⟩ := bind_ok h
    cases h
    unfold schedule
    split <;> exact List.prefix_append _ _
  | ref =>
    obtain ⟨_, _, h⟩ := bind_ok h
    cases h
    exact List.prefix_refl _
  | unref => exact grow_unref (s := { s with owned := s.owned - 1 }) h
  | drain => exact grow_drain h
  | destroy => exact grow_drain h
  | dispatch src right =>
    obtain ⟨_, _, h⟩ := bind_ok h
    split at h
    · exact grow_drain (s := { s with idle := none }) h
    · exact grow_unref (s := { s with idle := none, live := s.live.erase src }) h
  | ret =>
    unfold step ret at h
    dsimp only at h
    split at h
    · cases h
    · obtain ⟨⟨a, d⟩, h1, h2⟩ := bind_ok h
      rename_i st _
      have h3 : Grow s a := grow_proc (s := { s with stack := st }) _ h1
      dsimp only at h2
      split at h2
      · exact h3.trans (grow_drain h2)
      · cases h2; exact h3
  | cell c => cases h; exact List.prefix_refl _

theorem destroys_prefix {a b : List Event} (h : a <+: b) : destroys a <+: destroys b := by
  obtain ⟨t, rfl⟩ := h
  unfold destroys
  rw [List.filterMap_append]
  exact List.prefix_append _ _

theorem adds_prefix {a b : List Event} (h : a <+: b) : adds a <+: adds b := by
  obtain ⟨t, rfl⟩ := h
  unfold adds
  rw [List.filterMap_append]
  exact List.prefix_append _ _

theorem add_log {s s' : State} (h : step s .add = .ok s') : s'.log = s.log ++ [.added s.nextId] ∧ s'.nextId = s.nextId + 1 := by
  obtain ⟨_, _, h⟩ := bind_ok h
  obtain ⟨l, _, h⟩ := bind_ok h
  cases h
  unfold schedule
  split <;> exact ⟨rfl, rfl⟩

end Verif.Pool

namespace Verif.PoolObj
open Verif.C
open Verif.Pool (bind_ok)

/-- How many times the object is there, given what has been destroyed -/
def pend (D : List Nat) (data : List (Nat × Nat × Kind)) (p : Nat) : Nat := data.countP (fun e => e.2.1 == p && !D.contains e.1)

theorem pend_append (D : List Nat) (a b : List (Nat × Nat × Kind)) (p : Nat) : pend D (a ++ b) p = pend D a p + pend D b p :=
  List.countP_append ..

theorem pend_same {D : List Nat} {id : Nat} : ∀ {data : List (Nat × Nat × Kind)}, (∀ e ∈ data, e.1 ≠ id) → ∀ p, pend (D ++ [id]) data p = pend D data p := by
  intro data h p
  unfold pend
  apply List.countP_congr
  intro e he
  have := h e he
  simp [this]

theorem pend_find {D : List Nat} {id : Nat} (hD : id ∉ D) : ∀ {data : List (Nat × Nat × Kind)} {e : Nat × Nat × Kind},
    (data.map (·.1)).Nodup → data.find? (fun e => e.1 == id) = some e → ∀ p, pend D data p = pend (D ++ [id]) data p + if e.2.1 = p then 1 else 0 := by
  intro data
  induction data with
  | nil => intro e _ h; cases h
  | cons x t ih =>
    intro e hn hf p
    rw [List.map_cons, List.nodup_cons] at hn
    rw [List.find?_cons] at hf
    have hc : ∀ D, pend D (x :: t) p = pend D [x] p + pend D t p := fun D => pend_append D [x] t p
    rw [hc, hc]
    split at hf
    · rename_i hx
      cases hf
      have hx : x.1 = id := by simpa using hx
      rw [pend_same (data := t) (fun y hy e => hn.1 (List.mem_map.2 ⟨y, hy, by rw [hx]; exact e⟩))]
      have e1 : pend (D ++ [id]) [x] p = 0 := by simp [pend, hx]
      have e2 : pend D [x] p = if x.2.1 = p then 1 else 0 := by
        by_cases hp : x.2.1 = p <;> simp [pend, hx, hp, hD]
      omega
    · rename_i hx
      have hx : x.1 ≠ id := by simpa using hx
      have e1 : pend (D ++ [id]) [x] p = pend D [x] p := pend_same (by simpa using hx) p
      rw [e1, ih hn.2 hf p]
      omega

/-- Everything is accounted for, `D` being what has been destroyed. -/
structure Acct (D : List Nat) (s : State) : Prop where
  nodup : (s.data.map (·.1)).Nodup
  lt : ∀ e ∈ s.data, e.1 < s.pool.nextId
  kinds : ∀ e ∈ s.data, ∃ o, s.objs[e.2.1]? = some o ∧ o.kind = e.2.2
  refs : ∀ p o, s.objs[p]? = some o → o.refs = o.owned + pend D s.data p
  rel : ∀ p o, s.objs[p]? = some o → s.released.count p = if o.refs = 0 then 1 else 0
  strv : ∀ (p : Nat) (o : Obj), s.objs[p]? = some o → o.kind = .strv → o.refs ≤ 1
  bound : ∀ p ∈ s.released, p < s.objs.length

theorem get_set {objs : List Obj} {p : Nat} {o : Obj} (h : objs[p]? = some o) (o' : Obj) (q : Nat) :
    (objs.set p o')[q]? = if p = q then some o' else objs[q]? := by
  rw [List.getElem?_set]
  have := (List.getElem?_eq_some_iff.1 h).1
  split
  · rename_i hq; subst hq; rfl
  · rfl

theorem kinds_set {objs : List Obj} {p : Nat} {o o' : Obj} (h : objs[p]? = some o) (hk : o'.kind = o.kind) {q : Nat} {k : Kind}
    (hq : ∃ x, objs[q]? = some x ∧ x.kind = k) : ∃ x, (objs.set p o')[q]? = some x ∧ x.kind = k := by
  rw [get_set h]
  obtain ⟨x, h1, h2⟩ := hq
  split
  · rename_i e
    subst e
    rw [h] at h1
    cases h1
    exact ⟨o', rfl, hk.trans h2⟩
  · exact ⟨x, h1, h2⟩

/-- A reference has been dropped. -/
theorem acc_unref {D' : List Nat} {s : State} {p : Nat} {o : Obj} {k : Kind} (h : s.objs[p]? = some o) (hk : o.kind = k)
    (hr : 0 < o.refs)
    (nodup : (s.data.map (·.1)).Nodup) (lt : ∀ e ∈ s.data, e.1 < s.pool.nextId)
    (kinds : ∀ e ∈ s.data, ∃ o, s.objs[e.2.1]? = some o ∧ o.kind = e.2.2)
    (rel : ∀ p o, s.objs[p]? = some o → s.released.count p = if o.refs = 0 then 1 else 0)
    (strv : ∀ (p : Nat) (o : Obj), s.objs[p]? = some o → o.kind = .strv → o.refs ≤ 1)
    (bound : ∀ p ∈ s.released, p < s.objs.length)
    (refs : ∀ q x, s.objs[q]? = some x → q ≠ p → x.refs = x.owned + pend D' s.data q)
    (own : o.refs = o.owned + pend D' s.data p + 1) :
    ∃ s', unref s k p = .ok s' ∧ Acct D' s' ∧ s'.pool = s.pool ∧ s'.data = s.data := by
  have hl := (List.getElem?_eq_some_iff.1 h).1
  refine ⟨{ s with objs := s.objs.set p { o with refs := o.refs - 1 }, released := if o.refs = 1 then s.released ++ [p] else s.released }, ?_, ?_, rfl, rfl⟩
  · unfold unref
    rw [h]
    dsimp only
    rw [if_neg (by simp [hk]), if_neg (by omega)]
  · constructor
    · exact nodup
    · exact lt
    · intro e he
      exact kinds_set h (by rfl) (kinds e he)
    · intro q x hx
      dsimp only at hx ⊢
      rw [get_set h] at hx
      split at hx
      · rename_i e
        subst e
        cases hx
        dsimp only
        omega
      · exact refs q x hx (fun e => by rename_i h; exact h e.symm)
    · intro q x hx
      dsimp only at hx ⊢
      rw [get_set h] at hx
      have h0 := rel p o h
      rw [if_neg (by omega)] at h0
      split at hx
      · rename_i e
        subst e
        cases hx
        dsimp only
        by_cases h1 : o.refs = 1
        · rw [if_pos h1, if_pos (by omega), List.count_append, h0]
          simp
        · rw [if_neg h1, if_neg (by omega), h0]
      · rename_i hq
        have h1 := rel q x hx
        by_cases h2 : o.refs = 1
        · rw [if_pos h2, List.count_append, h1]
          simp [hq]
        · rw [if_neg h2, h1]
    · intro q x hx hs
      dsimp only at hx
      rw [get_set h] at hx
      split at hx
      · cases hx
        have := strv p o h hs
        dsimp only
        omega
      · exact strv q x hx hs
    · intro q hq
      dsimp only at hq ⊢
      rw [List.length_set]
      split at hq
      · rw [List.mem_append] at hq
        rcases hq with hq | hq
        · exact bound q hq
        · rw [List.mem_singleton] at hq
          rw [hq]
          exact hl
      · exact bound q hq

theorem acc_destroy {D : List Nat} {s : State} {id : Nat} (h : Acct D s) (hD : id ∉ D) :
    ∃ s', destroy s id = .ok s' ∧ Acct (D ++ [id]) s' ∧ s'.pool = s.pool ∧ s'.data = s.data := by
  unfold destroy
  cases hf : s.data.find? (fun e => e.1 == id) with
  | none =>
    refine ⟨s, rfl, ?_, rfl, rfl⟩
    have hn : ∀ e ∈ s.data, e.1 ≠ id := by
      intro e he
      have := List.find?_eq_none.1 hf e he
      simpa using this
    exact { h with refs := fun p o ho => by rw [pend_same hn]; exact h.refs p o ho }
  | some e =>
    obtain ⟨a, p, k⟩ := e
    dsimp only
    have hm := List.mem_of_find?_eq_some hf
    obtain ⟨o, h1, h2⟩ := h.kinds _ hm
    dsimp only at h1 h2
    have hp := fun q => pend_find hD h.nodup hf q
    dsimp only at hp
    have hr := h.refs p o h1
    have hpp := hp p
    rw [if_pos rfl] at hpp
    refine acc_unref h1 h2 (by omega) h.nodup h.lt h.kinds h.rel h.strv h.bound ?_ (by omega)
    intro q x hx hq
    have := hp q
    rw [if_neg (fun e => hq e.symm)] at this
    have := h.refs q x hx
    omega

theorem acc_destroyAll : ∀ {l : List Nat} {D : List Nat} {s : State}, Acct D s → (D ++ l).Nodup →
    ∃ s', destroyAll s l = .ok s' ∧ Acct (D ++ l) s' ∧ s'.pool = s.pool ∧ s'.data = s.data := by
  intro l
  induction l with
  | nil => intro D s h _; exact ⟨s, rfl, by rwa [List.append_nil], rfl, rfl⟩
  | cons id t ih =>
    intro D s h hn
    have h1 : id ∉ D := by
      intro hm
      rw [List.nodup_append] at hn
      exact hn.2.2 id hm id List.mem_cons_self rfl
    obtain ⟨s1, e1, a1, p1, d1⟩ := acc_destroy h h1
    obtain ⟨s2, e2, a2, p2, d2⟩ := ih a1 (by rwa [List.append_assoc, List.singleton_append])
    refine ⟨s2, ?_, ?_, p2.trans p1, d2.trans d1⟩
    · unfold destroyAll
      rw [e1, ok_bind, e2]
    · rwa [List.append_assoc, List.singleton_append] at a2

/-- Everything is accounted for. -/
structure Inv (s : State) : Prop where
  pool : Pool.Reach Pool.any s.pool
  acc : Acct (Pool.destroys s.pool.log) s

theorem nextId_le {s s' : Pool.State} (h : Pool.Reach Pool.any s) (h' : Pool.Reach Pool.any s') (hg : s.log <+: s'.log) : s.nextId ≤ s'.nextId := by
  have h1 := (Pool.any_inv h).hist.adds
  have h2 := (Pool.any_inv h').hist.adds
  have h3 := (Pool.adds_prefix hg).length_le
  rw [h1, h2, List.length_range, List.length_range] at h3
  exact h3

theorem inv_run {s : State} {a : Pool.Act} (hp : Pool.Reach Pool.any s.pool) (ha : Pool.Allowed s.pool a)
    (h : ∀ pool', Pool.step s.pool a = .ok pool' → Acct (Pool.destroys s.pool.log) { s with pool := pool' }) :
    ∃ s', run s a = .ok s' ∧ Inv s' ∧ Pool.step s.pool a = .ok s'.pool := by
  obtain ⟨pool', e⟩ := Pool.C70_safe_partial hp ha
  have hp' : Pool.Reach Pool.any pool' := hp.step ha trivial e
  obtain ⟨t, ht⟩ := Pool.destroys_prefix (Pool.grow_step e)
  have hn := (Pool.C70_once hp').2.1
  rw [← ht] at hn
  obtain ⟨s', e', a', p', d'⟩ := acc_destroyAll (h pool' e) hn
  refine ⟨s', ?_, ⟨by rw [p']; exact hp', by rw [p']; dsimp only; rw [← ht]; exact a'⟩, by rw [p']; exact e⟩
  unfold run
  rw [e, ok_bind, ← ht, List.drop_left, e']

theorem inv_pool {s : State} {a : Pool.Act} (h : Inv s) (ha : Pool.Allowed s.pool a) : ∃ s', run s a = .ok s' ∧ Inv s' := by
  obtain ⟨s', e, h', _⟩ := inv_run h.pool ha (fun pool' e => by
    refine { h.acc with lt := fun x hx => ?_ }
    exact Nat.lt_of_lt_of_le (h.acc.lt x hx) (nextId_le h.pool (h.pool.step ha trivial e) (Pool.grow_step e)))
  exact ⟨s', e, h'⟩

/-- The object `p` is going to be added, there's a reference for that. -/
structure Ready (p : Nat) (k : Kind) (s : State) : Prop where
  pool : Pool.Reach Pool.any s.pool
  nodup : (s.data.map (·.1)).Nodup
  lt : ∀ e ∈ s.data, e.1 < s.pool.nextId
  kinds : ∀ e ∈ s.data, ∃ o, s.objs[e.2.1]? = some o ∧ o.kind = e.2.2
  refs : ∀ q o, s.objs[q]? = some o → o.refs = o.owned + pend (Pool.destroys s.pool.log) s.data q + if p = q then 1 else 0
  rel : ∀ p o, s.objs[p]? = some o → s.released.count p = if o.refs = 0 then 1 else 0
  strv : ∀ (p : Nat) (o : Obj), s.objs[p]? = some o → o.kind = .strv → o.refs ≤ 1
  bound : ∀ p ∈ s.released, p < s.objs.length
  kind : ∃ o, s.objs[p]? = some o ∧ o.kind = k

theorem inv_add {s : State} {p : Nat} {k : Kind} (h : Ready p k s) (ha : Pool.Allowed s.pool .add) :
    ∃ s', add s p k = .ok (s', some p) ∧ Inv s' := by
  have hnot : ∀ e ∈ s.data, e.1 ≠ s.pool.nextId := fun e he => Nat.ne_of_lt (h.lt e he)
  have hD : s.pool.nextId ∉ Pool.destroys s.pool.log := by
    intro hm
    have := (Pool.any_inv h.pool).hist.mem s.pool.nextId
    have := this.2 (.inl hm)
    omega
  obtain ⟨s', e, h', _⟩ := inv_run (s := { s with data := s.data ++ [(s.pool.nextId, p, k)] }) h.pool ha (fun pool' e => by
    have hn : pool'.nextId = s.pool.nextId + 1 := (Pool.add_log e).2
    constructor
    · dsimp only
      rw [List.map_append, List.nodup_append]
      refine ⟨h.nodup, by simp, ?_⟩
      intro a ha b hb
      obtain ⟨x, hx, rfl⟩ := List.mem_map.1 ha
      simp only [List.map_cons, List.map_nil, List.mem_singleton] at hb
      rw [hb]
      exact hnot x hx
    · intro x hx
      dsimp only at hx ⊢
      rw [List.mem_append, List.mem_singleton] at hx
      rcases hx with hx | rfl
      · have := h.lt x hx; omega
      · dsimp only; omega
    · intro x hx
      dsimp only at hx ⊢
      rw [List.mem_append, List.mem_singleton] at hx
      rcases hx with hx | rfl
      · exact h.kinds x hx
      · exact h.kind
    · intro q o ho
      dsimp only at ho ⊢
      rw [pend_append, h.refs q o ho, Nat.add_assoc]
      congr 2
      by_cases hq : p = q <;> simp [pend, hq, hD]
    · exact h.rel
    · exact h.strv
    · exact h.bound)
  refine ⟨s', ?_, h'⟩
  unfold add
  rw [e, ok_bind]

theorem ref_ok {s : State} {p : Nat} {k : Kind} {o : Obj} (h : s.objs[p]? = some o) (hk : o.kind = k) (hr : 0 < o.refs) :
    ref s k p = .ok { s with objs := s.objs.set p { o with refs := o.refs + 1 } } := by
  unfold ref
  rw [h]
  dsimp only
  rw [if_neg (by simp [hk]), if_neg (by omega)]

theorem own_get {s : State} {p : Nat} {f : Nat → Nat} (q : Nat) :
    (s.own p f).objs[q]? = if p = q then (s.objs[q]?).map (fun o => { o with owned := f o.owned }) else s.objs[q]? := by
  unfold State.own
  dsimp only
  rw [List.getElem?_modify]
  split <;> simp_all

theorem own_set {s : State} {p : Nat} {f : Nat → Nat} {o : Obj} (h : s.objs[p]? = some o) :
    s.own p f = { s with objs := s.objs.set p { o with owned := f o.owned } } := by
  unfold State.own
  congr 1
  apply List.ext_getElem?
  intro q
  rw [List.getElem?_modify, get_set h]
  split
  · rename_i e
    subst e
    rw [h]
    rfl
  · simp

/-- A reference taken over from the client -/
theorem ready_take {s : State} {p : Nat} {o : Obj} (h : Inv s) (ho : s.objs[p]? = some o) (hw : 0 < o.owned) : Ready p o.kind (s.own p (· - 1)) := by
  have h0 := h.acc
  rw [own_set ho]
  constructor
  · exact h.pool
  · exact h0.nodup
  · exact h0.lt
  · exact fun e he => kinds_set ho (by rfl) (h0.kinds e he)
  · intro q x hx
    dsimp only at hx
    rw [get_set ho] at hx
    split at hx
    · rename_i e
      subst e
      cases hx
      have := h0.refs _ _ ho
      dsimp only
      rw [if_pos rfl]
      omega
    · rename_i hq
      rw [if_neg hq]
      exact h0.refs q x hx
  · intro q x hx
    dsimp only at hx
    rw [get_set ho] at hx
    split at hx
    · rename_i e
      subst e
      cases hx
      exact h0.rel p o ho
    · exact h0.rel q x hx
  · intro q x hx
    dsimp only at hx
    rw [get_set ho] at hx
    split at hx
    · cases hx
      exact h0.strv p o ho
    · exact h0.strv q x hx
  · intro q hq
    dsimp only
    rw [List.length_set]
    exact h0.bound q hq
  · exact kinds_set ho (by rfl) ⟨o, ho, rfl⟩

/-- A new reference -/
theorem ready_ref {s : State} {p : Nat} {o : Obj} (h : Inv s) (ho : s.objs[p]? = some o) (hk : o.kind ≠ .strv) (hr : 0 < o.refs) :
    Ready p o.kind { s with objs := s.objs.set p { o with refs := o.refs + 1 } } := by
  have h0 := h.acc
  constructor
  · exact h.pool
  · exact h0.nodup
  · exact h0.lt
  · exact fun e he => kinds_set ho (by rfl) (h0.kinds e he)
  · intro q x hx
    dsimp only at hx
    rw [get_set ho] at hx
    split at hx
    · rename_i e
      subst e
      cases hx
      have := h0.refs _ _ ho
      dsimp only
      rw [if_pos rfl]
      omega
    · rename_i hq
      rw [if_neg hq]
      exact h0.refs q x hx
  · intro q x hx
    dsimp only at hx
    rw [get_set ho] at hx
    split at hx
    · rename_i e
      subst e
      cases hx
      have := h0.rel _ _ ho
      rw [if_neg (by omega)] at this
      dsimp only
      rw [if_neg (by omega)]
      exact this
    · exact h0.rel q x hx
  · intro q x hx hs
    dsimp only at hx
    rw [get_set ho] at hx
    split at hx
    · cases hx
      exact absurd hs hk
    · exact h0.strv q x hx hs
  · intro q hq
    dsimp only
    rw [List.length_set]
    exact h0.bound q hq
  · exact kinds_set ho (by rfl) ⟨o, ho, rfl⟩

theorem pend_alive {s : State} (h : Inv s) {p : Nat} {o : Obj} (ho : s.objs[p]? = some o) (hp : 0 < o.owned ∨ 0 < s.pending p) : 0 < o.refs := by
  have := h.acc.refs p o ho
  unfold State.pending at hp
  unfold pend at this
  omega

theorem call_some {f : Fn} {s : State} {p : Nat} (hf : f.isRef = false) {s' : State} (h : add s p f.kind = .ok (s', some p)) :
    f.call s (some p) = .ok (s', some p) := by
  cases f <;> simp only [Fn.isRef, Bool.true_eq_false] at hf <;> dsimp only [Fn.kind] at h <;>
    simp only [Fn.call, addStrv, addObject, addVariant, addPtrArray, addBytes, h, ok_bind]

theorem call_ref {f : Fn} {s s1 : State} {p : Nat} (hf : f.isRef = true) {s' : State} (h1 : ref s f.kind p = .ok s1)
    (h : add s1 p f.kind = .ok (s', some p)) : f.call s (some p) = .ok (s', some p) := by
  cases f <;> simp only [Fn.isRef, Bool.false_eq_true] at hf <;> dsimp only [Fn.kind] at h h1 <;>
    simp only [Fn.call, addObjectRef, addVariantRef, addPtrArrayRef, addBytesRef, addObject, addVariant, addPtrArray, addBytes, h1, h, ok_bind]

theorem inv_step {s : State} {a : Act} (h : Inv s) (ha : Allowed s a) : ∃ s', step s a = .ok s' ∧ Inv s' := by
  have h0 := h.acc
  cases a with
  | pool a => exact inv_pool h ha
  | create k =>
    refine ⟨_, rfl, ⟨h.pool, ?_⟩⟩
    have hget : ∀ q x, (s.objs ++ [(⟨k, 1, 1⟩ : Obj)])[q]? = some x → s.objs[q]? = some x ∨ (q = s.objs.length ∧ x = ⟨k, 1, 1⟩) := by
      intro q x hx
      rw [List.getElem?_append] at hx
      split at hx
      · exact .inl hx
      · rename_i hq
        have hl := (List.getElem?_eq_some_iff.1 hx).1
        simp only [List.length_singleton] at hl
        have hq2 : q = s.objs.length := by omega
        subst hq2
        simp at hx
        exact .inr ⟨rfl, hx.symm⟩
    have hnew : pend (Pool.destroys s.pool.log) s.data s.objs.length = 0 := by
      unfold pend
      rw [List.countP_eq_zero]
      intro e he
      obtain ⟨o, h1, _⟩ := h0.kinds e he
      have := (List.getElem?_eq_some_iff.1 h1).1
      simp
      intro hx
      omega
    have hrel : s.released.count s.objs.length = 0 := by
      rw [List.count_eq_zero]
      intro hm
      have := h0.bound _ hm
      omega
    constructor
    · exact h0.nodup
    · exact h0.lt
    · intro e he
      obtain ⟨o, h1, h2⟩ := h0.kinds e he
      refine ⟨o, ?_, h2⟩
      dsimp only
      rw [List.getElem?_append_left (List.getElem?_eq_some_iff.1 h1).1]
      exact h1
    · intro q x hx
      rcases hget q x hx with h1 | ⟨rfl, rfl⟩
      · exact h0.refs q x h1
      · dsimp only; rw [hnew]
    · intro q x hx
      rcases hget q x hx with h1 | ⟨rfl, rfl⟩
      · exact h0.rel q x h1
      · dsimp only; rw [hrel]; rfl
    · intro q x hx hs
      rcases hget q x hx with h1 | ⟨rfl, rfl⟩
      · exact h0.strv q x h1 hs
      · exact Nat.le_refl 1
    · intro q hq
      have := h0.bound q hq
      dsimp only
      rw [List.length_append]
      omega
  | ref p =>
    obtain ⟨o, ho, hk, hp⟩ := ha
    have ho : s.objs[p]? = some o := ho
    have hr := pend_alive h ho hp
    refine ⟨{ s with objs := s.objs.set p { o with refs := o.refs + 1, owned := o.owned + 1 } }, ?_, ⟨h.pool, ?_⟩⟩
    · unfold step
      dsimp only
      rw [ho]
      dsimp only
      rw [own_set ho, ref_ok (o := { o with owned := o.owned + 1 }) (by dsimp only; rw [get_set ho, if_pos rfl]) rfl hr]
      dsimp only
      rw [List.set_set]
    · constructor
      · exact h0.nodup
      · exact h0.lt
      · exact fun e he => kinds_set ho (by rfl) (h0.kinds e he)
      · intro q x hx
        dsimp only at hx
        rw [get_set ho] at hx
        split at hx
        · rename_i e
          subst e
          cases hx
          have := h0.refs _ _ ho
          dsimp only
          omega
        · exact h0.refs q x hx
      · intro q x hx
        dsimp only at hx
        rw [get_set ho] at hx
        split at hx
        · rename_i e
          subst e
          cases hx
          have := h0.rel _ _ ho
          rw [if_neg (by omega)] at this
          dsimp only
          rw [if_neg (by omega)]
          exact this
        · exact h0.rel q x hx
      · intro q x hx hs
        dsimp only at hx
        rw [get_set ho] at hx
        split at hx
        · cases hx
          exact absurd hs hk
        · exact h0.strv q x hx hs
      · intro q hq
        dsimp only
        rw [List.length_set]
        exact h0.bound q hq
  | unref p =>
    obtain ⟨o, ho, hp⟩ := ha
    have ho : s.objs[p]? = some o := ho
    have hR := ready_take h ho hp
    have hr := pend_alive h ho (.inl hp)
    have hg : (s.own p (· - 1)).objs[p]? = some { o with owned := o.owned - 1 } := by
      rw [own_get, if_pos rfl, ho]; rfl
    have hx := hR.refs _ _ hg
    rw [if_pos rfl] at hx
    obtain ⟨s', e, a', p', -⟩ := acc_unref (D' := Pool.destroys s.pool.log) hg rfl hr hR.nodup hR.lt hR.kinds hR.rel hR.strv hR.bound
      (fun q x hx hq => by
        have := hR.refs q x hx
        rw [if_neg (fun e => hq e.symm)] at this
        exact this) hx
    refine ⟨s', ?_, ⟨by rw [p']; exact h.pool, by rw [p']; exact a'⟩⟩
    unfold step
    dsimp only
    rw [ho]
    exact e
  | use p =>
    obtain ⟨o, ho, hp⟩ := ha
    have ho : s.objs[p]? = some o := ho
    have hr := pend_alive h ho hp
    refine ⟨s, ?_, h⟩
    unfold step
    dsimp only
    rw [ho]
    dsimp only
    rw [if_neg (by omega)]
  | give f p =>
    cases p with
    | none =>
      refine ⟨s, ?_, h⟩
      cases f <;> rfl
    | some p =>
      obtain ⟨hpa, o, ho, hk, hp⟩ := ha
      have ho : s.objs[p]? = some o := ho
      cases hf : f.isRef with
      | false =>
        rw [hf] at hp
        have hp : 0 < o.owned := by simpa using hp
        obtain ⟨s', e, h'⟩ := inv_add (ready_take h ho hp) hpa
        rw [hk] at e
        refine ⟨s', ?_, h'⟩
        unfold step
        dsimp only
        rw [hf, if_neg (by simp), call_some hf e, ok_bind]
      | true =>
        have hr := pend_alive h ho (hp.imp id (·.2))
        have hs : o.kind ≠ .strv := by
          rw [hk]
          cases f <;> first | (cases hf; done) | decide
        obtain ⟨s', e, h'⟩ := inv_add (ready_ref h ho hs hr) hpa
        have hc := ref_ok ho rfl hr
        rw [hk] at e hc
        refine ⟨s', ?_, h'⟩
        unfold step
        dsimp only
        rw [hf, if_pos rfl, call_ref hf hc e, ok_bind]

theorem reach_inv {s : State} (h : Reach s) : Inv s := by
  induction h with
  | new hp =>
    refine ⟨hp, ?_⟩
    constructor <;> simp
  | step _ ha e ih =>
    obtain ⟨s', e', h'⟩ := inv_step ih ha
    rw [e] at e'
    cases e'
    exact h'

theorem reach_exec {acts : List Act} : ∀ {s s' : State}, Reach s → legal s acts = true → exec s acts = .ok s' → Reach s' := by
  induction acts with
  | nil =>
    intro s s' h _ e
    cases e
    exact h
  | cons a t ih =>
    intro s s' h hl e
    unfold legal at hl
    unfold exec at e
    split at hl
    · rename_i ha
      split at e
      · rename_i s1 e1
        rw [e1] at hl
        exact ih (h.step ha e1) hl e
      · cases e
    · cases hl

theorem add_inv {s s' : State} {p : Nat} {k : Kind} {r : Option Nat} (h : add s p k = .ok (s', r)) :
    ∃ pool', Pool.step s.pool .add = .ok pool' ∧ s' = { s with pool := pool', data := s.data ++ [(s.pool.nextId, p, k)] } ∧ r = some p := by
  unfold add at h
  obtain ⟨s1, h1, h⟩ := bind_ok h
  cases h
  unfold run at h1
  obtain ⟨pool', h2, h1⟩ := bind_ok h1
  dsimp only at h2 h1
  have e : Pool.destroys pool'.log = Pool.destroys s.pool.log := by
    rw [(Pool.add_log h2).1]
    simp [Pool.destroys]
  rw [e, List.drop_length] at h1
  cases h1
  exact ⟨pool', h2, rfl, rfl⟩

theorem ref_inv {s s' : State} {p : Nat} {k : Kind} (h : ref s k p = .ok s') :
    ∃ o, s.objs[p]? = some o ∧ s' = { s with objs := s.objs.set p { o with refs := o.refs + 1 } } := by
  unfold ref at h
  split at h
  · cases h
  · rename_i o ho
    split at h
    · cases h
    · split at h
      · cases h
      · cases h
        exact ⟨o, ho, rfl⟩

theorem call_inv {f : Fn} {s s' : State} {p : Nat} {r : Option Nat} (h : f.call s (some p) = .ok (s', r)) :
    ∃ s1, (if f.isRef then ref s f.kind p = .ok s1 else s1 = s) ∧ add s1 p f.kind = .ok (s', some p) ∧ r = some p := by
  cases f <;> dsimp only [Fn.call, addStrv, addObject, addVariant, addPtrArray, addBytes, addObjectRef, addVariantRef, addPtrArrayRef,
    addBytesRef, Fn.isRef, Fn.kind] at h ⊢
  case bytes =>
    obtain ⟨_, _, _, rfl⟩ := add_inv h
    exact ⟨s, rfl, h, rfl⟩
  case bytesRef =>
    obtain ⟨s1, h1, h⟩ := bind_ok h
    obtain ⟨_, _, _, rfl⟩ := add_inv h
    exact ⟨s1, h1, h, rfl⟩
  case strv | object | variant | ptrArray =>
    obtain ⟨⟨s2, r2⟩, h2, h⟩ := bind_ok h
    obtain ⟨_, _, _, rfl⟩ := add_inv h2
    cases h
    exact ⟨s, rfl, h2, rfl⟩
  all_goals
    obtain ⟨s1, h1, h⟩ := bind_ok h
    obtain ⟨⟨s2, r2⟩, h2, h⟩ := bind_ok h
    obtain ⟨_, _, _, rfl⟩ := add_inv h2
    cases h
    exact ⟨s1, h1, h2, rfl⟩

end Verif.PoolObj
