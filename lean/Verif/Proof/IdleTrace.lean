import Verif.Spec.IdleTrace
import Verif.Proof.IdleQueue

/-!
# Numbers of items and sources don't matter
-/

namespace Verif.Idle
open Verif.C

/-- No code of the library, another number for the item, src/gutil_idlequeue.c:44-51 -/
def Item.ren (f : Nat → Nat) (i : Item) : Item := { i with id := f i.id }

/-- No code of the library, other numbers of items and sources (and neither bounds nor items which aren't used any more), src/gutil_idlequeue.c:72-123 and 260-312 -/
def Frame.ren (f g : Nat → Nat) : Frame → Frame
  | .run d src _ i => .run d (g src) 0 (i.ren f)
  | .runDestroy d src _ _ => .runDestroy d (g src) 0 ⟨0, 0, false, false, false⟩
  | .tagFirst _ => .tagFirst ⟨0, 0, false, false, false⟩
  | .tagOther _ => .tagOther ⟨0, 0, false, false, false⟩
  | .all _ final _ => .all 0 final ⟨0, 0, false, false, false⟩

/-- The same, apart from numbers of items and sources -/
structure Sim (f g : Nat → Nat) (base base' : List Event) (s s' : State) : Prop where
  alive : s'.alive = s.alive
  refs : s'.refs = s.refs
  source : s'.source = s.source.map g
  items : s'.items = s.items.map (Item.ren f)
  last : s'.last = s.last.map f
  live : s'.live = s.live.map g
  ns : ∀ k, g (s.nextSource + k) = s'.nextSource + k
  ni : ∀ k, f (s.nextId + k) = s'.nextId + k
  nr : s'.nextRun = s.nextRun
  stack : s'.stack.map (Frame.ren id id) = s.stack.map (Frame.ren f g)
  log : ∃ new new', s.log = base ++ new ∧ s'.log = base' ++ new' ∧ SameEvents f new new'

/-- Both fail in the same way, or both succeed -/
def Both (f g : Nat → Nat) (base base' : List Event) (a b : M State) : Prop :=
  (∃ e, a = .error e ∧ b = .error e) ∨ ∃ t t', a = .ok t ∧ b = .ok t' ∧ Sim f g base base' t t'

section
variable {f g : Nat → Nat} {base base' : List Event} {s s' : State}

theorem Both.ok (h : Sim f g base base' s s') : Both f g base base' (.ok s) (.ok s') := .inr ⟨s, s', rfl, rfl, h⟩

theorem Both.bind {a b : M State} {p q : State → M State} (h : Both f g base base' a b)
    (k : ∀ t t', Sim f g base base' t t' → Both f g base base' (p t) (q t')) : Both f g base base' (a >>= p) (b >>= q) := by
  rcases h with ⟨e, rfl, rfl⟩ | ⟨t, t', rfl, rfl, h⟩
  · exact .inl ⟨e, rfl, rfl⟩
  · exact k t t' h

theorem Both.access (h : Sim f g base base' s s') {p q : M State} (k : Both f g base base' p q) :
    Both f g base base' (s.access >>= fun _ => p) (s'.access >>= fun _ => q) := by
  unfold State.access
  rw [h.alive]
  cases s.alive with
  | true => exact k
  | false => exact .inl ⟨_, rfl, rfl⟩

theorem Sim.log_append (h : Sim f g base base' s s') (es es' : List Event) (he : SameEvents f es es') :
    ∃ new new', s.log ++ es = base ++ new ∧ s'.log ++ es' = base' ++ new' ∧ SameEvents f new new' := by
  obtain ⟨new, new', h1, h2, h3⟩ := h.log
  refine ⟨new ++ es, new' ++ es', by rw [h1, List.append_assoc], by rw [h2, List.append_assoc], ?_⟩
  unfold SameEvents at *
  rw [List.map_append, List.map_append, h3, he]

theorem item_ren_id (i : Item) : i.ren id = i := rfl

theorem erase_ren (hg : ∀ a b, g a = g b → a = b) (a : Nat) : ∀ l : List Nat, (l.map g).erase (g a) = (l.erase a).map g
  | [] => rfl
  | b :: l => by
    rw [List.map_cons, List.erase_cons, List.erase_cons]
    by_cases h : b = a
    · subst h; simp
    · rw [if_neg (by simp; exact fun e => h (hg _ _ e)), if_neg (by simp [h]), erase_ren hg a l, List.map_cons]

theorem lastOf_ren (t : List Item) (last : Option Nat) : lastOf (t.map (Item.ren f)) (last.map f) = (lastOf t last).map f := by
  unfold lastOf
  cases t <;> rfl

theorem markAll_ren (t : List Item) : markAll (t.map (Item.ren f)) = (markAll t).map (Item.ren f) := by
  unfold markAll
  rw [List.map_map, List.map_map]
  rfl

theorem runScan_ren : ∀ (t : List Item) (last : Option Nat), runScan (t.map (Item.ren f)) (last.map f) =
    ((runScan t last).1.map (Item.ren f), (runScan t last).2.1.map f, (runScan t last).2.2.map (Item.ren f))
  | [], last => rfl
  | i :: t, last => by
    rw [List.map_cons, runScan, runScan]
    show (if i.completed then if i.run || i.destroy then _ else _ else _) = _
    split
    · split
      · rw [lastOf_ren]; rfl
      · rw [lastOf_ren]; exact runScan_ren t _
    · rfl

theorem cancelScan_ren : ∀ (t : List Item) (last : Option Nat), cancelScan (t.map (Item.ren f)) (last.map f) =
    ((cancelScan t last).1.map (Item.ren f), (cancelScan t last).2.1.map f, (cancelScan t last).2.2.1.map (Item.ren f),
      (cancelScan t last).2.2.2.map (Item.ren f))
  | [], last => rfl
  | i :: t, last => by
    rw [List.map_cons, cancelScan, cancelScan]
    show (if i.completed then if i.destroy then _ else _ else _) = _
    split
    · split
      · rw [lastOf_ren]; rfl
      · rw [lastOf_ren, cancelScan_ren t _]; rfl
    · rfl

theorem sim_runEnd (hg : ∀ a b, g a = g b → a = b) (h : Sim f g base base' s s') (d src : Nat) :
    Sim f g base base' (runEnd s d src) (runEnd s' d (g src)) := by
  have hl := h.log_append [.ended d] [.ended d] rfl
  unfold runEnd
  have : (s'.items ≠ []) ↔ s.items ≠ [] := by rw [h.items]; simp
  by_cases hi : s.items ≠ []
  · rw [if_pos hi, if_pos (this.2 hi)]
    exact { h with log := hl }
  · rw [if_neg hi, if_neg (fun x => hi (this.1 x))]
    exact { h with log := hl, source := rfl, live := by dsimp only; rw [h.live, erase_ren hg] }

theorem sim_runLoop (hg : ∀ a b, g a = g b → a = b) (h : Sim f g base base' s s') (d src bound bound' : Nat) :
    Sim f g base base' (runLoop s d src bound) (runLoop s' d (g src) bound') := by
  unfold runLoop
  rw [h.items, h.last, runScan_ren]
  generalize runScan s.items s.last = r
  obtain ⟨items, last, i⟩ := r
  cases i with
  | none =>
    dsimp only [Option.map_none]
    exact sim_runEnd (s := { s with items := items, last := last }) (s' := { s' with items := items.map (Item.ren f), last := last.map f }) hg
      { h with items := rfl, last := rfl } d src
  | some i =>
    dsimp only [Option.map]
    show Sim f g base base' _ (if i.run then _ else _)
    split
    · exact { h with items := rfl, last := rfl, stack := by dsimp only; rw [List.map_cons, h.stack]; rfl, log := h.log_append [.run d i.id] _ rfl }
    · exact { h with items := rfl, last := rfl, stack := by dsimp only; rw [List.map_cons, h.stack]; rfl, log := h.log_append [.destroy i.id] _ rfl }

theorem both_dispatch (hg : ∀ a b, g a = g b → a = b) (h : Sim f g base base' s s') (src : Nat) :
    Both f g base base' (dispatch s src) (dispatch s' (g src)) := by
  refine Both.access h ?_
  have hn : s'.nextId = f s.nextId := (h.ni 0).symm
  rw [h.nr, hn]
  refine .ok (sim_runLoop hg ?_ _ _ _ _)
  exact { h with items := by dsimp only; rw [h.items, markAll_ren], nr := rfl, ni := by dsimp only; rw [← hn]; exact h.ni, log := h.log_append [.begin s.nextRun] _ rfl }

theorem both_afterRun (hg : ∀ a b, g a = g b → a = b) (h : Sim f g base base' s s') (d src bound bound' : Nat) (i : Item) :
    Both f g base base' (afterRun s d src bound i) (afterRun s' d (g src) bound' (i.ren f)) := by
  unfold afterRun
  show Both f g base base' _ (if i.destroy then _ else _)
  split
  · exact .ok { h with stack := by dsimp only; rw [List.map_cons, h.stack]; rfl, log := h.log_append [.destroy i.id] _ rfl }
  · exact Both.access h (.ok (sim_runLoop hg h d src bound bound'))

theorem both_clearSource (hg : ∀ a b, g a = g b → a = b) (h : Sim f g base base' s s') :
    Both f g base base' s.clearSource s'.clearSource := by
  unfold State.clearSource
  rw [h.source]
  cases s.source with
  | none => exact .ok h
  | some id =>
    dsimp only [Option.map]
    have hm : g id ∈ s'.live ↔ id ∈ s.live := by
      rw [h.live, List.mem_map]
      exact ⟨fun ⟨a, ha, e⟩ => hg _ _ e ▸ ha, fun hx => ⟨id, hx, rfl⟩⟩
    by_cases hi : id ∈ s.live
    · rw [if_pos hi, if_pos (hm.2 hi)]
      exact .ok { h with source := rfl, live := by dsimp only; rw [h.live, erase_ren hg] }
    · rw [if_neg hi, if_neg (fun x => hi (hm.1 x))]
      exact .inl ⟨_, rfl, rfl⟩

theorem both_clearIfEmpty (hg : ∀ a b, g a = g b → a = b) (h : Sim f g base base' s s') :
    Both f g base base' (clearIfEmpty s) (clearIfEmpty s') := by
  unfold clearIfEmpty
  have : s'.items = [] ↔ s.items = [] := by rw [h.items]; simp
  by_cases hi : s.items = []
  · rw [if_pos hi, if_pos (this.2 hi)]; exact both_clearSource hg h
  · rw [if_neg hi, if_neg (fun x => hi (this.1 x))]; exact .ok h

theorem both_cancelEnd (hg : ∀ a b, g a = g b → a = b) (h : Sim f g base base' s s') (bound bound' : Nat) (final : Bool) :
    Both f g base base' (cancelEnd s bound final) (cancelEnd s' bound' final) :=
  (both_clearIfEmpty hg h).bind fun _ _ k => .ok { k with alive := rfl, log := k.log_append [.allDone bound] _ rfl }

theorem both_cancelLoop (hg : ∀ a b, g a = g b → a = b) (h : Sim f g base base' s s') (bound bound' : Nat) (final : Bool) :
    Both f g base base' (cancelLoop s bound final) (cancelLoop s' bound' final) := by
  unfold cancelLoop
  rw [h.items, h.last, cancelScan_ren]
  generalize cancelScan s.items s.last = r
  obtain ⟨items, last, gone, i⟩ := r
  have e : ∀ l : List Item, SameEvents f (l.map (fun i => Event.cancel i.id)) ((l.map (Item.ren f)).map (fun i => Event.cancel i.id)) := by
    intro l; unfold SameEvents; rw [List.map_map, List.map_map, List.map_map]; rfl
  cases i with
  | none =>
    dsimp only [Option.map]
    refine both_cancelEnd hg ?_ bound bound' final
    exact { h with items := rfl, last := rfl, log := by dsimp only; exact h.log_append _ _ (e gone) }
  | some i =>
    dsimp only [Option.map]
    refine .ok { h with items := rfl, last := rfl, stack := by dsimp only; rw [List.map_cons, h.stack]; rfl, log := ?_ }
    have := h.log_append (gone.map (fun i => .cancel i.id) ++ [.cancel i.id, .destroy i.id])
      ((gone.map (Item.ren f)).map (fun i => .cancel i.id) ++ [.cancel (f i.id), .destroy (f i.id)]) (by
        have := e gone
        unfold SameEvents at *
        rw [List.map_append, List.map_append, this]; rfl)
    rw [← List.append_assoc, ← List.append_assoc] at this
    exact this

theorem both_cancelAll (hg : ∀ a b, g a = g b → a = b) (h : Sim f g base base' s s') (final : Bool) :
    Both f g base base' (cancelAll s final) (cancelAll s' final) := by
  unfold cancelAll
  have hn : s'.nextId = f s.nextId := (h.ni 0).symm
  rw [hn]
  refine both_cancelLoop hg ?_ _ _ _
  exact { h with items := by dsimp only; rw [h.items, markAll_ren], ni := by dsimp only; rw [← hn]; exact h.ni, log := h.log_append [.allCalled s.nextId] _ rfl }

theorem both_unref (hg : ∀ a b, g a = g b → a = b) (h : Sim f g base base' s s') : Both f g base base' (unref s) (unref s') := by
  unfold unref
  rw [h.refs]
  split
  · exact both_cancelAll (s := { s with refs := 0 }) (s' := { s' with refs := 0 }) hg { h with refs := rfl } true
  · exact .ok { h with refs := rfl }

theorem append_ren (hf : ∀ a b, f a = f b → a = b) (items : List Item) (last : Option Nat) (i : Item) :
    append (items.map (Item.ren f)) (last.map f) (i.ren f) = (append items last i).map (List.map (Item.ren f)) := by
  unfold append
  cases last with
  | none => rfl
  | some l =>
    dsimp only [Option.map]
    have : (items.map (Item.ren f)).findIdx? (fun i => i.id == f l) = items.findIdx? (fun i => i.id == l) := by
      rw [List.findIdx?_map]
      congr 1
      funext x
      show (f x.id == f l) = (x.id == l)
      rw [Bool.eq_iff_iff, beq_iff_eq, beq_iff_eq]
      exact ⟨hf _ _, fun e => by rw [e]⟩
    rw [this]
    cases items.findIdx? (fun i => i.id == l) with
    | none => rfl
    | some k =>
      show Except.ok _ = Except.ok _
      rw [List.map_append, List.map_take]
      rfl

theorem sim_schedule (h : Sim f g base base' s s') : Sim f g base base' (schedule s) (schedule s') := by
  unfold schedule
  have hsrc := h.source
  cases hs : s.source with
  | some id =>
    rw [hs] at hsrc
    rw [hsrc]
    exact h
  | none =>
    rw [hs] at hsrc
    rw [hsrc]
    dsimp only [Option.map]
    have h0 : s'.nextSource = g s.nextSource := (h.ns 0).symm
    refine { h with source := by dsimp only [Option.map]; rw [h0], live := by dsimp only; rw [h.live, h0, List.map_append]; rfl, ns := fun k => ?_ }
    dsimp only
    have := h.ns (1 + k)
    rw [Nat.add_assoc, Nat.add_assoc]
    exact this

theorem both_add (hf : ∀ a b, f a = f b → a = b) (h : Sim f g base base' s s') (tag : Nat) (run destroy : Bool) :
    Both f g base base' (add s tag run destroy) (add s' tag run destroy) := by
  unfold add
  have h0 : s'.nextId = f s.nextId := (h.ni 0).symm
  rw [h.items, h.last, h0]
  have := append_ren hf s.items s.last ⟨s.nextId, tag, run, destroy, false⟩
  have e : Item.ren f ⟨s.nextId, tag, run, destroy, false⟩ = ⟨f s.nextId, tag, run, destroy, false⟩ := rfl
  rw [e] at this
  rw [this]
  cases append s.items s.last ⟨s.nextId, tag, run, destroy, false⟩ with
  | error e => exact .inl ⟨e, rfl, rfl⟩
  | ok items =>
    refine .ok (sim_schedule { h with items := rfl, last := rfl, ni := fun k => ?_, log := h.log_append [.added s.nextId run destroy] _ rfl })
    dsimp only
    have := h.ni (1 + k)
    rw [h0] at this
    rw [Nat.add_assoc, Nat.add_assoc]
    exact this

theorem both_itemDestroy (h : Sim f g base base' s s') (i : Item) (fr fr' : Frame) (hfr : fr'.ren id id = fr.ren f g) {k k' : State → M State}
    (hk : ∀ t t', Sim f g base base' t t' → Both f g base base' (k t) (k' t')) :
    Both f g base base' (itemDestroy s i fr k) (itemDestroy s' (i.ren f) fr' k') := by
  unfold itemDestroy
  show Both f g base base' _ (if i.destroy then _ else _)
  split
  · exact .ok { h with stack := by dsimp only; rw [List.map_cons, h.stack, hfr]; rfl, log := h.log_append [.cancel i.id, .destroy i.id] _ rfl }
  · exact hk _ _ { h with log := h.log_append [.cancel i.id] _ rfl }

theorem removeTag_ren (tag : Nat) : ∀ (prev : Item) (t : List Item) (last : Option Nat),
    removeTag tag (prev.ren f) (t.map (Item.ren f)) (last.map f) =
      (removeTag tag prev t last).map (fun r => (r.1.ren f, r.2.1.map (Item.ren f), r.2.2.map f))
  | _, [], _ => rfl
  | prev, i :: t, last => by
    rw [List.map_cons, removeTag, removeTag]
    show (if i.tag = tag then _ else _) = _
    split
    · cases t <;> rfl
    · rw [removeTag_ren tag i t last]
      cases removeTag tag i t last <;> rfl

/-- The same for `cancelTag` whose result is dropped -/
theorem both_cancelTag (hg : ∀ a b, g a = g b → a = b) (h : Sim f g base base' s s') (tag : Nat) :
    Both f g base base' (cancelTag s tag >>= fun r => .ok r.1) (cancelTag s' tag >>= fun r => .ok r.1) := by
  unfold cancelTag
  rw [h.items, h.last]
  cases hi : s.items with
  | nil => exact .ok h
  | cons i t =>
    dsimp only [List.map_cons]
    show Both f g base base' _ ((if i.tag = tag then _ else _) >>= _)
    split
    · have hb := both_itemDestroy (s := { s with items := t, last := lastOf t s.last })
        (s' := { s' with items := t.map (Item.ren f), last := lastOf (t.map (Item.ren f)) (s.last.map f) })
        { h with items := rfl, last := by dsimp only; rw [lastOf_ren] } i (.tagFirst i) (.tagFirst (i.ren f)) rfl (fun _ _ k => both_clearIfEmpty hg k)
      rcases hb with ⟨e, e1, e2⟩ | ⟨u, u', e1, e2, hu⟩
      · rw [e1]
        change Both f g base base' _ ((itemDestroy _ (i.ren f) (Frame.tagFirst (i.ren f)) clearIfEmpty >>= _) >>= _)
        change itemDestroy _ (i.ren f) (Frame.tagFirst (i.ren f)) clearIfEmpty = _ at e2
        rw [e2]
        exact .inl ⟨e, rfl, rfl⟩
      · rw [e1]
        change Both f g base base' _ ((itemDestroy _ (i.ren f) (Frame.tagFirst (i.ren f)) clearIfEmpty >>= _) >>= _)
        change itemDestroy _ (i.ren f) (Frame.tagFirst (i.ren f)) clearIfEmpty = _ at e2
        rw [e2]
        exact .ok hu
    · rw [removeTag_ren]
      cases removeTag tag i t s.last with
      | none => exact .ok h
      | some r =>
        obtain ⟨x, t', last'⟩ := r
        dsimp only [Option.map_some]
        have hb := both_itemDestroy (s := { s with items := i :: t', last := last' })
          (s' := { s' with items := i.ren f :: t'.map (Item.ren f), last := last'.map f })
          { h with items := rfl, last := rfl } x (.tagOther x) (.tagOther (x.ren f)) rfl (k := .ok) (k' := .ok) (fun _ _ k => .ok k)
        rcases hb with ⟨e, e1, e2⟩ | ⟨u, u', e1, e2, hu⟩
        · change itemDestroy _ (x.ren f) (Frame.tagOther (x.ren f)) _ = _ at e2
          rw [e1, e2]
          exact .inl ⟨e, rfl, rfl⟩
        · change itemDestroy _ (x.ren f) (Frame.tagOther (x.ren f)) _ = _ at e2
          rw [e1, e2]
          exact .ok hu

theorem both_ret (hg : ∀ a b, g a = g b → a = b) (h : Sim f g base base' s s') : Both f g base base' (ret s) (ret s') := by
  unfold ret
  have hst := h.stack
  cases hs : s.stack with
  | nil =>
    rw [hs, List.map_nil, List.map_eq_nil_iff] at hst
    rw [hst]; exact .inl ⟨_, rfl, rfl⟩
  | cons fr rest =>
    rw [hs] at hst
    cases hs' : s'.stack with
    | nil => rw [hs'] at hst; cases hst
    | cons fr' rest' =>
      rw [hs', List.map_cons, List.map_cons, List.cons.injEq] at hst
      obtain ⟨hfr, hrest⟩ := hst
      have h' : Sim f g base base' { s with stack := rest } { s' with stack := rest' } := { h with stack := hrest }
      cases fr <;> cases fr' <;> simp only [Frame.ren, item_ren_id, Frame.run.injEq, Frame.runDestroy.injEq, Frame.tagFirst.injEq, Frame.tagOther.injEq,
        Frame.all.injEq, id, reduceCtorEq, true_and, and_true] at hfr
      · obtain ⟨rfl, rfl, rfl⟩ := hfr
        exact both_afterRun hg h' _ _ _ _ _
      · obtain ⟨rfl, rfl⟩ := hfr
        exact Both.access h (.ok (sim_runLoop hg h' _ _ _ _))
      · exact Both.access h (both_clearIfEmpty hg h')
      · exact .ok h'
      · subst hfr
        exact Both.access h (both_cancelLoop hg h' _ _ _)

theorem both_step (hf : ∀ a b, f a = f b → a = b) (hg : ∀ a b, g a = g b → a = b) (h : Sim f g base base' s s') (a : Act) :
    Both f g base base' (step s a) (step s' (a.ren g)) := by
  cases a with
  | add tag run destroy => exact Both.access h (both_add hf h tag run destroy)
  | cancelTag tag => exact Both.access h (both_cancelTag hg h tag)
  | cancelAll => exact Both.access h (both_cancelAll hg h false)
  | ref => exact Both.access h (.ok { h with refs := by dsimp only; rw [h.refs] })
  | unref => exact Both.access h (both_unref hg h)
  | dispatch src => exact both_dispatch hg h src
  | ret => exact both_ret hg h

theorem source?_ren (fr : Frame) : (fr.ren f g).source? = fr.source?.map g := by cases fr <;> rfl

theorem Sim.nil_iff (h : Sim f g base base' s s') : s'.stack = [] ↔ s.stack = [] := by
  have h1 := h.stack
  constructor
  · intro e
    rw [e] at h1
    exact List.map_eq_nil_iff.1 h1.symm
  · intro e
    rw [e] at h1
    exact List.map_eq_nil_iff.1 h1

theorem allowed_ren (hg : ∀ a b, g a = g b → a = b) (h : Sim f g base base' s s') (a : Act) : Allowed s' (a.ren g) ↔ Allowed s a := by
  cases a with
  | add tag run destroy => show 0 < s'.refs ↔ 0 < s.refs; rw [h.refs]
  | cancelTag tag => show 0 < s'.refs ↔ 0 < s.refs; rw [h.refs]
  | cancelAll => show 0 < s'.refs ↔ 0 < s.refs; rw [h.refs]
  | ref => show 0 < s'.refs ↔ 0 < s.refs; rw [h.refs]
  | unref =>
    show (2 ≤ s'.refs ∨ (s'.refs = 1 ∧ s'.stack = [])) ↔ (2 ≤ s.refs ∨ (s.refs = 1 ∧ s.stack = []))
    have := h.nil_iff
    rw [h.refs, this]
  | dispatch src =>
    show (g src ∈ s'.live ∧ ∀ fr ∈ s'.stack, fr.source? ≠ some (g src)) ↔ (src ∈ s.live ∧ ∀ fr ∈ s.stack, fr.source? ≠ some src)
    have hm : (∃ fr ∈ s'.stack, fr.source? = some (g src)) ↔ ∃ fr ∈ s.stack, fr.source? = some src := by
      have e1 : s'.stack.map Frame.source? = s.stack.map (fun fr => fr.source?.map g) := by
        have := congrArg (List.map Frame.source?) h.stack
        rw [List.map_map, List.map_map] at this
        have a1 : Frame.source? ∘ Frame.ren id id = Frame.source? := by
          funext fr; show (fr.ren id id).source? = _; rw [source?_ren]; cases fr.source? <;> rfl
        have a2 : Frame.source? ∘ Frame.ren f g = fun fr => fr.source?.map g := by funext fr; exact source?_ren fr
        rwa [a1, a2] at this
      have e2 : (∃ fr ∈ s'.stack, fr.source? = some (g src)) ↔ some (g src) ∈ s'.stack.map Frame.source? := by rw [List.mem_map]
      rw [e2, e1, List.mem_map]
      constructor
      · rintro ⟨fr, hfr, e⟩
        refine ⟨fr, hfr, ?_⟩
        cases hx : fr.source? with
        | none => rw [hx] at e; cases e
        | some x =>
          rw [hx] at e
          injection e with e
          rw [hg _ _ e]
      · rintro ⟨fr, hfr, e⟩
        exact ⟨fr, hfr, by rw [e]; rfl⟩
    have hl : g src ∈ s'.live ↔ src ∈ s.live := by
      rw [h.live, List.mem_map]
      exact ⟨fun ⟨a, ha, e⟩ => hg _ _ e ▸ ha, fun hx => ⟨src, hx, rfl⟩⟩
    rw [hl]
    refine and_congr Iff.rfl ⟨fun hn fr hfr e => ?_, fun hn fr hfr e => ?_⟩
    · obtain ⟨fr', k1, k2⟩ := hm.2 ⟨fr, hfr, e⟩
      exact hn fr' k1 k2
    · obtain ⟨fr', k1, k2⟩ := hm.1 ⟨fr, hfr, e⟩
      exact hn fr' k1 k2
  | ret => show s'.stack ≠ [] ↔ s.stack ≠ []; rw [ne_eq, ne_eq, h.nil_iff]

theorem act_image (h : Sim f g base base' s s') {a' : Act} (ha : Allowed s' a') : ∃ a : Act, a' = a.ren g := by
  cases a' with
  | dispatch src =>
    have h1 : src ∈ s'.live := ha.1
    rw [h.live] at h1
    obtain ⟨x, -, rfl⟩ := List.mem_map.1 h1
    exact ⟨.dispatch x, rfl⟩
  | add tag run destroy => exact ⟨.add tag run destroy, rfl⟩
  | cancelTag tag => exact ⟨.cancelTag tag, rfl⟩
  | cancelAll => exact ⟨.cancelAll, rfl⟩
  | ref => exact ⟨.ref, rfl⟩
  | unref => exact ⟨.unref, rfl⟩
  | ret => exact ⟨.ret, rfl⟩

/-- What's possible without it is possible with it, with the same effect -/
theorem sim_exec (hf : ∀ a b, f a = f b → a = b) (hg : ∀ a b, g a = g b → a = b) : ∀ (acts : List Act) {s s' : State},
    Sim f g base base' s s' → legal s acts = true → ∃ t t', exec s acts = .ok t ∧ legal s' (acts.map (Act.ren g)) = true ∧
      exec s' (acts.map (Act.ren g)) = .ok t' ∧ Sim f g base base' t t'
  | [], s, s', h, _ => ⟨s, s', rfl, rfl, rfl, h⟩
  | a :: acts, s, s', h, hl => by
    rw [legal] at hl
    split at hl
    · rename_i hal
      rcases both_step hf hg h a with ⟨e, e1, -⟩ | ⟨u, u', e1, e2, hu⟩
      · rw [e1] at hl; cases hl
      · rw [e1] at hl
        obtain ⟨t, t', k1, k2, k3, k4⟩ := sim_exec hf hg acts hu hl
        refine ⟨t, t', ?_, ?_, ?_, k4⟩
        · rw [exec, e1]; exact k1
        · rw [List.map_cons, legal, if_pos ((allowed_ren hg h a).2 hal), e2]; exact k2
        · rw [List.map_cons, exec, e2]; exact k3
    · cases hl

/-- And the other way around -/
theorem sim_back (hf : ∀ a b, f a = f b → a = b) (hg : ∀ a b, g a = g b → a = b) : ∀ (acts' : List Act) {s s' : State},
    Sim f g base base' s s' → legal s' acts' = true → ∃ acts, acts' = acts.map (Act.ren g) ∧ legal s acts = true
  | [], _, _, _, _ => ⟨[], rfl, rfl⟩
  | a' :: acts', s, s', h, hl => by
    rw [legal] at hl
    split at hl
    · rename_i hal
      obtain ⟨a, rfl⟩ := act_image h hal
      rcases both_step hf hg h a with ⟨e, -, e2⟩ | ⟨u, u', e1, e2, hu⟩
      · rw [e2] at hl; cases hl
      · rw [e2] at hl
        obtain ⟨acts, rfl, k⟩ := sim_back hf hg acts' hu hl
        refine ⟨a :: acts, rfl, ?_⟩
        rw [legal, if_pos ((allowed_ren hg h a).1 hal), e1]; exact k
    · cases hl

end

end Verif.Idle
