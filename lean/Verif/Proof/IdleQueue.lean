import Verif.Model.IdleQueue

/-!
# The invariant of the idle queue
-/

namespace Verif.Idle
open Verif.C

/-! ## History -/

theorem adds_append (a b : List Event) : adds (a ++ b) = adds a ++ adds b := List.filterMap_append
theorem runs_append (a b : List Event) : runs (a ++ b) = runs a ++ runs b := List.filterMap_append
theorem begins_append (a b : List Event) : begins (a ++ b) = begins a ++ begins b := List.filterMap_append

theorem mem_adds {log : List Event} {id : Nat} : id ∈ adds log ↔ ∃ r x, .added id r x ∈ log := by
  unfold adds
  rw [List.mem_filterMap]
  constructor
  · rintro ⟨e, he, h⟩
    cases e <;> simp at h
    subst h
    exact ⟨_, _, he⟩
  · rintro ⟨r, x, h⟩
    exact ⟨_, h, rfl⟩

theorem mem_runs {log : List Event} {id : Nat} : id ∈ runs log ↔ ∃ d, .run d id ∈ log := by
  unfold runs
  rw [List.mem_filterMap]
  constructor
  · rintro ⟨e, he, h⟩
    cases e <;> simp at h
    subst h
    exact ⟨_, he⟩
  · rintro ⟨r, h⟩
    exact ⟨_, h, rfl⟩

theorem added_uniq {log : List Event} (nd : (adds log).Nodup) {id : Nat} {r x r' x' : Bool}
    (h : .added id r x ∈ log) (h' : .added id r' x' ∈ log) : r = r' ∧ x = x' := by
  induction log with
  | nil => simp at h
  | cons e t ih =>
    have hc : adds (e :: t) = adds [e] ++ adds t := adds_append [e] t
    rw [hc, List.nodup_append] at nd
    rw [List.mem_cons] at h h'
    rcases h with h | h <;> rcases h' with h' | h'
    · rw [← h] at h'
      injection h' with _ h1 h2
      exact ⟨h1.symm, h2.symm⟩
    · exact absurd rfl (nd.2.2 id (by rw [← h]; simp [adds]) id (mem_adds.2 ⟨_, _, h'⟩))
    · exact absurd rfl (nd.2.2 id (by rw [← h']; simp [adds]) id (mem_adds.2 ⟨_, _, h⟩))
    · exact ih nd.2.1 h h'

/-- What can be said about the events before the given one. -/
def Good (pre : List Event) : Event → Prop
  | .run d id => (∃ p, At pre p (.begin d) ∧ id ∈ adds p) ∧ ∀ b, .allDone b ∈ pre → b ≤ id
  | .ended d => ∃ p, At pre p (.begin d) ∧ ∀ id x, .added id true x ∈ p → id ∈ runs pre ∨ .cancel id ∈ pre
  | .allCalled b => adds pre = List.range b
  | .allDone b => ∃ p, At pre p (.allCalled b)
  | .destroy id => (∃ r, .added id r true ∈ pre) ∧ (.added id true true ∈ pre → id ∈ runs pre ∨ .cancel id ∈ pre)
  | .cancel id => id ∈ adds pre
  | _ => True

def Trace (log : List Event) : Prop := ∀ pre e, At log pre e → Good pre e

theorem At.append {log pre : List Event} {e : Event} (h : At log pre e) (l : List Event) : At (log ++ l) pre e := by
  obtain ⟨post, rfl⟩ := h
  exact ⟨post ++ l, by simp⟩

theorem At.snoc {log pre : List Event} {e e' : Event} (h : At (log ++ [e']) pre e) :
    At log pre e ∨ (pre = log ∧ e = e') := by
  obtain ⟨post, h⟩ := h
  rcases List.eq_nil_or_concat post with rfl | ⟨p, x, rfl⟩
  · have := List.append_inj' h rfl
    simp at this
    exact .inr ⟨this.1.symm, this.2.symm⟩
  · refine .inl ⟨p, ?_⟩
    rw [List.concat_eq_append, ← List.cons_append, ← List.append_assoc] at h
    exact (List.append_inj' h rfl).1

theorem At.last (log : List Event) (e : Event) : At (log ++ [e]) log e := ⟨[], rfl⟩

theorem At.mem {log pre : List Event} {e : Event} (h : At log pre e) : e ∈ log := by
  obtain ⟨post, rfl⟩ := h
  simp

theorem At.sub {log pre : List Event} {e x : Event} (h : At log pre e) (hx : x ∈ pre) : x ∈ log := by
  obtain ⟨post, rfl⟩ := h
  simp [hx]

theorem Trace.snoc {log : List Event} {e : Event} (h : Trace log) (he : Good log e) : Trace (log ++ [e]) := by
  intro pre x hx
  rcases hx.snoc with hx | ⟨rfl, rfl⟩
  · exact h _ _ hx
  · exact he

/-- Items whose `destroy` callback is yet to be called by the functions on the stack -/
def pend : List Frame → List Nat
  | [] => []
  | .run _ _ _ i :: rest => if i.destroy then i.id :: pend rest else pend rest
  | .runDestroy .. :: rest | .tagFirst .. :: rest | .tagOther .. :: rest | .all .. :: rest => pend rest

/-- The function on the stack has been called. -/
def FrameOk (log : List Event) : Frame → Prop
  | .run d _ b _ => ∃ p, At log p (.begin d) ∧ adds p = List.range b
  | .runDestroy d _ b _ => ∃ p, At log p (.begin d) ∧ adds p = List.range b
  | .all b _ _ => ∃ p, At log p (.allCalled b)
  | _ => True

theorem FrameOk.append {log : List Event} {f : Frame} (h : FrameOk log f) (l : List Event) : FrameOk (log ++ l) f := by
  cases f
  · obtain ⟨p, h1, h2⟩ := h
    exact ⟨p, h1.append l, h2⟩
  · obtain ⟨p, h1, h2⟩ := h
    exact ⟨p, h1.append l, h2⟩
  · trivial
  · trivial
  · obtain ⟨p, h1⟩ := h
    exact ⟨p, h1.append l⟩

/-- The invariant of the history -/
structure Hist (items : List Item) (stack : List Frame) (n m : Nat) (log : List Event) : Prop where
  adds : adds log = List.range n
  begins : begins log = List.range m
  flags : ∀ i ∈ items, .added i.id i.run i.destroy ∈ log
  nodup : (items.map Item.id).Nodup
  runsLt : ∀ x ∈ runs log, ∀ i ∈ items, x < i.id
  runsOrd : (runs log).Pairwise (· < ·)
  runsBd : ∀ x ∈ runs log, x < n
  cancels : ∀ id, .cancel id ∈ log → id ∉ runs log ∧ ∀ i ∈ items, i.id ≠ id
  pendRun : ∀ d src b i, .run d src b i ∈ stack → i.id ∈ runs log ∧ .added i.id true i.destroy ∈ log
  pendNd : (pend stack).Nodup
  destr1 : ∀ id r, .added id r true ∈ log → (∀ i ∈ items, i.id ≠ id) → id ∉ pend stack → log.count (.destroy id) = 1
  destr0 : ∀ id, (∃ i ∈ items, i.id = id) ∨ id ∈ pend stack → log.count (.destroy id) = 0
  destrN : ∀ id, (∀ r, .added id r true ∉ log) → log.count (.destroy id) = 0
  done : ∀ id x, .added id true x ∈ log → (∃ i ∈ items, i.id = id) ∨ id ∈ runs log ∨ .cancel id ∈ log
  frames : ∀ f ∈ stack, FrameOk log f
  dones : ∀ b, .allDone b ∈ log → ∀ i ∈ items, b ≤ i.id
  donesBd : ∀ b, .allDone b ∈ log → b ≤ n
  trace : Trace log

theorem Hist.uniq {items : List Item} {stack : List Frame} {n m : Nat} {log : List Event}
    (h : Hist items stack n m log) {id : Nat} {r x r' x' : Bool}
    (h1 : .added id r x ∈ log) (h2 : .added id r' x' ∈ log) : r = r' ∧ x = x' := by
  refine added_uniq ?_ h1 h2
  rw [h.adds]
  exact List.nodup_range

theorem Hist.lt {items : List Item} {stack : List Frame} {n m : Nat} {log : List Event}
    (h : Hist items stack n m log) {id : Nat} {r x : Bool} (h1 : .added id r x ∈ log) : id < n := by
  have := mem_adds.2 ⟨_, _, h1⟩
  rw [h.adds] at this
  simpa using this

theorem pend_sub_runs {items : List Item} {stack : List Frame} {n m : Nat} {log : List Event}
    (h : Hist items stack n m log) {id : Nat} (hid : id ∈ pend stack) : id ∈ runs log := by
  have hp := h.pendRun
  clear h
  induction stack with
  | nil => simp [pend] at hid
  | cons f t ih => cases f <;> grind [pend]

section
variable {items t : List Item} {stack rest : List Frame} {n m : Nat} {log : List Event} {i : Item}

attribute [local grind] pend

/-- The events of each kind -/
def addsOf : Event → List Nat
  | .added id _ _ => [id]
  | _ => []
def runsOf : Event → List Nat
  | .run _ id => [id]
  | _ => []
def beginsOf : Event → List Nat
  | .begin d => [d]
  | _ => []
def destroysOf (e : Event) (id : Nat) : Nat :=
  match e with
  | .destroy i => if i = id then 1 else 0
  | _ => 0

theorem adds_snoc (e : Event) : adds (log ++ [e]) = adds log ++ addsOf e := by rw [adds_append]; cases e <;> rfl
theorem runs_snoc (e : Event) : runs (log ++ [e]) = runs log ++ runsOf e := by rw [runs_append]; cases e <;> rfl
theorem begins_snoc (e : Event) : begins (log ++ [e]) = begins log ++ beginsOf e := by rw [begins_append]; cases e <;> rfl
theorem count_snoc (e : Event) (id : Nat) :
    (log ++ [e]).count (.destroy id) = log.count (.destroy id) + destroysOf e id := by
  rw [List.count_append, List.count_singleton]
  cases e <;> simp [destroysOf]

attribute [local grind =] adds_snoc runs_snoc begins_snoc count_snoc
attribute [local grind] addsOf runsOf beginsOf destroysOf

/-- Items without callbacks don't count -/
theorem Hist.drop (h : Hist (i :: t) stack n m log) (hr : i.run = false) (hd : i.destroy = false) :
    Hist t stack n m log where
  adds := h.adds
  begins := h.begins
  flags := fun j hj => h.flags j (by simp [hj])
  nodup := by have := h.nodup; simp at this; simpa using this.2
  runsLt := fun x hx j hj => h.runsLt x hx j (by simp [hj])
  runsOrd := h.runsOrd
  runsBd := h.runsBd
  cancels := fun id hid => ⟨(h.cancels id hid).1, fun j hj => (h.cancels id hid).2 j (by simp [hj])⟩
  pendRun := h.pendRun
  pendNd := h.pendNd
  destr1 := by
    intro id r ha hi hp
    refine h.destr1 id r ha ?_ hp
    intro j hj e
    rw [List.mem_cons] at hj
    rcases hj with rfl | hj
    · subst e
      have := h.uniq ha (h.flags j (by simp))
      rw [hd] at this
      simp at this
    · exact hi j hj e
  destr0 := by
    intro id hid
    apply h.destr0
    grind
  destrN := h.destrN
  done := by
    intro id x ha
    rcases h.done id x ha with ⟨j, hj, e⟩ | hh
    · rw [List.mem_cons] at hj
      rcases hj with rfl | hj
      · subst e
        have := h.uniq ha (h.flags j (by simp))
        rw [hr] at this
        simp at this
      · exact .inl ⟨j, hj, e⟩
    · exact .inr hh
  frames := h.frames
  dones := fun b hb j hj => h.dones b hb j (by simp [hj])
  donesBd := h.donesBd
  trace := h.trace

theorem Hist.ids (h : Hist items stack n m log) : ∀ i ∈ items, i.id < n := fun i hi => h.lt (h.flags i hi)

/-- `run` of the first item is called -/
theorem Hist.run {d src b : Nat} {j : Item} (h : Hist (i :: t) (.runDestroy d src b j :: rest) n m log)
    (hr : i.run = true) (hb : i.id < b) (hs : ∀ x ∈ t, i.id < x.id) :
    Hist t (.run d src b i :: rest) n m (log ++ [.run d i.id]) := by
  have hfl := h.flags i (by simp)
  have hlt := h.lt hfl
  have hnr : i.id ∉ runs log := fun hc => by have := h.runsLt _ hc i (by simp); omega
  have hnp : i.id ∉ pend rest := fun hc => hnr (pend_sub_runs h hc)
  have hu := @Hist.uniq _ _ _ _ _ h
  obtain ⟨h1, h2, h3, h4, h5, h6, h7, h8, h9, h10, h11, h12, h12n, h13, h14, h15, h16, h17⟩ := h
  have hf := h14 _ (List.mem_cons_self ..)
  constructor
  · grind
  · grind
  · grind
  · grind
  · grind
  · grind
  · grind
  · grind
  · grind
  · grind
  · grind
  · intro id hid
    rw [count_snoc, h12 id]
    · rfl
    · rcases hid with ⟨k, hk, e⟩ | hid
      · exact .inl ⟨k, by simp [hk], e⟩
      · rw [pend] at hid
        split at hid
        · rw [List.mem_cons] at hid
          rcases hid with rfl | hid
          · exact .inl ⟨i, by simp, rfl⟩
          · exact .inr hid
        · exact .inr hid
  · intro id hid
    have := h12n id (fun r hr => hid r (by simp [hr]))
    grind
  · grind
  · intro f hf'
    rw [List.mem_cons] at hf'
    rcases hf' with rfl | hf'
    · exact FrameOk.append (f := .run d src b i) hf _
    · exact (h14 f (by simp [hf'])).append _
  · grind
  · grind
  · refine h17.snoc ⟨?_, by grind⟩
    obtain ⟨p, q1, q2⟩ := hf
    exact ⟨p, q1, by rw [q2]; simpa using hb⟩

/-- Only the frames of `gutil_idle_queue_run` matter -/
theorem Hist.restack {stack' : List Frame} (h : Hist items stack n m log)
    (hr : ∀ d src b i, .run d src b i ∈ stack' → .run d src b i ∈ stack) (hp : pend stack' = pend stack)
    (hf : ∀ f ∈ stack', FrameOk log f) : Hist items stack' n m log := by
  obtain ⟨h1, h2, h3, h4, h5, h6, h7, h8, h9, h10, h11, h12, h12n, h13, h14, h15, h16, h17⟩ := h
  constructor <;> first | assumption | grind

theorem Hist.pop {f : Frame} (h : Hist items (f :: stack) n m log) (hf : ∀ d src b i, f ≠ .run d src b i) :
    Hist items stack n m log := by
  refine h.restack (by grind) ?_ (fun g hg => h.frames g (by simp [hg]))
  cases f <;> simp [pend] at hf ⊢
  exact absurd rfl (hf _ _ _ _ rfl rfl rfl)

theorem Hist.push {f : Frame} (h : Hist items stack n m log) (hf : ∀ d src b i, f ≠ .run d src b i)
    (ho : FrameOk log f) : Hist items (f :: stack) n m log := by
  refine h.restack (by grind) ?_ ?_
  · cases f <;> simp [pend] at hf ⊢
    exact absurd rfl (hf _ _ _ _ rfl rfl rfl)
  · intro g hg
    rw [List.mem_cons] at hg
    rcases hg with rfl | hg
    · exact ho
    · exact h.frames g hg

/-- `destroy` of the first item is called, it has no `run` -/
theorem Hist.runDestroy (h : Hist (i :: t) stack n m log) (hr : i.run = false) (hd : i.destroy = true) :
    Hist t stack n m (log ++ [.destroy i.id]) := by
  have hfl := h.flags i (by simp)
  have hlt := h.lt hfl
  have hnr : i.id ∉ runs log := fun hc => by have := h.runsLt _ hc i (by simp); omega
  have hnp : i.id ∉ pend stack := fun hc => hnr (pend_sub_runs h hc)
  have hu := @Hist.uniq _ _ _ _ _ h
  obtain ⟨h1, h2, h3, h4, h5, h6, h7, h8, h9, h10, h11, h12, h12n, h13, h14, h15, h16, h17⟩ := h
  have hz := h12 i.id (.inl ⟨i, by simp, rfl⟩)
  constructor
  · grind
  · grind
  · grind
  · grind
  · grind
  · grind
  · grind
  · grind
  · grind
  · grind
  · intro id r ha hi hp
    have ha' : .added id r true ∈ log := by simpa using ha
    rw [count_snoc]
    by_cases he : i.id = id
    · subst he; simp [destroysOf, hz]
    · rw [h11 id r ha' (by grind) hp]; simp [destroysOf, he]
  · intro id hid
    rw [count_snoc, h12 id (by grind)]
    by_cases he : i.id = id
    · grind
    · simp [destroysOf, he]
  · intro id hid
    rw [count_snoc, h12n id (fun r hr => hid r (by simp [hr]))]
    by_cases he : i.id = id
    · grind
    · simp [destroysOf, he]
  · grind
  · exact fun f hf => (h14 f hf).append _
  · grind
  · grind
  · refine h17.snoc ⟨⟨_, hd ▸ hfl⟩, ?_⟩
    intro hc
    have := hu hc hfl
    simp [hr] at this

/-- `run` has returned, there is `destroy` -/
theorem Hist.afterRun {d src b : Nat} (h : Hist items (.run d src b i :: rest) n m log) (hd : i.destroy = true) :
    Hist items (.runDestroy d src b i :: rest) n m (log ++ [.destroy i.id]) := by
  have hpr := h.pendRun d src b i (by simp)
  have hu := @Hist.uniq _ _ _ _ _ h
  have hnd : i.id ∉ pend rest := by have := h.pendNd; rw [pend, if_pos hd, List.nodup_cons] at this; exact this.1
  have hpp : pend (.run d src b i :: rest) = i.id :: pend rest := by rw [pend, if_pos hd]
  have hni : ∀ x ∈ items, x.id ≠ i.id := fun x hx e => by have := h.runsLt _ hpr.1 x hx; omega
  obtain ⟨h1, h2, h3, h4, h5, h6, h7, h8, h9, h10, h11, h12, h12n, h13, h14, h15, h16, h17⟩ := h
  have hz := h12 i.id (.inr (by simp [hpp]))
  constructor
  · grind
  · grind
  · grind
  · grind
  · grind
  · grind
  · grind
  · grind
  · grind
  · grind
  · intro id r ha hi hp
    have ha' : .added id r true ∈ log := by simpa using ha
    rw [count_snoc]
    by_cases he : i.id = id
    · subst he; simp [destroysOf, hz]
    · rw [h11 id r ha' hi (by grind)]; simp [destroysOf, he]
  · intro id hid
    rw [count_snoc, h12 id (by grind)]
    by_cases he : i.id = id
    · grind
    · simp [destroysOf, he]
  · intro id hid
    rw [count_snoc, h12n id (fun r hr => hid r (by simp [hr]))]
    by_cases he : i.id = id
    · grind
    · simp [destroysOf, he]
  · grind
  · intro f hf
    rw [List.mem_cons] at hf
    rcases hf with rfl | hf
    · exact FrameOk.append (f := .run d src b i) (h14 _ (by simp)) _
    · exact (h14 f (by simp [hf])).append _
  · grind
  · grind
  · exact h17.snoc ⟨⟨_, hd ▸ hpr.2⟩, fun _ => .inl hpr.1⟩

/-- `run` has returned, there is no `destroy` -/
theorem Hist.afterRun' {d src b : Nat} (h : Hist items (.run d src b i :: rest) n m log) (hd : i.destroy = false) :
    Hist items (.runDestroy d src b i :: rest) n m log := by
  refine h.restack (by grind) (by simp [pend, hd]) ?_
  intro f hf
  rw [List.mem_cons] at hf
  rcases hf with rfl | hf
  · exact h.frames (.run d src b i) (by simp)
  · exact h.frames f (by simp [hf])

/-- An event which tells nothing about the items -/
theorem Hist.event {e : Event} (h : Hist items stack n m log) (ha : addsOf e = []) (hr : runsOf e = [])
    (hb : beginsOf e = []) (hc : ∀ id, e ≠ .cancel id) (hd : ∀ id, e ≠ .destroy id) 
    (hx : ∀ b, e = .allDone b → b ≤ n ∧ ∀ i ∈ items, b ≤ i.id) (hg : Good log e) :
    Hist items stack n m (log ++ [e]) := by
  have ha' : ∀ id r x, e ≠ .added id r x := by rintro _ _ _ rfl; simp [addsOf] at ha
  have hd' : ∀ id, destroysOf e id = 0 := by intro id; cases e <;> simp_all [destroysOf]
  obtain ⟨h1, h2, h3, h4, h5, h6, h7, h8, h9, h10, h11, h12, h12n, h13, h14, h15, h16, h17⟩ := h
  constructor
  · grind
  · grind
  · grind
  · grind
  · grind
  · grind
  · grind
  · grind
  · grind
  · grind
  · grind
  · grind
  · intro id hid
    rw [count_snoc, hd', h12n id (fun r hr => hid r (by simp [hr]))]
  · grind
  · exact fun f hf => (h14 f hf).append _
  · grind
  · grind
  · exact h17.snoc hg

/-- The idle callback is done -/
theorem Hist.ended {d src b : Nat} (h : Hist items (.runDestroy d src b i :: rest) n m log) (hb : ∀ x ∈ items, b ≤ x.id) :
    Hist items rest n m (log ++ [.ended d]) := by
  refine (h.pop (by simp)).event rfl rfl rfl (by simp) (by simp) (by simp) ?_
  obtain ⟨p, h1, h2⟩ := h.frames (.runDestroy d src b i) (by simp)
  refine ⟨p, h1, ?_⟩
  intro id x hx
  have hlt : id < b := by
    have := mem_adds.2 ⟨_, _, hx⟩
    rw [h2] at this
    simpa using this
  rcases h.done id x (h1.sub hx) with ⟨k, hk, e⟩ | hh
  · have := hb k hk; omega
  · exact hh

theorem Hist.cancel {p : List Item} (h : Hist (p ++ i :: t) stack n m log) (hd : i.destroy = false) :
    Hist (p ++ t) stack n m (log ++ [.cancel i.id]) := by
  have hfl := h.flags i (by simp)
  have hlt := h.lt hfl
  have hnr : i.id ∉ runs log := fun hc => by have := h.runsLt _ hc i (by simp); omega
  have hnp : i.id ∉ pend stack := fun hc => hnr (pend_sub_runs h hc)
  have hu := @Hist.uniq _ _ _ _ _ h
  have hni : ∀ x ∈ p ++ t, x.id ≠ i.id := by
    have := h.nodup
    grind
  obtain ⟨h1, h2, h3, h4, h5, h6, h7, h8, h9, h10, h11, h12, h12n, h13, h14, h15, h16, h17⟩ := h
  constructor
  · grind
  · grind
  · grind
  · grind
  · grind
  · grind
  · grind
  · grind
  · grind
  · grind
  · intro id r ha hi hp
    have ha' : .added id r true ∈ log := by simpa using ha
    rw [count_snoc]
    refine h11 id r ha' ?_ hp
    intro x hx e
    by_cases he : i.id = id
    · have := hu ha' (he ▸ hfl)
      simp [hd] at this
    · grind
  · intro id hid
    rw [count_snoc, h12 id (by rcases hid with ⟨k, hk, e⟩ | hid; · exact .inl ⟨k, by grind, e⟩
                               · exact .inr hid)]
    rfl
  · intro id hid
    rw [count_snoc, h12n id (fun r hr => hid r (by simp [hr]))]
    rfl
  · grind
  · exact fun f hf => (h14 f hf).append _
  · grind
  · grind
  · exact h17.snoc (mem_adds.2 ⟨_, _, hfl⟩)

theorem Hist.cancelDestroy {p : List Item} (h : Hist (p ++ i :: t) stack n m log) (hd : i.destroy = true) :
    Hist (p ++ t) stack n m (log ++ [.cancel i.id, .destroy i.id]) := by
  have hfl := h.flags i (by simp)
  have hlt := h.lt hfl
  have hnr : i.id ∉ runs log := fun hc => by have := h.runsLt _ hc i (by simp); omega
  have hnp : i.id ∉ pend stack := fun hc => hnr (pend_sub_runs h hc)
  have hu := @Hist.uniq _ _ _ _ _ h
  have hni : ∀ x ∈ p ++ t, x.id ≠ i.id := by
    have := h.nodup
    grind
  have hl : log ++ [.cancel i.id, .destroy i.id] = (log ++ [.cancel i.id]) ++ [.destroy i.id] := by simp
  rw [hl]
  obtain ⟨h1, h2, h3, h4, h5, h6, h7, h8, h9, h10, h11, h12, h12n, h13, h14, h15, h16, h17⟩ := h
  have hz := h12 i.id (.inl ⟨i, by simp, rfl⟩)
  have hcz : ∀ id, destroysOf (.cancel i.id) id = 0 := fun _ => rfl
  constructor
  · grind
  · grind
  · grind
  · grind
  · grind
  · grind
  · grind
  · grind
  · grind
  · grind
  · intro id r ha hi hp
    have ha' : .added id r true ∈ log := by simpa using ha
    rw [count_snoc, count_snoc, hcz]
    by_cases he : i.id = id
    · subst he; simp [destroysOf, hz]
    · rw [h11 id r ha' (by grind) hp]; simp [destroysOf, he]
  · intro id hid
    rw [count_snoc, count_snoc, hcz, h12 id (by grind)]
    by_cases he : i.id = id
    · grind
    · simp [destroysOf, he]
  · intro id hid
    rw [count_snoc, count_snoc, hcz, h12n id (fun r hr => hid r (by simp [hr]))]
    by_cases he : i.id = id
    · grind
    · simp [destroysOf, he]
  · grind
  · exact fun f hf => ((h14 f hf).append _).append _
  · grind
  · grind
  · refine (h17.snoc (e := .cancel i.id) (mem_adds.2 ⟨_, _, hfl⟩)).snoc ⟨⟨i.run, ?_⟩, fun _ => .inr (by simp)⟩
    rw [← hd]
    simp [hfl]

theorem markAll_mem {x : Item} (h : x ∈ markAll items) :
    ∃ y ∈ items, x = { y with completed := true } := by
  unfold markAll at h
  rw [List.mem_map] at h
  obtain ⟨y, hy, rfl⟩ := h
  exact ⟨y, hy, rfl⟩

theorem mem_markAll {x : Item} (h : x ∈ items) : { x with completed := true } ∈ markAll items :=
  List.mem_map_of_mem h

theorem markAll_ids : (markAll items).map Item.id = items.map Item.id := by
  simp [markAll]

theorem Hist.markAll (h : Hist items stack n m log) : Hist (markAll items) stack n m log := by
  have e1 : ∀ x ∈ Idle.markAll items, ∃ y ∈ items, x.id = y.id ∧ x.run = y.run ∧ x.destroy = y.destroy := by
    intro x hx
    obtain ⟨y, hy, rfl⟩ := markAll_mem hx
    exact ⟨y, hy, rfl, rfl, rfl⟩
  have e2 : ∀ y ∈ items, ∃ x ∈ Idle.markAll items, x.id = y.id := fun y hy => ⟨_, mem_markAll hy, rfl⟩
  have e3 := @markAll_ids items
  obtain ⟨h1, h2, h3, h4, h5, h6, h7, h8, h9, h10, h11, h12, h12n, h13, h14, h15, h16, h17⟩ := h
  constructor <;> first | assumption | grind

/-- The idle callback is invoked -/
theorem Hist.begin (h : Hist items stack n m log) : Hist items stack n (m + 1) (log ++ [.begin m]) := by
  obtain ⟨h1, h2, h3, h4, h5, h6, h7, h8, h9, h10, h11, h12, h12n, h13, h14, h15, h16, h17⟩ := h
  constructor
  · grind
  · rw [begins_snoc, h2, List.range_succ]; rfl
  · grind
  · grind
  · grind
  · grind
  · grind
  · grind
  · grind
  · grind
  · grind
  · grind
  · intro id hid
    rw [count_snoc, h12n id (fun r hr => hid r (by simp [hr]))]
    rfl
  · grind
  · exact fun f hf => (h14 f hf).append _
  · grind
  · grind
  · exact h17.snoc trivial

/-- An item is added -/
theorem Hist.add (h : Hist items stack n m log) (tag : Nat) (r x : Bool) :
    Hist (items ++ [⟨n, tag, r, x, false⟩]) stack (n + 1) m (log ++ [.added n r x]) := by
  have hids := h.ids
  have hl := @Hist.lt _ _ _ _ _ h
  have hps := @pend_sub_runs _ _ _ _ _ h
  have hdz : log.count (.destroy n) = 0 := h.destrN n (fun r hr => by have := h.lt hr; omega)
  have hcl : ∀ id, .cancel id ∈ log → id < n := by
    intro id hid
    obtain ⟨p, q, e⟩ := List.append_of_mem hid
    have : id ∈ Idle.adds p := h.trace p (.cancel id) ⟨q, e⟩
    obtain ⟨r, x, hr⟩ := mem_adds.1 this
    exact h.lt (r := r) (x := x) (by rw [e]; simp [hr])
  obtain ⟨h1, h2, h3, h4, h5, h6, h7, h8, h9, h10, h11, h12, h12n, h13, h14, h15, h16, h17⟩ := h
  constructor
  · rw [adds_snoc, h1, List.range_succ]; rfl
  · grind
  · grind
  · rw [List.map_append, List.nodup_append]
    refine ⟨h4, by simp, ?_⟩
    intro a ha b hb
    simp at hb
    grind
  · grind
  · grind
  · grind
  · grind
  · grind
  · grind
  · intro id r' ha hi hp
    rw [count_snoc]
    have hne : id ≠ n := by have := hi ⟨n, tag, r, x, false⟩ (by simp); exact fun e => this e.symm
    have ha' : .added id r' true ∈ log := by simp at ha; grind
    exact h11 id r' ha' (fun k hk => hi k (by simp [hk])) hp
  · intro id hid
    rw [count_snoc]
    by_cases he : id = n
    · subst he; exact hdz
    · exact h12 id (by grind)
  · intro id hid
    rw [count_snoc, h12n id (fun r hr => hid r (by simp [hr]))]
    rfl
  · intro id x' ha
    rw [List.mem_append, List.mem_singleton] at ha
    rcases ha with ha | ha
    · rcases h13 id x' ha with ⟨k, hk, e⟩ | hh | hh
      · exact .inl ⟨k, by simp [hk], e⟩
      · exact .inr (.inl (by rw [runs_append]; simp [hh]))
      · exact .inr (.inr (by simp [hh]))
    · injection ha with e1 e2 e3
      exact .inl ⟨_, List.mem_append_right _ (List.mem_singleton_self _), e1.symm⟩
  · exact fun f hf => (h14 f hf).append _
  · grind
  · grind
  · exact h17.snoc trivial

end

end Verif.Idle
