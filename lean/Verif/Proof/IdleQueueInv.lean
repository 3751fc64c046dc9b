import Verif.Proof.IdleQueue

namespace Verif.Idle
open Verif.C

/-- The functions which are in the middle of the loop -/
def Frame.isLoop : Frame → Bool
  | .run .. | .runDestroy .. | .all .. => true
  | _ => false

/-- The functions which remove the source if the queue turns out to be empty -/
def Frame.clears : Frame → Bool
  | .tagOther .. => false
  | _ => true

def Frame.bound? : Frame → Option Nat
  | .run _ _ b _ => some b
  | .runDestroy _ _ b _ => some b
  | .all b _ _ => some b
  | _ => none

def Frame.final : Frame → Bool
  | .all _ z _ => z
  | _ => false

/-- What the topmost loop relies on -/
def TopOk (items : List Item) (source : Option Nat) : Option Frame → Prop
  | none => ∀ i ∈ items, i.completed = false
  | some (.run _ src b _) | some (.runDestroy _ src b _) =>
    (source ≠ some src → ∀ i ∈ items, i.completed = false) ∧ ∀ i ∈ items, i.completed = true → i.id < b
  | _ => True

/-- Where the source comes from if the queue is empty -/
def EmptOk (source : Option Nat) : Option Frame → Prop
  | none => source = none
  | some (.run _ src _ _) | some (.runDestroy _ src _ _) => ∀ x, source = some x → x = src
  | _ => True

structure Inv (s : State) : Prop where
  hist : Hist s.items s.stack s.nextId s.nextRun s.log
  sorted : s.items.Pairwise (fun a b => a.id < b.id)
  lastEq : s.last = s.items.getLast?.map Item.id
  front : s.items.Pairwise (fun a b => b.completed = true → a.completed = true)
  liveEq : s.live = s.source.toList
  sched : s.items ≠ [] → s.source ≠ none
  top : TopOk s.items s.source (s.stack.find? Frame.isLoop)
  empt : s.items = [] → EmptOk s.source (s.stack.find? Frame.clears)
  old : ∀ f ∈ s.stack, ∀ b, f.bound? = some b → b ≤ s.nextId ∧ ∀ i ∈ s.items, i.id < b → i.completed = true
  fin : ∀ f ∈ s.stack, f.final = true → s.refs = 0 ∧ ∀ i ∈ s.items, i.completed = true
  finBottom : ∀ p f q, s.stack = p ++ f :: q → f.final = true → q = []
  refs : s.alive = true → s.refs = 0 → ∃ f ∈ s.stack, f.final = true
  dead : s.alive = false → s.items = [] ∧ s.source = none ∧ s.stack = [] ∧ s.refs = 0

theorem inv_new : Inv new where
  hist := by
    constructor <;> simp [new, Idle.adds, Idle.begins, Idle.runs, pend]
    intro pre e h
    obtain ⟨post, h⟩ := h
    simp at h
  sorted := by simp [new]
  lastEq := by simp [new]
  front := by simp [new]
  liveEq := by simp [new]
  sched := by simp [new]
  top := by simp [new, TopOk]
  empt := by simp [new, EmptOk]
  old := by simp [new]
  fin := by simp [new]
  finBottom := by simp [new]
  refs := by simp [new]
  dead := by simp [new]

theorem lastOf_eq {i : Item} {t : List Item} {last : Option Nat} (h : last = (i :: t).getLast?.map Item.id) :
    lastOf t last = t.getLast?.map Item.id := by
  cases t with
  | nil => rfl
  | cons a t => rw [h]; simp [lastOf]

theorem topOk_none {items : List Item} {source : Option Nat} (h : ∀ i ∈ items, i.completed = false) :
    ∀ f, TopOk items source f := by
  intro f
  unfold TopOk
  split
  · exact h
  · exact ⟨fun _ => h, fun i hi hc => by rw [h i hi] at hc; cases hc⟩
  · exact ⟨fun _ => h, fun i hi hc => by rw [h i hi] at hc; cases hc⟩
  · trivial

theorem TopOk.mono {items items' : List Item} {source : Option Nat} {f : Option Frame}
    (h : TopOk items source f) (hs : ∀ i ∈ items', i ∈ items) : TopOk items' source f := by
  unfold TopOk at h ⊢
  split <;> grind

/-- If the first one isn't completed then none is. -/
theorem none_completed {items : List Item}
    (hf : items.Pairwise (fun a b => b.completed = true → a.completed = true))
    (h : ∀ i t, items = i :: t → i.completed = false) : ∀ i ∈ items, i.completed = false := by
  cases items with
  | nil => simp
  | cons a t =>
    have := h a t rfl
    rw [List.pairwise_cons] at hf
    intro i hi
    rw [List.mem_cons] at hi
    rcases hi with rfl | hi
    · exact this
    · cases hc : i.completed with
      | false => rfl
      | true => rw [hf.1 i hi hc] at this; cases this

/-! ## The loops, one item at a time -/

theorem inv_runLoop {s : State} {d src b : Nat} (items : List Item) :
    ∀ last, (∃ j, Inv { s with items := items, last := last, stack := .runDestroy d src b j :: s.stack }) →
    Inv (runLoop { s with items := items, last := last } d src b) := by
  induction items with
  | nil =>
    rintro last ⟨j, h⟩
    have he : EmptOk s.source (some (.runDestroy d src b j)) := h.empt rfl
    unfold EmptOk at he
    unfold runLoop runScan
    dsimp only
    unfold runEnd
    rw [if_neg (by simp)]
    have hd : s.alive = true := by
      cases ha : s.alive with
      | true => rfl
      | false => have := (h.dead ha).2.2.1; simp at this
    refine ⟨h.hist.ended (by simp), h.sorted, h.lastEq, h.front, ?_, by simp, topOk_none (by simp) _, ?_, ?_, ?_, ?_, ?_, ?_⟩
    · have := h.liveEq
      dsimp only at this ⊢
      rw [this]
      cases hs : s.source with
      | none => rfl
      | some x => have := he x hs; subst this; simp
    · intro _
      unfold EmptOk
      split <;> simp
    · intro f hf b' hb
      exact h.old f (by simp [hf]) b' hb
    · intro f hf hz
      exact h.fin f (by simp [hf]) hz
    · intro p f q e hz
      exact h.finBottom (.runDestroy d src b j :: p) f q (by dsimp only at e ⊢; rw [e]; rfl) hz
    · intro ha hr
      obtain ⟨f, hf, hz⟩ := h.refs ha hr
      simp at hf
      rcases hf with rfl | hf
      · simp [Frame.final] at hz
      · exact ⟨f, hf, hz⟩
    · intro ha
      dsimp only at ha
      rw [hd] at ha
      cases ha
  | cons i t ih =>
    rintro last ⟨j, h⟩
    have hd : s.alive = true := by
      cases ha : s.alive with
      | true => rfl
      | false => have := (h.dead ha).2.2.1; simp at this
    have htop : TopOk (i :: t) s.source (some (.runDestroy d src b j)) := h.top
    unfold TopOk at htop
    by_cases hc : i.completed = true
    · have hsrc : s.source = some src := by
        refine Classical.byContradiction fun hne => ?_
        have := htop.1 hne i (by simp)
        rw [hc] at this
        cases this
      have hlast := lastOf_eq h.lastEq
      have hib : i.id < b := htop.2 i (by simp) hc
      have hso := List.pairwise_cons.1 h.sorted
      have hfr := List.pairwise_cons.1 h.front
      -- what doesn't depend on which callback it is
      have common : ∀ (f : Frame) (log : List Event),
          (f = .run d src b i ∨ ∃ j, f = .runDestroy d src b j) →
          Hist t (f :: s.stack) s.nextId s.nextRun log →
          Inv { s with items := t, last := lastOf t last, stack := f :: s.stack, log := log } := by
        intro f log hf hh
        have htop' : TopOk t s.source (some f) := by
          rcases hf with rfl | ⟨j', rfl⟩
          · exact ⟨fun hne => absurd hsrc hne, fun x hx => htop.2 x (by simp [hx])⟩
          · exact ⟨fun hne => absurd hsrc hne, fun x hx => htop.2 x (by simp [hx])⟩
        have hemp : EmptOk s.source (some f) := by
          have hx : ∀ x, s.source = some x → x = src := fun x hx => by
            rw [hsrc] at hx
            exact (Option.some.inj hx).symm
          rcases hf with rfl | ⟨j', rfl⟩
          · exact hx
          · exact hx
        refine ⟨hh, hso.2, hlast, hfr.2, h.liveEq, fun _ => by simp [hsrc], ?_, fun _ => ?_, ?_, ?_, ?_, ?_, ?_⟩
        · dsimp only
          rw [List.find?_cons_of_pos (by rcases hf with rfl | ⟨j', rfl⟩ <;> rfl)]
          exact htop'
        · dsimp only
          rw [List.find?_cons_of_pos (by rcases hf with rfl | ⟨j', rfl⟩ <;> rfl)]
          exact hemp
        · intro g hg b' hb'
          dsimp only at hg
          rw [List.mem_cons] at hg
          rcases hg with rfl | hg
          · have : Frame.bound? (.runDestroy d src b j) = some b' := by
              rcases hf with rfl | ⟨j', rfl⟩ <;> exact hb'
            have := h.old _ (by simp) b' this
            exact ⟨this.1, fun x hx => this.2 x (by simp [hx])⟩
          · have := h.old g (by simp [hg]) b' hb'
            exact ⟨this.1, fun x hx => this.2 x (by simp [hx])⟩
        · intro g hg hz
          dsimp only at hg
          rw [List.mem_cons] at hg
          rcases hg with rfl | hg
          · rcases hf with rfl | ⟨j', rfl⟩ <;> cases hz
          · have := h.fin g (by simp [hg]) hz
            exact ⟨this.1, fun x hx => this.2 x (by simp [hx])⟩
        · intro p g q e hz
          cases p with
          | nil =>
            injection e with e1 e2
            subst e1
            rcases hf with rfl | ⟨j', rfl⟩ <;> cases hz
          | cons a p =>
            injection e with e1 e2
            exact h.finBottom (.runDestroy d src b j :: p) g q (by dsimp only; rw [e2]; rfl) hz
        · intro ha hr
          obtain ⟨g, hg, hz⟩ := h.refs ha hr
          dsimp only at hg
          rw [List.mem_cons] at hg
          rcases hg with rfl | hg
          · cases hz
          · exact ⟨g, by simp [hg], hz⟩
        · intro ha
          dsimp only at ha
          rw [hd] at ha
          cases ha
      by_cases hr : i.run = true
      · have e : runLoop { s with items := i :: t, last := last } d src b =
            { s with items := t, last := lastOf t last, stack := .run d src b i :: s.stack, log := s.log ++ [.run d i.id] } := by
          unfold runLoop
          simp only [runScan, if_pos hc, hr, Bool.true_or, if_true]
        rw [e]
        exact common _ _ (.inl rfl) (h.hist.run hr hib hso.1)
      · have hr' : i.run = false := by simpa using hr
        by_cases hx : i.destroy = true
        · have e : runLoop { s with items := i :: t, last := last } d src b =
              { s with items := t, last := lastOf t last, stack := .runDestroy d src b i :: s.stack, log := s.log ++ [.destroy i.id] } := by
            unfold runLoop
            simp only [runScan, if_pos hc, hr', hx, Bool.or_true, if_true]
            rfl
          rw [e]
          refine common _ _ (.inr ⟨i, rfl⟩) ?_
          have hh := (h.hist.pop (by simp)).runDestroy hr' hx
          refine hh.push (by simp) ?_
          exact FrameOk.append (f := .runDestroy d src b j) (h.hist.frames _ (by simp)) _
        · have hx' : i.destroy = false := by simpa using hx
          have e : runLoop { s with items := i :: t, last := last } d src b =
              runLoop { s with items := t, last := lastOf t last } d src b := by
            conv => lhs; unfold runLoop
            simp only [runScan, if_pos hc, hr', hx', Bool.or_false]
            rfl
          rw [e]
          exact ih _ ⟨j, common _ _ (.inr ⟨j, rfl⟩) (h.hist.drop hr' hx')⟩
    · have hc' : i.completed = false := by simpa using hc
      have hn := none_completed h.front (by intro a q e; injection e with e1 e2; rw [← e1]; exact hc')
      have e : runLoop { s with items := i :: t, last := last } d src b =
          { s with items := i :: t, last := last, log := s.log ++ [.ended d] } := by
        unfold runLoop
        simp only [runScan, hc']
        rfl
      rw [e]
      have hge : ∀ x ∈ i :: t, b ≤ x.id := by
        intro x hx
        refine Classical.byContradiction fun hlt => ?_
        have h1 := (h.old _ (List.mem_cons_self ..) b rfl).2 x hx (by omega)
        rw [hn x hx] at h1
        cases h1
      refine ⟨h.hist.ended hge, h.sorted, h.lastEq, h.front, h.liveEq, h.sched, topOk_none hn _, fun e => (by cases e), ?_, ?_, ?_, ?_, ?_⟩
      · intro f hf b' hb
        exact h.old f (by simp [hf]) b' hb
      · intro f hf hz
        exact h.fin f (by simp [hf]) hz
      · intro p f q e hz
        exact h.finBottom (.runDestroy d src b j :: p) f q (by dsimp only at e ⊢; rw [e]; rfl) hz
      · intro ha hr
        obtain ⟨f, hf, hz⟩ := h.refs ha hr
        simp at hf
        rcases hf with rfl | hf
        · simp [Frame.final] at hz
        · exact ⟨f, hf, hz⟩
      · intro ha
        dsimp only at ha
        rw [hd] at ha
        cases ha

theorem inv_cancelEnd {s : State} {b : Nat} {z : Bool} {items : List Item} {last : Option Nat} {log : List Event} {j : Item}
    (h : Inv { s with items := items, last := last, log := log, stack := .all b z j :: s.stack })
    (hn : ∀ i ∈ items, i.completed = false) :
    ∃ s', cancelEnd { s with items := items, last := last, log := log } b z = .ok s' ∧ Inv s' := by
  have hd : s.alive = true := by
    cases ha : s.alive with
    | true => rfl
    | false => have := (h.dead ha).2.2.1; simp at this
  have hold := h.old _ (List.mem_cons_self ..) b rfl
  have hge : ∀ x ∈ items, b ≤ x.id := by
    intro x hx
    refine Classical.byContradiction fun hlt => ?_
    have h1 := hold.2 x hx (by omega)
    rw [hn x hx] at h1
    cases h1
  have hh : Hist items s.stack s.nextId s.nextRun (log ++ [.allDone b]) := by
    refine (h.hist.pop (by simp)).event rfl rfl rfl (by simp) (by simp) ?_ (h.hist.frames (.all b z j) (by simp))
    intro b' e
    injection e with e
    subst e
    exact ⟨hold.1, hge⟩
  have hz : z = true → items = [] ∧ s.stack = [] ∧ s.refs = 0 := by
    intro hz
    have h1 := h.fin _ (List.mem_cons_self ..) hz
    refine ⟨?_, h.finBottom [] _ _ rfl hz, h1.1⟩
    cases items with
    | nil => rfl
    | cons a t =>
      have h2 := h1.2 a (by simp)
      rw [hn a (by simp)] at h2
      cases h2
  -- what's the same in both cases
  have common : ∀ (source : Option Nat) (live : List Nat), live = source.toList → (items ≠ [] → source ≠ none) →
      (items = [] → source = none) →
      Inv { s with items := items, last := last, log := log ++ [.allDone b], source := source, live := live, alive := !z } := by
    intro source live h1 h2 h3
    refine ⟨hh, h.sorted, h.lastEq, h.front, h1, h2, topOk_none hn _, ?_, ?_, ?_, ?_, ?_, ?_⟩
    · intro he
      dsimp only at he ⊢
      rw [h3 he]
      unfold EmptOk
      split <;> simp
    · intro f hf b' hb
      exact h.old f (by simp [hf]) b' hb
    · intro f hf hz
      exact h.fin f (by simp [hf]) hz
    · intro p f q e hz
      exact h.finBottom (.all b z j :: p) f q (by dsimp only at e ⊢; rw [e]; rfl) hz
    · intro ha hr
      obtain ⟨f, hf, hf'⟩ := h.refs hd hr
      dsimp only at hf ha
      rw [List.mem_cons] at hf
      rcases hf with rfl | hf
      · have : z = true := hf'
        subst this
        cases ha
      · exact ⟨f, hf, hf'⟩
    · intro ha
      have ha' : z = true := by simpa using ha
      obtain ⟨h4, h5, h6⟩ := hz ha'
      exact ⟨h4, h3 h4, h5, h6⟩
  unfold cancelEnd clearIfEmpty
  by_cases he : items = []
  · rw [if_pos he]
    unfold State.clearSource
    dsimp only
    cases hs : s.source with
    | none =>
      refine ⟨_, rfl, ?_⟩
      have := common none s.live (by have := h.liveEq; simpa [hs] using this) (fun hc => absurd he hc) (fun _ => rfl)
      exact this
    | some x =>
      have hl : s.live = [x] := by have := h.liveEq; simpa [hs] using this
      dsimp only
      rw [hl, if_pos (by simp)]
      exact ⟨_, rfl, common none _ (by simp) (fun hc => absurd he hc) (fun _ => rfl)⟩
  · rw [if_neg he]
    exact ⟨_, rfl, common s.source s.live h.liveEq h.sched (fun hc => absurd hc he)⟩

theorem inv_cancelLoop {s : State} {b : Nat} {z : Bool} (items : List Item) :
    ∀ last log, (∃ j, Inv { s with items := items, last := last, log := log, stack := .all b z j :: s.stack }) →
    ∃ s', cancelLoop { s with items := items, last := last, log := log } b z = .ok s' ∧ Inv s' := by
  induction items with
  | nil =>
    rintro last log ⟨j, h⟩
    unfold cancelLoop
    simp only [cancelScan, List.map_nil, List.append_nil]
    exact inv_cancelEnd h (by simp)
  | cons i t ih =>
    rintro last log ⟨j, h⟩
    by_cases hc : i.completed = true
    · have hlast := lastOf_eq h.lastEq
      have hso := List.pairwise_cons.1 h.sorted
      have hfr := List.pairwise_cons.1 h.front
      have common : ∀ (j' : Item) (log' : List Event), Hist t (.all b z j' :: s.stack) s.nextId s.nextRun log' →
          Inv { s with items := t, last := lastOf t last, log := log', stack := .all b z j' :: s.stack } := by
        intro j' log' hh
        refine ⟨hh, hso.2, hlast, hfr.2, h.liveEq, fun _ => h.sched (by simp), ?_, fun _ => ?_, ?_, ?_, ?_, ?_, ?_⟩
        · trivial
        · trivial
        · intro g hg b' hb'
          dsimp only at hg
          rw [List.mem_cons] at hg
          rcases hg with rfl | hg
          · have := h.old (.all b z j) (by simp) b' hb'
            exact ⟨this.1, fun x hx => this.2 x (by simp [hx])⟩
          · have := h.old g (by simp [hg]) b' hb'
            exact ⟨this.1, fun x hx => this.2 x (by simp [hx])⟩
        · intro g hg hz
          dsimp only at hg
          rw [List.mem_cons] at hg
          rcases hg with rfl | hg
          · have := h.fin (.all b z j) (by simp) hz
            exact ⟨this.1, fun x hx => this.2 x (by simp [hx])⟩
          · have := h.fin g (by simp [hg]) hz
            exact ⟨this.1, fun x hx => this.2 x (by simp [hx])⟩
        · intro p g q e hz
          cases p with
          | nil =>
            injection e with e1 e2
            subst e1
            exact h.finBottom [] (.all b z j) q (by dsimp only; rw [e2]; rfl) hz
          | cons a p =>
            injection e with e1 e2
            exact h.finBottom (.all b z j :: p) g q (by dsimp only; rw [e2]; rfl) hz
        · intro ha hr
          obtain ⟨g, hg, hz⟩ := h.refs ha hr
          dsimp only at hg
          rw [List.mem_cons] at hg
          rcases hg with rfl | hg
          · exact ⟨.all b z j', by simp, hz⟩
          · exact ⟨g, by simp [hg], hz⟩
        · intro ha
          have := (h.dead ha).2.2.1
          simp at this
      by_cases hd : i.destroy = true
      · have e : cancelLoop { s with items := i :: t, last := last, log := log } b z =
            .ok { s with items := t, last := lastOf t last, stack := .all b z i :: s.stack
                         log := log ++ [.cancel i.id, .destroy i.id] } := by
          unfold cancelLoop
          simp only [cancelScan, if_pos hc, if_pos hd, List.map_nil, List.append_nil]
        refine ⟨_, e, common i _ ?_⟩
        have hh := (h.hist.pop (by simp)).cancelDestroy (p := []) hd
        refine hh.push (by simp) ?_
        exact FrameOk.append (f := .all b z j) (h.hist.frames _ (by simp)) _
      · have hd' : i.destroy = false := by simpa using hd
        have e : cancelLoop { s with items := i :: t, last := last, log := log } b z =
            cancelLoop { s with items := t, last := lastOf t last, log := log ++ [.cancel i.id] } b z := by
          conv => lhs; unfold cancelLoop
          conv => rhs; unfold cancelLoop
          simp only [cancelScan, if_pos hc, if_neg hd]
          rcases hcs : cancelScan t (lastOf t last) with ⟨its, lst, gone, stop⟩
          cases stop <;> simp
        rw [e]
        refine ih _ _ ⟨j, common j _ ?_⟩
        exact h.hist.cancel (p := []) hd'
    · have hc' : i.completed = false := by simpa using hc
      have hn := none_completed h.front (by intro a q e; injection e with e1 e2; rw [← e1]; exact hc')
      have e : cancelScan (i :: t) last = (i :: t, last, [], none) := by rw [cancelScan, if_neg hc]
      unfold cancelLoop
      simp only [e, List.map_nil, List.append_nil]
      exact inv_cancelEnd h hn

/-! ## The rest of it -/

/-- The stack of frames, irrespectively of the items -/
structure FramesOk (refs n : Nat) (alive : Bool) (items : List Item) (stack : List Frame) : Prop where
  old : ∀ f ∈ stack, ∀ b, f.bound? = some b → b ≤ n ∧ ∀ i ∈ items, i.id < b → i.completed = true
  fin : ∀ f ∈ stack, f.final = true → refs = 0 ∧ ∀ i ∈ items, i.completed = true
  finBottom : ∀ p f q, stack = p ++ f :: q → f.final = true → q = []
  refs : alive = true → refs = 0 → ∃ f ∈ stack, f.final = true

theorem Inv.framesOk {s : State} (h : Inv s) : FramesOk s.refs s.nextId s.alive s.items s.stack :=
  ⟨h.old, h.fin, h.finBottom, h.refs⟩

theorem FramesOk.mono {refs n : Nat} {alive : Bool} {items items' : List Item} {stack : List Frame}
    (h : FramesOk refs n alive items stack) (hs : ∀ i ∈ items', i ∈ items) : FramesOk refs n alive items' stack :=
  ⟨fun f hf b hb => ⟨(h.old f hf b hb).1, fun i hi => (h.old f hf b hb).2 i (hs i hi)⟩,
   fun f hf hz => ⟨(h.fin f hf hz).1, fun i hi => (h.fin f hf hz).2 i (hs i hi)⟩, h.finBottom, h.refs⟩

theorem FramesOk.push {refs n : Nat} {alive : Bool} {items : List Item} {stack : List Frame} {f : Frame}
    (h : FramesOk refs n alive items stack) (h1 : f.final = false)
    (h2 : ∀ b, f.bound? = some b → b ≤ n ∧ ∀ i ∈ items, i.id < b → i.completed = true) :
    FramesOk refs n alive items (f :: stack) := by
  refine ⟨?_, ?_, ?_, ?_⟩
  · intro g hg
    rw [List.mem_cons] at hg
    rcases hg with rfl | hg
    · exact h2
    · exact h.old g hg
  · intro g hg hz
    rw [List.mem_cons] at hg
    rcases hg with rfl | hg
    · rw [h1] at hz; cases hz
    · exact h.fin g hg hz
  · intro p g q e hz
    cases p with
    | nil =>
      injection e with e1 e2
      rw [← e1, h1] at hz
      cases hz
    | cons a p =>
      injection e with e1 e2
      exact h.finBottom p g q e2 hz
  · intro ha hr
    obtain ⟨g, hg, hz⟩ := h.refs ha hr
    exact ⟨g, by simp [hg], hz⟩

theorem FramesOk.pop {refs n : Nat} {alive : Bool} {items : List Item} {stack : List Frame} {f : Frame}
    (h : FramesOk refs n alive items (f :: stack)) (h1 : f.final = false) : FramesOk refs n alive items stack := by
  refine ⟨fun g hg => h.old g (by simp [hg]), fun g hg => h.fin g (by simp [hg]), ?_, ?_⟩
  · intro p g q e hz
    exact h.finBottom (f :: p) g q (by rw [e]; rfl) hz
  · intro ha hr
    obtain ⟨g, hg, hz⟩ := h.refs ha hr
    rw [List.mem_cons] at hg
    rcases hg with rfl | hg
    · rw [h1] at hz; cases hz
    · exact ⟨g, hg, hz⟩

theorem Inv.alive {s : State} (h : Inv s) (hs : s.stack ≠ []) : s.alive = true := by
  cases ha : s.alive with
  | true => rfl
  | false => exact absurd (h.dead ha).2.2.1 hs

theorem Inv.alive' {s : State} (h : Inv s) (hs : 0 < s.refs) : s.alive = true := by
  cases ha : s.alive with
  | true => rfl
  | false => have := (h.dead ha).2.2.2; omega

theorem access_ok {s : State} (h : s.alive = true) : s.access = .ok () := by
  unfold State.access
  rw [if_pos h]

theorem markAll_completed {items : List Item} : ∀ i ∈ markAll items, i.completed = true := by
  intro i hi
  obtain ⟨y, _, rfl⟩ := markAll_mem hi
  rfl

theorem markAll_sorted {items : List Item} (h : items.Pairwise (fun a b => a.id < b.id)) :
    (markAll items).Pairwise (fun a b => a.id < b.id) := by
  unfold markAll
  rw [List.pairwise_map]
  exact h

theorem markAll_last {items : List Item} : (markAll items).getLast?.map Item.id = items.getLast?.map Item.id := by
  unfold markAll
  rw [List.getLast?_map]
  cases items.getLast? <;> rfl

theorem markAll_front {items : List Item} :
    (markAll items).Pairwise (fun a b => b.completed = true → a.completed = true) := by
  rw [List.pairwise_iff_forall_sublist]
  intro a b hab _
  exact markAll_completed a (hab.subset (by simp))

theorem markAll_nil {items : List Item} : markAll items = [] ↔ items = [] := by simp [markAll]

/-- After marking all the items -/
theorem inv_mark {s : State} {f : Frame} {e : Event} {m refs : Nat} (h : Inv s) (ha : s.alive = true)
    (hh : Hist (markAll s.items) (f :: s.stack) s.nextId m (s.log ++ [e]))
    (hl : f.isLoop = true) (hb : f.bound? = some s.nextId)
    (ht : ∀ d src b i, f = .run d src b i ∨ f = .runDestroy d src b i → s.source = some src)
    (hr : f.final = true → refs = 0 ∧ s.stack = []) (hr' : f.final = false → refs = s.refs) :
    Inv { s with items := markAll s.items, refs := refs, nextRun := m, log := s.log ++ [e], stack := f :: s.stack } := by
  have hids := h.hist.ids
  have hm : ∀ i ∈ markAll s.items, i.id < s.nextId := by
    intro i hi
    obtain ⟨y, hy, rfl⟩ := markAll_mem hi
    exact hids y hy
  have hc : f.clears = true := by cases f <;> simp_all [Frame.isLoop, Frame.clears]
  refine ⟨hh, markAll_sorted h.sorted, ?_, markAll_front, h.liveEq, ?_, ?_, ?_, ?_, ?_, ?_, ?_, ?_⟩
  · dsimp only
    rw [markAll_last]
    exact h.lastEq
  · intro hne
    exact h.sched (fun hc => hne (markAll_nil.2 hc))
  · dsimp only
    rw [List.find?_cons_of_pos hl]
    cases f with
    | run d src b i => 
      have := ht d src b i (.inl rfl)
      injection hb with hb
      subst hb
      exact ⟨fun hn => absurd this hn, fun i hi _ => hm i hi⟩
    | runDestroy d src b i => 
      have := ht d src b i (.inr rfl)
      injection hb with hb
      subst hb
      exact ⟨fun hn => absurd this hn, fun i hi _ => hm i hi⟩
    | _ => trivial
  · intro _
    dsimp only
    rw [List.find?_cons_of_pos hc]
    cases f with
    | run d src b i => 
      have := ht d src b i (.inl rfl)
      intro x hx
      rw [this] at hx
      exact (Option.some.inj hx).symm
    | runDestroy d src b i => 
      have := ht d src b i (.inr rfl)
      intro x hx
      rw [this] at hx
      exact (Option.some.inj hx).symm
    | _ => trivial
  · intro g hg b' hb'
    dsimp only at hg
    rw [List.mem_cons] at hg
    rcases hg with rfl | hg
    · rw [hb] at hb'
      injection hb' with hb'
      subst hb'
      exact ⟨Nat.le_refl _, fun i hi _ => markAll_completed i hi⟩
    · exact ⟨(h.old g hg b' hb').1, fun i hi _ => markAll_completed i hi⟩
  · intro g hg hz
    dsimp only at hg
    rw [List.mem_cons] at hg
    rcases hg with rfl | hg
    · exact ⟨(hr hz).1, markAll_completed⟩
    · refine ⟨?_, markAll_completed⟩
      cases hf : f.final with
      | true => exact (hr hf).1
      | false => dsimp only; rw [hr' hf]; exact (h.fin g hg hz).1
  · intro p g q e hz
    cases p with
    | nil =>
      injection e with e1 e2
      subst e1
      rw [← e2]
      exact (hr hz).2
    | cons a p =>
      injection e with e1 e2
      exact h.finBottom p g q e2 hz
  · intro _ hz
    cases hf : f.final with
    | true => exact ⟨f, by simp, hf⟩
    | false =>
      have : s.refs = 0 := by rw [← hr' hf]; exact hz
      obtain ⟨g, hg, hz⟩ := h.refs ha this
      exact ⟨g, by simp [hg], hz⟩
  · intro ha'
    dsimp only at ha'
    rw [ha] at ha'
    cases ha'

/-- An item, for the purpose of the proof -/
def dummy : Item := ⟨0, 0, false, false, false⟩

theorem inv_dispatch {s : State} {src : Nat} (h : Inv s) (hl : src ∈ s.live) :
    ∃ s', dispatch s src = .ok s' ∧ Inv s' := by
  have hs : s.source = some src := by
    have := h.liveEq
    rw [this] at hl
    simpa using hl
  have ha : s.alive = true := by
    cases ha : s.alive with
    | true => rfl
    | false => have := (h.dead ha).2.1; rw [hs] at this; cases this
  unfold dispatch
  rw [access_ok ha, ok_bind]
  refine ⟨_, rfl, ?_⟩
  refine inv_runLoop (s := { s with nextRun := s.nextRun + 1, log := s.log ++ [.begin s.nextRun] }) (markAll s.items) s.last ⟨dummy, ?_⟩
  refine inv_mark h ha ?_ rfl rfl ?_ (by simp [Frame.final]) (fun _ => rfl)
  · refine h.hist.markAll.begin.push (by simp) ?_
    exact ⟨s.log, At.last _ _, h.hist.adds⟩
  · intro d src' b i e
    rcases e with e | e
    · cases e
    · injection e with _ e
      subst e
      exact hs

theorem inv_cancelAll {s : State} {z : Bool} {refs : Nat} (h : Inv s) (ha : s.alive = true)
    (hr : z = true → refs = 0 ∧ s.stack = []) (hr' : z = false → refs = s.refs) :
    ∃ s', cancelAll { s with refs := refs } z = .ok s' ∧ Inv s' := by
  unfold cancelAll
  refine inv_cancelLoop (s := { s with refs := refs }) (markAll s.items) s.last _ ⟨dummy, ?_⟩
  refine inv_mark (s := s) (m := s.nextRun) (refs := refs) h ha ?_ rfl rfl ?_ hr hr'
  · refine Hist.push (h.hist.markAll.event rfl rfl rfl (by simp) (by simp) (by simp) h.hist.adds) (by simp) ?_
    exact ⟨s.log, At.last _ _⟩
  · intro d src' b i e
    rcases e with e | e <;> cases e

/-- After removing an item from anywhere -/
theorem inv_remove {s : State} {p q : List Item} {x : Item} {last : Option Nat} (h : Inv s) (ha : s.alive = true)
    (e : s.items = p ++ x :: q) (hl : last = (p ++ q).getLast?.map Item.id) {stack : List Frame} {log : List Event}
    (hs : stack = s.stack ∧ p ≠ [] ∨ (stack = .tagOther x :: s.stack ∧ p ≠ []) ∨ stack = .tagFirst x :: s.stack)
    (hh : Hist (p ++ q) s.stack s.nextId s.nextRun log) :
    Inv { s with items := p ++ q, last := last, stack := stack, log := log } := by
  have hsub : (p ++ q).Sublist s.items := by
    rw [e]
    exact List.Sublist.append_left (List.sublist_cons_self x q) p
  have hsub' : ∀ i ∈ p ++ q, i ∈ s.items := fun i hi => hsub.subset hi
  have hfr := h.framesOk.mono hsub'
  have hfr' : FramesOk s.refs s.nextId s.alive (p ++ q) stack := by
    rcases hs with ⟨rfl, _⟩ | ⟨rfl, _⟩ | rfl
    · exact hfr
    · exact hfr.push rfl (by simp [Frame.bound?])
    · exact hfr.push rfl (by simp [Frame.bound?])
  have hh' : Hist (p ++ q) stack s.nextId s.nextRun log := by
    rcases hs with ⟨rfl, _⟩ | ⟨rfl, _⟩ | rfl
    · exact hh
    · exact hh.push (by simp) trivial
    · exact hh.push (by simp) trivial
  have ht := h.top.mono hsub'
  refine ⟨hh', h.sorted.sublist hsub, hl, h.front.sublist hsub, h.liveEq, ?_, ?_, ?_, hfr'.old, hfr'.fin, hfr'.finBottom, hfr'.refs, ?_⟩
  · intro _
    exact h.sched (by rw [e]; simp)
  · rcases hs with ⟨rfl, _⟩ | ⟨rfl, _⟩ | rfl
    · exact ht
    · exact ht
    · exact ht
  · intro he
    have he' : p = [] := (List.append_eq_nil_iff.1 he).1
    rcases hs with ⟨_, hp⟩ | ⟨_, hp⟩ | rfl
    · exact absurd he' hp
    · exact absurd he' hp
    · trivial
  · intro ha'
    dsimp only at ha'
    rw [ha] at ha'
    cases ha'

/-- The end of `gutil_idle_queue_cancel_tag` for the first item -/
theorem inv_tagEnd {s : State} {items : List Item} {last : Option Nat} {log : List Event} {x : Item}
    (h : Inv { s with items := items, last := last, log := log, stack := .tagFirst x :: s.stack }) :
    ∃ s', clearIfEmpty { s with items := items, last := last, log := log } = .ok s' ∧ Inv s' := by
  have hd : s.alive = true := h.alive (by simp)
  have hfr := h.framesOk.pop rfl
  have hh := h.hist.pop (by simp)
  unfold clearIfEmpty
  have hdead : ∀ a, s.alive = false → a := fun _ ha => by rw [hd] at ha; cases ha
  by_cases he : items = []
  · rw [if_pos he]
    unfold State.clearSource
    dsimp only
    have common : ∀ live, live = [] → Inv { s with items := items, last := last, log := log, source := none, live := live } := by
      intro live hl
      refine ⟨hh, h.sorted, h.lastEq, h.front, hl, fun hc => absurd he hc, topOk_none (by simp [he]) _, fun _ => ?_,
        hfr.old, hfr.fin, hfr.finBottom, hfr.refs, hdead _⟩
      unfold EmptOk
      split <;> simp
    cases hs : s.source with
    | none => exact ⟨_, rfl, common s.live (by have := h.liveEq; simpa [hs] using this)⟩
    | some y =>
      have hl : s.live = [y] := by have := h.liveEq; simpa [hs] using this
      dsimp only
      rw [hl, if_pos (by simp)]
      exact ⟨_, rfl, common _ (by simp)⟩
  · rw [if_neg he]
    exact ⟨_, rfl, hh, h.sorted, h.lastEq, h.front, h.liveEq, h.sched, h.top, fun hc => absurd hc he,
      hfr.old, hfr.fin, hfr.finBottom, hfr.refs, hdead _⟩

theorem removeTag_some {tag : Nat} {l : List Item} : ∀ {prev : Item} {last : Option Nat} {x : Item} {l' : List Item} {last' : Option Nat},
    removeTag tag prev l last = some (x, l', last') →
    ∃ p q, l = p ++ x :: q ∧ l' = p ++ q ∧ x.tag = tag ∧ (∀ y ∈ p, y.tag ≠ tag) ∧
      (last = (prev :: l).getLast?.map Item.id → last' = (prev :: l').getLast?.map Item.id) := by
  induction l with
  | nil => intro prev last x l' last' h; simp [removeTag] at h
  | cons a t ih =>
    intro prev last x l' last' h
    rw [removeTag] at h
    split at h
    · rename_i ht
      injection h with h
      injection h with h1 h
      injection h with h2 h3
      subst h1 h2 h3
      refine ⟨[], _, rfl, rfl, ht, by simp, ?_⟩
      intro hl
      cases t with
      | nil => simp
      | cons b t => rw [hl]; simp
    · rename_i ht
      split at h
      · rename_i y t' last'' hr
        injection h with h
        injection h with h1 h
        injection h with h2 h3
        subst h1 h2 h3
        obtain ⟨p, q, e1, e2, e3, e4, e5⟩ := ih hr
        refine ⟨a :: p, q, by rw [e1]; rfl, by rw [e2]; rfl, e3, ?_, ?_⟩
        · intro z hz
          rw [List.mem_cons] at hz
          rcases hz with rfl | hz
          · exact ht
          · exact e4 z hz
        · intro hl
          rw [List.getLast?_cons_cons] at hl ⊢
          exact e5 hl
      · cases h

theorem removeTag_none {tag : Nat} {l : List Item} : ∀ {prev : Item} {last : Option Nat},
    removeTag tag prev l last = none → ∀ y ∈ l, y.tag ≠ tag := by
  induction l with
  | nil => simp
  | cons a t ih =>
    intro prev last h y hy
    rw [removeTag] at h
    split at h
    · cases h
    · rename_i ht
      split at h
      · cases h
      · rename_i hr
        rw [List.mem_cons] at hy
        rcases hy with rfl | hy
        · exact ht
        · exact ih hr y hy

theorem inv_cancelTag {s : State} {tag : Nat} (h : Inv s) (ha : s.alive = true) :
    ∃ s' b, cancelTag s tag = .ok (s', b) ∧ Inv s' := by
  unfold cancelTag
  cases hi : s.items with
  | nil => exact ⟨_, _, rfl, h⟩
  | cons i t =>
    dsimp only
    by_cases ht : i.tag = tag
    · rw [if_pos ht]
      unfold itemDestroy
      have hlast : lastOf t s.last = t.getLast?.map Item.id := lastOf_eq (i := i) (by rw [← hi]; exact h.lastEq)
      have hh : Hist ([] ++ i :: t) s.stack s.nextId s.nextRun s.log := by have := h.hist; rw [hi] at this; exact this
      by_cases hd : i.destroy = true
      · rw [if_pos hd, ok_bind]
        refine ⟨_, _, rfl, ?_⟩
        exact inv_remove (p := []) h ha hi hlast (.inr (.inr rfl)) (hh.cancelDestroy hd)
      · rw [if_neg hd]
        have hd' : i.destroy = false := by simpa using hd
        obtain ⟨s', e, hs'⟩ := inv_tagEnd (inv_remove (p := []) h ha hi hlast (.inr (.inr rfl)) (hh.cancel hd'))
        dsimp only at e ⊢
        rw [List.nil_append] at e
        rw [e, ok_bind]
        exact ⟨_, _, rfl, hs'⟩
    · rw [if_neg ht]
      cases hr : removeTag tag i t s.last with
      | none => exact ⟨_, _, rfl, h⟩
      | some r =>
        obtain ⟨x, t', last'⟩ := r
        obtain ⟨p, q, e1, e2, e3, e4, e5⟩ := removeTag_some hr
        have hlast := e5 (by rw [← hi]; exact h.lastEq)
        have hi' : s.items = (i :: p) ++ x :: q := by rw [hi, e1]; rfl
        have hh : Hist ((i :: p) ++ x :: q) s.stack s.nextId s.nextRun s.log := by have := h.hist; rw [hi'] at this; exact this
        dsimp only
        subst e2
        unfold itemDestroy
        by_cases hd : x.destroy = true
        · rw [if_pos hd, ok_bind]
          refine ⟨_, _, rfl, ?_⟩
          exact inv_remove (p := i :: p) h ha hi' hlast (.inr (.inl ⟨rfl, by simp⟩)) (hh.cancelDestroy hd)
        · rw [if_neg hd, ok_bind]
          have hd' : x.destroy = false := by simpa using hd
          exact ⟨_, _, rfl, inv_remove (p := i :: p) h ha hi' hlast (.inl ⟨rfl, by simp⟩) (hh.cancel hd')⟩

theorem append_ok {items : List Item} {last : Option Nat} {x : Item} (h : last = items.getLast?.map Item.id)
    (hs : items.Pairwise (fun a b => a.id < b.id)) : append items last x = .ok (items ++ [x]) := by
  rcases List.eq_nil_or_concat items with rfl | ⟨p, l, rfl⟩
  · rw [h]; rfl
  · rw [List.concat_eq_append] at h hs ⊢
    rw [h, List.getLast?_concat]
    have e : (p ++ [l]).findIdx? (fun i => i.id == l.id) = some p.length := by
      rw [List.findIdx?_eq_some_iff_getElem]
      refine ⟨by simp, by simp, ?_⟩
      intro j hj
      rw [List.pairwise_append] at hs
      rw [List.getElem_append_left hj]
      have := hs.2.2 p[j] (List.getElem_mem hj) l (by simp)
      simp
      omega
    simp only [append, Option.map_some, e]
    rw [List.take_of_length_le (by simp)]

theorem inv_add {s : State} {tag : Nat} {r x : Bool} (h : Inv s) (hr : 0 < s.refs) :
    ∃ s', add s tag r x = .ok s' ∧ Inv s' := by
  have ha := h.alive' hr
  unfold add
  rw [append_ok h.lastEq h.sorted, ok_bind]
  refine ⟨_, rfl, ?_⟩
  have hids := h.hist.ids
  have hso : (s.items ++ [(⟨s.nextId, tag, r, x, false⟩ : Item)]).Pairwise (fun a b => a.id < b.id) := by
    rw [List.pairwise_append]
    refine ⟨h.sorted, by simp, ?_⟩
    intro a ha b hb
    rw [List.mem_singleton] at hb
    subst hb
    exact hids a ha
  have hfr : (s.items ++ [(⟨s.nextId, tag, r, x, false⟩ : Item)]).Pairwise (fun a b => b.completed = true → a.completed = true) := by
    rw [List.pairwise_append]
    refine ⟨h.front, by simp, ?_⟩
    intro a ha b hb hc
    rw [List.mem_singleton] at hb
    subst hb
    cases hc
  have hF : FramesOk s.refs (s.nextId + 1) s.alive (s.items ++ [⟨s.nextId, tag, r, x, false⟩]) s.stack := by
    refine ⟨?_, ?_, h.finBottom, h.refs⟩
    · intro f hf b hb
      have := h.old f hf b hb
      refine ⟨by omega, ?_⟩
      intro i hi hlt
      rw [List.mem_append, List.mem_singleton] at hi
      rcases hi with hi | rfl
      · exact this.2 i hi hlt
      · dsimp only at hlt; omega
    · intro f hf hz
      have := (h.fin f hf hz).1
      omega
  have hdead : ∀ a, s.alive = false → a := fun _ ha' => by rw [ha] at ha'; cases ha'
  unfold schedule
  dsimp only
  cases hs : s.source with
  | some y =>
    dsimp only
    refine ⟨h.hist.add tag r x, hso, by simp, hfr, (by rw [← hs]; exact h.liveEq), (by simp), ?_, fun e => absurd e (by simp),
      hF.old, hF.fin, hF.finBottom, hF.refs, hdead _⟩
    have ht := h.top
    dsimp only
    rw [← hs]
    unfold TopOk at ht ⊢
    split <;> simp_all <;> grind
  | none =>
    have hi : s.items = [] := by
      refine Classical.byContradiction fun hc => h.sched hc hs
    have hl : s.live = [] := by have := h.liveEq; simpa [hs] using this
    dsimp only
    refine ⟨h.hist.add tag r x, hso, by simp, hfr, (by simp [hl]), (by simp), ?_, fun e => absurd e (by simp),
      hF.old, hF.fin, hF.finBottom, hF.refs, hdead _⟩
    exact topOk_none (by simp [hi]) _

theorem inv_ret {s : State} (h : Inv s) (hs : s.stack ≠ []) : ∃ s', ret s = .ok s' ∧ Inv s' := by
  have ha := h.alive hs
  unfold ret
  cases e : s.stack with
  | nil => exact absurd e hs
  | cons f rest =>
    have h' : Inv { s with stack := f :: rest } := by rw [← e]; exact h
    cases f with
    | run d src b i =>
      dsimp only
      unfold afterRun
      -- the same state with the callback done
      have key : ∀ log, Hist s.items (.runDestroy d src b i :: rest) s.nextId s.nextRun log →
          Inv { s with stack := .runDestroy d src b i :: rest, log := log } := by
        intro log hh
        have hf := (h'.framesOk.pop (f := .run d src b i) rfl).push (f := .runDestroy d src b i) rfl
          (h'.old (.run d src b i) (by simp))
        refine ⟨hh, h.sorted, h.lastEq, h.front, h.liveEq, h.sched, h'.top, h'.empt, hf.old, hf.fin, hf.finBottom, hf.refs, ?_⟩
        intro ha'
        dsimp only at ha'
        rw [ha] at ha'
        cases ha'
      by_cases hd : i.destroy = true
      · rw [if_pos hd]
        exact ⟨_, rfl, key _ (h'.hist.afterRun hd)⟩
      · rw [if_neg hd, access_ok (by exact ha), ok_bind]
        have hd' : i.destroy = false := by simpa using hd
        exact ⟨_, rfl, inv_runLoop (s := { s with stack := rest }) s.items s.last ⟨i, key s.log (h'.hist.afterRun' hd')⟩⟩
    | runDestroy d src b i =>
      dsimp only
      rw [access_ok ha, ok_bind]
      exact ⟨_, rfl, inv_runLoop (s := { s with stack := rest }) s.items s.last ⟨i, h'⟩⟩
    | tagFirst x =>
      dsimp only
      rw [access_ok ha, ok_bind]
      exact inv_tagEnd (s := { s with stack := rest }) h'
    | tagOther x =>
      refine ⟨_, rfl, ?_⟩
      have hf := h'.framesOk.pop (f := .tagOther x) rfl
      refine ⟨h'.hist.pop (by simp), h.sorted, h.lastEq, h.front, h.liveEq, h.sched, h'.top, h'.empt, hf.old, hf.fin, hf.finBottom, hf.refs, ?_⟩
      intro ha'
      dsimp only at ha'
      rw [ha] at ha'
      cases ha'
    | all b z x =>
      dsimp only
      rw [access_ok ha, ok_bind]
      exact inv_cancelLoop (s := { s with stack := rest }) s.items s.last s.log ⟨x, h'⟩

theorem inv_refs {s : State} {n : Nat} (h : Inv s) (h0 : 0 < s.refs) (hn : 0 < n) : Inv { s with refs := n } := by
  refine ⟨h.hist, h.sorted, h.lastEq, h.front, h.liveEq, h.sched, h.top, h.empt, h.old, ?_, h.finBottom, ?_, ?_⟩
  · intro f hf hz
    have := (h.fin f hf hz).1
    omega
  · intro _ hr
    dsimp only at hr
    omega
  · intro ha
    have := h.alive' h0
    dsimp only at ha
    rw [this] at ha
    cases ha

theorem inv_step {s : State} {a : Act} (h : Inv s) (ha : Allowed s a) : ∃ s', step s a = .ok s' ∧ Inv s' := by
  cases a with
  | add tag r x =>
    have hr : 0 < s.refs := ha
    unfold step
    dsimp only
    rw [access_ok (h.alive' hr), ok_bind]
    exact inv_add h hr
  | cancelTag tag =>
    have hr : 0 < s.refs := ha
    obtain ⟨s', b, e, hs'⟩ := inv_cancelTag (tag := tag) h (h.alive' hr)
    unfold step
    dsimp only
    rw [access_ok (h.alive' hr), ok_bind, e, ok_bind]
    exact ⟨s', rfl, hs'⟩
  | cancelAll =>
    have hr : 0 < s.refs := ha
    unfold step
    dsimp only
    rw [access_ok (h.alive' hr), ok_bind]
    exact inv_cancelAll (refs := s.refs) (z := false) h (h.alive' hr) (by simp) (fun _ => rfl)
  | ref =>
    have hr : 0 < s.refs := ha
    unfold step
    dsimp only
    rw [access_ok (h.alive' hr), ok_bind]
    exact ⟨_, rfl, inv_refs h hr (by omega)⟩
  | unref =>
    have hr : 2 ≤ s.refs ∨ (s.refs = 1 ∧ s.stack = []) := ha
    have hr0 : 0 < s.refs := by omega
    unfold step
    dsimp only
    rw [access_ok (h.alive' hr0), ok_bind]
    unfold unref
    rcases hr with hr | ⟨hr, hs⟩
    · rw [if_neg (by omega)]
      exact ⟨_, rfl, inv_refs h hr0 (by omega)⟩
    · rw [if_pos hr]
      exact inv_cancelAll (refs := 0) (z := true) h (h.alive' hr0) (fun _ => ⟨rfl, hs⟩) (by simp)
  | dispatch src => exact inv_dispatch h ha.1
  | ret => exact inv_ret h ha

end Verif.Idle
