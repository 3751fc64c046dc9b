import Verif.Props.IdleQueue
import Verif.Proof.IdleTrace

/-!
# Cancelled items leave no trace: C150
-/

namespace Verif.Idle
open Verif.C

theorem shift_inj (n : Nat) : ∀ a b, shift n a = shift n b → a = b := by
  intro a b h
  unfold shift at h
  split at h <;> split at h <;> omega

/-- Adding an item and cancelling it: the client's actions, including the return from its `destroy` (if it has one) -/
def addAndCancel (tag : Nat) (r x : Bool) : List Act := [.add tag r x, .cancelTag tag] ++ if x then [.ret] else []

theorem legal_cons {s t : State} {a : Act} {l : List Act} (h1 : Allowed s a) (h2 : step s a = .ok t) (h3 : legal t l = true) :
    legal s (a :: l) = true := by
  rw [legal, if_pos h1, h2]; exact h3

theorem exec_cons {s t : State} {a : Act} {l : List Act} {r : M State} (h1 : step s a = .ok t) (h2 : exec t l = r) : exec s (a :: l) = r := by
  rw [exec, h1]; exact h2

theorem removeTag_new (tag : Nat) (x : Item) (hx : x.tag = tag) : ∀ (prev : Item) (t : List Item) (last : Option Nat), (∀ i ∈ t, i.tag ≠ tag) →
    removeTag tag prev (t ++ [x]) last = some (x, t, (prev :: t).getLast?.map Item.id)
  | prev, [], last, _ => by
    rw [List.nil_append, removeTag, if_pos hx]; rfl
  | prev, i :: t, last, h => by
    rw [List.cons_append, removeTag, if_neg (h i List.mem_cons_self), removeTag_new tag x hx i t last (fun j hj => h j (List.mem_cons_of_mem _ hj))]
    simp [List.getLast?_cons_cons]

theorem cancel_new (tag : Nat) (r x : Bool) (s : State) (h : Inv s) (hr : 0 < s.refs) (hs : s.items ≠ [] ∨ s.stack = [])
    (ht : ∀ i ∈ s.items, i.tag ≠ tag) :
    ∃ s3, legal s (addAndCancel tag r x) = true ∧ exec s (addAndCancel tag r x) = .ok s3 ∧
      s3 = { s with nextId := s.nextId + 1, nextSource := if s.items = [] then s.nextSource + 1 else s.nextSource
                    log := s.log ++ (.added s.nextId r x :: .cancel s.nextId :: if x then [.destroy s.nextId] else []) } := by
  have ha : s.alive = true := by
    cases hd : s.alive with
    | true => rfl
    | false => have := (h.dead hd).2.2.2; omega
  have happ : append s.items s.last ⟨s.nextId, tag, r, x, false⟩ = .ok (s.items ++ [⟨s.nextId, tag, r, x, false⟩]) := append_ok h.lastEq h.sorted
  by_cases hi : s.items = []
  · have hst : s.stack = [] := hs.resolve_left (fun e => e hi)
    have hsrc : s.source = none := by
      have := h.empt hi
      rw [hst] at this
      exact this
    have hlive : s.live = [] := by rw [h.liveEq, hsrc]; rfl
    have hlast : s.last = none := by rw [h.lastEq, hi]; rfl
    rw [hi] at happ
    have e1 : step s (.add tag r x) = .ok { s with
        items := [⟨s.nextId, tag, r, x, false⟩], last := some s.nextId, nextId := s.nextId + 1, log := s.log ++ [.added s.nextId r x]
        source := some s.nextSource, live := [s.nextSource], nextSource := s.nextSource + 1 } := by
      unfold step State.access
      rw [if_pos ha]
      show add s tag r x = _
      unfold add
      rw [hi, happ]
      show Except.ok (schedule _) = _
      unfold schedule
      simp only [hsrc, hlive, List.nil_append]
    have e2 : step { s with
        items := [⟨s.nextId, tag, r, x, false⟩], last := some s.nextId, nextId := s.nextId + 1, log := s.log ++ [.added s.nextId r x]
        source := some s.nextSource, live := [s.nextSource], nextSource := s.nextSource + 1 } (.cancelTag tag) =
        if x then .ok { s with
          items := [], last := none, nextId := s.nextId + 1, log := s.log ++ [.added s.nextId r x, .cancel s.nextId, .destroy s.nextId]
          source := some s.nextSource, live := [s.nextSource], nextSource := s.nextSource + 1, stack := [.tagFirst ⟨s.nextId, tag, r, x, false⟩] }
        else .ok { s with
          nextId := s.nextId + 1, log := s.log ++ [.added s.nextId r x, .cancel s.nextId], nextSource := s.nextSource + 1 } := by
      unfold step State.access
      rw [if_pos ha]
      show (cancelTag _ tag >>= _) = _
      unfold cancelTag itemDestroy
      dsimp only
      rw [if_pos rfl]
      cases x with
      | true => simp [ok_bind, hst, lastOf]
      | false => simp [ok_bind, clearIfEmpty, State.clearSource, lastOf, hi, hlast, hsrc, hlive]
    cases x with
    | false =>
      rw [if_neg (by simp)] at e2
      refine ⟨_, legal_cons (show 0 < s.refs from hr) e1 (legal_cons (show 0 < s.refs from hr) e2 rfl), exec_cons e1 (exec_cons e2 rfl), ?_⟩
      simp [hi]
    | true =>
      rw [if_pos rfl] at e2
      have e3 : step { s with
          items := [], last := none, nextId := s.nextId + 1, log := s.log ++ [.added s.nextId r true, .cancel s.nextId, .destroy s.nextId]
          source := some s.nextSource, live := [s.nextSource], nextSource := s.nextSource + 1, stack := [.tagFirst ⟨s.nextId, tag, r, true, false⟩] } .ret =
          .ok { s with nextId := s.nextId + 1, log := s.log ++ [.added s.nextId r true, .cancel s.nextId, .destroy s.nextId]
                       nextSource := s.nextSource + 1 } := by
        unfold step ret State.access
        dsimp only
        rw [if_pos ha, ok_bind]
        simp [clearIfEmpty, State.clearSource, hi, hlast, hsrc, hlive, hst]
      refine ⟨_, legal_cons (show 0 < s.refs from hr) e1 (legal_cons (show 0 < s.refs from hr) e2 (legal_cons (by unfold Allowed; simp) e3 rfl)),
        exec_cons e1 (exec_cons e2 (exec_cons e3 rfl)), ?_⟩
      simp [hi]
  · obtain ⟨i, t, hi'⟩ := List.exists_cons_of_ne_nil hi
    have hsrc : ∃ src, s.source = some src := by
      cases hx : s.source with
      | none => exact (h.sched hi hx).elim
      | some src => exact ⟨src, rfl⟩
    obtain ⟨src, hsrc⟩ := hsrc
    have hti : i.tag ≠ tag := ht i (by rw [hi']; exact List.mem_cons_self)
    have htt : ∀ j ∈ t, j.tag ≠ tag := fun j hj => ht j (by rw [hi']; exact List.mem_cons_of_mem _ hj)
    have e1 : step s (.add tag r x) = .ok { s with
        items := s.items ++ [⟨s.nextId, tag, r, x, false⟩], last := some s.nextId, nextId := s.nextId + 1, log := s.log ++ [.added s.nextId r x] } := by
      unfold step State.access
      rw [if_pos ha]
      show add s tag r x = _
      unfold add
      rw [happ]
      show Except.ok (schedule _) = _
      unfold schedule
      simp only [hsrc]
    have e2 : step { s with
        items := s.items ++ [⟨s.nextId, tag, r, x, false⟩], last := some s.nextId, nextId := s.nextId + 1, log := s.log ++ [.added s.nextId r x] }
        (.cancelTag tag) =
        if x then .ok { s with
          nextId := s.nextId + 1, log := s.log ++ [.added s.nextId r x, .cancel s.nextId, .destroy s.nextId]
          stack := .tagOther ⟨s.nextId, tag, r, x, false⟩ :: s.stack }
        else .ok { s with nextId := s.nextId + 1, log := s.log ++ [.added s.nextId r x, .cancel s.nextId] } := by
      unfold step State.access
      rw [if_pos ha]
      show (cancelTag _ tag >>= _) = _
      unfold cancelTag itemDestroy
      dsimp only
      rw [hi', List.cons_append]
      dsimp only
      rw [if_neg hti, removeTag_new tag ⟨s.nextId, tag, r, x, false⟩ rfl i t _ htt]
      have hl : (i :: t).getLast?.map Item.id = s.last := by rw [h.lastEq, hi']
      rw [hl]
      cases x with
      | true => simp [ok_bind, ← hi']
      | false => simp [ok_bind, ← hi']
    cases x with
    | false =>
      rw [if_neg (by simp)] at e2
      refine ⟨_, legal_cons (show 0 < s.refs from hr) e1 (legal_cons (show 0 < s.refs from hr) e2 rfl), exec_cons e1 (exec_cons e2 rfl), ?_⟩
      simp [hi]
    | true =>
      rw [if_pos rfl] at e2
      have e3 : step { s with
          nextId := s.nextId + 1, log := s.log ++ [.added s.nextId r true, .cancel s.nextId, .destroy s.nextId]
          stack := .tagOther ⟨s.nextId, tag, r, true, false⟩ :: s.stack } .ret =
          .ok { s with nextId := s.nextId + 1, log := s.log ++ [.added s.nextId r true, .cancel s.nextId, .destroy s.nextId] } := rfl
      refine ⟨_, legal_cons (show 0 < s.refs from hr) e1 (legal_cons (show 0 < s.refs from hr) e2 (legal_cons (by unfold Allowed; simp) e3 rfl)),
        exec_cons e1 (exec_cons e2 (exec_cons e3 rfl)), ?_⟩
      simp [hi]

/-- **C150** if there are other items in the queue, or outside of callbacks: adding an item with a tag which isn't in use, and cancelling it, isn't
noticed by anyone. What happens is that its `destroy` (if any) is called. Whatever is done with the queue after that could be done without it, and the
other way around, and exactly the same callbacks of the same items are invoked in the same order by the same functions; it's just that all items
added later have the next number (there may also be another number of the source). -/
theorem C150_no_trace_partial {s : State} (h : Reach s) (hr : 0 < s.refs) (hs : s.items ≠ [] ∨ s.stack = []) (tag : Nat)
    (ht : ∀ i ∈ s.items, i.tag ≠ tag) (r x : Bool) :
    ∃ s' g, legal s (addAndCancel tag r x) = true ∧ exec s (addAndCancel tag r x) = .ok s' ∧
      s'.log = s.log ++ (.added s.nextId r x :: .cancel s.nextId :: if x then [.destroy s.nextId] else []) ∧
      s'.items = s.items ∧ s'.stack = s.stack ∧ s'.refs = s.refs ∧ s'.alive = s.alive ∧ s'.source = s.source ∧ s'.live = s.live ∧
      (∀ a b, g a = g b → a = b) ∧
      (∀ acts, legal s acts = true → ∃ t t' new new', exec s acts = .ok t ∧ legal s' (acts.map (Act.ren g)) = true ∧
        exec s' (acts.map (Act.ren g)) = .ok t' ∧ t.log = s.log ++ new ∧ t'.log = s'.log ++ new' ∧ SameEvents (shift s.nextId) new new') ∧
      (∀ acts', legal s' acts' = true → ∃ acts, acts' = acts.map (Act.ren g) ∧ legal s acts = true) := by
  have hi := reach_inv h
  obtain ⟨s', h1, h2, h3⟩ := cancel_new tag r x s hi hr hs ht
  have hlt : ∀ id ∈ adds s.log, id < s.nextId := by intro id hid; rw [hi.hist.adds] at hid; simpa using hid
  have hid : ∀ i ∈ s.items, i.id < s.nextId := fun i hm => hlt _ (by
    unfold adds; rw [List.mem_filterMap]; exact ⟨_, hi.hist.flags i hm, rfl⟩)
  have hren : ∀ i : Item, i.id < s.nextId → i.ren (shift s.nextId) = i := by
    intro i hm
    unfold Item.ren shift
    rw [if_pos hm]
  have hsim : Sim (shift s.nextId) (if s.items = [] then shift s.nextSource else id) s.log s'.log s s' := by
    subst h3
    refine { alive := rfl, refs := rfl, nr := rfl, source := ?_, items := ?_, last := ?_, live := ?_, ns := ?_, ni := ?_, stack := ?_, log := ?_ }
    · by_cases he : s.items = []
      · have := C67_not_scheduled h (hs.resolve_left (fun x => x he)) he
        rw [this.2]; rfl
      · dsimp only; rw [if_neg he]; simp
    · refine List.ext_getElem? fun k => ?_
      rw [List.getElem?_map]
      cases hk : s.items[k]? with
      | none => rfl
      | some i => rw [Option.map_some, hren i (hid i (List.mem_of_getElem? hk))]
    · dsimp only
      rw [hi.lastEq]
      cases hl : s.items.getLast? with
      | none => rfl
      | some i =>
        have := hid i (List.mem_of_getLast? hl)
        simp only [Option.map_some, shift, if_pos this]
    · by_cases he : s.items = []
      · have := C67_not_scheduled h (hs.resolve_left (fun x => x he)) he
        rw [this.1]; rfl
      · dsimp only; rw [if_neg he]; simp
    · intro k
      dsimp only
      by_cases he : s.items = []
      · rw [if_pos he, if_pos he]; unfold shift; rw [if_neg (by omega)]; omega
      · rw [if_neg he, if_neg he]; rfl
    · intro k; unfold shift; rw [if_neg (by omega)]; dsimp only; omega
    · dsimp only
      rcases hs with he | he
      · rw [if_neg he]
        refine List.map_congr_left fun fr hfr => ?_
        cases fr with
        | run d src b i =>
          have := (hi.hist.pendRun d src b i hfr).1
          have := hi.hist.runsBd _ this
          show Frame.run d src 0 i = Frame.run d src 0 (i.ren _)
          rw [hren i this]
        | _ => rfl
      · rw [he]; rfl
    · exact ⟨[], [], by simp, by simp, rfl⟩
  have hg : ∀ a b, (if s.items = [] then shift s.nextSource else id) a = (if s.items = [] then shift s.nextSource else id) b → a = b := by
    split
    · exact shift_inj _
    · exact fun _ _ h => h
  refine ⟨s', _, h1, h2, by rw [h3], by rw [h3], by rw [h3], by rw [h3], by rw [h3], by rw [h3], by rw [h3], hg, fun acts hl => ?_, fun acts' hl => ?_⟩
  · obtain ⟨t, t', k1, k2, k3, k4⟩ := sim_exec (shift_inj _) hg acts hsim hl
    obtain ⟨new, new', e1, e2, e3⟩ := k4.log
    exact ⟨t, t', new, new', k1, k2, k3, e1, e2, e3⟩
  · exact sim_back (shift_inj _) hg acts' hsim hl

/-- The hypotheses are met outside of callbacks, and inside of one. -/
example : ∃ s, Reach s ∧ 0 < s.refs ∧ s.items ≠ [] ∧ s.stack ≠ [] ∧ ∀ i ∈ s.items, i.tag ≠ 7 := by
  refine ⟨_, reach_exec (acts := [.add 1 true true, .add 2 true false, .dispatch 1]) .new (by decide +kernel)
    (s' := ⟨true, 1, some 1, [⟨1, 2, true, false, true⟩], some 1, [1], 2, 2, 1, [.run 0 1 2 ⟨0, 1, true, true, true⟩],
      [.added 0 true true, .added 1 true false, .begin 0, .run 0 0]⟩) (by decide +kernel), ?_⟩
  simp

/-- An item which is the only one and is running, adds another one and runs the main loop -/
def plain : List Act := [.add 1 true false, .dispatch 1, .add 2 true false]
/-- The same, after an item has been added and cancelled there -/
def plusCancelled : List Act := [.add 1 true false, .dispatch 1] ++ addAndCancel 7 true false ++ [.add 2 true false]

/-- C150 isn't true inside of a callback, if there are no other items. Then cancelling the item removes the source which is being dispatched, and the
next item gets another source. The main loop, run by the callback, doesn't invoke the next item if nothing has been cancelled (there's nothing which may
be dispatched), and invokes it otherwise. -/
theorem C150_refuted :
    (legal new plain = true ∧ ∃ s, exec new plain = .ok s ∧ ∀ src, ¬ Allowed s (.dispatch src)) ∧
    (legal new (plusCancelled ++ [.dispatch 2]) = true ∧ ∃ s, exec new (plusCancelled ++ [.dispatch 2]) = .ok s ∧ .run 1 2 ∈ s.log ∧ s.stack.length = 2) := by
  refine ⟨⟨by decide +kernel, ⟨true, 1, some 1, [⟨1, 2, true, false, false⟩], some 1, [1], 2, 2, 1, [.run 0 1 1 ⟨0, 1, true, false, true⟩],
    [.added 0 true false, .begin 0, .run 0 0, .added 1 true false]⟩, by decide +kernel, ?_⟩, by decide +kernel, ?_⟩
  · rintro src ⟨h1, h2⟩
    simp only [List.mem_singleton] at h1
    subst h1
    exact h2 _ List.mem_cons_self rfl
  · refine ⟨⟨true, 1, some 2, [], none, [2], 3, 3, 2, [.run 1 2 3 ⟨2, 2, true, false, true⟩, .run 0 1 1 ⟨0, 1, true, false, true⟩],
      [.added 0 true false, .begin 0, .run 0 0, .added 1 true false, .cancel 1, .added 2 true false, .begin 1, .run 1 2]⟩, by decide +kernel, by simp, rfl⟩

end Verif.Idle
