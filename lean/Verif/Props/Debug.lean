import Verif.Proof.RingDebugAll
import Verif.Proof.HistoryDebug
import Verif.Props.History
import Verif.Proof.IdleQueueDebug
import Verif.Proof.IdlePoolDebug
import Verif.Proof.InotifyDebug
import Verif.Proof.CounterDebug
import Verif.Props.Ring

/-!
# C100-C104, C107: assertions in debug builds

The functions in the `Debug` namespaces are those of the library with their assertions; a failed one makes the outcome
`assertFail`. "No assertion fails" is the same thing as "the outcome is that of the release build", which is defined by
other theorems.
-/

namespace Verif.Ring
open Verif.C Spec

/-- **C100** Whatever is done to a ring, whether or not that's in accordance with the rules, no assertion fails: the outcome is that of the release build, and if
that's undefined behaviour (e.g. because something has been added between flatten and compact, or the size has exceeded the range of `int`), no assertion
fails before that. -/
theorem C100_ring (reserved max : Int) (free : Option Nat) (r : Ring) (hr : newFull reserved max free = .ok r) (ops : List Op) : Debug.run r ops = Ring.run r ops :=
  Debug.run_same ops r (Debug.new_idx reserved max free hr)

/-- Something is added between flatten and compact: that's undefined behaviour (the buffer is smaller than the ring believes), not an assertion failure. -/
example : (do
    let r ← newFull 4 (-1) none
    Debug.run r [.put 1, .put 2, .put 3, .get, .get, .put 4, .put 5, .flatten, .put 6]) = .error .oobWrite := by decide +kernel

/-- **C100** If that's in accordance with the rules (see C17) then nothing goes wrong. -/
theorem C100_ring_rules (reserved max : Int) (free : Option Nat) (h0 : 0 ≤ reserved) (h1 : reserved ≤ 2 ^ 29) (ops : List Op)
    (ha : Allowed (Deque.new reserved max free) ops) :
    ∃ r os r', newFull reserved max free = .ok r ∧ Ring.run r ops = .ok (os, r') ∧ Debug.run r ops = .ok (os, r') := by
  obtain ⟨r, hr, hal⟩ := new_alive reserved max free h0 h1
  obtain ⟨os, r', d', h2, h3, h4⟩ := sim_run ops r _ (.inl hal) ha
  refine ⟨r, os, r', hr, h2, ?_⟩
  rw [Debug.run_eq ops r _ (.inl hal) (Debug.new_nz reserved max free h0 h1 hr) ha, h2]

/-- The history used as an example for C17, in a debug build -/
example : (do
    let r ← newFull 2 3 (some 7)
    let (os, r) ← Debug.run r [.put 1, .put 2, .get, .put 3, .putFront 4, .flatten, .compact, .drop 1, .unref]
    pure (os, r.freed)) =
    (.ok ([.bool true, .bool true, .ptr 1, .bool true, .bool true, .block (some [4, 2, 3]) 3, .unit,
      .int 1, .unit], [(7, 4), (7, 2), (7, 3)]) : M _) := by decide +kernel

end Verif.Ring

namespace Verif.History
open Verif.C Spec

private theorem debug_opOk {n : Nat} {lo : Int} {ops : List Op} (hc : ∀ op ∈ ops, ∀ now, op.now? = some now → TimeOk lo now) :
    ∀ op ∈ ops, OpOk .wrap n 0 lo op :=
  fun op hop => ⟨fun now e => hc op hop now e, fun e => (by cases e), fun e => (by cases e)⟩

private theorem debug_params {n : Nat} {I lo : Int} (hn : 0 < n) (hn' : n < 2 ^ 31) (hI : 0 < I) (hI' : I < 2 ^ 63) (hlo : int64Min ≤ lo - I) :
    Params .wrap n I 0 lo :=
  ⟨hn, by omega, hI, hlo, by unfold int64Max; omega, by omega, fun e => (by cases e), fun e => (by cases e)⟩

/-- **C101** is false: the size of a history which holds one sample can't be queried without an assertion failing. -/
theorem C101_refuted : (do
    let h ← (new 5 10).elim (.error .nullDeref) .ok
    Debug.run .wrap h [.add 7 1, .size 1]) = (.error .assertFail : M _) := by decide +kernel

/-- **C101** That's exactly when it fails: after any calls the size is returned unless there's one sample. -/
theorem C101_exactly (n : Nat) (I : Int) (hn : 0 < n) (hn' : n < 2 ^ 31) (hI : 0 < I) (hI' : I < 2 ^ 63) (ops : List Op) (now : Int)
    (hc : ClockOk I (ops ++ [.size now])) :
    ∃ h os h', new n I = some h ∧ run .wrap h ops = .ok (os, h') ∧
      ((live I now (contents n I [] ops)).length = 1 → Debug.size .wrap h' now = .error .assertFail) ∧
      ((live I now (contents n I [] ops)).length ≠ 1 →
        ∃ h'', Debug.size .wrap h' now = .ok ((live I now (contents n I [] ops)).length, h'')) := by
  obtain ⟨lo, hlo, hc⟩ := clockOk_times hc
  have P := debug_params hn hn' hI hI' hlo
  obtain ⟨h, hh, g⟩ := new_good P
  have hok := debug_opOk (n := n) hc
  obtain ⟨os, h', hr, g', -⟩ := sim_run P ops g (fun op hop => hok op (List.mem_append_left _ hop))
  obtain ⟨o, h'', hx, g'', ha⟩ := sim P g' (.size now) (hok _ (by simp))
  have ho := ha (.inr trivial)
  have e := Debug.size_eq .wrap now g'.view g'.sorted ((hok (.size now) (by simp)).1 now rfl) (g'.intv ▸ P.I0) (g'.intv ▸ P.I1)
  rw [g'.intv] at e
  refine ⟨h, os, h', hh, hr, fun h1 => by rw [e, if_pos h1], fun h1 => ⟨h'', ?_⟩⟩
  rw [e, if_neg h1]
  have hx : size .wrap h' now = .ok (o, h'') := hx
  rw [hx, ho]
  rfl

/-- **C101**, what holds: no assertion fails unless the size is queried when there's one sample. -/
theorem C101_history_partial (n : Nat) (I : Int) (hn : 0 < n) (hn' : n < 2 ^ 31) (hI : 0 < I) (hI' : I < 2 ^ 63) (ops : List Op)
    (hc : ClockOk I ops)
    (h1 : ∀ pre now, pre ++ [Op.size now] <+: ops → (live I now (contents n I [] pre)).length ≠ 1) :
    ∃ h os h', new n I = some h ∧ History.run .wrap h ops = .ok (os, h') ∧ Debug.run .wrap h ops = .ok (os, h') := by
  obtain ⟨lo, hlo, hc⟩ := clockOk_times hc
  have P := debug_params hn hn' hI hI' hlo
  obtain ⟨h, hh, g⟩ := new_good P
  obtain ⟨os, h', hr, -, -⟩ := sim_run P ops g (debug_opOk hc)
  exact ⟨h, os, h', hh, hr, by rw [Debug.run_eq P ops g (debug_opOk hc) h1, hr]⟩

/-- Two samples, then none -/
example : (do
    let h ← (new 5 10).elim (.error .nullDeref) .ok
    let (os, _) ← Debug.run .wrap h [.size 0, .add 7 1, .add 9 2, .size 3, .interval 3, .size 20]
    .ok os) = (.ok [0, 7, 8, 2, 2, 0] : M _) := by decide +kernel

example : (live 10 3 (contents 5 10 [] [.size 0, .add 7 1, .add 9 2])).length = 2 ∧ (live 10 1 (contents 5 10 [] [.add 7 1])).length = 1 := by
  decide

end Verif.History

namespace Verif.Idle
open Verif.C

/-- **C102** is false: an assertion fails if the function which destroys the first item being cancelled by tag cancels
everything else. -/
theorem C102_refuted : ∃ s, Reach s ∧ Allowed s .ret ∧ Debug.step s .ret = .error .assertFail := by
  have hl : legal new [.add 1 true true, .add 2 true false, .cancelTag 1, .cancelAll] = true := by decide +kernel
  refine ⟨_, reach_exec (acts := [.add 1 true true, .add 2 true false, .cancelTag 1, .cancelAll]) .new hl rfl, ?_, ?_⟩
  · decide +kernel
  · decide +kernel

/-- **C102** That's the only one: an assertion fails if and only if the function which is about to return has been called
by `gutil_idle_queue_cancel_tag` for the first item of the queue, and the queue isn't being scheduled anymore. -/
theorem C102_exactly {s : State} (h : Reach s) {a : Act} (ha : Allowed s a) :
    (∃ s', Debug.step s a = .ok s' ∧ Idle.step s a = .ok s') ∨
    (Debug.step s a = .error .assertFail ∧ a = .ret ∧ (∃ i rest, s.stack = .tagFirst i :: rest) ∧ s.items = [] ∧ s.live = []) := by
  have hv := reach_inv h
  have e := Debug.step_eq hv ha
  obtain ⟨s', e', _⟩ := inv_step hv ha
  split at e
  · rename_i hc
    obtain ⟨h1, h2, h3⟩ := hc
    refine .inr ⟨e, h1, ?_, ?_, by rw [hv.liveEq, h3]; rfl⟩
    · unfold Debug.inTagFirst at h2
      cases hs : s.stack with
      | nil => rw [hs] at h2; cases h2
      | cons f rest =>
        rw [hs] at h2
        cases f with
        | tagFirst i => exact ⟨i, rest, rfl⟩
        | _ => cases h2
    · exact Classical.byContradiction fun hi => hv.sched hi h3
  · exact .inl ⟨s', e.trans e', e'⟩

/-- **C102**, what holds: no assertion fails if the functions called for the first item being cancelled by tag don't cancel
anything and run no main loop. -/
theorem C102_queue_partial {s : State} (h : Debug.CalmReach s) {a : Act} (ha : Allowed s a) :
    ∃ s', Debug.step s a = .ok s' ∧ Idle.step s a = .ok s' := by
  have hv := reach_inv h.reach
  have ht := Debug.calm_tagTop h
  rcases C102_exactly h.reach ha with h1 | ⟨_, _, ⟨i, rest, hs⟩, _, hl⟩
  · exact h1
  · exfalso
    have hsrc : s.source = none := by
      have := hv.liveEq
      rw [hl] at this
      cases hx : s.source with
      | none => rfl
      | some x => rw [hx] at this; cases this
    rcases ht with ht | ⟨f, rest', _, h2, _⟩
    · have := ht (.tagFirst i) (by rw [hs]; exact List.mem_cons_self)
      cases this
    · exact h2 hsrc

/-- The first item is being cancelled; the function adds another one and returns. -/
example : ∃ s, Debug.CalmReach s ∧ Debug.inTagFirst s = true ∧ s.live = [1] ∧ Debug.step s .ret = Idle.step s .ret := by
  have h1 := Debug.CalmReach.new.step (a := .add 1 true true) (by decide) (fun _ => .inr (.inr ⟨1, true, true, rfl⟩)) rfl
  have h2 := h1.step (a := .cancelTag 1) (by decide) (fun h => absurd h (by decide)) rfl
  have h3 := h2.step (a := .add 2 true false) (by decide) (fun _ => .inr (.inr ⟨2, true, false, rfl⟩)) rfl
  exact ⟨_, h3, by decide, by decide, by decide⟩

end Verif.Idle

namespace Verif.Pool
open Verif.C

/-- **C103** No assertion of the idle pool ever fails. -/
theorem C103_pool {s : State} (h : Reach any s) {a : Act} (ha : Allowed s a) :
    ∃ s', Debug.step s a = .ok s' ∧ Pool.step s a = .ok s' := by
  have hv := any_inv h
  obtain ⟨s', e, _⟩ := inv_step hv ha (fun h => h.elim)
  exact ⟨s', Debug.step_eq hv ha e, e⟩

/-- **C103** Creation of a shared pool included -/
theorem C103_shared (own : Bool) (foreign : List Nat) : ∃ s, Debug.newShared own foreign = .ok s ∧ newShared own foreign = .ok s := by
  obtain ⟨s, e, _⟩ := inv_shared (q := False) (own := own) (foreign := foreign)
  refine ⟨s, ?_, e⟩
  unfold Debug.newShared
  rw [Debug.add_eq (by rfl) (Nat.succ_pos 0)]
  exact e

/-- A shared pool being drained by the main loop, its item is still to be destroyed. -/
example : ∃ s, Reach any s ∧ s.stack ≠ [] ∧ Allowed s .ret ∧ ∃ s', Debug.step s .ret = .ok s' ∧ s'.alive = false := by
  have h1 : Reach any _ := .shared (own := false) (foreign := []) rfl
  have h2 := h1.step (a := .add) (by decide) trivial rfl
  have h3 := h2.step (a := .dispatch 1 true) (by decide) trivial rfl
  exact ⟨_, h3, by decide, by decide, _, rfl, by decide⟩

end Verif.Pool

namespace Verif.Inotify
open Verif.C

/-- **C104** is false: an assertion fails if a file is being watched twice and both watches are being destroyed. -/
theorem C104_refuted : ∃ s, Reach anything s ∧ Allowed s (.destroy 1) ∧ Debug.step none s (.destroy 1) = .error .assertFail := by
  obtain ⟨s, e, h⟩ := reach_exec (l := [.new 7 6 3, .new 7 6 3, .destroy 0]) (.init [] List.nodup_nil) (by decide)
  cases e
  exact ⟨_, h, by decide, by decide⟩

/-- **C104**, what holds: if no file is being watched twice at the same time then no assertion fails. -/
theorem C104_inotify_partial {s : State} (h : Reach distinct s) {a : Act} (ha : Allowed s a) {race : Option Nat} (hr : ∀ fd, race = some fd → fd ∉ s.foreign) :
    ∃ s', Debug.step race s a = .ok s' ∧ Inotify.step race s a = .ok s' := by
  obtain ⟨s', e⟩ := C93_safe (h.mono (fun _ _ _ _ => trivial)) ha hr
  exact ⟨s', (Debug.step_eq (distinct_rest h) ha hr).trans e, e⟩

/-- **C104** The assertion about the size of an event doesn't fail with what the kernel returns. -/
theorem C104_read (little : Bool) (es : List KEvent) (h : ∀ e ∈ es, NameOk e.ev.name) : Debug.parse little (es.flatMap (encode little)) = .ok es :=
  Debug.parseLoop_eq h (Nat.le_refl _)

/-- Both watches being destroyed, in the sample history -/
example : ∃ s, Reach distinct s ∧ Allowed s (.destroy 1) ∧ ∃ s', Debug.step none s (.destroy 1) = .ok s' ∧ s'.inst = none := by
  have h1 := (Reach.init (P := distinct) [] List.nodup_nil).step (a := .new 7 6 3) (race := none) (by decide) (by simp) (fun w m => by simp [init, watching]) rfl
  have h2 := h1.step (a := .new 8 6 3) (race := none) (by decide) (by simp) (fun w m => by
    show watching w [.opened 3, .created 0 7 6] ≠ _
    simp only [watching, List.foldl_cons, List.foldl_nil, track1]
    split <;> simp) rfl
  have h3 := h2.step (a := .destroy 0) (race := none) (by decide) (by simp) trivial rfl
  exact ⟨_, h3, by decide, _, rfl, by decide⟩

end Verif.Inotify

namespace Verif.Shared
open Verif.C

/-- **C107** Any number of threads use an object with a reference counter, `Debug.step` being one of the threads making the assertion of
the function which it has called, or going on with that function. No assertion ever fails (and nothing else goes wrong), provided that
threads only call these functions if they have references. -/
theorem C107_counters {kind : Kind} {n : Nat} {s : Debug.State} {a : Debug.Act} (h : Debug.Reach kind n s) (ha : Debug.Allowed s a) :
    ∃ s', Debug.step s a = .ok s' := by
  obtain ⟨s', h1, _⟩ := Debug.step_inv (Debug.reach_inv h) ha
  exact ⟨s', h1⟩

/-- Two threads are about to drop their references. -/
example : ∃ s, Debug.Reach .func 1 s ∧ s.pending 0 = some .unref ∧ s.pending 1 = some .unref ∧ s.s.refs = 2 ∧ Debug.Allowed s (.go 1) := by
  have h1 := (Debug.Reach.new (kind := .func) (n := 1)).step (a := .call 0 .ref) (s' := _) ⟨rfl, by decide⟩ rfl
  have h2 := h1.step (a := .go 0) (s' := _) (by simp [Debug.Allowed]) rfl
  have h3 := h2.step (a := .other (.give 0 1)) (s' := _) ⟨rfl, by decide, trivial⟩ rfl
  have h4 := h3.step (a := .call 0 .unref) (s' := _) ⟨rfl, by decide⟩ rfl
  have h5 := h4.step (a := .call 1 .unref) (s' := _) ⟨rfl, by decide⟩ rfl
  exact ⟨_, h5, rfl, rfl, rfl, by simp [Debug.Allowed]⟩

end Verif.Shared

namespace Verif.Weak
open Verif.C

/-- **C107** No assertion of weak references fails. -/
theorem C107_weakref {s : State} (h : Reach s) {a : Act} (ha : Allowed s a) : ∃ s', Debug.step s a = .ok s' ∧ Weak.step s a = .ok s' := by
  have hi := reach_inv h
  obtain ⟨s', h1, _⟩ := inv_step hi ha
  exact ⟨s', (Debug.step_eq hi ha).trans h1, h1⟩

/-- The last reference being dropped -/
example : ∃ s, Reach s ∧ Allowed s .unref ∧ ∃ s', Debug.step s .unref = .ok s' ∧ s'.alive = false := by
  have h0 : Reach _ := .new (n := 1) (o := some 0) (by simp) rfl
  have h1 := h0.step (a := .ref) (by decide) rfl
  have h2 := h1.step (a := .unref) (by decide) rfl
  exact ⟨_, h2, by decide, _, rfl, rfl⟩

end Verif.Weak

namespace Verif.TimeNotify
open Verif.C

/-- **C107** The assertion of clock notifiers doesn't fail: reading from the timer returns an error, as expected. -/
theorem C107_timenotify {s : State} (h : Reach (fun _ => True) s) {a : Act} (ha : Allowed s a) :
    ∃ s', Debug.step s a = .ok s' ∧ TimeNotify.step s a = .ok s' := by
  have hi := reach_inv h
  obtain ⟨s', h1, _⟩ := step_inv hi ha
  exact ⟨s', (Debug.step_eq hi ha).trans h1, h1⟩

/-- The clock has been set. -/
example : ∃ s, Reach (fun _ => True) s ∧ Allowed s (.dispatch false) ∧ ∃ s', Debug.step s (.dispatch false) = .ok s' ∧ s'.calls = [3] := by
  have h1 := (Reach.init (P := fun _ => True)).step (a := .new true) (by decide) trivial rfl
  have h2 := h1.step (a := .add) (by decide) trivial rfl
  have h3 := h2.step (a := .clock) (by decide) trivial rfl
  exact ⟨_, h3, by decide, _, rfl, by decide⟩

end Verif.TimeNotify
