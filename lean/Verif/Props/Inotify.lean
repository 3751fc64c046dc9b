import Verif.Proof.InotifyStep
import Verif.Proof.InotifyRead

/-!
# Properties of inotify watches (C73, C74, C75, C93)

`Reach P s`: the state `s` can be reached from the initial one by following the rules (`Allowed`) and the additional ones given by `P`. `s.log`
is the history.
-/

namespace Verif.Inotify
open Verif.C

/-- No additional rules -/
def anything : State → Option Nat → Act → Prop := fun _ _ _ => True

/-- No file is being watched by more than one watch at once. -/
def distinct : State → Option Nat → Act → Prop
  | s, _, .new file _ _ => ∀ w mask, watching w s.log ≠ some (file, mask)
  | _, _, _ => True

/-- The file `file` isn't being watched by more than one watch at once. -/
def alone (file : Nat) : State → Option Nat → Act → Prop
  | s, _, .new f _ _ => f = file → ∀ w mask, watching w s.log ≠ some (file, mask)
  | _, _, _ => True

/-- Reading from the descriptor doesn't fail. -/
def readable : State → Option Nat → Act → Prop := fun _ _ a => a ≠ .readFails

/-- Both -/
def distinctOk : State → Option Nat → Act → Prop
  | s, r, a => distinct s r a ∧ a ≠ .readFails

theorem rest_kernel {s : State} {q : Nat → Prop} {r : Prop} (h : Rest q r s) {file : Nat} (hp : ∀ w mask, watching w s.log ≠ some (file, mask)) :
    ∀ k ∈ s.kernel, k.file ≠ file := by
  intro k hk e
  obtain ⟨w, x, hw, hd, hf, hm⟩ := h.hist.kern k hk 0
  have := h.hist.act w x hw ⟨k, hk, hd⟩
  rw [hf, e] at this
  exact hp w _ this

theorem rest_of {P : State → Option Nat → Act → Prop} {s : State} (q : Nat → Prop) (r : Prop)
    (hq : ∀ s race file mask fd, P s race (.new file mask fd) → q file → ∀ w m, watching w s.log ≠ some (file, m))
    (hR : ∀ s race, P s race .readFails → ¬ r) (h : Reach P s) : Rest q r s := by
  induction h with
  | init foreign hn => exact rest_init _ _ hn
  | step _ ha hr hp e ih =>
    obtain ⟨s', e', h', _⟩ := rest_step ih ha hr (fun file mask fd ha hf => rest_kernel ih (hq _ _ file mask fd (ha ▸ hp) hf)) (fun h ha => hR _ _ (ha ▸ hp) h)
    rw [e] at e'
    cases e'
    exact h'

theorem reach_rest {P : State → Option Nat → Act → Prop} {s : State} (h : Reach P s) : Rest (fun _ => False) False s :=
  rest_of _ _ (fun _ _ _ _ _ _ h => h.elim) (fun _ _ _ h => h) h

theorem distinct_rest {s : State} (h : Reach distinct s) : Rest (fun _ => True) False s :=
  rest_of _ _ (fun _ _ _ _ _ hp _ w m => hp w m) (fun _ _ _ h => h) h

theorem alone_rest {s : State} {file : Nat} (h : Reach (alone file) s) : Rest (· = file) False s :=
  rest_of _ _ (fun _ _ _ _ _ hp hf w m => hf ▸ hp hf w m) (fun _ _ _ h => h) h

theorem readable_rest {s : State} (h : Reach readable s) : Rest (fun _ => False) True s :=
  rest_of _ _ (fun _ _ _ _ _ _ h => h.elim) (fun _ _ h => absurd rfl h) h

theorem Reach.mono {P Q : State → Option Nat → Act → Prop} {s : State} (h : Reach P s) (hpq : ∀ s r a, P s r a → Q s r a) : Reach Q s := by
  induction h with
  | init foreign hn => exact .init foreign hn
  | step _ ha hr hp e ih => exact ih.step ha hr (hpq _ _ _ hp) e

theorem reach_exec {s : State} {l : List Act} : Reach anything s → legal s l = true → ∃ s', exec s l = .ok s' ∧ Reach anything s' := by
  induction l generalizing s with
  | nil => exact fun h _ => ⟨s, rfl, h⟩
  | cons a t ih =>
    intro h hl
    unfold legal at hl
    split at hl
    · rename_i ha
      unfold exec
      cases e : step none s a with
      | error x => rw [e] at hl; cases hl
      | ok s1 =>
        rw [e] at hl
        exact ih (h.step ha (by simp) trivial e) hl
    · cases hl

/-- Two files are being watched; something happens to both of them, and the first watch is destroyed by its handler, the second one isn't. -/
def sampleActs : List Act :=
  [.new 7 6 3, .new 8 6 3, .happen 7 ⟨2, 0, []⟩, .happen 8 ⟨4, 0, []⟩, .happen 8 ⟨8, 0, []⟩, .happen 7 ⟨4, 0, []⟩, .dispatch 3, .destroy 0, .ret, .ret, .vanish 8, .dispatch 2, .ret]

theorem sample_exists : ∃ s, Reach distinctOk s ∧ s.frame = none ∧ s.queue = [] ∧
    s.log = [.opened 3, .created 0 7 6, .created 1 8 6, .happened 7 ⟨2, 0, []⟩, .happened 8 ⟨4, 0, []⟩, .happened 8 ⟨8, 0, []⟩, .happened 7 ⟨4, 0, []⟩,
      .delivered 0 ⟨2, 0, []⟩, .stopped 0, .delivered 1 ⟨4, 0, []⟩, .vanished 8, .delivered 1 ignored] := by
  have h0 : Reach distinctOk _ := .init [] List.nodup_nil
  have h1 := h0.step (a := .new 7 6 3) (race := none) (by decide) (by simp) ⟨fun w m => by simp [init, watching], by simp⟩ rfl
  have h2 := h1.step (a := .new 8 6 3) (race := none) (by decide) (by simp) ⟨fun w m => by
    show watching w [.opened 3, .created 0 7 6] ≠ _
    simp only [watching, List.foldl_cons, List.foldl_nil, track1]
    split <;> simp, by simp⟩ rfl
  have h3 := h2.step (a := .happen 7 ⟨2, 0, []⟩) (race := none) (by decide) (by simp) ⟨trivial, by simp⟩ rfl
  have h4 := h3.step (a := .happen 8 ⟨4, 0, []⟩) (race := none) (by decide) (by simp) ⟨trivial, by simp⟩ rfl
  have h5 := h4.step (a := .happen 8 ⟨8, 0, []⟩) (race := none) (by decide) (by simp) ⟨trivial, by simp⟩ rfl
  have h6 := h5.step (a := .happen 7 ⟨4, 0, []⟩) (race := none) (by decide) (by simp) ⟨trivial, by simp⟩ rfl
  have h7 := h6.step (a := .dispatch 3) (race := none) (by decide) (by simp) ⟨trivial, by simp⟩ rfl
  have h8 := h7.step (a := .destroy 0) (race := none) (by decide) (by simp) ⟨trivial, by simp⟩ rfl
  have h9 := h8.step (a := .ret) (race := none) (by decide) (by simp) ⟨trivial, by simp⟩ rfl
  have h10 := h9.step (a := .ret) (race := none) (by decide) (by simp) ⟨trivial, by simp⟩ rfl
  have h11 := h10.step (a := .vanish 8) (race := none) (by decide) (by simp) ⟨trivial, by simp⟩ rfl
  have h12 := h11.step (a := .dispatch 2) (race := none) (by decide) (by simp) ⟨trivial, by simp⟩ rfl
  have h13 := h12.step (a := .ret) (race := none) (by decide) (by simp) ⟨trivial, by simp⟩ rfl
  exact ⟨_, h13, rfl, rfl, rfl⟩

/-! ## C73 -/

/-- Nothing is made up, even if files are being watched twice: what a watch is told about was to be reported to those who watch the file which the watch has been
created for. -/
theorem C73_sound {s : State} (h : Reach anything s) {w : Nat} {ev : Ev} (hd : ev ∈ delivered w s.log) :
    ∃ file mask, Event.created w file mask ∈ s.log ∧ reported file ev s.log := by
  refine (reach_rest h).hist.sound w ev ?_
  obtain ⟨e, he, hev⟩ := List.mem_filterMap.1 hd
  split at hev
  · next v ev' =>
    split at hev
    · next hvw =>
      cases hev
      rw [← hvw]
      exact he
    · cases hev
  · cases hev

/-- Two watches, the second one of which is told about what happened to the file before that -/
theorem shared_exists : ∃ s, Reach anything s ∧
    s.log = [.opened 3, .created 0 7 2, .happened 7 ⟨2, 0, []⟩, .created 1 7 4, .happened 7 ⟨2, 1, []⟩, .happened 7 ⟨4, 0, []⟩, .delivered 1 ⟨2, 0, []⟩, .delivered 1 ⟨4, 0, []⟩] := by
  obtain ⟨s, e, h⟩ := reach_exec (l := [.new 7 2 3, .happen 7 ⟨2, 0, []⟩, .new 7 4 3, .happen 7 ⟨2, 1, []⟩, .happen 7 ⟨4, 0, []⟩, .dispatch 2, .ret, .ret])
    (.init [] List.nodup_nil) (by decide)
  cases e
  exact ⟨_, h, rfl⟩

example : ∃ s, Reach anything s ∧ delivered 1 s.log = [⟨2, 0, []⟩, ⟨4, 0, []⟩] := by
  obtain ⟨s, h, e⟩ := shared_exists
  exact ⟨s, h, by rw [e]; decide⟩

/-- **Partial**: only for a file which is not being watched twice at the same time (others may be). A watch is told about what it must be told about and nothing else, in the same
order, whatever happens to the other watches. -/
theorem C73_prefix_partial {s : State} {file : Nat} (h : Reach (alone file) s) {w : Nat} {mask : BitVec 32} (hc : Event.created w file mask ∈ s.log) :
    delivered w s.log <+: expected w s.log := by
  have h1 := (alone_rest h).hist
  rw [expected_eq]
  obtain ⟨x, hx, hf, _⟩ := h1.made w file mask hc
  cases hd : x.wd with
  | none => exact (h1.stop w x hx hd).2.2 hf
  | some d => exact ⟨_, h1.deliv w x d hx hd hf⟩

/-- **Partial**: only for a file which is not being watched twice at the same time (others may be). Once all the events have been dispatched, the watch which hasn't been stopped has
been told about everything it must have been told about. -/
theorem C73_complete_partial {s : State} {file : Nat} (h : Reach (alone file) s) (hq : s.queue = []) (hf : s.frame = none) {w : Nat} {mask : BitVec 32}
    (hc : Event.created w file mask ∈ s.log) (hs : ¬ isStopped w s.log) : delivered w s.log = expected w s.log := by
  have h1 := (alone_rest h).hist
  obtain ⟨x, hx, hfile, _⟩ := h1.made w file mask hc
  cases hd : x.wd with
  | none => exact absurd (h1.stop w x hx hd).1 hs
  | some d =>
    have := h1.deliv w x d hx hd hfile
    rw [hf, hq] at this
    rw [expected_eq]
    simpa [bOf, pend] using this

theorem distinct_alone {s : State} (h : Reach distinct s) (file : Nat) : Reach (alone file) s := by
  refine h.mono (fun s r a hp => ?_)
  cases a <;> first | trivial | exact fun e w m => e ▸ hp w m

example : ∃ s, Reach (alone 8) s ∧ s.queue = [] ∧ s.frame = none ∧ Event.created 1 8 6 ∈ s.log ∧ ¬ isStopped 1 s.log ∧
    expected 1 s.log = [⟨4, 0, []⟩, ignored] ∧ delivered 0 s.log = [⟨2, 0, []⟩] ∧ expected 0 s.log = [⟨2, 0, []⟩, ⟨4, 0, []⟩] := by
  obtain ⟨s, h, h1, h2, h3⟩ := sample_exists
  exact ⟨s, distinct_alone (h.mono (fun _ _ _ hp => hp.1)) 8, h2, h1, by rw [h3]; decide, by rw [h3]; unfold isStopped; decide, by rw [h3]; decide, by rw [h3]; decide, by rw [h3]; decide⟩

/-- One file is being watched twice, another one isn't. -/
example : ∃ s, Reach (alone 8) s ∧ s.queue = [] ∧ s.frame = none ∧ Event.created 1 8 2 ∈ s.log ∧ ¬ isStopped 1 s.log ∧
    expected 1 s.log = [⟨2, 0, []⟩] ∧ delivered 0 s.log = [] ∧ expected 0 s.log = [⟨2, 0, []⟩] := by
  have h0 : Reach (alone 8) _ := .init [] List.nodup_nil
  have h1 := h0.step (a := .new 7 2 3) (race := none) (by decide) (by simp) (fun e => by cases e) rfl
  have h2 := h1.step (a := .new 8 2 3) (race := none) (by decide) (by simp) (fun _ w m => by
    show watching w [.opened 3, .created 0 7 2] ≠ _
    simp only [watching, List.foldl_cons, List.foldl_nil, track1]
    split <;> simp) rfl
  have h3 := h2.step (a := .new 7 2 3) (race := none) (by decide) (by simp) (fun e => by cases e) rfl
  have h4 := h3.step (a := .happen 7 ⟨2, 0, []⟩) (race := none) (by decide) (by simp) trivial rfl
  have h5 := h4.step (a := .happen 8 ⟨2, 0, []⟩) (race := none) (by decide) (by simp) trivial rfl
  have h6 := h5.step (a := .dispatch 2) (race := none) (by decide) (by simp) trivial rfl
  have h7 := h6.step (a := .ret) (race := none) (by decide) (by simp) trivial rfl
  have h8 := h7.step (a := .ret) (race := none) (by decide) (by simp) trivial rfl
  exact ⟨_, h8, rfl, rfl, by decide, by unfold isStopped; decide, by decide, by decide, by decide⟩

/-- **Partial**: only for a file which is not being watched twice at the same time (others may be). If the kernel merges an event into another one, then that's an event
which the watch has yet to be told about, the last one of those. -/
theorem C73_merged_partial {s : State} {file : Nat} {ev : Ev} (h : Reach (alone file) s) (ha : Allowed s (.merge file ev)) {w : Nat} {mask : BitVec 32}
    (hc : Event.created w file mask ∈ s.log) (hw : watching w s.log ≠ none) : ∃ l e, expected w s.log = l ++ [e] ∧ alike e ev ∧ delivered w s.log <+: l := by
  have h1 := (alone_rest h).hist
  obtain ⟨k, hk, hkf, _, p, hp, hpk, hm, hn⟩ := ha
  obtain ⟨x, hx, hf, _⟩ := h1.made w file mask hc
  cases hd : x.wd with
  | none => exact absurd (h1.stop w x hx hd).2.1 hw
  | some d =>
    rcases h1.live w x d hx hd hf with ⟨_, h2⟩ | ⟨h2, _⟩
    · have hkd : k.wd = d := by
        have key : ∀ l : List KWatch, l.Pairwise (fun a b => a.wd ≠ b.wd ∧ a.file ≠ b.file) → k ∈ l → (⟨d, x.file, x.mask⟩ : KWatch) ∈ l → k.wd = d := by
          intro l
          induction l with
          | nil => simp
          | cons a t ih =>
            intro hp m1 m2
            rw [List.pairwise_cons] at hp
            rcases List.mem_cons.1 m1 with m1 | m1 <;> rcases List.mem_cons.1 m2 with m2 | m2
            · rw [m1, ← m2]
            · refine absurd ?_ (hp.1 _ m2).2
              dsimp only
              rw [← m1, hf, hkf]
            · refine absurd ?_ (hp.1 _ m1).2
              rw [← m2, hkf]
              exact hf
            · exact ih hp.2 m1 m2
        exact key _ h1.nodup hk h2
      have h3 := h1.deliv w x d hx hd hf
      obtain ⟨q', hq'⟩ := List.getLast?_eq_some_iff.1 hp
      rw [hq', ← List.append_assoc, pend_append] at h3
      have hpd : pend d [p] = [p.2] := by
        unfold pend
        rw [List.filter_cons, if_pos (by simpa using hpk.trans hkd)]
        rfl
      rw [hpd, ← List.append_assoc] at h3
      exact ⟨_, p.2, by rw [expected_eq, h3], ⟨hm, hn⟩, _, rfl⟩
    · exact absurd h2 hw

example : ∃ s, Reach (alone 7) s ∧ Allowed s (.merge 7 ⟨2, 5, []⟩) ∧ Event.created 0 7 6 ∈ s.log ∧ watching 0 s.log ≠ none ∧
    expected 0 s.log = [⟨4, 0, []⟩, ⟨2, 0, []⟩] ∧ delivered 0 s.log = [⟨4, 0, []⟩] := by
  have h0 : Reach (alone 7) _ := .init [] List.nodup_nil
  have h1 := h0.step (a := .new 7 6 3) (race := none) (by decide) (by simp) (fun _ w m => by simp [init, watching]) rfl
  have h2 := h1.step (a := .happen 7 ⟨4, 0, []⟩) (race := none) (by decide) (by simp) trivial rfl
  have h3 := h2.step (a := .dispatch 1) (race := none) (by decide) (by simp) trivial rfl
  have h4 := h3.step (a := .happen 7 ⟨2, 0, []⟩) (race := none) (by decide) (by simp) trivial rfl
  exact ⟨_, h4, by decide, by decide, by decide, by decide, by decide⟩

/-- If the kernel has too much to report then something gets lost. The kernel reports that as well, but nobody is told about it. -/
theorem C73_lost_refuted : ∃ s, Reach distinctOk s ∧ s.queue = [] ∧ s.frame = none ∧ ¬ isStopped 0 s.log ∧ watching 0 s.log = some (7, 2) ∧
    s.log = [.opened 3, .created 0 7 2, .happened 7 ⟨2, 0, []⟩, .lost 7 ⟨2, 0, [1]⟩, .delivered 0 ⟨2, 0, []⟩] := by
  have h0 : Reach distinctOk _ := .init [] List.nodup_nil
  have h1 := h0.step (a := .new 7 2 3) (race := none) (by decide) (by simp) ⟨fun w m => by simp [init, watching], by simp⟩ rfl
  have h2 := h1.step (a := .happen 7 ⟨2, 0, []⟩) (race := none) (by decide) (by simp) ⟨trivial, by simp⟩ rfl
  have h3 := h2.step (a := .lose 7 ⟨2, 0, [1]⟩) (race := none) (by decide) (by simp) ⟨trivial, by simp⟩ rfl
  have h4 := h3.step (a := .dispatch 2) (race := none) (by decide) (by simp) ⟨trivial, by simp⟩ rfl
  have h5 := h4.step (a := .ret) (race := none) (by decide) (by simp) ⟨trivial, by simp⟩ rfl
  exact ⟨_, h5, rfl, rfl, by unfold isStopped; decide, by decide, rfl⟩

/-- **Partial**: only if reading from the descriptor never fails. As long as there are events in the queue, the main loop will dispatch them, one or more at once. -/
theorem C73_dispatch_partial {s : State} (h : Reach readable s) (hf : s.frame = none) (hq : s.queue ≠ []) {n : Nat} (h1 : 1 ≤ n) (hn : n ≤ s.queue.length) :
    Allowed s (.dispatch n) := by
  have hr := readable_rest h
  cases hi : s.inst with
  | none => exact absurd (hr.inv.noInst hi).2.2.1 hq
  | some i => exact ⟨h1, hn, hf, i, hi, hr.fd.source trivial i hi⟩

example : ∃ s, Reach readable s ∧ s.frame = none ∧ s.queue = [(1, ⟨2, 0, []⟩)] := by
  have h0 : Reach readable _ := .init [] List.nodup_nil
  have h1 := h0.step (a := .new 7 6 3) (race := none) (by decide) (by simp) (fun e => by cases e) rfl
  have h3 := h1.step (a := .happen 7 ⟨2, 0, []⟩) (race := none) (by decide) (by simp) (fun e => by cases e) rfl
  exact ⟨_, h3, rfl, rfl⟩

/-- If the file is being watched already then a new watch may be told about what happened before it was created, and which it wasn't created for. -/
theorem C73_early_refuted : ∃ s, Reach anything s ∧ watching 1 s.log = some (7, 4) ∧ expected 1 s.log = [⟨4, 0, []⟩] ∧ delivered 1 s.log = [⟨2, 0, []⟩, ⟨4, 0, []⟩] := by
  obtain ⟨s, h, e⟩ := shared_exists
  exact ⟨s, h, by rw [e]; decide, by rw [e]; decide, by rw [e]; decide⟩

/-- If the same file is being watched by two watches then only the second one is told about it, even though the first one was created
for the same events, and none of them has been stopped. -/
theorem C73_shared_refuted : ∃ s, Reach anything s ∧ s.queue = [] ∧ s.frame = none ∧
    ¬ isStopped 0 s.log ∧ watching 0 s.log = some (7, 2) ∧ expected 0 s.log = [⟨2, 0, []⟩] ∧ delivered 0 s.log = [] ∧ delivered 1 s.log = [⟨2, 0, []⟩] := by
  obtain ⟨s, e, h⟩ := reach_exec (l := [.new 7 2 3, .new 7 2 3, .happen 7 ⟨2, 0, []⟩, .dispatch 1, .ret]) (.init [] List.nodup_nil) (by decide)
  cases e
  exact ⟨_, h, rfl, rfl, by unfold isStopped; decide, by decide, by decide, by decide, by decide⟩

/-- If one of them is destroyed then the other one isn't told about anything anymore. -/
theorem C73_destroyed_refuted : ∃ s, Reach anything s ∧ s.queue = [] ∧ s.frame = none ∧
    isStopped 0 s.log ∧ ¬ isStopped 1 s.log ∧ watching 1 s.log = some (7, 2) ∧ expected 1 s.log = [⟨2, 0, []⟩] ∧ delivered 1 s.log = [] := by
  obtain ⟨s, e, h⟩ := reach_exec (l := [.new 7 2 3, .new 7 2 3, .destroy 0, .happen 7 ⟨2, 0, []⟩, .dispatch 1]) (.init [] List.nodup_nil) (by decide)
  cases e
  exact ⟨_, h, by decide, by decide, by unfold isStopped; decide, by unfold isStopped; decide, by decide, by decide, by decide⟩

/-- The second watch replaces the mask of the first one, which would be reported to the first one if the second weren't there. -/
theorem C73_mask_refuted : ∃ s, Reach anything s ∧ s.queue = [] ∧ s.frame = none ∧
    ¬ isStopped 0 s.log ∧ expected 0 s.log = [⟨2, 0, []⟩] ∧ delivered 0 s.log = [] ∧ delivered 1 s.log = [] := by
  obtain ⟨s, e, h⟩ := reach_exec (l := [.new 7 2 3, .new 7 4 3, .happen 7 ⟨2, 0, []⟩]) (.init [] List.nodup_nil) (by decide)
  cases e
  exact ⟨_, h, by decide, by decide, by unfold isStopped; decide, by decide, by decide, by decide⟩

/-- After a failure to read, nothing is being dispatched anymore, even for the watches created later. -/
theorem C73_failed_refuted : ∃ s, Reach distinct s ∧ s.frame = none ∧ s.queue ≠ [] ∧ watching 1 s.log = some (8, 2) ∧ expected 1 s.log = [⟨2, 0, []⟩] ∧
    ∀ n, ¬ Allowed s (.dispatch n) := by
  have h0 : Reach distinct _ := .init [] List.nodup_nil
  have h1 := h0.step (a := .new 7 6 3) (race := none) (by decide) (by simp) (fun w m => by simp [init, watching]) rfl
  have h2 := h1.step (a := .readFails) (race := none) (by decide) (by simp) trivial rfl
  have h3 := h2.step (a := .new 8 2 3) (race := none) (by decide) (by simp) (fun w m => by
    show watching w [.opened 3, .created 0 7 6] ≠ _
    simp only [watching, List.foldl_cons, List.foldl_nil, track1]
    split <;> simp) rfl
  have h4 := h3.step (a := .happen 8 ⟨2, 0, []⟩) (race := none) (by decide) (by simp) trivial rfl
  refine ⟨_, h4, rfl, by decide, by decide, by decide, fun n hn => ?_⟩
  obtain ⟨_, _, _, i, hi, hs⟩ := hn
  cases hi
  cases hs

/-! ## C74 -/

/-- The descriptor is being used exactly as long as there are watches, or handlers are being called. -/
theorem C74_alive {s : State} (h : Reach anything s) : s.fd ≠ none ↔ (∃ w, 0 < s.owned w) ∨ s.frame ≠ none := by
  have hr := (reach_rest h).inv
  unfold State.fd
  constructor
  · intro hne
    cases hi : s.inst with
    | none => simp [hi] at hne
    | some i =>
      cases hf : s.frame with
      | some f => exact .inr (by simp)
      | none =>
        have h1 := hr.pos i hi
        have h2 := hr.refs i hi
        rw [hf] at h2
        obtain ⟨x, hx, ha⟩ := List.countP_pos_iff.1 (show 0 < s.watches.countP alive by simp only [cOf] at h2; simp at h2; omega)
        obtain ⟨w, hw⟩ := List.mem_iff_getElem?.1 hx
        have h3 := hr.own w x hw
        rw [hf, eOf_none] at h3
        dsimp only at h3
        have h4 : 0 < x.refs := of_decide_eq_true ha
        exact .inl ⟨w, by simp [State.owned, hw]; omega⟩
  · rintro (⟨w, hw⟩ | hf) hn
    · obtain ⟨x, hx, ho⟩ := owned_some hw
      obtain ⟨i, hi, _⟩ := hr.ptr w x hx (by have := hr.own w x hx; omega)
      simp [hi] at hn
    · have := (hr.noInst (by simpa using hn)).1
      cases hs : s.frame with
      | none => exact hf hs
      | some f => rw [hs] at this; cases this

/-- The descriptor which is being used has been opened, and nothing has been closed since then. -/
theorem C74_open {s : State} (h : Reach anything s) {fd : Nat} (hf : s.fd = some fd) :
    ∃ pre post, s.log = pre ++ .opened fd :: post ∧ ∀ n, .closed n ∉ post := by
  unfold State.fd at hf
  cases hi : s.inst with
  | none => simp [hi] at hf
  | some i =>
    rw [hi] at hf
    cases hf
    exact (reach_rest h).fd.isOpen i hi

example : ∃ s, Reach anything s ∧ s.fd = some 3 ∧ s.frame = none ∧ 0 < s.owned 1 ∧ s.owned 0 = 0 := by
  obtain ⟨s, e, h⟩ := reach_exec (l := sampleActs) (.init [] List.nodup_nil) (by decide)
  cases e
  exact ⟨_, h, by decide, by decide, by decide, by decide⟩

/-- Every descriptor is closed twice. -/
theorem C74_twice_refuted {s : State} (h : Reach anything s) (hf : s.fd = none) : closes s.log = 2 * opens s.log := by
  have := (reach_rest h).fd.count
  unfold State.fd at hf
  have hi : s.inst = none := by simpa using hf
  rw [hi] at this
  simpa using this

example : ∃ s, Reach anything s ∧ s.fd = none ∧ s.log = [.opened 3, .created 0 7 6, .stopped 0, .closed 3, .closed 3] := by
  obtain ⟨s, e, h⟩ := reach_exec (l := [.new 7 6 3, .destroy 0]) (.init [] List.nodup_nil) (by decide)
  cases e
  exact ⟨_, h, by decide, by decide⟩

/-- If another thread opens a file just in time then its descriptor is closed. -/
theorem C74_foreign_refuted : ∃ s s', Reach anything s ∧ Allowed s (.destroy 0) ∧ 3 ∉ s.foreign ∧
    step (some 3) s (.destroy 0) = .ok s' ∧ s'.foreign = [] := by
  obtain ⟨s, e, h⟩ := reach_exec (l := [.new 7 6 3]) (.init [] List.nodup_nil) (by decide)
  cases e
  exact ⟨_, _, h, by decide, by decide, rfl, by decide⟩

/-- **Partial**: only if no other thread opens anything between the two calls. The other descriptors aren't closed. -/
theorem C74_foreign_partial {s s' : State} {a : Act} (h : Reach anything s) (ha : Allowed s a) (h1 : ∀ fd, a ≠ .fopen fd) (h2 : ∀ fd, a ≠ .fclose fd)
    (e : step none s a = .ok s') : s'.foreign = s.foreign := by
  obtain ⟨s'', e', _, hf⟩ := rest_step (race := none) (reach_rest h) ha (by simp) (fun _ _ _ _ h => h.elim) (fun h => h.elim)
  rw [e] at e'
  cases e'
  exact hf rfl h1 h2

example : ∃ s s', Reach anything s ∧ Allowed s (.destroy 0) ∧ step none s (.destroy 0) = .ok s' ∧ s'.foreign = [5, 9] ∧ s'.fd = none := by
  obtain ⟨s, e, h⟩ := reach_exec (l := [.fopen 5, .new 7 6 3]) (.init [9] (by decide)) (by decide)
  cases e
  exact ⟨_, _, h, by decide, rfl, by decide, by decide⟩

/-! ## C93 -/

/-- Whatever the client does, including creation and destruction of the watches by handlers, and whatever happens to the files,
memory which has been released isn't used. -/
theorem C93_safe {s : State} (h : Reach anything s) {a : Act} (ha : Allowed s a) {race : Option Nat} (hr : ∀ fd, race = some fd → fd ∉ s.foreign) :
    ∃ s', step race s a = .ok s' := by
  obtain ⟨s', e, _⟩ := rest_step (reach_rest h) ha hr (fun _ _ _ _ h => h.elim) (fun h => h.elim)
  exact ⟨s', e⟩

/-- The only watch may be destroyed by its handler, with more events to come. -/
example : ∃ s, Reach anything s ∧ s.frame = some (0, [(1, ⟨4, 0, []⟩)]) ∧ s.owned 0 = 0 ∧ Allowed s .ret := by
  obtain ⟨s, e, h⟩ := reach_exec (l := [.new 7 6 3, .happen 7 ⟨2, 0, []⟩, .happen 7 ⟨4, 0, []⟩, .dispatch 2, .destroy 0]) (.init [] List.nodup_nil) (by decide)
  cases e
  exact ⟨_, h, by decide, by decide, by decide⟩

/-! ## C75 -/

/-- The buffer is split into the events which have been put there, in the same order. -/
theorem C75_parse (little : Bool) (es : List KEvent) (h : ∀ e ∈ es, NameOk e.ev.name) : parse little (es.flatMap (encode little)) = .ok es :=
  parseLoop_eq h (Nat.le_refl _)

example : ∃ es : List KEvent, (∀ e ∈ es, NameOk e.ev.name) ∧ es = [⟨1, ⟨2, 0, []⟩⟩, ⟨2, ⟨0x100, 0, [0x66, 0x6f, 0x6f]⟩⟩, ⟨1, ⟨4, 0, []⟩⟩] :=
  ⟨_, by unfold NameOk; decide, rfl⟩

/-- There's always room for one event, `read` doesn't fail because of that. -/
theorem C75_fits (little : Bool) (e : KEvent) (h : NameOk e.ev.name) : (encode little e).length ≤ bufSize := by
  rw [encode_length, padded_length]
  have := h.2
  unfold bufSize headerSize
  split <;> omega

/-- The name of the longest kind takes the whole buffer. -/
example : (encode true ⟨1, ⟨2, 0, List.replicate 255 0x41⟩⟩).length = bufSize := by decide +kernel

theorem fitting_spec (little : Bool) (es : List KEvent) (room : Nat) :
    fitting little es room ≤ es.length ∧ ((es.take (fitting little es room)).flatMap (encode little)).length ≤ room := by
  induction es generalizing room with
  | nil => exact ⟨Nat.le_refl _, Nat.zero_le _⟩
  | cons e t ih =>
    unfold fitting
    split
    · rename_i he
      have := ih (room - (encode little e).length)
      refine ⟨by simp only [List.length_cons]; omega, ?_⟩
      rw [List.take_succ_cons, List.flatMap_cons, List.length_append]
      omega
    · exact ⟨Nat.zero_le _, Nat.zero_le _⟩

/-- Whatever is in the queue, a positive number of events is taken from there by each `read`, those being the first ones in the queue, and exactly those are found in the buffer. -/
theorem C75_read (little : Bool) (queue : List KEvent) (h : ∀ e ∈ queue, NameOk e.ev.name) (hq : queue ≠ []) :
    1 ≤ fitting little queue bufSize ∧ fitting little queue bufSize ≤ queue.length ∧
      ((queue.take (fitting little queue bufSize)).flatMap (encode little)).length ≤ bufSize ∧
      parse little ((queue.take (fitting little queue bufSize)).flatMap (encode little)) = .ok (queue.take (fitting little queue bufSize)) := by
  obtain ⟨h1, h2⟩ := fitting_spec little queue bufSize
  refine ⟨?_, h1, h2, C75_parse little _ fun e he => h e (List.mem_of_mem_take he)⟩
  cases queue with
  | nil => exact absurd rfl hq
  | cons e t =>
    unfold fitting
    rw [if_pos (C75_fits little e (h e List.mem_cons_self))]
    omega

example : fitting true (List.replicate 20 ⟨1, ⟨2, 0, []⟩⟩) bufSize = 17 := by decide +kernel

/-- What follows the last complete event is ignored: nothing is read beyond the end. -/
theorem C75_truncated (little : Bool) (es : List KEvent) (h : ∀ e ∈ es, NameOk e.ev.name) {e : KEvent} (he : NameOk e.ev.name) {k : Nat}
    (hk : 16 ≤ k) (hl : k < (encode little e).length) : parse little (es.flatMap (encode little) ++ (encode little e).take k) = .ok es := by
  unfold parse
  have key : ∀ (es : List KEvent) (fuel : Nat), (∀ e ∈ es, NameOk e.ev.name) → (es.flatMap (encode little) ++ (encode little e).take k).length ≤ fuel →
      parseLoop little fuel (es.flatMap (encode little) ++ (encode little e).take k) = .ok es := by
    intro es
    induction es with
    | nil =>
      intro fuel _ hf
      simp only [List.flatMap_nil, List.nil_append, List.length_take] at hf ⊢
      obtain ⟨m, rfl⟩ : ∃ m, fuel = m + 1 := ⟨fuel - 1, by omega⟩
      unfold parseLoop
      have f : field little ((encode little e).take k) 12 = .ok (BitVec.ofNat 32 (padded e.ev.name).length) := by
        have : (encode little e).take k = (word little e.wd ++ word little e.ev.mask ++ word little e.ev.cookie) ++
          word little (BitVec.ofNat 32 (padded e.ev.name).length) ++ (padded e.ev.name).take (k - 16) := by
          have e1 : encode little e = (word little e.wd ++ word little e.ev.mask ++ word little e.ev.cookie ++
            word little (BitVec.ofNat 32 (padded e.ev.name).length)) ++ padded e.ev.name := rfl
          rw [e1, List.take_append, List.take_of_length_le (by simp only [List.length_append, word_length]; omega)]
          simp only [List.length_append, word_length]
        rw [this]
        exact field_word (by simp only [List.length_append, word_length])
      have hl' := encode_length little e
      rw [if_pos (by rw [List.length_take]; omega), f, ok_bind, len_toNat he, if_pos (by rw [List.length_take]; unfold headerSize; omega)]
    | cons x t ih =>
      intro fuel h hf
      have hx := h x List.mem_cons_self
      rw [List.flatMap_cons, List.append_assoc] at hf ⊢
      have hl := encode_length little x
      rw [List.length_append] at hf
      obtain ⟨m, rfl⟩ : ∃ m, fuel = m + 1 := ⟨fuel - 1, by omega⟩
      unfold parseLoop
      rw [if_pos (by rw [List.length_append]; omega)]
      have f : ∀ rest, field little (encode little x ++ rest) 12 = .ok (BitVec.ofNat 32 (padded x.ev.name).length) := by
        intro rest
        have : encode little x ++ rest = (word little x.wd ++ word little x.ev.mask ++ word little x.ev.cookie) ++
          word little (BitVec.ofNat 32 (padded x.ev.name).length) ++ (padded x.ev.name ++ rest) := by simp [encode]
        rw [this]
        exact field_word (by simp only [List.length_append, word_length])
      rw [f, ok_bind, len_toNat hx, if_neg (by rw [List.length_append, hl]; unfold headerSize; omega), parseEvent_eq hx, ok_bind]
      have hd : ∀ rest, (encode little x ++ rest).drop (headerSize + (padded x.ev.name).length) = rest := fun rest => List.drop_left' hl
      rw [hd, ih m (fun y hy => h y (List.mem_cons_of_mem _ hy)) (by omega), ok_bind]
  exact key es _ h (Nat.le_refl _)

example : 16 ≤ 20 ∧ 20 < (encode true ⟨2, ⟨0x100, 0, [0x66, 0x6f, 0x6f]⟩⟩).length := by decide

end Verif.Inotify
