import Verif.Proof.MiscCb

/-!
# Properties of `gutil_disconnect_handlers` and `gutil_source_clear` whose notifications use the same ids

Both functions zero the id after GLib has called the notification, so it's there for the notification to see.
-/

namespace Verif.MiscCb
open Verif.C

/-- A run without additional rules -/
def any (s : State) (l : List Act) : Option State := exec (fun _ _ => True) s l

/-- A run where notifications leave the ids which are being disconnected alone -/
def polite (s : State) (l : List Act) : Option State := exec Polite s l

/-- C110, full statement: however notifications use these functions, nothing is disconnected or removed twice, and when nothing is
in progress, the ids are those of existing handlers and sources. It's false in four ways, each one within the rules.

A notification which calls `gutil_disconnect_handlers` for the same array disconnects the same handler again. -/
theorem C110_disconnect_refuted : ∃ s : State, Reach (fun _ _ => True) s ∧ Allowed s (.disconnect 1) ∧
    step s (.disconnect 1) = .error .badArg := by
  refine ⟨(any (new 1) [.connect 0, .disconnect 1]).get (by decide +kernel), ?_, by decide +kernel, by decide +kernel⟩
  exact exec_reach .new (Option.some_get _).symm

/-- One which calls `gutil_source_clear` for the same variable removes the same source again. -/
theorem C110_clear_refuted : ∃ s : State, Reach (fun _ _ => True) s ∧ Allowed s .clear ∧ step s .clear = .error .badArg := by
  refine ⟨(any (new 0) [.add, .clear]).get (by decide +kernel), ?_, by decide +kernel, by decide +kernel⟩
  exact exec_reach .new (Option.some_get _).symm

/-- If the notification connects the handler again and stores its id in the same place, the id gets lost. -/
theorem C110_handler_lost_refuted : ∃ s : State, Reach (fun _ _ => True) s ∧ s.stack = [] ∧ s.handlers = [2] ∧ s.ids = [0] ∧
    ¬ Exact s.ids s.handlers := by
  refine ⟨(any (new 1) [.connect 0, .disconnect 1, .connect 0, .ret]).get (by decide +kernel), ?_, by decide +kernel,
    by decide +kernel, by decide +kernel, ?_⟩
  · exact exec_reach .new (Option.some_get _).symm
  · unfold Exact; decide +kernel

/-- If it adds another source and stores its id in the same variable, that id gets lost. -/
theorem C110_source_lost_refuted : ∃ s : State, Reach (fun _ _ => True) s ∧ s.stack = [] ∧ s.sources = [2] ∧ s.id = 0 ∧
    ¬ Exact [s.id] s.sources := by
  refine ⟨(any (new 0) [.add, .clear, .add, .ret]).get (by decide +kernel), ?_, by decide +kernel,
    by decide +kernel, by decide +kernel, ?_⟩
  · exact exec_reach .new (Option.some_get _).symm
  · unfold Exact; decide +kernel

/-- The remaining part: nothing goes wrong if notifications leave alone the ids which are being disconnected or removed. They may
use all the other ones, and disconnect other parts of the same array. -/
theorem C110_safe_partial {s : State} {a : Act} (h : Reach Polite s) (ha : Allowed s a) (hp : Polite s a) :
    ∃ s', step s a = .ok s' := by
  obtain ⟨s', h1, _⟩ := step_inv (reach_inv h) ha hp
  exact ⟨s', h1⟩

/-- And when nothing is in progress, the ids are those of existing handlers and sources. -/
theorem C110_exact_partial {s : State} (h : Reach Polite s) (hs : s.stack = []) :
    Exact s.ids s.handlers ∧ Exact [s.id] s.sources := by
  have hi := reach_inv h
  constructor
  · rw [Exact, List.perm_iff_count]
    intro x
    have h1 := hi.ids x
    rw [hs] at h1
    by_cases h0 : x = 0
    · subst h0
      rw [List.count_eq_zero_of_not_mem (by simp), List.count_eq_zero_of_not_mem]
      intro hm
      have := hi.lt 0 (List.mem_append_right _ hm)
      omega
    · rw [List.count_filter (by simpa using h0)]
      exact h1 h0
  · have hn : Frame.clear ∉ s.stack := by rw [hs]; simp
    rcases hi.idle hn with ⟨e0, e⟩ | ⟨e0, e⟩
    · rw [e0, e]; unfold Exact; decide
    · rw [e, Exact, List.filter_cons, if_pos (by simpa using e0)]
      exact List.Perm.refl _

/-- Even in the middle of something, nothing has been disconnected or removed twice, and what has been isn't there anymore. -/
theorem C110_once_partial {s : State} (h : Reach Polite s) :
    s.disconnected.Nodup ∧ s.removed.Nodup ∧ (∀ x ∈ s.handlers, x ∉ s.disconnected) ∧ ∀ x ∈ s.sources, x ∉ s.removed := by
  have hi := reach_inv h
  have h1 := List.nodup_append.mp hi.once
  have h2 := List.nodup_append.mp hi.once'
  exact ⟨h1.1, h2.1, fun x hx hd => h1.2.2 x hd x hx rfl, fun x hx hd => h2.2.2 x hd x hx rfl⟩

/-- What a call does if its notifications do nothing: the handlers whose ids are among the first `count` ones are disconnected in
that order, and these ids are zeroed. Other ids and everything else is as it was, and the call is over after that many
notifications. -/
theorem C110_disconnect_partial {s : State} (h : Reach Polite s) (hs : s.stack = []) {count : Nat} (hc : count ≤ s.ids.length) :
    ∃ s1 s2, step s (.disconnect count) = .ok s1 ∧ rets s1 ((s.ids.take count).filter (· ≠ 0)).length = .ok s2 ∧ s2.stack = [] ∧
      s2.ids = List.replicate count 0 ++ s.ids.drop count ∧
      s2.disconnected = s.disconnected ++ (s.ids.take count).filter (· ≠ 0) ∧
      Exact (s.ids.drop count) s2.handlers ∧ s2.id = s.id ∧ s2.sources = s.sources ∧ s2.removed = s.removed := by
  have hi := reach_inv h
  have hex := (C110_exact_partial h hs).1
  have hsplit : (s.ids.take count ++ s.ids.drop count).filter (· ≠ 0) = s.ids.filter (· ≠ 0) := by rw [List.take_append_drop]
  rw [List.filter_append] at hsplit
  have hnd : (s.ids.filter (· ≠ 0)).Nodup := hex.symm.nodup (List.nodup_append.mp hi.once).2.1
  rw [← hsplit] at hnd
  obtain ⟨s1, s2, g1, g2, g3, g4⟩ := loop_run count [] (s.ids.take count) (s.ids.drop count) s
    (by rw [List.length_take]; omega) (by rw [List.nil_append, List.take_append_drop])
    (fun x hx h0 => hex.mem_iff.mp (List.mem_filter.mpr ⟨List.mem_of_mem_take hx, by simpa using h0⟩))
    (List.nodup_append.mp hnd).1
  refine ⟨s1, s2, g1, g2, by rw [g3]; exact hs, by rw [g3]; rfl, by rw [g3], ?_, by rw [g3], by rw [g3], by rw [g3]⟩
  rw [Exact, List.perm_iff_count]
  intro x
  have h1 := g4 x
  have h2 := List.perm_iff_count.mp hex x
  rw [← hsplit, List.count_append] at h2
  omega

/-- The same for a source. -/
theorem C110_clear_partial {s : State} (h : Reach Polite s) (hs : s.stack = []) :
    (s.id = 0 ∧ step s .clear = .ok s) ∨
    (s.id ≠ 0 ∧ ∃ s1 s2, step s .clear = .ok s1 ∧ step s1 .ret = .ok s2 ∧
      s2 = { s with id := 0, sources := [], removed := s.removed ++ [s.id] }) := by
  have hi := reach_inv h
  have hn : Frame.clear ∉ s.stack := by rw [hs]; simp
  rcases hi.idle hn with ⟨e0, e⟩ | ⟨e0, e⟩
  · left
    refine ⟨e0, ?_⟩
    simp [step, clear, e0]
  · right
    have hm : s.id ∈ s.sources := by rw [e]; exact List.mem_singleton.mpr rfl
    refine ⟨e0, _, _, by simp only [step, clear]; rw [if_pos e0, if_pos hm], rfl, ?_⟩
    simp only [hs, e, List.erase_cons_head]

/-! ## Examples -/

/-- Three handlers and a source. The notification of the second handler disconnects the first slot, which has been connected again by
then, and removes the source; the notification of the source connects another handler. -/
def busyRun : List Act :=
  [.connect 0, .connect 1, .connect 2, .add, .disconnect 3, .ret, .connect 0, .clear, .disconnect 1, .ret, .ret, .ret, .connect 0,
   .ret]

example : polite (new 4) busyRun = some
    { ids := [6, 0, 0, 0], handlers := [6], id := 0, sources := [], next := 7, stack := [], disconnected := [1, 2, 5, 3],
      removed := [4] } := by decide +kernel

/-- The hypotheses of the theorems about a single step are met in the middle of that run. -/
example : ∃ s, polite (new 4) (busyRun.take 8) = some s ∧ s.stack = [.clear, .disconnect 1 1] ∧ Allowed s (.disconnect 1) ∧
    Polite s (.disconnect 1) ∧ step s (.disconnect 1) ≠ .ok s :=
  ⟨(polite (new 4) (busyRun.take 8)).get (by decide +kernel), by decide +kernel, by decide +kernel, by decide +kernel,
   by decide +kernel, by decide +kernel⟩

/-- A state where `C110_disconnect_partial` and `C110_clear_partial` apply -/
example : ∃ s, polite (new 3) [.connect 0, .connect 2, .add] = some s ∧ s.stack = [] ∧ s.ids = [1, 0, 2] ∧ s.id = 3 :=
  ⟨(polite (new 3) [.connect 0, .connect 2, .add]).get (by decide +kernel), by decide +kernel, by decide +kernel,
   by decide +kernel, by decide +kernel⟩

end Verif.MiscCb
