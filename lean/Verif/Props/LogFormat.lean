import Verif.Proof.LogFormatAny

/-!
# C127: several threads and the timestamp format
-/

namespace Verif.LogFormat
open Verif.C

/-- The threads which are in `gutil_log_set_timestamp_format`, for examples -/
def inside (h : List Event) : List Nat :=
  h.foldl (fun l e => match e with | .setting t _ => t :: l | .set t => l.filter (· != t) | _ => l) []

theorem inside_snoc (h : List Event) (e : Event) :
    inside (h ++ [e]) = match e with | .setting t _ => t :: inside h | .set t => (inside h).filter (· != t) | _ => inside h := by
  unfold inside
  rw [List.foldl_append]
  rfl

theorem inside_rev (t : Nat) : ∀ l : List Event, t ∈ inside l.reverse ↔ Pending t l.reverse := by
  intro l
  induction l with
  | nil =>
    constructor
    · intro h; cases h
    · rintro ⟨f, a, b, h, _⟩; simp at h
  | cons e l ih =>
    rw [List.reverse_cons, inside_snoc, pending_snoc, ← ih]
    cases e with
    | setting u f =>
      by_cases e : t = u
      · simp [e]
      · simp [e, Ne.symm e]
    | set u =>
      by_cases e : t = u
      · simp [e]
      · simp [e, Ne.symm e]
    | _ => simp

instance (h : List Event) : Decidable (Busy h) :=
  decidable_of_iff (inside h ≠ []) (by
    have k := fun t => inside_rev t h.reverse
    rw [List.reverse_reverse] at k
    constructor
    · intro hn
      obtain ⟨t, ht⟩ := List.exists_mem_of_ne_nil _ hn
      exact ⟨t, (k t).1 ht⟩
    · rintro ⟨t, ht⟩ hn
      have := (k t).2 ht
      rw [hn] at this
      cases this)

instance (s : State) (a : Act) : Decidable (Allowed s a) := by cases a <;> unfold Allowed <;> infer_instance

instance (s : State) (a : Act) : Decidable (Serial s a) := by cases a <;> unfold Serial <;> infer_instance

/-- Does all that, as long as it's allowed; for examples. -/
def runs (P : State → Act → Prop) [∀ s a, Decidable (P s a)] (s : State) : List Act → Option State
  | [] => some s
  | a :: l => if Allowed s a ∧ P s a then match step s a with | .ok s' => runs P s' l | .error _ => none else none

theorem reach_runs {P : State → Act → Prop} [∀ s a, Decidable (P s a)] : ∀ {l : List Act} {s s' : State}, Reach P s → runs P s l = some s' → Reach P s' := by
  intro l
  induction l with
  | nil => intro s s' h hs; cases hs; exact h
  | cons a l ih =>
    intro s s' h hs
    rw [runs] at hs
    split at hs
    · rename_i hp
      split at hs
      · rename_i s1 h1
        exact ih (.step h hp.1 hp.2 h1) hs
      · cases hs
    · cases hs

/-- The case where the actions lead to a state with these properties -/
theorem reach_case {P : State → Act → Prop} [∀ s a, Decidable (P s a)] {l : List Act} {Q : State → Prop} (h : ∃ s, runs P init l = some s ∧ Q s) :
    ∃ s, Reach P s ∧ Q s := by
  obtain ⟨s, h1, h2⟩ := h
  exact ⟨s, reach_runs .init h1, h2⟩

/-- If calls of `gutil_log_set_timestamp_format` don't overlap each other, the only thing that may go wrong is that a thread which is logging something
uses the memory which has been freed. That only happens if `gutil_log_set_timestamp_format` was being called when that thread began to log, or has been called since then.
The full statement would be that nothing goes wrong whatever the threads do; see `C127_reader_refuted`, `C127_setters_refuted`. -/
theorem C127_serial_safe_partial {s : State} (h : Reach Serial s) (a : Act) (ha : Allowed s a) (hp : Serial s a) :
    (∃ s', step s a = .ok s') ∨
    ∃ t before during, a = .next t ∧ step s a = .error .useAfterFree ∧ During t s.hist before during ∧ Overlap before during := by
  rcases step_inv (reach_inv h) ha hp with ⟨s', h1, _⟩ | h1
  · exact .inl ⟨s', h1⟩
  · exact .inr h1

/-- If calls of `gutil_log_set_timestamp_format` don't overlap each other nor what's being logged, then the format used is the last one that was set
before, or the default one. -/
theorem C127_quiet {s : State} (h : Reach Serial s) {t : Nat} {x : Option Str} {before during after : List Event}
    (hh : s.hist = before ++ .logging t :: (during ++ .logged t x :: after)) (hd : .logging t ∉ during) (ho : ¬ Overlap before during) :
    x = used (formatOf before) :=
  (reach_inv h).done before during after t x hh hd ho

/-- If calls of `gutil_log_set_timestamp_format` don't overlap each other then, whenever nobody is there, there's exactly one copy in memory,
that of the last format that was set, or none if that was `NULL`. -/
theorem C127_memory {s : State} (h : Reach Serial s) (hb : ¬ Busy s.hist) :
    s.mem.heap.filterMap id = (formatOf s.hist).toList := by
  have i := reach_inv h
  have hq : ∀ u, setter (s.pc u) = false := by
    intro u
    cases hp : setter (s.pc u) with
    | false => rfl
    | true => exact absurd ⟨u, (i.pend u).2 hp⟩ hb
  have hc := i.clean hq
  have key : ∀ (l : Heap), l.countP Option.isSome = 0 → l.filterMap id = [] := by
    intro l hl
    rw [List.filterMap_eq_nil_iff]
    intro x hx
    have := List.countP_eq_zero.1 hl x hx
    cases x with
    | none => rfl
    | some y => simp at this
  cases hf : formatOf s.hist with
  | none =>
    rw [hf] at hc
    rw [key _ hc.2.2]
    rfl
  | some f =>
    rw [hf] at hc
    obtain ⟨a, _, _, h1, h2⟩ := hc
    obtain ⟨ha, hv⟩ := List.getElem?_eq_some_iff.mp h1
    have e : s.mem.heap = s.mem.heap.take a ++ some f :: s.mem.heap.drop (a + 1) := by
      rw [← hv, List.getElem_cons_drop, List.take_append_drop]
    have h3 : s.mem.heap.countP Option.isSome = 1 := h2
    rw [e, List.countP_append, List.countP_cons, if_pos Option.isSome_some] at h3
    rw [e, List.filterMap_append, List.filterMap_cons_some (b := f) (by rfl), key _ (by omega), key _ (by omega)]
    rfl

/-- Whatever the threads do, nothing goes wrong except that memory which has been freed is used or freed again... -/
theorem C127_any {s : State} (h : AnyReach s) (a : Act) (ha : Allowed s a) :
    (∃ s', step s a = .ok s') ∨ step s a = .error .useAfterFree ∨ step s a = .error .doubleFree := by
  rcases step_any (reach_any h) ha with ⟨s', h1, _⟩ | h1
  · exact .inl ⟨s', h1⟩
  · exact .inr h1

/-- ... and every format that's used is one of those which were given to `gutil_log_set_timestamp_format`, or the default one. -/
theorem C127_known {s : State} (h : AnyReach s) {t : Nat} {f : Str} (hl : .logged t (some f) ∈ s.hist) :
    f = Log.Spec.ascii "%Y-%m-%d %H:%M:%S " ∨ ∃ u, .setting u (some f) ∈ s.hist :=
  (reach_any h).logged t f hl

/-- One thread sets the format, with nothing else going on. -/
def setUp : List Act := .set 0 (some [65]) :: List.replicate 7 (.next 0)

/-- A thread which is logging something uses freed memory if another one sets a different format meanwhile, and even if it begins
to log after the old one has been freed, if the other one is setting it to `NULL`. -/
theorem C127_reader_refuted :
    (∃ s, Reach Serial s ∧ ¬ Busy s.hist ∧ Allowed s (.next 1) ∧ step s (.next 1) = .error .useAfterFree) ∧
    ∃ s s', Reach Serial s ∧ s.mem.heap.filterMap id = [] ∧ Allowed s (.log 1) ∧ runs Serial s [.log 1, .next 1] = some s' ∧ step s' (.next 1) = .error .useAfterFree := by
  constructor
  · exact reach_case (P := Serial) (l := setUp ++ [.log 1, .next 1, .set 0 (some [66])] ++ List.replicate 7 (.next 0)) ⟨_, rfl, by decide, by decide, rfl⟩
  · obtain ⟨s, h1, h2⟩ := reach_case (P := Serial) (l := setUp ++ [.set 0 none, .next 0, .next 0, .next 0]) (Q := fun s => s.mem.heap.filterMap id = [] ∧ Allowed s (.log 1) ∧
      ∃ s', runs Serial s [.log 1, .next 1] = some s' ∧ step s' (.next 1) = .error .useAfterFree) ⟨_, rfl, by decide, by decide, _, rfl, rfl⟩
    obtain ⟨h3, h4, s', h5, h6⟩ := h2
    exact ⟨s, s', h1, h3, h4, h5, h6⟩

/-- Two threads which set the format at the same time may free the same memory twice, may use the memory which has been freed, and may forget one of the copies so that it's never freed. -/
theorem C127_setters_refuted :
    (∃ s, AnyReach s ∧ Allowed s (.next 1) ∧ step s (.next 1) = .error .doubleFree) ∧
    (∃ s, AnyReach s ∧ setter (s.pc 1) = true ∧ step s (.next 1) = .error .useAfterFree) ∧
    ∃ s, AnyReach s ∧ ¬ Busy s.hist ∧ s.mem.heap.filterMap id = [[66], [65]] := by
  refine ⟨?_, ?_, ?_⟩
  · exact reach_case (P := fun _ _ => True) (l := setUp ++ [.set 0 none, .set 1 none, .next 0, .next 1, .next 0, .next 1, .next 0]) ⟨_, rfl, by decide, rfl⟩
  · exact reach_case (P := fun _ _ => True) (l := setUp ++ [.set 1 (some [66]), .next 1, .set 0 none, .next 0, .next 0, .next 0]) ⟨_, rfl, by decide, rfl⟩
  · exact reach_case (P := fun _ _ => True) (l := [.set 0 (some [65]), .set 1 (some [66])] ++ List.replicate 3 (.next 0) ++ List.replicate 7 (.next 1) ++ List.replicate 4 (.next 0)) ⟨_, rfl, by decide, by decide⟩

/-- `C127_serial_safe_partial`, `C127_memory`: one thread has set the format, another one is logging. -/
example : ∃ s, Reach Serial s ∧ Allowed s (.next 1) ∧ Serial s (.next 1) ∧ ¬ Busy s.hist ∧ s.mem.heap.filterMap id = [[65]] :=
  reach_case (P := Serial) (l := setUp ++ [.log 1, .next 1]) ⟨_, rfl, by decide, trivial, by decide, by decide⟩

/-- `C127_quiet`, `C127_known`: it has logged something, using that format. -/
example : ∃ s, Reach Serial s ∧ s.hist = [.setting 0 (some [65]), .set 0] ++ .logging 1 :: ([] ++ .logged 1 (some [65]) :: []) ∧ ¬ Overlap [.setting 0 (some [65]), .set 0] [] ∧
    used (formatOf [.setting 0 (some [65]), .set 0]) = some [65] :=
  reach_case (P := Serial) (l := setUp ++ [.log 1, .next 1, .next 1, .next 1, .next 1]) ⟨_, rfl, by decide, (by
    rintro (h | ⟨u, f, h⟩)
    · revert h; decide
    · cases h), by decide⟩

/-- `C127_any`: both threads are setting the format. -/
example : ∃ s, AnyReach s ∧ Allowed s (.next 1) ∧ s.pc 0 = .setCmp [65] none ∧ s.pc 1 = .clrTest :=
  reach_case (P := fun _ _ => True) (l := [.set 0 (some [65]), .next 0, .set 1 none]) ⟨_, rfl, by decide, rfl, rfl⟩

end Verif.LogFormat
