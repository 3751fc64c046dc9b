import Verif.Proof.IdleThreadsApart

/-!
# C129: an idle queue which another thread adds to
-/

namespace Verif.IdleThreads
open Verif.C

/-- **C129** As long as the thread doesn't add anything while the main loop is running the callbacks (and the other way around) nothing bad happens. -/
theorem C129_safe_partial {s : State} (h : Reach Apart s) {a : Act} (ha : Allowed s a) (hp : Apart s a) : ∃ s', step s a = .ok s' := by
  obtain ⟨k0, k, hi⟩ := reach_ok h
  obtain ⟨s', -, -, h1, -⟩ := step_ok hi ha hp
  exact ⟨s', h1⟩

/-- **C129** Under the same rule, callbacks are run in the order in which they were added, each one once. If neither of the two is doing anything, and something hasn't been
run, then there's a source (just one), i.e. the main loop is going to run it. -/
theorem C129_order_partial {s : State} (h : Reach Apart s) :
    runs s.hist <+: adds s.hist ∧
      (¬ Adding s.hist → ¬ Running s.hist → runs s.hist ≠ adds s.hist → ∃ id, s.live = [id]) := by
  obtain ⟨k0, k, hi⟩ := reach_ok h
  have hmain := hi.main
  have hpre : ∃ j, runs s.hist = (adds s.hist).take j := by
    unfold MainOk at hmain
    split at hmain
    all_goals grind
  refine ⟨?_, fun h1 h2 h3 => ?_⟩
  · obtain ⟨j, hj⟩ := hpre
    rw [hj]
    exact List.take_prefix ..
  · have hw : s.work = .idle := Classical.byContradiction (fun hn => h1 (hi.adding.2 hn))
    have hm : s.main = .idle := Classical.byContradiction (fun hn => h2 (hi.running.2 hn))
    have hsrc := hi.src
    rw [hw, hm] at hsrc
    rw [hm] at hmain
    obtain ⟨hs, hl⟩ := hsrc
    have hk : k < s.items.length := by
      refine Classical.byContradiction (fun hn => h3 ?_)
      rw [hmain.2, List.take_of_length_le]
      rw [hi.data, List.length_map]
      omega
    cases hx : s.source with
    | none => exact (hs hk hx).elim
    | some id => exact ⟨id, by rw [hl, hx]; rfl⟩

/-- **C129** Under the same rule, if there's a source and the thread isn't adding anything, the main loop runs everything, in a number of steps which is proportional to
what has been added, and then there are no sources. -/
theorem C129_run_partial {s : State} (h : Reach Apart s) (h1 : ¬ Adding s.hist) (h2 : ¬ Running s.hist) {id : Nat} (hid : id ∈ s.live) :
    ∃ n s', n ≤ 12 * (adds s.hist).length + 10 ∧ exec s (.dispatch id :: List.replicate n .main) = .ok s' ∧
      adds s'.hist = adds s.hist ∧ runs s'.hist = adds s.hist ∧ ¬ Running s'.hist ∧ s'.live = [] := by
  obtain ⟨k0, k, hi⟩ := reach_ok h
  have hw : s.work = .idle := Classical.byContradiction (fun hn => h1 (hi.adding.2 hn))
  have hm : s.main = .idle := Classical.byContradiction (fun hn => h2 (hi.running.2 hn))
  obtain ⟨n, s', k0', k', b1, b2, b3, b4, b5, b6, b7, b8⟩ := main_runs _ (dispatch_ok hi hw hm hid) hw (fun h => by cases h) (Nat.le_refl _)
  have e : adds s'.hist = adds s.hist := b6.trans (adds_running _)
  refine ⟨n, s', ?_, b2, e, b7.trans e, fun hr => b3.running.1 hr b4, b8⟩
  have hl : (adds s.hist).length = s.items.length := by rw [hi.data, List.length_map]
  rw [hl]
  simp only [wt] at b1
  omega

/-- **C129** Whatever the two do and in which order, unless something undefined happens, callbacks are run in the order in which they were added and none of them is run more than once.
(Some of them may never be run, see below.) -/
theorem C129_once {P : State → Act → Prop} {s : State} (h : Reach P s) : (runs s.hist).Sublist (adds s.hist) := by
  obtain ⟨lo, hi⟩ := reach_any h
  exact hi.ran.trans (List.take_sublist ..)

instance (s : State) (a : Act) : Decidable (Allowed s a) := by
  cases a <;> unfold Allowed <;> infer_instance

/-- Follows the rules as long as the actions last -/
def follow (s : State) : List Act → Option State
  | [] => some s
  | a :: l =>
    if Allowed s a then
      match step s a with
      | .ok s => follow s l
      | .error _ => none
    else none

theorem reach_follow : ∀ (l : List Act) {s s' : State}, AnyReach s → follow s l = some s' → AnyReach s' := by
  intro l
  induction l with
  | nil => intro s s' h he; cases he; exact h
  | cons a l ih =>
    intro s s' h he
    unfold follow at he
    split at he
    · rename_i ha
      cases e : step s a with
      | error x => rw [e] at he; cases he
      | ok t => rw [e] at he; exact ih (.step h ha trivial e) he
    · cases he

/-- The thread adds something to an empty queue -/
def addFirst (d : Nat) : List Act := .add d :: List.replicate 6 .work

/-- The main loop runs one callback -/
def runOne (id : Nat) : List Act := .dispatch id :: List.replicate 17 .main

/-- The source is dispatched before its id is stored. -/
def early : List Act := .add 1 :: List.replicate 5 .work ++ runOne 1 ++ [.work] ++ .add 2 :: List.replicate 4 .work

/-- What `early` does -/
def stuck : State :=
  ⟨[⟨1, none, true, true⟩, ⟨2, none, false, false⟩], some 1, some 1, some 1, [], 2, .idle, .idle, [.adding 1, .running, .ran 1, .finished, .added, .adding 2, .added]⟩

/-- **C129**, the following is false: what has been added is going to be run by the main loop, at the latest when something else is added. If the main loop runs the callbacks
before the thread has stored the id of the source then nothing is run after that, no matter how much is added. -/
theorem C129_stuck_refuted : ∃ s, AnyReach s ∧ ¬ Adding s.hist ∧ ¬ Running s.hist ∧ adds s.hist = [1, 2] ∧ runs s.hist = [1] ∧
    ∀ s', Later s s' → runs s'.hist = [1] := by
  refine ⟨stuck, reach_follow early .init (by decide +kernel), ?_, ?_, by decide, by decide, ?_⟩
  · exact adding_added [.adding 1, .running, .ran 1, .finished, .added, .adding 2]
  · intro h
    have h := (running_append (h := [.adding 1, .running, .ran 1, .finished, .added, .adding 2]) (e := .added) (fun h => by cases h) (fun h => by cases h)).1 h
    have h := (running_append (h := [.adding 1, .running, .ran 1, .finished, .added]) (e := .adding 2) (fun h => by cases h) (fun h => by cases h)).1 h
    have h := (running_append (h := [.adding 1, .running, .ran 1, .finished]) (e := .added) (fun h => by cases h) (fun h => by cases h)).1 h
    exact running_finished [.adding 1, .running, .ran 1] h
  · intro s' h
    suffices hh : s'.main = .idle ∧ s'.live = [] ∧ s'.source = some 1 ∧ s'.work ≠ .attach ∧ (∀ id, s'.work ≠ .store id) ∧ runs s'.hist = [1] from hh.2.2.2.2.2
    induction h with
    | refl => exact ⟨rfl, rfl, rfl, (fun h => by cases h), (fun id h => by cases h), by decide⟩
    | @step t t' a _ ha hs ih =>
      obtain ⟨i1, i2, i3, i4, i5, i6⟩ := ih
      cases a with
      | add d => cases hs; exact ⟨i1, i2, i3, (fun h => by cases h), (fun id h => by cases h), (runs_adding _ _).trans i6⟩
      | dispatch id => have := ha.2; rw [i2] at this; cases this
      | main => exact (ha i1).elim
      | work =>
        have hs : workStep t = .ok t' := hs
        unfold workStep at hs
        split at hs
        · cases hs
        · cases hs
          refine ⟨i1, i2, i3, ?_, ?_, i6⟩ <;> dsimp only <;> split <;> simp
        · split at hs
          · cases hs; exact ⟨i1, i2, i3, (fun h => by cases h), (fun id h => by cases h), i6⟩
          · cases hs
        · obtain ⟨i, -, hs⟩ := bind_ok hs
          cases hs
          exact ⟨i1, i2, i3, (fun h => by cases h), (fun id h => by cases h), i6⟩
        · cases hs; exact ⟨i1, i2, i3, (fun h => by cases h), (fun id h => by cases h), i6⟩
        · cases hs; exact ⟨i1, i2, i3, (fun h => by cases h), (fun id h => by cases h), i6⟩
        · rw [if_pos (by rw [i3]; rfl)] at hs
          cases hs
          exact ⟨i1, i2, i3, (fun h => by cases h), (fun id h => by cases h), (runs_added _).trans i6⟩
        · exact (i4 ‹_›).elim
        · exact (i5 _ ‹_›).elim

/-- Something is added after the main loop has read `next` of the last item. -/
def late : List Act := addFirst 1 ++ .dispatch 1 :: List.replicate 6 .main ++ .add 2 :: List.replicate 5 .work ++ List.replicate 11 .main ++ addFirst 3 ++ runOne 2

/-- **C129**, the following is false: what has been added is run before what's added later. It may be lost. -/
theorem C129_lost_refuted : ∃ s, AnyReach s ∧ adds s.hist = [1, 2, 3] ∧ runs s.hist = [1, 3] ∧ s.hist.getLast? = some .finished :=
  ⟨⟨[⟨1, none, true, true⟩, ⟨2, none, false, false⟩, ⟨3, none, true, true⟩], none, none, none, [], 3, .idle, .idle,
    [.adding 1, .added, .running, .adding 2, .added, .ran 1, .finished, .adding 3, .added, .running, .ran 3, .finished]⟩, reach_follow late .init (by decide +kernel), by decide, by decide, by decide⟩

/-- **C129**, the following is false: nothing bad happens. The thread may use an item which has been freed by the main loop. -/
theorem C129_freed_refuted : ∃ s, AnyReach s ∧ Allowed s .work ∧ step s .work = .error .useAfterFree := by
  refine ⟨⟨[⟨1, none, true, true⟩, ⟨2, none, false, false⟩], none, none, none, [], 2, .idle, .link 1 0, [.adding 1, .added, .adding 2, .running, .ran 1, .finished]⟩,
    reach_follow (addFirst 1 ++ .add 2 :: List.replicate 2 .work ++ runOne 1) .init (by decide +kernel), by decide, by decide⟩

/-- **C129** ... or a null pointer. -/
theorem C129_null_refuted : ∃ s, AnyReach s ∧ Allowed s .work ∧ step s .work = .error .nullDeref := by
  refine ⟨⟨[⟨1, none, true, true⟩, ⟨2, none, false, false⟩], none, none, none, [], 2, .idle, .last 1, [.adding 1, .added, .adding 2, .running, .ran 1, .finished]⟩,
    reach_follow (addFirst 1 ++ .add 2 :: List.replicate 1 .work ++ runOne 1) .init (by decide +kernel), by decide, by decide⟩

/-! Something happens under the rule: two callbacks are added, then run, then one more is added. -/

/-- The rule is followed if it's followed by the two. -/
theorem reach_apart : ∀ (l : List Act) {s s' : State}, Reach Apart s → follow s l = some s' →
    (∀ a b t, l = a ++ b → follow s a = some t → (∀ d, b.head? = some (.add d) → t.main = .idle) ∧ (∀ id, b.head? = some (.dispatch id) → t.work = .idle)) → Reach Apart s' := by
  intro l
  induction l with
  | nil => intro s s' h he _; cases he; exact h
  | cons a l ih =>
    intro s s' h he hp
    unfold follow at he
    split at he
    · rename_i ha
      cases e : step s a with
      | error x => rw [e] at he; cases he
      | ok t =>
        rw [e] at he
        have h0 := hp [] (a :: l) s rfl rfl
        obtain ⟨k0, k, hi⟩ := reach_ok h
        have hap : Apart s a := by
          cases a with
          | add d => exact fun hr => hi.running.1 hr (h0.1 d rfl)
          | dispatch id => exact fun hr => hi.adding.1 hr (h0.2 id rfl)
          | work => trivial
          | main => trivial
        refine ih (.step h ha hap e) he (fun b c u hb hu => hp (a :: b) c u (by rw [hb]; rfl) ?_)
        unfold follow
        rw [if_pos ha, e]
        exact hu
    · cases he

/-- Two callbacks are added, both are run, one more is added. -/
def example1 : List Act := addFirst 7 ++ .add 8 :: List.replicate 5 .work ++ .dispatch 1 :: List.replicate 27 .main ++ addFirst 9

/-- No rule is broken: checks that for all beginnings of the list -/
def calm (s : State) (l : List Act) : Bool :=
  match l with
  | [] => true
  | a :: l =>
    (match a with | .add _ => s.main = .idle | .dispatch _ => s.work = .idle | _ => true) &&
      match step s a with
      | .ok s => calm s l
      | .error _ => true

theorem calm_ok : ∀ (l : List Act) (s : State), calm s l = true →
    ∀ a b t, l = a ++ b → follow s a = some t → (∀ d, b.head? = some (.add d) → t.main = .idle) ∧ (∀ id, b.head? = some (.dispatch id) → t.work = .idle) := by
  intro l
  induction l with
  | nil =>
    intro s _ a b t hab _
    have : b = [] := (List.append_eq_nil_iff.1 hab.symm).2
    subst this
    exact ⟨(fun d h => by cases h), (fun d h => by cases h)⟩
  | cons x l ih =>
    intro s hc a b t hab hf
    unfold calm at hc
    rw [Bool.and_eq_true] at hc
    cases a with
    | nil =>
      cases hf
      have : b = x :: l := hab.symm
      subst this
      refine ⟨fun d h => ?_, fun d h => ?_⟩
      · cases h; simpa using hc.1
      · cases h; simpa using hc.1
    | cons y a =>
      cases hab
      unfold follow at hf
      split at hf
      · cases e : step s x with
        | error z => rw [e] at hf; cases hf
        | ok u =>
          rw [e] at hf hc
          exact ih u hc.2 a b t rfl hf
      · cases hf

example : ∃ s, Reach Apart s ∧ adds s.hist = [7, 8, 9] ∧ runs s.hist = [7, 8] ∧ s.live = [2] :=
  ⟨⟨[⟨7, none, true, true⟩, ⟨8, some 0, true, true⟩, ⟨9, none, false, false⟩], some 2, some 2, some 2, [2], 3, .idle, .idle,
    [.adding 7, .added, .adding 8, .added, .running, .ran 7, .ran 8, .finished, .adding 9, .added]⟩,
    reach_apart example1 .init (by decide +kernel) (calm_ok example1 init (by decide +kernel)), by decide, by decide, rfl⟩

end Verif.IdleThreads
