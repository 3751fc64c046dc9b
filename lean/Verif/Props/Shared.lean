import Verif.Proof.Shared

/-!
# C94, C95: objects shared by threads

`Reach P kind n s`: any number of threads (`n + 1`) have used one object in any order of their steps, starting with one reference
which belongs to one of the threads, always having a reference when doing that, and having followed `P`.
-/

namespace Verif.Shared
open Verif.C

/-- `gutil_ints_unref_to_data` isn't used -/
def NoToData (_ : State) : Act → Prop
  | .toData _ => False
  | _ => True

theorem careful {s : State} {a : Act} (h : NoToData s a) : Careful s a := by
  cases a <;> first | trivial | exact h.elim

/-- **C94** Whatever the interleaving is, nothing goes wrong: no thread ever uses the object after it's gone, and it's not deallocated twice. -/
theorem C94_safe {kind : Kind} {n : Nat} {s : State} {a : Act} (h : Reach NoToData kind n s) (ha : Allowed s a) (hp : NoToData s a) :
    ∃ s', step s a = .ok s' := by
  obtain ⟨s', h1, _⟩ := step_inv (reach_inv (fun _ _ => careful) h) ha (careful hp)
  exact ⟨s', h1⟩

/-- **C94** The object and its contents are there as long as any thread has a reference, and the contents haven't been released. -/
theorem C94_alive {kind : Kind} {n : Nat} {s : State} {t : Nat} (h : Reach NoToData kind n s) (ht : 0 < s.owned t) :
    s.alive = true ∧ s.data = true ∧ s.released = 0 := by
  have h := reach_inv (fun _ _ => careful) h
  obtain ⟨x, hx, he⟩ := of_owned ht
  have hr : 0 < s.refs := by
    rw [h.sum]
    have : x.owned ≤ total fOwned s.threads := le_total fOwned _ _ _ hx
    omega
  obtain ⟨h1, h2, _⟩ := h.before (.inl hr)
  exact ⟨h.alive.mpr (.inl hr), h1, h2⟩

/-- Nobody has anything to do with the object. -/
theorem Inv.quiet {q : Prop} {s : State} (h : Inv q s) (h0 : ∀ t, s.owned t = 0) (h1 : ∀ t, ¬ s.busy t) :
    s.alive = false ∧ s.released + s.given = if s.kind = .nothing then 0 else 1 := by
  have h2 : s.refs = 0 := by
    rw [h.sum]
    apply total_zero
    intro t x hx
    have := h0 t
    simp only [State.owned, hx, Option.map_some, Option.getD_some] at this
    exact this
  have h3 : ∀ f : Thread → Nat, (∀ x : Thread, x.pc = .idle → f x = 0) → total f s.threads = 0 :=
    fun f hf => total_zero f _ (fun t x hx => hf x (not_busy hx (h1 t)))
  have h4 := h3 fPre (fun x hx => by simp [fPre, hx])
  have h5 := h3 fFin (fun x hx => by simp [fFin, hx])
  refine ⟨?_, h.after h2 h4⟩
  cases ha : s.alive with
  | false => rfl
  | true => have := h.alive.mp ha; omega

theorem given_zero {kind : Kind} {n : Nat} {s : State} (h : Reach NoToData kind n s) :
    s.given = 0 ∧ s.kind = kind ∧ ∀ (t : Nat) (x : Thread), s.threads[t]? = some x → x.pc ≠ .lastData := by
  induction h with
  | new =>
    refine ⟨rfl, rfl, fun t x hx => ?_⟩
    cases t with
    | zero => simp [new] at hx; subst hx; simp
    | succ t =>
      simp only [new, List.getElem?_cons_succ, List.getElem?_replicate] at hx
      split at hx <;> simp at hx
      subst hx; simp
  | @step s s' a _ ha hp hs ih =>
    obtain ⟨ih1, ih2, ih3⟩ := ih
    cases a with
    | ref t =>
      cases ht : s.threads[t]? with
      | none => simp [step, ref, State.thread, ht, bind, Except.bind] at hs
      | some x =>
        simp only [step, ref, thread_ok ht, bind, Except.bind, State.access] at hs
        split at hs <;> cases hs
        exact ⟨ih1, ih2, set_elem ih3 (ih3 t x ht)⟩
    | use t =>
      cases ht : s.threads[t]? with
      | none => simp [step, use, State.thread, ht, bind, Except.bind] at hs
      | some x =>
        simp only [step, use, thread_ok ht, bind, Except.bind, State.access, State.read] at hs
        split at hs <;> try cases hs
        split at hs <;> cases hs
        exact ⟨ih1, ih2, ih3⟩
    | give t u =>
      cases ht : s.threads[t]? with
      | none => simp [step, give, State.thread, ht, bind, Except.bind] at hs
      | some x =>
        simp only [step, give, thread_ok ht, bind, Except.bind] at hs
        have h1 := set_elem (t := t) (y := { x with owned := x.owned - 1 }) ih3 (ih3 t x ht)
        cases hu : (s.threads.set t { x with owned := x.owned - 1 })[u]? with
        | none => simp [State.thread, hu] at hs
        | some y =>
          rw [thread_ok (s := { s with threads := s.threads.set t { x with owned := x.owned - 1 } }) hu] at hs
          cases hs
          exact ⟨ih1, ih2, set_elem h1 (h1 u y hu)⟩
    | unref t =>
      cases ht : s.threads[t]? with
      | none => simp [step, dec, State.thread, ht, bind, Except.bind] at hs
      | some x =>
        simp only [step, dec, thread_ok ht, bind, Except.bind, State.access] at hs
        split at hs <;> try cases hs
        split at hs <;> cases hs
        refine ⟨ih1, ih2, set_elem ih3 ?_⟩
        dsimp only
        split <;> simp
    | toData t => exact hp.elim
    | next t =>
      obtain ⟨x, ht, hb⟩ := ha
      cases hpc : x.pc with
      | idle => exact absurd hpc hb
      | lastData => exact absurd hpc (ih3 t x ht)
      | last =>
        simp only [step, next, thread_ok ht, hpc, bind, Except.bind, finish, State.access, release] at hs
        cases hal : s.alive <;> cases hk : s.kind <;> cases hd : s.data <;> simp [hal, hk, hd] at hs <;> subst hs <;>
          exact ⟨ih1, by first | exact ih2 | (rw [← ih2, hk]; rfl), set_elem ih3 (by simp)⟩
      | free =>
        simp only [step, next, thread_ok ht, hpc, bind, Except.bind, sliceFree] at hs
        split at hs <;> try cases hs
        rename_i h2
        split at h2 <;> cases h2
        exact ⟨ih1, ih2, set_elem ih3 (by simp)⟩
      | copy =>
        simp only [step, next, thread_ok ht, hpc, bind, Except.bind, copy, State.access, State.read] at hs
        cases hal : s.alive <;> cases hd : s.data <;> simp [hal, hd] at hs
        subst hs
        exact ⟨ih1, ih2, set_elem ih3 (by simp)⟩

/-- **C94** Once nobody has a reference, and all the threads are done, the object is gone, and its free function (if there is one) has been called
exactly once. -/
theorem C94_once {kind : Kind} {n : Nat} {s : State} (h : Reach NoToData kind n s) (h0 : ∀ t, s.owned t = 0) (h1 : ∀ t, ¬ s.busy t) :
    s.alive = false ∧ s.released = if kind = .nothing then 0 else 1 := by
  obtain ⟨h2, h3⟩ := (reach_inv (fun _ _ => careful) h).quiet h0 h1
  obtain ⟨h4, h5, _⟩ := given_zero h
  rw [h5, h4] at h3
  exact ⟨h2, h3⟩

/-- Two threads dropping their references at the same time, the second one being the last. -/
def example94 : List Act := [.ref 0, .give 0 1, .use 1, .unref 0, .use 1, .unref 1, .next 1, .next 1]

example : legal (new .func 1) example94 = true := by decide +kernel

example : (exec (new .func 1) example94).map (fun s => (s.alive, s.released)) = (.ok (false, 1) : M _) := by decide +kernel

/-- **C95** is false: `gutil_ints_unref_to_data` drops its reference and then copies the data, which may be gone by then. Whatever the data are:
the thread 0 calls `gutil_ints_unref_to_data`, and the thread 1 calls `gutil_ints_unref` in the meantime. -/
theorem C95_refuted (kind : Kind) :
    legal (new kind 1) [.ref 0, .give 0 1, .toData 0, .unref 1, .next 1, .next 1] = true ∧
    ∃ s, exec (new kind 1) [.ref 0, .give 0 1, .toData 0, .unref 1, .next 1, .next 1] = .ok s ∧ Allowed s (.next 0) ∧
      step s (.next 0) = .error .useAfterFree := by
  cases kind
  · exact ⟨by decide +kernel, _, rfl, by decide +kernel, by decide +kernel⟩
  · exact ⟨by decide +kernel, _, rfl, by decide +kernel, by decide +kernel⟩
  · exact ⟨by decide +kernel, _, rfl, by decide +kernel, by decide +kernel⟩

/-- **C95**, what holds: nothing goes wrong if the thread which calls `gutil_ints_unref_to_data` has another reference, or if nobody else has
one (and there is a free function, see `C42_static_refuted`). -/
theorem C95_safe_partial {kind : Kind} {n : Nat} {s : State} {a : Act} (h : Reach Careful kind n s) (ha : Allowed s a) (hp : Careful s a) :
    ∃ s', step s a = .ok s' := by
  obtain ⟨s', h1, _⟩ := step_inv (reach_inv (fun _ _ h => h) h) ha hp
  exact ⟨s', h1⟩

theorem step_kind {s s' : State} {a : Act} (h : step s a = .ok s') : s'.kind = s.kind := by
  cases a <;>
    simp only [step, ref, use, give, dec, next, finish, finishData, sliceFree, copy, release, State.goto, State.thread, State.access,
      State.read, bind, Except.bind] at h <;> grind

theorem reach_kind {P : State → Act → Prop} {kind : Kind} {n : Nat} {s : State} (h : Reach P kind n s) : s.kind = kind := by
  induction h with
  | new => rfl
  | step _ _ _ hs ih => rw [step_kind hs, ih]

/-- **C95** In the end the data have either been given to the caller or released, exactly once. -/
theorem C95_once_partial {kind : Kind} {n : Nat} {s : State} (h : Reach Careful kind n s) (h0 : ∀ t, s.owned t = 0) (h1 : ∀ t, ¬ s.busy t) :
    s.alive = false ∧ s.released + s.given = if kind = .nothing then 0 else 1 := by
  have := (reach_inv (fun _ _ h => h) h).quiet h0 h1
  rwa [reach_kind h] at this

example : legal (new .gfree 1) [.ref 0, .give 0 1, .unref 0, .toData 1, .next 1, .next 1] = true ∧
    (exec (new .gfree 1) [.ref 0, .give 0 1, .unref 0, .toData 1, .next 1, .next 1]).map (fun s => (s.alive, s.given, s.released)) =
      (.ok (false, 1, 0) : M _) := by decide +kernel

/-- **C95** exactly, whatever the threads do. The only thing which goes wrong is `gutil_ints_unref_to_data` (after having dropped its reference) copying the data when
nobody has any references left, and the data have already been released, or the object has been deallocated; and with static data, having dropped the last
reference (C42). -/
theorem C95_exactly {kind : Kind} {n : Nat} {s : State} {a : Act} (h : Reach (fun _ _ => True) kind n s) (ha : Allowed s a) :
    (∃ s', step s a = .ok s') ∨
    (∃ t x, a = .next t ∧ s.threads[t]? = some x ∧ x.pc = .copy ∧ (∀ u, s.owned u = 0) ∧ (s.alive = false ∨ s.data = false) ∧
      step s a = .error .useAfterFree) ∨
    (∃ t x, a = .next t ∧ s.threads[t]? = some x ∧ x.pc = .lastData ∧ kind = .nothing ∧ step s a = .error .nullCall) := by
  have hi := reach_inv' (q := False) (fun h => h.elim) h
  rcases step_inv' hi ha (fun h => h.elim) with ⟨s', h1, -⟩ | ⟨-, t, x, e, hx, ⟨hp, hr, hd, he⟩ | ⟨hp, hk, he⟩⟩
  · exact .inl ⟨s', h1⟩
  · refine .inr (.inl ⟨t, x, e, hx, hp, fun u => ?_, hd, he⟩)
    rcases Nat.eq_zero_or_pos (s.owned u) with h0 | h0
    · exact h0
    · obtain ⟨y, hy, ey⟩ := of_owned h0
      have : y.owned ≤ total fOwned s.threads := le_total fOwned _ _ _ hy
      have := hi.sum
      omega
  · rw [reach_kind h] at hk
    exact .inr (.inr ⟨t, x, e, hx, hp, hk, he⟩)

/-- Threads 0 and 1 have one reference each. The thread 0 has dropped its reference and is about to copy the data: it fails after the other thread has dropped
its reference and released the data, but not before that. -/
example : ∃ s s', exec (new .func 1) [.ref 0, .give 0 1, .toData 0, .unref 1] = .ok s ∧ (∃ s1, step s (.next 0) = .ok s1) ∧
    step s (.next 1) = .ok s' ∧ Allowed s' (.next 0) ∧ step s' (.next 0) = .error .useAfterFree :=
  ⟨_, _, rfl, ⟨_, rfl⟩, rfl, by decide +kernel, by decide +kernel⟩

/-- **C95** Careful or not, nothing happens to the object and its contents as long as any thread has a reference, and in the end the data have either been released
or given to a caller, exactly once. -/
theorem C95_lifetime {kind : Kind} {n : Nat} {s : State} (h : Reach (fun _ _ => True) kind n s) :
    ((∃ t, 0 < s.owned t) → s.alive = true ∧ s.data = true ∧ s.released = 0 ∧ s.given = 0) ∧ s.released + s.given ≤ 1 ∧
    ((∀ t, s.owned t = 0) → (∀ t, ¬ s.busy t) → s.alive = false ∧ s.released + s.given = if kind = .nothing then 0 else 1) := by
  have hi := reach_inv' (q := False) (fun h => h.elim) h
  refine ⟨?_, ?_, ?_⟩
  · rintro ⟨t, ht⟩
    obtain ⟨x, hx, he⟩ := of_owned ht
    have : x.owned ≤ total fOwned s.threads := le_total fOwned _ _ _ hx
    have hr : 0 < s.refs := by rw [hi.sum]; omega
    exact ⟨hi.alive.mpr (.inl hr), hi.before (.inl hr)⟩
  · by_cases hr : 0 < s.refs ∨ 0 < total fPre s.threads
    · have := hi.before hr
      omega
    · rw [hi.after (by omega) (by omega)]
      split <;> decide
  · intro h0 h1
    have := hi.quiet h0 h1
    rwa [reach_kind h] at this

/-- Two threads call `gutil_ints_unref_to_data` at the same time. The first one is fast enough. -/
example : legal (new .gfree 1) [.ref 0, .give 0 1, .toData 0, .toData 1, .next 0, .next 1, .next 1] = true ∧
    (exec (new .gfree 1) [.ref 0, .give 0 1, .toData 0, .toData 1, .next 0, .next 1, .next 1]).map (fun s => (s.alive, s.given, s.released)) =
      (.ok (false, 1, 0) : M _) := by decide +kernel

theorem owned_same {s s' : State} {t : Nat} {x : Thread} {pc : Pc} (h : s.threads[t]? = some x) (hs : s'.threads = s.threads.set t { x with pc := pc }) (u : Nat) :
    s'.owned u = s.owned u := by
  unfold State.owned
  rw [hs, List.getElem?_set]
  split
  · next e =>
    subst e
    have := (List.getElem?_eq_some_iff.mp h).1
    rw [if_pos this, h]
    rfl
  · rfl

theorem owned_one {s s' : State} {t : Nat} {x y : Thread} (h : s.threads[t]? = some x) (hs : s'.threads = s.threads.set t y) (u : Nat) :
    s'.owned u = if u = t then y.owned else s.owned u := by
  unfold State.owned
  rw [hs, List.getElem?_set]
  by_cases e : t = u
  · subst e
    have := (List.getElem?_eq_some_iff.mp h).1
    rw [if_pos rfl, if_pos this, if_pos rfl]
    rfl
  · rw [if_neg e, if_neg (fun h => e h.symm)]

theorem thread_inv {s : State} {t : Nat} {x : Thread} (h : s.thread t = .ok x) : s.threads[t]? = some x := by
  unfold State.thread at h
  split at h
  · next y hy => cases h; exact hy
  · cases h

theorem owned_of {s : State} {t : Nat} {x : Thread} (h : s.threads[t]? = some x) : s.owned t = x.owned := by simp [State.owned, h]

theorem bind_inv' {α β : Type} {x : M α} {f : α → M β} {b : β} (h : (x >>= f) = .ok b) : ∃ a, x = .ok a ∧ f a = .ok b := by
  cases x with
  | error e => cases h
  | ok a => exact ⟨a, rfl, h⟩

theorem finish_threads {s s' : State} (h : finish s = .ok s' ∨ finishData s = .ok s' ∨ sliceFree s = .ok s' ∨ copy s = .ok s') : s'.threads = s.threads := by
  rcases h with h | h | h | h
  all_goals
    simp only [finish, finishData, sliceFree, copy, release, State.access, State.read, bind, Except.bind] at h
    repeat' split at h
    all_goals cases h
    all_goals rfl

theorem next_threads {s s' : State} {t : Nat} (h : next s t = .ok s') : ∃ x pc, s.threads[t]? = some x ∧ s'.threads = s.threads.set t { x with pc := pc } := by
  unfold next at h
  obtain ⟨x, hx, h⟩ := bind_inv' h
  refine ⟨x, ?_⟩
  split at h
  · cases h
  · obtain ⟨s1, h1, h⟩ := bind_inv' h
    cases h
    exact ⟨_, thread_inv hx, by rw [State.goto, finish_threads (.inl h1)]⟩
  · obtain ⟨s1, h1, h⟩ := bind_inv' h
    cases h
    exact ⟨_, thread_inv hx, by rw [State.goto, finish_threads (.inr (.inr (.inl h1)))]⟩
  · obtain ⟨s1, h1, h⟩ := bind_inv' h
    cases h
    exact ⟨_, thread_inv hx, by rw [State.goto, finish_threads (.inr (.inl h1))]⟩
  · obtain ⟨s1, h1, h⟩ := bind_inv' h
    cases h
    exact ⟨_, thread_inv hx, by rw [State.goto, finish_threads (.inr (.inr (.inr h1)))]⟩

/-- **C94** How many references each of the threads has -/
theorem C94_references {s s' : State} {a : Act} (ha : Allowed s a) (e : step s a = .ok s') (u : Nat) :
    s'.owned u = match a with
      | .ref t => if u = t then s.owned u + 1 else s.owned u
      | .unref t | .toData t => if u = t then s.owned u - 1 else s.owned u
      | .give t v => if t = v then s.owned u else if u = t then s.owned u - 1 else if u = v then s.owned u + 1 else s.owned u
      | .use _ | .next _ => s.owned u := by
  have hdec : ∀ t zero other, dec s t zero other = .ok s' → s'.owned u = if u = t then s.owned u - 1 else s.owned u := by
    intro t zero other e
    unfold dec at e
    obtain ⟨x, hx, e⟩ := bind_inv' e
    obtain ⟨_, _, e⟩ := bind_inv' e
    split at e
    · cases e
    · cases e
      rw [owned_one (thread_inv hx) rfl u]
      split
      · next hu => rw [hu, owned_of (thread_inv hx)]
      · rfl
  cases a with
  | ref t =>
    have e : ref s t = .ok s' := e
    unfold ref at e
    obtain ⟨x, hx, e⟩ := bind_inv' e
    obtain ⟨_, _, e⟩ := bind_inv' e
    cases e
    dsimp only
    rw [owned_one (thread_inv hx) rfl u]
    split
    · next hu => rw [hu, owned_of (thread_inv hx)]
    · rfl
  | use t =>
    have e : use s t = .ok s' := e
    unfold use at e
    obtain ⟨_, _, e⟩ := bind_inv' e
    obtain ⟨_, _, e⟩ := bind_inv' e
    obtain ⟨_, _, e⟩ := bind_inv' e
    cases e
    rfl
  | give t v =>
    have e : give s t v = .ok s' := e
    unfold give at e
    obtain ⟨x, hx, e⟩ := bind_inv' e
    obtain ⟨y, hy, e⟩ := bind_inv' e
    cases e
    have h1 : ∀ u, State.owned { s with threads := s.threads.set t { x with owned := x.owned - 1 } } u = if u = t then x.owned - 1 else s.owned u :=
      owned_one (y := { x with owned := x.owned - 1 }) (thread_inv hx) rfl
    have h2 := owned_one (s' := { s with threads := (s.threads.set t { x with owned := x.owned - 1 }).set v { y with owned := y.owned + 1 } }) (thread_inv hy) rfl u
    rw [h2, h1]
    have h3 := owned_of (thread_inv hy)
    rw [h1] at h3
    have hpos : 0 < s.owned t := ha.1
    have h4 := owned_of (thread_inv hx)
    dsimp only at *
    by_cases htv : t = v
    · subst htv
      rw [if_pos rfl] at h3 ⊢
      by_cases hu : u = t
      · subst hu; rw [if_pos rfl, ← h3]; omega
      · rw [if_neg hu, if_neg hu]
    · rw [if_neg htv]
      rw [if_neg (fun h => htv h.symm)] at h3
      by_cases hu : u = t
      · subst hu
        rw [if_neg htv, if_pos rfl, if_pos rfl, h4]
      · by_cases hv : u = v
        · subst hv; rw [if_pos rfl, if_neg hu, if_pos rfl, ← h3]
        · rw [if_neg hv, if_neg hu, if_neg hu, if_neg hv]
  | unref t => exact hdec t _ _ e
  | toData t => exact hdec t _ _ e
  | next t =>
    obtain ⟨x, pc, hx, hs⟩ := next_threads e
    exact owned_same hx hs u

example : ∃ s s', Reach NoToData .func 1 s ∧ Allowed s (.give 0 1) ∧ s.owned 0 = 2 ∧ s.owned 1 = 0 ∧ step s (.give 0 1) = .ok s' ∧ s'.owned 0 = 1 ∧ s'.owned 1 = 1 :=
  ⟨_, _, .step (a := .ref 0) .new (by decide) trivial rfl, by decide, by decide, by decide, rfl, by decide, by decide⟩

/-- **C94** Every call gets done: a thread needs no more than two steps for that, and doesn't wait for the others. -/
theorem C94_done {s s1 s2 : State} {t : Nat} (hb : s.busy t) (h1 : step s (.next t) = .ok s1) (hb1 : s1.busy t) (h2 : step s1 (.next t) = .ok s2) : ¬ s2.busy t := by
  have key : ∀ (s s1 : State) (x : Thread), s.threads[t]? = some x → next s t = .ok s1 → (s1.threads[t]? = some { x with pc := .idle } ∨
      (x.pc ≠ .free ∧ s1.threads[t]? = some { x with pc := .free })) := by
    intro s s1 x hx h
    have hlt := (List.getElem?_eq_some_iff.mp hx).1
    unfold next at h
    rw [thread_ok hx, ok_bind] at h
    have hg : ∀ (s2 : State) (pc : Pc), s2.threads = s.threads → (s2.goto t x pc).threads[t]? = some { x with pc := pc } := by
      intro s2 pc h2
      rw [State.goto]
      dsimp only
      rw [h2, List.getElem?_set_self hlt]
    split at h
    · cases h
    · next hp =>
      obtain ⟨s2, h2, h⟩ := bind_inv' h
      cases h
      exact .inr ⟨by rw [hp]; decide, hg _ _ (finish_threads (.inl h2))⟩
    · obtain ⟨s2, h2, h⟩ := bind_inv' h
      cases h
      exact .inl (hg _ _ (finish_threads (.inr (.inr (.inl h2)))))
    · next hp =>
      obtain ⟨s2, h2, h⟩ := bind_inv' h
      cases h
      exact .inr ⟨by rw [hp]; decide, hg _ _ (finish_threads (.inr (.inl h2)))⟩
    · obtain ⟨s2, h2, h⟩ := bind_inv' h
      cases h
      exact .inl (hg _ _ (finish_threads (.inr (.inr (.inr h2)))))
  have idle : ∀ (s : State) (x : Thread), s.threads[t]? = some { x with pc := .idle } → ¬ s.busy t := by
    rintro s x h ⟨y, hy, hp⟩
    rw [h] at hy
    cases hy
    exact hp rfl
  obtain ⟨x, hx, _⟩ := hb
  rcases key s s1 x hx h1 with h | ⟨_, h⟩
  · exact absurd hb1 (idle _ _ h)
  · rcases key s1 s2 _ h h2 with h3 | ⟨h3, _⟩
    · exact idle _ _ h3
    · exact absurd rfl h3

example : ∃ s s1 s2, Reach NoToData .func 1 s ∧ s.busy 0 ∧ step s (.next 0) = .ok s1 ∧ s1.busy 0 ∧ step s1 (.next 0) = .ok s2 ∧ ¬ s2.busy 0 :=
  ⟨_, _, _, .step (a := .unref 0) .new (by decide) trivial rfl, by decide, rfl, by decide, rfl, by decide⟩

end Verif.Shared
