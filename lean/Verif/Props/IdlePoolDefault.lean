import Verif.Proof.IdlePoolDefault
import Verif.Proof.IdlePoolObj

/-!
# C117: default pools of threads

`Reach s`: the state can be reached by any number of threads which follow the rules, `s.hist` is the history.
-/

namespace Verif.PoolDefault
open Verif.C

/-- A number of actions -/
def exec (s : State) : List Act → M State
  | [] => .ok s
  | a :: t =>
    match step s a with
    | .ok s => exec s t
    | .error e => .error e

/-- The rules for threads with numbers below `n` -/
def allowed (n : Nat) (s : State) : Act → Bool
  | .pool p a =>
    match s.pools[p]? with
    | some x => decide (Pool.Allowed x a) && (a != .unref && a != .destroy || (List.range n).all (fun t => s.priv t != some p || decide (promised x.stack + 2 ≤ x.owned)))
    | none => false
  | .exit t => (s.pools[(s.priv t).getD s.pools.length]?).all (fun x => x.stack = [])
  | _ => true

/-- The thread -/
def Act.thread : Act → Nat
  | .getDefault t _ _ | .add t _ _ | .drain t _ _ | .exit t => t
  | _ => 0

/-- Are the rules being followed? -/
def legal (n : Nat) (s : State) : List Act → Bool
  | [] => true
  | a :: t =>
    a.thread < n && allowed n s a &&
      match step s a with
      | .ok s => legal n s t
      | .error _ => false

theorem onPool_priv {s s' : State} {p : Nat} {a : Pool.Act} (h : onPool s p a = .ok s') : s'.priv = s.priv := by
  unfold onPool at h
  split at h
  · cases h
  · rename_i x _
    cases hs : Pool.step x a with
    | error e => rw [hs] at h; cases h
    | ok y => rw [hs, ok_bind] at h; cases h; rfl

theorem get_priv {s : State} {n : Nat} (hp : ∀ u, n ≤ u → s.priv u = none) {t : Nat} (ht : t < n) (own : Bool) (foreign : List Nat) :
    ∀ u, n ≤ u → (getDefault s t own foreign).1.priv u = none := by
  intro u hu
  unfold getDefault
  split
  · exact hp u hu
  · dsimp only [State.note, State.setPriv]
    rw [if_neg (by omega)]
    exact hp u hu

theorem step_priv {s s' : State} {n : Nat} {a : Act} (hp : ∀ u, n ≤ u → s.priv u = none) (ht : a.thread < n) (h : step s a = .ok s') :
    ∀ u, n ≤ u → s'.priv u = none := by
  cases a with
  | getDefault t own foreign => cases h; exact get_priv hp ht own foreign
  | add t own foreign => rw [onPool_priv h]; exact get_priv hp ht own foreign
  | drain t own foreign => rw [onPool_priv h]; exact get_priv hp ht own foreign
  | pool p a => rw [onPool_priv h]; exact hp
  | new own foreign => cases h; exact hp
  | exit t =>
    have ht : t < n := ht
    unfold step exit at h
    dsimp only at h
    split at h
    · cases h; exact hp
    · rw [onPool_priv h]
      intro u hu
      dsimp only [State.note, State.setPriv]
      rw [if_neg (by omega)]
      exact hp u hu

theorem reach_exec {n : Nat} {acts : List Act} : ∀ {s s' : State}, Reach s → (∀ u, n ≤ u → s.priv u = none) → legal n s acts = true → exec s acts = .ok s' → Reach s' := by
  induction acts with
  | nil =>
    intro s s' h _ _ e
    injection e with e
    rw [← e]
    exact h
  | cons a t ih =>
    intro s s' h hp hl e
    unfold legal at hl
    unfold exec at e
    rw [Bool.and_eq_true, Bool.and_eq_true] at hl
    obtain ⟨⟨h1, h2⟩, h3⟩ := hl
    have h1 : a.thread < n := by simpa using h1
    have ha : Allowed s a := by
      cases a with
      | pool p a =>
        unfold allowed at h2
        dsimp only at h2
        split at h2
        · rename_i x hx
          rw [Bool.and_eq_true] at h2
          refine ⟨x, hx, of_decide_eq_true h2.1, fun hz u hu => ?_⟩
          have h4 : u < n := by
            rcases Nat.lt_or_ge u n with h4 | h4
            · exact h4
            · rw [hp u h4] at hu; cases hu
          have h5 := h2.2
          rw [Bool.or_eq_true] at h5
          rcases h5 with h5 | h5
          · rcases hz with rfl | rfl <;> simp at h5
          · rw [List.all_eq_true] at h5
            have := h5 u (List.mem_range.2 h4)
            simpa [hu] using this
        · cases h2
      | exit u =>
        intro p x hu hx
        unfold allowed at h2
        dsimp only at h2
        rw [hu, Option.getD_some, hx] at h2
        simpa using h2
      | _ => trivial
    split at e
    · rename_i s1 hs
      rw [hs] at h3
      exact ih (h.step ha hs) (step_priv hp h1 hs) h3 e
    · cases e

/-- Two threads. The first one gets its pool twice, adds something to it (without specifying the pool) and exits; that pool is deallocated by the main loop
and the destroy function adds something to the default pool, which is a new one. The second one has a pool of its own. -/
def sample : List Act :=
  [.getDefault 0 false [], .add 0 false [], .add 1 true [], .getDefault 0 false [], .pool 0 .ref, .pool 0 .unref, .drain 0 false [], .pool 0 .ret,
   .add 0 false [], .exit 0, .pool 0 (.dispatch 2 false), .add 0 false []]

def sampleHist : List Event := [.got 0 0, .got 0 0, .got 1 1, .got 0 0, .got 0 0, .got 0 0, .exits 0, .got 0 2]

/-- What it leads to -/
def leads (acts : List Act) (q : State → Bool) : Bool :=
  legal 2 init acts && match exec init acts with
    | .ok s => q s
    | .error _ => false

theorem leads_reach {acts : List Act} {q : State → Bool} (h : leads acts q = true) : ∃ s, Reach s ∧ exec init acts = .ok s ∧ q s = true := by
  unfold leads at h
  rw [Bool.and_eq_true] at h
  have h2 := h.2
  split at h2
  · rename_i s e
    exact ⟨s, reach_exec .init (fun _ _ => rfl) h.1 e, e, h2⟩
  · cases h2

theorem sample_reach : ∃ s, Reach s ∧ s.hist = sampleHist ∧ (s.pools[0]?.map (fun x => (x.alive, x.stack.length, x.log.length))) = some (true, 1, 5) := by
  obtain ⟨s, h, _, hq⟩ := leads_reach (acts := sample)
    (q := fun s => s.hist == sampleHist && s.pools[0]?.map (fun x => (x.alive, x.stack.length, x.log.length)) == some (true, 1, 5)) (by decide +kernel)
  rw [Bool.and_eq_true] at hq
  exact ⟨s, h, by simpa using hq.1, by simpa using hq.2⟩

/-- C117. Nothing undefined happens, whatever destroy functions do with default pools (even if the thread is about to exit). -/
theorem C117_safe {s : State} {a : Act} (h : Reach s) (ha : Allowed s a) : ∃ s', step s a = .ok s' := by
  obtain ⟨s', e, _⟩ := inv_step (reach_inv h) ha
  exact ⟨s', e⟩

example : ∃ s, Reach s ∧ s.hist.length = 8 ∧ Allowed s (.exit 1) := by
  obtain ⟨s, h, e, hq⟩ := leads_reach (acts := sample) (q := fun s => s.hist.length == 8 && allowed 2 s (.exit 1)) (by decide +kernel)
  rw [Bool.and_eq_true] at hq
  refine ⟨s, h, by simpa using hq.1, ?_⟩
  intro p x hp hx
  have h2 := hq.2
  unfold allowed at h2
  dsimp only at h2
  rw [hp, Option.getD_some, hx] at h2
  simpa using h2

/-- C117. A thread always gets the same pool, until it exits. -/
theorem C117_same {s : State} (h : Reach s) {t p q : Nat} {pre mid post : List Event}
    (hh : s.hist = pre ++ .got t p :: mid ++ .got t q :: post) (hm : .exits t ∉ mid) : q = p :=
  (reach_inv h).same _ post t p q hh ⟨pre, mid, rfl, hm⟩

example : ∃ s pre mid post, Reach s ∧ s.hist = pre ++ .got 0 0 :: mid ++ .got 0 0 :: post ∧ .exits 0 ∉ mid := by
  obtain ⟨s, h, e, _⟩ := sample_reach
  exact ⟨s, [], [.got 0 0, .got 1 1], sampleHist.drop 4, h, e, by simp⟩

/-- C117. Different threads have different pools. -/
theorem C117_others {s : State} (h : Reach s) {t u p q : Nat} (ht : .got t p ∈ s.hist) (hu : .got u q ∈ s.hist) (hn : t ≠ u) : p ≠ q := by
  rintro rfl
  exact hn ((reach_inv h).one t u p ht hu)

example : ∃ s, Reach s ∧ .got 0 0 ∈ s.hist ∧ .got 1 1 ∈ s.hist := by
  obtain ⟨s, h, e, _⟩ := sample_reach
  exact ⟨s, h, by rw [e]; decide, by rw [e]; decide⟩

/-- C117. What a thread gets after it has exited (from a destroy function, or because its number has been reused) isn't a pool it had before that. -/
theorem C117_new {s : State} (h : Reach s) {t p q : Nat} {pre post : List Event} (hh : s.hist = pre ++ .exits t :: post)
    (hp : .got t p ∈ pre) (hq : .got t q ∈ post) : p ≠ q := by
  rintro rfl
  exact (reach_inv h).once pre post t p hh hp hq

example : ∃ s pre post, Reach s ∧ s.hist = pre ++ .exits 0 :: post ∧ .got 0 0 ∈ pre ∧ .got 0 2 ∈ post := by
  obtain ⟨s, h, e, _⟩ := sample_reach
  exact ⟨s, sampleHist.take 6, [.got 0 2], h, e, by decide, by decide⟩

/-- C117. The pool exists, and isn't being deallocated, until the thread exits; no matter what anyone else does. -/
theorem C117_alive {s : State} (h : Reach s) {t p : Nat} (hc : Current s.hist t p) : ∃ x, s.pools[p]? = some x ∧ x.alive = true ∧ 0 < x.refs := by
  have h1 := reach_inv h
  obtain ⟨x, hx, h2, h3, _⟩ := h1.own ((h1.known t p).2 hc)
  exact ⟨x, hx, h3, h2⟩

example : ∃ s, Reach s ∧ Current s.hist 1 1 := by
  obtain ⟨s, h, e, _⟩ := sample_reach
  exact ⟨s, h, sampleHist.take 2, sampleHist.drop 3, e, by decide⟩

theorem on_default {s s' : State} (h : Reach s) {t : Nat} {own : Bool} {foreign : List Nat} {a : Pool.Act}
    (hs : onPool (getDefault s t own foreign).1 (getDefault s t own foreign).2 a = .ok s') :
    ∃ p x x', s'.hist = s.hist ++ [.got t p] ∧ (s.pools[p]? = some x ∧ Current s.hist t p ∨ s.pools.length = p ∧ x = Pool.new own foreign ∧ ∀ q, ¬ Current s.hist t q) ∧
      Pool.step x a = .ok x' ∧ s'.pools[p]? = some x' ∧ ∀ q, q ≠ p → s'.pools[q]? = s.pools[q]? := by
  have hi := reach_inv h
  unfold getDefault at hs
  split at hs
  · rename_i p hp
    obtain ⟨x, hx, _⟩ := hi.held t p hp
    unfold onPool at hs
    dsimp only [State.note] at hs
    rw [hx] at hs
    dsimp only at hs
    cases hx' : Pool.step x a with
    | error e => rw [hx'] at hs; cases hs
    | ok x' =>
      rw [hx', ok_bind] at hs
      cases hs
      refine ⟨p, x, x', rfl, .inl ⟨hx, (hi.known t p).1 hp⟩, hx', ?_, ?_⟩
      · dsimp only
        rw [List.getElem?_set, if_pos rfl, if_pos (List.getElem?_eq_some_iff.1 hx).1]
      · intro q hq
        dsimp only
        rw [List.getElem?_set, if_neg (Ne.symm hq)]
  · rename_i hp
    unfold onPool at hs
    dsimp only [State.note, State.setPriv] at hs
    rw [List.getElem?_concat_length] at hs
    dsimp only at hs
    cases hx' : Pool.step (Pool.new own foreign) a with
    | error e => rw [hx'] at hs; cases hs
    | ok x' =>
      rw [hx', ok_bind] at hs
      cases hs
      refine ⟨s.pools.length, _, x', rfl, .inr ⟨rfl, rfl, ?_⟩, hx', ?_, ?_⟩
      · intro q hq
        rw [← hi.known, hp] at hq
        cases hq
      · dsimp only
        rw [List.getElem?_set, if_pos rfl, if_pos (by simp)]
      · intro q hq
        dsimp only
        rw [List.getElem?_set, if_neg (Ne.symm hq), List.getElem?_append]
        split
        · rfl
        · rename_i hl
          rw [List.getElem?_singleton, if_neg (by omega), List.getElem?_eq_none (by omega)]

/-- C117. `gutil_idle_pool_add` with `NULL` does to the default pool of the thread, which is returned by `gutil_idle_pool_get_default` then, what it does to
any pool, and nothing to any other pool. If there was no default pool, then it's a new one. -/
theorem C117_add {s s' : State} (h : Reach s) {t : Nat} {own : Bool} {foreign : List Nat} (hs : step s (.add t own foreign) = .ok s') :
    ∃ p x x', s'.hist = s.hist ++ [.got t p] ∧ (s.pools[p]? = some x ∧ Current s.hist t p ∨ s.pools.length = p ∧ x = Pool.new own foreign ∧ ∀ q, ¬ Current s.hist t q) ∧
      Pool.step x .add = .ok x' ∧ s'.pools[p]? = some x' ∧ ∀ q, q ≠ p → s'.pools[q]? = s.pools[q]? :=
  on_default h hs

/-- C117. So does `gutil_idle_pool_drain`. -/
theorem C117_drain {s s' : State} (h : Reach s) {t : Nat} {own : Bool} {foreign : List Nat} (hs : step s (.drain t own foreign) = .ok s') :
    ∃ p x x', s'.hist = s.hist ++ [.got t p] ∧ (s.pools[p]? = some x ∧ Current s.hist t p ∨ s.pools.length = p ∧ x = Pool.new own foreign ∧ ∀ q, ¬ Current s.hist t q) ∧
      Pool.step x .drain = .ok x' ∧ s'.pools[p]? = some x' ∧ ∀ q, q ≠ p → s'.pools[q]? = s.pools[q]? :=
  on_default h hs

/-- Both of them succeed, see `C117_safe`. -/
example : ∃ s, Reach s ∧ s.hist = sampleHist ∧ Allowed s (.add 1 true []) ∧ Allowed s (.drain 5 true []) := by
  obtain ⟨s, h, e, _⟩ := sample_reach
  exact ⟨s, h, e, trivial, trivial⟩

theorem exit_unref {s s' : State} (h : Reach s) {t p : Nat} (hc : Current s.hist t p) (hs : step s (.exit t) = .ok s') :
    ∃ x x', s.pools[p]? = some x ∧ Pool.step x .unref = .ok x' ∧ s'.pools[p]? = some x' ∧ ∀ q, q ≠ p → s'.pools[q]? = s.pools[q]? := by
  have hi := reach_inv h
  have hp := (hi.known t p).2 hc
  obtain ⟨x, hx, _⟩ := hi.held t p hp
  have hs : exit s t = .ok s' := hs
  unfold exit at hs
  rw [hp] at hs
  dsimp only at hs
  unfold onPool at hs
  dsimp only [State.note, State.setPriv] at hs
  rw [hx] at hs
  dsimp only at hs
  cases hx' : Pool.step x .unref with
  | error e => rw [hx'] at hs; cases hs
  | ok x' =>
    rw [hx', ok_bind] at hs
    cases hs
    refine ⟨x, x', hx, hx', ?_, ?_⟩
    · dsimp only
      rw [List.getElem?_set, if_pos rfl, if_pos (List.getElem?_eq_some_iff.1 hx).1]
    · intro q hq
      dsimp only
      rw [List.getElem?_set, if_neg (Ne.symm hq)]

/-- C117. When the thread exits and nothing else refers to its pool (neither the client nor a source), the pool is deallocated, and everything that's left in it is
destroyed: right away if there's nothing there, otherwise after calling the destroy functions (and by then everything is destroyed exactly once: C70). -/
theorem C117_exit_partial {s s' : State} (h : Reach s) {t p : Nat} {x : Pool.State} (hc : Current s.hist t p) (ha : Allowed s (.exit t)) (hs : step s (.exit t) = .ok s')
    (hx : s.pools[p]? = some x) (ho : x.owned = 1) (hl : x.live = []) (hi : ∀ i ∈ x.items, i.self = false) :
    ∃ x', s'.pools[p]? = some x' ∧ x'.refs = 0 ∧ (x'.alive = false ∨ x'.stack ≠ []) ∧ (x.items = [] → x'.alive = false) ∧
      ∀ id ∈ Pool.adds x.log, x'.stack = [] → (Pool.destroys x'.log).count id = 1 := by
  obtain ⟨y, x', hy, hu, hx', _⟩ := exit_unref h hc hs
  have hinv := reach_inv h
  have hst : x.stack = [] := ha p x ((hinv.known t p).2 hc) hx
  rw [hx] at hy
  cases hy
  have hr := hinv.pools p x hx
  have hv := Pool.any_inv hr
  have h0 : Pool.selfs x.items = 0 := by
    unfold Pool.selfs
    rw [List.countP_eq_zero]
    intro i him
    rw [hi i him]
    decide
  have h1 : x.refs = 1 := by
    have := hv.refsEq
    rw [ho, hl, hst, h0] at this
    exact this
  have hal : Pool.Allowed x .unref := by
    show Pool.need x.stack + 1 ≤ x.owned
    rw [hst, ho]
    exact Nat.le_refl _
  have hr' : Pool.Reach Pool.any x' := hr.step hal trivial hu
  have hid : x.idle = none := by
    cases hz : x.idle with
    | none => rfl
    | some z => have := (hv.idleIn z hz).1; rw [hl] at this; cases this
  have halive : x.alive = true := hv.alive (.inr (by omega))
  have hfin : x'.refs = 0 ∧ (x.items = [] → x'.alive = false) ∧ (x.items ≠ [] → x'.stack ≠ []) := by
    have hu : Pool.unref { x with owned := x.owned - 1 } = .ok x' := hu
    unfold Pool.unref at hu
    rw [Pool.access_ok (by exact halive), ok_bind] at hu
    dsimp only at hu
    rw [if_neg (by omega), if_pos h1] at hu
    have hcell : Pool.clearCell { x with owned := x.owned - 1, refs := 0 } =
        { x with owned := x.owned - 1, refs := 0, cell := if x.shared then .null else x.cell } := by
      unfold Pool.clearCell
      split
      · rename_i e
        have e : x.shared = true := e
        simp [e]
      · rename_i e
        have e : ¬ x.shared = true := e
        simp [e]
    rw [hcell] at hu
    unfold Pool.drainNext at hu
    rw [Pool.access_ok (by exact halive), ok_bind] at hu
    dsimp only at hu
    split at hu
    · rename_i he
      unfold Pool.drainEnd at hu
      dsimp only at hu
      rw [hid] at hu
      dsimp only at hu
      unfold Pool.free at hu
      rw [if_pos (by exact halive)] at hu
      cases hu
      exact ⟨rfl, fun _ => rfl, fun hn => absurd he hn⟩
    · rename_i hne
      cases hit : x.items with
      | nil => exact absurd hit hne
      | cons i l =>
        rw [hit] at hu
        unfold Pool.proc at hu
        rw [if_neg (by rw [hi i (by rw [hit]; simp)]; decide), ok_bind] at hu
        dsimp only at hu
        rw [if_neg (by simp)] at hu
        cases hu
        refine ⟨rfl, ?_, ?_⟩
        · intro he
          cases he
        · intro _ he
          cases he
  have hdead : x'.stack = [] → x'.alive = false := by
    intro hz
    by_cases he : x.items = []
    · exact hfin.2.1 he
    · exact absurd hz (hfin.2.2 he)
  refine ⟨x', hx', hfin.1, ?_, hfin.2.1, fun id hid hz => ?_⟩
  · by_cases hz : x'.stack = []
    · exact .inl (hdead hz)
    · exact .inr hz
  · have hg := Pool.adds_prefix (Pool.grow_step hu)
    exact Pool.C70_deallocated hr' (hdead hz) id (hg.subset hid)

/-- The thread exits with nothing in its pool, which used to have something. -/
example : ∃ s s' x, Reach s ∧ Current s.hist 0 0 ∧ Allowed s (.exit 0) ∧ step s (.exit 0) = .ok s' ∧ s.pools[0]? = some x ∧ x.owned = 1 ∧ x.live = [] ∧
    Pool.adds x.log = [0] ∧ ∀ i ∈ x.items, i.self = false := by
  obtain ⟨s, h, _, hq⟩ := leads_reach (acts := [.add 0 false [], .drain 0 false [], .pool 0 .ret]) (q := fun s => s.hist == [.got 0 0, .got 0 0] && allowed 2 s (.exit 0) &&
    s.priv 0 == some 0 && s.pools == [⟨true, 1, 1, none, [], none, false, .null, [], false, [], 2, 1, [], [.added 0, .destroy 0, .drained 0]⟩]) (by decide +kernel)
  simp only [Bool.and_eq_true, beq_iff_eq] at hq
  obtain ⟨⟨⟨h1, h2⟩, h3⟩, h4⟩ := hq
  have ha : Allowed s (.exit 0) := by
    intro p x hp hx
    rw [h3] at hp
    cases hp
    rw [h4] at hx
    cases hx
    rfl
  obtain ⟨s', hs⟩ := C117_safe h ha
  exact ⟨s, s', _, h, ⟨[.got 0 0], [], h1, by simp⟩, ha, hs, by rw [h4]; rfl, rfl, rfl, rfl, by intro i hi; cases hi⟩

/-- C117 is false: the pool isn't deallocated when the thread exits with something waiting for the main loop, since the idle source has a reference too. Nothing is
destroyed, the items stay in the pool. -/
theorem C117_exit_refuted {s s' : State} (h : Reach s) {t p : Nat} {x : Pool.State} (hc : Current s.hist t p) (hs : step s (.exit t) = .ok s')
    (hx : s.pools[p]? = some x) (hl : x.live ≠ []) :
    ∃ x', s'.pools[p]? = some x' ∧ x'.alive = true ∧ x'.items = x.items ∧ x'.live = x.live ∧ Pool.destroys x'.log = Pool.destroys x.log := by
  obtain ⟨y, x', hy, hu, hx', _⟩ := exit_unref h hc hs
  have hinv := reach_inv h
  obtain ⟨z, hz, h1, h2, _, _, h3⟩ := hinv.own ((hinv.known t p).2 hc)
  rw [hx] at hy hz
  cases hy
  cases hz
  have h4 := (Pool.any_inv (hinv.pools p x hx)).refsEq
  have h5 := List.length_pos_iff.2 hl
  have hu : Pool.unref { x with owned := x.owned - 1 } = .ok x' := hu
  unfold Pool.unref at hu
  rw [Pool.access_ok (by exact h2), ok_bind] at hu
  dsimp only at hu
  rw [if_neg (by omega), if_neg (by omega)] at hu
  cases hu
  exact ⟨_, hx', h2, rfl, rfl, rfl⟩

/-- Then the items are destroyed by whoever runs the main loop. -/
example : ∃ s s' s'' x y z, Reach s ∧ Current s.hist 0 0 ∧ Allowed s (.exit 0) ∧ step s (.exit 0) = .ok s' ∧ step s' (.pool 0 (.dispatch 1 false)) = .ok s'' ∧
    s.pools[0]? = some x ∧ s'.pools[0]? = some y ∧ s''.pools[0]? = some z ∧ x.live ≠ [] ∧
    Pool.adds x.log = [0] ∧ Pool.destroys y.log = [] ∧ Pool.destroys z.log = [0] := by
  obtain ⟨s, h, e, hq⟩ := leads_reach (acts := [.add 0 false []]) (q := fun s => s.hist == [.got 0 0] &&
    s.priv 0 == some 0 && s.pools == [⟨true, 2, 1, some 1, [⟨0, false⟩], some 0, false, .null, [1], false, [], 2, 1, [], [.added 0]⟩]) (by decide +kernel)
  simp only [Bool.and_eq_true, beq_iff_eq] at hq
  obtain ⟨⟨h1, h3⟩, h4⟩ := hq
  have ha : Allowed s (.exit 0) := by
    intro p x hp hx
    rw [h3] at hp
    cases hp
    rw [h4] at hx
    cases hx
    rfl
  refine ⟨s, { (s.setPriv 0 none).note (.exits 0) with
      pools := [⟨true, 1, 0, some 1, [⟨0, false⟩], some 0, false, .null, [1], false, [], 2, 1, [], [.added 0]⟩] },
    { (s.setPriv 0 none).note (.exits 0) with
      pools := [⟨true, 0, 0, none, [], none, false, .null, [], false, [], 2, 1, [⟨[], .final⟩], [.added 0, .destroy 0]⟩] }, _, _, _,
    h, ⟨[], [], h1, by simp⟩, ha, ?_, rfl, by rw [h4]; rfl, rfl, rfl, by simp, rfl, rfl, rfl⟩
  unfold step exit
  dsimp only
  rw [h3]
  dsimp only
  unfold onPool
  dsimp only [State.note, State.setPriv]
  rw [h4]
  rfl

/-- C117. What each call means for the history. `gutil_idle_pool_get_default` returns what the history says. -/
theorem C117_recorded {s s' : State} {a : Act} (hs : step s a = .ok s') :
    match a with
      | .getDefault t own foreign => ∃ p, (getDefault s t own foreign).2 = p ∧ s'.hist = s.hist ++ [.got t p]
      | .add t _ _ | .drain t _ _ => ∃ p, s'.hist = s.hist ++ [.got t p]
      | .exit t => s'.hist = s.hist ++ [.exits t]
      | .pool _ _ | .new _ _ => s'.hist = s.hist := by
  have hg : ∀ t own foreign, (getDefault s t own foreign).1.hist = s.hist ++ [.got t (getDefault s t own foreign).2] := by
    intro t own foreign
    unfold getDefault
    split <;> rfl
  have hp : ∀ (s s' : State) p b, onPool s p b = .ok s' → s'.hist = s.hist := by
    intro s s' p b h
    unfold onPool at h
    split at h
    · cases h
    · rename_i x _
      cases hx' : Pool.step x b with
      | error e => rw [hx'] at h; cases h
      | ok x' => rw [hx', ok_bind] at h; cases h; rfl
  cases a with
  | getDefault t own foreign => cases hs; exact ⟨_, rfl, hg ..⟩
  | add t own foreign => exact ⟨_, (hp _ _ _ _ hs).trans (hg t own foreign)⟩
  | drain t own foreign => exact ⟨_, (hp _ _ _ _ hs).trans (hg t own foreign)⟩
  | pool p b => exact hp _ _ _ _ hs
  | new own foreign => cases hs; rfl
  | exit t =>
    have hs : exit s t = .ok s' := hs
    unfold exit at hs
    split at hs
    · cases hs; rfl
    · exact hp _ _ _ _ hs

/-- C117. Pools don't affect each other, and all of them start in the same way. -/
theorem C117_pools {s s' : State} {a : Act} (h : Reach s) (hs : step s a = .ok s') :
    match a with
      | .getDefault t own foreign => (∃ p, Current s.hist t p) ∧ s'.pools = s.pools ∨ (∀ p, ¬ Current s.hist t p) ∧ s'.pools = s.pools ++ [Pool.new own foreign]
      | .pool p b => ∃ x x', s.pools[p]? = some x ∧ Pool.step x b = .ok x' ∧ s'.pools = s.pools.set p x'
      | .new own foreign => s'.pools = s.pools ++ [Pool.new own foreign]
      | _ => True := by
  cases a with
  | getDefault t own foreign =>
    cases hs
    unfold getDefault
    dsimp only
    split
    · next p hp => exact .inl ⟨⟨p, ((reach_inv h).known t p).1 hp⟩, rfl⟩
    · next hp =>
      refine .inr ⟨fun p hc => ?_, rfl⟩
      rw [← (reach_inv h).known, hp] at hc
      cases hc
  | add t own foreign => trivial
  | drain t own foreign => trivial
  | pool p b =>
    have hs : onPool s p b = .ok s' := hs
    unfold onPool at hs
    split at hs
    · cases hs
    · rename_i x hx
      cases hx' : Pool.step x b with
      | error e => rw [hx'] at hs; cases hs
      | ok x' => rw [hx', ok_bind] at hs; cases hs; exact ⟨x, x', hx, hx', rfl⟩
  | new own foreign => cases hs; rfl
  | exit t => trivial

example : ∃ s s', Reach s ∧ step s (.exit 1) = .ok s' ∧ s'.hist = s.hist ++ [.exits 1] ∧ s.hist.length = 8 := by
  obtain ⟨s, h, e, hq⟩ := leads_reach (acts := sample) (q := fun s => s.hist.length == 8 && allowed 2 s (.exit 1)) (by decide +kernel)
  rw [Bool.and_eq_true] at hq
  have h1 : Allowed s (.exit 1) := by
    intro p x hp hx
    have h2 := hq.2
    unfold allowed at h2
    dsimp only at h2
    rw [hp, Option.getD_some, hx] at h2
    simpa using h2
  obtain ⟨s', hs⟩ := C117_safe h h1
  exact ⟨s, s', h, hs, C117_recorded hs, by simpa using hq.1⟩

end Verif.PoolDefault
