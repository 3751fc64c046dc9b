import Verif.Proof.RingCbRun
import Verif.Proof.RingCbIdle
import Verif.Proof.RingCbNote

/-!
# C96, C109: free functions which use the ring

`Reach P s`: a new ring (which has a free function) has been used in any way, possibly by the free functions called by the ring
itself, nested to any depth, following the rules (`Allowed`) and `P`.
-/

namespace Verif.RingCb
open Verif.C Verif.Ring
open Verif.Ring.Spec (Ptr Op Deque)

def always (_ : State) (_ : Act) : Prop := True

instance (s : State) (a : Act) : Decidable (always s a) := isTrue trivial

theorem reach_exec {P : State → Act → Prop} [∀ s a, Decidable (P s a)] {s s' : State} {l : List Act} (h : Reach P s)
    (hl : legal P s l = true)
    (he : exec s l = .ok s') : Reach P s' := by
  induction l generalizing s with
  | nil => cases he; exact h
  | cons a t ih =>
    simp only [legal, exec] at hl he
    split at hl
    · rename_i ha
      cases hs : step s a with
      | error e => simp [hs] at hl
      | ok s1 =>
        simp only [hs] at hl he
        exact ih (.step h ha.1 ha.2 hs) hl he
    · simp at hl

/-- An element passed to a free function and then (again) to a free function or the caller -/
theorem not_exact {a b c : List Ptr} {p : Ptr} (h : a.count p < b.count p + c.count p) : ¬ ∃ l, Exact a b l c := by
  rintro ⟨l, hl⟩
  have := (List.perm_iff_count.mp hl) p
  simp only [List.count_append] at this
  omega

def ring3 : List Act := [.call (.put 1), .call (.put 2), .call (.put 3)]

/-- **C96** is false: if the free function called by `gutil_ring_drop` takes an element out of the ring, that's the one which is being
released; the next one is lost. -/
theorem C96_drop_refuted : ∃ s, Reach always s ∧ s.stack = [] ∧ s.stored = [1, 2, 3] ∧ s.taken = [1] ∧ s.released = [1] ∧
    size s.ring = .ok 1 ∧ dataAt s.ring 0 = .ok 3 ∧ ¬ ∃ l, Exact s.stored s.taken l s.released := by
  have h : ∃ s0, new 0 (-1) 7 = .ok s0 ∧ legal always s0 (ring3 ++ [.call (.drop 1), .call .get, .ret]) = true ∧
      ∃ s, exec s0 (ring3 ++ [.call (.drop 1), .call .get, .ret]) = .ok s ∧ s.stack = [] ∧ s.stored = [1, 2, 3] ∧ s.taken = [1] ∧
        s.released = [1] ∧ size s.ring = .ok 1 ∧ dataAt s.ring 0 = .ok 3 := by
    refine ⟨_, rfl, by decide +kernel, _, rfl, ?_⟩
    decide +kernel
  obtain ⟨s0, h1, h2, s, h3, h4, h5, h6, h7, h8, h9⟩ := h
  refine ⟨s, reach_exec (.new (by decide) (by decide) h1) h2 h3, h4, h5, h6, h7, h8, h9, ?_⟩
  rw [h5, h6, h7]
  exact not_exact (p := 1) (by decide)

/-- **C96** is false: if the free function called by `gutil_ring_drop_last` clears the ring, the element which is being released is
released once more. -/
theorem C96_drop_last_refuted : ∃ s, Reach always s ∧ s.stored = [1, 2, 3] ∧ s.released = [3, 1, 2, 3] ∧
    ¬ ∃ l, Exact s.stored s.taken l s.released := by
  have h : ∃ s0, new 0 (-1) 7 = .ok s0 ∧ legal always s0 (ring3 ++ [.call (.dropLast 2), .call .clear, .ret, .ret, .ret]) = true ∧
      ∃ s, exec s0 (ring3 ++ [.call (.dropLast 2), .call .clear, .ret, .ret, .ret]) = .ok s ∧ s.stored = [1, 2, 3] ∧ s.taken = [] ∧
        s.released = [3, 1, 2, 3] := by
    refine ⟨_, rfl, by decide +kernel, _, rfl, ?_⟩
    decide +kernel
  obtain ⟨s0, h1, h2, s, h3, h4, h5, h6⟩ := h
  refine ⟨s, reach_exec (.new (by decide) (by decide) h1) h2 h3, h4, h6, ?_⟩
  rw [h4, h5, h6]
  exact not_exact (p := 3) (by decide)

/-- **C96** is false: the program crashes (division by zero) if the free function called by `gutil_ring_drop` clears and compacts
the ring. -/
theorem C96_compact_refuted : ∃ s, Reach always s ∧ Allowed s .ret ∧ step s .ret = .error .divByZero := by
  have h : ∃ s0, new 0 (-1) 7 = .ok s0 ∧
      legal always s0 ([.call (.put 1), .call (.put 2), .call (.drop 1), .call .clear, .ret, .ret, .call .compact]) = true ∧
      ∃ s, exec s0 ([.call (.put 1), .call (.put 2), .call (.drop 1), .call .clear, .ret, .ret, .call .compact]) = .ok s ∧
        Allowed s .ret ∧ step s .ret = .error .divByZero := by
    refine ⟨_, rfl, by decide +kernel, _, rfl, ?_⟩
    decide +kernel
  obtain ⟨s0, h1, h2, s, h3, h4⟩ := h
  exact ⟨s, reach_exec (.new (by decide) (by decide) h1) h2 h3, h4⟩

/-- **C96**, what holds if free functions called by drop and drop_last (not removing everything) don't remove anything: there's no
undefined behaviour... -/
theorem C96_safe_partial {s : State} {a : Act} (h : Reach Polite s) (ha : Allowed s a) (hp : Polite s a) : ∃ s', step s a = .ok s' := by
  obtain ⟨s', h1, _⟩ := step_inv (reach_inv h) ha hp
  exact ⟨s', h1⟩

/-- ... nothing is released twice, or released and returned to the caller, at any moment ... -/
theorem C96_once_partial {s : State} (h : Reach Polite s) : ∃ l, Exact s.stored s.taken l s.released := by
  cases reach_inv h with
  | top d _ _ h => exact ⟨_, h⟩
  | drop d n m rest _ _ _ _ _ h => exact ⟨_, h⟩
  | dropLast d n rest _ _ _ _ h => exact ⟨_, h⟩
  | unref l i _ _ _ _ _ _ h => exact ⟨_, h⟩
  | dead _ _ h => exact ⟨_, h⟩

/-- ... and nothing is lost: everything else is in the ring, and can be seen there, also by the free functions (unless it's drop
that has called the free function, in which case what's being released is still in the ring). -/
theorem C96_inside_partial {s : State} (h : Reach Polite s) (hr : 0 < s.ring.refCount) (hs : ∀ n m rest, s.stack ≠ .drop n m :: rest) :
    ∃ l : List Ptr, Exact s.stored s.taken l s.released ∧ size s.ring = .ok (l.length : Int) ∧
      ∀ i (hi : i < l.length), dataAt s.ring i = .ok l[i] := by
  have key : ∀ d, Live s d → size s.ring = .ok (d.items.length : Int) ∧
      ∀ i (hi : i < d.items.length), dataAt s.ring i = .ok d.items[i] := by
    intro d hd
    refine ⟨hd.size, fun i hi => ?_⟩
    rw [dataAt_spec hd.alive]
    simp only [Int.toNat_natCast, List.getElem?_eq_getElem hi, Option.getD_some]
    rw [if_neg (by omega)]
  cases reach_inv h with
  | top d hd _ h => exact ⟨_, h, key d hd⟩
  | drop d n m rest _ h => exact absurd h (hs _ _ _)
  | dropLast d n rest hd _ _ _ h => exact ⟨_, h, key d hd⟩
  | unref l i h => omega
  | dead h => omega

/-- ... and when the ring is gone, everything has been either released or returned. -/
theorem C96_end_partial {s : State} (h : Reach Polite s) (hr : s.ring.refCount = 0) (hs : s.stack = []) :
    Exact s.stored s.taken [] s.released := by
  cases reach_inv h with
  | top d hd => exact absurd hr hd.access
  | drop d n m rest _ h => rw [hs] at h; cases h
  | dropLast d n rest _ h => rw [hs] at h; cases h
  | unref l i _ h => rw [hs] at h; cases h
  | dead _ _ h => exact h

/-- If free functions just return, the call does exactly what it does in the model which C17-C23 are about, whatever the state is (even with no free
function at all): the ring is the same in the end. -/
theorem C96_plain {s : State} {op : Op} {o : Spec.Out} {r' : Ring} (h : Ring.exec s.ring op = .ok (o, r')) :
    ∃ k s', exec s (.call op :: List.replicate k .ret) = .ok s' ∧ s'.ring = r' ∧ s'.stack = s.stack := by
  obtain ⟨s', ⟨s1, k, h1, h2⟩, h3⟩ := call_ends h
  refine ⟨k, s', ?_, h3⟩
  rw [exec, step, h1]
  exact h2

example : ∃ s o r', new 0 (-1) 7 = .ok s ∧ Ring.exec s.ring (.put 5) = .ok (o, r') ∧ o = .bool true := ⟨_, _, _, rfl, rfl, rfl⟩

/-- What the ring is considered to have accepted is exactly what put and put_front have returned TRUE for, and what's considered to be taken out of it is
exactly what get and get_last have returned (NULL is nothing). -/
theorem C96_recorded {s s' : State} {a : Act} (h : step s a = .ok s') :
    match a with
    | .call (.put p) => ∃ o, (∃ r, Ring.exec s.ring (.put p) = .ok (o, r)) ∧ s'.stored = s.stored ++ (if o = .bool true then [p] else []) ∧ s'.taken = s.taken
    | .call (.putFront p) =>
      ∃ o, (∃ r, Ring.exec s.ring (.putFront p) = .ok (o, r)) ∧ s'.stored = s.stored ++ (if o = .bool true then [p] else []) ∧ s'.taken = s.taken
    | .call .get => ∃ p, (∃ r, Ring.exec s.ring .get = .ok (.ptr p, r)) ∧ s'.taken = s.taken ++ (if p = 0 then [] else [p]) ∧ s'.stored = s.stored
    | .call .getLast => ∃ p, (∃ r, Ring.exec s.ring .getLast = .ok (.ptr p, r)) ∧ s'.taken = s.taken ++ (if p = 0 then [] else [p]) ∧ s'.stored = s.stored
    | _ => s'.stored = s.stored ∧ s'.taken = s.taken := recorded h

example : ∃ s s', new 0 (-1) 7 = .ok s ∧ exec s (ring3 ++ [.call .clear, .call .getLast]) = .ok s' ∧ s'.stored = [1, 2, 3] ∧ s'.taken = [3] :=
  ⟨_, _, rfl, rfl, rfl, rfl⟩

/-- Free functions of clear taking elements, adding them back, clearing the ring and dropping elements -/
def example96 : List Act := ring3 ++ [.call .clear, .call .get, .call (.put 4), .call (.putFront 5), .call (.drop 1), .call (.put 6), .ret,
  .call (.dropLast 1), .ret, .call .clear, .ret, .call .size, .ret, .ret, .call (.put 7), .call .unref, .ret]

example : (new 0 (-1) 7).map (fun s => legal Polite s example96) = (.ok true : M _) := by decide +kernel

example : ((new 0 (-1) 7).bind fun s => (exec s example96).map fun s => (s.stack, s.stored, s.taken, s.released)) =
    (.ok ([], [1, 2, 3, 4, 5, 6, 7], [2], [1, 5, 6, 3, 4, 7]) : M _) := by decide +kernel

/-! ### C109: whole calls, the free functions of which add elements to the ring -/

/-- This is what's in the ring. -/
def Holds (s : State) (l : List Ptr) : Prop :=
  size s.ring = .ok (l.length : Int) ∧ ∀ i (hi : i < l.length), dataAt s.ring i = .ok l[i]

theorem Live.holds {s : State} {d : Deque} (h : Live s d) : Holds s d.items := by
  refine ⟨h.size, fun i hi => ?_⟩
  rw [dataAt_spec h.alive]
  simp only [Int.toNat_natCast, List.getElem?_eq_getElem hi, Option.getD_some]
  rw [if_neg (by omega)]

theorem Holds.inj {s : State} {a b : List Ptr} (h1 : Holds s a) (h2 : Holds s b) : a = b := by
  have hl : a.length = b.length := by
    have := h1.1.symm.trans h2.1
    injection this with e
    omega
  refine List.ext_getElem hl (fun i g1 g2 => ?_)
  have := (h1.2 i g1).symm.trans (h2.2 i g2)
  injection this

theorem live_of {s : State} {l : List Ptr} (h : Reach Polite s) (hr : 0 < s.ring.refCount) (hs : s.stack = []) (hl : Holds s l) :
    ∃ d, Live s d ∧ d.items = l := by
  cases reach_inv h with
  | top d hd => exact ⟨d, hd, hd.holds.inj hl⟩
  | drop d n m rest _ h => rw [hs] at h; cases h
  | dropLast d n rest _ h => rw [hs] at h; cases h
  | unref l i h => omega
  | dead h => omega

theorem Done.out {s s' : State} {a b : List Ptr} {m : Option Int} (h : Done s s' a b m) (hs : s.stack = []) :
    s'.stack = [] ∧ s'.released = s.released ++ b ∧ Holds s' a := by
  obtain ⟨d, h1, rfl⟩ := h.live
  exact ⟨h.stack.trans hs, h.released, h1.holds⟩

/-- **C109** is false as far as the maximum size is concerned: it's set after the free functions have been called, and what these have
added isn't taken into account. -/
theorem C109_max_refuted : ∃ s, Reach Polite s ∧ s.stack = [] ∧ s.ring.maxsiz = 2 ∧ Holds s [2, 3, 4] := by
  have h : ∃ s0, new 0 (-1) 7 = .ok s0 ∧ legal Polite s0 (ring3 ++ [.call (.setMaxSize 2), .call (.put 4), .ret]) = true ∧
      ∃ s, exec s0 (ring3 ++ [.call (.setMaxSize 2), .call (.put 4), .ret]) = .ok s ∧ s.stack = [] ∧ s.ring.maxsiz = 2 ∧
        size s.ring = .ok 3 ∧ dataAt s.ring 0 = .ok 2 ∧ dataAt s.ring 1 = .ok 3 ∧ dataAt s.ring 2 = .ok 4 := by
    refine ⟨_, rfl, by decide +kernel, _, rfl, ?_⟩
    decide +kernel
  obtain ⟨s0, h1, h2, s, h3, h4, h5, h6, h7, h8, h9⟩ := h
  refine ⟨s, reach_exec (.new (by decide) (by decide) h1) h2 h3, h4, h5, h6, ?_⟩
  intro i hi
  have : i = 0 ∨ i = 1 ∨ i = 2 := by simp only [List.length_cons, List.length_nil] at hi; omega
  rcases this with rfl | rfl | rfl
  · exact h7
  · exact h8
  · exact h9

/-- **C109** is false for drop_last: what's added by the free function to the end of the ring is the next thing to be dropped. -/
theorem C109_drop_last_refuted : ∃ s s', Reach Polite s ∧ s.stack = [] ∧ Holds s [1, 2, 3] ∧
    exec s (.call (.dropLast 2) :: body [.put 4] ++ body []) = .ok s' ∧ s'.stack = [] ∧ s'.released = [3, 4] ∧ Holds s' [1, 2] := by
  have h : ∃ s0, new 0 (-1) 7 = .ok s0 ∧ legal Polite s0 ring3 = true ∧ ∃ s, exec s0 ring3 = .ok s ∧ s.stack = [] ∧
      size s.ring = .ok 3 ∧ dataAt s.ring 0 = .ok 1 ∧ dataAt s.ring 1 = .ok 2 ∧ dataAt s.ring 2 = .ok 3 ∧
      ∃ s', exec s (.call (.dropLast 2) :: body [.put 4] ++ body []) = .ok s' ∧ s'.stack = [] ∧ s'.released = [3, 4] ∧
        size s'.ring = .ok 2 ∧ dataAt s'.ring 0 = .ok 1 ∧ dataAt s'.ring 1 = .ok 2 := by
    refine ⟨_, rfl, by decide +kernel, _, rfl, by decide +kernel, by decide +kernel, by decide +kernel, by decide +kernel,
      by decide +kernel, _, rfl, ?_⟩
    decide +kernel
  obtain ⟨s0, h1, h2, s, h3, h4, h5, h6, h7, h8, s', g1, g2, g3, g4, g5, g6⟩ := h
  refine ⟨s, s', reach_exec (.new (by decide) (by decide) h1) h2 h3, h4, ⟨h5, ?_⟩, g1, g2, g3, g4, ?_⟩
  · intro i hi
    have : i = 0 ∨ i = 1 ∨ i = 2 := by simp only [List.length_cons, List.length_nil] at hi; omega
    rcases this with rfl | rfl | rfl
    · exact h6
    · exact h7
    · exact h8
  · intro i hi
    have : i = 0 ∨ i = 1 := by simp only [List.length_cons, List.length_nil] at hi; omega
    rcases this with rfl | rfl
    · exact g5
    · exact g6

/-- **C109** for clear: each element which was there is released, in order; what the free functions have added stays there. (They're
called exactly as many times as there were elements.) -/
theorem C109_clear_partial {s : State} {l : List Ptr} (h : Reach Polite s) (hr : 0 < s.ring.refCount) (hs : s.stack = [])
    (hl : Holds s l) (bodies : List (List Op)) (hb : ∀ ops ∈ bodies, Back ops) (hn : bodies.length = l.length)
    (hlegal : legal Polite s (.call .clear :: bodies.flatMap body) = true) :
    ∃ s' added, exec s (.call .clear :: bodies.flatMap body) = .ok s' ∧ s'.stack = [] ∧ s'.released = s.released ++ l ∧
      s'.stored = s.stored ++ added ∧ Holds s' added := by
  obtain ⟨d, hd, rfl⟩ := live_of h hr hs hl
  obtain ⟨_, _, s1, h1, h2⟩ := legal_cons hlegal
  have h1' : clear s none = .ok s1 := by simpa only [step, call, hd.access, if_false] using h1
  obtain ⟨s', x, r1, r2, r3⟩ := clear_run bodies hb none none_ok s s1 d hd hn h1' h2
  obtain ⟨e1, e2, e3⟩ := r3.out hs
  exact ⟨s', x, by simp only [exec, h1]; exact r1, e1, e2, r2, e3⟩

/-- **C109** for drop: the oldest elements are released, as many as requested; the other ones stay, followed by what the free functions
have added. -/
theorem C109_drop_partial {s : State} {l : List Ptr} (h : Reach Polite s) (hr : 0 < s.ring.refCount) (hs : s.stack = [])
    (hl : Holds s l) (n : Nat) (bodies : List (List Op)) (hb : ∀ ops ∈ bodies, Back ops) (hn : bodies.length = min n l.length)
    (hlegal : legal Polite s (.call (.drop n) :: bodies.flatMap body) = true) :
    ∃ s' added, exec s (.call (.drop n) :: bodies.flatMap body) = .ok s' ∧ s'.stack = [] ∧ s'.released = s.released ++ l.take n ∧
      s'.stored = s.stored ++ added ∧ Holds s' (l.drop n ++ added) := by
  obtain ⟨d, hd, rfl⟩ := live_of h hr hs hl
  obtain ⟨_, _, s1, h1, h2⟩ := legal_cons hlegal
  have h1' : drop s n none = .ok s1 := by simpa only [step, call, hd.access, if_false] using h1
  obtain ⟨s', x, r1, r2, r3⟩ := drop_run bodies hb none none_ok s s1 d hd n hn h1' h2
  obtain ⟨e1, e2, e3⟩ := r3.out hs
  exact ⟨s', x, by simp only [exec, h1]; exact r1, e1, e2, r2, e3⟩

/-- **C109** for set_max_size, the ring being larger: the oldest elements are released, until there are `m` of them; and `m` is the
maximum size from then on. What the free functions have added is still there. -/
theorem C109_set_max_size_partial {s : State} {l : List Ptr} (h : Reach Polite s) (hr : 0 < s.ring.refCount) (hs : s.stack = [])
    (hl : Holds s l) (m : Nat) (hm : s.ring.maxsiz ≠ m) (hlt : m < l.length) (bodies : List (List Op)) (hb : ∀ ops ∈ bodies, Back ops)
    (hn : bodies.length = l.length - m) (hlegal : legal Polite s (.call (.setMaxSize m) :: bodies.flatMap body) = true) :
    ∃ s' added, exec s (.call (.setMaxSize m) :: bodies.flatMap body) = .ok s' ∧ s'.stack = [] ∧ s'.ring.maxsiz = m ∧
      s'.released = s.released ++ l.take (l.length - m) ∧ s'.stored = s.stored ++ added ∧ Holds s' (l.drop (l.length - m) ++ added) := by
  obtain ⟨d, hd, rfl⟩ := live_of h hr hs hl
  obtain ⟨_, _, s1, h1, h2⟩ := legal_cons hlegal
  have h1' : setMaxSize s m = .ok s1 := by simpa only [step, call, hd.access, if_false] using h1
  obtain ⟨s', x, r1, r2, r3⟩ := setMaxSize_run bodies hb s s1 d hd m hm hlt hn h1' h2
  obtain ⟨e1, e2, e3⟩ := r3.out hs
  exact ⟨s', x, by simp only [exec, h1]; exact r1, e1, r3.max m rfl, e2, r2, e3⟩

/-- **C109** for drop_last which doesn't remove everything, the free functions adding things only to the front of the ring -/
theorem C109_drop_last_partial {s : State} {l : List Ptr} (h : Reach Polite s) (hr : 0 < s.ring.refCount) (hs : s.stack = [])
    (hl : Holds s l) (n : Nat) (hlt : n < l.length) (bodies : List (List Op)) (hb : ∀ ops ∈ bodies, Front ops)
    (hn : bodies.length = n) (hlegal : legal Polite s (.call (.dropLast n) :: bodies.flatMap body) = true) :
    ∃ s' added, exec s (.call (.dropLast n) :: bodies.flatMap body) = .ok s' ∧ s'.stack = [] ∧
      s'.released = s.released ++ (l.drop (l.length - n)).reverse ∧ s'.stored.Perm (s.stored ++ added) ∧
      Holds s' (added ++ l.take (l.length - n)) := by
  obtain ⟨d, hd, rfl⟩ := live_of h hr hs hl
  obtain ⟨_, _, s1, h1, h2⟩ := legal_cons hlegal
  have h1' : dropLast s n = .ok s1 := by simpa only [step, call, hd.access, if_false] using h1
  obtain ⟨s', x, r1, r2, r3⟩ := dropLast_run bodies hb s s1 d hd n hlt hn h1' h2
  obtain ⟨e1, e2, e3⟩ := r3.out hs
  exact ⟨s', x, by simp only [exec, h1]; exact r1, e1, e2, r2, e3⟩

/-- The rules are followed by free functions which add elements. -/
example : (new 0 (-1) 7).map (fun s => (legal Polite s (ring3 ++ .call .clear :: [[.put 4, .put 5], [], [.put 6, .size]].flatMap body),
    legal Polite s (ring3 ++ .call (.drop 2) :: [[.put 4, .put 5], [.put 6]].flatMap body),
    legal Polite s (ring3 ++ .call (.setMaxSize 1) :: [[.put 4, .put 5], [.put 6]].flatMap body),
    legal Polite s (ring3 ++ .call (.dropLast 2) :: [[.putFront 4, .putFront 5], [.putFront 6]].flatMap body))) =
    (.ok (true, true, true, true) : M _) := by decide +kernel

example : Back [.put 4, .put 5] ∧ Front [.putFront 4] := by
  constructor <;> intro op h <;> simp only [List.mem_cons, List.not_mem_nil, or_false] at h
  · rcases h with rfl | rfl <;> exact ⟨trivial, by intro p e; cases e⟩
  · subst h; exact ⟨trivial, by intro p e; cases e⟩

/-- Without a free function nobody is called: every function does what it does in the model without callbacks (whose properties are
C17-C23), and returns right away. -/
theorem C96_no_free_function (s : State) (hf : s.ring.free = none) (op : Op) :
    match Ring.exec s.ring op with
    | .ok (_, r) => ∃ s', call s op = .ok s' ∧ s'.ring = r ∧ s'.stack = s.stack
    | .error e => call s op = .error e := by
  have hclear : ∀ max, (match Ring.clear s.ring with
      | .ok r => ∃ s', clear s max = .ok s' ∧ s'.ring = (match max with | none => r | some m => { r with maxsiz := m }) ∧
        s'.stack = s.stack
      | .error e => clear s max = .error e) := by
    intro max
    unfold Ring.clear clear
    cases h1 : size s.ring with
    | error e => simp only [error_bind]
    | ok n =>
      simp only [ok_bind, hf]
      by_cases hn : n > 0
      · simp only [if_pos hn]
        cases max <;> exact ⟨_, rfl, rfl, rfl⟩
      · simp only [if_neg hn]
        cases max <;> exact ⟨_, rfl, rfl, rfl⟩
  have hdrop : ∀ n max, (match Ring.drop s.ring n with
      | .ok (_, r) => ∃ s', drop s n max = .ok s' ∧ s'.ring = (match max with | none => r | some m => { r with maxsiz := m }) ∧
        s'.stack = s.stack
      | .error e => drop s n max = .error e) := by
    intro n max
    unfold Ring.drop drop
    have hc := hclear max
    by_cases hn : n > 0
    · simp only [if_pos hn]
      cases h1 : size s.ring with
      | error e => simp only [error_bind]
      | ok sz =>
        simp only [ok_bind]
        by_cases hs : sz > 0
        · simp only [if_pos hs]
          by_cases hg : n ≥ sz
          · simp only [if_pos hg]
            cases h2 : Ring.clear s.ring with
            | error e => rw [h2] at hc; simpa only [error_bind] using hc
            | ok r => rw [h2] at hc; simpa only [ok_bind] using hc
          · simp only [if_neg hg, hf, Option.isSome_none, Bool.false_eq_true, if_false]
            cases h2 : chk32 (s.ring.start + n) with
            | error e => simp only [error_bind]
            | ok st =>
              simp only [ok_bind]
              cases h3 : cMod st s.ring.alloc with
              | error e => simp only [error_bind]
              | ok st2 =>
                simp only [ok_bind]
                cases max <;> exact ⟨_, rfl, rfl, rfl⟩
        · simp only [if_neg hs]
          cases max <;> exact ⟨_, rfl, rfl, rfl⟩
    · simp only [if_neg hn]
      cases max <;> exact ⟨_, rfl, rfl, rfl⟩
  by_cases hr : s.ring.refCount = 0
  · simp only [Ring.exec, call, if_pos hr]
  · cases op with
    | clear =>
      simp only [Ring.exec, call, if_neg hr]
      have := hclear none
      cases h2 : Ring.clear s.ring with
      | error e => rw [h2] at this; simpa only [error_bind] using this
      | ok r => rw [h2] at this; simpa only [ok_bind] using this
    | drop n =>
      simp only [Ring.exec, call, if_neg hr]
      have := hdrop n none
      cases h2 : Ring.drop s.ring n with
      | error e => rw [h2] at this; simpa only [error_bind] using this
      | ok r => rw [h2] at this; simpa only [ok_bind] using this
    | dropLast n =>
      simp only [Ring.exec, call, if_neg hr]
      unfold Ring.dropLast dropLast
      have hc := hclear none
      by_cases hn : n > 0
      · simp only [if_pos hn]
        cases h1 : size s.ring with
        | error e => simp only [error_bind]
        | ok sz =>
          simp only [ok_bind]
          by_cases hs : sz > 0
          · simp only [if_pos hs]
            by_cases hg : n ≥ sz
            · simp only [if_pos hg]
              cases h2 : Ring.clear s.ring with
              | error e => rw [h2] at hc; simpa only [error_bind] using hc
              | ok r => rw [h2] at hc; simpa only [ok_bind] using hc
            · simp only [if_neg hg, hf, Option.isSome_none, Bool.false_eq_true, if_false]
              cases h2 : chk32 (s.ring.fin + s.ring.alloc) with
              | error e => simp only [error_bind]
              | ok e =>
                simp only [ok_bind]
                cases h3 : cMod (e - n) s.ring.alloc with
                | error e => simp only [error_bind]
                | ok e2 => exact ⟨_, rfl, rfl, rfl⟩
          · simp only [if_neg hs]
            exact ⟨_, rfl, rfl, rfl⟩
      · simp only [if_neg hn]
        exact ⟨_, rfl, rfl, rfl⟩
    | setMaxSize n =>
      simp only [Ring.exec, call, if_neg hr]
      unfold Ring.setMaxSize setMaxSize
      generalize (if n < 0 then -1 else n) = m
      dsimp only
      by_cases hm : s.ring.maxsiz ≠ m
      · simp only [if_pos hm]
        cases h1 : size s.ring with
        | error e => simp only [error_bind]
        | ok sz =>
          simp only [ok_bind]
          by_cases hs : m ≥ 0 ∧ sz > m
          · simp only [if_pos hs]
            have := hdrop (sz - m) (some m)
            cases h2 : Ring.drop s.ring (sz - m) with
            | error e => rw [h2] at this; simpa only [error_bind] using this
            | ok r => rw [h2] at this; exact this
          · simp only [if_neg hs]
            exact ⟨_, rfl, rfl, rfl⟩
      · simp only [if_neg hm]
        exact ⟨_, rfl, rfl, rfl⟩
    | unref =>
      simp only [Ring.exec, call, if_neg hr]
      unfold Ring.unref unref
      by_cases h1 : s.ring.refCount = 1
      · simp only [if_pos h1, hf, Option.isSome_none, Bool.false_eq_true, if_false]
        exact ⟨_, rfl, by simp [hf], rfl⟩
      · simp only [if_neg h1]
        exact ⟨_, rfl, rfl, rfl⟩
    | _ =>
      simp only [call, if_neg hr]
      split
      · rename_i o r e
        simp only [e, ok_bind]
        refine ⟨_, rfl, ?_, ?_⟩ <;> (unfold note; split <;> rfl)
      · rename_i e h
        simp only [h, error_bind]

/-- Three elements in a ring without a free function, two of them dropped -/
example : ∃ r, Ring.newFull 0 (-1) none = .ok r ∧ ∃ s, (([.put 1, .put 2, .put 3, .drop 2] : List Op).foldlM call
    { ring := r, stack := [], stored := [], taken := [], flat := false }) = .ok s ∧ s.ring.free = none ∧ size s.ring = .ok 1 ∧ s.stack = [] :=
  ⟨_, rfl, _, rfl, rfl, rfl, rfl⟩

end Verif.RingCb
