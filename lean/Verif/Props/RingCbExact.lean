import Verif.Props.RingCb
import Verif.Proof.RingCbExact

/-!
# C109: what exactly is released if the free functions add elements to either end of the ring
-/

namespace Verif.RingCb
open Verif.C Verif.Ring
open Verif.Ring.Spec (Ptr Op Out Deque)

/-- What the function does if everything is to be removed: `clear` -/
inductive All (l : List Ptr) : Op → Prop
  | clear : All l .clear
  | drop {n : Nat} : l.length ≤ n → All l (.drop n)
  | dropLast {n : Nat} : l.length ≤ n → All l (.dropLast n)

/-- **C109** Exactly what's released when everything is to be removed, by whichever function: as many elements as there were, each time the first one, no
matter if it was there before or has been added by the free functions in the meantime; what's left is everything else. -/
theorem C109_clear_exactly {s : State} {l : List Ptr} (h : Reach Polite s) (hr : 0 < s.ring.refCount) (hs : s.stack = [])
    (hl : Holds s l) {op : Op} (hop : All l op) (bodies : List (List Op)) (hb : ∀ ops ∈ bodies, ∀ op ∈ ops, Keeps op) (hn : bodies.length = l.length)
    (hlegal : legal Polite s (.call op :: bodies.flatMap body) = true) :
    ∃ s' added, exec s (.call op :: bodies.flatMap body) = .ok s' ∧ s'.stack = [] ∧ Adds bodies added ∧
      s'.stored.Perm (s.stored ++ added.flatMap fun x => x.1 ++ x.2) ∧ s'.released = s.released ++ (fromFront l added).1 ∧ Holds s' (fromFront l added).2 := by
  obtain ⟨d, hd, rfl⟩ := live_of h hr hs hl
  obtain ⟨_, _, s1, h1, h2⟩ := legal_cons hlegal
  have h1' : clear s none = .ok s1 := by
    cases hop with
    | clear => simpa only [step, call, hd.access, if_false] using h1
    | @drop n hn =>
      have e : drop s n none = .ok s1 := by simpa only [step, call, hd.access, if_false] using h1
      simp only [drop, hd.size, bind, Except.bind] at e
      split at e
      · split at e
        · rw [if_pos (by omega)] at e; exact e
        · cases e
          simp only [clear, hd.size, bind, Except.bind]
          rw [if_neg (by omega)]
      · cases e
        simp only [clear, hd.size, bind, Except.bind]
        rw [if_neg (by omega)]
    | @dropLast n hn =>
      have e : dropLast s n = .ok s1 := by simpa only [step, call, hd.access, if_false] using h1
      simp only [dropLast, hd.size, bind, Except.bind] at e
      split at e
      · split at e
        · rw [if_pos (by omega)] at e; exact e
        · cases e
          simp only [clear, hd.size, bind, Except.bind]
          rw [if_neg (by omega)]
          rfl
      · cases e
        simp only [clear, hd.size, bind, Except.bind]
        rw [if_neg (by omega)]
        rfl
  obtain ⟨s', x, r1, r2, r3, r4⟩ := clear_run_exact bodies hb none none_ok s s1 d hd hn h1' h2
  obtain ⟨e1, e2, e3⟩ := r4.out hs
  exact ⟨s', x, by simp only [exec, h1]; exact r1, e1, r3, r2, e2, e3⟩

/-- **C109** Exactly what's released by drop_last which isn't to remove everything: each time the last element, no matter if it was there before or has been
added by the free functions in the meantime. -/
theorem C109_drop_last_exactly {s : State} {l : List Ptr} (h : Reach Polite s) (hr : 0 < s.ring.refCount) (hs : s.stack = [])
    (hl : Holds s l) (n : Nat) (hlt : n < l.length) (bodies : List (List Op)) (hb : ∀ ops ∈ bodies, ∀ op ∈ ops, Keeps op)
    (hn : bodies.length = n) (hlegal : legal Polite s (.call (.dropLast n) :: bodies.flatMap body) = true) :
    ∃ s' added, exec s (.call (.dropLast n) :: bodies.flatMap body) = .ok s' ∧ s'.stack = [] ∧ Adds bodies added ∧
      s'.stored.Perm (s.stored ++ added.flatMap fun x => x.1 ++ x.2) ∧ s'.released = s.released ++ (fromBack l added).1 ∧ Holds s' (fromBack l added).2 := by
  obtain ⟨d, hd, rfl⟩ := live_of h hr hs hl
  obtain ⟨_, _, s1, h1, h2⟩ := legal_cons hlegal
  have h1' : dropLast s n = .ok s1 := by simpa only [step, call, hd.access, if_false] using h1
  obtain ⟨s', x, r1, r2, r3, r4⟩ := dropLast_run_exact bodies hb s s1 d hd n hlt hn h1' h2
  obtain ⟨e1, e2, e3⟩ := r4.out hs
  exact ⟨s', x, by simp only [exec, h1]; exact r1, e1, r3, r2, e2, e3⟩

/-- **C109** is false for clear, too: what's added to the front of the ring is the next thing to be released, and the last element stays. -/
theorem C109_clear_refuted : ∃ s s', Reach Polite s ∧ s.stack = [] ∧ Holds s [1, 2, 3] ∧
    exec s (.call .clear :: body [.putFront 4] ++ body [] ++ body []) = .ok s' ∧ s'.stack = [] ∧ s'.released = [1, 4, 2] ∧ Holds s' [3] := by
  have h : ∃ s0, new 0 (-1) 7 = .ok s0 ∧ legal Polite s0 ring3 = true ∧ ∃ s, exec s0 ring3 = .ok s ∧ s.stack = [] ∧
      size s.ring = .ok 3 ∧ dataAt s.ring 0 = .ok 1 ∧ dataAt s.ring 1 = .ok 2 ∧ dataAt s.ring 2 = .ok 3 ∧
      ∃ s', exec s (.call .clear :: body [.putFront 4] ++ body [] ++ body []) = .ok s' ∧ s'.stack = [] ∧ s'.released = [1, 4, 2] ∧
        size s'.ring = .ok 1 ∧ dataAt s'.ring 0 = .ok 3 := by
    refine ⟨_, rfl, by decide +kernel, _, rfl, by decide +kernel, by decide +kernel, by decide +kernel, by decide +kernel,
      by decide +kernel, _, rfl, ?_⟩
    decide +kernel
  obtain ⟨s0, h1, h2, s, h3, h4, h5, h6, h7, h8, s', g1, g2, g3, g4, g5⟩ := h
  refine ⟨s, s', reach_exec (.new (by decide) (by decide) h1) h2 h3, h4, ⟨h5, ?_⟩, g1, g2, g3, g4, ?_⟩
  · intro i hi
    have : i = 0 ∨ i = 1 ∨ i = 2 := by simp only [List.length_cons, List.length_nil] at hi; omega
    rcases this with rfl | rfl | rfl
    · exact h6
    · exact h7
    · exact h8
  · intro i hi
    have : i = 0 := by simp only [List.length_cons, List.length_nil] at hi; omega
    subst this
    exact g5

/-- **C96** is false if the free function called by drop adds something to the front: that's forgotten instead of the element being released, which stays in
the ring. -/
theorem C96_drop_front_refuted : ∃ s, Reach always s ∧ s.stack = [] ∧ s.stored = [1, 2, 3, 4] ∧ s.taken = [] ∧ s.released = [1] ∧ Holds s [1, 2, 3] ∧
    ¬ ∃ l, Exact s.stored s.taken l s.released ∧ Holds s l := by
  have h : ∃ s0, new 0 (-1) 7 = .ok s0 ∧ legal always s0 (ring3 ++ .call (.drop 1) :: body [.putFront 4]) = true ∧
      ∃ s, exec s0 (ring3 ++ .call (.drop 1) :: body [.putFront 4]) = .ok s ∧ s.stack = [] ∧ s.stored = [1, 2, 3, 4] ∧ s.taken = [] ∧ s.released = [1] ∧
        size s.ring = .ok 3 ∧ dataAt s.ring 0 = .ok 1 ∧ dataAt s.ring 1 = .ok 2 ∧ dataAt s.ring 2 = .ok 3 := by
    refine ⟨_, rfl, by decide +kernel, _, rfl, ?_⟩
    decide +kernel
  obtain ⟨s0, h1, h2, s, h3, h4, h5, h6, h7, h8, h9, h10, h11⟩ := h
  have hh : Holds s [1, 2, 3] := by
    refine ⟨h8, ?_⟩
    intro i hi
    have : i = 0 ∨ i = 1 ∨ i = 2 := by simp only [List.length_cons, List.length_nil] at hi; omega
    rcases this with rfl | rfl | rfl
    · exact h9
    · exact h10
    · exact h11
  refine ⟨s, reach_exec (.new (by decide) (by decide) h1) h2 h3, h4, h5, h6, h7, hh, ?_⟩
  rintro ⟨l, g1, g2⟩
  rw [h5, h6, h7, g2.inj hh] at g1
  have := g1.count_eq 4
  revert this
  decide

/-- The rules are followed by free functions which add elements to both ends. -/
example : (new 0 (-1) 7).map (fun s => (legal Polite s (ring3 ++ .call .clear :: [[.put 4, .putFront 5], [], [.putFront 6, .size]].flatMap body),
    legal Polite s (ring3 ++ .call (.drop 3) :: [[.put 4, .putFront 5], [.put 6], [.putFront 7]].flatMap body),
    legal Polite s (ring3 ++ .call (.dropLast 2) :: [[.putFront 4, .put 5], [.put 6]].flatMap body))) =
    (.ok (true, true, true) : M _) := by decide +kernel

example : fromFront [1, 2, 3] [([5], [4]), ([], []), ([6], [])] = ([1, 5, 2], [6, 3, 4]) ∧
    fromBack [1, 2, 3] [([4], [5]), ([], [6])] = ([3, 5], [4, 1, 2, 6]) ∧
    Adds [[.put 4, .putFront 5], [], [.putFront 6, .size]] [([5], [4]), ([], []), ([6], [])] := by
  refine ⟨rfl, rfl, .refl _, .refl _, .refl _, .refl _, .refl _, .refl _, trivial⟩

end Verif.RingCb
