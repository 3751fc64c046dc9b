import Verif.Proof.RingCbRun

/-!
# Whole calls of clear and drop_last, with free functions which add elements to both ends
-/

namespace Verif.RingCb
open Verif.C Verif.Ring
open Verif.Ring.Spec (Ptr Op Out Deque)

theorem note_stored (s : State) (r : Ring) (op : Op) (o : Out) :
    (note s r op o).stored = s.stored ∨ ∃ p, (op = .put p ∨ op = .putFront p) ∧ (note s r op o).stored = s.stored ++ [p] := by
  unfold note
  split
  · exact .inr ⟨_, .inl rfl, rfl⟩
  · exact .inr ⟨_, .inr rfl, rfl⟩
  all_goals exact .inl rfl

theorem fronts_cons (op : Op) (ops : List Op) : fronts (op :: ops) = fronts ops ++ fronts [op] := by
  cases op <;> simp [fronts]

theorem backs_cons (op : Op) (ops : List Op) : backs (op :: ops) = backs [op] ++ backs ops := by
  cases op <;> simp [backs]

/-- Functions which don't remove anything, one after another: what they add -/
theorem adds_many {s : State} {d : Deque} {ops : List Op} {rest : List Act} (h : Live s d) (hk : ∀ op ∈ ops, Keeps op)
    (hl : legal Polite s (ops.map .call ++ rest) = true) :
    ∃ s1 d1 pre post, exec s (ops.map .call ++ rest) = exec s1 rest ∧ legal Polite s1 rest = true ∧ Live s1 d1 ∧
      d1.items = pre ++ d.items ++ post ∧ s1.stack = s.stack ∧ s1.stored.Perm (s.stored ++ (pre ++ post)) ∧ s1.released = s.released ∧
      pre.Sublist (fronts ops) ∧ post.Sublist (backs ops) := by
  induction ops generalizing s d with
  | nil => exact ⟨s, d, [], [], rfl, hl, h, by simp, rfl, by simp, rfl, by simp, by simp⟩
  | cons op ops ih =>
    simp only [List.map_cons, List.cons_append] at hl ⊢
    obtain ⟨ha, _, s2, hs2, hl2⟩ := legal_cons hl
    have hkop := hk op List.mem_cons_self
    obtain ⟨o, r, d2, pre, post, h1, h2, h3, h4, h5, h6, h7, h8, h9⟩ := keeps_inv h hkop ha
    have hst : step s (.call op) = .ok (note s r op o) := by
      show call s op = _
      rw [plain_call h.access (keeps_plain hkop), h1]
      rfl
    rw [hst] at hs2
    cases hs2
    have hsub : pre.Sublist (fronts [op]) ∧ post.Sublist (backs [op]) := by
      rcases note_stored s r op o with e | ⟨p, e | e, e2⟩
      · rw [h5] at e
        have : pre ++ post = [] := by simpa using e
        obtain ⟨rfl, rfl⟩ := List.append_eq_nil_iff.mp this
        exact ⟨List.nil_sublist _, List.nil_sublist _⟩
      · subst e
        have := h8 (by intro p e; cases e)
        subst this
        rw [h5] at e2
        have : post = [p] := by simpa using e2
        subst this
        exact ⟨List.nil_sublist _, List.Sublist.refl _⟩
      · subst e
        have := h9 (by intro p e; cases e)
        subst this
        rw [h5] at e2
        have : pre = [p] := by simpa using e2
        subst this
        exact ⟨List.Sublist.refl _, List.nil_sublist _⟩
    obtain ⟨s1, d1, pre1, post1, g1, g2, g3, g4, g5, g6, g7, g8, g9⟩ := ih h2 (fun op h => hk op (List.mem_cons_of_mem _ h)) hl2
    refine ⟨s1, d1, pre1 ++ pre, post ++ post1, ?_, g2, g3, ?_, g5.trans h4, ?_, g7.trans h7, ?_, ?_⟩
    · simp only [exec, hst]
      exact g1
    · rw [g4, h3]
      simp only [List.append_assoc]
    · rw [h5] at g6
      rw [List.perm_iff_count] at *
      intro q
      have := g6 q
      simp only [List.count_append] at *
      omega
    · rw [fronts_cons]; exact g8.append hsub.1
    · rw [backs_cons]; exact hsub.2.append g9

def flatAdds (added : List (List Ptr × List Ptr)) : List Ptr := added.flatMap fun x => x.1 ++ x.2

/-- The rest of clear, a free function having been called -/
theorem clear_loop_exact (bodies : List (List Op)) (hb : ∀ ops ∈ bodies, ∀ op ∈ ops, Keeps op) (n f : Nat) (m : Option Int) (hm : MaxOk m)
    (hn : bodies.length = n + 1) (s : State) (d : Deque) (rest : List Frame) (h : Live s d) (hs : s.stack = .clear n f m :: rest)
    (hln : n ≤ d.items.length) (hlegal : legal Polite s (bodies.flatMap body) = true) (a : Ptr) :
    ∃ s' added, exec s (bodies.flatMap body) = .ok s' ∧ s'.stored.Perm (s.stored ++ flatAdds added) ∧ Adds bodies added ∧
      Done { s with stack := rest } s' (fromFront (a :: d.items) added).2 (fromFront (a :: d.items) added).1.tail m := by
  induction bodies generalizing n s d a with
  | nil => simp at hn
  | cons ops bodies ih =>
    rw [List.flatMap_cons, body, List.append_assoc] at hlegal ⊢
    obtain ⟨s1, d1, pre, post, g1, g2, g3, g4, g5, g6, g7, g8, g9⟩ := adds_many h (hb ops List.mem_cons_self) hlegal
    rw [g1]
    obtain ⟨_, _, s2, k1, k2⟩ := legal_cons g2
    simp only [List.cons_append, List.nil_append] at k2 ⊢
    simp only [exec, k1]
    have h' := g3.pop rest
    have k1' : ret s1 = .ok s2 := k1
    simp only [ret, g5, hs, g3.access, if_false, g3.size, bind, Except.bind] at k1'
    by_cases hn0 : n = 0
    · subst hn0
      rw [if_neg (by simp)] at k1'
      cases k1'
      have hbs : bodies = [] := by simpa using hn
      subst hbs
      refine ⟨_, [(pre, post)], rfl, ?_, ⟨g8, g9, trivial⟩, ?_⟩
      · rw [finish_stored]; simpa [flatAdds] using g6
      · have := finish_done (s0 := { s with stack := rest }) (fr := []) h' hm rfl (by rw [List.append_nil]; exact g7)
        rw [g4] at this
        simpa [fromFront] using this
    · cases hd1 : d1.items with
      | nil => rw [hd1] at g4; have := congrArg List.length g4; simp only [List.length_nil, List.length_append] at this; omega
      | cons b l =>
        rw [if_pos (by rw [hd1]; simp only [List.length_cons]; omega)] at k1'
        obtain ⟨s3, d3, e1, e2, e3, e4, e5, e6⟩ := clearIter_run h' (x := b) (t := l) hd1 f (n - 1) m
        rw [e1] at k1'
        cases k1'
        have hlen : n ≤ l.length + 1 := by
          have := congrArg List.length g4
          rw [hd1] at this
          simp only [List.length_append, List.length_cons] at this
          omega
        obtain ⟨s', added, r1, r2, r3, r4⟩ := ih (fun ops h => hb ops (List.mem_cons_of_mem _ h)) (n - 1)
          (by simp only [List.length_cons] at hn; omega) s2 d3 e2 e4 (by rw [e3]; omega) k2 b
        cases hbd : bodies with
        | nil => rw [hbd] at hn; simp only [List.length_cons, List.length_nil] at hn; omega
        | cons ops2 bodies2 =>
          rw [hbd] at r3
          cases added with
          | nil => exact r3.elim
          | cons fb added =>
            obtain ⟨f2, b2⟩ := fb
            rw [hbd] at r1
            refine ⟨s', (pre, post) :: (f2, b2) :: added, r1, ?_, ⟨g8, g9, r3⟩, ?_⟩
            · rw [e5] at r2
              have r2' : s'.stored.Perm (s1.stored ++ flatAdds ((f2, b2) :: added)) := r2
              rw [List.perm_iff_count] at *
              intro q
              have h1 := r2' q
              have h2 := g6 q
              simp only [flatAdds, List.flatMap_cons, List.count_append] at *
              omega
            · rw [e3] at r4
              have hf : fromFront (a :: d.items) ((pre, post) :: (f2, b2) :: added) =
                  (a :: (fromFront (b :: l) ((f2, b2) :: added)).1, (fromFront (b :: l) ((f2, b2) :: added)).2) := by
                rw [fromFront, ← g4, hd1]
              rw [hf]
              refine ⟨r4.stack, ?_, r4.live, r4.max⟩
              rw [r4.released]
              show s2.released ++ _ = s.released ++ _
              rw [e6]
              show s1.released ++ [b] ++ _ = _
              rw [g7, fromFront]
              simp

/-- clear -/
theorem clear_run_exact (bodies : List (List Op)) (hb : ∀ ops ∈ bodies, ∀ op ∈ ops, Keeps op) (m : Option Int) (hm : MaxOk m) (s s1 : State)
    (d : Deque) (h : Live s d) (hn : bodies.length = d.items.length) (h1 : clear s m = .ok s1)
    (hlegal : legal Polite s1 (bodies.flatMap body) = true) :
    ∃ s' added, exec s1 (bodies.flatMap body) = .ok s' ∧ s'.stored.Perm (s.stored ++ flatAdds added) ∧ Adds bodies added ∧
      Done s s' (fromFront d.items added).2 (fromFront d.items added).1 m := by
  simp only [clear, h.size, bind, Except.bind] at h1
  cases hl : d.items with
  | nil =>
    rw [hl] at hn
    have hbs : bodies = [] := by simpa using hn
    subst hbs
    rw [hl, if_neg (by simp)] at h1
    cases h1
    refine ⟨_, [], rfl, by rw [finish_stored]; simp [flatAdds], trivial, ?_⟩
    have := finish_done (s0 := s) (fr := []) h hm rfl (by simp)
    rw [hl] at this
    exact this
  | cons a l =>
    obtain ⟨f, hf⟩ := h.free'
    rw [hl, if_pos (by simp only [List.length_cons]; omega)] at h1
    simp only [hf] at h1
    obtain ⟨s3, d3, e1, e2, e3, e4, e5, e6⟩ := clearIter_run h hl f (((a :: l).length : Int).toNat - 1) m
    rw [e1] at h1
    cases h1
    obtain ⟨s', added, r1, r2, r3, r4⟩ := clear_loop_exact bodies hb _ f m hm (by rw [hn, hl]; simp) s1 d3 s.stack e2 e4 (by rw [e3]; simp)
      hlegal a
    rw [e3] at r4
    refine ⟨s', added, r1, by rw [← e5]; exact r2, r3, r4.stack, ?_, r4.live, r4.max⟩
    rw [r4.released]
    show s1.released ++ _ = _
    rw [e6]
    cases added with
    | nil => cases bodies with
      | nil => rw [hl] at hn; simp at hn
      | cons _ _ => exact r3.elim
    | cons x added =>
      obtain ⟨f2, b2⟩ := x
      simp [fromFront]

/-- The rest of drop_last, a free function having been called -/
theorem dropLast_loop_exact (bodies : List (List Op)) (hb : ∀ ops ∈ bodies, ∀ op ∈ ops, Keeps op) (n : Nat)
    (hn : bodies.length = n + 1) (s : State) (d : Deque) (rest : List Frame) (h : Live s d) (hs : s.stack = .dropLast n :: rest)
    (hln : n < d.items.length) (hlegal : legal Polite s (bodies.flatMap body) = true) (a : Ptr) :
    ∃ s' added, exec s (bodies.flatMap body) = .ok s' ∧ s'.stored.Perm (s.stored ++ flatAdds added) ∧ Adds bodies added ∧
      Done { s with stack := rest } s' (fromBack (d.items ++ [a]) added).2 (fromBack (d.items ++ [a]) added).1.tail none := by
  induction bodies generalizing n s d a with
  | nil => simp at hn
  | cons ops bodies ih =>
    rw [List.flatMap_cons, body, List.append_assoc] at hlegal ⊢
    obtain ⟨s1, d1, pre, post, g1, g2, g3, g4, g5, g6, g7, g8, g9⟩ := adds_many h (hb ops List.mem_cons_self) hlegal
    rw [g1]
    obtain ⟨_, _, s2, k1, k2⟩ := legal_cons g2
    simp only [List.cons_append, List.nil_append] at k2 ⊢
    simp only [exec, k1]
    have h' := g3.pop rest
    have k1' : ret s1 = .ok s2 := k1
    simp only [ret, g5, hs, g3.access, if_false] at k1'
    by_cases hn0 : n = 0
    · subst hn0
      rw [if_neg (by simp)] at k1'
      cases k1'
      have hbs : bodies = [] := by simpa using hn
      subst hbs
      refine ⟨_, [(pre, post)], rfl, ?_, ⟨g8, g9, trivial⟩, rfl, ?_, ⟨d1, h', ?_⟩, by simp⟩
      · simpa [flatAdds] using g6
      · simp only [fromBack, List.getLast?_append, List.getLast?_singleton, Option.some_or, Option.toList_some, List.append_nil, List.tail_cons]
        exact g7
      · simpa [fromBack] using g4
    · have hlen : n < d1.items.length := by
        have := congrArg List.length g4
        simp only [List.length_append] at this
        omega
      rcases snoc_cases d1.items with e | ⟨l, b, hd1⟩
      · rw [e] at hlen; simp at hlen
      · rw [if_pos (by omega)] at k1'
        rw [hd1] at hlen
        simp only [List.length_append, List.length_cons, List.length_nil] at hlen
        obtain ⟨s3, d3, e1, e2, e3, e4, e5, e6⟩ := dropLastIter_run h' (x := b) (t := l) hd1 (by rintro rfl; simp at hlen; omega) (n - 1)
        rw [e1] at k1'
        cases k1'
        obtain ⟨s', added, r1, r2, r3, r4⟩ := ih (fun ops h => hb ops (List.mem_cons_of_mem _ h)) (n - 1)
          (by simp only [List.length_cons] at hn; omega) s2 d3 e2 e4 (by rw [e3]; omega) k2 b
        cases hbd : bodies with
        | nil => rw [hbd] at hn; simp only [List.length_cons, List.length_nil] at hn; omega
        | cons ops2 bodies2 =>
          rw [hbd] at r3
          cases added with
          | nil => exact r3.elim
          | cons fb added =>
            obtain ⟨f2, b2⟩ := fb
            rw [hbd] at r1
            refine ⟨s', (pre, post) :: (f2, b2) :: added, r1, ?_, ⟨g8, g9, r3⟩, ?_⟩
            · rw [e5] at r2
              have r2' : s'.stored.Perm (s1.stored ++ flatAdds ((f2, b2) :: added)) := r2
              rw [List.perm_iff_count] at *
              intro q
              have h1 := r2' q
              have h2 := g6 q
              simp only [flatAdds, List.flatMap_cons, List.count_append] at *
              omega
            · rw [e3] at r4
              have hf : fromBack (d.items ++ [a]) ((pre, post) :: (f2, b2) :: added) =
                  (a :: (fromBack (l ++ [b]) ((f2, b2) :: added)).1, (fromBack (l ++ [b]) ((f2, b2) :: added)).2) := by
                rw [fromBack, List.dropLast_concat, ← g4, hd1]
                simp
              rw [hf]
              refine ⟨r4.stack, ?_, r4.live, r4.max⟩
              rw [r4.released]
              show s2.released ++ _ = s.released ++ _
              rw [e6]
              show s1.released ++ [b] ++ _ = _
              rw [g7, fromBack]
              simp

/-- drop_last which doesn't remove everything -/
theorem dropLast_run_exact (bodies : List (List Op)) (hb : ∀ ops ∈ bodies, ∀ op ∈ ops, Keeps op) (s s1 : State) (d : Deque)
    (h : Live s d) (n : Nat) (hlt : n < d.items.length) (hn : bodies.length = n) (h1 : dropLast s n = .ok s1)
    (hlegal : legal Polite s1 (bodies.flatMap body) = true) :
    ∃ s' added, exec s1 (bodies.flatMap body) = .ok s' ∧ s'.stored.Perm (s.stored ++ flatAdds added) ∧ Adds bodies added ∧
      Done s s' (fromBack d.items added).2 (fromBack d.items added).1 none := by
  simp only [dropLast, h.size, bind, Except.bind] at h1
  by_cases hn0 : (n : Int) > 0
  · obtain ⟨f, hf⟩ := h.free'
    rw [if_pos hn0, if_pos (by omega), if_neg (by omega), hf, Option.isSome_some, if_pos rfl] at h1
    obtain ⟨t, a, hi⟩ : ∃ t a, d.items = t ++ [a] := by
      rcases snoc_cases d.items with e | ⟨t, a, e⟩
      · rw [e] at hlt; simp at hlt
      · exact ⟨t, a, e⟩
    rw [hi] at hlt ⊢
    simp only [List.length_append, List.length_cons, List.length_nil] at hlt
    obtain ⟨s3, d3, e1, e2, e3, e4, e5, e6⟩ := dropLastIter_run h hi (by rintro rfl; simp at hlt; omega) ((n : Int).toNat - 1)
    rw [e1] at h1
    cases h1
    obtain ⟨s', added, r1, r2, r3, r4⟩ := dropLast_loop_exact bodies hb _ (by omega) s1 d3 s.stack e2 e4 (by rw [e3]; omega) hlegal a
    rw [e3] at r4
    refine ⟨s', added, r1, by rw [← e5]; exact r2, r3, r4.stack, ?_, r4.live, by simp⟩
    rw [r4.released]
    show s1.released ++ _ = _
    rw [e6]
    cases added with
    | nil => cases bodies with
      | nil => simp at hn; omega
      | cons _ _ => exact r3.elim
    | cons x added =>
      obtain ⟨f2, b2⟩ := x
      simp [fromBack]
  · rw [if_neg hn0] at h1
    cases h1
    have : n = 0 := by omega
    subst this
    have hbs : bodies = [] := by simpa using hn
    subst hbs
    exact ⟨s, [], rfl, by simp [flatAdds], trivial, rfl, by simp [fromBack], ⟨d, h, rfl⟩, by simp⟩

end Verif.RingCb
