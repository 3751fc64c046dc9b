import Verif.Proof.RingCb

/-!
# Whole calls of clear, drop, drop_last and set_max_size, with free functions which only add elements
-/

namespace Verif.RingCb
open Verif.C Verif.Ring
open Verif.Ring.Spec (Ptr Op Out Deque)

theorem exec_append (s : State) (a b : List Act) :
    exec s (a ++ b) = (match exec s a with | .ok s' => exec s' b | .error e => .error e) := by
  induction a generalizing s with
  | nil => rfl
  | cons x t ih =>
    simp only [List.cons_append, exec]
    cases step s x with
    | ok s1 => exact ih s1
    | error e => rfl

theorem legal_cons {P : State → Act → Prop} [∀ s a, Decidable (P s a)] {s : State} {a : Act} {t : List Act} (h : legal P s (a :: t) = true) :
    Allowed s a ∧ P s a ∧ ∃ s', step s a = .ok s' ∧ legal P s' t = true := by
  unfold legal at h
  split at h
  · rename_i ha
    refine ⟨ha.1, ha.2, ?_⟩
    cases hs : step s a with
    | ok s' => rw [hs] at h; exact ⟨s', rfl, h⟩
    | error e => rw [hs] at h; cases h
  · cases h

/-- Functions which don't remove anything, one after another -/
theorem keeps_many {s : State} {d : Deque} {ops : List Op} {rest : List Act} (h : Live s d) (hk : ∀ op ∈ ops, Keeps op)
    (hl : legal Polite s (ops.map .call ++ rest) = true) :
    ∃ s1 d1 pre post, exec s (ops.map .call ++ rest) = exec s1 rest ∧ legal Polite s1 rest = true ∧ Live s1 d1 ∧
      d1.items = pre ++ d.items ++ post ∧ s1.stack = s.stack ∧ s1.stored.Perm (s.stored ++ (pre ++ post)) ∧ s1.released = s.released ∧
      ((∀ op ∈ ops, ∀ p, op ≠ .putFront p) → pre = [] ∧ s1.stored = s.stored ++ post) ∧
      ((∀ op ∈ ops, ∀ p, op ≠ .put p) → post = []) := by
  induction ops generalizing s d with
  | nil => exact ⟨s, d, [], [], rfl, hl, h, by simp, rfl, by simp, rfl, by simp, by simp⟩
  | cons op ops ih =>
    simp only [List.map_cons, List.cons_append] at hl ⊢
    obtain ⟨ha, _, s2, hs2, hl2⟩ := legal_cons hl
    have hkop := hk op List.mem_cons_self
    obtain ⟨o, r, d2, pre, post, h1, h2, h3, h4, h5, h6, h7, h8, h9⟩ := keeps_inv h hkop ha
    have hst : step s (.call op) = .ok (note s r op o) := by
      show call s op = _
      rw [plain_call h.access (keeps_plain hkop), h1]
      rfl
    rw [hst] at hs2
    cases hs2
    obtain ⟨s1, d1, pre1, post1, g1, g2, g3, g4, g5, g6, g7, g8, g9⟩ := ih h2 (fun op h => hk op (List.mem_cons_of_mem _ h)) hl2
    refine ⟨s1, d1, pre1 ++ pre, post ++ post1, ?_, g2, g3, ?_, g5.trans h4, ?_, g7.trans h7, ?_, ?_⟩
    · simp only [exec, hst]
      exact g1
    · rw [g4, h3]
      simp only [List.append_assoc]
    · rw [h5] at g6
      rw [List.perm_iff_count] at *
      intro q
      have := g6 q
      simp only [List.count_append] at *
      omega
    · intro hp
      obtain ⟨e1, e2⟩ := g8 (fun op h => hp op (List.mem_cons_of_mem _ h))
      have e3 := h8 (hp op List.mem_cons_self)
      subst e1 e3
      refine ⟨rfl, ?_⟩
      rw [e2, h5]
      simp
    · intro hp
      rw [h9 (hp op List.mem_cons_self), g9 (fun op h => hp op (List.mem_cons_of_mem _ h))]
      rfl

theorem snoc_cases (l : List Ptr) : l = [] ∨ ∃ t a, l = t ++ [a] := by
  by_cases h : l = []
  · exact .inl h
  · exact .inr ⟨l.dropLast, l.getLast h, (List.dropLast_concat_getLast h).symm⟩

theorem clearIter_run {s : State} {d : Deque} (h : Live s d) {x : Ptr} {t : List Ptr} (hl : d.items = x :: t) (f n : Nat) (m : Option Int) :
    ∃ s' d', clearIter s f n m = .ok s' ∧ Live s' d' ∧ d'.items = t ∧ s'.stack = .clear n f m :: s.stack ∧ s'.stored = s.stored ∧
      s'.released = s.released ++ [x] := by
  obtain ⟨st, e, h1, h2⟩ := get_cons (hl ▸ h.alive.view) h.alive.alloc1
  simp only [clearIter, h1, bind, Except.bind]
  refine ⟨_, gone d t (s.ring.freed ++ [(f, x)]), rfl, ?_, rfl, rfl, rfl, ?_⟩
  · exact h.moved h2 (by rw [hl]; intro p hp; exact List.mem_cons_of_mem _ hp)
  · simp [enter, State.released]

theorem dropIter_run {s : State} {d : Deque} (h : Live s d) {x : Ptr} {t : List Ptr} (hl : d.items = x :: t) (n : Nat) (m : Option Int) :
    ∃ s' d', dropIter s n m = .ok s' ∧ Live s' d' ∧ d'.items = x :: t ∧ s'.stack = .drop n m :: s.stack ∧ s'.stored = s.stored ∧
      s'.released = s.released ++ [x] := by
  obtain ⟨f, hf⟩ := h.free'
  simp only [dropIter, head_slot (hl ▸ h.alive.view), bind, Except.bind, hf]
  refine ⟨_, gone d d.items (s.ring.freed ++ [(f, x)]), rfl, ?_, hl, rfl, rfl, ?_⟩
  · exact h.moved (st := s.ring.start) (e := s.ring.fin) h.alive.view (fun _ h => h)
  · simp [enter, State.released]

theorem dropLastIter_run {s : State} {d : Deque} (h : Live s d) {x : Ptr} {t : List Ptr} (hl : d.items = t ++ [x]) (htne : t ≠ []) (n : Nat) :
    ∃ s' d', dropLastIter s n = .ok s' ∧ Live s' d' ∧ d'.items = t ∧ s'.stack = .dropLast n :: s.stack ∧ s'.stored = s.stored ∧
      s'.released = s.released ++ [x] := by
  have hv := h.alive.view
  rw [hl] at hv
  obtain ⟨e, he, he0, he1, hx, _, hcons⟩ := view_back hv
  have hr : 0 ≤ s.ring.start ∧ 0 ≤ s.ring.fin ∧ s.ring.fin ≤ s.ring.alloc ∧ (s.ring.fin < s.ring.alloc ∨ s.ring.alloc = 1) := by
    rcases hv with ⟨h, _⟩ | ⟨_, g2, g3, g4, _⟩
    · simp at h
    · omega
  have := h.alive.alloc1
  obtain ⟨f, hf⟩ := h.free'
  have hee : (if s.ring.fin + s.ring.alloc - 1 < s.ring.alloc then s.ring.fin + s.ring.alloc - 1
      else s.ring.fin + s.ring.alloc - 1 - s.ring.alloc) = e := by
    rw [he]; split <;> split <;> omega
  simp only [dropLastIter, bind, Except.bind]
  rw [chk32_ok (by omega) (by omega)]
  simp only []
  rw [cMod_ok (by omega) (by omega), hee]
  simp only []
  rw [slot_ok (r := { s.ring with fin := e }) he0 hx]
  simp only [hf]
  simp only [← hf]
  refine ⟨_, gone d t (s.ring.freed ++ [(f, x)]), rfl, ?_, rfl, rfl, rfl, ?_⟩
  · exact h.moved (st := s.ring.start) (e := e) (hcons htne).2 (by rw [hl]; intro p hp; exact List.mem_append_left _ hp)
  · simp [enter, State.released]

/-- The result of a call -/
structure Done (s s' : State) (items freed : List Ptr) (max : Option Int) : Prop where
  stack : s'.stack = s.stack
  released : s'.released = s.released ++ freed
  live : ∃ d, Live s' d ∧ d.items = items
  max : ∀ m, max = some m → s'.ring.maxsiz = m

theorem Live.pop {s : State} {d : Deque} (h : Live s d) (rest : List Frame) : Live { s with stack := rest } d :=
  ⟨h.alive, h.free, h.nz, h.flat, h.tight⟩

theorem finish_done {s s0 : State} {d : Deque} (h : Live s d) {m : Option Int} (hm : MaxOk m) (hs : s.stack = s0.stack) {fr : List Ptr}
    (hr : s.released = s0.released ++ fr) : Done s0 (finish s m) d.items fr m := by
  obtain ⟨d', h1, h2⟩ := h.finish hm
  refine ⟨(finish_stack s m).trans hs, ?_, ⟨d', h1, h2⟩, ?_⟩
  · cases m <;> exact hr
  · rintro k rfl
    rfl

theorem finish_stored (s : State) (m : Option Int) : (finish s m).stored = s.stored := by
  cases m <;> rfl

/-- The rest of clear, a free function having been called -/
theorem clear_loop (bodies : List (List Op)) (hb : ∀ ops ∈ bodies, Back ops) (n f : Nat) (m : Option Int) (hm : MaxOk m)
    (hn : bodies.length = n + 1) (s : State) (d : Deque) (rest : List Frame) (h : Live s d) (hs : s.stack = .clear n f m :: rest)
    (l y : List Ptr) (hl : d.items = l ++ y) (hln : l.length = n) (hlegal : legal Polite s (bodies.flatMap body) = true) :
    ∃ s' x, exec s (bodies.flatMap body) = .ok s' ∧ s'.stored = s.stored ++ x ∧
      Done { s with stack := rest } s' (y ++ x) l m := by
  induction bodies generalizing n s d l y with
  | nil => simp at hn
  | cons ops bodies ih =>
    rw [List.flatMap_cons, body, List.append_assoc] at hlegal ⊢
    have hbk := hb ops List.mem_cons_self
    obtain ⟨s1, d1, pre, post, g1, g2, g3, g4, g5, _, g7, g8, _⟩ := keeps_many h (fun op h => (hbk op h).1) hlegal
    obtain ⟨rfl, g6⟩ := g8 (fun op h => (hbk op h).2)
    rw [g1]
    obtain ⟨_, _, s2, k1, k2⟩ := legal_cons g2
    simp only [List.cons_append, List.nil_append] at k2 ⊢
    simp only [exec, k1]
    have h' := g3.pop rest
    have k1' : ret s1 = .ok s2 := k1
    simp only [ret, g5, hs, g3.access, if_false, g3.size, bind, Except.bind] at k1'
    rw [List.nil_append, hl, List.append_assoc] at g4
    cases l with
    | nil =>
      have hn0 : n = 0 := by simpa using hln.symm
      subst hn0
      rw [if_neg (by simp)] at k1'
      cases k1'
      have hbs : bodies = [] := by simpa using hn
      subst hbs
      refine ⟨_, post, rfl, ?_, ?_⟩
      · rw [finish_stored]; exact g6
      · have := finish_done (s0 := { s with stack := rest }) (fr := []) h' hm rfl (by rw [List.append_nil]; exact g7)
        rw [g4] at this
        exact this
    | cons a l =>
      simp only [List.length_cons] at hln
      rw [if_pos (by rw [g4]; simp only [List.length_append, List.length_cons]; omega)] at k1'
      obtain ⟨s3, d3, e1, e2, e3, e4, e5, e6⟩ := clearIter_run h' (x := a) (t := l ++ (y ++ post)) (by rw [g4]; rfl) f (n - 1) m
      rw [e1] at k1'
      cases k1'
      obtain ⟨s', x, r1, r2, r3⟩ := ih (fun ops h => hb ops (List.mem_cons_of_mem _ h)) (n - 1)
        (by simp only [List.length_cons] at hn; omega) s2 d3 e2 e4 l (y ++ post) e3 (by omega) k2
      refine ⟨s', post ++ x, r1, ?_, ?_⟩
      · rw [r2, e5, ← List.append_assoc]
        show s1.stored ++ x = _
        rw [g6]
      · refine ⟨r3.stack, ?_, ?_, r3.max⟩
        · rw [r3.released]
          show s2.released ++ l = s.released ++ (a :: l)
          rw [e6]
          show s1.released ++ [a] ++ l = _
          rw [g7]
          simp
        · have := r3.live
          rw [List.append_assoc] at this
          exact this

/-- clear -/
theorem clear_run (bodies : List (List Op)) (hb : ∀ ops ∈ bodies, Back ops) (m : Option Int) (hm : MaxOk m) (s s1 : State) (d : Deque)
    (h : Live s d) (hn : bodies.length = d.items.length) (h1 : clear s m = .ok s1)
    (hlegal : legal Polite s1 (bodies.flatMap body) = true) :
    ∃ s' x, exec s1 (bodies.flatMap body) = .ok s' ∧ s'.stored = s.stored ++ x ∧ Done s s' x d.items m := by
  simp only [clear, h.size, bind, Except.bind] at h1
  cases hl : d.items with
  | nil =>
    rw [hl] at hn
    have hbs : bodies = [] := by simpa using hn
    subst hbs
    rw [hl, if_neg (by simp)] at h1
    cases h1
    refine ⟨_, [], rfl, by rw [finish_stored]; simp, ?_⟩
    have := finish_done (s0 := s) (fr := []) h hm rfl (by simp)
    rw [hl] at this
    exact this
  | cons a l =>
    obtain ⟨f, hf⟩ := h.free'
    rw [hl, if_pos (by simp only [List.length_cons]; omega)] at h1
    simp only [hf] at h1
    obtain ⟨s3, d3, e1, e2, e3, e4, e5, e6⟩ := clearIter_run h hl f (((a :: l).length : Int).toNat - 1) m
    rw [e1] at h1
    cases h1
    obtain ⟨s', x, r1, r2, r3⟩ := clear_loop bodies hb _ f m hm (by rw [hn, hl]; simp) s1 d3 s.stack e2 e4 l [] (by rw [e3]; simp)
      (by simp) hlegal
    refine ⟨s', x, r1, by rw [r2, e5], r3.stack, ?_, r3.live, r3.max⟩
    rw [r3.released]
    show s1.released ++ l = _
    rw [e6]
    simp

/-- The rest of drop, a free function having been called -/
theorem drop_loop (bodies : List (List Op)) (hb : ∀ ops ∈ bodies, Back ops) (n : Nat) (m : Option Int) (hm : MaxOk m)
    (hn : bodies.length = n + 1) (s : State) (d : Deque) (rest : List Frame) (h : Live s d) (hs : s.stack = .drop n m :: rest)
    (a : Ptr) (l y : List Ptr) (hl : d.items = a :: (l ++ y)) (hy : y ≠ []) (hln : l.length = n)
    (hlegal : legal Polite s (bodies.flatMap body) = true) :
    ∃ s' x, exec s (bodies.flatMap body) = .ok s' ∧ s'.stored = s.stored ++ x ∧
      Done { s with stack := rest } s' (y ++ x) l m := by
  induction bodies generalizing n s d a l y with
  | nil => simp at hn
  | cons ops bodies ih =>
    rw [List.flatMap_cons, body, List.append_assoc] at hlegal ⊢
    have hbk := hb ops List.mem_cons_self
    obtain ⟨s1, d1, pre, post, g1, g2, g3, g4, g5, _, g7, g8, _⟩ := keeps_many h (fun op h => (hbk op h).1) hlegal
    obtain ⟨rfl, g6⟩ := g8 (fun op h => (hbk op h).2)
    rw [g1]
    obtain ⟨_, _, s2, k1, k2⟩ := legal_cons g2
    simp only [List.cons_append, List.nil_append] at k2 ⊢
    simp only [exec, k1]
    rw [List.nil_append, hl, List.cons_append, List.append_assoc] at g4
    have hpos : 1 ≤ y.length := List.length_pos_iff.mpr hy
    obtain ⟨v1, v2, v3⟩ := view_front g3.alive.view 1 (by rw [g4]; simp only [List.length_append, List.length_cons]; omega)
    have := g3.alive.alloc1
    have h0 : s1.ring.start < s1.ring.alloc := by
      rcases g3.alive.view with ⟨e, _⟩ | ⟨_, _, e, _⟩
      · rw [g4] at e; simp at e
      · exact e
    have k1' : ret s1 = .ok s2 := k1
    simp only [ret, g5, hs, g3.access, if_false, bind, Except.bind] at k1'
    rw [chk32_ok (by omega) (by omega)] at k1'
    simp only [] at k1'
    rw [cMod_ok (by omega) (by omega)] at k1'
    simp only [] at k1'
    generalize hst : (if s1.ring.start + 1 < s1.ring.alloc then s1.ring.start + 1 else s1.ring.start + 1 - s1.ring.alloc) = st at k1'
    have hst' : (if s1.ring.start + ((1 : Nat) : Int) < s1.ring.alloc then s1.ring.start + ((1 : Nat) : Int)
      else s1.ring.start + ((1 : Nat) : Int) - s1.ring.alloc) = st := hst
    rw [hst'] at v3
    rw [List.drop_one] at v3
    have h' : Live { s1 with ring := { s1.ring with start := st }, stack := rest } (gone d1 d1.items.tail s1.ring.freed) :=
      g3.moved (st := st) (e := s1.ring.fin) (log := s1.ring.freed) v3 (fun p hp => List.mem_of_mem_tail hp)
    have hi : (gone d1 d1.items.tail s1.ring.freed).items = l ++ (y ++ post) := by
      show d1.items.tail = _
      rw [g4]; rfl
    cases l with
    | nil =>
      have hn0 : n = 0 := by simpa using hln.symm
      subst hn0
      rw [if_neg (by simp)] at k1'
      cases k1'
      have hbs : bodies = [] := by simpa using hn
      subst hbs
      refine ⟨_, post, rfl, ?_, ?_⟩
      · rw [finish_stored]; exact g6
      · have := finish_done (s0 := { s with stack := rest }) (fr := []) h' hm rfl (by rw [List.append_nil]; exact g7)
        rw [hi] at this
        exact this
    | cons b l =>
      simp only [List.length_cons] at hln
      rw [if_pos (by omega)] at k1'
      obtain ⟨s3, d3, e1, e2, e3, e4, e5, e6⟩ := dropIter_run h' (x := b) (t := l ++ (y ++ post)) (by rw [hi]; rfl) (n - 1) m
      rw [e1] at k1'
      cases k1'
      obtain ⟨s', x, r1, r2, r3⟩ := ih (fun ops h => hb ops (List.mem_cons_of_mem _ h)) (n - 1)
        (by simp only [List.length_cons] at hn; omega) s2 d3 e2 e4 b l (y ++ post) e3 (by simp [hy]) (by omega) k2
      refine ⟨s', post ++ x, r1, ?_, ?_⟩
      · rw [r2, e5, ← List.append_assoc]
        show s1.stored ++ x = _
        rw [g6]
      · refine ⟨r3.stack, ?_, ?_, r3.max⟩
        · rw [r3.released]
          show s2.released ++ l = s.released ++ (b :: l)
          rw [e6]
          show s1.released ++ [b] ++ l = _
          rw [g7]
          simp
        · have := r3.live
          rw [List.append_assoc] at this
          exact this

/-- drop -/
theorem drop_run (bodies : List (List Op)) (hb : ∀ ops ∈ bodies, Back ops) (m : Option Int) (hm : MaxOk m) (s s1 : State) (d : Deque)
    (h : Live s d) (n : Nat) (hn : bodies.length = min n d.items.length) (h1 : drop s n m = .ok s1)
    (hlegal : legal Polite s1 (bodies.flatMap body) = true) :
    ∃ s' x, exec s1 (bodies.flatMap body) = .ok s' ∧ s'.stored = s.stored ++ x ∧
      Done s s' (d.items.drop n ++ x) (d.items.take n) m := by
  have nothing : min n d.items.length = 0 → s1 = finish s m → ∃ s' x, exec s1 (bodies.flatMap body) = .ok s' ∧
      s'.stored = s.stored ++ x ∧ Done s s' (d.items.drop n ++ x) (d.items.take n) m := by
    rintro h0 rfl
    have hbs : bodies = [] := by rw [h0] at hn; simpa using hn
    subst hbs
    refine ⟨_, [], rfl, by rw [finish_stored]; simp, ?_⟩
    have := finish_done (s0 := s) (fr := []) h hm rfl (by simp)
    have e : d.items.take n = [] ∧ d.items.drop n = d.items := by
      rcases Nat.min_eq_zero_iff.mp h0 with rfl | h0
      · simp
      · have := List.length_eq_zero_iff.mp h0
        simp [this]
    rw [e.1, e.2, List.append_nil]
    exact this
  simp only [drop, h.size, bind, Except.bind] at h1
  by_cases hn0 : (n : Int) > 0
  · rw [if_pos hn0] at h1
    by_cases hl0 : (d.items.length : Int) > 0
    · rw [if_pos hl0] at h1
      by_cases h2 : (n : Int) ≥ d.items.length
      · rw [if_pos h2] at h1
        obtain ⟨s', x, r1, r2, r3⟩ := clear_run bodies hb m hm s s1 d h (by omega) h1 hlegal
        refine ⟨s', x, r1, r2, ?_⟩
        rw [List.drop_eq_nil_of_le (by omega), List.take_of_length_le (by omega)]
        exact r3
      · rw [if_neg h2] at h1
        obtain ⟨f, hf⟩ := h.free'
        rw [hf, Option.isSome_some, if_pos rfl] at h1
        obtain ⟨k, rfl⟩ : ∃ k, n = k + 1 := ⟨n - 1, by omega⟩
        cases hi : d.items with
        | nil => rw [hi] at hl0; simp at hl0
        | cons a t =>
          rw [hi] at hn h2
          simp only [List.length_cons] at hn h2
          obtain ⟨s3, d3, e1, e2, e3, e4, e5, e6⟩ := dropIter_run h hi (((k + 1 : Nat) : Int).toNat - 1) m
          rw [e1] at h1
          cases h1
          obtain ⟨s', x, r1, r2, r3⟩ := drop_loop bodies hb _ m hm (by rw [hn]; omega) s1 d3 s.stack e2 e4 a (t.take k) (t.drop k)
            (by rw [e3, List.take_append_drop]) (by intro e; have := List.drop_eq_nil_iff.mp e; omega)
            (by rw [List.length_take]; omega) hlegal
          refine ⟨s', x, r1, by rw [r2, e5], r3.stack, ?_, r3.live, r3.max⟩
          rw [r3.released]
          show s1.released ++ t.take k = _
          rw [e6]
          simp
    · rw [if_neg hl0] at h1
      cases h1
      exact nothing (by omega) rfl
  · rw [if_neg hn0] at h1
    cases h1
    exact nothing (by omega) rfl

/-- The rest of drop_last, a free function having been called -/
theorem dropLast_loop (bodies : List (List Op)) (hb : ∀ ops ∈ bodies, Front ops) (n : Nat)
    (hn : bodies.length = n + 1) (s : State) (d : Deque) (rest : List Frame) (h : Live s d) (hs : s.stack = .dropLast n :: rest)
    (l y : List Ptr) (hl : d.items = y ++ l) (hy : y ≠ []) (hln : l.length = n)
    (hlegal : legal Polite s (bodies.flatMap body) = true) :
    ∃ s' x, exec s (bodies.flatMap body) = .ok s' ∧ s'.stored.Perm (s.stored ++ x) ∧
      Done { s with stack := rest } s' (x ++ y) l.reverse none := by
  induction bodies generalizing n s d l y with
  | nil => simp at hn
  | cons ops bodies ih =>
    rw [List.flatMap_cons, body, List.append_assoc] at hlegal ⊢
    have hbk := hb ops List.mem_cons_self
    obtain ⟨s1, d1, pre, post, g1, g2, g3, g4, g5, g6, g7, _, g9⟩ := keeps_many h (fun op h => (hbk op h).1) hlegal
    cases g9 (fun op h => (hbk op h).2)
    rw [g1]
    obtain ⟨_, _, s2, k1, k2⟩ := legal_cons g2
    simp only [List.cons_append, List.nil_append] at k2 ⊢
    simp only [exec, k1]
    rw [List.append_nil, hl, ← List.append_assoc] at g4
    rw [List.append_nil] at g6
    have h' := g3.pop rest
    have k1' : ret s1 = .ok s2 := k1
    simp only [ret, g5, hs, g3.access, if_false] at k1'
    rcases snoc_cases l with rfl | ⟨l, b, rfl⟩
    · have hn0 : n = 0 := by simpa using hln.symm
      subst hn0
      rw [if_neg (by simp)] at k1'
      cases k1'
      have hbs : bodies = [] := by simpa using hn
      subst hbs
      refine ⟨_, pre, rfl, g6, rfl, ?_, ⟨d1, h', ?_⟩, by simp⟩
      · simp only [List.reverse_nil, List.append_nil]; exact g7
      · simpa using g4
    · simp only [List.length_append, List.length_cons, List.length_nil] at hln
      rw [if_pos (by omega)] at k1'
      obtain ⟨s3, d3, e1, e2, e3, e4, e5, e6⟩ := dropLastIter_run h' (x := b) (t := pre ++ y ++ l)
        (by rw [g4]; simp only [List.append_assoc]) (by simp [hy]) (n - 1)
      rw [e1] at k1'
      cases k1'
      obtain ⟨s', x, r1, r2, r3⟩ := ih (fun ops h => hb ops (List.mem_cons_of_mem _ h)) (n - 1)
        (by simp only [List.length_cons] at hn; omega) s2 d3 e2 e4 l (pre ++ y) e3 (by simp [hy]) (by omega) k2
      refine ⟨s', x ++ pre, r1, ?_, ?_⟩
      · rw [e5] at r2
        have r2' : s'.stored.Perm (s1.stored ++ x) := r2
        rw [List.perm_iff_count] at *
        intro q
        have h1 := r2' q
        have h2 := g6 q
        simp only [List.count_append] at *
        omega
      · refine ⟨r3.stack, ?_, ?_, by simp⟩
        · rw [r3.released]
          show s2.released ++ l.reverse = s.released ++ (l ++ [b]).reverse
          rw [e6]
          show s1.released ++ [b] ++ l.reverse = _
          rw [g7]
          simp
        · have := r3.live
          rw [← List.append_assoc] at this
          exact this

/-- drop_last -/
theorem dropLast_run (bodies : List (List Op)) (hb : ∀ ops ∈ bodies, Front ops) (s s1 : State) (d : Deque)
    (h : Live s d) (n : Nat) (hlt : n < d.items.length) (hn : bodies.length = n) (h1 : dropLast s n = .ok s1)
    (hlegal : legal Polite s1 (bodies.flatMap body) = true) :
    ∃ s' x, exec s1 (bodies.flatMap body) = .ok s' ∧ s'.stored.Perm (s.stored ++ x) ∧
      Done s s' (x ++ d.items.take (d.items.length - n)) (d.items.drop (d.items.length - n)).reverse none := by
  simp only [dropLast, h.size, bind, Except.bind] at h1
  by_cases hn0 : (n : Int) > 0
  · obtain ⟨f, hf⟩ := h.free'
    rw [if_pos hn0, if_pos (by omega), if_neg (by omega), hf, Option.isSome_some, if_pos rfl] at h1
    obtain ⟨t, a, hi⟩ : ∃ t a, d.items = t ++ [a] := by
      rcases snoc_cases d.items with e | ⟨t, a, e⟩
      · rw [e] at hlt; simp at hlt
      · exact ⟨t, a, e⟩
    rw [hi] at hlt ⊢
    simp only [List.length_append, List.length_cons, List.length_nil] at hlt ⊢
    obtain ⟨s3, d3, e1, e2, e3, e4, e5, e6⟩ := dropLastIter_run h hi (by rintro rfl; simp at hlt; omega) ((n : Int).toNat - 1)
    rw [e1] at h1
    cases h1
    obtain ⟨s', x, r1, r2, r3⟩ := dropLast_loop bodies hb _ (by omega) s1 d3 s.stack e2 e4 (t.drop (t.length + 1 - n)) (t.take (t.length + 1 - n))
      (by rw [e3, List.take_append_drop]) (by intro e; have := congrArg List.length e; rw [List.length_take, List.length_nil] at this; omega)
      (by rw [List.length_drop]; omega) hlegal
    refine ⟨s', x, r1, by rw [← e5]; exact r2, r3.stack, ?_, ?_, by simp⟩
    · rw [r3.released]
      show s1.released ++ _ = _
      rw [e6, List.drop_append_of_le_length (by omega)]
      simp
    · have := r3.live
      rw [List.take_append_of_le_length (by omega)]
      exact this
  · rw [if_neg hn0] at h1
    cases h1
    have : n = 0 := by omega
    subst this
    have hbs : bodies = [] := by simpa using hn
    subst hbs
    exact ⟨s, [], rfl, by simp, rfl, by simp, ⟨d, h, by simp⟩, by simp⟩

/-- set_max_size, if there's more in the ring -/
theorem setMaxSize_run (bodies : List (List Op)) (hb : ∀ ops ∈ bodies, Back ops) (s s1 : State) (d : Deque)
    (h : Live s d) (m : Nat) (hm : s.ring.maxsiz ≠ m) (hlt : m < d.items.length) (hn : bodies.length = d.items.length - m)
    (h1 : setMaxSize s m = .ok s1) (hlegal : legal Polite s1 (bodies.flatMap body) = true) :
    ∃ s' x, exec s1 (bodies.flatMap body) = .ok s' ∧ s'.stored = s.stored ++ x ∧
      Done s s' (d.items.drop (d.items.length - m) ++ x) (d.items.take (d.items.length - m)) (some m) := by
  unfold setMaxSize at h1
  rw [if_neg (by omega : ¬ (m : Int) < 0)] at h1
  dsimp only at h1
  rw [if_pos hm] at h1
  simp only [h.size, bind, Except.bind] at h1
  rw [if_pos (by omega), show (d.items.length : Int) - m = ((d.items.length - m : Nat) : Int) by omega] at h1
  exact drop_run bodies hb _ (by rintro k hk; cases hk; omega) s s1 d h _ (by omega) h1 hlegal

end Verif.RingCb
