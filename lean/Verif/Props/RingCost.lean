import Verif.Proof.RingCost

/-!
# C132: adding an element to a ring takes amortised constant time
-/

namespace Verif.RingCost
open Verif.C Verif.Ring Verif.Ring.Spec

/-- The functions which count what's copied and allocated are those of `Model/Ring.lean`, whatever the state of the ring. -/
theorem C132_counted (r : Ring) (ops : List Op) : (run r ops).map (·.2) = Ring.run r ops := run_same ops r

example : ((run ⟨1, 2, -1, 1, 1, [some 5, some 6], none, [], 1⟩ [.put 7, .flatten]).map (·.1)) = .ok ⟨2, 1⟩ := by decide +kernel

/-- **C132** (partial: the limit doesn't change and the caller doesn't reorganise the memory). Whatever is done with a new ring, storing `n` elements
copies at most `2 (n - 1)` pointers and allocates at most `log₂ (4 n)` blocks of memory. -/
theorem C132_amortised_partial (reserved max : Int) (free : Option Nat) (h0 : 0 ≤ reserved) (h1 : reserved ≤ 2 ^ 30) (ops : List Op)
    (ha : (Buf.new reserved max free).Allowed ops) (ho : ∀ op ∈ ops, Ordinary op) :
    ∃ r w os r', newFull reserved max free = .ok r ∧ run r ops = .ok (w, os, r') ∧
      w.copied ≤ 2 * (accepted ops os - 1) ∧ 2 ^ w.blocks ≤ Max.max 1 (4 * accepted ops os) := by
  obtain ⟨r, hr, hal⟩ := cap_new reserved max free h0 h1
  have hno : ∀ op ∈ ops, (∀ n, op ≠ .reserve n) ∧ op ≠ .flatten := by
    intro op h
    refine ⟨?_, ?_⟩
    · intro n e; exact (e ▸ ho op h : Ordinary (.reserve n))
    · intro e; exact (e ▸ ho op h : Ordinary .flatten)
  obtain ⟨r', hrun⟩ := run_work ops r _ (.inl hal) ha hno
  have hstart : Paid (Buf.new reserved max free) .none 0 0 :=
    ⟨h0, Nat.le_refl _, Nat.le_refl _, .inr ⟨rfl, rfl⟩, .inl h0, .inl rfl, .inl (Nat.zero_le _)⟩
  obtain ⟨c, hp⟩ := paid_run ops _ _ _ _ hstart ho
  rw [Nat.zero_add] at hp
  have e : Work.none.add (works (Buf.new reserved max free) ops) = works (Buf.new reserved max free) ops := by
    simp only [Work.add, Work.none, Nat.zero_add]
  rw [e] at hp
  refine ⟨r, _, _, r', hr, hrun, ?_, ?_⟩
  · have := hp.copied
    rcases hp.last with h | ⟨h, _⟩ <;> omega
  · rcases hp.last with h | ⟨_, h⟩
    · rcases hp.blocks with h2 | h2
      · have : 2 ^ (works (Buf.new reserved max free) ops).blocks ≤ 2 ^ 1 := Nat.pow_le_pow_right (by omega) h2
        omega
      · rcases Nat.lt_or_ge (works (Buf.new reserved max free) ops).blocks 2 with z | z
        · have : 2 ^ (works (Buf.new reserved max free) ops).blocks ≤ 2 ^ 1 := Nat.pow_le_pow_right (by omega) (by omega)
          omega
        · have : 2 ^ (works (Buf.new reserved max free) ops).blocks = 2 ^ ((works (Buf.new reserved max free) ops).blocks - 2) * 4 := by
            rw [show 4 = 2 ^ 2 from rfl, ← Nat.pow_add]
            congr 1
            omega
          omega
    · rw [h]
      exact Nat.le_max_left _ _

/-- Five elements with some of them taken out again: the third one and the fifth one which are there at a time don't fit. -/
example : (Buf.new 1 4 none).Allowed [.put 1, .put 2, .get, .putFront 3, .put 4, .put 5, .put 6, .getLast, .put 7] ∧
    (∀ op ∈ [Op.put 1, .put 2, .get, .putFront 3, .put 4, .put 5, .put 6, .getLast, .put 7], Ordinary op) ∧
    (do let r ← newFull 1 4 none; let (w, os, _) ← run r [.put 1, .put 2, .get, .putFront 3, .put 4, .put 5, .put 6, .getLast, .put 7]; pure (w, os)) =
      .ok (⟨3, 2⟩, [.bool true, .bool true, .ptr 1, .bool true, .bool true, .bool true, .bool false, .ptr 5, .bool true]) := by decide +kernel

/-- It doesn't get much better than that: five elements, seven pointers copied, and four blocks -/
example : (do let r ← newFull 0 (-1) none; let (w, os, _) ← run r (List.replicate 5 (.put 1)); pure (w, accepted (List.replicate 5 (.put 1)) os)) =
    .ok (⟨7, 4⟩, 5) := by decide +kernel

theorem tidy_work (p : Ptr) (n : Nat) : ∀ b : Buf, b.cap = b.items.length → b.max < 0 → b.refs = 1 → b.short = false → b.items.length + n ≤ 2 ^ 20 →
    b.Allowed (tidy p n) ∧ accepted (tidy p n) (b.outs (tidy p n)) = n ∧ n * (2 * b.items.length + n) ≤ 2 * (works b (tidy p n)).copied + n := by
  induction n with
  | zero => intro b _ _ _ _ _; exact ⟨trivial, rfl, by simp⟩
  | succ n ih =>
    intro b h1 h2 h3 h4 h5
    have hg : b.grow (b.items.length + 1) = some { b with cap := b.more (b.items.length + 1), short := false } := by
      unfold Buf.grow
      rw [if_neg (by omega), if_neg (by omega)]
    have hm : b.more (b.items.length + 1) ≤ 2 ^ 30 := by
      unfold Buf.more
      dsimp only
      rw [if_pos h2]
      omega
    have hn : b.next (.put p) = (.bool true, { b with items := b.items ++ [p], cap := b.more (b.items.length + 1), short := false }) := by
      unfold Buf.next
      dsimp only
      rw [hg]
    have hw : (workOf b (.put p)).copied = b.items.length := by
      show (growWork b (b.items.length + 1)).copied = _
      unfold growWork
      rw [if_neg (by omega), if_neg (by omega)]
    have hl : (b.items ++ [p]).length = b.items.length + 1 := by simp
    obtain ⟨i1, i2, i3⟩ := ih { b with items := b.items ++ [p], cap := (b.items ++ [p]).length, short := false } rfl h2 h3 rfl (by simp only [hl]; omega)
    have e : ((b.next (.put p)).2.next .compact).2 = { b with items := b.items ++ [p], cap := (b.items ++ [p]).length, short := false } := by
      rw [hn]
      rfl
    refine ⟨⟨⟨by omega, .inr (.inr ⟨by omega, hm⟩), h4⟩, ⟨?_, trivial⟩, ?_⟩, ?_, ?_⟩
    · rw [hn]
      show 0 < b.refs
      omega
    · rw [e]
      exact i1
    · simp only [tidy, Buf.outs, accepted, e, i2]
      rw [hn]
      simp only [stored, List.length_cons, List.length_nil]
      omega
    · simp only [tidy, works, e, Work.add, hw]
      generalize (workOf (b.next (.put p)).2 .compact).copied = x
      generalize (works _ (tidy p n)).copied = y at i3 ⊢
      dsimp only at i3
      rw [hl] at i3
      clear i1 i2 e hl hw hn hm hg
      generalize b.items.length = k at i3 ⊢
      have : (n + 1) * (2 * k + (n + 1)) = n * (2 * (k + 1) + n) + 2 * k + 1 := by
        simp only [Nat.mul_add, Nat.add_mul]
        omega
      omega

/-- **C132** doesn't hold if the memory is reorganised after each element: storing `n` elements then copies at least `n (n - 1) / 2` pointers. -/
theorem C132_compact_refuted (p : Ptr) (n : Nat) (h : n ≤ 2 ^ 20) :
    ∃ r w os r', newFull 0 (-1) none = .ok r ∧ run r (tidy p n) = .ok (w, os, r') ∧ accepted (tidy p n) os = n ∧ n * (n - 1) ≤ 2 * w.copied := by
  obtain ⟨r, hr, hal⟩ := cap_new 0 (-1) none (by omega) (by omega)
  obtain ⟨t1, t2, t3⟩ := tidy_work p n (Buf.new 0 (-1) none) rfl (by decide) rfl rfl (by simpa [Buf.new] using h)
  have hno : ∀ op ∈ tidy p n, (∀ m, op ≠ .reserve m) ∧ op ≠ .flatten := by
    clear t1 t2 t3 h
    induction n with
    | zero => intro op h; cases h
    | succ n ih =>
      intro op h
      cases h with
      | head => exact ⟨(fun _ e => by cases e), (fun e => by cases e)⟩
      | tail _ h =>
        cases h with
        | head => exact ⟨(fun _ e => by cases e), (fun e => by cases e)⟩
        | tail _ h => exact ih op h
  obtain ⟨r', hrun⟩ := run_work _ r _ (.inl hal) t1 hno
  refine ⟨r, _, _, r', hr, hrun, t2, ?_⟩
  have e : n * (n - 1) = n * n - n := by rw [Nat.mul_sub, Nat.mul_one]
  have e2 : n * (2 * (Buf.new 0 (-1) none).items.length + n) = n * n := by simp [Buf.new]
  omega

example : (do let r ← newFull 0 (-1) none; let (w, _, _) ← run r (tidy 7 10); pure w.copied) = .ok 97 ∧ 10 * 9 ≤ 2 * 97 := by decide +kernel

theorem raised_work (p : Ptr) (n : Nat) : ∀ (b : Buf) (k : Nat), b.items.length = k → b.cap = k → b.max = k → b.refs = 1 → b.short = false → k + n ≤ 2 ^ 20 →
    b.Allowed (raised p k n) ∧ accepted (raised p k n) (b.outs (raised p k n)) = n ∧ n * (2 * k + n) = 2 * (works b (raised p k n)).copied + n ∧
    (works b (raised p k n)).blocks = n := by
  induction n with
  | zero => intro b k _ _ _ _ _ _; exact ⟨trivial, rfl, by simp [raised, works, Work.none], rfl⟩
  | succ n ih =>
    intro b k h1 h2 h3 h4 h5 h6
    have hk : norm ((k : Int) + 1) = k + 1 := by unfold norm; rw [if_neg (by omega)]
    have hs : (b.next (.setMaxSize (k + 1))).2.items = b.items ∧ (b.next (.setMaxSize (k + 1))).2.cap = k ∧ (b.next (.setMaxSize (k + 1))).2.max = k + 1 ∧
        (b.next (.setMaxSize (k + 1))).2.refs = 1 ∧ (b.next (.setMaxSize (k + 1))).2.short = false := by
      have hz : b.items.length - ((k : Int) + 1).toNat = 0 := by omega
      unfold Buf.next
      dsimp only
      rw [hk, if_neg (by omega), if_neg (by omega), hz]
      simp [Buf.dropFront, Buf.release, h2, h4, h5]
    generalize hb : (b.next (.setMaxSize (k + 1))).2 = b1 at hs
    obtain ⟨s1, s2, s3, s4, s5⟩ := hs
    have l1 : b1.items.length = k := by rw [s1]; exact h1
    have hmore : b1.more (b1.items.length + 1) = k + 1 := by
      unfold Buf.more
      dsimp only
      rw [if_neg (by omega)]
      omega
    have hn : b1.next (.put p) = (.bool true, { b1 with items := b1.items ++ [p], cap := k + 1, short := false }) := by
      unfold Buf.next
      dsimp only
      have : b1.grow (b1.items.length + 1) = some { b1 with cap := k + 1, short := false } := by
        unfold Buf.grow
        rw [if_neg (by omega), if_neg (by omega), hmore]
      rw [this]
    have hw : workOf b1 (.put p) = ⟨k, 1⟩ := by
      show growWork b1 (b1.items.length + 1) = _
      unfold growWork
      rw [if_neg (by omega), if_neg (by omega), l1]
    obtain ⟨i1, i2, i3, i4⟩ := ih { b1 with items := b1.items ++ [p], cap := k + 1, short := false } (k + 1) (by simp [l1]) rfl (by simpa using s3) s4 rfl (by omega)
    refine ⟨⟨⟨by omega, trivial⟩, ⟨?_, ?_⟩⟩, ?_, ?_, ?_⟩
    · rw [hb]
      exact ⟨by omega, .inr (.inr ⟨by omega, by rw [hmore]; omega⟩), s5⟩
    · rw [hb, hn]
      exact i1
    · simp only [raised, Buf.outs, accepted, hb, hn, i2]
      simp only [stored, List.length_cons, List.length_nil]
      omega
    · simp only [raised, works, hb, hn, hw, Work.add]
      show _ = 2 * (0 + (k + _)) + _
      generalize (works _ (raised p (k + 1) n)).copied = y at i3 ⊢
      have : (n + 1) * (2 * k + (n + 1)) = n * (2 * (k + 1) + n) + 2 * k + 1 := by
        simp only [Nat.mul_add, Nat.add_mul]
        omega
      omega
    · simp only [raised, works, hb, hn, hw, Work.add, i4]
      show 0 + (1 + n) = n + 1
      omega

/-- **C132** doesn't hold if the limit is raised by one before each element: each element is then moved to a new block of memory together with all the others,
which copies exactly `n (n - 1) / 2` pointers. -/
theorem C132_limit_refuted (p : Ptr) (n : Nat) (h : n ≤ 2 ^ 20) :
    ∃ r w os r', newFull 0 0 none = .ok r ∧ run r (raised p 0 n) = .ok (w, os, r') ∧ accepted (raised p 0 n) os = n ∧ 2 * w.copied = n * (n - 1) ∧ w.blocks = n := by
  obtain ⟨r, hr, hal⟩ := cap_new 0 0 none (by omega) (by omega)
  obtain ⟨t1, t2, t3, t4⟩ := raised_work p n (Buf.new 0 0 none) 0 rfl rfl rfl rfl rfl (by omega)
  have hno : ∀ k, ∀ op ∈ raised p k n, (∀ m, op ≠ .reserve m) ∧ op ≠ .flatten := by
    clear t1 t2 t3 t4 h
    induction n with
    | zero => intro k op h; cases h
    | succ n ih =>
      intro k op h
      cases h with
      | head => exact ⟨(fun _ e => by cases e), (fun e => by cases e)⟩
      | tail _ h =>
        cases h with
        | head => exact ⟨(fun _ e => by cases e), (fun e => by cases e)⟩
        | tail _ h => exact ih (k + 1) op h
  obtain ⟨r', hrun⟩ := run_work _ r _ (.inl hal) t1 (hno 0)
  refine ⟨r, _, _, r', hr, hrun, t2, ?_, t4⟩
  have e : n * (n - 1) = n * n - n := by rw [Nat.mul_sub, Nat.mul_one]
  have e2 : n * (2 * 0 + n) = n * n := by simp
  omega

example : (do let r ← newFull 0 0 none; let (w, _, _) ← run r (raised 7 0 10); pure w) = .ok ⟨45, 10⟩ ∧ 2 * 45 = 10 * 9 := by decide +kernel

end Verif.RingCost
