import Verif.Props.Ring

/-!
# What holds of the limit of a ring in the cases excluded by C18, C19 and C23

`Buf` (`Spec/RingCap.lean`) is a list with a limit and a capacity; C17 says that's what a ring is.
-/

namespace Verif.Ring
open Verif.C Verif.Ring.Spec

theorem grow_cases (b : Buf) (n : Int) : (n ≤ b.cap ∧ b.grow n = some b) ∨ (¬ n ≤ b.cap ∧ 0 ≤ b.max ∧ b.max ≤ b.cap ∧ b.grow n = none) ∨
    (¬ n ≤ b.cap ∧ (b.max < 0 ∨ b.cap < b.max) ∧ b.grow n = some { b with cap := b.more n, short := false }) := by
  unfold Buf.grow
  by_cases h1 : n ≤ b.cap
  · exact .inl ⟨h1, by rw [if_pos h1]⟩
  · by_cases h2 : 0 ≤ b.max ∧ b.max ≤ b.cap
    · exact .inr (.inl ⟨h1, h2.1, h2.2, by rw [if_neg h1, if_pos h2]⟩)
    · exact .inr (.inr ⟨h1, by omega, by rw [if_neg h1, if_neg h2]⟩)

/-- Bounded by `B`, and limited -/
structure Within (B : Int) (b : Buf) : Prop where
  lim : 0 ≤ b.max
  max : b.max ≤ B
  cap : b.cap ≤ B
  len : (b.items.length : Int) ≤ b.cap

theorem within_dropFront {B : Int} {b : Buf} (h : Within B b) (n : Nat) : Within B (b.dropFront n) := by
  refine ⟨h.lim, h.max, h.cap, ?_⟩
  have := h.len
  simp only [Buf.dropFront, Buf.release, List.length_drop]
  omega

theorem within_dropBack {B : Int} {b : Buf} (h : Within B b) (n : Nat) : Within B (b.dropBack n) := by
  unfold Buf.dropBack
  split
  · exact within_dropFront h n
  · refine ⟨h.lim, h.max, h.cap, ?_⟩
    have := h.len
    simp only [Buf.release, List.length_take]
    omega

theorem within_grow {B : Int} {b b' : Buf} (h : Within B b) {n : Int} (hg : b.grow n = some b') :
    Within B b' ∧ b'.items = b.items ∧ (b'.max ≤ n ∨ n ≤ b'.cap) ∧ (b'.cap = b.cap ∨ b.cap < b'.max) ∧ Min.min n b.max ≤ b'.cap := by
  have hl := h.lim
  have hm := h.max
  have hc := h.cap
  have hn := h.len
  rcases grow_cases b n with ⟨h1, h2⟩ | ⟨h1, h2, h3, h4⟩ | ⟨h1, h2, h3⟩
  · rw [h2] at hg
    cases hg
    exact ⟨h, rfl, by omega, by omega, by omega⟩
  · rw [h4] at hg
    cases hg
  · rw [h3] at hg
    cases hg
    have hmore : b.more n = Min.min (Max.max n (2 * b.cap)) b.max := by
      unfold Buf.more
      simp only []
      rw [if_neg (by omega)]
    refine ⟨⟨hl, hm, ?_, ?_⟩, rfl, ?_, ?_, ?_⟩ <;> simp only [hmore] <;> omega

theorem within_next {B : Int} {b : Buf} (h : Within B b) (op : Op) (hop : ∀ n, op = .setMaxSize n → 0 ≤ n ∧ n ≤ B) :
    Within B (b.next op).2 := by
  have hl := h.lim
  have hm := h.max
  have hc := h.cap
  have hn := h.len
  cases op with
  | ref => exact ⟨hl, hm, hc, hn⟩
  | unref =>
    simp only [Buf.next]
    by_cases h1 : b.refs = 1
    · rw [if_pos h1]
      have := within_dropFront h b.items.length
      exact ⟨this.lim, this.max, this.cap, this.len⟩
    · rw [if_neg h1]
      exact ⟨hl, hm, hc, hn⟩
  | setFreeFunc f => exact ⟨hl, hm, hc, hn⟩
  | maxSize => exact h
  | setMaxSize n =>
    obtain ⟨h0, hB⟩ := hop n rfl
    have hnorm : norm n = n := by unfold norm; rw [if_neg (by omega)]
    simp only [Buf.next, hnorm]
    by_cases h1 : n = b.max
    · rw [if_pos h1]
      exact h
    · rw [if_neg h1, if_neg (by omega)]
      have := within_dropFront h (b.items.length - n.toNat)
      exact ⟨h0, hB, this.cap, this.len⟩
  | size => exact h
  | clear => exact within_dropFront h _
  | compact => exact ⟨hl, hm, by show (b.items.length : Int) ≤ B; omega, by show (b.items.length : Int) ≤ b.items.length; omega⟩
  | reserve n =>
    simp only [Buf.next]
    cases hg : b.grow n with
    | none => exact h
    | some b' => exact (within_grow h hg).1
  | canPut n => exact h
  | put p =>
    simp only [Buf.next]
    cases hg : b.grow (b.items.length + 1) with
    | none => exact h
    | some b' =>
      obtain ⟨w, e, h1, h2, h3⟩ := within_grow h hg
      refine ⟨w.lim, w.max, w.cap, ?_⟩
      simp only [List.length_append, List.length_cons, List.length_nil, e]
      rcases grow_cases b (b.items.length + 1) with ⟨c1, c2⟩ | ⟨c1, c2, c3, c4⟩ | ⟨c1, c2, c3⟩
      · rw [hg] at c2; cases c2; omega
      · rw [hg] at c4; cases c4
      · rw [hg] at c3; cases c3; simp only [] at h3 ⊢; omega
  | putFront p =>
    simp only [Buf.next]
    cases hg : b.grow (b.items.length + 1) with
    | none => exact h
    | some b' =>
      obtain ⟨w, e, h1, h2, h3⟩ := within_grow h hg
      refine ⟨w.lim, w.max, w.cap, ?_⟩
      simp only [List.length_cons, e]
      rcases grow_cases b (b.items.length + 1) with ⟨c1, c2⟩ | ⟨c1, c2, c3, c4⟩ | ⟨c1, c2, c3⟩
      · rw [hg] at c2; cases c2; omega
      · rw [hg] at c4; cases c4
      · rw [hg] at c3; cases c3; simp only [] at h3 ⊢; omega
  | get => exact ⟨hl, hm, hc, by simp only [Buf.next, List.length_tail]; omega⟩
  | getLast => exact ⟨hl, hm, hc, by simp only [Buf.next, List.length_dropLast]; omega⟩
  | drop n => exact within_dropFront h _
  | dropLast n => exact within_dropBack h _
  | dataAt i => exact h
  | flatten => exact ⟨hl, hm, hc, hn⟩

theorem within_final {B : Int} (ops : List Op) : ∀ (b : Buf), Within B b → (∀ n, .setMaxSize n ∈ ops → 0 ≤ n ∧ n ≤ B) → Within B (b.final ops) := by
  induction ops with
  | nil => intro b h _; exact h
  | cons op ops ih =>
    intro b h hop
    exact ih _ (within_next h op (fun n e => hop n (by simp [e]))) (fun n hn => hop n (by simp [hn]))

/-- **C18**, what holds of every ring which is limited all the time: its size never exceeds the largest one of the limits it has had and the size
reserved for it when it was created, no matter what has been reserved later. (`C18_refuted` and `C18_refuted_by_lowering` show that each
of these can be reached.) -/
theorem C18_exactly (reserved max B : Int) (free : Option Nat) (h0 : 0 ≤ reserved) (h1 : reserved ≤ 2 ^ 30) (hr : reserved ≤ B)
    (hm : 0 ≤ max ∧ max ≤ B) (ops : List Op) (hop : ∀ n, .setMaxSize n ∈ ops → 0 ≤ n ∧ n ≤ B)
    (ha : (Buf.new reserved max free).Allowed (ops ++ [.size])) :
    ∃ r r' n, newFull reserved max free = .ok r ∧ run r (ops ++ [.size]) = .ok ((Buf.new reserved max free).outs ops ++ [.int n], r') ∧ n ≤ B := by
  obtain ⟨r, r', h2, h3, -⟩ := C17_exact_partial reserved max free h0 h1 _ ha
  have hw : Within B (Buf.new reserved max free) := by
    have : norm max = max := by unfold norm; rw [if_neg (by omega)]
    exact ⟨by simp only [Buf.new, this]; omega, by simp only [Buf.new, this]; omega, hr, by simp only [Buf.new, List.length_nil]; omega⟩
  have hf := within_final ops _ hw hop
  have ho : ∀ (ops : List Op) (b : Buf), b.outs (ops ++ [.size]) = b.outs ops ++ [.int (b.final ops).items.length] := by
    intro ops
    induction ops with
    | nil => intro b; rfl
    | cons op ops ih => intro b; simp only [List.cons_append, Buf.outs, Buf.final, ih]
  rw [ho] at h3
  exact ⟨r, r', _, h2, h3, by have := hf.len; have := hf.cap; omega⟩

example : (Buf.new 2 5 none).Allowed ([.put 1, .reserve 100, .put 2, .setMaxSize 1, .put 3, .put 4, .put 5, .put 6] ++ [.size]) ∧
    (Buf.new 2 5 none).outs ([.put 1, .reserve 100, .put 2, .setMaxSize 1, .put 3, .put 4, .put 5, .put 6] ++ [.size]) =
      [.bool true, .bool true, .bool true, .unit, .bool true, .bool true, .bool true, .bool true, .int 5] := by decide +kernel

/-- **C19**, without exceptions: `gutil_ring_can_put` goes by the limit, `gutil_ring_put` and `gutil_ring_put_front` also succeed if there's
unused capacity. -/
theorem C19_exactly (reserved max : Int) (free : Option Nat) (h0 : 0 ≤ reserved) (h1 : reserved ≤ 2 ^ 30) (ops : List Op) (p : Ptr)
    (ha : (Buf.new reserved max free).Allowed ops) (b : Buf) (hb : b = (Buf.new reserved max free).final ops) (hp : b.Pre (.put p)) :
    ∃ r r', newFull reserved max free = .ok r ∧ run r ops = .ok ((Buf.new reserved max free).outs ops, r') ∧
      (b.max < 0 ∨ b.items.length + 1 < (2 ^ 31 : Int) → ∃ r1, exec r' (.canPut 1) = .ok (.bool (decide (b.max < 0 ∨ b.items.length + 1 ≤ b.max)), r1)) ∧
      (∃ r1, exec r' (.put p) = .ok (.bool (decide (b.max < 0 ∨ b.items.length < Max.max b.cap b.max)), r1)) ∧
      (∃ r1, exec r' (.putFront p) = .ok (.bool (decide (b.max < 0 ∨ b.items.length < Max.max b.cap b.max)), r1)) := by
  obtain ⟨r, hr, hal⟩ := cap_new reserved max free h0 h1
  obtain ⟨r', h2, h3⟩ := cap_run ops r _ (.inl hal) ha
  rw [← hb] at h3
  rcases h3 with h3 | h3
  · have hle := h3.1.view.length_le h3.1.alloc0
    have hle : (b.items.length : Int) ≤ b.cap := by rw [← h3.2]; exact hle
    have hg : ∀ b' : Option Buf, b.grow (b.items.length + 1) = b' → b'.isSome = decide (b.max < 0 ∨ b.items.length < Max.max b.cap b.max) := by
      rintro b' rfl
      rcases grow_cases b (b.items.length + 1) with ⟨c1, c2⟩ | ⟨c1, c2, c3, c4⟩ | ⟨c1, c2, c3⟩
      · rw [c2]
        exact (decide_eq_true (by omega)).symm
      · rw [c4]
        exact (decide_eq_false (by omega)).symm
      · rw [c3]
        exact (decide_eq_true (by omega)).symm
    refine ⟨r, r', hr, h2, ?_, ?_, ?_⟩
    · intro hs
      obtain ⟨r1, h4, -⟩ := cap_step h3 (op := .canPut 1) ⟨hp.1, by intro hm; omega⟩
      exact ⟨r1, h4⟩
    · obtain ⟨r1, h4, -⟩ := cap_step h3 hp
      refine ⟨r1, ?_⟩
      rw [h4, ← hg _ rfl]
      simp only [Buf.next]
      cases b.grow (b.items.length + 1) <;> rfl
    · obtain ⟨r1, h4, -⟩ := cap_step h3 (op := .putFront p) hp
      refine ⟨r1, ?_⟩
      rw [h4, ← hg _ rfl]
      simp only [Buf.next]
      cases b.grow (b.items.length + 1) <;> rfl
  · have := hp.1
    have := h3.1
    omega

example : (Buf.new 2 (-1) none).Allowed [.put 1, .setMaxSize 1] ∧ ((Buf.new 2 (-1) none).final [.put 1, .setMaxSize 1]).Pre (.put 5) ∧
    ((Buf.new 2 (-1) none).final [.put 1, .setMaxSize 1]).cap = 2 ∧ ((Buf.new 2 (-1) none).final [.put 1, .setMaxSize 1]).max = 1 := by decide +kernel

/-- Up to the larger one of the capacity and the limit, all these calls succeed; then none does. -/
theorem puts_next (ps : List Ptr) : ∀ (b : Buf), 0 ≤ b.max → (b.items.length : Int) ≤ b.cap →
    b.outs (ps.map .put) = List.replicate (Min.min ps.length ((Max.max b.cap b.max).toNat - b.items.length)) (.bool true) ++
      List.replicate (ps.length - ((Max.max b.cap b.max).toNat - b.items.length)) (.bool false) := by
  induction ps with
  | nil => intro b _ _; simp [Buf.outs]
  | cons p ps ih =>
    intro b hm hl
    simp only [List.map_cons, Buf.outs]
    rcases grow_cases b (b.items.length + 1) with ⟨c1, c2⟩ | ⟨c1, c2, c3, c4⟩ | ⟨c1, c2, c3⟩
    · simp only [Buf.next, c2]
      rw [ih { b with items := b.items ++ [p] } hm (by simp only [List.length_append, List.length_cons, List.length_nil]; omega)]
      simp only [List.length_append, List.length_cons, List.length_nil]
      rw [show Min.min (ps.length + 1) ((Max.max b.cap b.max).toNat - b.items.length) =
        Min.min ps.length ((Max.max b.cap b.max).toNat - (b.items.length + 1)) + 1 by omega, List.replicate_succ, List.cons_append,
        show ps.length + 1 - ((Max.max b.cap b.max).toNat - b.items.length) = ps.length - ((Max.max b.cap b.max).toNat - (b.items.length + 1)) by omega]
    · simp only [Buf.next, c4]
      rw [ih _ hm hl]
      simp only [List.length_cons]
      rw [show (Max.max b.cap b.max).toNat - b.items.length = 0 by omega]
      simp [List.replicate_succ]
    · have hmore : b.more (b.items.length + 1) ≤ b.max ∧ b.items.length + 1 ≤ b.more (b.items.length + 1) := by
        unfold Buf.more
        simp only []
        rw [if_neg (by omega)]
        omega
      simp only [Buf.next, c3]
      rw [ih { b with items := b.items ++ [p], cap := b.more (b.items.length + 1), short := false } hm (by simp only [List.length_append, List.length_cons, List.length_nil]; omega)]
      simp only [List.length_append, List.length_cons, List.length_nil]
      rw [show Min.min (ps.length + 1) ((Max.max b.cap b.max).toNat - b.items.length) =
        Min.min ps.length ((Max.max (b.more (b.items.length + 1)) b.max).toNat - (b.items.length + 1)) + 1 by omega, List.replicate_succ, List.cons_append,
        show ps.length + 1 - ((Max.max b.cap b.max).toNat - b.items.length) =
          ps.length - ((Max.max (b.more (b.items.length + 1)) b.max).toNat - (b.items.length + 1)) by omega]

/-- **C23**, with a limit and any number `n`: `gutil_ring_reserve` fails if and only if there's no room for `n` elements already and the capacity
has reached the limit. After it (whatever it returned), elements can be added until the size is the limit, or the capacity if that has been more; not
until `n`. -/
theorem C23_exactly (reserved max : Int) (free : Option Nat) (h0 : 0 ≤ reserved) (h1 : reserved ≤ 2 ^ 30) (ops : List Op)
    (b : Buf) (hb : b = (Buf.new reserved max free).final ops) (hm : 0 ≤ b.max) (hrefs : 0 < b.refs) (n : Int) (ps : List Ptr)
    (ha : (Buf.new reserved max free).Allowed (ops ++ .reserve n :: ps.map .put)) :
    ∃ r r' os, newFull reserved max free = .ok r ∧
      run r (ops ++ .reserve n :: ps.map .put) = .ok (os ++ .bool (decide (n ≤ b.cap ∨ b.cap < b.max)) ::
        (List.replicate (Min.min ps.length ((Max.max b.cap b.max).toNat - b.items.length)) (.bool true) ++
         List.replicate (ps.length - ((Max.max b.cap b.max).toNat - b.items.length)) (.bool false)), r') := by
  obtain ⟨r, hr, hal⟩ := cap_new reserved max free h0 h1
  obtain ⟨r', h2, -⟩ := cap_run _ r _ (.inl hal) ha
  have hsplit : ∀ (ops rest : List Op) (b : Buf), b.outs (ops ++ rest) = b.outs ops ++ (b.final ops).outs rest := by
    intro ops rest
    induction ops with
    | nil => intro b; rfl
    | cons op ops ih => intro b; simp only [List.cons_append, Buf.outs, Buf.final, ih]
  have hallow : ∀ (ops rest : List Op) (b : Buf), b.Allowed (ops ++ rest) → b.Allowed ops := by
    intro ops rest
    induction ops with
    | nil => intro b _; trivial
    | cons op ops ih => intro b h; exact ⟨h.1, ih _ h.2⟩
  obtain ⟨r0, -, h4⟩ := cap_run ops r _ (.inl hal) (hallow _ _ _ ha)
  rw [← hb] at h4
  have hle : (b.items.length : Int) ≤ b.cap := by
    rcases h4 with h4 | h4
    · have hle := h4.1.view.length_le h4.1.alloc0
      rw [← h4.2]
      exact hle
    · have := h4.1
      omega
  refine ⟨r, r', (Buf.new reserved max free).outs ops, hr, ?_⟩
  rw [h2, hsplit, ← hb]
  simp only [Buf.outs]
  have key : (b.next (.reserve n)).1 = .bool (decide (n ≤ b.cap ∨ b.cap < b.max)) ∧
      (b.next (.reserve n)).2.outs (ps.map .put) =
        List.replicate (Min.min ps.length ((Max.max b.cap b.max).toNat - b.items.length)) (.bool true) ++
         List.replicate (ps.length - ((Max.max b.cap b.max).toNat - b.items.length)) (.bool false) := by
    rcases grow_cases b n with ⟨c1, c2⟩ | ⟨c1, c2, c3, c4⟩ | ⟨c1, c2, c3⟩
    · simp only [Buf.next, c2]
      exact ⟨by rw [decide_eq_true (by omega)], puts_next ps b hm hle⟩
    · simp only [Buf.next, c4]
      exact ⟨by rw [decide_eq_false (by omega)], puts_next ps b hm hle⟩
    · have hmore : b.more n ≤ b.max ∧ b.cap ≤ b.more n := by
        unfold Buf.more
        simp only []
        rw [if_neg (by omega)]
        omega
      simp only [Buf.next, c3]
      refine ⟨by rw [decide_eq_true (by omega)], ?_⟩
      rw [puts_next ps { b with cap := b.more n, short := false } hm (by show (b.items.length : Int) ≤ b.more n; omega)]
      simp only []
      rw [show (Max.max (b.more n) b.max).toNat = (Max.max b.cap b.max).toNat by omega]
  rw [key.1, key.2]

example : (Buf.new 0 3 none).Allowed ([.put 1] ++ .reserve 10 :: [2, 3, 4, 5].map .put) ∧
    (Buf.new 0 3 none).outs ([.put 1] ++ .reserve 10 :: [2, 3, 4, 5].map .put) =
      [.bool true, .bool true, .bool true, .bool true, .bool false, .bool false] := by decide +kernel

end Verif.Ring
