import Verif.Proof.Ring

namespace Verif.Ring
open Verif.C Spec

theorem release_eq {r : Ring} {d : Deque} (h1 : r.free = d.free) (h2 : r.freed = d.freed)
    (l : List Ptr) :
    relLog r l = d.release l := by
  cases hf : d.free with
  | none => rw [relLog_none (h1.trans hf)]; simp [Deque.release, hf, h2]
  | some f => rw [relLog_some (h1.trans hf)]; simp [Deque.release, hf, h2]

/-- Removal of the `n` oldest elements. -/
theorem drop_spec {r : Ring} {d : Deque} (h : Alive r d) (n : Int) :
    ∃ s e, let r' := moved r s e (d.dropFront n.toNat).freed
      drop r n = .ok ((min d.items.length n.toNat : Nat), r') ∧ View r' (d.dropFront n.toNat).items := by
  by_cases hn : n > 0
  · simp only [drop, hn, if_true, size_spec h.view h.alloc0 h.alloc1, bind, Except.bind]
    by_cases hs : (d.items.length : Int) > 0
    · simp only [hs, if_true]
      by_cases hall : n ≥ (d.items.length : Int)
      · simp only [hall, if_true]
        obtain ⟨s, e, h1, h2⟩ := clear_spec h.view h.alloc0 h.alloc1
        rw [release_eq h.free h.freed] at h1 h2
        have e1 : d.items.take n.toNat = d.items := List.take_of_length_le (by omega)
        have e2 : d.items.drop n.toNat = [] := List.drop_eq_nil_of_le (by omega)
        refine ⟨s, e, ?_, ?_⟩
        · rw [h1]
          simp only [Deque.dropFront, e1]
          congr 2
          omega
        · simpa only [Deque.dropFront, e1, e2] using h2
      · simp only [hall, if_false]
        have hmin : (min d.items.length n.toNat : Nat) = n := by omega
        cases hf : r.free with
        | none =>
          obtain ⟨g1, g2, g3⟩ := view_front h.view n.toNat (by omega)
          have h0 : r.start < r.alloc := by
            rcases h.view with ⟨e, _⟩ | ⟨_, _, e, _⟩
            · rw [e] at hs; simp at hs
            · exact e
          have hnn : ((n.toNat : Nat) : Int) = n := by omega
          rw [hnn] at g1 g2 g3
          have := h.alloc1
          simp only [Option.isSome_none, Bool.false_eq_true, if_false]
          rw [chk32_ok (by omega) (by omega)]
          simp only []
          rw [cMod_ok g1 g2]
          have hrel : (d.dropFront n.toNat).freed = r.freed := by
            simp only [Deque.dropFront, ← release_eq h.free h.freed, relLog_none hf]
          refine ⟨if r.start + n < r.alloc then r.start + n else r.start + n - r.alloc, r.fin, ?_, ?_⟩
          · rw [hmin, hrel]
            simp only [moved, hf]
          · exact g3.congr rfl rfl rfl rfl
        | some f =>
          obtain ⟨s, g1, g2⟩ := dropLoop_spec n.toNat r d.items h.view (by omega) h.alloc1 hf
          have hrel : (d.dropFront n.toNat).freed = r.freed ++ (d.items.take n.toNat).map (f, ·) := by
            simp only [Deque.dropFront, ← release_eq h.free h.freed, relLog_some hf]
          simp only [Option.isSome_some, if_true, g1]
          refine ⟨s, r.fin, ?_, ?_⟩
          · rw [hmin, hrel]
          · rw [hrel]; exact g2
    · have hl : d.items = [] := List.length_eq_zero_iff.1 (by omega)
      simp only [hs, if_false]
      refine ⟨r.start, r.fin, ?_, ?_⟩
      · simp only [hl, Deque.dropFront, Deque.release, ← h.freed]
        cases hf : d.free <;> simp [moved]
      · simp only [Deque.dropFront, hl, List.drop_nil]
        exact (hl ▸ h.view).congr rfl rfl rfl rfl
  · have hz : n.toNat = 0 := by omega
    simp only [drop, hn, if_false]
    refine ⟨r.start, r.fin, ?_, ?_⟩
    · simp only [hz, Deque.dropFront, Deque.release, ← h.freed]
      cases hf : d.free <;> simp [moved]
    · simp only [Deque.dropFront, hz, List.drop_zero]
      exact h.view.congr rfl rfl rfl rfl

/-- Removal of the `n` newest elements. -/
theorem dropLast_spec {r : Ring} {d : Deque} (h : Alive r d) (n : Int) :
    ∃ s e, let r' := moved r s e (d.dropBack n.toNat).freed
      dropLast r n = .ok ((min d.items.length n.toNat : Nat), r') ∧ View r' (d.dropBack n.toNat).items := by
  by_cases hn : n > 0
  · simp only [dropLast, hn, if_true, size_spec h.view h.alloc0 h.alloc1, bind, Except.bind]
    by_cases hs : (d.items.length : Int) > 0
    · simp only [hs, if_true]
      by_cases hall : n ≥ (d.items.length : Int)
      · simp only [hall, if_true]
        obtain ⟨s, e, h1, h2⟩ := clear_spec h.view h.alloc0 h.alloc1
        rw [release_eq h.free h.freed] at h1 h2
        have e1 : d.items.take n.toNat = d.items := List.take_of_length_le (by omega)
        have e2 : d.items.drop n.toNat = [] := List.drop_eq_nil_of_le (by omega)
        have e3 : d.items.length ≤ n.toNat := by omega
        refine ⟨s, e, ?_, ?_⟩
        · rw [h1]
          simp only [Deque.dropBack, e3, if_true, Deque.dropFront, e1]
          congr 2
          omega
        · simpa only [Deque.dropBack, e3, if_true, Deque.dropFront, e1, e2] using h2
      · simp only [hall, if_false]
        have hmin : (min d.items.length n.toNat : Nat) = n := by omega
        have e3 : ¬ d.items.length ≤ n.toNat := by omega
        cases hf : r.free with
        | none =>
          obtain ⟨g1, g2, g3⟩ := view_back_n h.view n.toNat (by omega) (by omega)
          have hnn : ((n.toNat : Nat) : Int) = n := by omega
          rw [hnn] at g1
          have := h.alloc1
          have := h.view.length_le h.alloc0
          have hfin : r.fin < r.alloc := by
            rcases h.view with ⟨e, _⟩ | ⟨_, _, e, e', _⟩
            · rw [e] at hs; simp at hs
            · omega
          simp only [Option.isSome_none, Bool.false_eq_true, if_false]
          rw [chk32_ok (by omega) (by omega)]
          simp only []
          rw [cMod_ok (by omega) (by omega)]
          have hrel : (d.dropBack n.toNat).freed = r.freed := by
            simp only [Deque.dropBack, e3, if_false, ← release_eq h.free h.freed, relLog_none hf]
          have hee : (if r.fin + r.alloc - n < r.alloc then r.fin + r.alloc - n
            else r.fin + r.alloc - n - r.alloc) = (if r.fin - n < 0 then r.fin + r.alloc - n else r.fin - n) := by
            split <;> split <;> omega
          refine ⟨r.start, if r.fin - n < 0 then r.fin + r.alloc - n else r.fin - n, ?_, ?_⟩
          · rw [hmin, hrel, hee]
            simp only [moved, hf]
          · simp only [Deque.dropBack, e3, if_false]
            exact g1.congr rfl rfl rfl rfl
        | some f =>
          obtain ⟨s, g1, g2⟩ := dropLastLoop_spec n.toNat r d.items h.view (by omega) h.alloc1 hf
          have hrel : (d.dropBack n.toNat).freed = r.freed ++
              (d.items.drop (d.items.length - n.toNat)).reverse.map (f, ·) := by
            simp only [Deque.dropBack, e3, if_false, ← release_eq h.free h.freed, relLog_some hf]
          simp only [Option.isSome_some, if_true, g1]
          refine ⟨r.start, s, ?_, ?_⟩
          · rw [hmin, hrel]
          · rw [hrel]
            simp only [Deque.dropBack, e3, if_false]
            exact g2
    · have hl : d.items = [] := List.length_eq_zero_iff.1 (by omega)
      simp only [hs, if_false]
      refine ⟨r.start, r.fin, ?_, ?_⟩
      · simp only [hl, Deque.dropBack, List.length_nil, Nat.zero_le, if_true, Deque.dropFront, Deque.release, ← h.freed]
        cases hf : d.free <;> simp [moved]
      · simp only [Deque.dropBack, hl, List.length_nil, Nat.zero_le, if_true, Deque.dropFront, List.drop_nil]
        exact (hl ▸ h.view).congr rfl rfl rfl rfl
  · have hz : n.toNat = 0 := by omega
    simp only [dropLast, hn, if_false]
    refine ⟨r.start, r.fin, ?_, ?_⟩
    · simp only [hz, Deque.dropBack, Nat.le_zero_eq, Deque.dropFront, Deque.release, ← h.freed]
      split <;> cases hf : d.free <;> simp [moved]
    · have e : (d.dropBack 0).items = d.items := by
        simp only [Deque.dropBack]; split <;> simp [Deque.dropFront]
      rw [hz, e]
      exact h.view.congr rfl rfl rfl rfl

/-- Moving the ends of the ring keeps everything but the contents. -/
theorem Alive.moved {r : Ring} {d d' : Deque} (h : Alive r d) {s e : Int} {log : List (Nat × Ptr)}
    (h1 : View (moved r s e log) d'.items) (h2 : d'.freed = log) (h3 : d'.refs = d.refs)
    (h4 : d'.free = d.free) (h5 : d'.max = d.max) (h6 : d'.tight = true → d.tight = true)
    (h7 : d'.flat = d.flat) : Alive (moved r s e log) d' :=
  { ref := by rw [h3]; exact h.ref
    pos := by rw [h3]; exact h.pos
    alloc0 := h.alloc0
    alloc1 := h.alloc1
    free := by rw [h4]; exact h.free
    freed := by rw [h2]; rfl
    maxeq := by rw [h5]; exact h.maxeq
    maxok := by rw [h5]; exact h.maxok
    tight := fun ht => by rw [h5]; exact h.tight (h6 ht)
    len := h.len
    len' := by rw [h7]; exact h.len'
    view := h1 }

theorem dropFront_alive {r : Ring} {d : Deque} (h : Alive r d) (n : Int) :
    ∃ r', drop r n = .ok ((min d.items.length n.toNat : Nat), r') ∧ Alive r' (d.dropFront n.toNat) := by
  obtain ⟨s, e, h1, h2⟩ := drop_spec h n
  exact ⟨_, h1, h.moved h2 rfl rfl rfl rfl id rfl⟩

theorem dropBack_alive {r : Ring} {d : Deque} (h : Alive r d) (n : Int) :
    ∃ r', dropLast r n = .ok ((min d.items.length n.toNat : Nat), r') ∧ Alive r' (d.dropBack n.toNat) := by
  obtain ⟨s, e, h1, h2⟩ := dropLast_spec h n
  refine ⟨_, h1, h.moved h2 rfl ?_ ?_ ?_ ?_ ?_⟩ <;> simp only [Deque.dropBack] <;> split <;>
    first | rfl | exact id

theorem clear_alive {r : Ring} {d : Deque} (h : Alive r d) :
    ∃ r', clear r = .ok r' ∧ Alive r' (d.dropFront d.items.length) := by
  obtain ⟨s, e, h1, h2⟩ := clear_spec h.view h.alloc0 h.alloc1
  rw [release_eq h.free h.freed] at h1 h2
  refine ⟨_, h1, h.moved ?_ ?_ rfl rfl rfl id rfl⟩
  · simpa [Deque.dropFront] using h2
  · simp [Deque.dropFront]

/-- With all there's to know about the capacity -/
theorem reserve_fit {r : Ring} {d : Deque} (h : Alive r d) (n : Int) (hn : Fit r n) :
    ∃ b r', reserve r n = .ok (b, r') ∧ Alive r' d ∧
      (b = true → n ≤ r'.alloc ∨ (0 ≤ d.max ∧ d.max < n)) ∧
      (b = false → r' = r ∧ r.alloc < n ∧ 0 ≤ d.max ∧ d.max ≤ r.alloc) ∧
      (b = true → d.items.length < n → n ≤ d.items.length + 1 → n ≤ r'.alloc) ∧
      (b = true → (n ≤ r.alloc ∧ r' = r) ∨ (r.alloc < n ∧ (d.max < 0 ∨ r.alloc < d.max) ∧
        r'.alloc = grown r n ∧ (r'.data.length : Int) = r'.alloc)) := by
  have hle := h.view.length_le h.alloc0
  rcases reserve_spec h.view h.alloc0 h.alloc1 n hn h.len with ⟨h1, h2⟩ | ⟨h1, h2, h3, h4⟩ |
    ⟨h1, h2, data, alloc, s, e, h3, h4, h5, h6, h7, h8, h9, h10⟩
  · exact ⟨true, r, h2, h, fun _ => .inl h1, by simp, fun _ _ _ => h1, fun _ => .inl ⟨h1, rfl⟩⟩
  · refine ⟨false, r, h4, h, by simp, fun _ => ⟨rfl, h1, ?_, ?_⟩, by simp, by simp⟩
    · rw [← h.maxeq]; exact h2
    · rw [← h.maxeq]; exact h3
  · refine ⟨true, _, h3, ?_, fun _ => ?_, by simp, fun _ _ _ => ?_, fun _ => .inr ⟨h1, ?_, h10, h5⟩⟩
    · have := h.alloc0
      exact { ref := h.ref, pos := h.pos, alloc0 := by show 0 ≤ alloc; omega
              alloc1 := h7, free := h.free, freed := h.freed, maxeq := h.maxeq, maxok := h.maxok
              tight := fun _ => by rw [← h.maxeq]; exact h8
              len := by show (data.length : Int) ≤ alloc; omega
              len' := fun _ => h5
              view := h4 }
    · have := h.maxeq
      have := h.alloc0
      show n ≤ alloc ∨ _
      omega
    · show n ≤ alloc
      omega
    · rw [← h.maxeq]; exact h2

theorem reserve_alive {r : Ring} {d : Deque} (h : Alive r d) (n : Int) (hn : n ≤ 2 ^ 29) :
    ∃ b r', reserve r n = .ok (b, r') ∧ Alive r' d ∧
      (b = true → n ≤ r'.alloc ∨ (0 ≤ d.max ∧ d.max < n)) ∧
      (b = false → r' = r ∧ r.alloc < n ∧ 0 ≤ d.max ∧ d.max ≤ r.alloc) ∧
      (b = true → d.items.length < n → n ≤ d.items.length + 1 → n ≤ r'.alloc) := by
  obtain ⟨b, r', h1, h2, h3, h4, h5, _⟩ := reserve_fit h n (fit_small hn)
  exact ⟨b, r', h1, h2, h3, h4, h5⟩

theorem setSlot_ok {r : Ring} {i : Int} (p : Ptr) (h0 : 0 ≤ i) (h : i < r.data.length) :
    setSlot r i p = .ok { r with data := r.data.set i.toNat (some p) } := by
  simp only [setSlot, h0, if_true, wr]
  rw [if_pos (show i.toNat < r.data.length by omega)]
  rfl

/-- With all there's to know about the capacity -/
theorem put_fit {r : Ring} {d : Deque} (h : Alive r d) (p : Ptr)
    (hfit : Fit r (d.items.length + 1)) (hflat : d.flat = false) :
    ∃ b r', put r p = .ok (b, r') ∧
      ((b = true ∧ Alive r' { d with items := d.items ++ [p] } ∧ (d.tight = true → ¬ d.full)) ∨
       (b = false ∧ r' = r ∧ d.full)) ∧
      ((d.items.length : Int) < r.alloc → b = true ∧ r'.alloc = r.alloc ∧ r'.allocs = r.allocs) ∧
      ((b = true ↔ d.items.length < r.alloc ∨ d.max < 0 ∨ r.alloc < d.max) ∧
        r'.alloc = if b = true ∧ r.alloc ≤ d.items.length then grown r (d.items.length + 1) else r.alloc) := by
  have hle := h.view.length_le h.alloc0
  have ha1 := h.alloc1
  rw [put, size_spec h.view h.alloc0 h.alloc1, ok_bind, chk32_ok (by omega) (by omega), ok_bind]
  obtain ⟨b, r1, h1, h2, h3, h4, h5, h6⟩ := reserve_fit h ((d.items.length : Int) + 1) hfit
  have hroom' : (d.items.length : Int) < r.alloc → b = true ∧ r1 = r := by
    intro hc
    have : reserve r ((d.items.length : Int) + 1) = .ok (true, r) := by
      rw [reserve, if_pos (by omega)]
    rw [this] at h1
    cases h1
    exact ⟨rfl, rfl⟩
  rw [h1, ok_bind]
  cases b with
  | false =>
    obtain ⟨rfl, g1, g2, g3⟩ := h4 rfl
    exact ⟨false, r1, rfl, .inr ⟨rfl, rfl, g2, by omega⟩, fun hc => by simp at hroom'; omega, ⟨by simp; omega, by simp⟩⟩
  | true =>
    simp only [if_true]
    have hroom := h5 rfl (by omega) (by omega)
    have hdl := h2.len' hflat
    obtain ⟨s, f, hsf, hf0, hf1, hv⟩ := view_snoc h2.view p (by omega) hdl
    have hr : (if r1.start < 0 then { r1 with start := 0, fin := 0 } else r1) =
        { r1 with start := s, fin := f } := by
      by_cases hst : r1.start < 0
      · rw [if_pos hst] at hsf ⊢
        obtain ⟨e1, e2⟩ := Prod.mk.inj hsf
        rw [e1, e2]
      · rw [if_neg hst] at hsf ⊢
        obtain ⟨e1, e2⟩ := Prod.mk.inj hsf
        rw [e1, e2]
    have := h2.alloc1
    rw [hr, setSlot_ok (r := { r1 with start := s, fin := f }) p hf0 (by simp only; omega), ok_bind,
      chk32_ok (by simp only; omega) (by simp only; omega), ok_bind,
      cMod_ok (by simp only; omega) (by simp only; omega), ok_bind]
    have hff : (if f + 1 < r1.alloc then f + 1 else f + 1 - r1.alloc) =
        (if f + 1 < r1.alloc then f + 1 else 0) := by split <;> omega
    simp only [hff]
    refine ⟨true, _, rfl, .inl ⟨rfl, ?_, ?_⟩, fun hc => ⟨rfl, ?_⟩, ⟨fun _ => ?_, fun _ => rfl⟩, ?_⟩
    · exact { ref := h2.ref, pos := h2.pos, alloc0 := h2.alloc0, alloc1 := h2.alloc1
              free := h2.free, freed := h2.freed, maxeq := h2.maxeq, maxok := h2.maxok
              tight := h2.tight
              len := by simp only [List.length_set]; exact h2.len
              len' := by simp only [List.length_set]; exact h2.len'
              view := hv }
    · intro ht hfull
      have := h2.tight ht
      unfold Deque.full at hfull
      omega
    · rw [(hroom' hc).2]
      exact ⟨rfl, rfl⟩
    · rcases h6 rfl with ⟨g1, _⟩ | ⟨_, g2, _⟩
      · exact .inl (by omega)
      · exact .inr g2
    · show r1.alloc = if _ then _ else _
      rcases h6 rfl with ⟨g1, rfl⟩ | ⟨g1, _, g3, _⟩
      · rw [if_neg (fun hc => by have := hc.2; omega)]
      · rw [if_pos ⟨rfl, by omega⟩]
        exact g3

theorem put_alive {r : Ring} {d : Deque} (h : Alive r d) (p : Ptr)
    (hlen : (d.items.length : Int) < 536870912) (hflat : d.flat = false) :
    ∃ b r', put r p = .ok (b, r') ∧
      ((b = true ∧ Alive r' { d with items := d.items ++ [p] } ∧ (d.tight = true → ¬ d.full)) ∨
       (b = false ∧ r' = r ∧ d.full)) ∧
      ((d.items.length : Int) < r.alloc → b = true ∧ r'.alloc = r.alloc ∧ r'.allocs = r.allocs) := by
  obtain ⟨b, r', h1, h2, h3, _⟩ := put_fit h p (fit_small (by omega)) hflat
  exact ⟨b, r', h1, h2, h3⟩

/-- With all there's to know about the capacity -/
theorem putFront_fit {r : Ring} {d : Deque} (h : Alive r d) (p : Ptr)
    (hfit : Fit r (d.items.length + 1)) (hflat : d.flat = false) :
    ∃ b r', putFront r p = .ok (b, r') ∧
      ((b = true ∧ Alive r' { d with items := p :: d.items } ∧ (d.tight = true → ¬ d.full)) ∨
       (b = false ∧ r' = r ∧ d.full)) ∧
      ((b = true ↔ d.items.length < r.alloc ∨ d.max < 0 ∨ r.alloc < d.max) ∧
        r'.alloc = if b = true ∧ r.alloc ≤ d.items.length then grown r (d.items.length + 1) else r.alloc) := by
  have hle := h.view.length_le h.alloc0
  have ha1 := h.alloc1
  rw [putFront, size_spec h.view h.alloc0 h.alloc1, ok_bind, chk32_ok (by omega) (by omega), ok_bind]
  obtain ⟨b, r1, h1, h2, h3, h4, h5, h6⟩ := reserve_fit h ((d.items.length : Int) + 1) hfit
  rw [h1, ok_bind]
  cases b with
  | false =>
    obtain ⟨rfl, g1, g2, g3⟩ := h4 rfl
    exact ⟨false, r1, rfl, .inr ⟨rfl, rfl, g2, by omega⟩, ⟨by simp; omega, by simp⟩⟩
  | true =>
    simp only [if_true]
    have hroom := h5 rfl (by omega) (by omega)
    have hdl := h2.len' hflat
    obtain ⟨s, f, hsf, hs0, hs1, hs2, hv⟩ := view_cons h2.view p (by omega) hdl
    have := h2.alloc1
    have := h2.alloc0
    have fin : ∀ b r', (Except.ok (true, { r1 with start := s, fin := f, data := r1.data.set s.toNat (some p) }) : M (Bool × Ring)) =
        .ok (b, r') →
        ((b = true ∧ Alive r' { d with items := p :: d.items } ∧ (d.tight = true → ¬ d.full)) ∨
        (b = false ∧ r' = r ∧ d.full)) := by
      intro b r' e
      cases e
      refine .inl ⟨rfl, ?_, ?_⟩
      · exact { ref := h2.ref, pos := h2.pos, alloc0 := h2.alloc0, alloc1 := h2.alloc1
                free := h2.free, freed := h2.freed, maxeq := h2.maxeq, maxok := h2.maxok
                tight := h2.tight
                len := by simp only [List.length_set]; exact h2.len
                len' := by simp only [List.length_set]; exact h2.len'
                view := hv }
      · intro ht hfull
        have := h2.tight ht
        unfold Deque.full at hfull
        omega
    have hcap : (true = true ↔ (d.items.length : Int) < r.alloc ∨ d.max < 0 ∨ r.alloc < d.max) ∧
        r1.alloc = if true = true ∧ r.alloc ≤ d.items.length then grown r (d.items.length + 1) else r.alloc := by
      refine ⟨⟨fun _ => ?_, fun _ => rfl⟩, ?_⟩
      · rcases h6 rfl with ⟨g1, _⟩ | ⟨_, g2, _⟩
        · exact .inl (by omega)
        · exact .inr g2
      · rcases h6 rfl with ⟨g1, rfl⟩ | ⟨g1, _, g3, _⟩
        · rw [if_neg (fun hc => by have := hc.2; omega)]
        · rw [if_pos ⟨rfl, by omega⟩]
          exact g3
    by_cases hst : r1.start ≥ 0
    · rw [if_pos hst] at hsf ⊢
      obtain ⟨e1, e2⟩ := Prod.mk.inj hsf
      have := hs2 hst
      rw [chk32_ok (by omega) (by omega), ok_bind, cMod_ok (by omega) (by omega), ok_bind]
      simp only [pure, Except.pure]
      rw [ok_bind]
      have hss : (if r1.start + r1.alloc - 1 < r1.alloc then r1.start + r1.alloc - 1
          else r1.start + r1.alloc - 1 - r1.alloc) = s := by
        rw [e1]; split <;> split <;> omega
      simp only [hss]
      rw [setSlot_ok (r := { r1 with start := s }) p hs0 (by simp only; omega), ok_bind]
      refine ⟨true, _, rfl, ?_, hcap⟩
      apply fin
      rw [e2]
    · rw [if_neg hst] at hsf ⊢
      obtain ⟨e1, e2⟩ := Prod.mk.inj hsf
      subst e1; subst e2
      rw [ok_bind, setSlot_ok (r := { r1 with start := 0, fin := 1 }) p hs0 (by simp only; omega), ok_bind]
      exact ⟨true, _, rfl, fin _ _ rfl, hcap⟩

theorem putFront_alive {r : Ring} {d : Deque} (h : Alive r d) (p : Ptr)
    (hlen : (d.items.length : Int) < 536870912) (hflat : d.flat = false) :
    ∃ b r', putFront r p = .ok (b, r') ∧
      ((b = true ∧ Alive r' { d with items := p :: d.items } ∧ (d.tight = true → ¬ d.full)) ∨
       (b = false ∧ r' = r ∧ d.full)) := by
  obtain ⟨b, r', h1, h2, _⟩ := putFront_fit h p (fit_small (by omega)) hflat
  exact ⟨b, r', h1, h2⟩

theorem dataAt_spec {r : Ring} {d : Deque} (h : Alive r d) (i : Int) :
    dataAt r i = .ok (if i < 0 then 0 else (d.items[i.toNat]?).getD 0) := by
  simp only [dataAt, size_spec h.view h.alloc0 h.alloc1, bind, Except.bind]
  by_cases hi : i ≥ 0 ∧ i < d.items.length
  · rw [if_pos hi, if_neg (by omega)]
    have h1 := h.alloc1
    rcases h.view with ⟨e, _⟩ | ⟨_, h2, h3, h4, h5⟩
    · rw [e] at hi; simp at hi; omega
    rw [chk32_ok (by omega) (by omega)]
    simp only []
    rw [cMod_ok (by omega) (by omega)]
    simp only []
    have := h5 i.toNat (by omega)
    rw [idx, show ((i.toNat : Nat) : Int) = i by omega] at this
    rw [slot_ok (by split <;> omega) this, List.getElem?_eq_getElem (by omega)]
    rfl
  · rw [if_neg hi]
    split
    · rfl
    · rw [List.getElem?_eq_none (by omega)]
      rfl

/-- Every call of a live ring within its precondition is defined and does what it should. -/
theorem sim {r : Ring} {d : Deque} (h : Alive r d) (op : Op) (hp : Pre d op) :
    ∃ o r' d', exec r op = .ok (o, r') ∧ Step d op o d' ∧ Rep r' d' := by
  have hrc : ¬ r.refCount = 0 := by rw [h.ref]; have := h.pos; omega
  have hle := h.view.length_le h.alloc0
  have hsz := size_spec h.view h.alloc0 h.alloc1
  simp only [exec, hrc, if_false]
  obtain ⟨hpos, hp⟩ := hp
  cases op with
  | ref =>
    refine ⟨_, _, _, rfl, ⟨rfl, rfl⟩, .inl ?_⟩
    exact { h with ref := by simp only [h.ref], pos := by simp only; omega, view := h.view }
  | unref =>
    simp only [unref, bind, Except.bind]
    by_cases h1 : d.refs = 1
    · have h1' : r.refCount = 1 := by rw [h.ref]; exact h1
      simp only [h1', if_true]
      cases hf : r.free with
      | none =>
        simp only [Option.isSome_none, Bool.false_eq_true, if_false]
        refine ⟨_, _, _, rfl, ⟨rfl, rfl⟩, .inr ?_⟩
        simp only [h1, if_true, Deque.dropFront, List.drop_length, true_and]
        rw [List.take_length, ← release_eq h.free h.freed, relLog_none hf]
      | some f =>
        simp only [Option.isSome_some, if_true, hsz, Int.toNat_natCast]
        have := unrefLoop_spec d.items.length r d.items 0 h.view (by omega) h.alloc1 hf
        rw [Int.natCast_zero] at this
        rw [this]
        refine ⟨_, _, _, rfl, ⟨rfl, rfl⟩, .inr ?_⟩
        simp only [h1, if_true, Deque.dropFront, List.drop_length, true_and]
        rw [List.take_length, ← release_eq h.free h.freed, relLog_some hf]
        rfl
    · have h1' : ¬ r.refCount = 1 := by rw [h.ref]; exact h1
      simp only [h1', if_false]
      refine ⟨_, _, _, rfl, ⟨rfl, rfl⟩, .inl ?_⟩
      rw [if_neg h1]
      exact { h with ref := by simp only [h.ref], pos := by simp only; omega, view := h.view }
  | setFreeFunc f =>
    refine ⟨_, _, _, rfl, ⟨rfl, rfl⟩, .inl ?_⟩
    exact { h with free := rfl, view := h.view }
  | maxSize =>
    exact ⟨_, _, _, rfl, ⟨by rw [h.maxeq], rfl⟩, .inl h⟩
  | setMaxSize n =>
    simp only [setMaxSize, bind, Except.bind]
    have hnorm : (if n < 0 then -1 else n) = norm n := rfl
    have hn1 : -1 ≤ norm n := by unfold norm; split <;> omega
    simp only [hnorm]
    by_cases hm : r.maxsiz ≠ norm n
    · rw [if_pos hm]
      simp only [hsz]
      have hmd : norm n ≠ d.max := by rw [← h.maxeq]; exact hm.symm
      by_cases hc : norm n ≥ 0 ∧ (d.items.length : Int) > norm n
      · simp only [hc, and_self, if_true]
        obtain ⟨r1, h1, h2⟩ := dropFront_alive h ((d.items.length : Int) - norm n)
        rw [show ((d.items.length : Int) - norm n).toNat = d.items.length - (norm n).toNat by omega] at h1 h2
        simp only [h1, pure, Except.pure]
        refine ⟨_, _, _, rfl, ⟨rfl, rfl⟩, .inl ?_⟩
        rw [if_pos ⟨hc.1, hmd⟩]
        refine { h2 with maxeq := rfl, maxok := hn1, tight := ?_, view := h2.view, len := h2.len, len' := h2.len' }
        intro ht
        simp only [Bool.and_eq_true, decide_eq_true_eq] at ht
        have : d.max < 0 ∨ r1.alloc ≤ d.max := h2.tight ht.1
        simp only
        omega
      · simp only [hc, if_false]
        refine ⟨_, _, _, rfl, ⟨rfl, rfl⟩, .inl ?_⟩
        have htight : (d.tight && decide (norm n < 0 ∨ (0 ≤ d.max ∧ d.max ≤ norm n))) = true →
            norm n < 0 ∨ r.alloc ≤ norm n := by
          intro ht
          simp only [Bool.and_eq_true, decide_eq_true_eq] at ht
          have := h.tight ht.1
          omega
        by_cases h0 : 0 ≤ norm n ∧ norm n ≠ d.max
        · rw [if_pos h0, show d.items.length - (norm n).toNat = 0 by omega]
          refine { h with maxeq := rfl, maxok := hn1, tight := htight, freed := ?_, view := ?_ }
          · simp only [Deque.dropFront, List.take_zero, Deque.release]
            rw [h.freed]
            split <;> simp
          · simp only [Deque.dropFront, List.drop_zero]
            exact h.view
        · rw [if_neg h0]
          exact { h with maxeq := rfl, maxok := hn1, tight := htight, view := h.view }
    · rw [if_neg hm]
      have hmd : norm n = d.max := by
        rw [← h.maxeq]; exact (Classical.not_not.1 hm).symm
      refine ⟨_, _, _, rfl, ⟨rfl, rfl⟩, .inl ?_⟩
      rw [if_neg (by simp [hmd])]
      refine { h with maxeq := by rw [h.maxeq, hmd], maxok := hn1, tight := ?_, view := h.view }
      intro ht
      simp only [Bool.and_eq_true] at ht
      have := h.tight ht.1
      simp only
      omega
  | size =>
    simp only [hsz, bind, Except.bind]
    exact ⟨_, _, _, rfl, ⟨rfl, rfl⟩, .inl h⟩
  | clear =>
    obtain ⟨r', h1, h2⟩ := clear_alive h
    simp only [h1, bind, Except.bind]
    exact ⟨_, _, _, rfl, ⟨rfl, rfl⟩, .inl h2⟩
  | compact =>
    obtain ⟨data, s, e, k, h1, h2, h3⟩ := compact_spec h.view h.alloc0 h.alloc1 h.len
    simp only [h1, bind, Except.bind]
    refine ⟨_, _, _, rfl, ⟨rfl, rfl⟩, .inl ?_⟩
    exact { ref := h.ref, pos := h.pos, alloc0 := by simp [rebuilt]
            alloc1 := by have := h.alloc1; show (d.items.length : Int) ≤ _; omega
            free := h.free, freed := h.freed, maxeq := h.maxeq, maxok := h.maxok
            tight := by intro ht; exact of_decide_eq_true ht
            len := by show (data.length : Int) ≤ d.items.length; omega
            len' := fun _ => by show (data.length : Int) = d.items.length; omega
            view := h2 }
  | reserve n =>
    obtain ⟨b, r', h1, h2, h3, h4, _⟩ := reserve_alive h n hp
    simp only [h1, bind, Except.bind]
    refine ⟨_, _, d, rfl, ⟨b, rfl, rfl, ?_, ?_⟩, .inl h2⟩
    · intro hn
      cases b with
      | true => rfl
      | false => obtain ⟨_, g1, _⟩ := h4 rfl; omega
    · intro hn
      cases b with
      | true => rfl
      | false => obtain ⟨_, g1, g2, g3⟩ := h4 rfl; omega
  | canPut n =>
    simp only [canPut, bind, Except.bind, hsz]
    have := h.alloc1
    by_cases hm : r.maxsiz < 0
    · simp only [hm, if_true]
      refine ⟨_, _, d, rfl, ⟨?_, rfl⟩, .inl h⟩
      rw [h.maxeq] at hm
      simp [hm]
    · simp only [hm, if_false]
      rw [chk32_ok (by omega) (by omega)]
      refine ⟨_, _, d, rfl, ⟨?_, rfl⟩, .inl h⟩
      rw [h.maxeq] at hm ⊢
      congr 1
      simp only [hm, false_or]
  | put p =>
    obtain ⟨b, r', h1, h2, _⟩ := put_alive h p (by have := hp.1; omega) hp.2
    simp only [h1, bind, Except.bind]
    rcases h2 with ⟨rfl, h2, h3⟩ | ⟨rfl, rfl, h3⟩
    · exact ⟨_, _, _, rfl, .inl ⟨rfl, rfl, h3⟩, .inl h2⟩
    · exact ⟨_, _, _, rfl, .inr ⟨rfl, rfl, h3⟩, .inl h⟩
  | putFront p =>
    obtain ⟨b, r', h1, h2⟩ := putFront_alive h p (by have := hp.1; omega) hp.2
    simp only [h1, bind, Except.bind]
    rcases h2 with ⟨rfl, h2, h3⟩ | ⟨rfl, rfl, h3⟩
    · exact ⟨_, _, _, rfl, .inl ⟨rfl, rfl, h3⟩, .inl h2⟩
    · exact ⟨_, _, _, rfl, .inr ⟨rfl, rfl, h3⟩, .inl h⟩
  | get =>
    cases hl : d.items with
    | nil =>
      simp only [get_nil (hl ▸ h.view), bind, Except.bind]
      refine ⟨_, _, _, rfl, ⟨by simp [hl], rfl⟩, .inl ?_⟩
      simp only [hl, List.tail_nil]
      exact { h with view := hl ▸ h.view }
    | cons x t =>
      obtain ⟨s, e, h1, h2⟩ := get_cons (hl ▸ h.view) h.alloc1
      simp only [h1, bind, Except.bind]
      refine ⟨_, _, _, rfl, ⟨by simp [hl], rfl⟩, .inl ?_⟩
      simp only [hl, List.tail_cons]
      exact { h with view := h2 }
  | getLast =>
    by_cases hl : d.items = []
    · simp only [getLast_nil (hl ▸ h.view), bind, Except.bind]
      refine ⟨_, _, _, rfl, ⟨by simp [hl], rfl⟩, .inl ?_⟩
      simp only [hl, List.dropLast_nil]
      exact { h with view := hl ▸ h.view }
    · have hc := List.dropLast_concat_getLast hl
      have hv := h.view
      rw [← hc] at hv
      obtain ⟨s, e, h1, h2⟩ := getLast_snoc hv h.alloc1
      simp only [h1, bind, Except.bind]
      refine ⟨_, _, _, rfl, ⟨?_, rfl⟩, .inl ?_⟩
      · rw [List.getLast?_eq_some_getLast hl]; rfl
      · exact { h with view := h2 }
  | drop n =>
    obtain ⟨r', h1, h2⟩ := dropFront_alive h n
    simp only [h1, bind, Except.bind]
    exact ⟨_, _, _, rfl, ⟨rfl, rfl⟩, .inl h2⟩
  | dropLast n =>
    obtain ⟨r', h1, h2⟩ := dropBack_alive h n
    simp only [h1, bind, Except.bind]
    exact ⟨_, _, _, rfl, ⟨rfl, rfl⟩, .inl h2⟩
  | dataAt i =>
    simp only [dataAt_spec h, bind, Except.bind]
    exact ⟨_, _, _, rfl, ⟨rfl, rfl⟩, .inl h⟩
  | flatten =>
    by_cases hl : d.items = []
    · simp only [flatten_nil (hl ▸ h.view) h.alloc0 h.alloc1, bind, Except.bind]
      refine ⟨_, _, _, rfl, ⟨by simp [hl], rfl⟩, .inl ?_⟩
      exact { h with view := h.view, len' := by simp }
    · obtain ⟨data, s, e, k, h1, h2, h3, h4, _⟩ := flatten_spec h.view hl h.alloc0 h.alloc1 h.len
      simp only [h1, bind, Except.bind, Int.toNat_natCast]
      have h4' : readBlock (rebuilt r data r.alloc s e k).data s d.items.length = .ok d.items := h4
      rw [h4']
      refine ⟨_, _, _, rfl, ⟨by simp [hl], rfl⟩, .inl ?_⟩
      exact { h with view := h2, len := h3, len' := by simp }

/-- Step by step, the ring and the list stay together. -/
theorem sim_run (ops : List Op) : ∀ (r : Ring) (d : Deque), Rep r d → Allowed d ops →
    ∃ os r' d', run r ops = .ok (os, r') ∧ Run d ops os d' ∧ Rep r' d' := by
  induction ops with
  | nil => intro r d h _; exact ⟨[], r, d, rfl, .nil, h⟩
  | cons op ops ih =>
    intro r d h ha
    obtain ⟨hp, ha⟩ := ha
    rcases h with h | h
    · obtain ⟨o, r1, d1, h1, h2, h3⟩ := sim h op hp
      obtain ⟨os, r2, d2, h4, h5, h6⟩ := ih r1 d1 h3 (ha o d1 h2)
      refine ⟨o :: os, r2, d2, ?_, .cons h2 h5, h6⟩
      simp only [run, h1, h4, bind, Except.bind]
    · have := hp.1; omega

theorem new_alive (reserved max : Int) (free : Option Nat) (h0 : 0 ≤ reserved)
    (h1 : reserved ≤ 2 ^ 29) :
    ∃ r, newFull reserved max free = .ok r ∧ Alive r (Deque.new reserved max free) := by
  simp only [newFull, bind, Except.bind]
  by_cases hz : reserved ≠ 0
  · simp only [hz, if_true, ne_eq, not_false_eq_true]
    have hb : newBlock reserved [] = .ok (List.replicate reserved.toNat none) := by
      have := newBlock_ok (n := reserved) (c := []) (by simpa using h0)
      simpa using this
    rw [hb]
    refine ⟨_, rfl, ?_⟩
    exact { ref := rfl, pos := by simp [Deque.new], alloc0 := h0, alloc1 := by simp only; omega
            free := rfl, freed := rfl, maxeq := rfl
            maxok := by simp only [Deque.new, norm]; split <;> omega
            tight := by
              intro ht
              have := of_decide_eq_true ht
              simp only [Deque.new, norm]; split <;> omega
            len := by simp; omega
            len' := fun _ => by simp; omega
            view := .inl ⟨rfl, rfl, rfl⟩ }
  · have hz' : reserved = 0 := by omega
    subst hz'
    simp only [ne_eq, not_true_eq_false, if_false]
    refine ⟨_, rfl, ?_⟩
    exact { ref := rfl, pos := by simp [Deque.new], alloc0 := by simp, alloc1 := by simp
            free := rfl, freed := rfl, maxeq := rfl
            maxok := by simp only [Deque.new, norm]; split <;> omega
            tight := by
              intro _
              simp only [Deque.new, norm]; split <;> omega
            len := by simp
            len' := fun _ => by simp
            view := .inl ⟨rfl, rfl, rfl⟩ }

end Verif.Ring
