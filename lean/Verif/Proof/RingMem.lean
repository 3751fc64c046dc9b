import Verif.Proof.RingCap
import Verif.Spec.RingMem

namespace Verif.Ring
open Verif.C Spec

theorem cMod_eq {a b x : Int} (h : cMod a b = .ok x) (ha : 0 ≤ a) : x = a % b := by
  unfold cMod at h
  split at h
  · cases h
  · injection h with h
    rw [← h, Int.tmod_eq_emod_of_nonneg ha]

theorem chk32_eq {a x : Int} (h : chk32 a = .ok x) : x = a := by
  unfold chk32 at h
  split at h
  · injection h with h; exact h.symm
  · cases h

theorem mod_neg_one {c : Int} (hc : 0 < c) : (0 - 1) % c = c - 1 := by
  rw [← Int.add_emod_right, Int.emod_eq_of_lt (by omega) (by omega)]
  omega

theorem callFree_data (r : Ring) (p : Ptr) : (callFree r p).data = r.data := by
  unfold callFree
  split <;> rfl

theorem callFree_start (r : Ring) (p : Ptr) : (callFree r p).start = r.start := by
  unfold callFree
  split <;> rfl

theorem get_data {r r' : Ring} {p : Ptr} (h : get r = .ok (p, r')) :
    r'.data = r.data ∧ (r'.start < 0 ∨ r'.start = (r.start + 1) % r.alloc) := by
  unfold get at h
  split at h
  · obtain ⟨_, _, h⟩ := bind_eq h
    obtain ⟨st, h1, h⟩ := bind_eq h
    have h1 := chk32_eq h1
    split at h
    · cases h; exact ⟨rfl, .inl (by simp)⟩
    · obtain ⟨x, h2, h⟩ := bind_eq h
      have h2 := cMod_eq h2 (by omega)
      split at h
      · cases h; exact ⟨rfl, .inl (by simp)⟩
      · cases h; exact ⟨rfl, .inr (by rw [← h1]; exact h2)⟩
  · cases h; exact ⟨rfl, .inl (by omega)⟩

theorem getLast_data {r r' : Ring} {p : Ptr} (h : getLast r = .ok (p, r')) :
    r'.data = r.data ∧ (r'.start < 0 ∨ r'.start = r.start) := by
  unfold getLast at h
  split at h
  · obtain ⟨_, _, h⟩ := bind_eq h
    obtain ⟨_, _, h⟩ := bind_eq h
    obtain ⟨_, _, h⟩ := bind_eq h
    split at h
    · cases h; exact ⟨rfl, .inl (by simp)⟩
    · cases h; exact ⟨rfl, .inr rfl⟩
  · cases h; exact ⟨rfl, .inr rfl⟩

theorem clearLoop_data (n : Nat) : ∀ {r r' : Ring}, clearLoop n r = .ok r' → r'.data = r.data := by
  induction n with
  | zero => intro r r' h; cases h; rfl
  | succ n ih =>
    intro r r' h
    unfold clearLoop at h
    obtain ⟨⟨p, r1⟩, h1, h⟩ := bind_eq h
    obtain ⟨_, _, h⟩ := bind_eq h
    have h1 := (get_data h1).1
    split at h
    · rw [ih h, callFree_data, h1]
    · cases h; rw [callFree_data, h1]

theorem clear_data {r r' : Ring} (h : clear r = .ok r') : r'.data = r.data := by
  unfold clear at h
  obtain ⟨_, _, h⟩ := bind_eq h
  split at h
  · split at h
    · exact clearLoop_data _ h
    · cases h; rfl
  · cases h; rfl

theorem dropLoop_data (n : Nat) : ∀ {r r' : Ring}, dropLoop n r = .ok r' →
    r'.data = r.data ∧ (0 ≤ r.start → r.start < r.alloc → r'.start = (r.start + n) % r.alloc) := by
  induction n with
  | zero =>
    intro r r' h
    cases h
    exact ⟨rfl, fun h0 h1 => by rw [Int.emod_eq_of_lt (by omega) (by omega)]; simp⟩
  | succ n ih =>
    intro r r' h
    unfold dropLoop at h
    obtain ⟨p, _, h⟩ := bind_eq h
    obtain ⟨st, h1, h⟩ := bind_eq h
    obtain ⟨x, h2, h⟩ := bind_eq h
    have h1 := chk32_eq h1
    rw [callFree_start] at h1
    obtain ⟨g1, g2⟩ := ih h
    refine ⟨g1.trans (callFree_data _ _), fun h0 h3 => ?_⟩
    have h2 := cMod_eq h2 (by omega)
    rw [callFree_alloc] at h2
    have g2 := g2 (by show 0 ≤ x; rw [h2]; exact Int.emod_nonneg _ (by omega))
      (by show x < (callFree r p).alloc; rw [callFree_alloc, h2]; exact Int.emod_lt_of_pos _ (by omega))
    rw [g2]
    show (x + n) % (callFree r p).alloc = _
    rw [callFree_alloc, h2, h1, Int.emod_add_emod]
    congr 1
    omega

theorem drop_data {r r' : Ring} {n k : Int} (h : drop r n = .ok (k, r')) :
    r'.data = r.data ∧ (n ≤ 0 → r' = r) ∧
      (∀ sz, size r = .ok sz → 0 < n → n < sz → 0 ≤ r.start → r.start < r.alloc → r'.start = (r.start + n) % r.alloc) := by
  unfold drop at h
  split at h
  · obtain ⟨s0, h0, h⟩ := bind_eq h
    refine ⟨?_, fun hn => by omega, fun sz hs h1 h2 h3 h4 => ?_⟩
    · split at h
      · split at h
        · obtain ⟨_, h1, h⟩ := bind_eq h
          cases h
          exact clear_data h1
        · split at h
          · obtain ⟨_, h1, h⟩ := bind_eq h
            cases h
            exact (dropLoop_data _ h1).1
          · obtain ⟨_, _, h⟩ := bind_eq h
            obtain ⟨_, _, h⟩ := bind_eq h
            cases h; rfl
      · cases h; rfl
    · rw [h0] at hs
      cases hs
      rw [if_pos (by omega), if_neg (by omega)] at h
      split at h
      · obtain ⟨_, h5, h⟩ := bind_eq h
        cases h
        have := (dropLoop_data _ h5).2 h3 h4
        rw [show ((n.toNat : Nat) : Int) = n by omega] at this
        exact this
      · obtain ⟨a, h5, h⟩ := bind_eq h
        obtain ⟨b, h6, h⟩ := bind_eq h
        cases h
        have h5 := chk32_eq h5
        have h6 := cMod_eq h6 (by omega)
        show b = _
        rw [h6, h5]
  · cases h
    exact ⟨rfl, fun _ => rfl, fun sz _ h1 => by omega⟩

theorem dropLastLoop_data (n : Nat) : ∀ {r r' : Ring}, dropLastLoop n r = .ok r' → r'.data = r.data ∧ r'.start = r.start := by
  induction n with
  | zero => intro r r' h; cases h; exact ⟨rfl, rfl⟩
  | succ n ih =>
    intro r r' h
    unfold dropLastLoop at h
    obtain ⟨_, _, h⟩ := bind_eq h
    obtain ⟨_, _, h⟩ := bind_eq h
    obtain ⟨_, _, h⟩ := bind_eq h
    obtain ⟨g1, g2⟩ := ih h
    exact ⟨g1.trans (callFree_data _ _), g2.trans (callFree_start _ _)⟩

theorem dropLast_data {r r' : Ring} {n k : Int} (h : dropLast r n = .ok (k, r')) :
    r'.data = r.data ∧ (∀ sz, size r = .ok sz → n < sz → r'.start = r.start) := by
  unfold dropLast at h
  split at h
  · obtain ⟨s0, h0, h⟩ := bind_eq h
    split at h
    · split at h
      · obtain ⟨_, h1, h⟩ := bind_eq h
        cases h
        refine ⟨clear_data h1, fun sz hs h2 => ?_⟩
        rw [h0] at hs
        cases hs
        omega
      · split at h
        · obtain ⟨_, h1, h⟩ := bind_eq h
          cases h
          have := dropLastLoop_data _ h1
          exact ⟨this.1, fun _ _ _ => this.2⟩
        · obtain ⟨_, _, h⟩ := bind_eq h
          obtain ⟨_, _, h⟩ := bind_eq h
          cases h; exact ⟨rfl, fun _ _ _ => rfl⟩
    · cases h; exact ⟨rfl, fun _ _ _ => rfl⟩
  · cases h; exact ⟨rfl, fun _ _ _ => rfl⟩

theorem setMaxSize_data {r r' : Ring} {n : Int} (h : setMaxSize r n = .ok r') :
    r'.data = r.data ∧ (∀ sz, size r = .ok sz → 0 ≤ r.start → r.start < r.alloc → 0 ≤ sz →
      (¬ (r.maxsiz ≠ norm n ∧ 0 ≤ norm n ∧ norm n < sz) → r'.start = r.start) ∧
      (r.maxsiz ≠ norm n ∧ 0 < norm n ∧ norm n < sz → r'.start = (r.start + (sz - norm n)) % r.alloc)) := by
  unfold setMaxSize at h
  dsimp only at h
  have hm : (if n < 0 then -1 else n) = norm n := rfl
  rw [hm] at h
  split at h
  · obtain ⟨s0, h0, h⟩ := bind_eq h
    split at h
    · obtain ⟨⟨_, r2⟩, h2, h⟩ := bind_eq h
      obtain ⟨r3, h3, h⟩ := bind_eq h
      cases h3
      cases h
      obtain ⟨g1, g2, g3⟩ := drop_data h2
      refine ⟨g1, fun sz hs h4 h5 h6 => ?_⟩
      rw [h0] at hs
      cases hs
      exact ⟨fun hc => by omega, fun hc => g3 _ h0 (by omega) (by omega) h4 h5⟩
    · obtain ⟨r3, h3, h⟩ := bind_eq h
      cases h3
      cases h
      refine ⟨rfl, fun sz hs h4 h5 h6 => ⟨fun _ => rfl, fun hc => ?_⟩⟩
      rw [h0] at hs
      cases hs
      omega
  · cases h
    exact ⟨rfl, fun sz hs h4 h5 h6 => ⟨fun _ => rfl, fun hc => by omega⟩⟩

theorem newBlock_len {n : Int} {c d : List (Option Ptr)} (h : newBlock n c = .ok d) : (d.length : Int) = n := by
  unfold newBlock at h
  split at h
  · cases h
  · split at h
    · cases h
      simp
      omega
    · cases h

theorem compact_data {r r' : Ring} {sz : Int} (h : compact r = .ok r') (hs : size r = .ok sz) :
    (sz < r.alloc → 0 < sz → r'.start = 0) ∧ (r.alloc ≤ sz → r' = r) := by
  unfold compact at h
  rw [hs, ok_bind] at h
  split at h
  · refine ⟨fun _ h0 => ?_, fun _ => by omega⟩
    rw [if_pos h0] at h
    split at h
    · obtain ⟨_, _, h⟩ := bind_eq h
      obtain ⟨_, _, h⟩ := bind_eq h
      cases h; rfl
    · obtain ⟨_, _, h⟩ := bind_eq h
      obtain ⟨_, _, h⟩ := bind_eq h
      obtain ⟨_, _, h⟩ := bind_eq h
      obtain ⟨_, _, h⟩ := bind_eq h
      cases h; rfl
  · cases h
    exact ⟨fun _ => by omega, fun _ => rfl⟩

theorem reserve_data {r r' : Ring} {n : Int} (h : reserve r n = .ok (true, r')) :
    r.alloc < n → 0 ≤ r.start → r'.start = 0 := by
  intro h1 h2
  unfold reserve at h
  rw [if_neg (by omega)] at h
  split at h
  · cases h
  · obtain ⟨_, _, h⟩ := bind_eq h
    dsimp only at h
    by_cases hc : r.start < r.fin
    · rw [if_pos hc] at h
      obtain ⟨_, _, h⟩ := bind_eq h
      obtain ⟨_, _, h⟩ := bind_eq h
      obtain ⟨_, _, h⟩ := bind_eq h
      cases h; rfl
    · rw [if_neg hc] at h
      first | rw [if_pos (show r.start ≥ 0 from h2)] at h | skip
      obtain ⟨_, _, h⟩ := bind_eq h
      obtain ⟨_, _, h⟩ := bind_eq h
      obtain ⟨_, _, h⟩ := bind_eq h
      obtain ⟨_, _, h⟩ := bind_eq h
      cases h; rfl

theorem flatten_data {r r' : Ring} {sz : Int} {o : Option Int} {k : Int} (h : flatten r = .ok (o, k, r')) (hs : size r = .ok sz) :
    (0 < sz ∧ 0 < r.start ∧ r.fin ≤ r.start → r'.start = 0 ∧ (r'.data.length : Int) = sz) ∧
    (¬ (0 < sz ∧ 0 < r.start ∧ r.fin ≤ r.start) → r' = r) := by
  unfold flatten at h
  rw [hs, ok_bind] at h
  split at h
  · split at h
    · obtain ⟨_, _, h⟩ := bind_eq h
      obtain ⟨_, _, h⟩ := bind_eq h
      obtain ⟨_, _, h⟩ := bind_eq h
      obtain ⟨d, h2, h⟩ := bind_eq h
      obtain ⟨_, _, h⟩ := bind_eq h
      obtain ⟨_, h1, h⟩ := bind_eq h
      cases h1
      cases h
      exact ⟨fun _ => ⟨rfl, newBlock_len h2⟩, fun hc => by omega⟩
    · rw [ok_bind] at h
      cases h
      exact ⟨fun hc => by omega, fun _ => rfl⟩
  · cases h
    exact ⟨fun hc => by omega, fun _ => rfl⟩

theorem next_short (b : Buf) (x : Bool) (op : Op) : ({ b with short := x }.next op).1 = (b.next op).1 ∧
    ∃ y, ({ b with short := x }.next op).2 = { (b.next op).2 with short := y } := by
  have hg : ∀ n, ({ b with short := x } : Buf).grow n = none ∧ b.grow n = none ∨
      ∃ y c, ({ b with short := x } : Buf).grow n = some { c with short := y } ∧ b.grow n = some c := by
    intro n
    by_cases h1 : n ≤ b.cap
    · exact .inr ⟨x, b, if_pos h1, if_pos h1⟩
    · by_cases h2 : 0 ≤ b.max ∧ b.max ≤ b.cap
      · left
        unfold Buf.grow
        dsimp only
        simp [h1, h2]
      · right
        unfold Buf.grow
        dsimp only
        rw [if_neg h1, if_neg h2, if_neg h1, if_neg h2]
        exact ⟨false, _, rfl, rfl⟩
  cases op with
  | reserve n =>
    unfold Buf.next
    dsimp only
    rcases hg n with ⟨h1, h2⟩ | ⟨y, c, h1, h2⟩
    · rw [h1, h2]; exact ⟨rfl, x, rfl⟩
    · rw [h1, h2]; exact ⟨rfl, y, rfl⟩
  | put p =>
    unfold Buf.next
    dsimp only
    rcases hg (b.items.length + 1) with ⟨h1, h2⟩ | ⟨y, c, h1, h2⟩
    · rw [h1, h2]; exact ⟨rfl, x, rfl⟩
    · rw [h1, h2]; exact ⟨rfl, y, rfl⟩
  | putFront p =>
    unfold Buf.next
    dsimp only
    rcases hg (b.items.length + 1) with ⟨h1, h2⟩ | ⟨y, c, h1, h2⟩
    · rw [h1, h2]; exact ⟨rfl, x, rfl⟩
    · rw [h1, h2]; exact ⟨rfl, y, rfl⟩
  | unref =>
    refine ⟨rfl, x, ?_⟩
    unfold Buf.next
    dsimp only
    split <;> rfl
  | setMaxSize n =>
    refine ⟨rfl, x, ?_⟩
    unfold Buf.next
    dsimp only
    split
    · rfl
    · split <;> rfl
  | dropLast n =>
    refine ⟨rfl, x, ?_⟩
    unfold Buf.next Buf.dropBack
    dsimp only
    split <;> rfl
  | flatten => exact ⟨rfl, _, rfl⟩
  | compact => exact ⟨rfl, false, rfl⟩
  | _ => exact ⟨rfl, x, rfl⟩

theorem rel_short {r : Ring} {b : Buf} (x : Bool) (h : Rel r b) (hx : x = true ∨ (r.data.length : Int) = b.cap) : Rel r { b with short := x } := by
  refine ⟨{ h.1 with tight := h.1.tight, len' := ?_, view := h.1.view }, h.2⟩
  intro hf
  rcases hx with rfl | hx
  · cases hf
  · exact hx.trans h.2.symm

/-- The ring is where it's said to be. -/
structure Place (r : Ring) (m : Mem) : Prop where
  rel : Rel r { m.buf with short := true }
  first : m.buf.items ≠ [] → r.start = m.first
  room : (r.data.length : Int) = m.room
  fits : m.room = m.buf.cap ∨ (0 < m.room ∧ m.room < m.buf.cap ∧ (m.buf.items ≠ [] → m.first + m.buf.items.length ≤ m.room))

theorem Place.view {r : Ring} {m : Mem} (h : Place r m) : View r m.buf.items := h.rel.1.view
theorem Place.cap {r : Ring} {m : Mem} (h : Place r m) : r.alloc = m.buf.cap := h.rel.2

theorem Place.empty {r : Ring} {m : Mem} (h : Place r m) (he : m.buf.items = []) : r.start = -1 ∧ r.fin = -1 := by
  rcases h.view with h1 | h1
  · exact h1.2
  · exact (h1.1 he).elim

theorem Place.nonempty {r : Ring} {m : Mem} (h : Place r m) (he : m.buf.items ≠ []) :
    0 ≤ m.first ∧ m.first < m.buf.cap ∧ 0 < m.buf.items.length ∧
    ((m.first < r.fin ∧ (m.buf.items.length : Int) = r.fin - m.first ∧ (r.fin < m.buf.cap ∨ (r.fin = m.buf.cap ∧ m.buf.cap = 1))) ∨
     (0 ≤ r.fin ∧ r.fin ≤ m.first ∧ (m.buf.items.length : Int) = m.buf.cap + r.fin - m.first)) := by
  have h1 := h.first he
  have h2 := h.cap
  rcases h.view with h3 | ⟨_, h3, h4, h5, _⟩
  · exact (he h3.1).elim
  · rw [h1, h2] at h4 h5
    rw [h1] at h3
    exact ⟨h3, h4, List.length_pos_iff.2 he, h5⟩

/-- Some of the oldest elements have been removed. -/
theorem place_front {r r' : Ring} {m : Mem} {b' : Buf} (h : Place r m) (hr : Rel r' { b' with short := true }) (hd : r'.data = r.data)
    (hc : b'.cap = m.buf.cap) (hl : b'.items.length ≤ m.buf.items.length)
    (hs : b'.items ≠ [] → r'.start = (r.start + (m.buf.items.length - b'.items.length)) % r.alloc) :
    Place r' { m with buf := b', first := (m.first + (m.buf.items.length - b'.items.length)) % m.buf.cap } := by
  have ne : b'.items ≠ [] → m.buf.items ≠ [] := by
    intro h1 h2
    rw [h2] at hl
    exact h1 (List.length_eq_zero_iff.1 (by simpa using hl))
  refine ⟨hr, fun he => ?_, by rw [hd]; exact h.room, ?_⟩
  · rw [hs he, h.first (ne he), h.cap]
  · dsimp only
    rw [hc]
    rcases h.fits with h1 | ⟨h1, h2, h3⟩
    · exact .inl h1
    · refine .inr ⟨h1, h2, fun he => ?_⟩
      have h3 := h3 (ne he)
      have h4 := h.nonempty (ne he)
      have : 0 < b'.items.length := List.length_pos_iff.2 he
      rw [Int.emod_eq_of_lt (by omega) (by omega)]
      omega

/-- Some of the newest ones. -/
theorem place_back {r r' : Ring} {m : Mem} {b' : Buf} (h : Place r m) (hr : Rel r' { b' with short := true }) (hd : r'.data = r.data)
    (hc : b'.cap = m.buf.cap) (hl : b'.items.length ≤ m.buf.items.length) (hs : b'.items ≠ [] → r'.start = r.start) :
    Place r' { m with buf := b' } := by
  have ne : b'.items ≠ [] → m.buf.items ≠ [] := by
    intro h1 h2
    rw [h2] at hl
    exact h1 (List.length_eq_zero_iff.1 (by simpa using hl))
  refine ⟨hr, fun he => ?_, by rw [hd]; exact h.room, ?_⟩
  · rw [hs he, h.first (ne he)]
  · dsimp only
    rw [hc]
    rcases h.fits with h1 | ⟨h1, h2, h3⟩
    · exact .inl h1
    · exact .inr ⟨h1, h2, fun he => by have h3 := h3 (ne he); omega⟩

theorem mem_size {r : Ring} {m : Mem} (h : Place r m) : size r = .ok (m.buf.items.length : Int) :=
  size_spec h.view h.rel.1.alloc0 h.rel.1.alloc1

theorem small_short {b : Buf} {n : Int} (x : Bool) (h : b.Small n) : ({ b with short := x } : Buf).Small n := h

/-- Making room. -/
theorem place_grow {r : Ring} {m : Mem} (h : Place r m) (n : Int) (hs : m.buf.Small n) :
    (m.grow n = none ∧ m.buf.grow n = none ∧ reserve r n = .ok (false, r)) ∨
    ∃ g r1, m.grow n = some g ∧ m.buf.grow n = some g.buf ∧ reserve r n = .ok (true, r1) ∧ Place r1 g ∧ g.buf.items = m.buf.items ∧
      ((m.buf.items.length : Int) < n → n ≤ m.buf.items.length + 1 → n ≤ g.buf.cap) := by
  have hc := h.cap
  obtain ⟨x, r', h1, h2, _, h4, h5, h6⟩ := reserve_fit h.rel.1 n (fit_of h.rel (small_short true hs))
  cases x with
  | false =>
    left
    obtain ⟨rfl, g1, g2, g3⟩ := h4 rfl
    have g2 : 0 ≤ m.buf.max := g2
    have g3 : m.buf.max ≤ r'.alloc := g3
    have e : m.buf.grow n = none := by
      unfold Buf.grow
      rw [if_neg (by omega), if_pos (by omega)]
    exact ⟨by unfold Mem.grow; rw [e], e, h1⟩
  | true =>
    right
    have h5 := h5 rfl
    rcases h6 rfl with ⟨g1, rfl⟩ | ⟨g1, g2, g3, g4⟩
    · have e : m.buf.grow n = some m.buf := by
        unfold Buf.grow
        rw [if_pos (by omega)]
      refine ⟨m, r', by unfold Mem.grow; rw [e]; dsimp only; rw [if_pos (by omega)], e, h1, h, rfl, fun a b => ?_⟩
      rw [← hc]
      exact h5 a b
    · have g2 : m.buf.max < 0 ∨ r.alloc < m.buf.max := g2
      have e : m.buf.grow n = some { m.buf with cap := m.buf.more n, short := false } := by
        unfold Buf.grow
        rw [if_neg (by omega), if_neg (by omega)]
      have g5 : grown r n = m.buf.more n := grown_more h.rel n (by show m.buf.cap < n; omega) (by show m.buf.max < 0 ∨ m.buf.cap < m.buf.max; omega)
      refine ⟨{ buf := { m.buf with cap := m.buf.more n, short := false }, first := 0, room := m.buf.more n }, r',
        by unfold Mem.grow; rw [e]; dsimp only; rw [if_neg (by omega)], e, h1, ?_, rfl, fun a b => ?_⟩
      · refine ⟨?_, fun he => ?_, ?_, .inl rfl⟩
        · refine rel_of (d := Buf.deque { m.buf with short := true }) h2 ?_ rfl rfl rfl rfl rfl rfl
          rw [g3]; exact g5
        · have := h.nonempty he
          have h7 := h.first he
          exact reserve_data h1 g1 (by omega)
        · show (r'.data.length : Int) = m.buf.more n
          rw [g4, g3]; exact g5
      · show n ≤ m.buf.more n
        rw [← g5, ← g3]
        exact h5 a b

theorem setSlot_oob {r : Ring} {i : Int} (p : Ptr) (h : (r.data.length : Int) ≤ i) : setSlot r i p = .error .oobWrite := by
  have : 0 ≤ i := by omega
  simp only [setSlot, this, if_true, wr]
  rw [if_neg (show ¬ i.toNat < r.data.length by omega)]
  rfl

theorem place_put {r : Ring} {g : Mem} (h : Place r g) (p : Ptr) (hroom : (g.buf.items.length : Int) + 1 ≤ g.buf.cap) :
    let k : M (Bool × Ring) := do
      let r := if r.start < 0 then { r with start := 0, fin := 0 } else r
      let r ← setSlot r r.fin p
      let e ← chk32 (r.fin + 1)
      let e ← cMod e r.alloc
      .ok (true, { r with fin := e })
    (g.room ≤ g.back → k = .error .oobWrite) ∧
    (g.back < g.room → ∃ r', k = .ok (true, r') ∧
      Place r' { buf := { g.buf with items := g.buf.items ++ [p] }, first := if g.buf.items = [] then 0 else g.first, room := g.room }) := by
  have hcap := h.cap
  have hdl := h.room
  have ha1 := h.rel.1.alloc1
  have hback : g.back = if r.start < 0 then 0 else r.fin := by
    unfold Mem.back
    by_cases he : g.buf.items = []
    · rw [if_pos he, if_pos (by have := h.empty he; omega)]
    · have h1 := h.nonempty he
      have h2 := h.first he
      rw [if_neg he, if_neg (by omega)]
      rcases h1 with ⟨h3, h4, h5, h6 | h6⟩
      · rw [Int.emod_eq_of_lt (by omega) (by omega)]; omega
      · rw [show g.first + (g.buf.items.length : Int) = r.fin + g.buf.cap by omega, Int.add_emod_right, Int.emod_eq_of_lt (by omega) (by omega)]
  have hr : (if r.start < 0 then { r with start := 0, fin := 0 } else r) =
      { r with start := if r.start < 0 then 0 else r.start, fin := g.back } := by
    rw [hback]
    split <;> rfl
  dsimp only
  rw [hr]
  constructor
  · intro hb
    rw [setSlot_oob p (by show (r.data.length : Int) ≤ g.back; omega)]
    rfl
  · intro hb
    obtain ⟨s, f, hsf, hf0, hf1, hv⟩ := view_snoc_at h.view p (by omega) (by rw [← hback]; omega)
    have hs : s = if r.start < 0 then 0 else r.start := by
      have : s = _ := congrArg Prod.fst hsf
      rw [this]
      split <;> rfl
    have hf : f = g.back := by
      have : f = _ := congrArg Prod.snd hsf
      rw [this, hback]
      split <;> rfl
    subst hf
    rw [setSlot_ok (r := { r with start := _, fin := _ }) p hf0 (by show g.back < (r.data.length : Int); omega), ok_bind]
    dsimp only
    rw [chk32_ok (by omega) (by omega), ok_bind, cMod_ok (by omega) (by omega), ok_bind]
    have hff : (if g.back + 1 < r.alloc then g.back + 1 else g.back + 1 - r.alloc) =
        (if g.back + 1 < r.alloc then g.back + 1 else 0) := by split <;> omega
    rw [hff, ← hs]
    refine ⟨_, rfl, ?_⟩
    have hle := h.rel.1.len
    refine ⟨⟨?_, hcap⟩, fun _ => ?_, ?_, ?_⟩
    · exact { ref := h.rel.1.ref, pos := h.rel.1.pos, alloc0 := h.rel.1.alloc0, alloc1 := ha1
              free := h.rel.1.free, freed := h.rel.1.freed, maxeq := h.rel.1.maxeq, maxok := h.rel.1.maxok
              tight := h.rel.1.tight
              len := by simp only [List.length_set]; exact hle
              len' := fun hf => by cases hf
              view := hv }
    · show s = _
      dsimp only
      rw [hs]
      by_cases he : g.buf.items = []
      · rw [if_pos he, if_pos (by have := h.empty he; omega)]
      · have h1 := h.nonempty he
        have h2 := h.first he
        rw [if_neg he, if_neg (by omega), h2]
    · simp only [List.length_set]; exact hdl
    · dsimp only
      rcases h.fits with h1 | ⟨h1, h2, h3⟩
      · exact .inl h1
      · refine .inr ⟨h1, h2, fun _ => ?_⟩
        by_cases he : g.buf.items = []
        · rw [if_pos he, he]
          simp
          omega
        · rw [if_neg he]
          have h4 := h.nonempty he
          have h5 := h.first he
          have h3 := h3 he
          rw [if_neg (by omega)] at hback
          simp only [List.length_append, List.length_cons, List.length_nil]
          omega

theorem place_putFront {r : Ring} {g : Mem} (h : Place r g) (p : Ptr) (hroom : (g.buf.items.length : Int) + 1 ≤ g.buf.cap) :
    let k : M (Bool × Ring) := do
      let r ← if r.start ≥ 0 then do
          let s ← chk32 (r.start + r.alloc)
          let s ← cMod (s - 1) r.alloc
          pure { r with start := s }
        else .ok { r with start := 0, fin := 1 }
      let r ← setSlot r r.start p
      .ok (true, r)
    (g.room ≤ g.front → k = .error .oobWrite) ∧
    (g.front < g.room → ∃ r', k = .ok (true, r') ∧
      Place r' { buf := { g.buf with items := p :: g.buf.items }, first := g.front, room := g.room }) := by
  have hcap := h.cap
  have hdl := h.room
  have ha1 := h.rel.1.alloc1
  have ha0 := h.rel.1.alloc0
  have hfront : g.front = if r.start ≥ 0 then (if r.start = 0 then r.alloc - 1 else r.start - 1) else 0 := by
    unfold Mem.front
    by_cases he : g.buf.items = []
    · rw [if_pos he, if_neg (by have := h.empty he; omega)]
    · have h1 := h.nonempty he
      have h2 := h.first he
      rw [if_neg he, if_pos (by omega)]
      split
      · rw [show g.first = 0 by omega, mod_neg_one (by omega), hcap]
      · rw [Int.emod_eq_of_lt (by omega) (by omega)]; omega
  have hlt : r.start ≥ 0 → r.start < r.alloc := by
    intro h1
    by_cases he : g.buf.items = []
    · have := h.empty he; omega
    · have h1 := h.nonempty he
      have h2 := h.first he
      omega
  have hk : (do
      let r ← if r.start ≥ 0 then do
          let s ← chk32 (r.start + r.alloc)
          let s ← cMod (s - 1) r.alloc
          pure { r with start := s }
        else .ok { r with start := 0, fin := 1 }
      let r ← setSlot r r.start p
      .ok (true, r) : M (Bool × Ring)) =
      (do
        let r ← setSlot { r with start := g.front, fin := if r.start ≥ 0 then r.fin else 1 } g.front p
        .ok (true, r)) := by
    by_cases hst : r.start ≥ 0
    · have := hlt hst
      rw [if_pos hst] at hfront ⊢
      rw [chk32_ok (by omega) (by omega), ok_bind, cMod_ok (by omega) (by omega), ok_bind]
      simp only [pure, Except.pure]
      rw [ok_bind]
      have hss : (if r.start + r.alloc - 1 < r.alloc then r.start + r.alloc - 1
          else r.start + r.alloc - 1 - r.alloc) = g.front := by
        rw [hfront]; split <;> split <;> omega
      simp only [hss]
      rw [if_pos hst]
    · rw [if_neg hst] at hfront ⊢
      rw [ok_bind, if_neg hst, hfront]
  dsimp only
  dsimp only at hk
  rw [hk]
  constructor
  · intro hb
    rw [setSlot_oob p (by show (r.data.length : Int) ≤ g.front; omega)]
    rfl
  · intro hb
    obtain ⟨s, f, hsf, hs0, hs1, hs2, hv⟩ := view_cons_at h.view p (by omega) (by rw [← hfront]; omega)
    have hs : s = g.front := by
      have : s = _ := congrArg Prod.fst hsf
      rw [this, hfront]
      split <;> rfl
    have hf : f = if r.start ≥ 0 then r.fin else 1 := by
      have : f = _ := congrArg Prod.snd hsf
      rw [this]
      split <;> rfl
    subst hs
    rw [setSlot_ok (r := { r with start := _, fin := _ }) p hs0 (by show g.front < (r.data.length : Int); omega), ok_bind, ← hf]
    refine ⟨_, rfl, ?_⟩
    have hle := h.rel.1.len
    refine ⟨⟨?_, hcap⟩, fun _ => rfl, ?_, ?_⟩
    · exact { ref := h.rel.1.ref, pos := h.rel.1.pos, alloc0 := ha0, alloc1 := ha1
              free := h.rel.1.free, freed := h.rel.1.freed, maxeq := h.rel.1.maxeq, maxok := h.rel.1.maxok
              tight := h.rel.1.tight
              len := by simp only [List.length_set]; exact hle
              len' := fun hf => by cases hf
              view := hv }
    · simp only [List.length_set]; exact hdl
    · dsimp only
      rcases h.fits with h1 | ⟨h1, h2, h3⟩
      · exact .inl h1
      · refine .inr ⟨h1, h2, fun _ => ?_⟩
        by_cases he : g.buf.items = []
        · have := h.empty he
          rw [if_neg (by omega)] at hfront
          rw [hfront, he]
          simp
          omega
        · have h4 := h.nonempty he
          have h5 := h.first he
          have h3 := h3 he
          rw [if_pos (by omega)] at hfront
          simp only [List.length_cons]
          split at hfront <;> omega

theorem put_step {r : Ring} {m : Mem} (h : Place r m) (p : Ptr) (hs : m.buf.Small (m.buf.items.length + 1)) :
    (m.next (.put p) = none ∧ put r p = .error .oobWrite) ∨
    ∃ x m' r', m.next (.put p) = some (.bool x, m') ∧ put r p = .ok (x, r') ∧ Place r' m' := by
  have hle := h.view.length_le h.rel.1.alloc0
  have ha1 := h.rel.1.alloc1
  have hput : put r p = (do
      let (ok, r) ← reserve r (m.buf.items.length + 1)
      if ok then
        let r := if r.start < 0 then { r with start := 0, fin := 0 } else r
        let r ← setSlot r r.fin p
        let e ← chk32 (r.fin + 1)
        let e ← cMod e r.alloc
        .ok (true, { r with fin := e })
      else .ok (false, r)) := by
    rw [put, mem_size h, ok_bind, chk32_ok (by omega) (by omega), ok_bind]
  rw [hput]
  unfold Mem.next Buf.next
  dsimp only
  rcases place_grow h _ hs with ⟨h1, h2, h3⟩ | ⟨g, r1, h1, h2, h3, h4, h5, h6⟩
  · rw [h1, h2, h3, ok_bind]
    exact .inr ⟨false, m, r, rfl, rfl, h⟩
  · rw [h1, h2, h3, ok_bind]
    dsimp only
    obtain ⟨h7, h8⟩ := place_put h4 p (by rw [h5]; exact h6 (by omega) (by omega))
    by_cases hb : g.back < g.room
    · obtain ⟨r', g1, g2⟩ := h8 hb
      rw [if_pos hb]
      refine .inr ⟨true, _, r', rfl, g1, ?_⟩
      rw [← h5]
      exact g2
    · rw [if_neg hb]
      exact .inl ⟨rfl, h7 (by omega)⟩

theorem putFront_step {r : Ring} {m : Mem} (h : Place r m) (p : Ptr) (hs : m.buf.Small (m.buf.items.length + 1)) :
    (m.next (.putFront p) = none ∧ putFront r p = .error .oobWrite) ∨
    ∃ x m' r', m.next (.putFront p) = some (.bool x, m') ∧ putFront r p = .ok (x, r') ∧ Place r' m' := by
  have hle := h.view.length_le h.rel.1.alloc0
  have ha1 := h.rel.1.alloc1
  have hput : putFront r p = (do
      let (ok, r) ← reserve r (m.buf.items.length + 1)
      if ok then
        let r ← if r.start ≥ 0 then do
            let s ← chk32 (r.start + r.alloc)
            let s ← cMod (s - 1) r.alloc
            pure { r with start := s }
          else .ok { r with start := 0, fin := 1 }
        let r ← setSlot r r.start p
        .ok (true, r)
      else .ok (false, r)) := by
    rw [putFront, mem_size h, ok_bind, chk32_ok (by omega) (by omega), ok_bind]
  rw [hput]
  unfold Mem.next Buf.next
  dsimp only
  rcases place_grow h _ hs with ⟨h1, h2, h3⟩ | ⟨g, r1, h1, h2, h3, h4, h5, h6⟩
  · rw [h1, h2, h3, ok_bind]
    exact .inr ⟨false, m, r, rfl, rfl, h⟩
  · rw [h1, h2, h3, ok_bind]
    dsimp only
    obtain ⟨h7, h8⟩ := place_putFront h4 p (by rw [h5]; exact h6 (by omega) (by omega))
    by_cases hb : g.front < g.room
    · obtain ⟨r', g1, g2⟩ := h8 hb
      rw [if_pos hb]
      exact .inr ⟨true, _, r', rfl, g1, g2⟩
    · rw [if_neg hb]
      exact .inl ⟨rfl, h7 (by omega)⟩

/-- A call which removes nothing, or just the oldest elements -/
theorem front_step {r r' : Ring} {m : Mem} {op : Op} (h : Place r m)
    (hrel : Rel r' { (m.buf.next op).2 with short := true } ∨ RelDead r' (m.buf.next op).2)
    (hd : r'.data = r.data) (hc : (m.buf.next op).2.cap = m.buf.cap) (hl : (m.buf.next op).2.items.length ≤ m.buf.items.length)
    (hs : (m.buf.next op).2.refs ≠ 0 → (m.buf.next op).2.items ≠ [] →
      r'.start = (r.start + (m.buf.items.length - (m.buf.next op).2.items.length)) % r.alloc) :
    let m' : Mem := { m with buf := (m.buf.next op).2, first := (m.first + (m.buf.items.length - (m.buf.next op).2.items.length)) % m.buf.cap }
    Place r' m' ∨ RelDead r' m'.buf := by
  rcases hrel with hrel | hrel
  · refine .inl (place_front h hrel hd hc hl (fun he => hs ?_ he))
    have := hrel.1.pos
    exact Nat.ne_of_gt this
  · exact .inr hrel

/-- Nothing has happened to the elements. -/
theorem same_start {r r' : Ring} {m : Mem} {b : Buf} (h : Place r m) (hb : b.items = m.buf.items) (hs : r'.start = r.start) :
    b.refs ≠ 0 → b.items ≠ [] → r'.start = (r.start + (m.buf.items.length - b.items.length)) % r.alloc := by
  intro _ he
  rw [hb] at he ⊢
  have h1 := h.nonempty he
  have h2 := h.first he
  have h3 := h.cap
  rw [hs, show r.start + ((m.buf.items.length : Int) - m.buf.items.length) = r.start by omega, Int.emod_eq_of_lt (by omega) (by omega)]

theorem mem_step {r : Ring} {m : Mem} (h : Place r m) {op : Op} (hp : m.Pre op) :
    (m.next op = none ∧ exec r op = .error .oobWrite) ∨
    ∃ o m' r', m.next op = some (o, m') ∧ exec r op = .ok (o, r') ∧ (Place r' m' ∨ RelDead r' m'.buf) := by
  have hpos : 0 < m.buf.refs := hp.1
  have hrc : ¬ r.refCount = 0 := by
    rw [h.rel.1.ref]
    have := h.rel.1.pos
    omega
  have hsz := mem_size h
  have ne1 : ∀ {b' : Buf} {r' : Ring}, Rel r' { b' with short := true } → b'.items ≠ [] → 0 ≤ r'.start := by
    intro b' r' hr he
    rcases hr.1.view with h1 | h1
    · exact (he h1.1).elim
    · exact h1.2.1
  -- all that's known from `cap_step`
  have old : (∀ p, op ≠ .put p) → (∀ p, op ≠ .putFront p) → ∃ r', exec r op = .ok ((m.buf.next op).1, r') ∧
      (Rel r' { (m.buf.next op).2 with short := true } ∨ RelDead r' (m.buf.next op).2) := by
    intro n1 n2
    have hp' : ({ m.buf with short := true } : Buf).Pre op := by
      refine ⟨hpos, ?_⟩
      have := hp.2
      cases op <;> first | exact this | exact (n1 _ rfl).elim | exact (n2 _ rfl).elim
    obtain ⟨r', h1, h2⟩ := cap_step h.rel hp'
    obtain ⟨h3, y, h4⟩ := next_short m.buf true op
    rw [h3] at h1
    rw [h4] at h2
    refine ⟨r', h1, ?_⟩
    rcases h2 with h2 | h2
    · have := rel_short true h2 (.inl rfl)
      exact .inl this
    · exact .inr h2
  have hcap := h.cap
  cases op with
  | put p =>
    have hs : m.buf.Small (m.buf.items.length + 1) := hp.2.1
    rcases put_step h p hs with ⟨h1, h2⟩ | ⟨x, m', r', h1, h2, h3⟩
    · refine .inl ⟨h1, ?_⟩
      simp only [exec, hrc, if_false, h2]
      rfl
    · refine .inr ⟨_, m', r', h1, ?_, .inl h3⟩
      simp only [exec, hrc, if_false, h2, ok_bind]
  | putFront p =>
    have hs : m.buf.Small (m.buf.items.length + 1) := hp.2.1
    rcases putFront_step h p hs with ⟨h1, h2⟩ | ⟨x, m', r', h1, h2, h3⟩
    · refine .inl ⟨h1, ?_⟩
      simp only [exec, hrc, if_false, h2]
      rfl
    · refine .inr ⟨_, m', r', h1, ?_, .inl h3⟩
      simp only [exec, hrc, if_false, h2, ok_bind]
  | reserve n =>
    right
    have hs : m.buf.Small n := hp.2
    unfold Mem.next Buf.next
    dsimp only
    rcases place_grow h n hs with ⟨h1, h2, h3⟩ | ⟨g, r1, h1, h2, h3, h4, h5, h6⟩
    · rw [h1, h2]
      refine ⟨_, _, r, rfl, ?_, .inl h⟩
      simp only [exec, hrc, if_false, h3, ok_bind]
    · rw [h1, h2]
      refine ⟨_, _, r1, rfl, ?_, .inl h4⟩
      simp only [exec, hrc, if_false, h3, ok_bind]
  | ref =>
    obtain ⟨r', h1, h2⟩ := old (by simp) (by simp)
    refine .inr ⟨_, _, r', rfl, h1, front_step h h2 ?_ rfl (Nat.le_refl _) ?_⟩
    all_goals
      simp only [exec, hrc, if_false] at h1
      cases h1
    · rfl
    · exact same_start h rfl rfl
  | setFreeFunc f =>
    obtain ⟨r', h1, h2⟩ := old (by simp) (by simp)
    refine .inr ⟨_, _, r', rfl, h1, front_step h h2 ?_ rfl (Nat.le_refl _) ?_⟩
    all_goals
      simp only [exec, hrc, if_false] at h1
      cases h1
    · rfl
    · exact same_start h rfl rfl
  | maxSize =>
    obtain ⟨r', h1, h2⟩ := old (by simp) (by simp)
    refine .inr ⟨_, _, r', rfl, h1, front_step h h2 ?_ rfl (Nat.le_refl _) ?_⟩
    all_goals
      simp only [exec, hrc, if_false] at h1
      injection h1 with h1
      injection h1 with _ h1
      subst h1
    · rfl
    · exact same_start h rfl rfl
  | size =>
    obtain ⟨r', h1, h2⟩ := old (by simp) (by simp)
    refine .inr ⟨_, _, r', rfl, h1, front_step h h2 ?_ rfl (Nat.le_refl _) ?_⟩
    all_goals
      simp only [exec, hrc, if_false] at h1
      obtain ⟨_, _, h1⟩ := bind_eq h1
      injection h1 with h1
      injection h1 with _ h1
      subst h1
    · rfl
    · exact same_start h rfl rfl
  | canPut n =>
    obtain ⟨r', h1, h2⟩ := old (by simp) (by simp)
    refine .inr ⟨_, _, r', rfl, h1, front_step h h2 ?_ rfl (Nat.le_refl _) ?_⟩
    all_goals
      simp only [exec, hrc, if_false] at h1
      obtain ⟨_, _, h1⟩ := bind_eq h1
      injection h1 with h1
      injection h1 with _ h1
      subst h1
    · rfl
    · exact same_start h rfl rfl
  | dataAt i =>
    obtain ⟨r', h1, h2⟩ := old (by simp) (by simp)
    refine .inr ⟨_, _, r', rfl, h1, front_step h h2 ?_ rfl (Nat.le_refl _) ?_⟩
    all_goals
      simp only [exec, hrc, if_false] at h1
      obtain ⟨_, _, h1⟩ := bind_eq h1
      injection h1 with h1
      injection h1 with _ h1
      subst h1
    · rfl
    · exact same_start h rfl rfl
  | unref =>
    obtain ⟨r', h1, h2⟩ := old (by simp) (by simp)
    by_cases hb : m.buf.refs = 1
    · refine .inr ⟨_, _, r', rfl, h1, ?_⟩
      rcases h2 with h2 | h2
      · have h3 := h2.1.pos
        have h4 : (m.buf.next .unref).2.refs = 0 := by unfold Buf.next; simp [hb]
        have h3 : 0 < (m.buf.next .unref).2.refs := h3
        omega
      · exact .inr h2
    · have hn : (m.buf.next .unref).2 = { m.buf with refs := m.buf.refs - 1 } := by unfold Buf.next; simp [hb]
      have hr : r.refCount ≠ 1 := by rw [h.rel.1.ref]; exact hb
      refine .inr ⟨_, _, r', rfl, h1, front_step h h2 ?_ (by rw [hn]) (by rw [hn]; exact Nat.le_refl _) ?_⟩
      all_goals
        simp only [exec, hrc, if_false, unref, hr, bind, Except.bind] at h1
        cases h1
      · rfl
      · exact same_start h (by rw [hn]) rfl
  | setMaxSize n =>
    obtain ⟨r', h1, h2⟩ := old (by simp) (by simp)
    simp only [exec, hrc, if_false] at h1
    obtain ⟨r1, h3, h1'⟩ := bind_eq h1
    have hr1 : r1 = r' := by injection h1' with h1'; injection h1'
    subst hr1
    obtain ⟨g1, g2⟩ := setMaxSize_data h3
    have hmax : r.maxsiz = m.buf.max := h.rel.1.maxeq
    have hit : (m.buf.next (.setMaxSize n)).2.items = if norm n ≠ m.buf.max ∧ 0 ≤ norm n then m.buf.items.drop (m.buf.items.length - n.toNat) else m.buf.items := by
      unfold Buf.next
      dsimp only
      by_cases e1 : norm n = m.buf.max
      · rw [if_pos e1, if_neg (by simp [e1])]
      · by_cases e2 : norm n < 0
        · rw [if_neg e1, if_pos e2, if_neg (by omega)]
        · rw [if_neg e1, if_neg e2, if_pos ⟨e1, by omega⟩]
          rfl
    have hcp : (m.buf.next (.setMaxSize n)).2.cap = m.buf.cap := by
      unfold Buf.next
      dsimp only
      split
      · rfl
      · split <;> rfl
    have hnn : 0 ≤ norm n → norm n = n := by unfold norm; split <;> omega
    refine .inr ⟨_, _, r1, rfl, by simp only [exec, hrc, if_false]; exact h1, front_step h h2 g1 hcp ?_ ?_⟩
    · rw [hit]
      split <;> simp
    · intro _ he
      have hne : m.buf.items ≠ [] := by
        intro e
        rw [hit, e] at he
        simp at he
      have h4 := h.nonempty hne
      have h5 := h.first hne
      obtain ⟨g3, g4⟩ := g2 _ hsz (by omega) (by omega) (by omega)
      rw [hit] at he ⊢
      by_cases hc : norm n ≠ m.buf.max ∧ 0 ≤ norm n
      · rw [if_pos hc] at he ⊢
        have hn := hnn hc.2
        rw [List.length_drop]
        by_cases hc2 : norm n < m.buf.items.length
        · by_cases hz : norm n = 0
          · rw [show m.buf.items.length - n.toNat = m.buf.items.length by omega] at he
            simp at he
          · rw [g4 ⟨by rw [hmax]; exact fun e => hc.1 e.symm, by omega, hc2⟩]
            congr 2
            omega
        · rw [g3 (by omega), show r.start + ((m.buf.items.length : Int) - (m.buf.items.length - (m.buf.items.length - n.toNat) : Nat)) = r.start by omega,
            Int.emod_eq_of_lt (by omega) (by omega)]
      · rw [if_neg hc]
        rw [g3 (by rw [hmax]; exact fun hx => hc ⟨fun e => hx.1 e.symm, hx.2.1⟩), show r.start + ((m.buf.items.length : Int) - m.buf.items.length) = r.start by omega,
          Int.emod_eq_of_lt (by omega) (by omega)]
  | clear =>
    obtain ⟨r', h1, h2⟩ := old (by simp) (by simp)
    have h1' := h1
    simp only [exec, hrc, if_false] at h1'
    obtain ⟨r1, h3, h1'⟩ := bind_eq h1'
    have hr1 : r1 = r' := by injection h1' with h1'; injection h1'
    subst hr1
    have hn : (m.buf.next .clear).2.items = [] := by
      show m.buf.items.drop _ = _
      simp
    refine .inr ⟨_, _, r1, rfl, h1, front_step h h2 (clear_data h3) rfl (by rw [hn]; simp) (fun _ he => (he hn).elim)⟩
  | get =>
    obtain ⟨r', h1, h2⟩ := old (by simp) (by simp)
    have h1' := h1
    simp only [exec, hrc, if_false] at h1'
    obtain ⟨⟨q, r1⟩, h3, h1'⟩ := bind_eq h1'
    have hr1 : r1 = r' := by injection h1' with h1'; injection h1'
    subst hr1
    obtain ⟨g1, g2⟩ := get_data h3
    have hn : (m.buf.next .get).2.items = m.buf.items.tail := rfl
    refine .inr ⟨_, _, r1, rfl, h1, front_step h h2 g1 rfl (by rw [hn, List.length_tail]; omega) (fun hr he => ?_)⟩
    rcases h2 with h2 | h2
    · have := ne1 h2 he
      rcases g2 with g2 | g2
      · omega
      · rw [g2, hn, List.length_tail]
        have : 0 < m.buf.items.length := by
          rw [hn] at he
          cases hi : m.buf.items with
          | nil => rw [hi] at he; simp at he
          | cons _ _ => simp
        congr 2
        omega
    · exact (hr h2.1).elim
  | drop n =>
    obtain ⟨r', h1, h2⟩ := old (by simp) (by simp)
    have h1' := h1
    simp only [exec, hrc, if_false] at h1'
    obtain ⟨⟨q, r1⟩, h3, h1'⟩ := bind_eq h1'
    have hr1 : r1 = r' := by injection h1' with h1'; injection h1'
    subst hr1
    obtain ⟨g1, g2, g3⟩ := drop_data h3
    have hn : (m.buf.next (.drop n)).2.items = m.buf.items.drop n.toNat := rfl
    refine .inr ⟨_, _, r1, rfl, h1, front_step h h2 g1 rfl (by rw [hn, List.length_drop]; omega) (fun hr he => ?_)⟩
    rw [hn] at he ⊢
    rw [List.length_drop]
    have hlt : n.toNat < m.buf.items.length := by
      rcases Nat.lt_or_ge n.toNat m.buf.items.length with h4 | h4
      · exact h4
      · exact (he (List.drop_eq_nil_of_le h4)).elim
    have hne : m.buf.items ≠ [] := by
      intro e
      rw [e] at hlt
      simp at hlt
    have h4 := h.nonempty hne
    have h5 := h.first hne
    by_cases h0 : n ≤ 0
    · rw [g2 h0, show r.start + ((m.buf.items.length : Int) - (m.buf.items.length - n.toNat : Nat)) = r.start by omega, Int.emod_eq_of_lt (by omega) (by omega)]
    · rw [g3 _ hsz (by omega) (by omega) (by omega) (by omega)]
      congr 2
      omega
  | getLast =>
    obtain ⟨r', h1, h2⟩ := old (by simp) (by simp)
    have h1' := h1
    simp only [exec, hrc, if_false] at h1'
    obtain ⟨⟨q, r1⟩, h3, h1'⟩ := bind_eq h1'
    have hr1 : r1 = r' := by injection h1' with h1'; injection h1'
    subst hr1
    obtain ⟨g1, g2⟩ := getLast_data h3
    have hn : (m.buf.next .getLast).2.items = m.buf.items.dropLast := rfl
    refine .inr ⟨_, _, r1, rfl, h1, ?_⟩
    rcases h2 with h2 | h2
    · refine .inl (place_back (b' := (m.buf.next .getLast).2) h h2 g1 rfl (by rw [hn, List.length_dropLast]; omega) (fun he => ?_))
      have := ne1 h2 he
      omega
    · exact .inr h2
  | dropLast n =>
    obtain ⟨r', h1, h2⟩ := old (by simp) (by simp)
    have h1' := h1
    simp only [exec, hrc, if_false] at h1'
    obtain ⟨⟨q, r1⟩, h3, h1'⟩ := bind_eq h1'
    have hr1 : r1 = r' := by injection h1' with h1'; injection h1'
    subst hr1
    obtain ⟨g1, g2⟩ := dropLast_data h3
    have hn : (m.buf.next (.dropLast n)).2.items = m.buf.items.take (m.buf.items.length - n.toNat) := by
      show (m.buf.dropBack n.toNat).items = _
      unfold Buf.dropBack
      split
      · show m.buf.items.drop _ = _
        rename_i hc
        rw [List.drop_eq_nil_of_le hc, show m.buf.items.length - n.toNat = 0 by omega]
        rfl
      · rfl
    have hcp : (m.buf.next (.dropLast n)).2.cap = m.buf.cap := by
      show (m.buf.dropBack n.toNat).cap = _
      unfold Buf.dropBack
      split <;> rfl
    refine .inr ⟨_, _, r1, rfl, h1, ?_⟩
    rcases h2 with h2 | h2
    · refine .inl (place_back (b' := (m.buf.next (.dropLast n)).2) h h2 g1 hcp (by rw [hn, List.length_take]; omega) (fun he => ?_))
      refine g2 _ hsz ?_
      rcases Int.lt_or_le n m.buf.items.length with h4 | h4
      · exact h4
      · rw [hn, show m.buf.items.length - n.toNat = 0 by omega] at he
        exact (he rfl).elim
    · exact .inr h2
  | compact =>
    obtain ⟨r', h1, h2⟩ := old (by simp) (by simp)
    have h1' := h1
    simp only [exec, hrc, if_false] at h1'
    obtain ⟨r1, h3, h1'⟩ := bind_eq h1'
    have hr1 : r1 = r' := by injection h1' with h1'; injection h1'
    subst hr1
    obtain ⟨g1, g2⟩ := compact_data h3 hsz
    have hle := h.view.length_le h.rel.1.alloc0
    obtain ⟨data, s, e, k, c1, c2, c3⟩ := compact_spec h.rel.1.view h.rel.1.alloc0 h.rel.1.alloc1 h.rel.1.len
    have c3 : data.length = m.buf.items.length := c3
    rw [h3] at c1
    have hdl : (r1.data.length : Int) = m.buf.items.length := by
      injection c1 with c1
      rw [c1, ← c3]
      rfl
    refine .inr ⟨_, _, r1, rfl, h1, ?_⟩
    rcases h2 with h2 | h2
    rotate_left
    · have h3 : m.buf.refs = 0 := h2.1
      omega
    left
    have hne : (m.buf.next .compact).2.items = m.buf.items := rfl
    by_cases hc : (m.buf.items.length : Int) < m.buf.cap
    · rw [if_pos hc]
      exact ⟨h2, fun he => g1 (by omega) (by have : 0 < m.buf.items.length := List.length_pos_iff.2 he; omega), hdl, .inl rfl⟩
    · rw [if_neg hc]
      have e := g2 (by omega)
      subst e
      refine ⟨h2, fun he => h.first he, h.room, .inl ?_⟩
      show m.room = (m.buf.items.length : Int)
      rw [← h.room]
      exact hdl
  | flatten =>
    obtain ⟨r', h1, h2⟩ := old (by simp) (by simp)
    have h1' := h1
    simp only [exec, hrc, if_false] at h1'
    obtain ⟨⟨off, k, r1⟩, h3, h1'⟩ := bind_eq h1'
    have hr1 : r1 = r' := by
      dsimp only at h1'
      split at h1'
      · injection h1' with h1'; injection h1'
      · obtain ⟨_, _, h1'⟩ := bind_eq h1'
        injection h1' with h1'; injection h1'
    subst hr1
    obtain ⟨g1, g2⟩ := flatten_data h3 hsz
    refine .inr ⟨_, _, r1, rfl, h1, ?_⟩
    rcases h2 with h2 | h2
    rotate_left
    · have h3 : m.buf.refs = 0 := h2.1
      omega
    left
    have hne : (m.buf.next .flatten).2.items = m.buf.items := rfl
    have hcp : (m.buf.next .flatten).2.cap = m.buf.cap := rfl
    have hle := h.view.length_le h.rel.1.alloc0
    by_cases hc : m.buf.items ≠ [] ∧ 0 < m.first ∧ m.buf.cap ≤ m.first + m.buf.items.length
    · rw [if_pos hc]
      have h4 := h.nonempty hc.1
      have h5 := h.first hc.1
      obtain ⟨g3, g4⟩ := g1 ⟨by omega, by omega, by omega⟩
      refine ⟨h2, fun _ => g3, g4, ?_⟩
      dsimp only
      rcases Int.lt_or_le m.buf.items.length m.buf.cap with h6 | h6
      · exact .inr ⟨by omega, h6, fun _ => by omega⟩
      · exact .inl (by omega)
    · rw [if_neg hc]
      have e : r1 = r := by
        refine g2 (fun hx => hc ?_)
        have hne' : m.buf.items ≠ [] := by
          intro e
          have := hx.1
          rw [e] at this
          simp at this
        have h4 := h.nonempty hne'
        have h5 := h.first hne'
        exact ⟨hne', by omega, by omega⟩
      subst e
      exact ⟨h2, h.first, h.room, h.fits⟩

/-- The memory has no effect on what's returned. -/
theorem next_buf {m m' : Mem} {op : Op} {o : Out} (h : m.next op = some (o, m')) : o = (m.buf.next op).1 ∧ m'.buf = (m.buf.next op).2 := by
  have hg : ∀ n, match m.grow n with
      | none => m.buf.grow n = none
      | some g => m.buf.grow n = some g.buf := by
    intro n
    unfold Mem.grow
    cases e : m.buf.grow n with
    | none => rfl
    | some b =>
      dsimp only
      by_cases hc : n ≤ m.buf.cap
      · rw [if_pos hc]
        unfold Buf.grow at e
        rw [if_pos hc] at e
        exact e.symm
      · rw [if_neg hc]
  cases op with
  | put p =>
    have hg := hg (m.buf.items.length + 1)
    unfold Mem.next at h
    dsimp only at h
    cases e : m.grow (m.buf.items.length + 1) with
    | none =>
      rw [e] at h hg
      injection h with h
      injection h with h1 h2
      refine ⟨h1.symm, ?_⟩
      rw [← h2]
      unfold Buf.next
      dsimp only at hg ⊢
      rw [hg]
    | some g =>
      rw [e] at h
      dsimp only at h
      split at h
      · injection h with h
        injection h with h1 h2
        exact ⟨h1.symm, by rw [← h2]⟩
      · cases h
  | putFront p =>
    have hg := hg (m.buf.items.length + 1)
    unfold Mem.next at h
    dsimp only at h
    cases e : m.grow (m.buf.items.length + 1) with
    | none =>
      rw [e] at h hg
      injection h with h
      injection h with h1 h2
      refine ⟨h1.symm, ?_⟩
      rw [← h2]
      unfold Buf.next
      dsimp only at hg ⊢
      rw [hg]
    | some g =>
      rw [e] at h
      dsimp only at h
      split at h
      · injection h with h
        injection h with h1 h2
        exact ⟨h1.symm, by rw [← h2]⟩
      · cases h
  | reserve n =>
    have hg := hg n
    unfold Mem.next at h
    dsimp only at h
    injection h with h
    injection h with h1 h2
    refine ⟨h1.symm, ?_⟩
    rw [← h2]
    unfold Buf.next
    dsimp only
    cases e : m.grow n with
    | none =>
      rw [e] at hg
      dsimp only at hg
      rw [hg]
      rfl
    | some g =>
      rw [e] at hg
      dsimp only at hg
      rw [hg]
      rfl
  | compact =>
    unfold Mem.next at h
    dsimp only at h
    injection h with h
    injection h with h1 h2
    refine ⟨h1.symm, ?_⟩
    rw [← h2]
    split <;> rfl
  | flatten =>
    unfold Mem.next at h
    dsimp only at h
    injection h with h
    injection h with h1 h2
    refine ⟨h1.symm, ?_⟩
    rw [← h2]
    split <;> rfl
  | _ =>
    injection h with h
    injection h with h1 h2
    exact ⟨h1.symm, by rw [← h2]; rfl⟩

theorem outs_buf (ops : List Op) : ∀ (m : Mem) (os : List Out), m.outs ops = some os → os = m.buf.outs ops := by
  induction ops with
  | nil => intro m os h; cases h; rfl
  | cons op ops ih =>
    intro m os h
    unfold Mem.outs at h
    cases e : m.next op with
    | none => rw [e] at h; cases h
    | some x =>
      obtain ⟨o, m'⟩ := x
      rw [e] at h
      obtain ⟨h1, h2⟩ := next_buf e
      dsimp only at h
      cases e2 : m'.outs ops with
      | none => rw [e2] at h; cases h
      | some os' =>
        rw [e2] at h
        cases h
        rw [ih m' os' e2, h1, h2]
        rfl

theorem mem_run (ops : List Op) : ∀ (r : Ring) (m : Mem), (Place r m ∨ RelDead r m.buf) → m.Allowed ops →
    match m.outs ops with
    | none => run r ops = .error .oobWrite
    | some os => ∃ r', run r ops = .ok (os, r') ∧ r'.freed = (m.buf.final ops).freed := by
  induction ops with
  | nil =>
    intro r m h _
    refine ⟨r, rfl, ?_⟩
    rcases h with h | h
    · exact h.rel.1.freed
    · exact h.2.2
  | cons op ops ih =>
    intro r m h ha
    obtain ⟨hp, ha⟩ := ha
    rcases h with h | h
    · rcases mem_step h hp with ⟨h1, h2⟩ | ⟨o, m', r1, h1, h2, h3⟩
      · simp only [Mem.outs, h1, run, h2]
        rfl
      · rw [h1] at ha
        have := ih r1 m' h3 ha
        obtain ⟨_, hb⟩ := next_buf h1
        simp only [Mem.outs, h1, run, h2, ok_bind]
        cases ho : m'.outs ops with
        | none =>
          rw [ho] at this
          simp only [Option.map_none]
          rw [this]
          rfl
        | some os =>
          rw [ho] at this
          obtain ⟨r2, this, hfr⟩ := this
          simp only [Option.map_some]
          rw [this]
          refine ⟨r2, rfl, ?_⟩
          rw [hfr, hb]
          rfl
    · have h1 : 0 < m.buf.refs := hp.1
      have := h.1
      omega

theorem next_notshort {b : Buf} {op : Op} (h : b.short = false) (hf : op ≠ .flatten) : (b.next op).2.short = false := by
  have hg : ∀ n c, b.grow n = some c → c.short = false := by
    intro n c e
    unfold Buf.grow at e
    split at e
    · cases e; exact h
    · split at e
      · cases e
      · cases e; rfl
  cases op with
  | flatten => exact (hf rfl).elim
  | put p =>
    unfold Buf.next
    dsimp only
    split
    · exact h
    · rename_i e; have := hg _ _ e; exact this
  | putFront p =>
    unfold Buf.next
    dsimp only
    split
    · exact h
    · rename_i e; have := hg _ _ e; exact this
  | reserve p =>
    unfold Buf.next
    dsimp only
    split
    · exact h
    · rename_i e; have := hg _ _ e; exact this
  | compact => rfl
  | unref =>
    unfold Buf.next
    dsimp only
    split <;> exact h
  | setMaxSize n =>
    unfold Buf.next
    dsimp only
    split
    · exact h
    · dsimp only
      split <;> exact h
  | dropLast n =>
    show (b.dropBack _).short = false
    unfold Buf.dropBack
    split <;> exact h
  | _ => exact h

/-- Nothing is ever written outside of the memory unless flatten has been called. -/
theorem outs_noflatten (ops : List Op) : ∀ (r : Ring) (m : Mem), (Place r m ∧ Rel r m.buf ∨ RelDead r m.buf) → m.buf.short = false → .flatten ∉ ops →
    m.Allowed ops → m.outs ops ≠ none := by
  induction ops with
  | nil => intro r m _ _ _ _ h; cases h
  | cons op ops ih =>
    intro r m h hs hf ha
    obtain ⟨hp, ha⟩ := ha
    have hop : op ≠ .flatten := by intro e; exact hf (by rw [e]; exact List.mem_cons_self)
    rcases h with ⟨h, h'⟩ | h
    · have hp' : m.buf.Pre op := by
        have : ({ m.buf with short := false } : Buf) = m.buf := by rw [← hs]
        unfold Mem.Pre at hp
        rw [this] at hp
        exact hp
      obtain ⟨r', g1, g2⟩ := cap_step h' hp'
      rcases mem_step h hp with ⟨h1, h2⟩ | ⟨o, m', r1, h1, h2, h3⟩
      · rw [g1] at h2; cases h2
      · rw [g1] at h2
        have hr : r' = r1 := by injection h2 with h2; injection h2
        subst hr
        obtain ⟨_, hb⟩ := next_buf h1
        rw [h1] at ha
        rw [← hb] at g2
        unfold Mem.outs
        rw [h1]
        dsimp only
        have hst : Place r' m' ∧ Rel r' m'.buf ∨ RelDead r' m'.buf := by
          rcases g2 with g2 | g2
          · rcases h3 with h3 | h3
            · exact .inl ⟨h3, g2⟩
            · exact .inr h3
          · exact .inr g2
        have := ih r' m' hst (by rw [hb]; exact next_notshort hs hop) (fun hm => hf (List.mem_cons_of_mem _ hm)) ha
        cases e : m'.outs ops with
        | none => exact (this e).elim
        | some os => simp
    · have h1 : 0 < m.buf.refs := hp.1
      have := h.1
      omega

theorem mem_new (reserved max : Int) (free : Option Nat) (h0 : 0 ≤ reserved) (h1 : reserved ≤ 2 ^ 30) :
    ∃ r, newFull reserved max free = .ok r ∧ Place r (Mem.new reserved max free) ∧ Rel r (Buf.new reserved max free) := by
  obtain ⟨r, h2, h3⟩ := cap_new reserved max free h0 h1
  refine ⟨r, h2, ⟨rel_short true h3 (.inl rfl), fun he => (he rfl).elim, ?_, .inl rfl⟩, h3⟩
  have := h3.1.len' rfl
  rw [this]
  exact h3.2

end Verif.Ring
