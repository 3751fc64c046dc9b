import Verif.Proof.RingSim
import Verif.Spec.RingCap

namespace Verif.Ring
open Verif.C Spec

theorem callFree_alloc (r : Ring) (p : Ptr) : (callFree r p).alloc = r.alloc := by
  unfold callFree
  split <;> rfl

theorem bind_eq {α β : Type} {x : M α} {f : α → M β} {y : β} (h : (x >>= f) = .ok y) : ∃ a, x = .ok a ∧ f a = .ok y := by
  cases x with
  | error e => cases h
  | ok a => exact ⟨a, rfl, h⟩

theorem get_alloc {r r' : Ring} {p : Ptr} (h : get r = .ok (p, r')) : r'.alloc = r.alloc := by
  unfold get at h
  split at h
  · obtain ⟨_, _, h⟩ := bind_eq h
    obtain ⟨_, _, h⟩ := bind_eq h
    split at h
    · cases h; rfl
    · obtain ⟨_, _, h⟩ := bind_eq h
      split at h <;> cases h <;> rfl
  · cases h; rfl

theorem getLast_alloc {r r' : Ring} {p : Ptr} (h : getLast r = .ok (p, r')) : r'.alloc = r.alloc := by
  unfold getLast at h
  split at h
  · obtain ⟨_, _, h⟩ := bind_eq h
    obtain ⟨_, _, h⟩ := bind_eq h
    obtain ⟨_, _, h⟩ := bind_eq h
    split at h <;> cases h <;> rfl
  · cases h; rfl

theorem clearLoop_alloc (n : Nat) : ∀ {r r' : Ring}, clearLoop n r = .ok r' → r'.alloc = r.alloc := by
  induction n with
  | zero => intro r r' h; cases h; rfl
  | succ n ih =>
    intro r r' h
    unfold clearLoop at h
    obtain ⟨⟨p, r1⟩, h1, h⟩ := bind_eq h
    obtain ⟨_, _, h⟩ := bind_eq h
    have h1 := get_alloc h1
    split at h
    · rw [ih h, callFree_alloc, h1]
    · cases h; rw [callFree_alloc, h1]

theorem clear_alloc {r r' : Ring} (h : clear r = .ok r') : r'.alloc = r.alloc := by
  unfold clear at h
  obtain ⟨_, _, h⟩ := bind_eq h
  split at h
  · split at h
    · exact clearLoop_alloc _ h
    · cases h; rfl
  · cases h; rfl

theorem dropLoop_alloc (n : Nat) : ∀ {r r' : Ring}, dropLoop n r = .ok r' → r'.alloc = r.alloc := by
  induction n with
  | zero => intro r r' h; cases h; rfl
  | succ n ih =>
    intro r r' h
    unfold dropLoop at h
    obtain ⟨_, _, h⟩ := bind_eq h
    obtain ⟨_, _, h⟩ := bind_eq h
    obtain ⟨_, _, h⟩ := bind_eq h
    rw [ih h]
    exact callFree_alloc _ _

theorem drop_alloc {r r' : Ring} {n k : Int} (h : drop r n = .ok (k, r')) : r'.alloc = r.alloc := by
  unfold drop at h
  split at h
  · obtain ⟨_, _, h⟩ := bind_eq h
    split at h
    · split at h
      · obtain ⟨_, h1, h⟩ := bind_eq h
        cases h
        exact clear_alloc h1
      · split at h
        · obtain ⟨_, h1, h⟩ := bind_eq h
          cases h
          exact dropLoop_alloc _ h1
        · obtain ⟨_, _, h⟩ := bind_eq h
          obtain ⟨_, _, h⟩ := bind_eq h
          cases h; rfl
    · cases h; rfl
  · cases h; rfl

theorem dropLastLoop_alloc (n : Nat) : ∀ {r r' : Ring}, dropLastLoop n r = .ok r' → r'.alloc = r.alloc := by
  induction n with
  | zero => intro r r' h; cases h; rfl
  | succ n ih =>
    intro r r' h
    unfold dropLastLoop at h
    obtain ⟨_, _, h⟩ := bind_eq h
    obtain ⟨_, _, h⟩ := bind_eq h
    obtain ⟨_, _, h⟩ := bind_eq h
    rw [ih h]
    exact callFree_alloc _ _

theorem dropLast_alloc {r r' : Ring} {n k : Int} (h : dropLast r n = .ok (k, r')) : r'.alloc = r.alloc := by
  unfold dropLast at h
  split at h
  · obtain ⟨_, _, h⟩ := bind_eq h
    split at h
    · split at h
      · obtain ⟨_, h1, h⟩ := bind_eq h
        cases h
        exact clear_alloc h1
      · split at h
        · obtain ⟨_, h1, h⟩ := bind_eq h
          cases h
          exact dropLastLoop_alloc _ h1
        · obtain ⟨_, _, h⟩ := bind_eq h
          obtain ⟨_, _, h⟩ := bind_eq h
          cases h; rfl
    · cases h; rfl
  · cases h; rfl

theorem setMaxSize_alloc {r r' : Ring} {n : Int} (h : setMaxSize r n = .ok r') : r'.alloc = r.alloc := by
  unfold setMaxSize at h
  dsimp only at h
  generalize (if n < 0 then -1 else n) = m at h
  split at h
  · obtain ⟨sz, _, h⟩ := bind_eq h
    split at h
    · obtain ⟨⟨_, r2⟩, h2, h⟩ := bind_eq h
      obtain ⟨r3, h3, h⟩ := bind_eq h
      cases h3
      cases h
      have := drop_alloc h2
      exact this
    · obtain ⟨r3, h3, h⟩ := bind_eq h
      cases h3
      cases h; rfl
  · cases h; rfl

/-- The list, without the capacity -/
def _root_.Verif.Ring.Spec.Buf.deque (b : Buf) : Deque :=
  { items := b.items, max := b.max, free := b.free, freed := b.freed, refs := b.refs, tight := decide (b.max < 0 ∨ b.cap ≤ b.max), flat := b.short }

def Rel (r : Ring) (b : Buf) : Prop := Alive r b.deque ∧ r.alloc = b.cap

def RelDead (r : Ring) (b : Buf) : Prop := b.refs = 0 ∧ r.refCount = 0 ∧ r.freed = b.freed

theorem rel_of {r : Ring} {d : Deque} {b : Buf} (h : Alive r d) (ha : r.alloc = b.cap) (h1 : d.items = b.items) (h2 : d.max = b.max) (h3 : d.free = b.free)
    (h4 : d.freed = b.freed) (h5 : d.refs = b.refs) (h6 : d.flat = b.short) : Rel r b := by
  refine ⟨?_, ha⟩
  exact { ref := by rw [h.ref, h5]; rfl
          pos := by have := h.pos; rw [h5] at this; exact this
          alloc0 := h.alloc0, alloc1 := h.alloc1
          free := by rw [h.free, h3]; rfl
          freed := by rw [h.freed, h4]; rfl
          maxeq := by rw [h.maxeq, h2]; rfl
          maxok := by have := h.maxok; rw [h2] at this; exact this
          tight := fun ht => by rw [ha]; exact of_decide_eq_true ht
          len := h.len
          len' := fun hf => h.len' (by rw [h6]; exact hf)
          view := by have := h.view; rw [h1] at this; exact this }

theorem release_buf (b : Buf) (ps rest : List Ptr) : (b.release ps rest).freed = b.deque.release ps := by
  unfold Buf.release Deque.release Buf.deque
  dsimp only
  cases b.free <;> simp

theorem grown_more {r : Ring} {b : Buf} (h : Rel r b) (n : Int) (_hc : b.cap < n) (hm : b.max < 0 ∨ b.cap < b.max) : grown r n = b.more n := by
  have h1 : r.alloc = b.cap := h.2
  have h2 : r.maxsiz = b.max := h.1.maxeq
  have h3 := h.1.alloc0
  unfold grown Buf.more
  dsimp only
  rw [h1, h2]
  rw [h1] at h3
  split <;> split <;> omega

theorem fit_of {r : Ring} {b : Buf} (h : Rel r b) {n : Int} (hs : b.Small n) : Fit r n := by
  intro h1 h2
  have h3 : r.alloc = b.cap := h.2
  have h4 : r.maxsiz = b.max := h.1.maxeq
  rw [h3] at h1
  rw [h3, h4] at h2
  rw [h3, grown_more h n h1 h2]
  rcases hs with hs | hs | hs
  · omega
  · omega
  · exact hs

theorem cap_step {r : Ring} {b : Buf} (h : Rel r b) {op : Op} (hp : b.Pre op) :
    ∃ r', exec r op = .ok ((b.next op).1, r') ∧ (Rel r' (b.next op).2 ∨ RelDead r' (b.next op).2) := by
  obtain ⟨ha, hc⟩ := h
  obtain ⟨hpos, hp⟩ := hp
  have hrc : ¬ r.refCount = 0 := by rw [ha.ref]; have := ha.pos; omega
  have hle := ha.view.length_le ha.alloc0
  have hle : (b.items.length : Int) ≤ b.cap := by rw [← hc]; exact hle
  have hsz : size r = .ok (b.items.length : Int) := size_spec ha.view ha.alloc0 ha.alloc1
  -- what has been proved already
  have old : ∀ op, Pre b.deque op → ∃ o r' d', exec r op = .ok (o, r') ∧ Step b.deque op o d' ∧ Rep r' d' := fun op hp => sim ha op hp
  cases op with
  | ref =>
    refine ⟨{ r with refCount := r.refCount + 1 }, by simp only [exec, hrc, if_false]; rfl, .inl ?_⟩
    exact rel_of (d := { b.deque with refs := b.refs + 1 })
      { ha with ref := by show r.refCount + 1 = _; rw [ha.ref]; rfl, pos := Nat.succ_pos _, view := ha.view } hc rfl rfl rfl rfl rfl rfl
  | unref =>
    obtain ⟨o, r', d', h1, ⟨rfl, rfl⟩, h3⟩ := old .unref ⟨hpos, trivial⟩
    refine ⟨r', h1, ?_⟩
    unfold Buf.next
    dsimp only
    have h2 : r'.alloc = r.alloc ∨ b.refs = 1 := by
      by_cases hb : b.refs = 1
      · exact .inr hb
      · left
        have : r.refCount ≠ 1 := by rw [ha.ref]; exact hb
        simp only [exec, hrc, if_false, unref, this, bind, Except.bind] at h1
        cases h1
        rfl
    by_cases hb : b.refs = 1
    · rw [if_pos hb]
      right
      have hb' : b.deque.refs = 1 := hb
      rw [if_pos hb'] at h3
      rcases h3 with h3 | h3
      · exact absurd h3.pos (Nat.lt_irrefl 0)
      · refine ⟨rfl, h3.2.1, ?_⟩
        rw [h3.2.2.2]
        show (b.deque.dropFront _).freed = (b.dropFront _).freed
        unfold Buf.dropFront
        rw [release_buf]
        rfl
    · rw [if_neg hb]
      left
      have hb' : ¬ b.deque.refs = 1 := hb
      rw [if_neg hb'] at h3
      rcases h3 with h3 | h3
      · exact rel_of h3 (by rw [h2.resolve_right hb]; exact hc) rfl rfl rfl rfl rfl rfl
      · have : b.refs - 1 = 0 := h3.1
        omega
  | setFreeFunc f =>
    refine ⟨{ r with free := f }, by simp only [exec, hrc, if_false]; rfl, .inl ?_⟩
    exact rel_of (d := { b.deque with free := f }) { ha with free := rfl, view := ha.view } hc rfl rfl rfl rfl rfl rfl
  | maxSize =>
    refine ⟨r, ?_, .inl ⟨ha, hc⟩⟩
    simp only [exec, hrc, if_false]
    rw [ha.maxeq]
    rfl
  | setMaxSize n =>
    obtain ⟨o, r', d', h1, ⟨rfl, rfl⟩, h3⟩ := old (.setMaxSize n) ⟨hpos, trivial⟩
    refine ⟨r', h1, .inl ?_⟩
    have h2 : r'.alloc = r.alloc := by
      simp only [exec, hrc, if_false] at h1
      obtain ⟨r1, h4, h1⟩ := bind_eq h1
      cases h1
      exact setMaxSize_alloc h4
    rcases h3 with h3 | h3
    rotate_left
    · have h3 := h3.1
      dsimp only at h3
      split at h3 <;> (have h3 : b.refs = 0 := h3; omega)
    unfold Buf.next
    dsimp only
    by_cases hm : norm n = b.max
    · rw [if_pos hm]
      have hm' : ¬ (0 ≤ norm n ∧ norm n ≠ b.deque.max) := fun hc => hc.2 hm
      simp only [hm', if_false] at h3
      exact rel_of h3 (h2.trans hc) rfl hm rfl rfl rfl rfl
    · rw [if_neg hm]
      by_cases hz : norm n < 0
      · rw [if_pos hz]
        have hm' : ¬ (0 ≤ norm n ∧ norm n ≠ b.deque.max) := fun hc => by omega
        simp only [hm', if_false] at h3
        exact rel_of h3 (h2.trans hc) rfl rfl rfl rfl rfl rfl
      · rw [if_neg hz]
        have hm' : 0 ≤ norm n ∧ norm n ≠ b.deque.max := ⟨by omega, hm⟩
        simp only [hm', if_true, ne_eq, not_false_eq_true, and_self] at h3
        have hn : (norm n).toNat = n.toNat := by unfold norm; split <;> omega
        refine rel_of h3 (h2.trans hc) ?_ rfl rfl ?_ rfl rfl
        · show b.items.drop _ = b.items.drop _
          rw [hn]
          rfl
        · show b.deque.release (b.items.take _) = (b.dropFront (b.items.length - n.toNat)).freed
          unfold Buf.dropFront
          rw [release_buf, hn]
          rfl
  | size =>
    refine ⟨r, ?_, .inl ⟨ha, hc⟩⟩
    simp only [exec, hrc, if_false, hsz, ok_bind]
    rfl
  | clear =>
    obtain ⟨r', h1, h2⟩ := clear_alive ha
    refine ⟨r', by simp only [exec, hrc, if_false, h1, ok_bind]; rfl, .inl ?_⟩
    refine rel_of h2 ((clear_alloc h1).trans hc) rfl rfl rfl ?_ rfl rfl
    exact (release_buf b _ _).symm
  | compact =>
    obtain ⟨data, s, e, k, h1, h2, h3⟩ := compact_spec ha.view ha.alloc0 ha.alloc1 ha.len
    refine ⟨_, by simp only [exec, hrc, if_false, h1, ok_bind]; rfl, .inl ?_⟩
    refine rel_of (d := { b.deque with flat := false, tight := false }) ?_ rfl rfl rfl rfl rfl rfl rfl
    exact { ref := ha.ref, pos := ha.pos, alloc0 := by simp [rebuilt]
            alloc1 := by have := ha.alloc1; show (b.items.length : Int) ≤ _; omega
            free := ha.free, freed := ha.freed, maxeq := ha.maxeq, maxok := ha.maxok
            tight := by intro ht; cases ht
            len := by show (data.length : Int) ≤ b.items.length; rw [h3]; exact Int.le_refl _
            len' := fun _ => by show (data.length : Int) = b.items.length; rw [h3]; rfl
            view := h2 }
  | reserve n =>
    obtain ⟨x, r', h1, h2, _, h4, _, h6⟩ := reserve_fit ha n (fit_of ⟨ha, hc⟩ hp)
    refine ⟨r', ?_, .inl ?_⟩
    all_goals
      unfold Buf.next Buf.grow
      dsimp only
    · simp only [exec, hrc, if_false, h1, ok_bind]
      cases x with
      | false =>
        obtain ⟨rfl, g1, g2, g3⟩ := h4 rfl
        rw [if_neg (by omega), if_pos ⟨g2, by rw [← hc]; exact g3⟩]
      | true =>
        rcases h6 rfl with ⟨g1, _⟩ | ⟨g1, g2, _⟩
        · rw [if_pos (by omega)]
        · rw [if_neg (by omega), if_neg]
          have g2 : b.max < 0 ∨ r.alloc < b.max := g2
          omega
    · cases x with
      | false =>
        obtain ⟨rfl, g1, g2, g3⟩ := h4 rfl
        rw [if_neg (by omega), if_pos ⟨g2, by rw [← hc]; exact g3⟩]
        exact ⟨ha, hc⟩
      | true =>
        rcases h6 rfl with ⟨g1, rfl⟩ | ⟨g1, g2, g3, g4⟩
        · rw [if_pos (by omega)]
          exact ⟨ha, hc⟩
        · have g2 : b.max < 0 ∨ r.alloc < b.max := g2
          rw [if_neg (by omega), if_neg (by omega)]
          dsimp only
          refine rel_of (d := { b.deque with flat := false }) { h2 with len' := fun _ => g4, view := h2.view } ?_ rfl rfl rfl rfl rfl rfl
          rw [g3]
          exact grown_more ⟨ha, hc⟩ n (by omega) (by omega)
  | canPut n =>
    refine ⟨r, ?_, .inl ⟨ha, hc⟩⟩
    simp only [exec, hrc, if_false]
    unfold canPut
    have hm : r.maxsiz = b.max := ha.maxeq
    rw [hm]
    unfold Buf.next
    dsimp only
    by_cases h0 : b.max < 0
    · rw [if_pos h0, ok_bind]
      simp [h0]
    · have := hp (by omega)
      rw [if_neg h0, hsz, ok_bind, chk32_ok (by omega) (by omega), ok_bind, ok_bind]
      simp [h0]
  | put p =>
    obtain ⟨x, r', h1, h2, _, h4, h5⟩ := put_fit ha p (fit_of ⟨ha, hc⟩ hp.1) hp.2
    have h4 : x = true ↔ (b.items.length : Int) < r.alloc ∨ b.max < 0 ∨ r.alloc < b.max := h4
    refine ⟨r', ?_, .inl ?_⟩
    all_goals
      unfold Buf.next Buf.grow
      dsimp only
    · simp only [exec, hrc, if_false, h1, ok_bind]
      cases x with
      | false =>
        have h4 : ¬ _ := fun hc => absurd (h4.2 hc) (by simp)
        rw [if_neg (by omega), if_pos (by omega)]
      | true =>
        have h4 := h4.1 rfl
        split
        · rename_i e
          split at e
          · cases e
          · split at e
            · omega
            · cases e
        · rfl
    · cases x with
      | false =>
        have h4 : ¬ _ := fun hc => absurd (h4.2 hc) (by simp)
        rw [if_neg (by omega), if_pos (by omega)]
        rcases h2 with ⟨h2, _⟩ | ⟨_, rfl, _⟩
        · cases h2
        · exact ⟨ha, hc⟩
      | true =>
        have h4 := h4.1 rfl
        rcases h2 with ⟨_, h2, _⟩ | ⟨h2, _⟩
        rotate_left
        · cases h2
        by_cases hr : (b.items.length : Int) + 1 ≤ b.cap
        · rw [if_pos hr]
          refine rel_of h2 ?_ rfl rfl rfl rfl rfl rfl
          rw [h5, if_neg (fun hc' => by have : r.alloc ≤ (b.items.length : Int) := hc'.2; omega)]
          exact hc
        · rw [if_neg hr, if_neg (by omega)]
          refine rel_of h2 ?_ rfl rfl rfl rfl rfl hp.2
          rw [h5, if_pos ⟨rfl, by show r.alloc ≤ (b.items.length : Int); omega⟩]
          exact grown_more ⟨ha, hc⟩ _ (by show b.cap < (b.items.length : Int) + 1; omega) (by omega)
  | putFront p =>
    obtain ⟨x, r', h1, h2, h4, h5⟩ := putFront_fit ha p (fit_of ⟨ha, hc⟩ hp.1) hp.2
    have h4 : x = true ↔ (b.items.length : Int) < r.alloc ∨ b.max < 0 ∨ r.alloc < b.max := h4
    refine ⟨r', ?_, .inl ?_⟩
    all_goals
      unfold Buf.next Buf.grow
      dsimp only
    · simp only [exec, hrc, if_false, h1, ok_bind]
      cases x with
      | false =>
        have h4 : ¬ _ := fun hc => absurd (h4.2 hc) (by simp)
        rw [if_neg (by omega), if_pos (by omega)]
      | true =>
        have h4 := h4.1 rfl
        split
        · rename_i e
          split at e
          · cases e
          · split at e
            · omega
            · cases e
        · rfl
    · cases x with
      | false =>
        have h4 : ¬ _ := fun hc => absurd (h4.2 hc) (by simp)
        rw [if_neg (by omega), if_pos (by omega)]
        rcases h2 with ⟨h2, _⟩ | ⟨_, rfl, _⟩
        · cases h2
        · exact ⟨ha, hc⟩
      | true =>
        have h4 := h4.1 rfl
        rcases h2 with ⟨_, h2, _⟩ | ⟨h2, _⟩
        rotate_left
        · cases h2
        by_cases hr : (b.items.length : Int) + 1 ≤ b.cap
        · rw [if_pos hr]
          refine rel_of h2 ?_ rfl rfl rfl rfl rfl rfl
          rw [h5, if_neg (fun hc' => by have : r.alloc ≤ (b.items.length : Int) := hc'.2; omega)]
          exact hc
        · rw [if_neg hr, if_neg (by omega)]
          refine rel_of h2 ?_ rfl rfl rfl rfl rfl hp.2
          rw [h5, if_pos ⟨rfl, by show r.alloc ≤ (b.items.length : Int); omega⟩]
          exact grown_more ⟨ha, hc⟩ _ (by show b.cap < (b.items.length : Int) + 1; omega) (by omega)
  | get =>
    obtain ⟨o, r', d', h1, ⟨rfl, rfl⟩, h3⟩ := old .get ⟨hpos, trivial⟩
    refine ⟨r', h1, .inl ?_⟩
    rcases h3 with h3 | h3
    · refine rel_of h3 ?_ rfl rfl rfl rfl rfl rfl
      simp only [exec, hrc, if_false] at h1
      obtain ⟨⟨q, r1⟩, h4, h1⟩ := bind_eq h1
      cases h1
      exact (get_alloc h4).trans hc
    · have : b.refs = 0 := h3.1
      omega
  | getLast =>
    obtain ⟨o, r', d', h1, ⟨rfl, rfl⟩, h3⟩ := old .getLast ⟨hpos, trivial⟩
    refine ⟨r', h1, .inl ?_⟩
    rcases h3 with h3 | h3
    · refine rel_of h3 ?_ rfl rfl rfl rfl rfl rfl
      simp only [exec, hrc, if_false] at h1
      obtain ⟨⟨q, r1⟩, h4, h1⟩ := bind_eq h1
      cases h1
      exact (getLast_alloc h4).trans hc
    · have : b.refs = 0 := h3.1
      omega
  | drop n =>
    obtain ⟨r', h1, h2⟩ := dropFront_alive ha n
    refine ⟨r', by simp only [exec, hrc, if_false, h1, ok_bind]; rfl, .inl ?_⟩
    refine rel_of h2 ((drop_alloc h1).trans hc) rfl rfl rfl ?_ rfl rfl
    exact (release_buf b _ _).symm
  | dropLast n =>
    obtain ⟨r', h1, h2⟩ := dropBack_alive ha n
    refine ⟨r', by simp only [exec, hrc, if_false, h1, ok_bind]; rfl, .inl ?_⟩
    unfold Buf.next
    dsimp only
    unfold Buf.dropBack
    unfold Deque.dropBack at h2
    by_cases hn : b.items.length ≤ n.toNat
    · rw [if_pos hn]
      have hn : b.deque.items.length ≤ n.toNat := hn
      rw [if_pos hn] at h2
      refine rel_of h2 ((dropLast_alloc h1).trans hc) rfl rfl rfl ?_ rfl rfl
      exact (release_buf b _ _).symm
    · rw [if_neg hn]
      have hn : ¬ b.deque.items.length ≤ n.toNat := hn
      rw [if_neg hn] at h2
      refine rel_of h2 ((dropLast_alloc h1).trans hc) rfl rfl rfl ?_ rfl rfl
      exact (release_buf b _ _).symm
  | dataAt i =>
    refine ⟨r, ?_, .inl ⟨ha, hc⟩⟩
    simp only [exec, hrc, if_false, dataAt_spec ha, ok_bind]
    rfl
  | flatten =>
    by_cases hl : b.items = []
    · have hl' : b.deque.items = [] := hl
      refine ⟨r, ?_, .inl ?_⟩
      · simp only [exec, hrc, if_false, flatten_nil (hl' ▸ ha.view) ha.alloc0 ha.alloc1, ok_bind]
        unfold Buf.next
        simp [hl]
      · exact rel_of ha hc rfl rfl rfl rfl rfl (by unfold Buf.next; simp [hl, Buf.deque])
    · obtain ⟨data, s, e, k, h1, h2, h3, h4, h5⟩ := flatten_spec ha.view hl ha.alloc0 ha.alloc1 ha.len
      have h4' : readBlock (rebuilt r data r.alloc s e k).data s b.items.length = .ok b.items := h4
      refine ⟨rebuilt r data r.alloc s e k, ?_, .inl ?_⟩
      · simp only [exec, hrc, if_false, h1, ok_bind]
        show (do
          let ps ← readBlock (rebuilt r data r.alloc s e k).data s (b.items.length : Int).toNat
          Except.ok (Out.block (some ps) _, _)) = _
        rw [Int.toNat_natCast, h4', ok_bind]
        unfold Buf.next
        simp only [hl, if_false]
        rfl
      · refine rel_of (d := { b.deque with flat := b.short || decide (0 < b.items.length ∧ b.items.length < b.cap) }) ?_ hc rfl rfl rfl rfl rfl rfl
        refine { ha with view := h2, len := h3, len' := ?_ }
        intro hf
        simp only [Bool.or_eq_false_iff, decide_eq_false_iff_not] at hf
        show (data.length : Int) = r.alloc
        rcases h5 with h5 | h5
        · have h5 : data.length = b.items.length := h5
          have : 0 < b.items.length := List.length_pos_iff.2 hl
          omega
        · rw [h5]
          exact ha.len' hf.1

theorem cap_run (ops : List Op) : ∀ (r : Ring) (b : Buf), (Rel r b ∨ RelDead r b) → b.Allowed ops →
    ∃ r', run r ops = .ok (b.outs ops, r') ∧ (Rel r' (b.final ops) ∨ RelDead r' (b.final ops)) := by
  induction ops with
  | nil => intro r b h _; exact ⟨r, rfl, h⟩
  | cons op ops ih =>
    intro r b h ha
    obtain ⟨hp, ha⟩ := ha
    rcases h with h | h
    · obtain ⟨r1, h1, h2⟩ := cap_step h hp
      obtain ⟨r2, h3, h4⟩ := ih r1 _ h2 ha
      refine ⟨r2, ?_, h4⟩
      simp only [run, h1, h3, ok_bind]
      rfl
    · have := hp.1
      have := h.1
      omega

theorem cap_new (reserved max : Int) (free : Option Nat) (h0 : 0 ≤ reserved) (h1 : reserved ≤ 2 ^ 30) :
    ∃ r, newFull reserved max free = .ok r ∧ Rel r (Buf.new reserved max free) := by
  have hm : -1 ≤ norm max := by unfold norm; split <;> omega
  unfold newFull
  dsimp only
  by_cases hz : reserved ≠ 0
  · rw [if_pos hz]
    have hb : newBlock reserved [] = .ok (List.replicate reserved.toNat none) := by
      have := newBlock_ok (n := reserved) (c := []) (by simpa using h0)
      simpa using this
    rw [hb, ok_bind]
    refine ⟨_, rfl, ?_, rfl⟩
    exact { ref := rfl, pos := Nat.one_pos, alloc0 := h0, alloc1 := h1
            free := rfl, freed := rfl, maxeq := rfl, maxok := hm
            tight := fun ht => of_decide_eq_true ht
            len := by simp; omega
            len' := fun _ => by simp; omega
            view := .inl ⟨rfl, rfl, rfl⟩ }
  · rw [if_neg hz]
    have hz' : reserved = 0 := by omega
    subst hz'
    refine ⟨_, rfl, ?_, rfl⟩
    exact { ref := rfl, pos := Nat.one_pos, alloc0 := Int.le_refl 0, alloc1 := h1
            free := rfl, freed := rfl, maxeq := rfl, maxok := hm
            tight := fun ht => of_decide_eq_true ht
            len := by simp
            len' := fun _ => by simp
            view := .inl ⟨rfl, rfl, rfl⟩ }

end Verif.Ring
