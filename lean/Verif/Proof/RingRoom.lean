import Verif.Spec.RingRoom

/-!
# Proofs about rings which only differ in the memory they have
-/

namespace Verif.Ring
open Spec

/-- The same ring, except for its memory -/
structure Same (b c : Buf) : Prop where
  items : c.items = b.items
  max : c.max = b.max
  free : c.free = b.free
  freed : c.freed = b.freed
  refs : c.refs = b.refs

/-- The capacity is no less than what's needed and no more than what's allowed. -/
structure Snug (b : Buf) : Prop where
  fits : (b.items.length : Int) ≤ b.cap
  limit : b.max < 0 ∨ b.cap ≤ b.max

theorem snug_grow {b d : Buf} (h : Snug b) {n : Int} (hg : b.grow n = some d) :
    Same b d ∧ Snug d ∧ (n ≤ d.cap ∨ (0 ≤ b.max ∧ b.max < n)) := by
  unfold Buf.grow at hg
  split at hg
  · injection hg with hg; subst hg; exact ⟨⟨rfl, rfl, rfl, rfl, rfl⟩, h, .inl ‹_›⟩
  · split at hg
    · cases hg
    · injection hg with hg; subst hg
      have h1 := h.fits
      have h2 := h.limit
      refine ⟨⟨rfl, rfl, rfl, rfl, rfl⟩, ⟨?_, ?_⟩, ?_⟩ <;> (simp only [Buf.more]; split <;> omega)

theorem snug_one {b c : Buf} (h : Same b c) (hb : Snug b) (hc : Snug c) :
    (b.grow (b.items.length + 1) = none ∧ c.grow (c.items.length + 1) = none) ∨
    ∃ b' c', b.grow (b.items.length + 1) = some b' ∧ c.grow (c.items.length + 1) = some c' ∧ Same b' c' ∧ Snug b' ∧ Snug c' ∧
      ((b.items.length : Int) + 1 ≤ b'.cap ∧ (b.items.length : Int) + 1 ≤ c'.cap) ∧ Same b b' := by
  have key : ∀ {d : Buf}, Snug d → (d.grow (d.items.length + 1) = none ↔ 0 ≤ d.max ∧ d.max ≤ d.items.length) := by
    intro d hd
    have h1 := hd.fits
    have h2 := hd.limit
    unfold Buf.grow
    split
    · simp only [reduceCtorEq, false_iff]; omega
    · split
      · simp only [true_iff]; omega
      · simp only [reduceCtorEq, false_iff]; omega
  by_cases hn : 0 ≤ b.max ∧ b.max ≤ b.items.length
  · exact .inl ⟨(key hb).2 hn, (key hc).2 (by rw [h.max, h.items]; exact hn)⟩
  · right
    have g1 : b.grow (b.items.length + 1) ≠ none := fun e => hn ((key hb).1 e)
    have g2 : c.grow (c.items.length + 1) ≠ none := fun e => hn (by have := (key hc).1 e; rw [h.max, h.items] at this; exact this)
    obtain ⟨b', e1⟩ := Option.ne_none_iff_exists'.1 g1
    obtain ⟨c', e2⟩ := Option.ne_none_iff_exists'.1 g2
    obtain ⟨a1, a2, a3⟩ := snug_grow hb e1
    obtain ⟨k1, k2, k3⟩ := snug_grow hc e2
    refine ⟨b', c', e1, e2, ⟨by rw [k1.items, a1.items, h.items], by rw [k1.max, a1.max, h.max], by rw [k1.free, a1.free, h.free],
      by rw [k1.freed, a1.freed, h.freed], by rw [k1.refs, a1.refs, h.refs]⟩, a2, k2, ⟨?_, ?_⟩, a1⟩
    · omega
    · rw [h.max, h.items] at k3; omega

theorem same_release {b c : Buf} (h : Same b c) (ps rest : List Ptr) : Same (b.release ps rest) (c.release ps rest) :=
  ⟨rfl, h.max, h.free, by simp only [Buf.release, h.freed, h.free], h.refs⟩

theorem same_front {b c : Buf} (h : Same b c) (n : Nat) : Same (b.dropFront n) (c.dropFront n) := by
  unfold Buf.dropFront; rw [h.items]; exact same_release h _ _

theorem same_back {b c : Buf} (h : Same b c) (n : Nat) : Same (b.dropBack n) (c.dropBack n) := by
  unfold Buf.dropBack; rw [h.items]
  split
  · exact same_front h n
  · exact same_release h _ _

theorem snug_front {b : Buf} (h : Snug b) (n : Nat) : Snug (b.dropFront n) :=
  ⟨by have := h.fits; simp only [Buf.dropFront, Buf.release, List.length_drop]; omega, h.limit⟩

theorem snug_back {b : Buf} (h : Snug b) (n : Nat) : Snug (b.dropBack n) := by
  unfold Buf.dropBack
  split
  · exact snug_front h n
  · exact ⟨by have := h.fits; simp only [Buf.release, List.length_take]; omega, h.limit⟩

/-- The limit doesn't get lower. -/
def Rises (b : Buf) : Op → Prop
  | .setMaxSize n => n < 0 ∨ (0 ≤ b.max ∧ b.max ≤ n)
  | _ => True

theorem snug_memory {b : Buf} (h : Snug b) (op : Op) (hm : op.memory = true) : Same b (b.next op).2 ∧ Snug (b.next op).2 := by
  cases op <;> simp only [Op.memory, reduceCtorEq] at hm
  case reserve n =>
    simp only [Buf.next]
    cases hg : b.grow n with
    | none => exact ⟨⟨rfl, rfl, rfl, rfl, rfl⟩, h⟩
    | some d =>
      obtain ⟨a1, a2, -⟩ := snug_grow h hg
      exact ⟨a1, a2⟩
  case compact =>
    refine ⟨⟨rfl, rfl, rfl, rfl, rfl⟩, ⟨by simp only [Buf.next]; omega, ?_⟩⟩
    have h1 := h.fits
    have h2 := h.limit
    simp only [Buf.next]
    omega

theorem same_next {b c : Buf} (h : Same b c) (hb : Snug b) (hc : Snug c) (op : Op) (hm : op.memory = false) (hr : Rises b op) :
    (c.next op).1 = (b.next op).1 ∧ Same (b.next op).2 (c.next op).2 ∧ Snug (b.next op).2 ∧ Snug (c.next op).2 := by
  cases op <;> simp only [Op.memory, reduceCtorEq] at hm
  case ref => exact ⟨rfl, ⟨h.items, h.max, h.free, h.freed, by simp only [Buf.next, h.refs]⟩, ⟨hb.1, hb.2⟩, ⟨hc.1, hc.2⟩⟩
  case unref =>
    refine ⟨rfl, ?_⟩
    simp only [Buf.next]
    rw [h.refs, h.items]
    split
    · have e := same_front h b.items.length
      have f := snug_front hb b.items.length
      have g := snug_front hc b.items.length
      exact ⟨⟨e.items, e.max, e.free, e.freed, rfl⟩, ⟨f.1, f.2⟩, ⟨g.1, g.2⟩⟩
    · exact ⟨⟨rfl, h.max, h.free, h.freed, rfl⟩, ⟨hb.1, hb.2⟩, ⟨by have := hc.1; rw [h.items] at this; exact this, hc.2⟩⟩
  case setFreeFunc f => exact ⟨rfl, ⟨h.items, h.max, rfl, h.freed, h.refs⟩, ⟨hb.1, hb.2⟩, ⟨hc.1, hc.2⟩⟩
  case maxSize => exact ⟨by simp only [Buf.next, h.max], h, hb, hc⟩
  case setMaxSize n =>
    refine ⟨rfl, ?_⟩
    simp only [Buf.next]
    rw [h.max]
    simp only [Rises] at hr
    have key : ∀ {d : Buf}, Snug d → d.max = b.max → Snug { (if norm n < 0 then d else d.dropFront (d.items.length - n.toNat)) with max := norm n } := by
      intro d hd he
      have h1 := hd.fits
      have h2 := hd.limit
      split
      · exact ⟨h1, .inl ‹_›⟩
      · rename_i hn
        have e : norm n = n := by unfold norm at hn ⊢; split at hn <;> split <;> omega
        refine ⟨(snug_front hd _).fits, .inr ?_⟩
        rw [e] at hn
        simp only [Buf.dropFront, Buf.release, e]
        omega
    split
    · exact ⟨h, hb, hc⟩
    · refine ⟨?_, key hb rfl, key hc h.max⟩
      split
      · exact ⟨h.items, rfl, h.free, h.freed, h.refs⟩
      · have e := same_front h (b.items.length - n.toNat)
        rw [h.items]
        exact ⟨e.items, rfl, e.free, e.freed, e.refs⟩
  case size => exact ⟨by simp only [Buf.next, h.items], h, hb, hc⟩
  case clear =>
    refine ⟨rfl, ?_, snug_front hb _, snug_front hc _⟩
    simp only [Buf.next]
    rw [h.items]
    exact same_front h _
  case canPut n => exact ⟨by simp only [Buf.next, h.items, h.max], h, hb, hc⟩
  case put p =>
    simp only [Buf.next]
    rcases snug_one h hb hc with ⟨e1, e2⟩ | ⟨b', c', e1, e2, e3, e4, e5, e6, e7⟩
    · rw [e1, e2]; exact ⟨rfl, h, hb, hc⟩
    · rw [e1, e2]
      refine ⟨rfl, ⟨by simp only [e3.items], e3.max, e3.free, e3.freed, e3.refs⟩, ⟨?_, e4.limit⟩, ⟨?_, e5.limit⟩⟩
      · simp only [List.length_append, List.length_cons, List.length_nil, e7.items]; omega
      · simp only [List.length_append, List.length_cons, List.length_nil, e3.items, e7.items]; omega
  case putFront p =>
    simp only [Buf.next]
    rcases snug_one h hb hc with ⟨e1, e2⟩ | ⟨b', c', e1, e2, e3, e4, e5, e6, e7⟩
    · rw [e1, e2]; exact ⟨rfl, h, hb, hc⟩
    · rw [e1, e2]
      refine ⟨rfl, ⟨by simp only [e3.items], e3.max, e3.free, e3.freed, e3.refs⟩, ⟨?_, e4.limit⟩, ⟨?_, e5.limit⟩⟩
      · simp only [List.length_cons, e7.items]; omega
      · simp only [List.length_cons, e3.items, e7.items]; omega
  case get =>
    refine ⟨by simp only [Buf.next, h.items], ⟨by simp only [Buf.next, h.items], h.max, h.free, h.freed, h.refs⟩, ⟨?_, hb.limit⟩, ⟨?_, hc.limit⟩⟩
    · have := hb.fits; simp only [Buf.next, List.length_tail]; omega
    · have := hc.fits; simp only [Buf.next, List.length_tail]; omega
  case getLast =>
    refine ⟨by simp only [Buf.next, h.items], ⟨by simp only [Buf.next, h.items], h.max, h.free, h.freed, h.refs⟩, ⟨?_, hb.limit⟩, ⟨?_, hc.limit⟩⟩
    · have := hb.fits; simp only [Buf.next, List.length_dropLast]; omega
    · have := hc.fits; simp only [Buf.next, List.length_dropLast]; omega
  case drop n => exact ⟨by simp only [Buf.next, h.items], same_front h _, snug_front hb _, snug_front hc _⟩
  case dropLast n => exact ⟨by simp only [Buf.next, h.items], same_back h _, snug_back hb _, snug_back hc _⟩
  case dataAt i => exact ⟨by simp only [Buf.next, h.items], h, hb, hc⟩
  case flatten => exact ⟨by simp only [Buf.next, h.items], ⟨h.items, h.max, h.free, h.freed, h.refs⟩, ⟨hb.1, hb.2⟩, ⟨hc.1, hc.2⟩⟩

/-- The limit after a call, only that matters for the next calls. -/
theorem rises_next {b : Buf} {op : Op} {ops : List Op} {m : Int} (hm : b.max = norm m) (hn : NeverLowered m (op :: ops)) :
    Rises b op ∧ ∃ m', (b.next op).2.max = norm m' ∧ NeverLowered m' ops := by
  have grow : ∀ {d : Buf} {n : Int}, b.grow n = some d → d.max = b.max := by
    intro d n hg
    unfold Buf.grow at hg
    split at hg
    · injection hg with hg; subst hg; rfl
    · split at hg
      · cases hg
      · injection hg with hg; subst hg; rfl
  cases op
  case setMaxSize n =>
    refine ⟨?_, n, ?_, hn.2⟩
    · have := hn.1
      simp only [Rises]
      rw [hm]
      unfold norm
      split <;> omega
    · simp only [Buf.next]
      split
      · exact Eq.symm ‹_›
      · rfl
  case put p =>
    refine ⟨trivial, m, ?_, hn⟩
    simp only [Buf.next]
    cases hg : b.grow (b.items.length + 1) with
    | none => exact hm
    | some d => exact (grow hg).trans hm
  case putFront p =>
    refine ⟨trivial, m, ?_, hn⟩
    simp only [Buf.next]
    cases hg : b.grow (b.items.length + 1) with
    | none => exact hm
    | some d => exact (grow hg).trans hm
  case reserve n =>
    refine ⟨trivial, m, ?_, hn⟩
    simp only [Buf.next]
    cases hg : b.grow n with
    | none => exact hm
    | some d => exact (grow hg).trans hm
  case unref => refine ⟨trivial, m, ?_, hn⟩; simp only [Buf.next]; split <;> exact hm
  case dropLast n => refine ⟨trivial, m, ?_, hn⟩; simp only [Buf.next, Buf.dropBack]; split <;> exact hm
  all_goals exact ⟨trivial, m, hm, hn⟩

theorem same_run : ∀ (k : Nat) (ops ops' : List Op), ops.length + ops'.length ≤ k → ∀ (b c : Buf) (m m' : Int), Same b c → Snug b → Snug c →
    b.max = norm m → c.max = norm m' → NeverLowered m ops → NeverLowered m' ops' → (ops.filter fun o => !o.memory) = (ops'.filter fun o => !o.memory) →
    others ops (b.outs ops) = others ops' (c.outs ops') ∧ Same (b.final ops) (c.final ops') := by
  intro k
  induction k with
  | zero =>
    intro ops ops' hk b c m m' h _ _ _ _ _ _ _
    have h1 : ops = [] := List.eq_nil_of_length_eq_zero (by omega)
    have h2 : ops' = [] := List.eq_nil_of_length_eq_zero (by omega)
    subst h1 h2
    exact ⟨rfl, h⟩
  | succ k ih =>
    intro ops ops' hk b c m m' h hb hc hm hm' hn hn' hf
    cases ops with
    | cons op rest =>
      by_cases ho : op.memory = true
      · obtain ⟨s1, s2⟩ := snug_memory hb op ho
        obtain ⟨-, m1, q1, q2⟩ := rises_next hm hn
        have hs : Same (b.next op).2 c := ⟨by rw [h.items, s1.items], by rw [h.max, s1.max], by rw [h.free, s1.free], by rw [h.freed, s1.freed], by rw [h.refs, s1.refs]⟩
        have := ih rest ops' (by simp only [List.length_cons] at hk; omega) _ c m1 m' hs s2 hc q1 hm' q2 hn' (by simpa [ho] using hf)
        refine ⟨?_, this.2⟩
        rw [← this.1]
        simp [others, Buf.outs, ho]
      · cases ops' with
        | nil => simp [ho] at hf
        | cons op' rest' =>
          by_cases ho' : op'.memory = true
          · obtain ⟨s1, s2⟩ := snug_memory hc op' ho'
            obtain ⟨-, m1, q1, q2⟩ := rises_next hm' hn'
            have hs : Same b (c.next op').2 := ⟨by rw [s1.items, h.items], by rw [s1.max, h.max], by rw [s1.free, h.free], by rw [s1.freed, h.freed], by rw [s1.refs, h.refs]⟩
            have := ih (op :: rest) rest' (by simp only [List.length_cons] at hk ⊢; omega) b _ m m1 hs hb s2 hm q1 hn q2 (by simpa [ho'] using hf)
            refine ⟨?_, this.2⟩
            rw [this.1]
            simp [others, Buf.outs, ho']
          · have hf' : op = op' ∧ (rest.filter fun o => !o.memory) = (rest'.filter fun o => !o.memory) := by simpa [ho, ho'] using hf
            obtain ⟨rfl, hf'⟩ := hf'
            obtain ⟨r1, m1, q1, q2⟩ := rises_next hm hn
            obtain ⟨r2, m2, p1, p2⟩ := rises_next hm' hn'
            obtain ⟨e1, e2, e3, e4⟩ := same_next h hb hc op (by simpa using ho) r1
            have := ih rest rest' (by simp only [List.length_cons] at hk; omega) _ _ m1 m2 e2 e3 e4 q1 p1 q2 p2 hf'
            refine ⟨?_, this.2⟩
            have t := this.1
            simp only [others] at t
            simp [others, Buf.outs, ho, e1, t]
    | nil =>
      cases ops' with
      | nil => exact ⟨rfl, h⟩
      | cons op' rest' =>
        by_cases ho' : op'.memory = true
        · obtain ⟨s1, s2⟩ := snug_memory hc op' ho'
          obtain ⟨-, m1, q1, q2⟩ := rises_next hm' hn'
          have hs : Same b (c.next op').2 := ⟨by rw [s1.items, h.items], by rw [s1.max, h.max], by rw [s1.free, h.free], by rw [s1.freed, h.freed], by rw [s1.refs, h.refs]⟩
          have := ih [] rest' (by simp only [List.length_cons, List.length_nil] at hk ⊢; omega) b _ m m1 hs hb s2 hm q1 trivial q2 (by simpa [ho'] using hf)
          refine ⟨?_, this.2⟩
          rw [this.1]
          simp [others, Buf.outs, ho']
        · simp [ho'] at hf

end Verif.Ring
