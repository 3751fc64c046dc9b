import Verif.Spec.RingMirror

/-!
# Proofs about rings seen from the other end
-/

namespace Verif.Ring
open Spec

/-- `c` is `b` seen from the other end. -/
structure Mirror (b c : Buf) : Prop where
  items : c.items = b.items.reverse
  max : c.max = b.max
  free : c.free = b.free
  freed : c.freed.Perm b.freed
  refs : c.refs = b.refs
  cap : c.cap = b.cap
  short : c.short = b.short

theorem Mirror.length {b c : Buf} (h : Mirror b c) : c.items.length = b.items.length := by rw [h.items, List.length_reverse]

theorem mirror_more {b c : Buf} (h : Mirror b c) (n : Int) : c.more n = b.more n := by
  unfold Buf.more; rw [h.max, h.cap]

theorem mirror_small {b c : Buf} (h : Mirror b c) (n : Int) : c.Small n ↔ b.Small n := by
  unfold Buf.Small; rw [mirror_more h, h.max, h.cap]

theorem mirror_grow {b c : Buf} (h : Mirror b c) (n : Int) :
    (b.grow n = none ∧ c.grow n = none) ∨ ∃ b' c', b.grow n = some b' ∧ c.grow n = some c' ∧ Mirror b' c' := by
  unfold Buf.grow
  rw [h.cap, h.max, mirror_more h]
  split
  · exact .inr ⟨b, c, rfl, rfl, h⟩
  · split
    · exact .inl ⟨rfl, rfl⟩
    · exact .inr ⟨_, _, rfl, rfl, h.items, rfl, h.free, h.freed, h.refs, rfl, rfl⟩

theorem mirror_release {b c : Buf} (h : Mirror b c) {ps rest qs rest' : List Ptr} (hp : qs.Perm ps) (hr : rest' = rest.reverse) :
    Mirror (b.release ps rest) (c.release qs rest') := by
  refine ⟨hr, h.max, h.free, ?_, h.refs, h.cap, h.short⟩
  unfold Buf.release
  dsimp only
  rw [h.free]
  refine h.freed.append ?_
  cases b.free with
  | none => exact .rfl
  | some f => exact hp.map _

theorem mirror_all {b c : Buf} (h : Mirror b c) {n : Nat} (hn : b.items.length ≤ n) : Mirror (b.dropFront n) (c.dropFront n) := by
  unfold Buf.dropFront
  have hc : c.items.length ≤ n := by rw [h.length]; exact hn
  rw [List.take_of_length_le hn, List.take_of_length_le hc, List.drop_eq_nil_of_le hn, List.drop_eq_nil_of_le hc]
  refine mirror_release h ?_ rfl
  rw [h.items]
  exact List.reverse_perm _

theorem mirror_front {b c : Buf} (h : Mirror b c) (n : Nat) : Mirror (b.dropFront n) (c.dropBack n) := by
  unfold Buf.dropBack
  split
  · rename_i hn
    exact mirror_all h (by rw [h.length] at hn; exact hn)
  · rename_i hn
    rw [h.length] at hn
    unfold Buf.dropFront
    rw [h.length, h.items, List.drop_reverse, List.take_reverse, List.reverse_reverse]
    have e : b.items.length - (b.items.length - n) = n := by omega
    rw [e]
    exact mirror_release h .rfl rfl

theorem mirror_back {b c : Buf} (h : Mirror b c) (n : Nat) : Mirror (b.dropBack n) (c.dropFront n) := by
  unfold Buf.dropBack
  split
  · rename_i hn
    exact mirror_all h hn
  · unfold Buf.dropFront
    rw [h.items, List.take_reverse, List.drop_reverse]
    exact mirror_release h .rfl rfl

theorem mirror_pre {b c : Buf} (h : Mirror b c) (op : Op) (hp : b.Pre op) : c.Pre (b.mirror op) := by
  have hr : 0 < c.refs := by rw [h.refs]; exact hp.1
  refine ⟨hr, ?_⟩
  cases op
  case put p => exact ⟨by rw [h.length]; exact (mirror_small h _).2 hp.2.1, by rw [h.short]; exact hp.2.2⟩
  case putFront p => exact ⟨by rw [h.length]; exact (mirror_small h _).2 hp.2.1, by rw [h.short]; exact hp.2.2⟩
  case reserve n => exact (mirror_small h _).2 hp.2
  case canPut n =>
    have := hp.2
    simp only [Buf.mirror]
    rw [h.max, h.length]
    exact this
  all_goals trivial

theorem mirror_next {b c : Buf} (h : Mirror b c) (op : Op) (hc : match op with | .setMaxSize n => n < 0 ∨ (b.items.length : Int) ≤ n | _ => True) :
    (c.next (b.mirror op)).1 = (b.next op).1.mirror ∧ Mirror (b.next op).2 (c.next (b.mirror op)).2 := by
  cases op
  case ref => exact ⟨rfl, h.items, h.max, h.free, h.freed, by simp only [Buf.next, Buf.mirror, h.refs], h.cap, h.short⟩
  case unref =>
    refine ⟨rfl, ?_⟩
    simp only [Buf.next, Buf.mirror]
    rw [h.refs]
    split
    · have e := mirror_all h (n := b.items.length) (Nat.le_refl _)
      rw [h.length]
      exact ⟨e.items, e.max, e.free, e.freed, rfl, e.cap, e.short⟩
    · exact ⟨h.items, h.max, h.free, h.freed, rfl, h.cap, h.short⟩
  case setFreeFunc f => exact ⟨rfl, h.items, h.max, rfl, h.freed, h.refs, h.cap, h.short⟩
  case maxSize => exact ⟨by simp only [Buf.next, Buf.mirror, Out.mirror, h.max], h⟩
  case setMaxSize n =>
    refine ⟨rfl, ?_⟩
    simp only [Buf.next, Buf.mirror]
    rw [h.max]
    split
    · exact h
    · have hk : ∀ d : Buf, d.items.length = b.items.length → (if norm n < 0 then d else d.dropFront (d.items.length - n.toNat)) =
          (if norm n < 0 then d else d.dropFront 0) := by
        intro d hd
        split
        · rfl
        · rename_i hn
          have : d.items.length - n.toNat = 0 := by
            unfold norm at hn
            split at hn <;> dsimp only at hc <;> omega
          rw [this]
      rw [hk b rfl, hk c h.length]
      split
      · exact ⟨h.items, rfl, h.free, h.freed, h.refs, h.cap, h.short⟩
      · have e : Mirror (b.dropFront 0) (c.dropFront 0) := by
          unfold Buf.dropFront
          simp only [List.take_zero, List.drop_zero]
          exact mirror_release h .rfl h.items
        exact ⟨e.items, rfl, e.free, e.freed, e.refs, e.cap, e.short⟩
  case size => exact ⟨by simp only [Buf.next, Buf.mirror, Out.mirror, h.length], h⟩
  case clear =>
    refine ⟨rfl, ?_⟩
    simp only [Buf.next, Buf.mirror]
    rw [h.length]
    exact mirror_all h (Nat.le_refl _)
  case compact => exact ⟨rfl, h.items, h.max, h.free, h.freed, h.refs, by simp only [Buf.next, Buf.mirror, h.length], rfl⟩
  case reserve n =>
    simp only [Buf.next, Buf.mirror]
    rcases mirror_grow h n with ⟨e1, e2⟩ | ⟨b', c', e1, e2, e⟩
    · rw [e1, e2]; exact ⟨rfl, h⟩
    · rw [e1, e2]; exact ⟨rfl, e⟩
  case canPut n => exact ⟨by simp only [Buf.next, Buf.mirror, Out.mirror, h.max, h.length], h⟩
  case put p =>
    simp only [Buf.next, Buf.mirror]
    rw [h.length]
    rcases mirror_grow h (b.items.length + 1) with ⟨e1, e2⟩ | ⟨b', c', e1, e2, e⟩
    · rw [e1, e2]; exact ⟨rfl, h⟩
    · rw [e1, e2]
      refine ⟨rfl, ?_, e.max, e.free, e.freed, e.refs, e.cap, e.short⟩
      simp only [e.items, List.reverse_append, List.reverse_cons, List.reverse_nil, List.nil_append, List.singleton_append]
  case putFront p =>
    simp only [Buf.next, Buf.mirror]
    rw [h.length]
    rcases mirror_grow h (b.items.length + 1) with ⟨e1, e2⟩ | ⟨b', c', e1, e2, e⟩
    · rw [e1, e2]; exact ⟨rfl, h⟩
    · rw [e1, e2]
      refine ⟨rfl, ?_, e.max, e.free, e.freed, e.refs, e.cap, e.short⟩
      simp only [e.items, List.reverse_cons]
  case get =>
    refine ⟨?_, ?_, h.max, h.free, h.freed, h.refs, h.cap, h.short⟩
    · simp only [Buf.next, Buf.mirror, Out.mirror, h.items, List.getLast?_reverse]
    · simp only [Buf.next, Buf.mirror, h.items, List.dropLast_reverse]
  case getLast =>
    refine ⟨?_, ?_, h.max, h.free, h.freed, h.refs, h.cap, h.short⟩
    · simp only [Buf.next, Buf.mirror, Out.mirror, h.items, List.head?_reverse]
    · simp only [Buf.next, Buf.mirror, h.items, List.tail_reverse]
  case drop n =>
    exact ⟨by simp only [Buf.next, Buf.mirror, Out.mirror, h.length], mirror_front h _⟩
  case dropLast n =>
    exact ⟨by simp only [Buf.next, Buf.mirror, Out.mirror, h.length], mirror_back h _⟩
  case dataAt i =>
    refine ⟨?_, h⟩
    simp only [Buf.next, Buf.mirror, Out.mirror]
    congr 1
    split
    · rename_i hi
      rw [if_neg (by omega), if_neg (by omega), h.items, List.getElem?_reverse (by omega)]
      congr 2
      omega
    · rename_i hi
      split
      · rfl
      · rw [List.getElem?_eq_none (by rw [h.length]; omega), List.getElem?_eq_none (by omega)]
  case flatten =>
    refine ⟨?_, h.items, h.max, h.free, h.freed, h.refs, h.cap, ?_⟩
    · simp only [Buf.next, Buf.mirror, Out.mirror, h.length]
      congr 1
      rw [h.items]
      by_cases e : b.items = []
      · simp [e]
      · simp [e]
    · simp only [Buf.next, Buf.mirror, h.short, h.length, h.cap]

theorem mirror_run : ∀ (ops : List Op) (b c : Buf), Mirror b c → b.Allowed ops → b.NoCut ops →
    c.Allowed (b.mirrors ops) ∧ c.outs (b.mirrors ops) = (b.outs ops).map Out.mirror ∧ Mirror (b.final ops) (c.final (b.mirrors ops))
  | [], _, _, h, _, _ => ⟨trivial, rfl, h⟩
  | op :: ops, b, c, h, ha, hc => by
    obtain ⟨h1, h2⟩ := mirror_next h op hc.1
    obtain ⟨i1, i2, i3⟩ := mirror_run ops _ _ h2 ha.2 hc.2
    refine ⟨⟨mirror_pre h op ha.1, i1⟩, ?_, i3⟩
    simp only [Buf.mirrors, Buf.outs, List.map_cons]
    rw [h1, i2]

end Verif.Ring
