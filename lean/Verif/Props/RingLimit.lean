import Verif.Props.Ring
import Verif.Spec.RingLimit

/-!
# The limit of a ring can't be noticed until it's reached: C161
-/

namespace Verif.Ring
open Verif.C Spec

/-- The same elements -/
structure Alike (d e : Deque) : Prop where
  items : d.items = e.items
  free : d.free = e.free
  freed : d.freed = e.freed
  refs : d.refs = e.refs

/-- The limit of `e` isn't less than that of `d`, which is observed. -/
def Wider (d e : Deque) : Prop := e.max < 0 ∨ (0 ≤ d.max ∧ d.max ≤ e.max ∧ d.tight = true ∧ d.items.length ≤ d.max)

theorem release_alike {d e : Deque} (h : Alike d e) (ps : List Ptr) : d.release ps = e.release ps := by
  unfold Deque.release
  rw [h.free, h.freed]

theorem alike_step {d e d' e' : Deque} {op : Op} {o o' : Out} (h : Alike d e) (w : Wider d e) (hd : Step d op o d') (he : Step e op o' e') (hk : ∀ n, op ≠ .setMaxSize n)
    (hr : ∀ p, op = .put p ∨ op = .putFront p → o ≠ .bool false) : Alike d' e' ∧ Wider d' e' ∧ (op.asks = false → o = o') := by
  have front : ∀ n, Alike (d.dropFront n) (e.dropFront n) ∧ Wider (d.dropFront n) (e.dropFront n) := fun n =>
    ⟨⟨by simp [Deque.dropFront, h.items], h.free, by simp [Deque.dropFront, h.items, release_alike h], h.refs⟩,
      w.imp id fun ⟨a, b, c, k⟩ => ⟨a, b, c, by simp only [Deque.dropFront, List.length_drop]; omega⟩⟩
  have grown : ∀ l : List Ptr, l.length = d.items.length + 1 → (d.tight = true → ¬ d.full) → Wider { d with items := l } { e with items := l } := by
    intro l hl ht
    refine w.imp id fun ⟨a, b, c, k⟩ => ⟨a, b, c, ?_⟩
    have := ht c
    unfold Deque.full at this
    simp only [hl]
    omega
  have notFull : (d.tight = true → ¬ d.full) → ¬ e.full := by
    intro ht hf
    rcases w with w | ⟨a, b, c, k⟩
    · have := hf.1; omega
    · have h1 := ht c
      unfold Deque.full at h1 hf
      rw [← h.items] at hf
      omega
  cases op with
  | ref => obtain ⟨rfl, rfl⟩ := hd; obtain ⟨rfl, rfl⟩ := he; exact ⟨⟨h.items, h.free, h.freed, by simp [h.refs]⟩, w, fun _ => rfl⟩
  | unref =>
    obtain ⟨rfl, hd⟩ := hd; obtain ⟨rfl, he⟩ := he
    rw [← h.refs, ← h.items] at he
    split at hd
    · next hrefs =>
      rw [if_pos hrefs] at he
      subst hd he
      obtain ⟨f1, f2⟩ := front d.items.length
      exact ⟨⟨f1.items, f1.free, f1.freed, rfl⟩, f2, fun _ => rfl⟩
    · next hrefs =>
      rw [if_neg hrefs] at he
      subst hd he
      exact ⟨⟨rfl, h.free, h.freed, rfl⟩, w, fun _ => rfl⟩
  | setFreeFunc f => obtain ⟨rfl, rfl⟩ := hd; obtain ⟨rfl, rfl⟩ := he; exact ⟨⟨h.items, rfl, h.freed, h.refs⟩, w, fun _ => rfl⟩
  | maxSize => obtain ⟨rfl, rfl⟩ := hd; obtain ⟨rfl, rfl⟩ := he; exact ⟨h, w, by simp [Op.asks]⟩
  | setMaxSize n => exact absurd rfl (hk n)
  | size => obtain ⟨rfl, rfl⟩ := hd; obtain ⟨rfl, rfl⟩ := he; exact ⟨h, w, fun _ => by rw [h.items]⟩
  | clear =>
    obtain ⟨rfl, rfl⟩ := hd; obtain ⟨rfl, rfl⟩ := he
    rw [← h.items]
    exact ⟨(front _).1, (front _).2, fun _ => rfl⟩
  | compact =>
    obtain ⟨rfl, rfl⟩ := hd; obtain ⟨rfl, rfl⟩ := he
    refine ⟨⟨h.items, h.free, h.freed, h.refs⟩, w.imp id fun ⟨a, b, c, k⟩ => ⟨a, b, ?_, k⟩, fun _ => rfl⟩
    simp only [decide_eq_true_eq]
    exact .inr k
  | reserve n =>
    obtain ⟨b, -, rfl, -⟩ := hd; obtain ⟨b', -, rfl, -⟩ := he
    exact ⟨h, w, by simp [Op.asks]⟩
  | canPut n => obtain ⟨rfl, rfl⟩ := hd; obtain ⟨rfl, rfl⟩ := he; exact ⟨h, w, by simp [Op.asks]⟩
  | put p =>
    rcases hd with ⟨rfl, rfl, ht⟩ | ⟨rfl, -, -⟩
    · rcases he with ⟨rfl, rfl, -⟩ | ⟨-, -, hf⟩
      · have g := grown (d.items ++ [p]) (by simp) ht
        rw [← h.items]
        exact ⟨⟨rfl, h.free, h.freed, h.refs⟩, g, fun _ => rfl⟩
      · exact absurd hf (notFull ht)
    · exact absurd rfl (hr p (.inl rfl))
  | putFront p =>
    rcases hd with ⟨rfl, rfl, ht⟩ | ⟨rfl, -, -⟩
    · rcases he with ⟨rfl, rfl, -⟩ | ⟨-, -, hf⟩
      · have g := grown (p :: d.items) (by simp) ht
        rw [← h.items]
        exact ⟨⟨rfl, h.free, h.freed, h.refs⟩, g, fun _ => rfl⟩
      · exact absurd hf (notFull ht)
    · exact absurd rfl (hr p (.inr rfl))
  | get =>
    obtain ⟨rfl, rfl⟩ := hd; obtain ⟨rfl, rfl⟩ := he
    exact ⟨⟨by simp [h.items], h.free, h.freed, h.refs⟩, w.imp id fun ⟨a, b, c, k⟩ => ⟨a, b, c, by simp only [List.length_tail]; omega⟩, fun _ => by rw [h.items]⟩
  | getLast =>
    obtain ⟨rfl, rfl⟩ := hd; obtain ⟨rfl, rfl⟩ := he
    exact ⟨⟨by simp [h.items], h.free, h.freed, h.refs⟩, w.imp id fun ⟨a, b, c, k⟩ => ⟨a, b, c, by simp only [List.length_dropLast]; omega⟩, fun _ => by rw [h.items]⟩
  | drop n =>
    obtain ⟨rfl, rfl⟩ := hd; obtain ⟨rfl, rfl⟩ := he
    exact ⟨(front _).1, (front _).2, fun _ => by rw [h.items]⟩
  | dropLast n =>
    obtain ⟨rfl, rfl⟩ := hd; obtain ⟨rfl, rfl⟩ := he
    refine ⟨?_, ?_, fun _ => by rw [h.items]⟩
    · unfold Deque.dropBack
      rw [← h.items]
      split
      · exact (front _).1
      · exact ⟨rfl, h.free, by simp [release_alike h], h.refs⟩
    · unfold Deque.dropBack
      rw [← h.items]
      split
      · exact (front _).2
      · exact w.imp id fun ⟨a, b, c, k⟩ => ⟨a, b, c, by simp only [List.length_take]; omega⟩
  | dataAt i => obtain ⟨rfl, rfl⟩ := hd; obtain ⟨rfl, rfl⟩ := he; exact ⟨h, w, fun _ => by rw [h.items]⟩
  | flatten =>
    obtain ⟨rfl, rfl⟩ := hd; obtain ⟨rfl, rfl⟩ := he
    exact ⟨⟨h.items, h.free, h.freed, h.refs⟩, w, fun _ => by rw [h.items]⟩

theorem alike_run {d : Deque} {ops : List Op} {os : List Out} {d' : Deque} (hd : Run d ops os d') : ∀ {e : Deque} {os' : List Out} {e' : Deque}, Run e ops os' e' → Alike d e →
    Wider d e → LimitKept ops → NothingRejected ops os → notAsked ops os = notAsked ops os' ∧ d'.freed = e'.freed := by
  induction hd with
  | nil => intro e os' e' he h _ _ _; cases he; exact ⟨rfl, h.freed⟩
  | @cons d op o d1 ops os d2 hs _ ih =>
    intro e os' e' he h w hk hr
    cases he with
    | @cons _ _ o' e1 _ os1 _ hs' he =>
      obtain ⟨h1, w1, ho⟩ := alike_step h w hs hs' (fun n e => hk n (by rw [e]; exact List.mem_cons_self)) (by
        rintro p (rfl | rfl) rfl
        · exact (hr p).1 (by simp)
        · exact (hr p).2 (by simp))
      obtain ⟨g1, g2⟩ := ih he h1 w1 (fun n hm => hk n (List.mem_cons_of_mem _ hm))
        (fun p => ⟨fun hm => (hr p).1 (List.mem_cons_of_mem _ hm), fun hm => (hr p).2 (List.mem_cons_of_mem _ hm)⟩)
      refine ⟨?_, g2⟩
      unfold notAsked at g1 ⊢
      rw [List.zip_cons_cons, List.zip_cons_cons, List.filter_cons, List.filter_cons, g1]
      cases ha : op.asks with
      | true => rfl
      | false => rw [ho ha]

/-- **C161** The limit of a ring can't be noticed until it's reached: as long as nothing is rejected by a ring, no other ring with a higher limit (or with none) rejects anything
either, no matter how much has been reserved for each of them. Everything else returns the same, and the same elements are released in the same order.
That's for the histories of C17, if the limit isn't changed, and no more is reserved in the beginning than the lower limit allows (if both have one). -/
theorem C161_limit_partial (reserved reserved' max max' : Int) (free : Option Nat) (h0 : 0 ≤ reserved) (h1 : reserved ≤ 2 ^ 29) (h0' : 0 ≤ reserved') (h1' : reserved' ≤ 2 ^ 29)
    (hl : max' < 0 ∨ (reserved ≤ max ∧ max ≤ max')) (ops : List Op) (ha : Allowed (Deque.new reserved max free) ops) (ha' : Allowed (Deque.new reserved' max' free) ops)
    (hk : LimitKept ops) :
    ∃ r r' os os' s s', newFull reserved max free = .ok r ∧ newFull reserved' max' free = .ok r' ∧ run r ops = .ok (os, s) ∧ run r' ops = .ok (os', s') ∧
      (NothingRejected ops os → notAsked ops os = notAsked ops os' ∧ s.freed = s'.freed) := by
  obtain ⟨r, os, s, d, e1, e2, e3, e4⟩ := C17_ring_is_a_deque_partial reserved max free h0 h1 ops ha
  obtain ⟨r', os', s', d', f1, f2, f3, f4⟩ := C17_ring_is_a_deque_partial reserved' max' free h0' h1' ops ha'
  refine ⟨r, r', os, os', s, s', e1, f1, e2, f2, fun hr => ?_⟩
  obtain ⟨g1, g2⟩ := alike_run e3 f3 ⟨rfl, rfl, rfl, rfl⟩ (by
    unfold Wider
    simp only [Deque.new, norm, List.length_nil, decide_eq_true_eq]
    rcases hl with hl | ⟨a, b⟩
    · left
      rw [if_pos hl]
      omega
    · right
      rw [if_neg (by omega), if_neg (by omega)]
      omega) hk hr
  exact ⟨g1, by rw [e4, f4, g2]⟩

/-- **C161** isn't true if more has been reserved than the lower limit allows: then the ring with the higher limit may be the one which is full. -/
theorem C161_refuted : history 3 1 none [.put 1, .put 2, .put 3] = .ok [.bool true, .bool true, .bool true] ∧
    history 0 2 none [.put 1, .put 2, .put 3] = .ok [.bool true, .bool true, .bool false] :=
  ⟨by decide +kernel, by decide +kernel⟩

/-- The hypotheses are met (for those about the calls see C17), and the limit matters. -/
example : LimitKept [.put 1, .putFront 2, .canPut 1, .get, .put 3] ∧ NothingRejected [.put 1, .putFront 2, .canPut 1, .get, .put 3] [.bool true, .bool true, .bool false, .ptr 2, .bool true] ∧
    history 1 2 none [.put 1, .putFront 2, .canPut 1, .get, .put 3] = .ok [.bool true, .bool true, .bool false, .ptr 2, .bool true] ∧
    history 0 (-1) none [.put 1, .putFront 2, .canPut 1, .get, .put 3] = .ok [.bool true, .bool true, .bool true, .ptr 2, .bool true] :=
  ⟨by simp [LimitKept], by simp [NothingRejected], by decide +kernel, by decide +kernel⟩

end Verif.Ring
