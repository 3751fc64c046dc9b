import Verif.Props.RingEach

/-!
# Only the elements of a ring matter: C171
-/

namespace Verif.Ring
open Verif.C Spec

/-- Two rings which contain the same elements, and have the same limit, the same free function and the same number of references -/
structure SameRing (b c : Buf) : Prop where
  items : b.items = c.items
  max : b.max = c.max
  free : b.free = c.free
  refs : b.refs = c.refs

/-- ... if these elements have been released before -/
def earlier (g : List (Nat × Ptr)) (b : Buf) : Buf := { b with freed := g ++ b.freed }

theorem earlier_grow (g : List (Nat × Ptr)) (b : Buf) (n : Int) : (earlier g b).grow n = (b.grow n).map (earlier g) := by
  by_cases c1 : n ≤ b.cap
  · simp only [Buf.grow, earlier, c1, if_true]; rfl
  · by_cases c2 : 0 ≤ b.max ∧ b.max ≤ b.cap
    · simp only [Buf.grow, earlier, c1, c2, and_self, if_true, if_false]; rfl
    · simp only [Buf.grow, earlier, c1, c2, if_false]; rfl

theorem earlier_front (g : List (Nat × Ptr)) (b : Buf) (n : Nat) : (earlier g b).dropFront n = earlier g (b.dropFront n) := by
  simp only [Buf.dropFront, Buf.release, earlier, List.append_assoc]

theorem earlier_back (g : List (Nat × Ptr)) (b : Buf) (n : Nat) : (earlier g b).dropBack n = earlier g (b.dropBack n) := by
  unfold Buf.dropBack
  rw [earlier_front]
  simp only [show (earlier g b).items = b.items from rfl]
  split
  · rfl
  · simp only [Buf.release, earlier, List.append_assoc]

theorem earlier_next (g : List (Nat × Ptr)) (b : Buf) (op : Op) : (earlier g b).next op = ((b.next op).1, earlier g (b.next op).2) := by
  cases op <;> simp only [Buf.next, earlier_front, earlier_back, earlier_grow, show (earlier g b).items = b.items from rfl, show (earlier g b).max = b.max from rfl]
  case unref =>
    simp only [show (earlier g b).refs = b.refs from rfl]
    split <;> rfl
  case setMaxSize n =>
    split
    · rfl
    · split <;> rfl
  case reserve n => cases b.grow n <;> rfl
  case put p => cases b.grow (b.items.length + 1) <;> rfl
  case putFront p => cases b.grow (b.items.length + 1) <;> rfl
  all_goals rfl

theorem earlier_run (g : List (Nat × Ptr)) (ops : List Op) : ∀ b : Buf, (earlier g b).outs ops = b.outs ops ∧ (earlier g b).final ops = earlier g (b.final ops) := by
  induction ops with
  | nil => intro b; exact ⟨rfl, rfl⟩
  | cons op t ih =>
    intro b
    simp only [Buf.outs, Buf.final, earlier_next]
    exact ⟨by rw [(ih _).1], (ih _).2⟩

/-- **C171** If two rings contain the same elements, and have the same limit, the same free function and the same number of references, then whatever has been done to them before,
all further calls return the same (except for reserve) and the same elements are released in the same order. That's for the histories of C17, if no more is reserved in the beginning
than allowed by the limit, and the limit isn't lowered. -/
theorem C171_elements_partial (reserved reserved' max max' : Int) (free free' : Option Nat) (h0 : 0 ≤ reserved) (h1 : reserved ≤ 2 ^ 30) (h0' : 0 ≤ reserved')
    (h1' : reserved' ≤ 2 ^ 30) (hl : max < 0 ∨ reserved ≤ max) (hl' : max' < 0 ∨ reserved' ≤ max') (ops1 ops2 ops : List Op)
    (ha : (Buf.new reserved max free).Allowed (ops1 ++ ops)) (ha' : (Buf.new reserved' max' free').Allowed (ops2 ++ ops))
    (hn : NeverLowered max (ops1 ++ ops)) (hn' : NeverLowered max' (ops2 ++ ops))
    (hs : SameRing ((Buf.new reserved max free).final ops1) ((Buf.new reserved' max' free').final ops2)) :
    ∃ r r' s s' t t' os1 os2 os os' released, newFull reserved max free = .ok r ∧ newFull reserved' max' free' = .ok r' ∧
      run r ops1 = .ok (os1, s) ∧ run r' ops2 = .ok (os2, s') ∧ run r (ops1 ++ ops) = .ok (os1 ++ os, t) ∧ run r' (ops2 ++ ops) = .ok (os2 ++ os', t') ∧
      others ops os = others ops os' ∧ t.freed = s.freed ++ released ∧ t'.freed = s'.freed ++ released := by
  obtain ⟨r, s, e1, e2, e3⟩ := C17_exact_partial reserved max free h0 h1 ops1 ((buf_allowed_append _ _ _).1 ha).1
  obtain ⟨r', s', f1, f2, f3⟩ := C17_exact_partial reserved' max' free' h0' h1' ops2 ((buf_allowed_append _ _ _).1 ha').1
  obtain ⟨q, t, p1, p2, p3⟩ := C17_exact_partial reserved max free h0 h1 _ ha
  obtain ⟨q', t', k1, k2, k3⟩ := C17_exact_partial reserved' max' free' h0' h1' _ ha'
  rw [e1] at p1
  rw [f1] at k1
  cases p1
  cases k1
  rw [(outs_append _ _ _).1] at p2 k2
  rw [(outs_append _ _ _).2] at p3 k3
  obtain ⟨l1, m, l2, l3⟩ := limit_run ops1 ops (Buf.new reserved max free) max rfl hn
  obtain ⟨l1', m', l2', l3'⟩ := limit_run ops2 ops (Buf.new reserved' max' free') max' rfl hn'
  have s1 := snug_run ops1 _ max (snug_new reserved max free h0 hl) rfl l1
  have s2 := snug_run ops2 _ max' (snug_new reserved' max' free' h0' hl') rfl l1'
  generalize (Buf.new reserved max free).final ops1 = b at *
  generalize (Buf.new reserved' max' free').final ops2 = c at *
  obtain ⟨g1, g2⟩ := same_run _ ops ops (Nat.le_refl _) { b with freed := [] } { c with freed := [] } m m' ⟨hs.items.symm, hs.max.symm, hs.free.symm, rfl, hs.refs.symm⟩
    ⟨s1.fits, s1.limit⟩ ⟨s2.fits, s2.limit⟩ l2 l2' l3 l3' rfl
  have eb : earlier b.freed { b with freed := [] } = b := by simp [earlier]
  have ec : earlier c.freed { c with freed := [] } = c := by simp [earlier]
  obtain ⟨u1, u2⟩ := earlier_run b.freed ops { b with freed := [] }
  obtain ⟨w1, w2⟩ := earlier_run c.freed ops { c with freed := [] }
  rw [eb] at u1 u2
  rw [ec] at w1 w2
  refine ⟨r, r', s, s', t, t', _, _, _, _, ((({ b with freed := [] } : Buf).final ops).freed), e1, f1, e2, f2, p2, k2, ?_, ?_, ?_⟩
  · rw [u1, w1]
    exact g1
  · rw [p3, u2, e3]
    rfl
  · rw [k3, w2, f3]
    simp only [earlier]
    rw [g2.freed]

/-- **C171** isn't true if more has been reserved than allowed by the limit: that depends on how much memory there is. -/
theorem C171_refuted : SameRing ((Buf.new 3 2 none).final [.put 1, .put 2]) ((Buf.new 0 2 none).final [.put 1, .put 2]) ∧
    history 3 2 none [.put 1, .put 2, .put 3] = .ok [.bool true, .bool true, .bool true] ∧ history 0 2 none [.put 1, .put 2, .put 3] = .ok [.bool true, .bool true, .bool false] :=
  ⟨⟨by decide +kernel, by decide +kernel, by decide +kernel, by decide +kernel⟩, by decide +kernel, by decide +kernel⟩

/-- The conditions are met by two rings whose elements have been added in different ways. -/
example : (Buf.new 2 3 (some 7)).Allowed ([.put 1, .put 2, .drop 1, .put 3] ++ [.get, .unref]) ∧ (Buf.new 0 3 (some 7)).Allowed ([.put 3, .putFront 2] ++ [.get, .unref]) ∧
    NeverLowered 3 ([.put 1, .put 2, .drop 1, .put 3] ++ [.get, .unref]) ∧ NeverLowered 3 ([.put 3, .putFront 2] ++ [.get, .unref]) ∧
    SameRing ((Buf.new 2 3 (some 7)).final [.put 1, .put 2, .drop 1, .put 3]) ((Buf.new 0 3 (some 7)).final [.put 3, .putFront 2]) ∧
    (newFull 2 3 (some 7) >>= fun r => run r [.put 1, .put 2, .drop 1, .put 3, .get, .unref]).map (fun x => (x.1, x.2.freed)) =
      .ok ([.bool true, .bool true, .int 1, .bool true, .ptr 2, .unit], [(7, 1), (7, 3)]) ∧
    (newFull 0 3 (some 7) >>= fun r => run r [.put 3, .putFront 2, .get, .unref]).map (fun x => (x.1, x.2.freed)) = .ok ([.bool true, .bool true, .ptr 2, .unit], [(7, 3)]) :=
  ⟨by decide +kernel, by decide +kernel, trivial, trivial, ⟨by decide +kernel, by decide +kernel, by decide +kernel, by decide +kernel⟩, by decide +kernel, by decide +kernel⟩

end Verif.Ring
