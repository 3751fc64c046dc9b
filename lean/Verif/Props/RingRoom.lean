import Verif.Props.Ring
import Verif.Proof.RingRoom

/-!
# The memory of a ring can't be noticed: C152
-/

namespace Verif.Ring
open Verif.C Spec

theorem snug_new (reserved max : Int) (free : Option Nat) (h0 : 0 ≤ reserved) (h : max < 0 ∨ reserved ≤ max) : Snug (Buf.new reserved max free) := by
  refine ⟨by simp only [Buf.new, List.length_nil]; omega, ?_⟩
  simp only [Buf.new, norm]
  split <;> omega

theorem outs_append (b : Buf) (xs ys : List Op) : b.outs (xs ++ ys) = b.outs xs ++ (b.final xs).outs ys ∧ b.final (xs ++ ys) = (b.final xs).final ys := by
  induction xs generalizing b with
  | nil => exact ⟨rfl, rfl⟩
  | cons x xs ih => simp only [List.cons_append, Buf.outs, Buf.final]; rw [(ih _).1, (ih _).2]; exact ⟨rfl, rfl⟩

theorem outs_length (b : Buf) (xs : List Op) : (b.outs xs).length = xs.length := by
  induction xs generalizing b with
  | nil => rfl
  | cons x xs ih => simp only [Buf.outs, List.length_cons, ih]

/-- **C152** How much room a ring has been given, and when, can't be noticed: whatever is reserved when the ring is created, and wherever reserve and
compact are called, all other calls return the same, and the same elements are released in the same order. That's for the histories of C17, if no more
is reserved in the beginning than allowed by the limit, and the limit isn't lowered. -/
theorem C152_memory_partial (reserved reserved' max : Int) (free : Option Nat) (h0 : 0 ≤ reserved) (h1 : reserved ≤ 2 ^ 30) (h0' : 0 ≤ reserved')
    (h1' : reserved' ≤ 2 ^ 30) (hl : max < 0 ∨ (reserved ≤ max ∧ reserved' ≤ max)) (ops ops' : List Op) (ha : (Buf.new reserved max free).Allowed ops)
    (ha' : (Buf.new reserved' max free).Allowed ops') (hn : NeverLowered max ops) (hn' : NeverLowered max ops')
    (hs : (ops.filter fun o => !o.memory) = (ops'.filter fun o => !o.memory)) :
    ∃ r r' os os' s s', newFull reserved max free = .ok r ∧ newFull reserved' max free = .ok r' ∧ run r ops = .ok (os, s) ∧ run r' ops' = .ok (os', s') ∧
      others ops os = others ops' os' ∧ s.freed = s'.freed := by
  obtain ⟨r, s, e1, e2, e3⟩ := C17_exact_partial reserved max free h0 h1 ops ha
  obtain ⟨r', s', f1, f2, f3⟩ := C17_exact_partial reserved' max free h0' h1' ops' ha'
  obtain ⟨g1, g2⟩ := same_run _ ops ops' (Nat.le_refl _) (Buf.new reserved max free) (Buf.new reserved' max free) max max ⟨rfl, rfl, rfl, rfl, rfl⟩
    (snug_new reserved max free h0 (by omega)) (snug_new reserved' max free h0' (by omega)) rfl rfl hn hn' hs
  exact ⟨r, r', _, _, s, s', e1, f1, e2, f2, g1, by rw [e3, f3, g2.freed]⟩

theorem snug_run : ∀ (ops : List Op) (b : Buf) (m : Int), Snug b → b.max = norm m → NeverLowered m ops → Snug (b.final ops)
  | [], _, _, h, _, _ => h
  | op :: ops, b, m, h, hm, hn => by
    obtain ⟨r, m1, q1, q2⟩ := rises_next hm hn
    refine snug_run ops _ m1 ?_ q1 q2
    by_cases ho : op.memory = true
    · exact (snug_memory h op ho).2
    · exact (same_next ⟨rfl, rfl, rfl, rfl, rfl⟩ h h op (by simpa using ho) r).2.2.1

theorem limit_run : ∀ (ops more : List Op) (b : Buf) (m : Int), b.max = norm m → NeverLowered m (ops ++ more) →
    NeverLowered m ops ∧ ∃ m', (b.final ops).max = norm m' ∧ NeverLowered m' more
  | [], _, _, m, hm, hn => ⟨trivial, m, hm, hn⟩
  | op :: ops, more, b, m, hm, hn => by
    obtain ⟨-, m1, q1, q2⟩ := rises_next hm hn
    obtain ⟨g1, g2⟩ := limit_run ops more _ m1 q1 q2
    refine ⟨?_, g2⟩
    cases op
    case setMaxSize n =>
      have hk := (limit_run ops more { b with max := norm n } n rfl hn.2).1
      exact ⟨hn.1, hk⟩
    all_goals exact (limit_run ops more b m hm hn).1
termination_by ops => ops.length

/-- **C152** Taking back an element which has just been added (put and get_last, or put_front and get) leaves no trace: if it has been added then it's the
one which gets returned; nothing is released; and all calls made later return what they would have returned otherwise, except for reserve. -/
theorem C152_undo_partial (reserved max : Int) (free : Option Nat) (h0 : 0 ≤ reserved) (h1 : reserved ≤ 2 ^ 30) (hl : max < 0 ∨ reserved ≤ max) (p : Ptr)
    (pre undone post : List Op) (hu : Undone p undone) (ha : (Buf.new reserved max free).Allowed (pre ++ post))
    (ha' : (Buf.new reserved max free).Allowed (pre ++ (undone ++ post))) (hn : NeverLowered max (pre ++ post)) :
    ∃ r o0 b v o1 o2 s s', newFull reserved max free = .ok r ∧ run r (pre ++ post) = .ok (o0 ++ o1, s) ∧
      run r (pre ++ (undone ++ post)) = .ok (o0 ++ ([b, v] ++ o2), s') ∧ o0.length = pre.length ∧
      (b = .bool true → v = .ptr p ∧ others post o1 = others post o2 ∧ s.freed = s'.freed) := by
  obtain ⟨r, s, e1, e2, e3⟩ := C17_exact_partial reserved max free h0 h1 _ ha
  obtain ⟨r', s', f1, f2, f3⟩ := C17_exact_partial reserved max free h0 h1 _ ha'
  rw [e1] at f1
  injection f1 with f1
  subst f1
  rw [(outs_append _ _ _).1] at e2 f2
  rw [(outs_append _ _ _).2] at e3 f3
  obtain ⟨n1, m', n2, n3⟩ := limit_run pre post (Buf.new reserved max free) max rfl hn
  have hsn := snug_run pre _ max (snug_new reserved max free h0 hl) rfl n1
  generalize hb : (Buf.new reserved max free).final pre = b at *
  have hlen := outs_length (Buf.new reserved max free) pre
  generalize (Buf.new reserved max free).outs pre = o0 at *
  rw [(outs_append _ _ _).1] at f2
  rw [(outs_append _ _ _).2] at f3
  have hsame : Same b b := ⟨rfl, rfl, rfl, rfl, rfl⟩
  cases hu with
  | back =>
    refine ⟨r, o0, _, _, _, _, s, s', e1, e2, f2, hlen, ?_⟩
    intro hput
    obtain ⟨-, -, k1, -⟩ := same_next hsame hsn hsn (.put p) rfl trivial
    obtain ⟨-, -, k2, -⟩ := same_next ⟨rfl, rfl, rfl, rfl, rfl⟩ k1 k1 .getLast rfl trivial
    have key : (b.next (.put p)).2.next .getLast = (.ptr p, ((b.next (.put p)).2.next .getLast).2) ∧ Same b ((b.next (.put p)).2.next .getLast).2 := by
      simp only [Buf.next] at hput ⊢
      cases hg : b.grow (b.items.length + 1) with
      | none => rw [hg] at hput; simp at hput
      | some d =>
        have sm := (snug_grow hsn hg).1
        dsimp only
        refine ⟨by simp, ⟨by simp [sm.items], sm.max, sm.free, sm.freed, sm.refs⟩⟩
    obtain ⟨t1, t2⟩ := same_run _ post post (Nat.le_refl _) b _ m' m' key.2 hsn k2 n2 (by rw [key.2.max]; exact n2) n3 n3 rfl
    exact ⟨congrArg Prod.fst key.1, t1, by rw [e3, f3]; exact t2.freed.symm⟩
  | front =>
    refine ⟨r, o0, _, _, _, _, s, s', e1, e2, f2, hlen, ?_⟩
    intro hput
    obtain ⟨-, -, k1, -⟩ := same_next hsame hsn hsn (.putFront p) rfl trivial
    obtain ⟨-, -, k2, -⟩ := same_next ⟨rfl, rfl, rfl, rfl, rfl⟩ k1 k1 .get rfl trivial
    have key : (b.next (.putFront p)).2.next .get = (.ptr p, ((b.next (.putFront p)).2.next .get).2) ∧ Same b ((b.next (.putFront p)).2.next .get).2 := by
      simp only [Buf.next] at hput ⊢
      cases hg : b.grow (b.items.length + 1) with
      | none => rw [hg] at hput; simp at hput
      | some d =>
        have sm := (snug_grow hsn hg).1
        dsimp only
        refine ⟨by simp, ⟨by simp [sm.items], sm.max, sm.free, sm.freed, sm.refs⟩⟩
    obtain ⟨t1, t2⟩ := same_run _ post post (Nat.le_refl _) b _ m' m' key.2 hsn k2 n2 (by rw [key.2.max]; exact n2) n3 n3 rfl
    exact ⟨congrArg Prod.fst key.1, t1, by rw [e3, f3]; exact t2.freed.symm⟩

/-- **C152** isn't true if more has been reserved than allowed by the limit: then the limit can be exceeded. -/
theorem C152_refuted : history 2 1 none [.put 1, .put 2] = .ok [.bool true, .bool true] ∧ history 1 1 none [.put 1, .put 2] = .ok [.bool true, .bool false] :=
  ⟨by decide +kernel, by decide +kernel⟩

/-- ... nor if the limit is lowered after more had been allocated. Here it's four elements, because the room gets doubled. -/
theorem C152_refuted_by_lowering :
    history 2 (-1) none [.put 1, .put 2, .put 3, .getLast, .setMaxSize 2, .put 3, .put 4, .put 5] =
      .ok [.bool true, .bool true, .bool true, .ptr 3, .unit, .bool true, .bool true, .bool false] ∧
    history 2 (-1) none [.put 1, .put 2, .setMaxSize 2, .put 3, .put 4, .put 5] =
      .ok [.bool true, .bool true, .unit, .bool false, .bool false, .bool false] :=
  ⟨by decide +kernel, by decide +kernel⟩

/-- ... and what's returned by reserve may be different after an element has been added and taken back. -/
theorem C152_refuted_by_reserve :
    history 0 1 none [.reserve 2] = .ok [.bool true] ∧ history 0 1 none [.put 1, .getLast, .reserve 2] = .ok [.bool true, .ptr 1, .bool false] :=
  ⟨by decide +kernel, by decide +kernel⟩

/-- The conditions of both theorems are met: by rings which grow, are compacted, and whose limit is raised. -/
example : (Buf.new 0 2 (some 7)).Allowed [.put 1, .reserve 2, .put 2, .setMaxSize 4, .compact, .put 3, .drop 2, .unref] ∧
    (Buf.new 2 2 (some 7)).Allowed [.put 1, .put 2, .setMaxSize 4, .put 3, .drop 2, .compact, .unref] ∧
    NeverLowered 2 [.put 1, .reserve 2, .put 2, .setMaxSize 4, .compact, .put 3, .drop 2, .unref] ∧
    (([.put 1, .reserve 2, .put 2, .setMaxSize 4, .compact, .put 3, .drop 2, .unref] : List Op).filter fun o => !o.memory) =
      (([.put 1, .put 2, .setMaxSize 4, .put 3, .drop 2, .compact, .unref] : List Op).filter fun o => !o.memory) ∧
    (Buf.new 0 2 (some 7)).Allowed ([.put 1] ++ ([.putFront 5, .get] ++ [.put 2, .drop 2])) :=
  ⟨by decide +kernel, by decide +kernel, by simp [NeverLowered], by decide +kernel, by decide +kernel⟩

end Verif.Ring
