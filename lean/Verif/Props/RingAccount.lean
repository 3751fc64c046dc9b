import Verif.Props.RingMem
import Verif.Spec.RingAccount

/-!
# C21, C22: what becomes of the elements of a ring, after any sequence of calls

No rule about flatten here, except that nothing can be said about a sequence which has already written outside of the memory allocated (C20 says
exactly which ones do).
-/

namespace Verif.Ring
open Verif.C Spec

theorem grow_same {b b' : Buf} {n : Int} (h : b.grow n = some b') : b'.items = b.items ∧ b'.free = b.free ∧ b'.freed = b.freed ∧ b'.refs = b.refs := by
  unfold Buf.grow at h
  split at h
  · cases h; exact ⟨rfl, rfl, rfl, rfl⟩
  · split at h
    · cases h
    · cases h; exact ⟨rfl, rfl, rfl, rfl⟩

/-- What one call does, if there's a free function -/
theorem next_account (b : Buf) (op : Op) (f : Nat) (hf : b.free = some f) (x : Ptr) :
    List.count x (Spec.stored op (b.next op).1) + List.count x b.items + List.count x (b.freed.map Prod.snd) =
    List.count x (b.takes op) + List.count x (b.next op).2.items + List.count x ((b.next op).2.freed.map Prod.snd) := by
  have hrel : ∀ ps rest : List Ptr, (b.release ps rest).items = rest ∧ (b.release ps rest).freed.map Prod.snd = b.freed.map Prod.snd ++ ps := by
    intro ps rest
    refine ⟨rfl, ?_⟩
    simp only [Buf.release, hf, List.map_append, List.map_map]
    congr 1
    rw [show (Prod.snd ∘ fun x => (f, x)) = (id : Ptr → Ptr) from rfl, List.map_id]
  have hfront : ∀ n, List.count x (b.dropFront n).items + List.count x ((b.dropFront n).freed.map Prod.snd) =
      List.count x b.items + List.count x (b.freed.map Prod.snd) := by
    intro n
    unfold Buf.dropFront
    rw [(hrel _ _).1, (hrel _ _).2, List.count_append]
    have := congrArg (List.count x) (List.take_append_drop n b.items)
    rw [List.count_append] at this
    omega
  cases op with
  | put p =>
    simp only [Buf.next]
    cases hg : b.grow (b.items.length + 1) with
    | none => simp [Spec.stored, Buf.takes]
    | some b' =>
      obtain ⟨h1, _, h3, _⟩ := grow_same hg
      simp only [Spec.stored, Buf.takes, h1, h3, List.count_append, List.count_nil]
      omega
  | putFront p =>
    simp only [Buf.next]
    cases hg : b.grow (b.items.length + 1) with
    | none => simp [Spec.stored, Buf.takes]
    | some b' =>
      obtain ⟨h1, _, h3, _⟩ := grow_same hg
      simp only [Spec.stored, Buf.takes, h1, h3, List.count_nil]
      rw [show p :: b.items = [p] ++ b.items from rfl, List.count_append]
      omega
  | get =>
    simp only [Buf.next, Spec.stored, Buf.takes, List.count_nil]
    cases hi : b.items with
    | nil => rfl
    | cons a t =>
      simp only [List.head?_cons, Option.toList_some, List.tail_cons]
      rw [show a :: t = [a] ++ t from rfl, List.count_append]
      omega
  | getLast =>
    simp only [Buf.next, Spec.stored, Buf.takes, List.count_nil]
    rcases List.eq_nil_or_concat b.items with hi | ⟨t, a, hi⟩
    · rw [hi]; rfl
    · rw [hi]
      simp
      omega
  | reserve n =>
    simp only [Buf.next]
    cases hg : b.grow n with
    | none => simp [Spec.stored, Buf.takes]
    | some b' =>
      obtain ⟨h1, _, h3, _⟩ := grow_same hg
      simp only [Spec.stored, Buf.takes, h1, h3, List.count_nil]
  | unref =>
    simp only [Buf.next, Spec.stored, Buf.takes, List.count_nil]
    have := hfront b.items.length
    split
    · dsimp only
      omega
    · rfl
  | setMaxSize n =>
    simp only [Buf.next, Spec.stored, Buf.takes, List.count_nil]
    have := hfront (b.items.length - n.toNat)
    split
    · omega
    · dsimp only
      split <;> omega
  | clear =>
    simp only [Buf.next, Spec.stored, Buf.takes, List.count_nil]
    have := hfront b.items.length
    omega
  | drop n =>
    simp only [Buf.next, Spec.stored, Buf.takes, List.count_nil]
    have := hfront n.toNat
    omega
  | dropLast n =>
    simp only [Buf.next, Spec.stored, Buf.takes, List.count_nil]
    unfold Buf.dropBack
    split
    · have := hfront n.toNat
      omega
    · rw [(hrel _ _).1, (hrel _ _).2, List.count_append, List.count_reverse]
      have := congrArg (List.count x) (List.take_append_drop (b.items.length - n.toNat) b.items)
      rw [List.count_append] at this
      omega
  | _ => simp [Buf.next, Spec.stored, Buf.takes]

theorem next_free (b : Buf) (op : Op) (h : ∀ g, op ≠ .setFreeFunc g) : (b.next op).2.free = b.free := by
  cases op with
  | put p => simp only [Buf.next]; cases hg : b.grow (b.items.length + 1) with
    | none => rfl
    | some b' => exact (grow_same hg).2.1
  | putFront p => simp only [Buf.next]; cases hg : b.grow (b.items.length + 1) with
    | none => rfl
    | some b' => exact (grow_same hg).2.1
  | reserve n => simp only [Buf.next]; cases hg : b.grow n with
    | none => rfl
    | some b' => exact (grow_same hg).2.1
  | setFreeFunc g => exact absurd rfl (h g)
  | unref => simp only [Buf.next]; split <;> rfl
  | setMaxSize n => simp only [Buf.next]; split; · rfl
                    · dsimp only; split <;> rfl
  | dropLast n => simp only [Buf.next, Buf.dropBack]; split <;> rfl
  | _ => rfl

theorem next_free_some (b : Buf) (op : Op) (h : b.free ≠ none) (ho : op ≠ .setFreeFunc none) : (b.next op).2.free ≠ none := by
  by_cases hc : ∃ g, op = .setFreeFunc g
  · obtain ⟨g, rfl⟩ := hc
    intro hg
    exact ho (by rw [show g = none from hg])
  · rw [next_free b op (fun g hg => hc ⟨g, hg⟩)]
    exact h

theorem account (x : Ptr) : ∀ (ops : List Op) (b : Buf), b.free ≠ none → .setFreeFunc none ∉ ops →
    List.count x (b.stored ops) + List.count x b.items + List.count x (b.freed.map Prod.snd) =
    List.count x (b.taken ops) + List.count x (b.final ops).items + List.count x ((b.final ops).freed.map Prod.snd) := by
  intro ops
  induction ops with
  | nil => intro b _ _; rfl
  | cons op ops ih =>
    intro b hf hn
    obtain ⟨f, hf'⟩ := Option.ne_none_iff_exists'.mp hf
    have h1 := next_account b op f hf' x
    have h2 := ih (b.next op).2 (next_free_some b op hf (fun e => hn (by rw [e]; exact List.mem_cons_self)))
      (fun h => hn (List.mem_cons_of_mem _ h))
    simp only [Buf.stored, Buf.taken, Buf.final, List.count_append]
    omega

/-- The calls made by one call, with the function which is set -/
theorem next_freed (b : Buf) (op : Op) : ∃ ps : List Ptr, (b.next op).2.freed = b.freed ++ match b.free with | none => [] | some f => ps.map (f, ·) := by
  have h0 : b.freed = b.freed ++ match b.free with | none => [] | some f => ([] : List Ptr).map (f, ·) := by
    cases b.free <;> simp
  cases op with
  | put p => simp only [Buf.next]; cases hg : b.grow (b.items.length + 1) with
    | none => exact ⟨[], h0⟩
    | some b' => exact ⟨[], by dsimp only; rw [(grow_same hg).2.2.1]; exact h0⟩
  | putFront p => simp only [Buf.next]; cases hg : b.grow (b.items.length + 1) with
    | none => exact ⟨[], h0⟩
    | some b' => exact ⟨[], by dsimp only; rw [(grow_same hg).2.2.1]; exact h0⟩
  | reserve n => simp only [Buf.next]; cases hg : b.grow n with
    | none => exact ⟨[], h0⟩
    | some b' => exact ⟨[], by dsimp only; rw [(grow_same hg).2.2.1]; exact h0⟩
  | unref =>
    simp only [Buf.next]
    split
    · exact ⟨_, rfl⟩
    · exact ⟨[], h0⟩
  | setMaxSize n =>
    simp only [Buf.next]
    split
    · exact ⟨[], h0⟩
    · dsimp only
      split
      · exact ⟨[], h0⟩
      · exact ⟨_, rfl⟩
  | clear => exact ⟨_, rfl⟩
  | drop n => exact ⟨_, rfl⟩
  | dropLast n =>
    simp only [Buf.next, Buf.dropBack]
    split <;> exact ⟨_, rfl⟩
  | _ => exact ⟨[], h0⟩

theorem final_none : ∀ (ops : List Op) (b : Buf), b.free = none → (∀ g, .setFreeFunc g ∉ ops) → (b.final ops).freed = b.freed := by
  intro ops
  induction ops with
  | nil => intro b _ _; rfl
  | cons op ops ih =>
    intro b hf hn
    have hne : ∀ g, op ≠ .setFreeFunc g := fun g e => hn g (by rw [e]; exact List.mem_cons_self)
    show ((b.next op).2.final ops).freed = _
    rw [ih _ (by rw [next_free b op hne, hf]) (fun g h => hn g (List.mem_cons_of_mem _ h))]
    obtain ⟨ps, h⟩ := next_freed b op
    rw [h, hf]
    simp

theorem final_one (f : Nat) : ∀ (ops : List Op) (b : Buf), b.free = some f → (∀ g, .setFreeFunc g ∉ ops) →
    (b.final ops).freed = b.freed ++ (((b.final ops).freed.drop b.freed.length).map Prod.snd).map (f, ·) := by
  intro ops
  have key : ∀ (ops : List Op) (b : Buf), b.free = some f → (∀ g, .setFreeFunc g ∉ ops) → ∃ ps : List Ptr, (b.final ops).freed = b.freed ++ ps.map (f, ·) := by
    intro ops
    induction ops with
    | nil => intro b _ _; exact ⟨[], by simp [Buf.final]⟩
    | cons op ops ih =>
      intro b hf hn
      have hne : ∀ g, op ≠ .setFreeFunc g := fun g e => hn g (by rw [e]; exact List.mem_cons_self)
      obtain ⟨ps, h⟩ := next_freed b op
      obtain ⟨ps', h'⟩ := ih (b.next op).2 (by rw [next_free b op hne, hf]) (fun g h => hn g (List.mem_cons_of_mem _ h))
      refine ⟨ps ++ ps', ?_⟩
      show ((b.next op).2.final ops).freed = _
      rw [h', h, hf]
      simp
  intro b hf hn
  obtain ⟨ps, h⟩ := key ops b hf hn
  rw [h, List.drop_left]
  simp [Function.comp_def]

/-- Nothing is left when there are no references. -/
theorem next_gone (b : Buf) (op : Op) (hp : 0 < b.refs) (h : (b.next op).2.refs = 0) : (b.next op).2.items = [] := by
  cases op with
  | unref =>
    simp only [Buf.next] at h ⊢
    split
    · show b.items.drop b.items.length = []
      exact List.drop_length
    · rename_i hr
      rw [if_neg hr] at h
      dsimp only at h
      omega
  | ref => simp only [Buf.next] at h; omega
  | put p =>
    simp only [Buf.next] at h
    cases hg : b.grow (b.items.length + 1) with
    | none => rw [hg] at h; dsimp only at h; omega
    | some b' => rw [hg] at h; have := (grow_same hg).2.2.2; dsimp only at h; omega
  | putFront p =>
    simp only [Buf.next] at h
    cases hg : b.grow (b.items.length + 1) with
    | none => rw [hg] at h; dsimp only at h; omega
    | some b' => rw [hg] at h; have := (grow_same hg).2.2.2; dsimp only at h; omega
  | reserve n =>
    simp only [Buf.next] at h
    cases hg : b.grow n with
    | none => rw [hg] at h; dsimp only at h; omega
    | some b' => rw [hg] at h; have := (grow_same hg).2.2.2; dsimp only at h; omega
  | setMaxSize n =>
    exfalso
    simp only [Buf.next] at h
    split at h
    · omega
    · dsimp only at h
      split at h
      · omega
      · have h' : b.refs = 0 := h; omega
  | dropLast n =>
    exfalso
    simp only [Buf.next, Buf.dropBack] at h
    split at h <;> (have h' : b.refs = 0 := h; omega)
  | _ => exfalso; have h' : b.refs = 0 := h; omega

theorem final_gone : ∀ (ops : List Op) (m : Mem) (os : List Out), m.Allowed ops → m.outs ops = some os → (m.buf.refs = 0 → m.buf.items = []) →
    (m.buf.final ops).refs = 0 → (m.buf.final ops).items = [] := by
  intro ops
  induction ops with
  | nil => intro m os _ _ h; exact h
  | cons op ops ih =>
    intro m os ha ho _ hr
    obtain ⟨hp, ha⟩ := ha
    unfold Mem.outs at ho
    cases e : m.next op with
    | none => rw [e] at ho; cases ho
    | some y =>
      obtain ⟨o, m'⟩ := y
      rw [e] at ho ha
      obtain ⟨_, h2⟩ := next_buf e
      dsimp only at ho ha
      cases e2 : m'.outs ops with
      | none => rw [e2] at ho; cases ho
      | some os' =>
        have hp' : 0 < m.buf.refs := hp.1
        have := ih m' os' ha e2 (by rw [h2]; exact next_gone m.buf op hp') (by rw [h2]; exact hr)
        rw [h2] at this
        exact this

/-- **C21** After any sequence of calls (C20 says exactly which ones fail), as long as there's a free function: every element which has been stored is in
exactly one of three places, as many times as it has been stored: with the caller who took it by get or get_last, in the ring, or among those which have been passed to
the free function. There's nothing in the ring after the last reference is gone. -/
theorem C21_every_history (reserved max : Int) (free : Nat) (h0 : 0 ≤ reserved) (h1 : reserved ≤ 2 ^ 30) (ops : List Op)
    (ha : (Mem.new reserved max (some free)).Allowed ops) (hn : .setFreeFunc none ∉ ops)
    (r : Ring) (hr : newFull reserved max (some free) = .ok r) (os : List Out) (r' : Ring) (h : run r ops = .ok (os, r')) :
    let b := Buf.new reserved max (some free)
    os = b.outs ops ∧
    (b.stored ops).Perm (b.taken ops ++ (b.final ops).items ++ r'.freed.map Prod.snd) ∧
    (r'.refCount = 0 → (b.final ops).items = []) := by
  obtain ⟨e1, e2⟩ := C17_or_oob_freed reserved max (some free) h0 h1 ops ha r hr os r' h
  refine ⟨e1, ?_, ?_⟩
  · rw [e2, List.perm_iff_count]
    intro x
    have := account x ops (Buf.new reserved max (some free)) (by simp [Buf.new]) hn
    simp only [List.count_append]
    simp only [Buf.new, List.count_nil, List.map_nil] at this ⊢
    omega
  · intro hz
    obtain ⟨r1, hr1, hp, _⟩ := mem_new reserved max (some free) h0 h1
    rw [hr] at hr1
    cases hr1
    have hfin : ((Buf.new reserved max (some free)).final ops).refs = 0 := by
      rcases mem_rel ops r _ (.inl hp) ha h with hrel | hrel
      · have h3 := hrel.1.ref
        have h4 := hrel.1.pos
        rw [hz] at h3
        have h5 : 0 = ((Buf.new reserved max (some free)).final ops).refs := h3
        omega
      · exact hrel.1
    have h2 := mem_run ops r _ (.inl hp) ha
    cases e : (Mem.new reserved max (some free)).outs ops with
    | none =>
      rw [e] at h2
      dsimp only at h2
      rw [h] at h2
      cases h2
    | some os' => exact final_gone ops (Mem.new reserved max (some free)) os' ha e (fun _ => rfl) hfin

/-- **C21** ... and it's the free function which has been set that gets called. -/
theorem C21_every_history_func (reserved max : Int) (free : Nat) (h0 : 0 ≤ reserved) (h1 : reserved ≤ 2 ^ 30) (ops : List Op)
    (ha : (Mem.new reserved max (some free)).Allowed ops) (hn : ∀ g, .setFreeFunc g ∉ ops)
    (r : Ring) (hr : newFull reserved max (some free) = .ok r) (os : List Out) (r' : Ring) (h : run r ops = .ok (os, r')) :
    r'.freed = (r'.freed.map Prod.snd).map (free, ·) := by
  obtain ⟨_, e2⟩ := C17_or_oob_freed reserved max (some free) h0 h1 ops ha r hr os r' h
  have := final_one free ops (Buf.new reserved max (some free)) rfl hn
  rw [e2]
  simpa [Buf.new] using this

/-- **C21** Without a free function, nothing gets called. -/
theorem C21_every_history_none (reserved max : Int) (h0 : 0 ≤ reserved) (h1 : reserved ≤ 2 ^ 30) (ops : List Op)
    (ha : (Mem.new reserved max none).Allowed ops) (hn : ∀ g, .setFreeFunc g ∉ ops)
    (r : Ring) (hr : newFull reserved max none = .ok r) (os : List Out) (r' : Ring) (h : run r ops = .ok (os, r')) :
    r'.freed = [] := by
  obtain ⟨_, e2⟩ := C17_or_oob_freed reserved max none h0 h1 ops ha r hr os r' h
  rw [e2, final_none ops _ rfl hn]
  rfl

/-- Elements 2 and 3 wrap around when they get flattened, and 4 is added after that. 3 is taken by the caller and 4 is refused once. -/
example : (Mem.new 2 2 (some 7)).Allowed [.put 1, .put 2, .put 4, .drop 1, .put 3, .flatten, .drop 1, .put 4, .get, .unref] ∧
    (Buf.new 2 2 (some 7)).stored [.put 1, .put 2, .put 4, .drop 1, .put 3, .flatten, .drop 1, .put 4, .get, .unref] = [1, 2, 3, 4] ∧
    (Buf.new 2 2 (some 7)).taken [.put 1, .put 2, .put 4, .drop 1, .put 3, .flatten, .drop 1, .put 4, .get, .unref] = [3] ∧
    ((newFull 2 2 (some 7)).bind fun r => run r [.put 1, .put 2, .put 4, .drop 1, .put 3, .flatten, .drop 1, .put 4, .get, .unref]).map
      (fun x => (x.2.freed, x.2.refCount)) = .ok ([(7, 1), (7, 2), (7, 4)], 0) := by decide +kernel

theorem mem_outs_append : ∀ (ops ops' : List Op) (m : Mem) (os : List Out), m.outs ops = some os →
    ∃ m' : Mem, m'.buf = m.buf.final ops ∧ m.outs (ops ++ ops') = (m'.outs ops').map (os ++ ·) ∧
      ((m.Allowed ops ∧ m'.Allowed ops') → m.Allowed (ops ++ ops')) := by
  intro ops ops'
  induction ops with
  | nil =>
    intro m os h
    cases h
    exact ⟨m, rfl, by simp, fun h => h.2⟩
  | cons op ops ih =>
    intro m os h
    unfold Mem.outs at h
    cases e : m.next op with
    | none => rw [e] at h; cases h
    | some y =>
      obtain ⟨o, m1⟩ := y
      rw [e] at h
      obtain ⟨_, h2⟩ := next_buf e
      dsimp only at h
      cases e2 : m1.outs ops with
      | none => rw [e2] at h; cases h
      | some os' =>
        rw [e2] at h
        cases h
        obtain ⟨m', k1, k3, k4⟩ := ih m1 os' e2
        refine ⟨m', by rw [k1, h2]; rfl, ?_, ?_⟩
        · show (match m.next op with | none => none | some (o, m') => (m'.outs (ops ++ ops')).map (o :: ·)) = _
          rw [e]
          dsimp only
          rw [k3, Option.map_map]
          rfl
        · rintro ⟨⟨ha1, ha2⟩, hb⟩
          rw [e] at ha2
          refine ⟨ha1, ?_⟩
          rw [e]
          exact k4 ⟨ha2, hb⟩

/-- **C22** After any sequence of calls which works (C20 says exactly which ones do), flatten returns the block of all elements, from the oldest one to the newest
one (or NULL if there are none), and what can be seen of the elements afterwards is what was there before. -/
theorem C22_every_history (reserved max : Int) (free : Option Nat) (h0 : 0 ≤ reserved) (h1 : reserved ≤ 2 ^ 30) (ops : List Op) (i : Int)
    (ha : (Mem.new reserved max free).Allowed ops) (os : List Out) (hos : history reserved max free ops = .ok os)
    (hal : ((Buf.new reserved max free).final ops).refs ≠ 0) :
    let items := ((Buf.new reserved max free).final ops).items
    history reserved max free (ops ++ [.flatten, .size, .dataAt i]) =
      .ok (os ++ [.block (if items = [] then none else some items) items.length, .int items.length, .ptr (if i < 0 then 0 else (items[i.toNat]?).getD 0)]) := by
  intro items
  rw [C20_exactly reserved max free h0 h1 ops ha] at hos
  cases e : (Mem.new reserved max free).outs ops with
  | none => rw [e] at hos; cases hos
  | some os1 =>
    rw [e] at hos
    cases hos
    obtain ⟨m', k1, k3, k4⟩ := mem_outs_append ops [.flatten, .size, .dataAt i] _ os e
    have hb : m'.buf = (Buf.new reserved max free).final ops := k1
    have hpos : 0 < m'.buf.refs := by rw [hb]; omega
    have hm : ∃ m1 m2 m3, m'.next .flatten = some (.block (if m'.buf.items = [] then none else some m'.buf.items) m'.buf.items.length, m1) ∧
        m1.buf.items = m'.buf.items ∧ m1.buf.refs = m'.buf.refs ∧
        m1.next .size = some (.int m'.buf.items.length, m2) ∧ m2.buf.items = m'.buf.items ∧ m2.buf.refs = m'.buf.refs ∧
        m2.next (.dataAt i) = some (.ptr (if i < 0 then 0 else (m'.buf.items[i.toNat]?).getD 0), m3) := by
      obtain ⟨m1, q1⟩ : ∃ m1, m'.next .flatten = some (.block (if m'.buf.items = [] then none else some m'.buf.items) m'.buf.items.length, m1) := ⟨_, rfl⟩
      have q2 := (next_buf q1).2
      have q3 : m1.buf.items = m'.buf.items := by rw [q2]; rfl
      have q4 : m1.buf.refs = m'.buf.refs := by rw [q2]; rfl
      obtain ⟨m2, q5⟩ : ∃ m2, m1.next .size = some (.int m1.buf.items.length, m2) := ⟨_, rfl⟩
      have q6 := (next_buf q5).2
      have q7 : m2.buf.items = m1.buf.items := by rw [q6]; rfl
      have q8 : m2.buf.refs = m1.buf.refs := by rw [q6]; rfl
      obtain ⟨m3, q9⟩ : ∃ m3, m2.next (.dataAt i) = some (.ptr (if i < 0 then 0 else (m2.buf.items[i.toNat]?).getD 0), m3) := ⟨_, rfl⟩
      rw [q3] at q5
      rw [q7, q3] at q9
      exact ⟨m1, m2, m3, q1, q3, q4, q5, by rw [q7, q3], by rw [q8, q4], q9⟩
    obtain ⟨m1, m2, m3, q1, q3, q4, q5, q7, q8, q9⟩ := hm
    have hall : m'.Allowed [.flatten, .size, .dataAt i] := by
      refine ⟨⟨hpos, trivial⟩, ?_⟩
      rw [q1]
      refine ⟨⟨by show 0 < m1.buf.refs; omega, trivial⟩, ?_⟩
      rw [q5]
      refine ⟨⟨by show 0 < m2.buf.refs; omega, trivial⟩, ?_⟩
      rw [q9]
      trivial
    rw [C20_exactly reserved max free h0 h1 _ (k4 ⟨ha, hall⟩), k3]
    have : m'.outs [.flatten, .size, .dataAt i] = some [.block (if items = [] then none else some items) items.length, .int items.length,
        .ptr (if i < 0 then 0 else (items[i.toNat]?).getD 0)] := by
      have hi : m'.buf.items = items := by rw [hb]
      rw [← hi]
      simp only [Mem.outs, q1, q5, q9, Option.map_some]
    rw [this]
    rfl

/-- 2 and 3 are flattened, 2 is removed, 4 is added, and the ring is flattened again. -/
example : (Mem.new 2 (-1) none).Allowed [.put 1, .put 2, .get, .put 3, .flatten, .get, .put 4] ∧
    history 2 (-1) none [.put 1, .put 2, .get, .put 3, .flatten, .get, .put 4] = .ok [.bool true, .bool true, .ptr 1, .bool true, .block (some [2, 3]) 2, .ptr 2, .bool true] ∧
    ((Buf.new 2 (-1) none).final [.put 1, .put 2, .get, .put 3, .flatten, .get, .put 4]).items = [3, 4] ∧
    history 2 (-1) none ([.put 1, .put 2, .get, .put 3, .flatten, .get, .put 4] ++ [.flatten, .size, .dataAt 1]) =
      .ok [.bool true, .bool true, .ptr 1, .bool true, .block (some [2, 3]) 2, .ptr 2, .bool true, .block (some [3, 4]) 2, .int 2, .ptr 4] := by decide +kernel

end Verif.Ring
