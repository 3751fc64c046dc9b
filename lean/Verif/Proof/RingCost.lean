import Verif.Model.RingCost
import Verif.Props.RingExact

namespace Verif.RingCost
open Verif.C Verif.Ring Verif.Ring.Spec

theorem map_bind {α β γ : Type} (x : M α) (f : α → M β) (g : β → γ) : (x >>= f).map g = x >>= fun a => (f a).map g := by
  cases x <;> rfl

theorem bind_map {α β γ : Type} (x : M α) (f : β → M γ) (g : α → β) : (x.map g) >>= f = x >>= fun a => f (g a) := by
  cases x <;> rfl

theorem compact_same (r : Ring) : (compact r).map (·.2) = Ring.compact r := by
  unfold compact Ring.compact
  rw [map_bind]
  congr 1; funext n
  split
  · split
    · split
      · rw [map_bind]; congr 1; funext a
        rw [map_bind]; congr 1
      · rw [map_bind]; congr 1; funext a
        rw [map_bind]; congr 1; funext a
        rw [map_bind]; congr 1; funext a
        rw [map_bind]; congr 1
    · rfl
  · rfl

theorem reserve_same (r : Ring) (n : Int) : (reserve r n).map (·.2) = Ring.reserve r n := by
  unfold reserve Ring.reserve
  split
  · rfl
  · split
    · rfl
    · rw [map_bind]
      congr 1; funext t
      dsimp only
      split
      · rw [map_bind]; congr 1; funext a
        rw [map_bind]; congr 1; funext a
        rw [map_bind]; congr 1
      · split
        · rw [map_bind]; congr 1; funext a
          rw [map_bind]; congr 1; funext a
          rw [map_bind]; congr 1; funext a
          rw [map_bind]; congr 1
        · rw [map_bind]; congr 1

theorem put_same (r : Ring) (p : Ptr) : (put r p).map (·.2) = Ring.put r p := by
  unfold put Ring.put
  rw [map_bind]; congr 1; funext n
  rw [map_bind]; congr 1; funext n
  rw [← reserve_same, bind_map, map_bind]
  congr 1; funext x
  obtain ⟨w, b, r⟩ := x
  dsimp only
  split
  · rw [map_bind]; congr 1; funext a
    rw [map_bind]; congr 1; funext a
    rw [map_bind]; congr 1
  · rfl

theorem putFront_same (r : Ring) (p : Ptr) : (putFront r p).map (·.2) = Ring.putFront r p := by
  unfold putFront Ring.putFront
  rw [map_bind]; congr 1; funext n
  rw [map_bind]; congr 1; funext n
  rw [← reserve_same, bind_map, map_bind]
  congr 1; funext x
  obtain ⟨w, b, r⟩ := x
  dsimp only
  split
  · split
    · rw [map_bind]; congr 1; funext a
      rw [map_bind]; congr 1; funext a
      rw [map_bind]; congr 1; funext a
      rw [map_bind]; congr 1
    · rw [map_bind]; congr 1; funext a
      rw [map_bind]; congr 1
  · rfl

theorem flatten_same (r : Ring) : (flatten r).map (·.2) = Ring.flatten r := by
  unfold flatten Ring.flatten
  rw [map_bind]; congr 1; funext n
  split
  · dsimp only
    split
    · rw [map_bind]; congr 1; funext a
      rw [map_bind]; congr 1; funext a
      rw [map_bind]; congr 1; funext a
      rw [map_bind]; congr 1; funext a
      rw [map_bind]; congr 1
    · rfl
  · rfl

theorem exec_same (r : Ring) (op : Op) : (exec r op).map (·.2) = Ring.exec r op := by
  by_cases h : r.refCount = 0
  · unfold exec Ring.exec
    rw [if_pos h, if_pos h]
    rfl
  · have other : (do let (o, r) ← Ring.exec r op; .ok (Work.none, o, r) : M (Work × Out × Ring)).map (·.2) = Ring.exec r op := by
      cases Ring.exec r op <;> rfl
    cases op with
    | compact =>
      unfold exec Ring.exec
      rw [if_neg h, if_neg h]
      dsimp only
      rw [← compact_same]
      cases compact r <;> rfl
    | reserve n =>
      unfold exec Ring.exec
      rw [if_neg h, if_neg h]
      dsimp only
      rw [← reserve_same]
      cases reserve r n <;> rfl
    | put p =>
      unfold exec Ring.exec
      rw [if_neg h, if_neg h]
      dsimp only
      rw [← put_same]
      cases put r p <;> rfl
    | putFront p =>
      unfold exec Ring.exec
      rw [if_neg h, if_neg h]
      dsimp only
      rw [← putFront_same]
      cases putFront r p <;> rfl
    | flatten =>
      unfold exec Ring.exec
      rw [if_neg h, if_neg h]
      dsimp only
      rw [← flatten_same]
      cases flatten r with
      | error e => rfl
      | ok x =>
        obtain ⟨w, o, n, r⟩ := x
        cases o with
        | none => rfl
        | some o =>
          show ((readBlock r.data o n.toNat >>= fun ps => .ok (w, Out.block (some ps) n, r)) : M _).map (·.2) = (readBlock r.data o n.toNat >>= fun ps => .ok (Out.block (some ps) n, r))
          cases readBlock r.data o n.toNat <;> rfl
    | _ =>
      unfold exec
      rw [if_neg h]
      exact other

theorem run_same : ∀ (ops : List Op) (r : Ring), (run r ops).map (·.2) = Ring.run r ops := by
  intro ops
  induction ops with
  | nil => intro r; rfl
  | cons op ops ih =>
    intro r
    unfold run Ring.run
    rw [← exec_same, bind_map, map_bind]
    congr 1; funext x
    obtain ⟨w, o, r⟩ := x
    dsimp only
    rw [← ih, bind_map, map_bind]
    congr 1

/-- Work done to make room for `n` elements -/
def growWork (b : Buf) (n : Int) : Work :=
  if n ≤ b.cap then .none else if 0 ≤ b.max ∧ b.max ≤ b.cap then .none else ⟨b.items.length, 1⟩

theorem slots_len {d a : List (Option Ptr)} {o n : Int} (h : slots d o n = .ok a) : (a.length : Int) = n := by
  unfold slots at h
  split at h
  · cases h
    rw [List.length_take, List.length_drop]
    omega
  · cases h

theorem chk_eq {a x : Int} (h : chk32 a = .ok x) : x = a := by
  unfold chk32 at h
  split at h
  · cases h; rfl
  · cases h

theorem reserve_work {r : Ring} {b : Buf} (h : Rel r b) {n : Int} {w : Work} {x : Bool × Ring} (e : reserve r n = .ok (w, x)) : w = growWork b n := by
  have hc : r.alloc = b.cap := h.2
  have hm : r.maxsiz = b.max := h.1.maxeq
  have hv : View r b.items := h.1.view
  unfold reserve at e
  unfold growWork
  rw [hc, hm] at e
  by_cases h1 : n ≤ b.cap
  · rw [if_pos h1] at e ⊢
    cases e
    rfl
  · rw [if_neg h1] at e ⊢
    by_cases h2 : 0 ≤ b.max ∧ b.max ≤ b.cap
    · rw [if_pos h2]
      rw [if_pos (show b.max ≥ 0 ∧ b.cap ≥ b.max from h2)] at e
      cases e
      rfl
    · rw [if_neg h2]
      rw [if_neg (show ¬ (b.max ≥ 0 ∧ b.cap ≥ b.max) from h2)] at e
      obtain ⟨t, _, e⟩ := bind_eq e
      dsimp only at e
      by_cases h3 : r.start < r.fin
      · rw [if_pos h3] at e
        obtain ⟨k, e1, e⟩ := bind_eq e
        obtain ⟨a, e2, e⟩ := bind_eq e
        obtain ⟨d, _, e⟩ := bind_eq e
        cases e
        have := slots_len e2
        have := chk_eq e1
        congr 1
        rcases hv with ⟨_, h5, h6⟩ | ⟨_, _, _, h5, _⟩ <;> omega
      · rw [if_neg h3] at e
        by_cases h4 : r.start ≥ 0
        · rw [if_pos h4] at e
          obtain ⟨k, e1, e⟩ := bind_eq e
          obtain ⟨a, e2, e⟩ := bind_eq e
          obtain ⟨a', e3, e⟩ := bind_eq e
          obtain ⟨d, _, e⟩ := bind_eq e
          cases e
          have := slots_len e2
          have := slots_len e3
          have := chk_eq e1
          congr 1
          rcases hv with ⟨_, h5, h6⟩ | ⟨_, _, _, h5, _⟩ <;> omega
        · rw [if_neg h4] at e
          obtain ⟨d, _, e⟩ := bind_eq e
          cases e
          congr 1
          rcases hv with ⟨h5, _⟩ | ⟨_, h5, _⟩
          · rw [h5]; rfl
          · omega

/-- What's done by a call, as far as that's needed -/
def workOf (b : Buf) : Op → Work
  | .put _ | .putFront _ => growWork b (b.items.length + 1)
  | .compact => if b.items = [] ∨ b.cap ≤ b.items.length then .none else ⟨b.items.length, 1⟩
  | _ => .none

theorem put_work {r : Ring} {b : Buf} (h : Rel r b) {p : Ptr} {w : Work} {x : Bool × Ring} (e : put r p = .ok (w, x)) : w = growWork b (b.items.length + 1) := by
  unfold put at e
  rw [size_spec h.1.view h.1.alloc0 h.1.alloc1, ok_bind] at e
  obtain ⟨s, e1, e⟩ := bind_eq e
  have e1 := chk_eq e1
  subst e1
  obtain ⟨⟨w', ok, r'⟩, e2, e⟩ := bind_eq e
  have e2 := reserve_work h e2
  dsimp only at e
  split at e
  · obtain ⟨_, _, e⟩ := bind_eq e
    obtain ⟨_, _, e⟩ := bind_eq e
    obtain ⟨_, _, e⟩ := bind_eq e
    cases e
    exact e2
  · cases e
    exact e2

theorem putFront_work {r : Ring} {b : Buf} (h : Rel r b) {p : Ptr} {w : Work} {x : Bool × Ring} (e : putFront r p = .ok (w, x)) : w = growWork b (b.items.length + 1) := by
  unfold putFront at e
  rw [size_spec h.1.view h.1.alloc0 h.1.alloc1, ok_bind] at e
  obtain ⟨s, e1, e⟩ := bind_eq e
  have e1 := chk_eq e1
  subst e1
  obtain ⟨⟨w', ok, r'⟩, e2, e⟩ := bind_eq e
  have e2 := reserve_work h e2
  dsimp only at e
  split at e
  · split at e
    · obtain ⟨_, _, e⟩ := bind_eq e
      obtain ⟨_, _, e⟩ := bind_eq e
      obtain ⟨_, _, e⟩ := bind_eq e
      obtain ⟨_, _, e⟩ := bind_eq e
      cases e
      exact e2
    · obtain ⟨_, _, e⟩ := bind_eq e
      obtain ⟨_, _, e⟩ := bind_eq e
      cases e
      exact e2
  · cases e
    exact e2

theorem compact_work {r : Ring} {b : Buf} (h : Rel r b) {w : Work} {x : Ring} (e : compact r = .ok (w, x)) :
    w = if b.items = [] ∨ b.cap ≤ b.items.length then .none else ⟨b.items.length, 1⟩ := by
  have hc : r.alloc = b.cap := h.2
  have hv : View r b.items := h.1.view
  unfold compact at e
  rw [size_spec h.1.view h.1.alloc0 h.1.alloc1, ok_bind] at e
  have ed : b.deque.items = b.items := rfl
  rw [ed, hc] at e
  by_cases h1 : b.cap > b.items.length
  · rw [if_pos h1] at e
    by_cases h2 : b.items = []
    · rw [if_pos (.inl h2)]
      rw [h2] at e
      cases e
      rfl
    · rw [if_neg (by intro h; rcases h with h | h; exact h2 h; omega)]
      have hl : 0 < b.items.length := List.length_pos_iff.2 h2
      rw [if_pos (by omega)] at e
      split at e
      · obtain ⟨a, e2, e⟩ := bind_eq e
        obtain ⟨d, _, e⟩ := bind_eq e
        cases e
        have := slots_len e2
        congr 1
        omega
      · obtain ⟨k, e1, e⟩ := bind_eq e
        obtain ⟨a, e2, e⟩ := bind_eq e
        obtain ⟨a', e3, e⟩ := bind_eq e
        obtain ⟨d, _, e⟩ := bind_eq e
        cases e
        have := slots_len e2
        have := slots_len e3
        have := chk_eq e1
        congr 1
        rcases hv with ⟨h5, _⟩ | ⟨_, _, _, h5, _⟩
        · exact (h2 h5).elim
        · omega
  · rw [if_neg h1] at e
    cases e
    rw [if_pos (.inr (by omega))]

/-- Calls other than these two -/
theorem exec_work {r : Ring} {b : Buf} (h : Rel r b) {op : Op} (h1 : ∀ n, op ≠ .reserve n) (h2 : op ≠ .flatten) {w : Work} {x : Out × Ring} (e : exec r op = .ok (w, x)) :
    w = workOf b op := by
  unfold exec at e
  split at e
  · cases e
  · cases op with
    | reserve n => exact (h1 n rfl).elim
    | flatten => exact (h2 rfl).elim
    | put p =>
      obtain ⟨⟨w', y⟩, e1, e⟩ := bind_eq e
      cases e
      exact put_work h e1
    | putFront p =>
      obtain ⟨⟨w', y⟩, e1, e⟩ := bind_eq e
      cases e
      exact putFront_work h e1
    | compact =>
      obtain ⟨⟨w', y⟩, e1, e⟩ := bind_eq e
      cases e
      exact compact_work h e1
    | _ =>
      obtain ⟨⟨o, y⟩, _, e⟩ := bind_eq e
      cases e
      rfl

/-- All of them -/
def works : Buf → List Op → Work
  | _, [] => .none
  | b, op :: ops => (workOf b op).add (works (b.next op).2 ops)

theorem run_work (ops : List Op) : ∀ (r : Ring) (b : Buf), (Rel r b ∨ RelDead r b) → b.Allowed ops → (∀ op ∈ ops, (∀ n, op ≠ .reserve n) ∧ op ≠ .flatten) →
    ∃ r', run r ops = .ok (works b ops, b.outs ops, r') := by
  induction ops with
  | nil => intro r b h _ _; exact ⟨r, rfl⟩
  | cons op ops ih =>
    intro r b h ha ho
    obtain ⟨hp, ha⟩ := ha
    rcases h with h | h
    · obtain ⟨r1, h1, h2⟩ := cap_step h hp
      obtain ⟨r2, h3⟩ := ih r1 _ h2 ha (fun op h => ho op (List.mem_cons_of_mem _ h))
      rw [← exec_same] at h1
      cases e : exec r op with
      | error u => rw [e] at h1; cases h1
      | ok x =>
        obtain ⟨w, y⟩ := x
        rw [e] at h1
        have h1 : Except.ok y = Except.ok _ := h1
        cases h1
        refine ⟨r2, ?_⟩
        have hw := exec_work h (ho op List.mem_cons_self).1 (ho op List.mem_cons_self).2 e
        simp only [run, e, h3, ok_bind, hw]
        rfl
    · have := hp.1
      have := h.1
      omega

/-- `P` elements have been accepted, `w` is the work done so far and `c` is how many elements were copied when memory was allocated for the last time. -/
structure Paid (b : Buf) (w : Work) (P c : Nat) : Prop where
  len : (b.items.length : Int) ≤ b.cap
  size : b.items.length ≤ P
  copied : w.copied ≤ 2 * c
  last : c + 1 ≤ P ∨ (c = 0 ∧ w.blocks = 0)
  cap : 2 * (c : Int) ≤ b.cap ∨ (0 ≤ b.max ∧ b.max ≤ b.cap)
  one : w.blocks = 0 ∨ 1 ≤ b.cap
  blocks : w.blocks ≤ 1 ∨ 2 ^ (w.blocks - 2) ≤ c

theorem paid_keep {b b' : Buf} {w : Work} {P c : Nat} (h : Paid b w P c) (h1 : b'.cap = b.cap) (h2 : b'.max = b.max) (h3 : b'.items.length ≤ b.items.length) : Paid b' w P c := by
  have := h.len
  have := h.size
  exact ⟨by omega, by omega, h.copied, h.last, by rw [h1, h2]; exact h.cap, by rw [h1]; exact h.one, h.blocks⟩

theorem paid_grow {b : Buf} {w : Work} {P c : Nat} (h : Paid b w P c) {b' : Buf} (hg : b.grow (b.items.length + 1) = some b') (x : Buf) (hc : x.cap = b'.cap) (hm : x.max = b'.max)
    (hl : x.items.length = b.items.length + 1) : ∃ c', Paid x (w.add (growWork b (b.items.length + 1))) (P + 1) c' := by
  obtain ⟨l1, l2, l3, l4, l5, l6, l7⟩ := h
  unfold growWork
  rcases grow_cases b (b.items.length + 1) with ⟨g1, g2⟩ | ⟨g1, g2, g3, g4⟩ | ⟨g1, g2, g3⟩
  · rw [if_pos g1]
    rw [g2] at hg
    cases hg
    refine ⟨c, by omega, by omega, l3, ?_, by rw [hc, hm]; exact l5, by rw [hc]; exact l6, l7⟩
    rcases l4 with l4 | l4
    · exact .inl (by omega)
    · exact .inr l4
  · rw [g4] at hg
    cases hg
  · rw [if_neg g1, if_neg (by omega)]
    rw [g3] at hg
    cases hg
    have e1 : b.cap = b.items.length := by omega
    have e2 : 2 * b.cap ≤ b.more (b.items.length + 1) ∨ (0 ≤ b.max ∧ b.max ≤ b.more (b.items.length + 1)) := by
      unfold Buf.more
      dsimp only
      split <;> omega
    have e3 : (b.items.length : Int) + 1 ≤ b.more (b.items.length + 1) := by
      unfold Buf.more
      dsimp only
      split <;> omega
    dsimp only at hc hm
    have e4 : 2 * (c : Int) ≤ b.cap := by omega
    refine ⟨b.items.length, by omega, by omega, ?_, .inl (by omega), by rw [hc, hm]; omega, .inr (by omega), ?_⟩
    · show w.copied + b.items.length ≤ _
      omega
    · show w.blocks + 1 ≤ 1 ∨ 2 ^ (w.blocks + 1 - 2) ≤ _
      rcases l7 with l7 | l7
      · rcases Nat.lt_or_ge w.blocks 1 with z | z
        · exact .inl (by omega)
        · refine .inr ?_
          have : w.blocks = 1 := by omega
          rw [this]
          show 1 ≤ _
          omega
      · rcases Nat.lt_or_ge w.blocks 2 with z | z
        · rcases Nat.lt_or_ge w.blocks 1 with z | z
          · exact .inl (by omega)
          · refine .inr ?_
            have : w.blocks = 1 := by omega
            rw [this]
            show 1 ≤ _
            omega
        · refine .inr ?_
          rw [show w.blocks + 1 - 2 = (w.blocks - 2) + 1 by omega, Nat.pow_succ]
          omega

theorem work_add_none (w : Work) : w.add .none = w := rfl

theorem paid_step {b : Buf} {w : Work} {P c : Nat} (h : Paid b w P c) {op : Op} (ho : Ordinary op) :
    ∃ c', Paid (b.next op).2 (w.add (workOf b op)) (P + (stored op (b.next op).1).length) c' := by
  have keep : ∀ b', b'.cap = b.cap → b'.max = b.max → b'.items.length ≤ b.items.length → ∃ c', Paid b' w P c' := fun b' h1 h2 h3 => ⟨c, paid_keep h h1 h2 h3⟩
  cases op with
  | setMaxSize n => exact ho.elim
  | compact => exact ho.elim
  | reserve n => exact ho.elim
  | flatten => exact ho.elim
  | put p =>
    show ∃ c', Paid (b.next (.put p)).2 (w.add (growWork b _)) _ c'
    unfold Buf.next
    dsimp only
    cases hg : b.grow (b.items.length + 1) with
    | none =>
      have : growWork b (b.items.length + 1) = .none := by
        rcases grow_cases b (b.items.length + 1) with ⟨g1, g2⟩ | ⟨g1, g2, g3, g4⟩ | ⟨g1, g2, g3⟩
        · rw [g2] at hg; cases hg
        · unfold growWork; rw [if_neg g1, if_pos ⟨g2, g3⟩]
        · rw [g3] at hg; cases hg
      rw [this]
      exact ⟨c, h⟩
    | some b' =>
      have e : b'.items = b.items := by
        rcases grow_cases b (b.items.length + 1) with ⟨g1, g2⟩ | ⟨g1, g2, g3, g4⟩ | ⟨g1, g2, g3⟩
        · rw [g2] at hg; cases hg; rfl
        · rw [g4] at hg; cases hg
        · rw [g3] at hg; cases hg; rfl
      exact paid_grow h hg _ rfl rfl (by simp [e])
  | putFront p =>
    show ∃ c', Paid (b.next (.putFront p)).2 (w.add (growWork b _)) _ c'
    unfold Buf.next
    dsimp only
    cases hg : b.grow (b.items.length + 1) with
    | none =>
      have : growWork b (b.items.length + 1) = .none := by
        rcases grow_cases b (b.items.length + 1) with ⟨g1, g2⟩ | ⟨g1, g2, g3, g4⟩ | ⟨g1, g2, g3⟩
        · rw [g2] at hg; cases hg
        · unfold growWork; rw [if_neg g1, if_pos ⟨g2, g3⟩]
        · rw [g3] at hg; cases hg
      rw [this]
      exact ⟨c, h⟩
    | some b' =>
      have e : b'.items = b.items := by
        rcases grow_cases b (b.items.length + 1) with ⟨g1, g2⟩ | ⟨g1, g2, g3, g4⟩ | ⟨g1, g2, g3⟩
        · rw [g2] at hg; cases hg; rfl
        · rw [g4] at hg; cases hg
        · rw [g3] at hg; cases hg; rfl
      exact paid_grow h hg _ rfl rfl (by simp [e])
  | unref =>
    refine keep _ ?_ ?_ ?_ <;> simp only [Buf.next] <;> split <;> simp [Buf.dropFront, Buf.release]
  | dropLast n =>
    refine keep _ ?_ ?_ ?_ <;> simp only [Buf.next, Buf.dropBack] <;> split <;> simp [Buf.dropFront, Buf.release]
  | clear => exact keep _ rfl rfl (by simp [Buf.next, Buf.dropFront, Buf.release])
  | drop n => exact keep _ rfl rfl (by simp [Buf.next, Buf.dropFront, Buf.release])
  | get => exact keep _ rfl rfl (by simp [Buf.next])
  | getLast => exact keep _ rfl rfl (by simp [Buf.next])
  | _ => exact keep _ rfl rfl (Nat.le_refl _)

theorem work_add_assoc (a b c : Work) : (a.add b).add c = a.add (b.add c) := by
  simp only [Work.add, Nat.add_assoc]

theorem paid_run (ops : List Op) : ∀ (b : Buf) (w : Work) (P c : Nat), Paid b w P c → (∀ op ∈ ops, Ordinary op) →
    ∃ c', Paid (b.final ops) (w.add (works b ops)) (P + accepted ops (b.outs ops)) c' := by
  induction ops with
  | nil => intro b w P c h _; exact ⟨c, h⟩
  | cons op ops ih =>
    intro b w P c h ho
    obtain ⟨c1, h1⟩ := paid_step h (ho op List.mem_cons_self)
    obtain ⟨c2, h2⟩ := ih _ _ _ _ h1 (fun op h => ho op (List.mem_cons_of_mem _ h))
    refine ⟨c2, ?_⟩
    simp only [works, Buf.outs, accepted, Buf.final]
    rw [← work_add_assoc, ← Nat.add_assoc]
    exact h2

end Verif.RingCost
