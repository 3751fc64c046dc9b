import Verif.Proof.IdleThreadsApart
import Verif.Model.IdleRelease

/-!
# Invariants of the idle queue which is released by another thread (helpers)
-/

namespace Verif.IdleRelease
open Verif.C Verif.IdleThreads

/-- What's known about the place where the thread is: `c` is the next item to be cancelled. -/
def RelOk (r : Rel) (s : State) (c : Nat) : Prop :=
  match r with
  | .off | .done => False
  | .start => True
  | .mark a => c ≤ a ∧ a < s.q.items.length ∧ Marked s.q.items c a
  | .markNext a => c ≤ a ∧ a < s.q.items.length ∧ Marked s.q.items c (a + 1)
  | .test => Marked s.q.items c s.q.items.length
  | .again | .item => c < s.q.items.length ∧ Marked s.q.items c s.q.items.length
  | .cond a | .take a => a = c ∧ c < s.q.items.length ∧ Marked s.q.items c s.q.items.length
  | .remove a n => a = c ∧ c < s.q.items.length ∧ (n = if c + 1 < s.q.items.length then some (c + 1) else none) ∧ Marked s.q.items c s.q.items.length
  | .empty a | .clear a | .destroy a => a + 1 = c ∧ Marked s.q.items c s.q.items.length ∧ ∃ i, s.q.items[a]? = some i ∧ i.freed = false
  | .free a => a + 1 = c ∧ Marked s.q.items c s.q.items.length ∧ ∃ i, s.q.items[a]? = some i ∧ i.freed = false
  | .fin | .source => c = s.q.items.length
  | .kill id => c = s.q.items.length ∧ s.q.source = some id
  | .zero => c = s.q.items.length ∧ s.q.live = []
  | .queue => c = s.q.items.length ∧ s.q.live = []

/-- How many of the items have been cancelled -/
def gone (r : Rel) (c : Nat) : Nat :=
  match r with
  | .empty a | .clear a | .destroy a => a
  | _ => c

/-- What's known while the queue is being released. `k` items have been run by the main loop. -/
structure RInv (s : State) (k c : Nat) : Prop where
  alive : s.alive = true
  data : adds s.q.hist = s.q.items.map (·.data)
  main : s.q.main = .idle
  work : s.q.work = .idle
  ran : runs s.q.hist = (adds s.q.hist).take k
  cancelled : s.cancelled = ((adds s.q.hist).take (gone s.rel c)).drop k
  k_le : k ≤ gone s.rel c
  le : c ≤ s.q.items.length
  first : s.rel ≠ .done → s.q.first = if c < s.q.items.length then some c else none
  chain : ChainOk s.q.items c s.q.items.length
  live : s.rel ≠ .zero → s.rel ≠ .queue → s.q.live = s.q.source.toList
  rel : RelOk s.rel s c

/-- What's known in general -/
def Inv (s : State) : Prop :=
  (s.rel = .off ∧ s.alive = true ∧ s.cancelled = [] ∧ ∃ k0 k, InvS s.q k0 k) ∨
  (Releasing s ∧ ∃ k c, RInv s k c) ∨
  (s.rel = .done ∧ s.alive = false ∧ s.q.main = .idle ∧ s.q.work = .idle ∧ s.q.live = [] ∧ runs s.q.hist ++ s.cancelled = adds s.q.hist)

/-- How many steps the thread still has to make, at most -/
def rwt (r : Rel) (c n : Nat) : Nat :=
  match r with
  | .off | .done => 0
  | .queue => 1
  | .zero => 2
  | .kill _ => 3
  | .source => 4
  | .fin => 5
  | .test => 10 * (n - c) + 6
  | .again => 10 * (n - c) + 5
  | .cond _ => 10 * (n - c) + 4
  | .item => 10 * (n - c) + 3
  | .take _ => 10 * (n - c) + 2
  | .remove _ _ => 10 * (n - c) + 1
  | .empty _ => 10 * (n - c) + 10
  | .clear _ => 10 * (n - c) + 9
  | .destroy _ => 10 * (n - c) + 8
  | .free _ => 10 * (n - c) + 7
  | .mark a => 10 * (n - c) + 7 + 2 * (n - a) + 1
  | .markNext a => 10 * (n - c) + 7 + 2 * (n - a)
  | .start => 10 * (n - c) + 7 + 2 * (n - c) + 2

/-- The thread has moved without changing the queue. -/
theorem rinv_rel {s : State} {k c : Nat} (h : RInv s k c) {r : Rel} (h0 : r ≠ .done) (h1 : gone r c = gone s.rel c)
    (h2 : r ≠ .zero ∧ r ≠ .queue → s.rel ≠ .zero ∧ s.rel ≠ .queue) (h3 : RelOk r s c) : RInv { s with rel := r } k c := by
  refine ⟨h.alive, h.data, h.main, h.work, h.ran, ?_, ?_, h.le, fun _ => h.first ?_, h.chain, fun a b => h.live (h2 ⟨a, b⟩).1 (h2 ⟨a, b⟩).2, ?_⟩
  · show s.cancelled = ((adds s.q.hist).take (gone r c)).drop k
    rw [h1]; exact h.cancelled
  · show k ≤ gone r c
    rw [h1]; exact h.k_le
  · intro e
    have := h.rel
    rw [e] at this
    exact this
  · cases r <;> exact h3

/-- What one step leads to -/
def Next (s s' : State) (k c : Nat) : Prop :=
  (∃ c', RInv s' k c' ∧ Releasing s' ∧ s'.q.items.length = s.q.items.length ∧ s'.q.hist = s.q.hist ∧ rwt s'.rel c' s.q.items.length < rwt s.rel c s.q.items.length) ∨
  (s'.rel = .done ∧ s'.alive = false ∧ s'.q.main = .idle ∧ s'.q.work = .idle ∧ s'.q.live = [] ∧ s'.q.hist = s.q.hist ∧ runs s'.q.hist ++ s'.cancelled = adds s'.q.hist)

theorem next_rel {s : State} {k c : Nat} (h : RInv s k c) (r : Rel) (h0 : r ≠ .done) (h00 : r ≠ .off) (h1 : gone r c = gone s.rel c)
    (h2 : r ≠ .zero ∧ r ≠ .queue → s.rel ≠ .zero ∧ s.rel ≠ .queue) (h3 : RelOk r s c) (h4 : rwt r c s.q.items.length < rwt s.rel c s.q.items.length) : Next s { s with rel := r } k c :=
  .inl ⟨c, rinv_rel h h0 h1 h2 h3, ⟨h00, h0⟩, rfl, rfl, h4⟩

theorem rel_ok {s : State} {k c : Nat} (h : RInv s k c) : ∃ s', relStep s = .ok s' ∧ Next s s' k c := by
  have hr := h.rel
  have hg := h.cancelled
  have hk := h.k_le
  have h1 := h.le
  have h2 := h.first
  have h4 := h.chain
  have h6 := h.live
  have nx := next_rel h
  cases e : s.rel with
  | off => rw [e] at hr; exact hr.elim
  | done => rw [e] at hr; exact hr.elim
  | start =>
    rw [e] at hr nx h2 hg hk h6
    have h2 := h2 (fun h => by cases h)
    by_cases hc : c < s.q.items.length
    · rw [if_pos hc] at h2
      exact ⟨_, by unfold relStep; rw [e]; dsimp only; rw [h2], nx (.mark c) (fun h => by cases h) (fun h => by cases h) rfl (fun _ => ⟨(fun h => by cases h), (fun h => by cases h)⟩)
        ⟨Nat.le_refl _, hc, fun p i hp hl => by omega⟩ (by simp only [rwt]; omega)⟩
    · rw [if_neg hc] at h2
      exact ⟨_, by unfold relStep; rw [e]; dsimp only; rw [h2], nx .test (fun h => by cases h) (fun h => by cases h) rfl (fun _ => ⟨(fun h => by cases h), (fun h => by cases h)⟩)
        (fun p i hp hl => by omega) (by simp only [rwt]; omega)⟩
  | mark a =>
    rw [e] at hr h2 hg hk h6
    obtain ⟨m1, m2, m3⟩ := hr
    obtain ⟨i, i1, i2, i3⟩ := h4 a m1 m2
    have el : (s.q.items.set a { i with completed := true }).length = s.q.items.length := List.length_set
    refine ⟨{ s with q := put s.q a { i with completed := true }, rel := .markNext a }, by unfold relStep; rw [e]; dsimp only; rw [get_eq i1 i2, ok_bind], .inl ⟨c, ?_, ⟨(fun h => by cases h), (fun h => by cases h)⟩, el, rfl, by rw [e]; simp only [rwt]; omega⟩⟩
    refine ⟨h.alive, h.data.trans (map_set (j := { i with completed := true }) i1 rfl).symm, h.main, h.work, h.ran, hg, hk, by rw [show (put s.q a _).items.length = s.q.items.length from el]; exact h1, ?_, ?_, fun _ _ => h6 (fun h => by cases h) (fun h => by cases h), ?_⟩
    · intro _
      show s.q.first = if c < (s.q.items.set a _).length then _ else _
      rw [el]
      exact h2 (fun h => by cases h)
    · show ChainOk (s.q.items.set a _) c (s.q.items.set a _).length
      rw [el]
      exact chain_set h4 (.inr ⟨i, i1, rfl, rfl⟩)
    · refine ⟨m1, by show a < (s.q.items.set a _).length; rw [el]; exact m2, ?_⟩
      intro p x hp hl hx
      have hx : (s.q.items.set a { i with completed := true })[p]? = some x := hx
      rw [List.getElem?_set] at hx
      by_cases e2 : a = p
      · rw [if_pos e2, if_pos (by omega)] at hx
        cases hx
        rfl
      · rw [if_neg e2] at hx
        exact m3 p x hp (by omega) hx
  | markNext a =>
    rw [e] at hr nx h2 hg hk h6
    obtain ⟨m1, m2, m3⟩ := hr
    obtain ⟨i, i1, i2, i3⟩ := h4 a m1 m2
    by_cases hc : a + 1 < s.q.items.length
    · rw [if_pos hc] at i3
      exact ⟨_, by unfold relStep; rw [e]; dsimp only; rw [get_eq i1 i2, ok_bind, i3], nx (.mark (a + 1)) (fun h => by cases h) (fun h => by cases h) rfl (fun _ => ⟨(fun h => by cases h), (fun h => by cases h)⟩)
        ⟨by omega, hc, m3⟩ (by simp only [rwt]; omega)⟩
    · rw [if_neg hc] at i3
      have en : a + 1 = s.q.items.length := by omega
      exact ⟨_, by unfold relStep; rw [e]; dsimp only; rw [get_eq i1 i2, ok_bind, i3], nx .test (fun h => by cases h) (fun h => by cases h) rfl (fun _ => ⟨(fun h => by cases h), (fun h => by cases h)⟩)
        (by show Marked _ _ _; rw [← en]; exact m3) (by simp only [rwt]; omega)⟩
  | test =>
    rw [e] at hr nx h2 hg hk h6
    have h2 := h2 (fun h => by cases h)
    by_cases hc : c < s.q.items.length
    · rw [if_pos hc] at h2
      exact ⟨_, by unfold relStep; rw [e]; dsimp only; rw [if_pos (by rw [h2]; rfl)], nx .again (fun h => by cases h) (fun h => by cases h) rfl (fun _ => ⟨(fun h => by cases h), (fun h => by cases h)⟩)
        ⟨hc, hr⟩ (by simp only [rwt]; omega)⟩
    · rw [if_neg hc] at h2
      exact ⟨_, by unfold relStep; rw [e]; dsimp only; rw [if_neg (by rw [h2]; decide)], nx .fin (fun h => by cases h) (fun h => by cases h) rfl (fun _ => ⟨(fun h => by cases h), (fun h => by cases h)⟩)
        (by show c = _; omega) (by simp only [rwt]; omega)⟩
  | again =>
    rw [e] at hr nx h2 hg hk h6
    have h2 := h2 (fun h => by cases h)
    rw [if_pos hr.1] at h2
    refine ⟨{ s with rel := .cond c }, ?_, nx (.cond c) (fun h => by cases h) (fun h => by cases h) rfl (fun _ => ⟨(fun h => by cases h), (fun h => by cases h)⟩)
        ⟨rfl, hr⟩ (by simp only [rwt]; omega)⟩
    unfold relStep
    rw [e]
    dsimp only
    split <;> simp_all
  | cond a =>
    rw [e] at hr nx h2 hg hk h6
    obtain ⟨rfl, m1, m2⟩ := hr
    obtain ⟨i, i1, i2, i3⟩ := h4 a (Nat.le_refl _) m1
    have hc := m2 a i (Nat.le_refl _) m1 i1
    exact ⟨_, by unfold relStep; rw [e]; dsimp only; rw [get_eq i1 i2, ok_bind, if_pos hc], nx .item (fun h => by cases h) (fun h => by cases h) rfl (fun _ => ⟨(fun h => by cases h), (fun h => by cases h)⟩)
        ⟨m1, m2⟩ (by simp only [rwt]; omega)⟩
  | item =>
    rw [e] at hr nx h2 hg hk h6
    have h2 := h2 (fun h => by cases h)
    rw [if_pos hr.1] at h2
    refine ⟨{ s with rel := .take c }, ?_, nx (.take c) (fun h => by cases h) (fun h => by cases h) rfl (fun _ => ⟨(fun h => by cases h), (fun h => by cases h)⟩)
        ⟨rfl, hr⟩ (by simp only [rwt]; omega)⟩
    unfold relStep
    rw [e]
    dsimp only
    split <;> simp_all
  | take a =>
    rw [e] at hr nx h2 hg hk h6
    obtain ⟨rfl, m1, m2⟩ := hr
    obtain ⟨i, i1, i2, i3⟩ := h4 a (Nat.le_refl _) m1
    exact ⟨_, by unfold relStep; rw [e]; dsimp only; rw [get_eq i1 i2, ok_bind], nx (.remove a i.next) (fun h => by cases h) (fun h => by cases h) rfl (fun _ => ⟨(fun h => by cases h), (fun h => by cases h)⟩)
        ⟨rfl, m1, i3, m2⟩ (by simp only [rwt]; omega)⟩
  | remove a n =>
    rw [e] at hr h2 hg hk h6
    obtain ⟨rfl, m1, m2, m3⟩ := hr
    obtain ⟨i, i1, i2, i3⟩ := h4 a (Nat.le_refl _) m1
    refine ⟨{ s with q := { s.q with first := n }, rel := .empty a }, by unfold relStep; rw [e], .inl ⟨a + 1, ?_, ⟨(fun h => by cases h), (fun h => by cases h)⟩, rfl, rfl, by rw [e]; simp only [rwt]; omega⟩⟩
    refine ⟨h.alive, h.data, h.main, h.work, h.ran, hg, hk, by show a + 1 ≤ s.q.items.length; omega, fun _ => m2, fun p hp hl => h4 p (by omega) hl, fun _ _ => h6 (fun h => by cases h) (fun h => by cases h), ?_⟩
    exact ⟨rfl, fun p i hp hl hi => m3 p i (by omega) hl hi, i, i1, i2⟩
  | empty a =>
    rw [e] at hr nx h2 hg hk h6
    have h2 := h2 (fun h => by cases h)
    by_cases hc : c < s.q.items.length
    · rw [if_pos hc] at h2
      exact ⟨_, by unfold relStep; rw [e]; dsimp only; rw [if_neg (by rw [h2]; exact Bool.false_ne_true)], nx (.destroy a) (fun h => by cases h) (fun h => by cases h) rfl (fun _ => ⟨(fun h => by cases h), (fun h => by cases h)⟩)
        hr (by simp only [rwt]; omega)⟩
    · rw [if_neg hc] at h2
      exact ⟨_, by unfold relStep; rw [e]; dsimp only; rw [if_pos (by rw [h2]; rfl)], nx (.clear a) (fun h => by cases h) (fun h => by cases h) rfl (fun _ => ⟨(fun h => by cases h), (fun h => by cases h)⟩)
        hr (by simp only [rwt]; omega)⟩
  | clear a =>
    rw [e] at hr h2 hg hk h6
    refine ⟨{ s with q := { s.q with last := none }, rel := .destroy a }, by unfold relStep; rw [e], .inl ⟨c, ?_, ⟨(fun h => by cases h), (fun h => by cases h)⟩, rfl, rfl, by rw [e]; simp only [rwt]; omega⟩⟩
    exact ⟨h.alive, h.data, h.main, h.work, h.ran, hg, hk, h1, fun _ => h2 (fun h => by cases h), h4, fun _ _ => h6 (fun h => by cases h) (fun h => by cases h), hr⟩
  | destroy a =>
    rw [e] at hr h2 hg hk h6
    obtain ⟨rfl, m1, i, i1, i2⟩ := hr
    have hg : s.cancelled = ((adds s.q.hist).take a).drop k := hg
    have hk : k ≤ a := hk
    refine ⟨{ s with rel := .free a, cancelled := s.cancelled ++ [i.data] }, by unfold relStep; rw [e]; dsimp only; rw [get_eq i1 i2, ok_bind], .inl ⟨a + 1, ?_, ⟨(fun h => by cases h), (fun h => by cases h)⟩, rfl, rfl, by rw [e]; simp only [rwt]; omega⟩⟩
    refine ⟨h.alive, h.data, h.main, h.work, h.ran, ?_, by show k ≤ a + 1; omega, h1, fun _ => h2 (fun h => by cases h), h4, fun _ _ => h6 (fun h => by cases h) (fun h => by cases h), rfl, m1, i, i1, i2⟩
    show s.cancelled ++ [i.data] = ((adds s.q.hist).take (a + 1)).drop k
    have hd : (adds s.q.hist)[a]? = some i.data := by rw [h.data, List.getElem?_map, i1]; rfl
    rw [List.take_add_one, hd, List.drop_append_of_le_length, hg]
    · rfl
    · rw [List.length_take, h.data, List.length_map]
      omega
  | free a =>
    rw [e] at hr h2 hg hk h6
    obtain ⟨rfl, m1, i, i1, i2⟩ := hr
    have el : (s.q.items.set a { i with freed := true }).length = s.q.items.length := List.length_set
    refine ⟨{ s with q := put s.q a { i with freed := true }, rel := .test }, by unfold relStep; rw [e]; dsimp only; rw [get_eq i1 i2, ok_bind], .inl ⟨a + 1, ?_, ⟨(fun h => by cases h), (fun h => by cases h)⟩, el, rfl, by rw [e]; simp only [rwt]; omega⟩⟩
    refine ⟨h.alive, h.data.trans (map_set (j := { i with freed := true }) i1 rfl).symm, h.main, h.work, h.ran, hg, hk, by rw [show (put s.q a _).items.length = s.q.items.length from el]; exact h1, ?_, ?_, fun _ _ => h6 (fun h => by cases h) (fun h => by cases h), ?_⟩
    · intro _
      show s.q.first = if a + 1 < (s.q.items.set a _).length then _ else _
      rw [el]
      exact h2 (fun h => by cases h)
    · show ChainOk (s.q.items.set a _) (a + 1) (s.q.items.set a _).length
      rw [el]
      exact chain_set h4 (.inl (by omega))
    · show Marked (s.q.items.set a _) (a + 1) (s.q.items.set a _).length
      rw [el]
      exact marked_set m1 (.inr (by omega))
  | fin =>
    rw [e] at hr nx h2 hg hk h6
    have h2 := h2 (fun h => by cases h)
    have hr : c = s.q.items.length := hr
    rw [if_neg (by omega)] at h2
    exact ⟨_, by unfold relStep; rw [e]; dsimp only; rw [if_pos (by rw [h2]; rfl)], nx .source (fun h => by cases h) (fun h => by cases h) rfl (fun _ => ⟨(fun h => by cases h), (fun h => by cases h)⟩)
        hr (by simp only [rwt]; omega)⟩
  | source =>
    rw [e] at hr nx h2 hg hk h6
    have h6 := h6 (fun h => by cases h) (fun h => by cases h)
    cases hx : s.q.source with
    | none =>
      refine ⟨_, by unfold relStep; rw [e]; dsimp only; rw [hx], nx .queue (fun h => by cases h) (fun h => by cases h) rfl (fun h => (h.2 rfl).elim)
        ⟨hr, ?_⟩ (by simp only [rwt]; omega)⟩
      rw [h6, hx]
      rfl
    | some id =>
      exact ⟨_, by unfold relStep; rw [e]; dsimp only; rw [hx], nx (.kill id) (fun h => by cases h) (fun h => by cases h) rfl (fun _ => ⟨(fun h => by cases h), (fun h => by cases h)⟩)
        ⟨hr, hx⟩ (by simp only [rwt]; omega)⟩
  | kill id =>
    rw [e] at hr h2 hg hk h6
    have h6 := h6 (fun h => by cases h) (fun h => by cases h)
    refine ⟨{ s with q := { s.q with live := s.q.live.erase id }, rel := .zero }, by unfold relStep; rw [e], .inl ⟨c, ?_, ⟨(fun h => by cases h), (fun h => by cases h)⟩, rfl, rfl, by rw [e]; simp only [rwt]; omega⟩⟩
    refine ⟨h.alive, h.data, h.main, h.work, h.ran, hg, hk, h1, fun _ => h2 (fun h => by cases h), h4, fun h => (h rfl).elim, hr.1, ?_⟩
    show s.q.live.erase id = []
    rw [h6, hr.2]
    simp
  | zero =>
    rw [e] at hr h2 hg hk h6
    refine ⟨{ s with q := { s.q with source := none }, rel := .queue }, by unfold relStep; rw [e], .inl ⟨c, ?_, ⟨(fun h => by cases h), (fun h => by cases h)⟩, rfl, rfl, by rw [e]; simp only [rwt]; omega⟩⟩
    exact ⟨h.alive, h.data, h.main, h.work, h.ran, hg, hk, h1, fun _ => h2 (fun h => by cases h), h4, fun _ h => (h rfl).elim, hr⟩
  | queue =>
    rw [e] at hr h2 hg hk h6
    obtain ⟨rfl, hl⟩ := hr
    refine ⟨{ s with alive := false, rel := .done }, by unfold relStep; rw [e], .inr ⟨rfl, rfl, h.main, h.work, hl, rfl, ?_⟩⟩
    show runs s.q.hist ++ s.cancelled = adds s.q.hist
    have hg : s.cancelled = ((adds s.q.hist).take s.q.items.length).drop k := hg
    rw [hg, h.ran, List.take_of_length_le (i := s.q.items.length) (by rw [h.data, List.length_map]; exact Nat.le_refl _)]
    exact List.take_append_drop k _

/-- What's allowed is possible, and the invariant is kept. -/
theorem step_inv {s : State} (h : Inv s) {a : Act} (ha : Allowed s a) (hp : Apart s a) : ∃ s', step s a = .ok s' ∧ Inv s' := by
  rcases h with ⟨h0, h1, h2, k0, k, hi⟩ | ⟨h0, k, c, hi⟩ | ⟨h0, h1, h2, h3, h4, h5⟩
  · cases a with
    | add d =>
      obtain ⟨q, k0', k', e, hi'⟩ := step_ok hi (a := .add d) ha.1 hp
      cases e
      exact ⟨_, rfl, .inl ⟨h0, h1, h2, k0', k', hi'⟩⟩
    | work =>
      obtain ⟨q, k0', k', e, hi'⟩ := step_ok hi (a := .work) ha trivial
      refine ⟨{ s with q := q }, ?_, .inl ⟨h0, h1, h2, k0', k', hi'⟩⟩
      show (IdleThreads.workStep s.q >>= fun q => .ok { s with q := q }) = _
      rw [show IdleThreads.workStep s.q = .ok q from e, ok_bind]
    | dispatch id =>
      obtain ⟨q, k0', k', e, hi'⟩ := step_ok hi (a := .dispatch id) ha hp.1
      cases e
      exact ⟨_, rfl, .inl ⟨h0, h1, h2, k0', k', hi'⟩⟩
    | main =>
      obtain ⟨q, k0', k', e, hi'⟩ := step_ok hi (a := .main) ha trivial
      refine ⟨{ s with q := q }, ?_, .inl ⟨h0, h1, h2, k0', k', hi'⟩⟩
      show mainStep s = _
      unfold mainStep
      rw [if_neg (fun h => h.2 h1), show IdleThreads.mainStep s.q = .ok q from e, ok_bind]
    | unref =>
      have hw : s.q.work = .idle := ha.1
      have hm : s.q.main = .idle := Classical.byContradiction (fun hn => hp (hi.running.2 hn))
      refine ⟨_, rfl, .inr (.inl ⟨⟨(fun h => by cases h), (fun h => by cases h)⟩, k, k, ?_⟩)⟩
      have m1 := hi.main
      have m2 := hi.src
      have m3 := hi.first
      have m4 := hi.chain
      have m5 := hi.le
      rw [hm] at m1 m2
      rw [hw] at m2 m3 m4 m5
      refine ⟨h1, hi.data, hm, hw, m1.2, ?_, Nat.le_refl _, m5, fun _ => m3, m4, fun _ _ => m2.2, trivial⟩
      show s.cancelled = ((adds s.q.hist).take k).drop k
      rw [h2, List.drop_eq_nil_of_le]
      rw [List.length_take]
      omega
    | release => exact (ha.1 h0).elim
  · cases a with
    | add d => exact (h0.1 ha.2).elim
    | work => exact (ha hi.work).elim
    | dispatch id => exact (hp.2 h0).elim
    | main => exact (ha hi.main).elim
    | unref => exact (h0.1 ha.2).elim
    | release =>
      obtain ⟨s', e, hn⟩ := rel_ok hi
      refine ⟨s', e, ?_⟩
      rcases hn with ⟨c', n1, n2, -⟩ | ⟨n1, n2, n3, n4, n5, -, n6⟩
      · exact .inr (.inl ⟨n2, k, c', n1⟩)
      · exact .inr (.inr ⟨n1, n2, n3, n4, n5, n6⟩)
  · cases a with
    | add d => have := ha.2; rw [h0] at this; cases this
    | work => exact (ha h3).elim
    | dispatch id => have := ha.2; rw [h4] at this; cases this
    | main => exact (ha h2).elim
    | unref => have := ha.2; rw [h0] at this; cases this
    | release => exact (ha.2 h0).elim

theorem reach_inv {s : State} (h : Reach Apart s) : Inv s := by
  induction h with
  | init => exact .inl ⟨rfl, rfl, rfl, 0, 0, init_ok⟩
  | @step s s' a _ ha hp hs ih =>
    obtain ⟨s2, h1, h2⟩ := step_inv ih ha hp
    rw [hs] at h1
    cases h1
    exact h2

theorem rel_runs : ∀ (w : Nat) {s : State} {k c : Nat}, RInv s k c → rwt s.rel c s.q.items.length ≤ w →
    ∃ n s', n ≤ w ∧ exec s (List.replicate n .release) = .ok s' ∧ s'.rel = .done ∧ s'.alive = false ∧ s'.q.live = [] ∧ s'.q.hist = s.q.hist ∧
      runs s'.q.hist ++ s'.cancelled = adds s'.q.hist := by
  intro w
  induction w with
  | zero =>
    intro s k c h hw
    exfalso
    have := h.rel
    cases e : s.rel with
    | off => rw [e] at this; exact this
    | done => rw [e] at this; exact this
    | _ => rw [e] at hw; simp only [rwt] at hw; omega
  | succ w ih =>
    intro s k c h hw
    obtain ⟨s', e, hn⟩ := rel_ok h
    rcases hn with ⟨c', n1, n2, n3, n4, n5⟩ | ⟨n1, n2, n3, n4, n5, n6, n7⟩
    · obtain ⟨n, t, b1, b2, b3, b4, b5, b6, b7⟩ := ih n1 (by rw [n3]; omega)
      refine ⟨n + 1, t, by omega, ?_, b3, b4, b5, b6.trans n4, b7⟩
      rw [List.replicate_succ]
      show (relStep s >>= fun s => exec s _) = _
      rw [e, ok_bind]
      exact b2
    · refine ⟨1, s', by omega, ?_, n1, n2, n5, n6, n7⟩
      show (relStep s >>= fun s => exec s []) = _
      rw [e, ok_bind]
      rfl

end Verif.IdleRelease
