import Verif.Model.IdleThreads

/-!
# Invariants of the idle queue which another thread adds to (helpers)
-/

namespace Verif.IdleThreads
open Verif.C

theorem get_ok {s : State} {a : Nat} {i : Item} (h : get s a = .ok i) : s.items[a]? = some i ∧ i.freed = false := by
  unfold get at h
  split at h
  · rename_i j hj
    split at h
    · cases h
    · rename_i hf; cases h; exact ⟨hj, by simpa using hf⟩
  · cases h

theorem get_eq {s : State} {a : Nat} {i : Item} (h : s.items[a]? = some i) (hf : i.freed = false) : get s a = .ok i := by
  unfold get
  rw [h]
  dsimp only
  rw [if_neg (by rw [hf]; decide)]

theorem bind_ok {α β : Type} {x : M α} {f : α → M β} {b : β} (h : (x >>= f) = .ok b) : ∃ a, x = .ok a ∧ f a = .ok b := by
  cases x with
  | error e => rw [error_bind] at h; cases h
  | ok a => rw [ok_bind] at h; exact ⟨a, rfl, h⟩

theorem map_set {l : List Item} {a : Nat} {i j : Item} (h : l[a]? = some i) (hd : j.data = i.data) : (l.set a j).map (·.data) = l.map (·.data) := by
  apply List.ext_getElem?
  intro k
  simp only [List.getElem?_map, List.getElem?_set]
  split
  · rename_i e
    subst e
    split
    · rw [h]; simp [hd]
    · rename_i hl
      rw [List.getElem?_eq_none (by omega)] at h
      cases h
  · rfl

theorem adds_append (h g : List Event) : adds (h ++ g) = adds h ++ adds g := List.filterMap_append ..
theorem runs_append (h g : List Event) : runs (h ++ g) = runs h ++ runs g := List.filterMap_append ..

theorem adds_adding (h : List Event) (d : Nat) : adds (h ++ [.adding d]) = adds h ++ [d] := by rw [adds_append]; rfl
theorem adds_added (h : List Event) : adds (h ++ [.added]) = adds h := by rw [adds_append]; exact List.append_nil _
theorem adds_running (h : List Event) : adds (h ++ [.running]) = adds h := by rw [adds_append]; exact List.append_nil _
theorem adds_ran (h : List Event) (d : Nat) : adds (h ++ [.ran d]) = adds h := by rw [adds_append]; exact List.append_nil _
theorem adds_finished (h : List Event) : adds (h ++ [.finished]) = adds h := by rw [adds_append]; exact List.append_nil _
theorem runs_adding (h : List Event) (d : Nat) : runs (h ++ [.adding d]) = runs h := by rw [runs_append]; exact List.append_nil _
theorem runs_added (h : List Event) : runs (h ++ [.added]) = runs h := by rw [runs_append]; exact List.append_nil _
theorem runs_running (h : List Event) : runs (h ++ [.running]) = runs h := by rw [runs_append]; exact List.append_nil _
theorem runs_ran (h : List Event) (d : Nat) : runs (h ++ [.ran d]) = runs h ++ [d] := by rw [runs_append]; rfl
theorem runs_finished (h : List Event) : runs (h ++ [.finished]) = runs h := by rw [runs_append]; exact List.append_nil _

/-- Items below this address are in the queue or have been there. -/
def hi (w : Work) (n : Nat) : Nat :=
  match w with
  | .test a | .last a | .link a _ | .first a => a
  | _ => n

/-- What's known about the thread in any case -/
def WorkAny (w : Work) (n : Nat) : Prop :=
  match w with
  | .test a | .last a | .first a => a + 1 = n
  | .link a b => a + 1 = n ∧ b < a
  | .tail a => a + 1 = n
  | _ => True

/-- What's known about the main loop in any case -/
def MainAny (m : Main) (hi lo : Nat) (data ran : List Nat) : Prop :=
  match m with
  | .cond _ a _ | .take _ a _ => lo ≤ a ∧ a < hi
  | .remove _ a n _ => lo ≤ a ∧ a < hi ∧ ∀ q, n = some q → a < q ∧ q < hi
  | .empty _ a _ | .clear _ a _ | .push _ a _ | .call _ a => a < lo ∧ ran.Sublist (data.take a)
  | _ => True

theorem MainAny.mono {m : Main} {hi hi' lo : Nat} {data ran : List Nat} (h : MainAny m hi lo data ran) (hl : hi ≤ hi') : MainAny m hi' lo data ran := by
  unfold MainAny at h ⊢
  split <;> simp_all
  · omega
  · omega
  · refine ⟨by omega, fun q hq => ?_⟩
    have := h.2.2 q hq
    omega

theorem MainAny.snoc {m : Main} {hi lo d : Nat} {data ran : List Nat} (h : MainAny m hi lo data ran) : MainAny m hi lo (data ++ [d]) ran := by
  have key : ∀ a, ran.Sublist (data.take a) → ran.Sublist ((data ++ [d]).take a) := by
    intro a h
    rw [List.take_append]
    exact h.trans (List.sublist_append_left _ _)
  unfold MainAny at h ⊢
  split <;> simp_all

/-- What's known about the queue in any case: items which are still to be taken are at the address `lo` or above that. -/
structure InvAny (s : State) (lo : Nat) : Prop where
  data : adds s.hist = s.items.map (·.data)
  ran : (runs s.hist).Sublist ((adds s.hist).take lo)
  lo_le : lo ≤ hi s.work s.items.length
  hi_le : hi s.work s.items.length ≤ s.items.length
  first : ∀ a, s.first = some a → lo ≤ a ∧ a < hi s.work s.items.length
  next : ∀ (p : Nat) i q, s.items[p]? = some i → lo ≤ p → i.next = some q → p < q ∧ q < hi s.work s.items.length
  last : ∀ b, s.last = some b → b < hi s.work s.items.length
  work : WorkAny s.work s.items.length
  main : MainAny s.main (hi s.work s.items.length) lo (adds s.hist) (runs s.hist)

/-- The thread has moved, and nothing that matters has changed. -/
theorem any_work {s : State} {lo : Nat} (h : InvAny s lo) {s' : State} (hi1 : s'.items = s.items) (h0 : s'.first = s.first) (h1 : s'.last = s.last) (h2 : s'.main = s.main)
    (h3 : adds s'.hist = adds s.hist) (h4 : runs s'.hist = runs s.hist) (h5 : hi s'.work s.items.length = hi s.work s.items.length) (h6 : WorkAny s'.work s.items.length) :
    InvAny s' lo := by
  refine ⟨?_, ?_, ?_, ?_, ?_, ?_, ?_, ?_, ?_⟩
  · rw [h3, hi1]; exact h.data
  · rw [h3, h4]; exact h.ran
  · rw [hi1, h5]; exact h.lo_le
  · rw [hi1, h5]; exact h.hi_le
  · rw [hi1, h5, h0]; exact h.first
  · rw [hi1, h5]; exact h.next
  · rw [hi1, h5, h1]; exact h.last
  · rw [hi1]; exact h6
  · rw [hi1, h5, h2, h3, h4]; exact h.main

theorem work_any {s s' : State} {lo : Nat} (h : InvAny s lo) (hs : workStep s = .ok s') : InvAny s' lo := by
  have hw := h.work
  have h1 := h.lo_le
  have h2 := h.hi_le
  unfold workStep at hs
  cases e : s.work with
  | idle => rw [e] at hs; cases hs
  | test a =>
    rw [e] at hs hw
    cases hs
    refine any_work h rfl rfl rfl rfl rfl rfl ?_ ?_
    · rw [e]; dsimp only; split <;> rfl
    · dsimp only; split <;> exact hw
  | last a =>
    rw [e] at hs hw
    dsimp only at hs
    split at hs
    · rename_i b hb
      cases hs
      refine any_work h rfl rfl rfl rfl rfl rfl (by rw [e]; rfl) ⟨hw, ?_⟩
      have := h.last b hb
      rw [e] at this
      exact this
    · cases hs
  | link a b =>
    rw [e] at hs hw h1 h2
    dsimp only at hs
    obtain ⟨i, hg, hs⟩ := bind_ok hs
    cases hs
    obtain ⟨hg, -⟩ := get_ok hg
    have em : (s.items.set b { i with next := some a }).map (·.data) = s.items.map (·.data) := map_set hg rfl
    have hm : MainAny s.main a lo (adds s.hist) (runs s.hist) := by have := h.main; rw [e] at this; exact this
    have hn : ∀ (p : Nat) i q, s.items[p]? = some i → lo ≤ p → i.next = some q → p < q ∧ q < a := by have := h.next; rw [e] at this; exact this
    have hf : ∀ x, s.first = some x → lo ≤ x ∧ x < a := by have := h.first; rw [e] at this; exact this
    have hl : ∀ x, s.last = some x → x < a := by have := h.last; rw [e] at this; exact this
    have hw : a + 1 = s.items.length ∧ b < a := hw
    have h1 : lo ≤ a := h1
    refine ⟨h.data.trans em.symm, h.ran, ?_, ?_, ?_, ?_, ?_, ?_, ?_⟩ <;> dsimp only [put, hi, WorkAny] <;> rw [List.length_set]
    · omega
    · exact Nat.le_refl _
    · intro x hx; have := hf x hx; omega
    · intro p x q hp hl hq
      rw [List.getElem?_set] at hp
      by_cases e2 : b = p
      · rw [if_pos e2] at hp
        split at hp
        · cases hp; cases hq; omega
        · cases hp
      · rw [if_neg e2] at hp
        have := hn p x q hp hl hq; omega
    · intro x hx; have := hl x hx; omega
    · exact hw.1
    · exact hm.mono (by omega)
  | first a =>
    rw [e] at hs hw h1 h2
    have hm : MainAny s.main a lo (adds s.hist) (runs s.hist) := by have := h.main; rw [e] at this; exact this
    have hn : ∀ (p : Nat) i q, s.items[p]? = some i → lo ≤ p → i.next = some q → p < q ∧ q < a := by have := h.next; rw [e] at this; exact this
    have hl : ∀ x, s.last = some x → x < a := by have := h.last; rw [e] at this; exact this
    have hw : a + 1 = s.items.length := hw
    have h1 : lo ≤ a := h1
    cases hs
    refine ⟨h.data, h.ran, ?_, Nat.le_refl _, ?_, ?_, ?_, hw, hm.mono (by dsimp only [hi]; omega)⟩ <;> dsimp only [hi]
    · omega
    · intro x hx; cases hx; omega
    · intro p x q hp hl hq; have := hn p x q hp hl hq; omega
    · intro x hx; have := hl x hx; omega
  | tail a =>
    rw [e] at hs hw
    have hw : a + 1 = s.items.length := hw
    cases hs
    have eh : hi s.work s.items.length = s.items.length := by rw [e]; rfl
    refine ⟨h.data, h.ran, ?_, Nat.le_refl _, ?_, ?_, ?_, trivial, ?_⟩
    · rw [eh] at h1; exact h1
    · have := h.first; rw [eh] at this; exact this
    · have := h.next; rw [eh] at this; exact this
    · intro x hx; cases hx; dsimp only [hi]; omega
    · have := h.main; rw [eh] at this; exact this
  | source =>
    rw [e] at hs
    dsimp only at hs
    split at hs <;> cases hs
    · exact any_work h rfl rfl rfl rfl (adds_added _) (runs_added _) (by rw [e]; rfl) trivial
    · exact any_work h rfl rfl rfl rfl rfl rfl (by rw [e]; rfl) trivial
  | attach =>
    rw [e] at hs
    cases hs
    exact any_work h rfl rfl rfl rfl rfl rfl (by rw [e]; rfl) trivial
  | store id =>
    rw [e] at hs
    cases hs
    exact any_work h rfl rfl rfl rfl (adds_added _) (runs_added _) (by rw [e]; rfl) trivial

theorem add_any {s : State} {lo : Nat} (h : InvAny s lo) (hw : s.work = .idle) (d : Nat) : InvAny (add s d) lo := by
  have eh : hi s.work s.items.length = s.items.length := by rw [hw]; rfl
  refine ⟨?_, ?_, ?_, ?_, ?_, ?_, ?_, ?_, ?_⟩
  · show adds (s.hist ++ [.adding d]) = _
    rw [adds_adding, h.data]; simp [add]
  · show (runs (s.hist ++ [.adding d])).Sublist ((adds (s.hist ++ [.adding d])).take lo)
    rw [adds_adding, runs_adding, List.take_append]
    exact h.ran.trans (List.sublist_append_left _ _)
  · have := h.lo_le; rw [eh] at this; exact this
  · show s.items.length ≤ (s.items ++ [_]).length
    rw [List.length_append]; omega
  · have := h.first; rw [eh] at this; exact this
  · intro p i q hp hl hn
    have hp : (s.items ++ [⟨d, none, false, false⟩])[p]? = some i := hp
    rw [List.getElem?_append] at hp
    split at hp
    · have := h.next p i q hp hl hn; rw [eh] at this; exact this
    · cases hk : p - s.items.length with
      | zero => rw [hk] at hp; cases hp; cases hn
      | succ k => rw [hk] at hp; simp at hp
  · have := h.last; rw [eh] at this; exact this
  · show s.items.length + 1 = (s.items ++ [_]).length
    rw [List.length_append]; rfl
  · show MainAny s.main s.items.length lo (adds (s.hist ++ [.adding d])) (runs (s.hist ++ [.adding d]))
    rw [adds_adding, runs_adding]
    have := h.main
    rw [eh] at this
    exact this.snoc

/-- The main loop has moved, and nothing that matters has changed. -/
theorem any_main {s : State} {lo : Nat} (h : InvAny s lo) {s' : State} (hi1 : s'.items = s.items) (h0 : s'.first = s.first) (h1 : ∀ b, s'.last = some b → s.last = some b) (h2 : s'.work = s.work)
    (h3 : adds s'.hist = adds s.hist) (h4 : runs s'.hist = runs s.hist) (h5 : MainAny s'.main (hi s.work s.items.length) lo (adds s.hist) (runs s.hist)) :
    InvAny s' lo := by
  refine ⟨?_, ?_, ?_, ?_, ?_, ?_, ?_, ?_, ?_⟩
  · rw [h3, hi1]; exact h.data
  · rw [h3, h4]; exact h.ran
  · rw [hi1, h2]; exact h.lo_le
  · rw [hi1, h2]; exact h.hi_le
  · rw [hi1, h2, h0]; exact h.first
  · rw [hi1, h2]; exact h.next
  · rw [hi1, h2]; exact fun b hb => h.last b (h1 b hb)
  · rw [hi1, h2]; exact h.work
  · rw [hi1, h2, h3, h4]; exact h5

/-- The main loop has changed an item but not its `next` (unless the item has been taken). -/
theorem any_put {s : State} {lo a : Nat} {i j : Item} (h : InvAny s lo) (hg : s.items[a]? = some i) (hd : j.data = i.data) (hn : j.next = i.next ∨ a < lo) {m : Main}
    (h5 : MainAny m (hi s.work s.items.length) lo (adds s.hist) (runs s.hist)) : InvAny { put s a j with main := m } lo := by
  have el : (s.items.set a j).length = s.items.length := List.length_set
  refine ⟨h.data.trans (map_set hg hd).symm, h.ran, ?_, ?_, ?_, ?_, ?_, ?_, ?_⟩ <;> dsimp only [put] <;> rw [el]
  · exact h.lo_le
  · exact h.hi_le
  · exact h.first
  · intro p x q hp hl hq
    rw [List.getElem?_set] at hp
    by_cases e2 : a = p
    · rw [if_pos e2] at hp
      split at hp
      · cases hp
        rcases hn with hn | hn
        · subst e2
          exact h.next a i q hg hl (hn ▸ hq)
        · omega
      · cases hp
    · rw [if_neg e2] at hp
      exact h.next p x q hp hl hq
  · exact h.last
  · exact h.work
  · exact h5

theorem main_any {s s' : State} {lo : Nat} (h : InvAny s lo) (hs : mainStep s = .ok s') : ∃ lo', InvAny s' lo' := by
  have hm := h.main
  unfold mainStep at hs
  cases e : s.main with
  | idle => rw [e] at hs; cases hs
  | start id =>
    rw [e] at hs
    cases hs
    refine ⟨lo, any_main h rfl rfl (fun _ h => h) rfl rfl rfl ?_⟩
    dsimp only; split <;> trivial
  | mark id a =>
    rw [e] at hs
    obtain ⟨i, hg, hs⟩ := bind_ok hs
    cases hs
    exact ⟨lo, any_put (m := .markNext id a) (j := { i with completed := true }) h (get_ok hg).1 rfl (.inl rfl) trivial⟩
  | markNext id a =>
    rw [e] at hs
    obtain ⟨i, hg, hs⟩ := bind_ok hs
    cases hs
    refine ⟨lo, any_main h rfl rfl (fun _ h => h) rfl rfl rfl ?_⟩
    dsimp only; split <;> trivial
  | loop id done =>
    rw [e] at hs
    cases hs
    refine ⟨lo, any_main h rfl rfl (fun _ h => h) rfl rfl rfl ?_⟩
    dsimp only
    split
    · exact h.first _ ‹_›
    · trivial
  | cond id a done =>
    rw [e] at hs hm
    obtain ⟨i, hg, hs⟩ := bind_ok hs
    cases hs
    refine ⟨lo, any_main h rfl rfl (fun _ h => h) rfl rfl rfl ?_⟩
    dsimp only
    split
    · exact hm
    · trivial
  | take id a done =>
    rw [e] at hs hm
    obtain ⟨i, hg, hs⟩ := bind_ok hs
    cases hs
    refine ⟨lo, any_main h rfl rfl (fun _ h => h) rfl rfl rfl ⟨hm.1, hm.2, fun q hq => ?_⟩⟩
    exact h.next a i q (get_ok hg).1 hm.1 hq
  | remove id a n done =>
    rw [e] at hs hm
    cases hs
    obtain ⟨m1, m2, m3⟩ := hm
    refine ⟨a + 1, h.data, ?_, m2, h.hi_le, ?_, ?_, h.last, h.work, ?_⟩
    · exact h.ran.trans (List.take_sublist_take_left (by omega))
    · intro x hx; have := m3 x hx; exact ⟨this.1, this.2⟩
    · intro p i q hp hl hn; exact h.next p i q hp (by omega) hn
    · exact ⟨Nat.lt_succ_self a, h.ran.trans (List.take_sublist_take_left m1)⟩
  | empty id a done =>
    rw [e] at hs hm
    cases hs
    refine ⟨lo, any_main h rfl rfl (fun _ h => h) rfl rfl rfl ?_⟩
    dsimp only
    split <;> exact hm
  | clear id a done =>
    rw [e] at hs hm
    cases hs
    exact ⟨lo, any_main h rfl rfl (fun _ h => by cases h) rfl rfl rfl hm⟩
  | push id a done =>
    rw [e] at hs hm
    obtain ⟨i, hg, hs⟩ := bind_ok hs
    cases hs
    exact ⟨lo, any_put (m := .call id a) (j := { i with next := done }) h (get_ok hg).1 rfl (.inr hm.1) hm⟩
  | call id a =>
    rw [e] at hs hm
    obtain ⟨i, hg, hs⟩ := bind_ok hs
    cases hs
    obtain ⟨m1, m2⟩ := hm
    have hd : (adds s.hist)[a]? = some i.data := by rw [h.data, List.getElem?_map, (get_ok hg).1]; rfl
    have hsub : (runs s.hist ++ [i.data]).Sublist ((adds s.hist).take lo) := by
      refine List.Sublist.trans (l₂ := (adds s.hist).take (a + 1)) ?_ (List.take_sublist_take_left m1)
      rw [List.take_add_one, hd]
      exact List.Sublist.append m2 (List.Sublist.refl _)
    refine ⟨lo, (adds_ran _ _).trans h.data, ?_, h.lo_le, h.hi_le, h.first, h.next, h.last, h.work, trivial⟩
    show (runs (s.hist ++ [.ran i.data])).Sublist ((adds (s.hist ++ [.ran i.data])).take lo)
    rw [runs_ran, adds_ran]
    exact hsub
  | free id p =>
    rw [e] at hs
    cases p with
    | none =>
      cases hs
      exact ⟨lo, any_main h rfl rfl (fun _ h => h) rfl rfl rfl trivial⟩
    | some a =>
      obtain ⟨i, hg, hs⟩ := bind_ok hs
      cases hs
      exact ⟨lo, any_put (m := .free id i.next) (j := { i with freed := true }) h (get_ok hg).1 rfl (.inl rfl) trivial⟩
  | check id =>
    rw [e] at hs
    dsimp only at hs
    split at hs <;> cases hs
    · exact ⟨lo, any_main h rfl rfl (fun _ h => h) rfl (adds_finished _) (runs_finished _) trivial⟩
    · exact ⟨lo, any_main h rfl rfl (fun _ h => h) rfl rfl rfl trivial⟩
  | zero id =>
    rw [e] at hs
    cases hs
    exact ⟨lo, any_main h rfl rfl (fun _ h => h) rfl rfl rfl trivial⟩
  | ret id =>
    rw [e] at hs
    cases hs
    exact ⟨lo, any_main h rfl rfl (fun _ h => h) rfl (adds_finished _) (runs_finished _) trivial⟩

theorem reach_any {P : State → Act → Prop} {s : State} (h : Reach P s) : ∃ lo, InvAny s lo := by
  induction h with
  | init => exact ⟨0, rfl, List.Sublist.refl _, Nat.le_refl _, Nat.le_refl _, (fun a h => by cases h), (fun p i q h => by cases p <;> cases h), (fun b h => by cases h), trivial, trivial⟩
  | @step s s' a _ ha _ hs ih =>
    obtain ⟨lo, ih⟩ := ih
    cases a with
    | add d => cases hs; exact ⟨lo, add_any ih ha d⟩
    | work => exact ⟨lo, work_any ih hs⟩
    | dispatch id =>
      cases hs
      exact ⟨lo, any_main ih rfl rfl (fun _ h => h) rfl (adds_running _) (runs_running _) trivial⟩
    | main => exact main_any ih hs

end Verif.IdleThreads
