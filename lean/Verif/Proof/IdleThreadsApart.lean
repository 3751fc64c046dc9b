import Verif.Proof.IdleThreads

/-!
# Invariants of the idle queue which another thread adds to, if the two don't overlap (helpers)
-/

namespace Verif.IdleThreads
open Verif.C

/-- Items which aren't yet taken -/
def ChainOk (items : List Item) (k m : Nat) : Prop :=
  ∀ p, k ≤ p → p < items.length → ∃ i, items[p]? = some i ∧ i.freed = false ∧ i.next = if p + 1 < m then some (p + 1) else none

/-- Items which have been taken but not freed -/
def DoneOk (items : List Item) (k0 k : Nat) (done : Option Nat) : Prop :=
  (done = if k0 < k then some (k - 1) else none) ∧
    ∀ p, k0 ≤ p → p < k → ∃ i, items[p]? = some i ∧ i.freed = false ∧ i.next = if k0 < p then some (p - 1) else none

/-- Items which are going to be run -/
def Marked (items : List Item) (k a : Nat) : Prop := ∀ (p : Nat) i, k ≤ p → p < a → items[p]? = some i → i.completed = true

/-- What's known about the main loop -/
def MainOk (m : Main) (items : List Item) (k0 k : Nat) (data ran : List Nat) : Prop :=
  match m with
  | .idle => k0 = k ∧ ran = data.take k
  | .start _ => k0 = k ∧ ran = data.take k
  | .mark _ a => k0 = k ∧ k ≤ a ∧ a < items.length ∧ Marked items k a ∧ ran = data.take k
  | .markNext _ a => k0 = k ∧ k ≤ a ∧ a < items.length ∧ Marked items k (a + 1) ∧ ran = data.take k
  | .loop _ done => k0 ≤ k ∧ Marked items k items.length ∧ DoneOk items k0 k done ∧ ran = data.take k
  | .cond _ a done | .take _ a done => k0 ≤ k ∧ a = k ∧ k < items.length ∧ Marked items k items.length ∧ DoneOk items k0 k done ∧ ran = data.take k
  | .remove _ a nx done => k0 ≤ k ∧ a = k ∧ k < items.length ∧ (nx = if k + 1 < items.length then some (k + 1) else none) ∧ Marked items k items.length ∧ DoneOk items k0 k done ∧
      (∃ i, items[a]? = some i ∧ i.freed = false) ∧ ran = data.take k
  | .empty _ a done | .push _ a done => k0 < k ∧ a + 1 = k ∧ Marked items k items.length ∧ DoneOk items k0 a done ∧ (∃ i, items[a]? = some i ∧ i.freed = false) ∧ ran = data.take a
  | .clear _ a done => k = items.length ∧ k0 < k ∧ a + 1 = k ∧ Marked items k items.length ∧ DoneOk items k0 a done ∧ (∃ i, items[a]? = some i ∧ i.freed = false) ∧ ran = data.take a
  | .call _ a => k0 < k ∧ a + 1 = k ∧ Marked items k items.length ∧ DoneOk items k0 k (some a) ∧ ran = data.take a
  | .free _ p => k = items.length ∧ (∃ j, k0 ≤ j ∧ j ≤ k ∧ DoneOk items k0 j p) ∧ ran = data.take k
  | .check _ | .zero _ | .ret _ => k = items.length ∧ ran = data.take k

/-- What's known about the thread -/
def WorkOk (w : Work) (n k : Nat) : Prop :=
  match w with
  | .idle => True
  | .test a => a + 1 = n
  | .last a => a + 1 = n ∧ k < a
  | .link a b => a + 1 = n ∧ b + 1 = a ∧ k < a
  | .first a => a + 1 = n ∧ k = a
  | .tail a => a + 1 = n ∧ k ≤ a
  | .source | .attach | .store _ => k < n

/-- What's known about the last item -/
def LastOk (m : Main) (w : Work) (last : Option Nat) (k h : Nat) : Prop :=
  match m, w with
  | .empty _ _ _, _ => k < h → last = some (h - 1)
  | .clear _ _ _, _ => True
  | _, .tail _ => True
  | _, _ => last = if k < h then some (h - 1) else none

/-- The source which is being dispatched -/
def current : Main → Option Nat
  | .idle => none
  | .start id | .mark id _ | .markNext id _ | .loop id _ | .cond id _ _ | .take id _ _ | .remove id _ _ _ | .empty id _ _ | .clear id _ _ | .push id _ _
  | .call id _ | .free id _ | .check id | .zero id | .ret id => some id

/-- What's known about sources -/
def SrcOk (m : Main) (w : Work) (source : Option Nat) (live : List Nat) (k n : Nat) : Prop :=
  match m, w with
  | .idle, .store id => source = none ∧ live = [id]
  | .idle, .attach => source = none ∧ live = []
  | .idle, .idle => (k < n → source ≠ none) ∧ live = source.toList
  | .idle, _ => live = source.toList
  | .ret id, _ => source = none ∧ live = [id]
  | m, _ => source = current m ∧ live = source.toList

structure InvS (s : State) (k0 k : Nat) : Prop where
  data : adds s.hist = s.items.map (·.data)
  le : k ≤ hi s.work s.items.length
  first : s.first = if k < hi s.work s.items.length then some k else none
  last : LastOk s.main s.work s.last k (hi s.work s.items.length)
  chain : ChainOk s.items k (hi s.work s.items.length)
  work : WorkOk s.work s.items.length k
  main : MainOk s.main s.items k0 k (adds s.hist) (runs s.hist)
  src : SrcOk s.main s.work s.source s.live k s.items.length
  apart : s.main = .idle ∨ s.work = .idle
  running : Running s.hist ↔ s.main ≠ .idle
  adding : Adding s.hist ↔ s.work ≠ .idle

theorem running_new (h : List Event) : Running (h ++ [.running]) := ⟨h, [], rfl, by simp⟩
theorem adding_new (h : List Event) (d : Nat) : Adding (h ++ [.adding d]) := ⟨d, h, [], rfl, by simp⟩

theorem running_append {h : List Event} {e : Event} (h1 : e ≠ .running) (h2 : e ≠ .finished) : Running (h ++ [e]) ↔ Running h := by
  constructor
  · rintro ⟨a, b, hab, hb⟩
    rcases List.eq_nil_or_concat b with e1 | ⟨b', x, e1⟩
    · subst e1
      have := List.append_inj_right' hab rfl
      cases this
      exact (h1 rfl).elim
    · rw [List.concat_eq_append] at e1
      subst e1
      have e2 : h ++ [e] = (a ++ .running :: b') ++ [x] := by rw [hab]; simp
      have e3 := List.append_inj_left' e2 rfl
      exact ⟨a, b', e3, fun hm => hb (List.mem_append_left _ hm)⟩
  · rintro ⟨a, b, hab, hb⟩
    refine ⟨a, b ++ [e], by rw [hab]; simp, ?_⟩
    rw [List.mem_append, List.mem_singleton]
    rintro (h | h)
    · exact hb h
    · exact h2 h.symm

theorem running_finished (h : List Event) : ¬ Running (h ++ [.finished]) := by
  rintro ⟨a, b, hab, hb⟩
  rcases List.eq_nil_or_concat b with e1 | ⟨b', x, e1⟩
  · subst e1
    have := List.append_inj_right' hab rfl
    cases this
  · rw [List.concat_eq_append] at e1
    subst e1
    have e2 : h ++ [.finished] = (a ++ .running :: b') ++ [x] := by rw [hab]; simp
    have e3 := List.append_inj_right' e2 rfl
    cases e3
    exact hb (by simp)

theorem adding_append {h : List Event} {e : Event} (h1 : ∀ d, e ≠ .adding d) (h2 : e ≠ .added) : Adding (h ++ [e]) ↔ Adding h := by
  constructor
  · rintro ⟨d, a, b, hab, hb⟩
    rcases List.eq_nil_or_concat b with e1 | ⟨b', x, e1⟩
    · subst e1
      have := List.append_inj_right' hab rfl
      cases this
      exact (h1 d rfl).elim
    · rw [List.concat_eq_append] at e1
      subst e1
      have e2 : h ++ [e] = (a ++ .adding d :: b') ++ [x] := by rw [hab]; simp
      have e3 := List.append_inj_left' e2 rfl
      exact ⟨d, a, b', e3, fun hm => hb (List.mem_append_left _ hm)⟩
  · rintro ⟨d, a, b, hab, hb⟩
    refine ⟨d, a, b ++ [e], by rw [hab]; simp, ?_⟩
    rw [List.mem_append, List.mem_singleton]
    rintro (h | h)
    · exact hb h
    · exact h2 h.symm

theorem adding_added (h : List Event) : ¬ Adding (h ++ [.added]) := by
  rintro ⟨d, a, b, hab, hb⟩
  rcases List.eq_nil_or_concat b with e1 | ⟨b', x, e1⟩
  · subst e1
    have := List.append_inj_right' hab rfl
    cases this
  · rw [List.concat_eq_append] at e1
    subst e1
    have e2 : h ++ [.added] = (a ++ .adding d :: b') ++ [x] := by rw [hab]; simp
    have e3 := List.append_inj_right' e2 rfl
    cases e3
    exact hb (by simp)

theorem init_ok : InvS init 0 0 := by
  refine ⟨rfl, Nat.le_refl _, rfl, rfl, ?_, trivial, ⟨rfl, rfl⟩, ⟨(fun h => by cases h), rfl⟩, .inl rfl, ?_, ?_⟩
  · intro p _ h; cases h
  · refine ⟨?_, fun h => (h rfl).elim⟩
    rintro ⟨a, b, h, _⟩
    cases a <;> cases h
  · refine ⟨?_, fun h => (h rfl).elim⟩
    rintro ⟨d, a, b, h, _⟩
    cases a <;> cases h

theorem add_ok {s : State} {k0 k : Nat} (h : InvS s k0 k) (hw : s.work = .idle) (hm : s.main = .idle) (d : Nat) : InvS (add s d) k0 k := by
  have eh : hi s.work s.items.length = s.items.length := by rw [hw]; rfl
  have h1 := h.le
  rw [eh] at h1
  refine ⟨?_, ?_, ?_, ?_, ?_, ?_, ?_, ?_, .inl hm, ?_, ?_⟩
  · show adds (s.hist ++ [.adding d]) = _
    rw [adds_adding, h.data]; simp [add]
  · exact h1
  · have := h.first; rw [eh] at this; exact this
  · have := h.last
    rw [eh, hw, hm] at this
    show LastOk s.main (.test s.items.length) s.last k s.items.length
    rw [hm]
    exact this
  · intro p hp hl
    show ∃ i, (s.items ++ [⟨d, none, false, false⟩])[p]? = some i ∧ i.freed = false ∧ i.next = if p + 1 < s.items.length then some (p + 1) else none
    have hl : p < (s.items ++ [(⟨d, none, false, false⟩ : Item)]).length := hl
    rw [List.length_append] at hl
    by_cases e : p < s.items.length
    · rw [List.getElem?_append_left e]
      have := h.chain p hp e
      rw [eh] at this
      exact this
    · have e2 : p = s.items.length := by simp at hl; omega
      subst e2
      exact ⟨_, List.getElem?_concat_length, rfl, by rw [if_neg (by omega)]⟩
  · show s.items.length + 1 = (s.items ++ [_]).length
    rw [List.length_append]; rfl
  · have := h.main
    show MainOk s.main _ k0 k (adds (s.hist ++ [.adding d])) (runs (s.hist ++ [.adding d]))
    rw [hm] at this ⊢
    rw [adds_adding, runs_adding, h.data]
    refine ⟨this.1, ?_⟩
    rw [List.take_append_of_le_length (by rw [List.length_map]; exact h1), ← h.data]
    exact this.2
  · have := h.src
    rw [hm, hw] at this
    show SrcOk s.main (.test s.items.length) s.source s.live k _
    rw [hm]
    exact this.2
  · show Running (s.hist ++ [.adding d]) ↔ _
    rw [running_append (fun h => by cases h) (fun h => by cases h)]
    exact h.running
  · exact ⟨(fun _ h => by cases h), fun _ => adding_new s.hist d⟩

/-- The thread has moved. -/
theorem work_mk {s s' : State} {k0 k : Nat} (h : InvS s k0 k) (hm : s.main = .idle) (hw : s.work ≠ .idle) (hm' : s'.main = .idle)
    (hd : s'.items.map (·.data) = s.items.map (·.data)) (hf : s'.first = if k < hi s'.work s'.items.length then some k else none)
    (hle : k ≤ hi s'.work s'.items.length) (hl : LastOk .idle s'.work s'.last k (hi s'.work s'.items.length)) (hc : ChainOk s'.items k (hi s'.work s'.items.length))
    (hwo : WorkOk s'.work s'.items.length k) (hs : SrcOk .idle s'.work s'.source s'.live k s'.items.length)
    (hh : s'.work ≠ .idle ∧ s'.hist = s.hist ∨ s'.work = .idle ∧ s'.hist = s.hist ++ [.added]) : InvS s' k0 k := by
  have ea : adds s'.hist = adds s.hist := by
    rcases hh with ⟨-, e⟩ | ⟨-, e⟩
    · rw [e]
    · rw [e, adds_added]
  have er : runs s'.hist = runs s.hist := by
    rcases hh with ⟨-, e⟩ | ⟨-, e⟩
    · rw [e]
    · rw [e, runs_added]
  refine ⟨?_, hle, hf, hm' ▸ hl, hc, hwo, ?_, hm' ▸ hs, .inl hm', ?_, ?_⟩
  · rw [ea, hd]; exact h.data
  · rw [hm', ea, er]
    have := h.main
    rw [hm] at this
    exact this
  · rw [hm']
    have := h.running
    rw [hm] at this
    rcases hh with ⟨-, e⟩ | ⟨-, e⟩
    · rw [e]; exact this
    · rw [e, running_append (fun h => by cases h) (fun h => by cases h)]; exact this
  · rcases hh with ⟨e0, e⟩ | ⟨e0, e⟩
    · rw [e]
      exact ⟨fun _ => e0, fun _ => h.adding.2 hw⟩
    · rw [e, e0]
      exact ⟨fun h => (adding_added _ h).elim, fun h => (h rfl).elim⟩

theorem work_ok {s : State} {k0 k : Nat} (h : InvS s k0 k) (hm : s.main = .idle) (hw : s.work ≠ .idle) : ∃ s', workStep s = .ok s' ∧ InvS s' k0 k := by
  have h1 := h.le
  have h2 := h.first
  have h3 := h.last
  have h4 := h.chain
  have h5 := h.work
  have h6 := h.src
  rw [hm] at h3 h6
  cases e : s.work with
  | idle => exact (hw e).elim
  | test a =>
    rw [e] at h1 h2 h3 h4 h5 h6
    have h5 : a + 1 = s.items.length := h5
    have h1 : k ≤ a := h1
    have h3 : s.last = if k < a then some (a - 1) else none := h3
    refine ⟨_, by unfold workStep; rw [e], ?_⟩
    by_cases hk : k < a
    · rw [if_pos hk] at h3
      rw [if_pos (by rw [h3]; rfl)]
      refine work_mk h hm hw hm rfl h2 h1 ?_ h4 ⟨h5, hk⟩ h6 (.inl ⟨(fun h => by cases h), rfl⟩)
      show s.last = if k < a then some (a - 1) else none
      rw [if_pos hk]
      exact h3
    · rw [if_neg hk] at h3
      rw [if_neg (by rw [h3]; decide)]
      refine work_mk h hm hw hm rfl h2 h1 ?_ h4 ⟨h5, by omega⟩ h6 (.inl ⟨(fun h => by cases h), rfl⟩)
      show s.last = if k < a then some (a - 1) else none
      rw [if_neg hk]
      exact h3
  | last a =>
    rw [e] at h1 h2 h3 h4 h5 h6
    have h5 : a + 1 = s.items.length ∧ k < a := h5
    have h3 : s.last = if k < a then some (a - 1) else none := h3
    have h3' := h3
    rw [if_pos h5.2] at h3'
    refine ⟨{ s with work := .link a (a - 1) }, by unfold workStep; rw [e]; dsimp only; split <;> simp_all, ?_⟩
    exact work_mk h hm hw hm rfl h2 h1 h3 h4 ⟨h5.1, by omega, h5.2⟩ h6 (.inl ⟨(fun h => by cases h), rfl⟩)
  | link a b =>
    rw [e] at h1 h2 h3 h4 h5 h6
    have h5 : a + 1 = s.items.length ∧ b + 1 = a ∧ k < a := h5
    obtain ⟨i, hi1, hi2, hi3⟩ := h4 b (by omega) (by omega)
    refine ⟨_, by unfold workStep; rw [e]; dsimp only; rw [get_eq hi1 hi2, ok_bind], ?_⟩
    refine work_mk h hm hw hm (map_set hi1 rfl) ?_ ?_ trivial ?_ ⟨?_, ?_⟩ ?_ (.inl ⟨(fun h => by cases h), rfl⟩)
    · show s.first = if k < (s.items.set b _).length then some k else none
      rw [h2, List.length_set]
      show (if k < a then some k else none) = _
      rw [if_pos h5.2.2, if_pos (by omega)]
    · show k ≤ (s.items.set b _).length
      rw [List.length_set]
      omega
    · show ChainOk (s.items.set b _) k (s.items.set b _).length
      rw [List.length_set]
      intro p hp hl
      rw [List.length_set] at hl
      rw [List.getElem?_set]
      by_cases e2 : b = p
      · subst e2
        rw [if_pos rfl, if_pos hl]
        exact ⟨_, rfl, hi2, by rw [if_pos (by omega), h5.2.1]⟩
      · rw [if_neg e2]
        obtain ⟨j, j1, j2, j3⟩ := h4 p hp hl
        refine ⟨j, j1, j2, ?_⟩
        rw [j3]
        show (if p + 1 < a then _ else _) = _
        by_cases hp2 : p + 1 < a
        · rw [if_pos hp2, if_pos (by omega)]
        · rw [if_neg hp2, if_neg (by omega)]
    · show a + 1 = (s.items.set b _).length
      rw [List.length_set]
      exact h5.1
    · omega
    · exact h6
  | first a =>
    rw [e] at h1 h2 h3 h4 h5 h6
    obtain ⟨h5, rfl⟩ := h5
    refine ⟨_, by unfold workStep; rw [e], ?_⟩
    refine work_mk h hm hw hm rfl ?_ ?_ trivial ?_ ⟨h5, Nat.le_refl _⟩ h6 (.inl ⟨(fun h => by cases h), rfl⟩)
    · show some k = if k < s.items.length then some k else none
      rw [if_pos (by omega)]
    · show k ≤ s.items.length
      omega
    · show ChainOk s.items k s.items.length
      intro p hp hl
      obtain ⟨j, j1, j2, j3⟩ := h4 p hp hl
      refine ⟨j, j1, j2, ?_⟩
      rw [j3]
      show (if p + 1 < k then _ else _) = _
      rw [if_neg (by omega), if_neg (by omega)]
  | tail a =>
    rw [e] at h1 h2 h3 h4 h5 h6
    have h5 : a + 1 = s.items.length ∧ k ≤ a := h5
    refine ⟨_, by unfold workStep; rw [e], ?_⟩
    refine work_mk h hm hw hm rfl h2 h1 ?_ h4 ?_ h6 (.inl ⟨(fun h => by cases h), rfl⟩)
    · show some a = if k < s.items.length then some (s.items.length - 1) else none
      rw [if_pos (by omega)]
      congr 1
      omega
    · show k < s.items.length
      omega
  | source =>
    rw [e] at h1 h2 h3 h4 h5 h6
    have h6 : s.live = s.source.toList := h6
    by_cases hs : s.source.isSome = true
    · refine ⟨_, by unfold workStep; rw [e]; dsimp only; rw [if_pos hs], ?_⟩
      exact work_mk h hm hw hm rfl h2 h1 h3 h4 trivial ⟨(fun _ he => by rw [he] at hs; cases hs), h6⟩ (.inr ⟨rfl, rfl⟩)
    · refine ⟨_, by unfold workStep; rw [e]; dsimp only; rw [if_neg hs], ?_⟩
      have hn : s.source = none := by
        cases hx : s.source with
        | none => rfl
        | some x => rw [hx] at hs; exact (hs rfl).elim
      refine work_mk h hm hw hm rfl h2 h1 h3 h4 h5 ⟨hn, ?_⟩ (.inl ⟨(fun h => by cases h), rfl⟩)
      rw [hn] at h6
      exact h6
  | attach =>
    rw [e] at h1 h2 h3 h4 h5 h6
    obtain ⟨h6, h7⟩ := h6
    refine ⟨_, by unfold workStep; rw [e], ?_⟩
    refine work_mk h hm hw hm rfl h2 h1 h3 h4 h5 ⟨h6, ?_⟩ (.inl ⟨(fun h => by cases h), rfl⟩)
    show s.live ++ [s.nextSource] = _
    rw [h7]
    rfl
  | store id =>
    rw [e] at h1 h2 h3 h4 h5 h6
    obtain ⟨h6, h7⟩ := h6
    refine ⟨_, by unfold workStep; rw [e], ?_⟩
    exact work_mk h hm hw hm rfl h2 h1 h3 h4 trivial ⟨(fun _ he => by cases he), h7⟩ (.inr ⟨rfl, rfl⟩)

/-- How many steps the main loop still has to make, at most -/
def wt (m : Main) (k0 k n : Nat) : Nat :=
  match m with
  | .idle => 0
  | .ret _ => 1
  | .zero _ => 2
  | .check _ => 3
  | .free _ none => 4
  | .free _ (some a) => 5 + (a - k0)
  | .loop _ _ => 10 * (n - k) + (k - k0) + 7
  | .cond _ _ _ => 10 * (n - k) + (k - k0) + 6
  | .take _ _ _ => 10 * (n - k) + (k - k0) + 5
  | .remove _ _ _ _ => 10 * (n - k) + (k - k0) + 4
  | .empty _ _ _ => 10 * (n - k) + (k - k0) + 12
  | .clear _ _ _ => 10 * (n - k) + (k - k0) + 11
  | .push _ _ _ => 10 * (n - k) + (k - k0) + 10
  | .call _ _ => 10 * (n - k) + (k - k0) + 9
  | .mark _ a => 10 * (n - k) + 8 + 2 * (n - a) + 1
  | .markNext _ a => 10 * (n - k) + 8 + 2 * (n - a)
  | .start _ => 10 * (n - k) + 8 + 2 * (n - k) + 2

/-- The main loop has moved. -/
theorem main_mk {s s' : State} {k0 k : Nat} (h : InvS s k0 k) (hw : s.work = .idle) (hm : s.main ≠ .idle) {k0' k' : Nat} (hw' : s'.work = .idle)
    (hd : s'.items.map (·.data) = s.items.map (·.data)) (hf : s'.first = if k' < s.items.length then some k' else none) (hle : k' ≤ s.items.length)
    (hl : LastOk s'.main .idle s'.last k' s.items.length) (hc : ChainOk s'.items k' s.items.length)
    (hmo : MainOk s'.main s'.items k0' k' (adds s.hist) (runs s'.hist)) (hs : SrcOk s'.main .idle s'.source s'.live k' s.items.length)
    (hh : s'.main ≠ .idle ∧ (s'.hist = s.hist ∨ ∃ d, s'.hist = s.hist ++ [.ran d]) ∨ s'.main = .idle ∧ s'.hist = s.hist ++ [.finished]) :
    InvS s' k0' k' ∧ s'.items.length = s.items.length := by
  have el : s'.items.length = s.items.length := by
    have := congrArg List.length hd
    rw [List.length_map, List.length_map] at this
    exact this
  have eh : hi s'.work s'.items.length = s.items.length := by rw [hw', el]; rfl
  have ea : adds s'.hist = adds s.hist := by
    rcases hh with ⟨-, e | ⟨d, e⟩⟩ | ⟨-, e⟩
    · rw [e]
    · rw [e, adds_ran]
    · rw [e, adds_finished]
  refine ⟨⟨?_, ?_, ?_, ?_, ?_, ?_, ?_, ?_, .inr hw', ?_, ?_⟩, el⟩
  · rw [ea, hd]; exact h.data
  · rw [eh]; exact hle
  · rw [eh]; exact hf
  · rw [eh, hw']; exact hl
  · rw [eh]; exact hc
  · rw [hw']; trivial
  · rw [ea]; exact hmo
  · rw [hw', el]; exact hs
  · rcases hh with ⟨e0, e | ⟨d, e⟩⟩ | ⟨e0, e⟩
    · rw [e]; exact ⟨fun _ => e0, fun _ => h.running.2 hm⟩
    · rw [e, running_append (fun h => by cases h) (fun h => by cases h)]
      exact ⟨fun _ => e0, fun _ => h.running.2 hm⟩
    · rw [e, e0]
      exact ⟨fun h => (running_finished _ h).elim, fun h => (h rfl).elim⟩
  · have := h.adding
    rw [hw] at this
    rw [hw']
    rcases hh with ⟨e0, e | ⟨d, e⟩⟩ | ⟨e0, e⟩
    · rw [e]; exact this
    · rw [e, adding_append (fun _ h => by cases h) (fun h => by cases h)]; exact this
    · rw [e, adding_append (fun _ h => by cases h) (fun h => by cases h)]; exact this

theorem chain_set {items : List Item} {a k n : Nat} {j : Item} (h : ChainOk items k n) (ha : a < k ∨ ∃ i, items[a]? = some i ∧ j.freed = i.freed ∧ j.next = i.next) : ChainOk (items.set a j) k n := by
  intro p hp hl
  rw [List.length_set] at hl
  obtain ⟨x, h1, h2, h3⟩ := h p hp hl
  rw [List.getElem?_set]
  by_cases e : a = p
  · rw [if_pos e, if_pos (by omega)]
    rcases ha with ha | ⟨i, i1, i2, i3⟩
    · omega
    · subst e
      rw [h1] at i1
      cases i1
      exact ⟨j, rfl, i2.trans h2, i3.trans h3⟩
  · rw [if_neg e]
    exact ⟨x, h1, h2, h3⟩

theorem marked_set {items : List Item} {a k b : Nat} {j : Item} (h : Marked items k b) (ha : j.completed = true ∨ a < k) : Marked (items.set a j) k b := by
  intro p x hp hl hx
  rw [List.getElem?_set] at hx
  by_cases e : a = p
  · rw [if_pos e] at hx
    split at hx
    · cases hx
      rcases ha with ha | ha
      · exact ha
      · omega
    · cases hx
  · rw [if_neg e] at hx
    exact h p x hp hl hx

theorem done_set {items : List Item} {a k0 k : Nat} {done : Option Nat} {j : Item} (h : DoneOk items k0 k done) (ha : k ≤ a) : DoneOk (items.set a j) k0 k done := by
  refine ⟨h.1, fun p hp hl => ?_⟩
  rw [List.getElem?_set, if_neg (by omega)]
  exact h.2 p hp hl

theorem main_go {s : State} {k0 k : Nat} (h : InvS s k0 k) (hw : s.work = .idle) (hm : s.main ≠ .idle) (s' : State) (k0' k' : Nat) (hst : mainStep s = .ok s') (hw' : s'.work = .idle)
    (hd : s'.items.map (·.data) = s.items.map (·.data)) (hf : s'.first = if k' < s.items.length then some k' else none) (hle : k' ≤ s.items.length)
    (hl : LastOk s'.main .idle s'.last k' s.items.length) (hc : ChainOk s'.items k' s.items.length)
    (hmo : MainOk s'.main s'.items k0' k' (adds s.hist) (runs s'.hist)) (hs : SrcOk s'.main .idle s'.source s'.live k' s.items.length)
    (hh : s'.main ≠ .idle ∧ (s'.hist = s.hist ∨ ∃ d, s'.hist = s.hist ++ [.ran d]) ∨ s'.main = .idle ∧ s'.hist = s.hist ++ [.finished])
    (hwt : wt s'.main k0' k' s.items.length < wt s.main k0 k s.items.length) :
    ∃ s' k0' k', mainStep s = .ok s' ∧ InvS s' k0' k' ∧ s'.items.length = s.items.length ∧ wt s'.main k0' k' s.items.length < wt s.main k0 k s.items.length := by
  have := main_mk h hw hm hw' hd hf hle hl hc hmo hs hh
  exact ⟨s', k0', k', hst, this.1, this.2, hwt⟩

theorem main_ok {s : State} {k0 k : Nat} (h : InvS s k0 k) (hw : s.work = .idle) (hm : s.main ≠ .idle) :
    ∃ s' k0' k', mainStep s = .ok s' ∧ InvS s' k0' k' ∧ s'.items.length = s.items.length ∧ wt s'.main k0' k' s.items.length < wt s.main k0 k s.items.length := by
  have eh : hi s.work s.items.length = s.items.length := by rw [hw]; rfl
  have h1 := h.le
  have h2 := h.first
  have h3 := h.last
  have h4 := h.chain
  have h5 := h.main
  have h6 := h.src
  rw [eh] at h1 h2 h3 h4
  rw [hw] at h3 h6
  have go := main_go h hw hm
  cases e : s.main with
  | idle => exact (hm e).elim
  | start id =>
    rw [e] at h3 h5 h6 go
    obtain ⟨rfl, h5⟩ := h5
    by_cases hk : k0 < s.items.length
    · have h2' := h2
      rw [if_pos hk] at h2'
      exact go { s with main := .mark id k0 } k0 k0 (by unfold mainStep; rw [e]; dsimp only; rw [h2']) hw rfl h2 h1 h3 h4 ⟨rfl, Nat.le_refl _, hk, (fun p i hp hl => by omega), h5⟩ h6
        (.inl ⟨(fun h => by cases h), .inl rfl⟩) (by simp only [wt]; omega)
    · have h2' := h2
      rw [if_neg hk] at h2'
      exact go { s with main := .loop id none } k0 k0 (by unfold mainStep; rw [e]; dsimp only; rw [h2']) hw rfl h2 h1 h3 h4
        ⟨Nat.le_refl _, (fun p i hp hl => by dsimp only at hl; omega), ⟨by rw [if_neg (by omega)], fun p hp hl => by omega⟩, h5⟩ h6
        (.inl ⟨(fun h => by cases h), .inl rfl⟩) (by simp only [wt]; omega)
  | mark id a =>
    rw [e] at h3 h5 h6 go
    obtain ⟨rfl, m1, m2, m3, h5⟩ := h5
    obtain ⟨i, i1, i2, i3⟩ := h4 a m1 m2
    refine go { put s a { i with completed := true } with main := .markNext id a } k0 k0 (by unfold mainStep; rw [e]; dsimp only; rw [get_eq i1 i2, ok_bind]) hw (map_set i1 rfl) h2 h1 h3
      (chain_set h4 (.inr ⟨i, i1, rfl, rfl⟩)) ⟨rfl, m1, by show a < (s.items.set a _).length; rw [List.length_set]; exact m2, ?_, h5⟩ h6
      (.inl ⟨(fun h => by cases h), .inl rfl⟩) (by simp only [wt]; omega)
    intro p x hp hl hx
    have hx : (s.items.set a { i with completed := true })[p]? = some x := hx
    rw [List.getElem?_set] at hx
    by_cases e2 : a = p
    · rw [if_pos e2, if_pos (by omega)] at hx
      cases hx
      rfl
    · rw [if_neg e2] at hx
      exact m3 p x hp (by omega) hx
  | markNext id a =>
    rw [e] at h3 h5 h6 go
    obtain ⟨rfl, m1, m2, m3, h5⟩ := h5
    obtain ⟨i, i1, i2, i3⟩ := h4 a m1 m2
    by_cases hk : a + 1 < s.items.length
    · rw [if_pos hk] at i3
      exact go { s with main := .mark id (a + 1) } k0 k0 (by unfold mainStep; rw [e]; dsimp only; rw [get_eq i1 i2, ok_bind, i3]) hw rfl h2 h1 h3 h4 ⟨rfl, by omega, hk, m3, h5⟩ h6
        (.inl ⟨(fun h => by cases h), .inl rfl⟩) (by simp only [wt]; omega)
    · rw [if_neg hk] at i3
      have en : a + 1 = s.items.length := by omega
      exact go { s with main := .loop id none } k0 k0 (by unfold mainStep; rw [e]; dsimp only; rw [get_eq i1 i2, ok_bind, i3]) hw rfl h2 h1 h3 h4
        ⟨Nat.le_refl _, (by rw [← en]; exact m3), ⟨by rw [if_neg (by omega)], fun p hp hl => by omega⟩, h5⟩ h6
        (.inl ⟨(fun h => by cases h), .inl rfl⟩) (by simp only [wt]; omega)
  | loop id done =>
    rw [e] at h3 h5 h6 go
    obtain ⟨m0, m1, m2, h5⟩ := h5
    by_cases hk : k < s.items.length
    · have h2' := h2
      rw [if_pos hk] at h2'
      exact go { s with main := .cond id k done } k0 k (by unfold mainStep; rw [e]; dsimp only; rw [h2']) hw rfl h2 h1 h3 h4 ⟨m0, rfl, hk, m1, m2, h5⟩ h6
        (.inl ⟨(fun h => by cases h), .inl rfl⟩) (by simp only [wt]; omega)
    · have h2' := h2
      rw [if_neg hk] at h2'
      refine go { s with main := .free id done } k0 k (by unfold mainStep; rw [e]; dsimp only; rw [h2']) hw rfl h2 h1 h3 h4
        ⟨by show k = s.items.length; omega, ⟨k, m0, Nat.le_refl _, m2⟩, h5⟩ h6
        (.inl ⟨(fun h => by cases h), .inl rfl⟩) ?_
      show wt (.free id done) _ _ _ < _
      rw [m2.1]
      by_cases hk0 : k0 < k
      · rw [if_pos hk0]; simp only [wt]; omega
      · rw [if_neg hk0]; simp only [wt]; omega
  | cond id a done =>
    rw [e] at h3 h5 h6 go
    obtain ⟨m0, rfl, m1, m2, m3, h5⟩ := h5
    obtain ⟨i, i1, i2, i3⟩ := h4 a (Nat.le_refl _) m1
    have hc := m2 a i (Nat.le_refl _) m1 i1
    exact go { s with main := .take id a done } k0 a (by unfold mainStep; rw [e]; dsimp only; rw [get_eq i1 i2, ok_bind, if_pos hc]) hw rfl h2 h1 h3 h4 ⟨m0, rfl, m1, m2, m3, h5⟩ h6
        (.inl ⟨(fun h => by cases h), .inl rfl⟩) (by simp only [wt]; omega)
  | take id a done =>
    rw [e] at h3 h5 h6 go
    obtain ⟨m0, rfl, m1, m2, m3, h5⟩ := h5
    obtain ⟨i, i1, i2, i3⟩ := h4 a (Nat.le_refl _) m1
    exact go { s with main := .remove id a i.next done } k0 a (by unfold mainStep; rw [e]; dsimp only; rw [get_eq i1 i2, ok_bind]) hw rfl h2 h1 h3 h4 ⟨m0, rfl, m1, i3, m2, m3, ⟨i, i1, i2⟩, h5⟩ h6
        (.inl ⟨(fun h => by cases h), .inl rfl⟩) (by simp only [wt]; omega)
  | remove id a n done =>
    rw [e] at h3 h5 h6 go
    obtain ⟨m0, rfl, m1, m2, m3, m4, m5, h5⟩ := h5
    refine go { s with first := n, main := .empty id a done } k0 (a + 1) (by unfold mainStep; rw [e]) hw rfl m2 (by omega) ?_ ?_ ⟨by omega, rfl, ?_, m4, m5, h5⟩ h6
        (.inl ⟨(fun h => by cases h), .inl rfl⟩) (by simp only [wt]; omega)
    · have h3 : s.last = if a < s.items.length then some (s.items.length - 1) else none := h3
      rw [if_pos m1] at h3
      exact fun _ => h3
    · exact fun p hp hl => h4 p (by omega) hl
    · exact fun p i hp hl hi => m3 p i (by omega) hl hi
  | empty id a done =>
    rw [e] at h3 h5 h6 go
    obtain ⟨m0, rfl, m1, m2, m3, h5⟩ := h5
    have h3 : a + 1 < s.items.length → s.last = some (s.items.length - 1) := h3
    by_cases hk : a + 1 < s.items.length
    · have h2' := h2
      rw [if_pos hk] at h2'
      refine go { s with main := .push id a done } k0 (a + 1) (by unfold mainStep; rw [e]; dsimp only; rw [if_neg (by rw [h2']; exact Bool.false_ne_true)]) hw rfl h2 h1 ?_ h4 ⟨m0, rfl, m1, m2, m3, h5⟩ h6
        (.inl ⟨(fun h => by cases h), .inl rfl⟩) (by simp only [wt]; omega)
      show s.last = if a + 1 < s.items.length then some (s.items.length - 1) else none
      rw [if_pos hk]
      exact h3 hk
    · have h2' := h2
      rw [if_neg hk] at h2'
      exact go { s with main := .clear id a done } k0 (a + 1) (by unfold mainStep; rw [e]; dsimp only; rw [if_pos (by rw [h2']; rfl)]) hw rfl h2 h1 trivial h4
        ⟨by show a + 1 = s.items.length; omega, m0, rfl, m1, m2, m3, h5⟩ h6
        (.inl ⟨(fun h => by cases h), .inl rfl⟩) (by simp only [wt]; omega)
  | clear id a done =>
    rw [e] at h3 h5 h6 go
    obtain ⟨m9, m0, rfl, m1, m2, m3, h5⟩ := h5
    refine go { s with last := none, main := .push id a done } k0 (a + 1) (by unfold mainStep; rw [e]) hw rfl h2 h1 ?_ h4 ⟨m0, rfl, m1, m2, m3, h5⟩ h6
        (.inl ⟨(fun h => by cases h), .inl rfl⟩) (by simp only [wt]; omega)
    show none = if a + 1 < s.items.length then some (s.items.length - 1) else none
    rw [if_neg (by omega)]
  | push id a done =>
    rw [e] at h3 h5 h6 go
    obtain ⟨m0, rfl, m1, m2, ⟨i, i1, i2⟩, h5⟩ := h5
    refine go { put s a { i with next := done } with main := .call id a } k0 (a + 1) (by unfold mainStep; rw [e]; dsimp only; rw [get_eq i1 i2, ok_bind]) hw (map_set i1 rfl) h2 h1 h3
      (chain_set h4 (.inl (by omega))) ⟨m0, rfl, ?_, ?_, h5⟩ h6
      (.inl ⟨(fun h => by cases h), .inl rfl⟩) (by simp only [wt]; omega)
    · show Marked (s.items.set a _) (a + 1) (s.items.set a _).length
      rw [List.length_set]
      exact marked_set m1 (.inr (by omega))
    · refine ⟨by rw [if_pos m0]; rfl, fun p hp hl => ?_⟩
      by_cases e2 : p = a
      · subst e2
        refine ⟨{ i with next := done }, ?_, i2, ?_⟩
        · show (s.items.set p _)[p]? = _
          rw [List.getElem?_set, if_pos rfl, if_pos (by omega)]
        · exact m2.1
      · exact (done_set m2 (Nat.le_refl _)).2 p hp (by omega)
  | call id a =>
    rw [e] at h3 h5 h6 go
    obtain ⟨m0, rfl, m1, m2, h5⟩ := h5
    obtain ⟨i, i1, i2, i3⟩ := m2.2 a (by omega) (by omega)
    refine go { s with main := .loop id (some a), hist := s.hist ++ [.ran i.data] } k0 (a + 1) (by unfold mainStep; rw [e]; dsimp only; rw [get_eq i1 i2, ok_bind]) hw rfl h2 h1 h3
      h4 ⟨by omega, m1, m2, ?_⟩ h6
      (.inl ⟨(fun h => by cases h), .inr ⟨_, rfl⟩⟩) (by simp only [wt]; omega)
    show runs (s.hist ++ [.ran i.data]) = _
    rw [runs_ran, List.take_add_one, h5, h.data, List.getElem?_map, i1]
    rfl
  | free id p =>
    rw [e] at h3 h5 h6 go
    obtain ⟨m0, ⟨j, j1, j2, j3⟩, h5⟩ := h5
    by_cases hj : k0 < j
    · have hp := j3.1
      rw [if_pos hj] at hp
      subst hp
      obtain ⟨i, i1, i2, i3⟩ := j3.2 (j - 1) (by omega) (by omega)
      refine go { put s (j - 1) { i with freed := true } with main := .free id i.next } k0 k (by unfold mainStep; rw [e]; dsimp only; rw [get_eq i1 i2, ok_bind]) hw (map_set i1 rfl) h2 h1 h3
        (chain_set h4 (.inl (by omega))) ⟨by show k = (s.items.set _ _).length; rw [List.length_set]; exact m0, ⟨j - 1, by omega, by omega, ?_⟩, h5⟩ h6
        (.inl ⟨(fun h => by cases h), .inl rfl⟩) ?_
      · refine ⟨?_, ?_⟩
        · rw [i3]
        · intro p hp hl
          obtain ⟨x, x1, x2, x3⟩ := j3.2 p hp (by omega)
          refine ⟨x, ?_, x2, x3⟩
          show (s.items.set _ _)[p]? = _
          rw [List.getElem?_set, if_neg (by omega)]
          exact x1
      · show wt (.free id i.next) _ _ _ < _
        rw [i3]
        by_cases hk : k0 < j - 1
        · rw [if_pos hk]; simp only [wt]; omega
        · rw [if_neg hk]; simp only [wt]; omega
    · have hp := j3.1
      rw [if_neg hj] at hp
      subst hp
      exact go { s with main := .check id } k0 k (by unfold mainStep; rw [e]) hw rfl h2 h1 h3 h4 ⟨m0, h5⟩ h6
        (.inl ⟨(fun h => by cases h), .inl rfl⟩) (by simp only [wt]; omega)
  | check id =>
    rw [e] at h3 h5 h6 go
    obtain ⟨m0, h5⟩ := h5
    have h2' := h2
    rw [if_neg (by omega)] at h2'
    exact go { s with main := .zero id } k0 k (by unfold mainStep; rw [e]; dsimp only; rw [if_neg (by rw [h2']; decide)]) hw rfl h2 h1 h3 h4 ⟨m0, h5⟩ h6
        (.inl ⟨(fun h => by cases h), .inl rfl⟩) (by simp only [wt]; omega)
  | zero id =>
    rw [e] at h3 h5 h6 go
    obtain ⟨m0, h5⟩ := h5
    have h6 : s.source = some id ∧ s.live = s.source.toList := h6
    exact go { s with source := none, main := .ret id } k0 k (by unfold mainStep; rw [e]) hw rfl h2 h1 h3 h4 ⟨m0, h5⟩ ⟨rfl, by rw [h6.1] at h6; exact h6.2⟩
        (.inl ⟨(fun h => by cases h), .inl rfl⟩) (by simp only [wt]; omega)
  | ret id =>
    rw [e] at h3 h5 h6 go
    obtain ⟨m0, h5⟩ := h5
    have h6 : s.source = none ∧ s.live = [id] := h6
    refine go { s with live := s.live.erase id, main := .idle, hist := s.hist ++ [.finished] } k k (by unfold mainStep; rw [e]) hw rfl h2 h1 h3 h4 ⟨rfl, ?_⟩ ⟨fun hk => by omega, ?_⟩
        (.inr ⟨rfl, rfl⟩) (by simp only [wt]; omega)
    · show runs (s.hist ++ [.finished]) = _
      rw [runs_finished]
      exact h5
    · show s.live.erase id = s.source.toList
      rw [h6.1, h6.2]
      simp

theorem main_adds {s s' : State} (h : mainStep s = .ok s') : adds s'.hist = adds s.hist ∧ s'.work = s.work := by
  unfold mainStep at h
  cases e : s.main with
  | idle => rw [e] at h; cases h
  | start id => rw [e] at h; cases h; exact ⟨rfl, rfl⟩
  | mark id a => rw [e] at h; obtain ⟨i, -, h⟩ := bind_ok h; cases h; exact ⟨rfl, rfl⟩
  | markNext id a => rw [e] at h; obtain ⟨i, -, h⟩ := bind_ok h; cases h; exact ⟨rfl, rfl⟩
  | loop id done => rw [e] at h; cases h; exact ⟨rfl, rfl⟩
  | cond id a done => rw [e] at h; obtain ⟨i, -, h⟩ := bind_ok h; cases h; exact ⟨rfl, rfl⟩
  | take id a done => rw [e] at h; obtain ⟨i, -, h⟩ := bind_ok h; cases h; exact ⟨rfl, rfl⟩
  | remove id a n done => rw [e] at h; cases h; exact ⟨rfl, rfl⟩
  | empty id a done => rw [e] at h; cases h; exact ⟨rfl, rfl⟩
  | clear id a done => rw [e] at h; cases h; exact ⟨rfl, rfl⟩
  | push id a done => rw [e] at h; obtain ⟨i, -, h⟩ := bind_ok h; cases h; exact ⟨rfl, rfl⟩
  | call id a => rw [e] at h; obtain ⟨i, -, h⟩ := bind_ok h; cases h; exact ⟨adds_ran _ _, rfl⟩
  | free id p =>
    rw [e] at h
    cases p with
    | none => cases h; exact ⟨rfl, rfl⟩
    | some a => obtain ⟨i, -, h⟩ := bind_ok h; cases h; exact ⟨rfl, rfl⟩
  | check id =>
    rw [e] at h
    dsimp only at h
    split at h <;> cases h
    · exact ⟨adds_finished _, rfl⟩
    · exact ⟨rfl, rfl⟩
  | zero id => rw [e] at h; cases h; exact ⟨rfl, rfl⟩
  | ret id => rw [e] at h; cases h; exact ⟨adds_finished _, rfl⟩

/-- When the main loop is done, everything has been run. -/
theorem main_end {s s' : State} {k0 k : Nat} (hi1 : InvS s k0 k) (hw : s.work = .idle) (h : mainStep s = .ok s') (hm : s'.main = .idle) :
    runs s'.hist = adds s'.hist ∧ s'.live = [] := by
  have h0 := h
  have h5 := hi1.main
  have h6 := hi1.src
  unfold mainStep at h
  cases e : s.main with
  | idle => rw [e] at h; cases h
  | start id => rw [e] at h; cases h; dsimp only at hm; split at hm <;> cases hm
  | mark id a => rw [e] at h; obtain ⟨i, -, h⟩ := bind_ok h; cases h; cases hm
  | markNext id a => rw [e] at h; obtain ⟨i, -, h⟩ := bind_ok h; cases h; dsimp only at hm; split at hm <;> cases hm
  | loop id done => rw [e] at h; cases h; dsimp only at hm; split at hm <;> cases hm
  | cond id a done => rw [e] at h; obtain ⟨i, -, h⟩ := bind_ok h; cases h; dsimp only at hm; split at hm <;> cases hm
  | take id a done => rw [e] at h; obtain ⟨i, -, h⟩ := bind_ok h; cases h; cases hm
  | remove id a n done => rw [e] at h; cases h; cases hm
  | empty id a done => rw [e] at h; cases h; dsimp only at hm; split at hm <;> cases hm
  | clear id a done => rw [e] at h; cases h; cases hm
  | push id a done => rw [e] at h; obtain ⟨i, -, h⟩ := bind_ok h; cases h; cases hm
  | call id a => rw [e] at h; obtain ⟨i, -, h⟩ := bind_ok h; cases h; cases hm
  | free id p =>
    rw [e] at h
    cases p with
    | none => cases h; cases hm
    | some a => obtain ⟨i, -, h⟩ := bind_ok h; cases h; cases hm
  | check id =>
    rw [e] at h h5
    have hf := hi1.first
    rw [hw] at hf
    have hf : s.first = if k < s.items.length then some k else none := hf
    rw [if_neg (by have := h5.1; omega)] at hf
    dsimp only at h
    rw [if_neg (by rw [hf]; decide)] at h
    cases h
    cases hm
  | zero id => rw [e] at h; cases h; cases hm
  | ret id =>
    rw [e] at h h5 h6
    cases h
    refine ⟨?_, ?_⟩
    · show runs (s.hist ++ [.finished]) = adds (s.hist ++ [.finished])
      rw [runs_finished, adds_finished, h5.2, List.take_of_length_le]
      rw [hi1.data, List.length_map, h5.1]
      exact Nat.le_refl _
    · show s.live.erase id = []
      rw [h6.2]
      simp

theorem main_runs : ∀ (w : Nat) {s : State} {k0 k : Nat}, InvS s k0 k → s.work = .idle → s.main ≠ .idle → wt s.main k0 k s.items.length ≤ w →
    ∃ n s' k0' k', n ≤ w ∧ exec s (List.replicate n .main) = .ok s' ∧ InvS s' k0' k' ∧ s'.main = .idle ∧ s'.work = .idle ∧
      adds s'.hist = adds s.hist ∧ runs s'.hist = adds s'.hist ∧ s'.live = [] := by
  intro w
  induction w with
  | zero =>
    intro s k0 k h hw hm hwt
    obtain ⟨s', k0', k', -, -, -, h4⟩ := main_ok h hw hm
    omega
  | succ w ih =>
    intro s k0 k h hw hm hwt
    obtain ⟨s', k0', k', h1, h2, h3, h4⟩ := main_ok h hw hm
    obtain ⟨a1, a2⟩ := main_adds h1
    by_cases hm' : s'.main = .idle
    · obtain ⟨e1, e2⟩ := main_end h hw h1 hm'
      refine ⟨1, s', k0', k', by omega, ?_, h2, hm', a2.trans hw, a1, e1, e2⟩
      show (mainStep s >>= fun s => exec s []) = _
      rw [h1, ok_bind]
      rfl
    · obtain ⟨n, t, j0, j, b1, b2, b3, b4, b5, b6, b7, b8⟩ := ih h2 (a2.trans hw) hm' (by rw [h3]; omega)
      refine ⟨n + 1, t, j0, j, by omega, ?_, b3, b4, b5, b6.trans a1, b7, b8⟩
      rw [List.replicate_succ]
      show (mainStep s >>= fun s => exec s _) = _
      rw [h1, ok_bind]
      exact b2

theorem dispatch_ok {s : State} {k0 k id : Nat} (h : InvS s k0 k) (hw : s.work = .idle) (hm : s.main = .idle) (hid : id ∈ s.live) :
    InvS { s with main := .start id, hist := s.hist ++ [.running] } k0 k := by
  have h3 := h.last
  have h5 := h.main
  have h6 := h.src
  rw [hw, hm] at h3 h6
  rw [hm] at h5
  refine ⟨(adds_running _).trans h.data, h.le, h.first, ?_, h.chain, h.work, ?_, ?_, .inr hw, ⟨(fun _ h => by cases h), fun _ => running_new _⟩, ?_⟩
  · show LastOk (.start id) s.work s.last k _
    rw [hw]; exact h3
  · show MainOk (.start id) s.items k0 k (adds (s.hist ++ [.running])) (runs (s.hist ++ [.running]))
    rw [adds_running, runs_running]
    exact h5
  · show SrcOk (.start id) s.work s.source s.live k _
    rw [hw]
    have h6 := h6.2
    have : s.source = some id := by
      rw [h6] at hid
      cases hx : s.source with
      | none => rw [hx] at hid; cases hid
      | some x =>
        rw [hx] at hid
        rw [show id = x by simpa using hid]
    exact ⟨this, h6⟩
  · show Adding (s.hist ++ [.running]) ↔ _
    rw [adding_append (fun _ h => by cases h) (fun h => by cases h)]
    exact h.adding

/-- What's allowed is possible, and the invariant is kept. -/
theorem step_ok {s : State} {k0 k : Nat} (h : InvS s k0 k) {a : Act} (ha : Allowed s a) (hp : Apart s a) : ∃ s' k0' k', step s a = .ok s' ∧ InvS s' k0' k' := by
  cases a with
  | add d =>
    refine ⟨_, k0, k, rfl, add_ok h ha ?_ d⟩
    exact Classical.byContradiction (fun hn => hp (h.running.2 hn))
  | work =>
    have hm : s.main = .idle := h.apart.elim id (fun hw => (ha hw).elim)
    obtain ⟨s', h1, h2⟩ := work_ok h hm ha
    exact ⟨s', k0, k, h1, h2⟩
  | dispatch id =>
    have hw : s.work = .idle := Classical.byContradiction (fun hn => hp (h.adding.2 hn))
    exact ⟨_, k0, k, rfl, dispatch_ok h hw ha.1 ha.2⟩
  | main =>
    have hw : s.work = .idle := h.apart.elim (fun hm => (ha hm).elim) id
    obtain ⟨s', k0', k', h1, h2, -⟩ := main_ok h hw ha
    exact ⟨s', k0', k', h1, h2⟩

theorem reach_ok {s : State} (h : Reach Apart s) : ∃ k0 k, InvS s k0 k := by
  induction h with
  | init => exact ⟨0, 0, init_ok⟩
  | @step s s' a _ ha hp hs ih =>
    obtain ⟨k0, k, ih⟩ := ih
    obtain ⟨s2, k0', k', h1, h2⟩ := step_ok ih ha hp
    rw [hs] at h1
    cases h1
    exact ⟨k0', k', h2⟩

end Verif.IdleThreads
