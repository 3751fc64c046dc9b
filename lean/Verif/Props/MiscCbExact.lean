import Verif.Props.MiscCb

/-!
# What exactly happens if notifications use the ids which are being disconnected or removed

`Verif.Props.MiscCb` says what's true if they don't (C110). Here they may do anything within the rules.
-/

namespace Verif.MiscCb
open Verif.C

/-- What's true in spite of everything -/
structure Loose (s : State) : Prop where
  slot : ∀ i x : Nat, s.ids[i]? = some x → x ≠ 0 → x ∈ s.handlers ∨ i ∈ busy s.stack
  uniq : ∀ i j x : Nat, s.ids[i]? = some x → s.ids[j]? = some x → x ≠ 0 → i = j
  small : ∀ x ∈ s.ids, x < s.next
  room : ∀ i n, Frame.disconnect i n ∈ s.stack → i + n + 1 ≤ s.ids.length
  once : (s.disconnected ++ s.handlers).Nodup
  lt : ∀ x ∈ s.disconnected ++ s.handlers, 0 < x ∧ x < s.next
  src : s.id ≠ 0 → s.id ∈ s.sources ∨ Frame.clear ∈ s.stack
  once' : (s.removed ++ s.sources).Nodup
  lt' : ∀ x ∈ s.removed ++ s.sources, 0 < x ∧ x < s.next
  pos : 0 < s.next

/-- What the loop does to the state: it stops at a notification or at the end. -/
theorem loop_loose (n i : Nat) (s : State) (h : Loose s) (hn : i + n ≤ s.ids.length) :
    (loop s n i = .error .badArg ∧ ∃ j x : Nat, i ≤ j ∧ j < i + n ∧ s.ids[j]? = some x ∧ x ≠ 0 ∧ x ∉ s.handlers) ∨
    (loop s n i = .ok s) ∨
    (∃ j m x : Nat, i ≤ j ∧ s.ids[j]? = some x ∧ x ≠ 0 ∧ x ∈ s.handlers ∧ j + m + 1 ≤ s.ids.length ∧
      loop s n i = .ok { s with handlers := s.handlers.erase x, disconnected := s.disconnected ++ [x], stack := .disconnect j m :: s.stack }) := by
  induction n generalizing i with
  | zero => exact .inr (.inl rfl)
  | succ n ih =>
    have hi : i < s.ids.length := by omega
    unfold loop
    rw [List.getElem?_eq_getElem hi]
    dsimp only
    generalize hx : s.ids[i] = x
    have hget : s.ids[i]? = some x := by rw [List.getElem?_eq_getElem hi, hx]
    by_cases h0 : x ≠ 0
    · rw [if_pos h0]
      by_cases hm : x ∈ s.handlers
      · rw [if_pos hm]
        exact .inr (.inr ⟨i, n, x, by omega, hget, h0, hm, by omega, rfl⟩)
      · rw [if_neg hm]
        exact .inl ⟨rfl, i, x, by omega, by omega, hget, h0, hm⟩
    · rw [if_neg h0]
      rcases ih (i + 1) (by omega) with ⟨e, j, x, h1, h2, h3⟩ | e | ⟨j, m, x, h1, h2⟩
      · exact .inl ⟨e, j, x, by omega, by omega, h3⟩
      · exact .inr (.inl e)
      · exact .inr (.inr ⟨j, m, x, by omega, h2⟩)

theorem loose_push {s : State} (h : Loose s) {j m x : Nat} (hg : s.ids[j]? = some x) (h0 : x ≠ 0) (hm : x ∈ s.handlers) (hr : j + m + 1 ≤ s.ids.length) :
    Loose { s with handlers := s.handlers.erase x, disconnected := s.disconnected ++ [x], stack := .disconnect j m :: s.stack } := by
  have hmv := move_nodup h.once hm
  refine ⟨?_, h.uniq, h.small, ?_, hmv.1, fun y hy => h.lt y (hmv.2 y hy), ?_, h.once', h.lt', h.pos⟩
  · intro i y hi hy
    show y ∈ s.handlers.erase x ∨ i ∈ j :: busy s.stack
    rcases h.slot i y hi hy with h1 | h1
    · by_cases e : y = x
      · subst e
        exact .inr (by rw [h.uniq i j y hi hg hy]; exact List.mem_cons_self)
      · exact .inl ((List.mem_erase_of_ne e).2 h1)
    · exact .inr (List.mem_cons_of_mem _ h1)
  · intro i n hi
    rcases List.mem_cons.mp hi with hi | hi
    · cases hi; exact hr
    · exact h.room i n hi
  · intro hi
    rcases h.src hi with h1 | h1
    · exact .inl h1
    · exact .inr (List.mem_cons_of_mem _ h1)

theorem loose_pop {s : State} (h : Loose s) {i n : Nat} {rest : List Frame} (hs : s.stack = .disconnect i n :: rest) :
    Loose { s with ids := s.ids.set i 0, stack := rest } := by
  refine ⟨?_, ?_, ?_, ?_, h.once, h.lt, ?_, h.once', h.lt', h.pos⟩
  · intro j x hj h0
    have hj' : (s.ids.set i 0)[j]? = some x := hj
    rw [List.getElem?_set] at hj'
    split at hj'
    · split at hj' <;> simp_all
    · next hne =>
      rcases h.slot j x hj' h0 with h1 | h1
      · exact .inl h1
      · rw [hs] at h1
        rcases List.mem_cons.mp h1 with h1 | h1
        · omega
        · exact .inr h1
  · intro j k x hj hk h0
    have hj' : (s.ids.set i 0)[j]? = some x := hj
    have hk' : (s.ids.set i 0)[k]? = some x := hk
    rw [List.getElem?_set] at hj' hk'
    have := h.uniq j k x
    grind
  · intro x hx
    have hx' : x ∈ s.ids.set i 0 := hx
    rcases List.mem_or_eq_of_mem_set hx' with h1 | h1
    · exact h.small x h1
    · subst h1; exact h.pos
  · intro j m hj
    show j + m + 1 ≤ (s.ids.set i 0).length
    rw [List.length_set]
    exact h.room j m (by rw [hs]; exact List.mem_cons_of_mem _ hj)
  · intro hi
    rcases h.src hi with h1 | h1
    · exact .inl h1
    · rw [hs] at h1
      exact .inr ((List.mem_cons.mp h1).resolve_left (by simp))

theorem step_loose {s s' : State} {a : Act} (h : Loose s) (ha : Allowed s a) (e : step s a = .ok s') : Loose s' := by
  cases a with
  | connect i =>
    obtain ⟨hi, hx⟩ := ha
    cases e
    have hp := h.pos
    have fresh : s.next ∉ s.ids := fun hm => by have := h.small _ hm; omega
    refine ⟨?_, ?_, ?_, ?_, ?_, ?_, h.src, h.once', fun x hm => ⟨(h.lt' x hm).1, Nat.lt_succ_of_lt (h.lt' x hm).2⟩, Nat.succ_pos _⟩
    · intro j x hj h0
      have hj' : (s.ids.set i s.next)[j]? = some x := hj
      show x ∈ s.handlers ++ [s.next] ∨ j ∈ busy s.stack
      rw [List.getElem?_set] at hj'
      split at hj'
      · cases hj'; exact .inl (by simp)
      · rcases h.slot j x hj' h0 with h1 | h1
        · exact .inl (List.mem_append_left _ h1)
        · exact .inr h1
    · intro j k x hj hk h0
      have hj' : (s.ids.set i s.next)[j]? = some x := hj
      have hk' : (s.ids.set i s.next)[k]? = some x := hk
      rw [List.getElem?_set] at hj' hk'
      have := h.uniq j k x
      have m1 : s.ids[j]? = some x → x ∈ s.ids := List.mem_of_getElem?
      have m2 : s.ids[k]? = some x → x ∈ s.ids := List.mem_of_getElem?
      grind
    · intro x hm
      show x < s.next + 1
      rcases List.mem_or_eq_of_mem_set (show x ∈ s.ids.set i s.next from hm) with h1 | h1
      · have := h.small x h1; omega
      · omega
    · intro j m hj
      show j + m + 1 ≤ (s.ids.set i s.next).length
      rw [List.length_set]; exact h.room j m hj
    · show (s.disconnected ++ (s.handlers ++ [s.next])).Nodup
      rw [← List.append_assoc]
      refine List.nodup_append.mpr ⟨h.once, by simp, ?_⟩
      intro a ha b hb
      rw [List.mem_singleton.mp hb]
      rintro rfl
      have := h.lt _ ha; omega
    · intro x hm
      have hm' : x ∈ s.disconnected ++ (s.handlers ++ [s.next]) := hm
      rw [← List.append_assoc] at hm'
      show 0 < x ∧ x < s.next + 1
      rcases List.mem_append.mp hm' with hm' | hm'
      · have := h.lt x hm'; omega
      · rw [List.mem_singleton.mp hm']; omega
  | disconnect count =>
    have ha' : count ≤ s.ids.length := ha
    have e' : loop s count 0 = .ok s' := e
    rcases loop_loose count 0 s h (by omega) with ⟨h1, _⟩ | h1 | ⟨j, m, x, _, h2, h3, h4, h5, h1⟩ <;> rw [h1] at e' <;> cases e'
    · exact h
    · exact loose_push h h2 h3 h4 h5
  | add =>
    cases e
    have hp := h.pos
    refine ⟨h.slot, h.uniq, fun x hm => Nat.lt_succ_of_lt (h.small x hm), h.room, h.once,
      fun x hm => ⟨(h.lt x hm).1, Nat.lt_succ_of_lt (h.lt x hm).2⟩, fun _ => .inl (by simp), ?_, ?_, Nat.succ_pos _⟩
    · show (s.removed ++ (s.sources ++ [s.next])).Nodup
      rw [← List.append_assoc]
      refine List.nodup_append.mpr ⟨h.once', by simp, ?_⟩
      intro a ha b hb
      rw [List.mem_singleton.mp hb]
      rintro rfl
      have := h.lt' _ ha; omega
    · intro x hm
      have hm' : x ∈ s.removed ++ (s.sources ++ [s.next]) := hm
      rw [← List.append_assoc] at hm'
      show 0 < x ∧ x < s.next + 1
      rcases List.mem_append.mp hm' with hm' | hm'
      · have := h.lt' x hm'; omega
      · rw [List.mem_singleton.mp hm']; omega
  | clear =>
    have e' : clear s = .ok s' := e
    unfold clear at e'
    split at e'
    · split at e'
      · next hm =>
        cases e'
        have hmv := move_nodup h.once' hm
        refine ⟨h.slot, h.uniq, h.small, ?_, h.once, h.lt, fun _ => .inr List.mem_cons_self, hmv.1, fun y hy => h.lt' y (hmv.2 y hy), h.pos⟩
        intro i n hi
        exact h.room i n ((List.mem_cons.mp hi).resolve_left (by simp))
      · cases e'
    · cases e'; exact h
  | ret =>
    have e' : ret s = .ok s' := e
    unfold ret at e'
    split at e'
    · cases e'
    · next i n rest hs =>
      have hl := loose_pop h hs
      have hr := h.room i n (by rw [hs]; exact List.mem_cons_self)
      rcases loop_loose n (i + 1) _ hl (by show i + 1 + n ≤ (s.ids.set i 0).length; rw [List.length_set]; omega) with
        ⟨h1, _⟩ | h1 | ⟨j, m, x, _, h2, h3, h4, h5, h1⟩ <;> rw [h1] at e' <;> cases e'
      · exact hl
      · exact loose_push hl h2 h3 h4 h5
    · next rest hs =>
      cases e'
      refine ⟨?_, h.uniq, h.small, ?_, h.once, h.lt, fun h0 => absurd rfl h0, h.once', h.lt', h.pos⟩
      · intro i x hi h0
        have := h.slot i x hi h0
        rw [hs] at this
        exact this
      · intro i n hi
        exact h.room i n (by rw [hs]; exact List.mem_cons_of_mem _ hi)

theorem new_loose (size : Nat) : Loose (new size) := by
  have hz : ∀ i x : Nat, (List.replicate size 0)[i]? = some x → x = 0 := fun i x h => (List.mem_replicate.mp (List.mem_of_getElem? h)).2
  refine ⟨fun i x h h0 => absurd (hz i x h) h0, fun i j x h _ h0 => absurd (hz i x h) h0, ?_, ?_, List.nodup_nil, ?_, fun h => absurd rfl h,
    List.nodup_nil, ?_, Nat.one_pos⟩
  · intro x hx
    rw [(List.mem_replicate.mp hx).2]
    exact Nat.one_pos
  · intro i n hi; cases hi
  · intro x hx; cases hx
  · intro x hx; cases hx

theorem reach_loose {P : State → Act → Prop} {s : State} (h : Reach P s) : Loose s := by
  induction h with
  | new => exact new_loose _
  | step _ ha _ e ih => exact step_loose ih ha e

/-- **C110** Whatever notifications do, the only thing that goes wrong at once is this: `gutil_disconnect_handlers` (called by the notification,
or continued after it) gets to an id which is being disconnected and hasn't been replaced, or `gutil_source_clear` is called for an id which is
being removed and hasn't been replaced. Then GLib is asked to do it for the second time. -/
theorem C110_exactly {s : State} {a : Act} (h : Reach (fun _ _ => True) s) (ha : Allowed s a) :
    (∃ s', step s a = .ok s') ∨
    (step s a = .error .badArg ∧
      ((∃ i x, i ∈ busy s.stack ∧ s.ids[i]? = some x ∧ x ≠ 0 ∧ x ∉ s.handlers ∧ ((∃ count, a = .disconnect count ∧ i < count) ∨ a = .ret)) ∨
       (a = .clear ∧ Frame.clear ∈ s.stack ∧ s.id ≠ 0 ∧ s.id ∉ s.sources))) := by
  have hi := reach_loose h
  cases a with
  | connect i => exact .inl ⟨_, rfl⟩
  | add => exact .inl ⟨_, rfl⟩
  | disconnect count =>
    have ha' : count ≤ s.ids.length := ha
    rcases loop_loose count 0 s hi (by omega) with ⟨h1, j, x, _, h2, h3, h4, h5⟩ | h1 | ⟨j, m, x, _, h2, h3, h4, h5, h1⟩
    · exact .inr ⟨h1, .inl ⟨j, x, (hi.slot j x h3 h4).resolve_left h5, h3, h4, h5, .inl ⟨count, rfl, by omega⟩⟩⟩
    · exact .inl ⟨_, h1⟩
    · exact .inl ⟨_, h1⟩
  | clear =>
    by_cases h0 : s.id = 0
    · exact .inl ⟨s, by show clear s = _; unfold clear; rw [if_neg (by simpa using h0)]⟩
    · by_cases hm : s.id ∈ s.sources
      · exact .inl ⟨_, by show clear s = _; unfold clear; rw [if_pos h0, if_pos hm]⟩
      · exact .inr ⟨by show clear s = _; unfold clear; rw [if_pos h0, if_neg hm], .inr ⟨rfl, (hi.src h0).resolve_left hm, h0, hm⟩⟩
  | ret =>
    have ha' : s.stack ≠ [] := ha
    match hs : s.stack with
    | [] => exact absurd hs ha'
    | .clear :: rest => exact .inl ⟨_, by show ret s = _; unfold ret; rw [hs]⟩
    | .disconnect i n :: rest =>
      have e : step s .ret = loop { s with ids := s.ids.set i 0, stack := rest } n (i + 1) := by show ret s = _; unfold ret; rw [hs]
      have hl := loose_pop hi hs
      have hr := hi.room i n (by rw [hs]; exact List.mem_cons_self)
      rcases loop_loose n (i + 1) _ hl (by show i + 1 + n ≤ (s.ids.set i 0).length; rw [List.length_set]; omega) with
        ⟨h1, j, x, h2, h2', h3, h4, h5⟩ | h1 | ⟨j, m, x, _, h2, h3, h4, h5, h1⟩
      · have h3' : (s.ids.set i 0)[j]? = some x := h3
        rw [List.getElem?_set_ne (by omega)] at h3'
        exact .inr ⟨by rw [e]; exact h1, .inl ⟨j, x, by rw [← hs]; exact (hi.slot j x h3' h4).resolve_left h5, h3', h4, h5, .inr rfl⟩⟩
      · exact .inl ⟨_, by rw [e]; exact h1⟩
      · exact .inl ⟨_, by rw [e]; exact h1⟩

/-- **C110** So nothing has been disconnected or removed twice before that, and what has been isn't there anymore. -/
theorem C110_once {s : State} (h : Reach (fun _ _ => True) s) :
    s.disconnected.Nodup ∧ s.removed.Nodup ∧ (∀ x ∈ s.handlers, x ∉ s.disconnected) ∧ ∀ x ∈ s.sources, x ∉ s.removed := by
  have hi := reach_loose h
  have h1 := List.nodup_append.mp hi.once
  have h2 := List.nodup_append.mp hi.once'
  exact ⟨h1.1, h2.1, fun x hx hd => h1.2.2 x hd x hx rfl, fun x hx hd => h2.2.2 x hd x hx rfl⟩

/-- **C110** The other thing that may happen is that the id of a handler which exists gets lost. That happens when the notification of the
handler which had its id there returns, if it has connected another one and stored its id in the same place, and never otherwise. -/
theorem C110_lost_exactly {s s' : State} {a : Act} (h : Reach (fun _ _ => True) s) (ha : Allowed s a) (e : step s a = .ok s') (x : Nat) (hx : x ∈ s'.handlers) :
    x ∉ s'.ids ↔ (x ∈ s.handlers ∧ x ∉ s.ids) ∨ (a = .ret ∧ ∃ i n rest, s.stack = .disconnect i n :: rest ∧ s.ids[i]? = some x) := by
  have hi := reach_loose h
  have hi' := step_loose hi ha e
  have hx0 : x ≠ 0 := by have := (hi'.lt x (List.mem_append_right _ hx)).1; omega
  cases a with
  | connect i =>
    obtain ⟨hlt, hn⟩ := ha
    cases e
    have hx' : x ∈ s.handlers ++ [s.next] := hx
    show x ∉ s.ids.set i s.next ↔ _
    constructor
    · intro hm
      have hne : x ≠ s.next := by rintro rfl; exact hm (List.mem_set hlt _)
      have hxh : x ∈ s.handlers := (List.mem_append.mp hx').resolve_right (by simpa using hne)
      refine .inl ⟨hxh, fun hm' => hm ?_⟩
      obtain ⟨j, hj⟩ := List.mem_iff_getElem?.mp hm'
      have : j ≠ i := by rintro rfl; exact hn x hxh hj
      exact List.mem_iff_getElem?.mpr ⟨j, by rw [List.getElem?_set_ne (Ne.symm this)]; exact hj⟩
    · rintro (⟨h1, h2⟩ | ⟨h1, _⟩)
      · intro hm
        rcases List.mem_or_eq_of_mem_set hm with h3 | h3
        · exact h2 h3
        · subst h3
          have := hi.lt _ (List.mem_append_right _ h1)
          omega
      · cases h1
  | add =>
    cases e
    exact ⟨fun hm => .inl ⟨hx, hm⟩, fun hm => hm.elim (·.2) (fun h => by cases h.1)⟩
  | clear =>
    have e' : clear s = .ok s' := e
    have : s'.ids = s.ids ∧ s'.handlers = s.handlers := by
      unfold clear at e'
      (repeat' split at e') <;> cases e' <;> exact ⟨rfl, rfl⟩
    rw [this.2] at hx
    rw [this.1]
    exact ⟨fun hm => .inl ⟨hx, hm⟩, fun hm => hm.elim (·.2) (fun h => by cases h.1)⟩
  | disconnect count =>
    have ha' : count ≤ s.ids.length := ha
    have e' : loop s count 0 = .ok s' := e
    have : s'.ids = s.ids ∧ ∀ y ∈ s'.handlers, y ∈ s.handlers := by
      rcases loop_loose count 0 s hi (by omega) with ⟨h1, _⟩ | h1 | ⟨j, m, y, _, h2, h3, h4, h5, h1⟩ <;> rw [h1] at e' <;> cases e'
      · exact ⟨rfl, fun _ h => h⟩
      · exact ⟨rfl, fun z hz => List.mem_of_mem_erase hz⟩
    rw [this.1]
    exact ⟨fun hm => .inl ⟨this.2 x hx, hm⟩, fun hm => hm.elim (·.2) (fun h => by cases h.1)⟩
  | ret =>
    have e' : ret s = .ok s' := e
    unfold ret at e'
    split at e'
    · cases e'
    · next i n rest hs =>
      have hl := loose_pop hi hs
      have hr := hi.room i n (by rw [hs]; exact List.mem_cons_self)
      have : s'.ids = s.ids.set i 0 ∧ ∀ y ∈ s'.handlers, y ∈ s.handlers := by
        rcases loop_loose n (i + 1) _ hl (by show i + 1 + n ≤ (s.ids.set i 0).length; rw [List.length_set]; omega) with
          ⟨h1, _⟩ | h1 | ⟨j, m, x, _, h2, h3, h4, h5, h1⟩ <;> rw [h1] at e' <;> cases e'
        · exact ⟨rfl, fun _ h => h⟩
        · exact ⟨rfl, fun z hz => List.mem_of_mem_erase hz⟩
      rw [this.1]
      constructor
      · intro hm
        by_cases hid : x ∈ s.ids
        · obtain ⟨j, hj⟩ := List.mem_iff_getElem?.mp hid
          by_cases hij : j = i
          · subst hij
            exact .inr ⟨rfl, j, n, rest, hs, hj⟩
          · exact absurd (List.mem_iff_getElem?.mpr ⟨j, by rw [List.getElem?_set_ne (Ne.symm hij)]; exact hj⟩) hm
        · exact .inl ⟨this.2 x hx, hid⟩
      · rintro (⟨_, h2⟩ | ⟨_, i', n', rest', h2, h3⟩) hm
        · rcases List.mem_or_eq_of_mem_set hm with h4 | h4
          · exact h2 h4
          · exact hx0 h4
        · rw [hs] at h2
          cases h2
          obtain ⟨j, hj⟩ := List.mem_iff_getElem?.mp hm
          rw [List.getElem?_set] at hj
          split at hj
          · split at hj
            · cases hj; exact hx0 rfl
            · cases hj
          · next hne => exact hne (hi.uniq _ _ x h3 hj hx0)
    · next rest hs =>
      cases e'
      exact ⟨fun hm => .inl ⟨hx, hm⟩, fun hm => hm.elim (·.2) (fun h => by obtain ⟨_, i, n, r, h, _⟩ := h; rw [hs] at h; cases h)⟩

/-- **C110** The same about sources. -/
theorem C110_source_lost_exactly {s s' : State} {a : Act} (h : Reach (fun _ _ => True) s) (ha : Allowed s a) (e : step s a = .ok s') (x : Nat) (hx : x ∈ s'.sources) :
    x ≠ s'.id ↔ (x ∈ s.sources ∧ x ≠ s.id) ∨ (a = .ret ∧ ∃ rest, s.stack = .clear :: rest ∧ s.id = x) := by
  have hi := reach_loose h
  have hi' := step_loose hi ha e
  have hx0 : x ≠ 0 := by have := (hi'.lt' x (List.mem_append_right _ hx)).1; omega
  have same : s'.id = s.id → (∀ y ∈ s'.sources, y ∈ s.sources) → (¬ ∃ rest, s.stack = .clear :: rest ∧ s.id = x) ∨ a ≠ .ret →
      (x ≠ s'.id ↔ (x ∈ s.sources ∧ x ≠ s.id) ∨ (a = .ret ∧ ∃ rest, s.stack = .clear :: rest ∧ s.id = x)) := by
    intro h1 h2 h3
    have := h2 x hx
    rw [h1]
    constructor
    · intro hn; exact .inl ⟨this, hn⟩
    · rintro (h4 | h4)
      · exact h4.2
      · rcases h3 with h3 | h3
        · exact absurd h4.2 h3
        · exact absurd h4.1 h3
  cases a with
  | connect i => cases e; exact same rfl (fun _ h => h) (.inr (by simp))
  | disconnect count =>
    have ha' : count ≤ s.ids.length := ha
    have e' : loop s count 0 = .ok s' := e
    rcases loop_loose count 0 s hi (by omega) with ⟨h1, _⟩ | h1 | ⟨j, m, y, _, h2, h3, h4, h5, h1⟩ <;> rw [h1] at e' <;> cases e'
    · exact same rfl (fun _ h => h) (.inr (by simp))
    · exact same rfl (fun _ h => h) (.inr (by simp))
  | add =>
    have hn : s.id ∉ s.sources := ha
    cases e
    have hx' : x ∈ s.sources ++ [s.next] := hx
    show x ≠ s.next ↔ _
    constructor
    · intro hne
      have hm : x ∈ s.sources := (List.mem_append.mp hx').resolve_right (by simpa using hne)
      exact .inl ⟨hm, by rintro rfl; exact hn hm⟩
    · rintro (⟨h1, _⟩ | ⟨h1, _⟩)
      · have := hi.lt' x (List.mem_append_right _ h1)
        omega
      · cases h1
  | clear =>
    have e' : clear s = .ok s' := e
    unfold clear at e'
    split at e'
    · split at e'
      · cases e'; exact same rfl (fun _ h => List.mem_of_mem_erase h) (.inr (by simp))
      · cases e'
    · cases e'; exact same rfl (fun _ h => h) (.inr (by simp))
  | ret =>
    have e' : ret s = .ok s' := e
    unfold ret at e'
    split at e'
    · cases e'
    · next i n rest hs =>
      have hl := loose_pop hi hs
      have hr := hi.room i n (by rw [hs]; exact List.mem_cons_self)
      have hns : ¬ ∃ rest, s.stack = .clear :: rest ∧ s.id = x := by rintro ⟨r, h, _⟩; rw [hs] at h; cases h
      rcases loop_loose n (i + 1) _ hl (by show i + 1 + n ≤ (s.ids.set i 0).length; rw [List.length_set]; omega) with
        ⟨h1, _⟩ | h1 | ⟨j, m, x, _, h2, h3, h4, h5, h1⟩ <;> rw [h1] at e' <;> cases e'
      · exact same rfl (fun _ h => h) (.inl hns)
      · exact same rfl (fun _ h => h) (.inl hns)
    · next rest hs =>
      cases e'
      have hx' : x ∈ s.sources := hx
      show x ≠ 0 ↔ _
      constructor
      · intro _
        by_cases hid : x = s.id
        · exact .inr ⟨rfl, rest, hs, hid.symm⟩
        · exact .inl ⟨hx', hid⟩
      · intro _; exact hx0

/-- All that in one run: the second slot is connected again by its own notification and that handler gets lost, and then the first slot is
disconnected by its own notification, which is an error. -/
example : (match any (new 2) [.connect 1, .disconnect 2, .connect 1, .ret, .connect 0, .disconnect 2] with
    | some s => decide (s.handlers = [2] ∧ s.ids = [3, 0] ∧ s.disconnected = [1, 3] ∧ Allowed s (.disconnect 1) ∧ step s (.disconnect 1) = .error .badArg ∧
        busy s.stack = [0])
    | none => false) = true ∧
    (match any (new 0) [.add, .clear, .add, .ret] with | some s => decide (s.sources = [2] ∧ s.id = 0 ∧ s.removed = [1]) | none => false) = true := by
  decide +kernel

end Verif.MiscCb
