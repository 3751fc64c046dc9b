import Verif.Props.IdleQueueEach

/-!
# The order of cancelling doesn't matter: C172
-/

namespace Verif.Idle
open Verif.C

/-- The items without the first one which has that tag -/
def without (tag : Nat) (l : List Item) : List Item := l.eraseP fun i => i.tag == tag

/-- ... and that one -/
def firstWith (tag : Nat) (l : List Item) : Option Item := l.find? fun i => i.tag == tag

theorem removeTag_exactly {tag : Nat} : ∀ {l : List Item} (prev : Item) (last : Option Nat) {x : Item}, firstWith tag l = some x →
    ∃ last', removeTag tag prev l last = some (x, without tag l, last')
  | [], _, _, _, h => by simp [firstWith] at h
  | i :: t, prev, last, x, h => by
    rw [removeTag]
    by_cases hc : i.tag = tag
    · rw [if_pos hc]
      simp only [firstWith, List.find?_cons, hc, beq_self_eq_true] at h
      cases h
      exact ⟨if t.isEmpty then some prev.id else last, by simp [without, hc]⟩
    · rw [if_neg hc]
      have hb : (i.tag == tag) = false := by simpa using hc
      obtain ⟨last', e⟩ := removeTag_exactly i last (x := x) (l := t) (by simpa [firstWith, List.find?_cons, hb] using h)
      rw [e]
      exact ⟨last', by simp [without, List.eraseP_cons, hb]⟩

theorem removeTag_missing {tag : Nat} : ∀ {l : List Item} (prev : Item) (last : Option Nat), firstWith tag l = none → removeTag tag prev l last = none
  | [], _, _, _ => rfl
  | i :: t, prev, last, h => by
    rw [removeTag]
    have hc : ¬ i.tag = tag := by
      intro hc
      simp [firstWith, List.find?_cons, hc] at h
    have hb : (i.tag == tag) = false := by simpa using hc
    rw [if_neg hc, removeTag_missing i last (l := t) (by simpa [firstWith, List.find?_cons, hb] using h)]

theorem cancelQuiet_none {s : State} {tag : Nat} (ha : s.alive = true) (ht : firstWith tag s.items = none) : cancelTagQuietly s tag = .ok s := by
  unfold cancelTagQuietly
  show ((do s.access; let (s, _) ← cancelTag s tag; .ok s) >>= _) = _
  unfold State.access cancelTag
  rw [if_pos ha, ok_bind]
  cases hi : s.items with
  | nil =>
    simp only [ok_bind]
    rw [if_neg (by simp)]
  | cons i t =>
    rw [hi] at ht
    have hc : ¬ i.tag = tag := by
      intro hc
      simp [firstWith, List.find?_cons, hc] at ht
    have hb : (i.tag == tag) = false := by simpa using hc
    dsimp only
    rw [if_neg hc, removeTag_missing i s.last (by simpa [firstWith, List.find?_cons, hb] using ht)]
    simp only [ok_bind]
    rw [if_neg (by simp)]

theorem cancelQuiet_some {s : State} {tag : Nat} {x : Item} (ha : s.alive = true) (hl : s.live = s.source.toList) (ht : firstWith tag s.items = some x) :
    ∃ last', cancelTagQuietly s tag = .ok { s with items := without tag s.items, last := last', log := s.log ++ cancelEach [x.entry], source := (if without tag s.items = [] then none else s.source), live := (if without tag s.items = [] then [] else s.live) } := by
  cases hi : s.items with
  | nil => rw [hi] at ht; simp [firstWith] at ht
  | cons i t =>
    rw [hi] at ht
    by_cases hc : i.tag = tag
    · simp only [firstWith, List.find?_cons, hc, beq_self_eq_true] at ht
      have ht : i = x := by simpa using ht
      subst ht
      have ew : without tag (i :: t) = t := by simp [without, List.eraseP_cons, hc]
      rw [ew]
      unfold cancelTagQuietly
      show ∃ last', ((do s.access; let (s, _) ← cancelTag s tag; .ok s) >>= _) = _
      unfold State.access cancelTag
      rw [if_pos ha, ok_bind, hi]
      dsimp only
      rw [if_pos hc]
      unfold itemDestroy
      refine ⟨lastOf t s.last, ?_⟩
      cases hx : i.destroy with
      | true =>
        simp only [if_true, ok_bind]
        rw [if_pos (by simp)]
        rw [step]
        unfold ret State.access
        dsimp only
        rw [if_pos ha, ok_bind]
        by_cases he : t = []
        · rw [clear_last (s := { s with items := t, last := lastOf t s.last, log := s.log ++ [.cancel i.id, .destroy i.id] }) hl he, if_pos he, if_pos he]
          simp [cancelEach, Item.entry, hx]
        · unfold clearIfEmpty
          rw [if_neg he, if_neg he, if_neg he]
          simp [cancelEach, Item.entry, hx]
      | false =>
        simp only [Bool.false_eq_true, if_false]
        by_cases he : t = []
        · rw [clear_last (s := { s with items := t, last := lastOf t s.last, log := s.log ++ [.cancel i.id] }) hl he, if_pos he, if_pos he]
          simp only [ok_bind]
          rw [if_neg (by simp)]
          simp [cancelEach, Item.entry, hx]
        · unfold clearIfEmpty
          rw [if_neg he, if_neg he, if_neg he]
          simp only [ok_bind]
          rw [if_neg (by simp)]
          simp [cancelEach, Item.entry, hx]
    · have hb : (i.tag == tag) = false := by simpa using hc
      obtain ⟨last', e⟩ := removeTag_exactly i s.last (x := x) (l := t) (by simpa [firstWith, List.find?_cons, hb] using ht)
      have ew : without tag (i :: t) = i :: without tag t := by simp [without, List.eraseP_cons, hb]
      rw [ew, if_neg (by simp), if_neg (by simp)]
      unfold cancelTagQuietly
      show ∃ last', ((do s.access; let (s, _) ← cancelTag s tag; .ok s) >>= _) = _
      unfold State.access cancelTag
      rw [if_pos ha, ok_bind, hi]
      dsimp only
      rw [if_neg hc, e]
      dsimp only
      unfold itemDestroy
      refine ⟨last', ?_⟩
      cases hx : x.destroy with
      | true =>
        simp only [if_true, ok_bind]
        rw [if_pos (by simp)]
        rw [step]
        unfold ret
        simp [cancelEach, Item.entry, hx]
      | false =>
        simp only [Bool.false_eq_true, if_false, ok_bind]
        rw [if_neg (by simp)]
        simp [cancelEach, Item.entry, hx]

theorem reach_cancelQuiet {s s' : State} {tag : Nat} (h : Reach s) (hr : 0 < s.refs) (e : cancelTagQuietly s tag = .ok s') : Reach s' := by
  unfold cancelTagQuietly at e
  cases e1 : step s (.cancelTag tag) with
  | error x => rw [e1] at e; cases e
  | ok s1 =>
    rw [e1, ok_bind] at e
    have h1 : Reach s1 := .step (a := .cancelTag tag) h hr e1
    split at e
    · rename_i hlt
      exact .step (a := .ret) h1 (by
        show s1.stack ≠ []
        intro hn
        rw [hn] at hlt
        simp at hlt) e
    · cases e
      exact h1

theorem firstWith_without {t u : Nat} (hne : t ≠ u) (l : List Item) : firstWith t (without u l) = firstWith t l := by
  induction l with
  | nil => rfl
  | cons i l ih =>
    unfold firstWith without at *
    by_cases hc : i.tag = u
    · have hb : (i.tag == t) = false := by simp only [beq_eq_false_iff_ne, hc]; exact fun h => hne h.symm
      simp [List.eraseP_cons, List.find?_cons, hc, hb]
      have hb' : (u == t) = false := by simpa using fun h => hne h.symm
      simp [hb']
    · have hb : (i.tag == u) = false := by simpa using hc
      simp only [List.eraseP_cons, hb, cond_false, List.find?_cons, ih]

theorem without_comm {t u : Nat} (hne : t ≠ u) (l : List Item) : without t (without u l) = without u (without t l) := by
  unfold without
  exact List.eraseP_comm fun i _ => by
    simp only [beq_iff_eq]
    by_cases h : i.tag = u
    · exact .inr (fun h' => hne (h'.symm.trans h))
    · exact .inl h

/-- **C172** Cancelling by two different tags can be done in any order, as long as the callbacks do nothing: the same two callbacks are invoked (`a` and `b` is what has been recorded
about them; nothing, if there's no item with that tag), and everything else is the same in the end. -/
theorem C172_order {s : State} (h : Reach s) (hr : 0 < s.refs) {t u : Nat} (hne : t ≠ u) :
    ∃ s1 s2 s3 s4 a b, cancelTagQuietly s t = .ok s1 ∧ cancelTagQuietly s1 u = .ok s2 ∧ cancelTagQuietly s u = .ok s3 ∧ cancelTagQuietly s3 t = .ok s4 ∧
      s1.log = s.log ++ a ∧ s2.log = s.log ++ a ++ b ∧ s3.log = s.log ++ b ∧ s4.log = s.log ++ b ++ a ∧ s2 = { s4 with log := s2.log } := by
  have hv := reach_inv h
  have hal := hv.alive' hr
  cases ft : firstWith t s.items with
  | none =>
    have e1 := cancelQuiet_none hal ft
    cases fu : firstWith u s.items with
    | none =>
      have e2 := cancelQuiet_none hal fu
      exact ⟨s, s, s, s, [], [], e1, e2, e2, e1, by simp, by simp, by simp, by simp, rfl⟩
    | some y =>
      obtain ⟨l, e2⟩ := cancelQuiet_some hal hv.liveEq fu
      exact ⟨s, _, _, _, [], cancelEach [y.entry], e1, e2, e2, cancelQuiet_none hal (by rw [firstWith_without hne]; exact ft), by simp, by simp, rfl, by simp, rfl⟩
  | some x =>
    obtain ⟨l, e1⟩ := cancelQuiet_some hal hv.liveEq ft
    cases fu : firstWith u s.items with
    | none =>
      have e2 := cancelQuiet_none hal fu
      exact ⟨_, _, s, _, cancelEach [x.entry], [], e1, cancelQuiet_none hal (by rw [firstWith_without hne.symm]; exact fu), e2, e1, rfl, by simp, by simp, by simp, rfl⟩
    | some y =>
      obtain ⟨k, e2⟩ := cancelQuiet_some hal hv.liveEq fu
      have r1 := reach_cancelQuiet h hr e1
      have r2 := reach_cancelQuiet h hr e2
      obtain ⟨l', e3⟩ := cancelQuiet_some (s := { s with items := without t s.items, last := l, log := s.log ++ cancelEach [x.entry], source := (if without t s.items = [] then none else s.source), live := (if without t s.items = [] then [] else s.live) }) (tag := u) (x := y) hal (reach_inv r1).liveEq (by rw [firstWith_without hne.symm]; exact fu)
      obtain ⟨k', e4⟩ := cancelQuiet_some (s := { s with items := without u s.items, last := k, log := s.log ++ cancelEach [y.entry], source := (if without u s.items = [] then none else s.source), live := (if without u s.items = [] then [] else s.live) }) (tag := t) (x := x) hal (reach_inv r2).liveEq (by rw [firstWith_without hne]; exact ft)
      have r3 := reach_cancelQuiet r1 hr e3
      have r4 := reach_cancelQuiet r2 hr e4
      refine ⟨_, _, _, _, _, _, e1, e3, e2, e4, rfl, rfl, rfl, rfl, ?_⟩
      have hl : l' = k' := by
        have q1 := (reach_inv r3).lastEq
        have q2 := (reach_inv r4).lastEq
        dsimp only at q1 q2
        rw [q1, q2, without_comm hne]
      have nt : without t s.items ≠ [] := by
        intro hn
        have := firstWith_without hne.symm s.items
        rw [hn, fu] at this
        simp [firstWith] at this
      have nu : without u s.items ≠ [] := by
        intro hn
        have := firstWith_without hne s.items
        rw [hn, ft] at this
        simp [firstWith] at this
      simp only [hl, if_neg nt, if_neg nu, without_comm hne]

/-- The conditions are met, and something is left. -/
example : ∃ s s1 s2 s3 s4, Reach s ∧ 0 < s.refs ∧ s.items.map Item.tag = [1, 2, 1] ∧ cancelTagQuietly s 1 = .ok s1 ∧ cancelTagQuietly s1 2 = .ok s2 ∧
    cancelTagQuietly s 2 = .ok s3 ∧ cancelTagQuietly s3 1 = .ok s4 ∧ s2.log.drop s.log.length = [.cancel 0, .destroy 0, .cancel 1, .destroy 1] ∧
    s4.log.drop s.log.length = [.cancel 1, .destroy 1, .cancel 0, .destroy 0] ∧ s4.items.map Item.id = [2] := by
  refine ⟨_, _, _, _, _, reach_exec (acts := [.add 1 true true, .add 2 false true, .add 1 true false]) .new (by decide +kernel) rfl, by decide +kernel,
    by decide +kernel, rfl, rfl, rfl, rfl, by decide +kernel, by decide +kernel, by decide +kernel⟩

end Verif.Idle
