import Verif.Props.Inotify
import Verif.Spec.InotifyShared

namespace Verif.Inotify
open Verif.C

theorem lt_of_some' {l : List Group} {n : Nat} {g : Group} (h : l[n]? = some g) : n < l.length := (List.getElem?_eq_some_iff.1 h).1

theorem groups_append (log : List Event) (e : Event) : groups (log ++ [e]) = share1 (groups log) e := by
  unfold groups
  rw [List.foldl_append]
  rfl

theorem lookup_remove (t : List (Nat × Nat)) (d d' : Nat) : tableLookup (tableRemove t d) d' = if d' = d then none else tableLookup t d' := by
  unfold tableLookup tableRemove
  induction t with
  | nil => simp
  | cons p t ih =>
    rw [List.filter_cons]
    by_cases hp : p.1 = d
    · rw [if_neg (by simp [hp]), ih]
      by_cases hd : d' = d
      · rw [if_pos hd, if_pos hd]
      · rw [if_neg hd, if_neg hd, List.find?_cons_of_neg (by simp only [decide_eq_true_eq]; omega)]
    · rw [if_pos (by simp [hp])]
      by_cases hd : p.1 = d'
      · rw [List.find?_cons_of_pos (by simp [hd]), List.find?_cons_of_pos (by simp [hd]), if_neg (by omega)]
      · rw [List.find?_cons_of_neg (by simp [hd]), List.find?_cons_of_neg (by simp [hd]), ih]

theorem lookup_insert (t : List (Nat × Nat)) (d w d' : Nat) : tableLookup (tableInsert t d w) d' = if d' = d then some w else tableLookup t d' := by
  by_cases hd : d' = d
  · rw [if_pos hd, tableLookup, tableInsert, List.find?_cons_of_pos (by simp [hd])]
    rfl
  · have h := lookup_remove t d d'
    rw [if_neg hd] at h
    rw [if_neg hd, ← h, tableLookup, tableInsert, List.find?_cons_of_neg (by simp only [decide_eq_true_eq]; omega)]
    rfl

/-- Handlers are only called for the newest watch of a group, and only if none of the group has been stopped. -/
def Newest (log : List Event) : Prop :=
  ∀ pre w ev post, log = pre ++ .delivered w ev :: post → ∃ g ∈ groups pre, g.members.head? = some w ∧ g.ended = false

theorem append_cases {log pre post : List Event} {e a : Event} (h : log ++ [e] = pre ++ a :: post) :
    (log = pre ∧ e = a) ∨ ∃ post', log = pre ++ a :: post' := by
  rcases List.eq_nil_or_concat post with rfl | ⟨post', x, rfl⟩
  · have := List.append_inj' h (by simp)
    exact .inl ⟨this.1, by simpa using this.2⟩
  · rw [List.concat_eq_append] at h
    have h : log ++ [e] = (pre ++ a :: post') ++ [x] := by rw [h]; simp
    exact .inr ⟨post', (List.append_inj' h (by simp)).1⟩

theorem newest_append {log : List Event} (h : Newest log) {e : Event} (he : ∀ w ev, e = .delivered w ev → ∃ g ∈ groups log, g.members.head? = some w ∧ g.ended = false) :
    Newest (log ++ [e]) := by
  intro pre w ev post hs
  rcases append_cases hs with ⟨rfl, rfl⟩ | ⟨post', rfl⟩
  · exact he w ev rfl
  · exact h pre w ev post' rfl

theorem deliveredTo_append (ws : List Nat) (a b : List Event) : deliveredTo ws (a ++ b) = deliveredTo ws a ++ deliveredTo ws b := List.filterMap_append

theorem deliveredTo_other (ws : List Nat) {e : Event} (he : ∀ w ev, e ≠ .delivered w ev) (log : List Event) : deliveredTo ws (log ++ [e]) = deliveredTo ws log := by
  rw [deliveredTo_append]
  cases e with
  | delivered w ev => exact absurd rfl (he w ev)
  | _ => exact List.append_nil _

/-- A watch which hasn't been told about anything doesn't matter. -/
theorem deliveredTo_cons {w : Nat} {log : List Event} (h : delivered w log = []) (ws : List Nat) : deliveredTo (w :: ws) log = deliveredTo ws log := by
  induction log with
  | nil => rfl
  | cons e t ih =>
    have ht : delivered w t = [] := by
      cases e with
      | delivered v ev =>
        unfold delivered at h ⊢
        rw [List.filterMap_cons] at h
        split at h
        · exact h
        · cases h
      | _ => exact h
    have ih := ih ht
    cases e with
    | delivered v ev =>
      have hv : v ≠ w := by
        rintro rfl
        simp [delivered] at h
      unfold deliveredTo at ih ⊢
      rw [List.filterMap_cons, List.filterMap_cons, ih]
      by_cases hm : v ∈ ws
      · simp only [List.mem_cons, hm, or_true, if_true]
      · simp only [List.mem_cons, hm, hv, or_self, if_false]
    | _ => exact ih

/-- How the groups are related to the state: the group of the watch descriptor `d` is the one with number `base + d - 1`. -/
structure G (base : Nat) (b : List (Nat × Ev)) (s : State) : Prop where
  len : (groups s.log).length + 1 = base + s.nextWd
  old : ∀ (n : Nat) (g : Group), (groups s.log)[n]? = some g → n < base → g.watched = false
  kern : ∀ (d : Nat) (g : Group), 0 < d → (groups s.log)[base + d - 1]? = some g →
    if g.watched then (⟨d, g.file, g.mask⟩ : KWatch) ∈ s.kernel else ∀ k ∈ s.kernel, k.wd ≠ d
  fin : ∀ g ∈ groups s.log, g.ended = true → g.watched = false
  tab : ∀ i, s.inst = some i → ∀ d, 0 < d → tableLookup i.table d = (groups s.log)[base + d - 1]?.bind (fun g => if g.ended then none else g.members.head?)
  mem : ∀ (w : Nat) (x : Watch) (d : Nat), s.watches[w]? = some x → x.wd = some d → ∃ g, (groups s.log)[base + d - 1]? = some g ∧ w ∈ g.members
  uniq : ∀ (n m : Nat) (g g' : Group) (w : Nat), (groups s.log)[n]? = some g → (groups s.log)[m]? = some g' → w ∈ g.members → w ∈ g'.members → n = m
  lt : ∀ g ∈ groups s.log, ∀ w ∈ g.members, w < s.watches.length
  pre : ∀ g ∈ groups s.log, deliveredTo g.members s.log <+: g.events
  pend : ∀ (d : Nat) (g : Group), 0 < d → (groups s.log)[base + d - 1]? = some g → g.ended = false → deliveredTo g.members s.log ++ pend d (b ++ s.queue) = g.events
  newest : Newest s.log
  done : ∀ (n : Nat) (g : Group), (groups s.log)[n]? = some g → n < base → g.ended = true
  back : ∀ (d : Nat) (g : Group), 0 < d → (groups s.log)[base + d - 1]? = some g → g.ended = false → ∀ w ∈ g.members, ∃ x, s.watches[w]? = some x ∧ x.wd = some d

/-- The log is the same, and so is all the rest that matters. -/
theorem g_same {base : Nat} {b b' : List (Nat × Ev)} {s s' : State} (h : G base b s) (h1 : ∀ i', s'.inst = some i' → ∃ i, s.inst = some i ∧ i.table = i'.table)
    (h2 : ∀ (w : Nat) (x' : Watch), s'.watches[w]? = some x' → x'.wd ≠ none → ∃ x, s.watches[w]? = some x ∧ x.wd = x'.wd) (h3 : s.watches.length ≤ s'.watches.length)
    (h4 : s'.kernel = s.kernel) (h5 : ∀ d, 0 < d → pend d (b' ++ s'.queue) = pend d (b ++ s.queue)) (h6 : s'.nextWd = s.nextWd) (h7 : s'.log = s.log)
    (h8 : ∀ (w : Nat) (x : Watch) (d : Nat), s.watches[w]? = some x → x.wd = some d → ∃ x', s'.watches[w]? = some x' ∧ x'.wd = some d := by exact fun w x d hw hd => ⟨x, hw, hd⟩) : G base b' s' := by
  constructor
  · rw [h7, h6]; exact h.len
  · rw [h7]; exact h.old
  · rw [h7, h4]; exact h.kern
  · rw [h7]; exact h.fin
  · intro i' hi'
    obtain ⟨i, hi, e⟩ := h1 i' hi'
    rw [h7, ← e]; exact h.tab i hi
  · intro w x' d hw hd
    obtain ⟨x, hx, e⟩ := h2 w x' hw (by rw [hd]; simp)
    rw [h7]
    exact h.mem w x d hx (e.trans hd)
  · rw [h7]; exact h.uniq
  · rw [h7]; exact fun g hg w hw => Nat.lt_of_lt_of_le (h.lt g hg w hw) h3
  · rw [h7]; exact h.pre
  · intro d g hd hg he
    rw [h7] at hg ⊢
    rw [h5 d hd]
    exact h.pend d g hd hg he
  · rw [h7]; exact h.newest
  · rw [h7]; exact h.done
  · intro d g hd hg he w hw
    rw [h7] at hg
    obtain ⟨x, hx, ex⟩ := h.back d g hd hg he w hw
    exact h8 w x d hx ex

/-- An event which changes each group on its own. -/
theorem g_map {base : Nat} {b : List (Nat × Ev)} {s s' : State} {e : Event} {f : Group → Group} (h : G base b s) (hl : s'.log = s.log ++ [e])
    (hf : share1 (groups s.log) e = (groups s.log).map f) (he : ∀ w ev, e ≠ .delivered w ev) (hm : ∀ g, (f g).members = g.members) (hev : ∀ g, g.events <+: (f g).events)
    (hn : s'.nextWd = s.nextWd) (hwl : s.watches.length ≤ s'.watches.length)
    (hw : ∀ (w : Nat) (x' : Watch), s'.watches[w]? = some x' → x'.wd ≠ none → ∃ x, s.watches[w]? = some x ∧ x.wd = x'.wd)
    (hwf : ∀ g, g.watched = false → (f g).watched = false) (hend : ∀ g ∈ groups s.log, (f g).ended = true → (f g).watched = false)
    (kern : ∀ (d : Nat) (g : Group), 0 < d → (groups s.log)[base + d - 1]? = some g →
      if (f g).watched then (⟨d, (f g).file, (f g).mask⟩ : KWatch) ∈ s'.kernel else ∀ k ∈ s'.kernel, k.wd ≠ d)
    (tab : ∀ i, s'.inst = some i → ∀ d, 0 < d → tableLookup i.table d = (groups s.log)[base + d - 1]?.bind (fun g => if (f g).ended then none else g.members.head?))
    (hp : ∀ (d : Nat) (g : Group), 0 < d → (groups s.log)[base + d - 1]? = some g → (f g).ended = false →
      deliveredTo g.members s.log ++ Inotify.pend d (b ++ s'.queue) = (f g).events)
    (hdone : ∀ g, g.ended = true → (f g).ended = true)
    (back : ∀ (d : Nat) (g : Group), 0 < d → (groups s.log)[base + d - 1]? = some g → (f g).ended = false → ∀ w ∈ g.members, ∃ x, s'.watches[w]? = some x ∧ x.wd = some d) :
    G base b s' := by
  have hg : groups s'.log = (groups s.log).map f := by rw [hl, groups_append, hf]
  have some_iff : ∀ (n : Nat) (g : Group), (groups s'.log)[n]? = some g → ∃ g0, (groups s.log)[n]? = some g0 ∧ f g0 = g := by
    intro n g h
    rw [hg, List.getElem?_map, Option.map_eq_some_iff] at h
    exact h
  have mem_iff : ∀ g, g ∈ groups s'.log → ∃ g0 ∈ groups s.log, f g0 = g := by
    intro g h
    rw [hg] at h
    exact List.mem_map.1 h
  have hdl : ∀ ws, deliveredTo ws s'.log = deliveredTo ws s.log := fun ws => by rw [hl]; exact deliveredTo_other ws he s.log
  constructor
  · rw [hg, List.length_map, hn]; exact h.len
  · intro n g hn hlt
    obtain ⟨g0, h0, rfl⟩ := some_iff n g hn
    exact hwf g0 (h.old n g0 h0 hlt)
  · intro d g hd hn
    obtain ⟨g0, h0, rfl⟩ := some_iff _ g hn
    exact kern d g0 hd h0
  · intro g hg he
    obtain ⟨g0, h0, rfl⟩ := mem_iff g hg
    exact hend g0 h0 he
  · intro i hi d hd
    rw [tab i hi d hd, hg, List.getElem?_map]
    cases (groups s.log)[base + d - 1]? with
    | none => rfl
    | some g => simp only [Option.bind_some, Option.map_some, hm]
  · intro w x' d hw' hd
    obtain ⟨x, hx, ex⟩ := hw w x' hw' (by rw [hd]; simp)
    obtain ⟨g, h1, h2⟩ := h.mem w x d hx (ex.trans hd)
    refine ⟨f g, ?_, by rw [hm]; exact h2⟩
    rw [hg, List.getElem?_map, h1]
    rfl
  · intro n m g g' w h1 h2 h3 h4
    obtain ⟨g0, h01, rfl⟩ := some_iff n g h1
    obtain ⟨g1, h11, rfl⟩ := some_iff m g' h2
    rw [hm] at h3 h4
    exact h.uniq n m g0 g1 w h01 h11 h3 h4
  · intro g hg w hwm
    obtain ⟨g0, h0, rfl⟩ := mem_iff g hg
    rw [hm] at hwm
    exact Nat.lt_of_lt_of_le (h.lt g0 h0 w hwm) hwl
  · intro g hg
    obtain ⟨g0, h0, rfl⟩ := mem_iff g hg
    rw [hdl, hm]
    exact (h.pre g0 h0).trans (hev g0)
  · intro d g hd hn he
    obtain ⟨g0, h0, rfl⟩ := some_iff _ g hn
    rw [hdl, hm]
    exact hp d g0 hd h0 he
  · rw [hl]
    exact newest_append h.newest (fun w ev e1 => absurd e1 (he w ev))
  · intro n g hn hlt
    obtain ⟨g0, h0, rfl⟩ := some_iff n g hn
    exact hdone g0 (h.done n g0 h0 hlt)
  · intro d g hd hn he
    obtain ⟨g0, h0, rfl⟩ := some_iff _ g hn
    rw [hm]
    exact back d g0 hd h0 he

/-- An event which means nothing to the groups -/
theorem g_log {base : Nat} {b : List (Nat × Ev)} {s : State} (h : G base b s) {e : Event} (hf : ∀ l, share1 l e = l) (he : ∀ w ev, e ≠ .delivered w ev) :
    G base b { s with log := s.log ++ [e] } :=
  g_map (f := id) h rfl (by rw [hf, List.map_id]) he (fun _ => rfl) (fun g => List.prefix_refl _) rfl (Nat.le_refl _) (fun w x hw _ => ⟨x, hw, rfl⟩) (fun _ h => h) h.fin h.kern h.tab
    (fun d g hd hg he => h.pend d g hd hg he) (fun _ h => h) h.back

/-- References to the watch are being counted. -/
theorem g_set {base : Nat} {b : List (Nat × Ev)} {s : State} (h : G base b s) {w : Nat} {x : Watch} (hw : s.watches[w]? = some x) {y : Watch} (hy : y.wd = x.wd) :
    G base b { s with watches := s.watches.set w y } := by
  refine g_same h (fun i hi => ⟨i, hi, rfl⟩) ?_ (by simp) rfl (fun _ _ => rfl) rfl rfl ?_
  · intro v x' hv hd
    dsimp only at hv
    rw [getElem?_set hw] at hv
    by_cases e : v = w
    · rw [if_pos e] at hv
      cases hv
      subst e
      exact ⟨x, hw, hy.symm⟩
    · rw [if_neg e] at hv
      exact ⟨x', hv, rfl⟩
  · intro v z d hv hd
    dsimp only
    rw [getElem?_set hw]
    by_cases e : v = w
    · rw [if_pos e]
      subst e
      rw [hw] at hv
      cases hv
      exact ⟨y, rfl, hy.trans hd⟩
    · rw [if_neg e]
      exact ⟨z, hv, hd⟩

theorem share1_ne {l : List Group} (h : ∀ g ∈ l, g.members ≠ []) (e : Event) : ∀ g ∈ share1 l e, g.members ≠ [] := by
  have hmap : ∀ f : Group → Group, (∀ g ∈ l, (f g).members ≠ []) → ∀ g ∈ l.map f, g.members ≠ [] := by
    intro f hf g hg
    obtain ⟨g0, h0, rfl⟩ := List.mem_map.1 hg
    exact hf g0 h0
  cases e with
  | created w file mask =>
    rw [share1]
    split
    · refine hmap _ (fun g hg => ?_)
      split
      · simp [Group.join]
      · exact h g hg
    · intro g hg
      rcases List.mem_append.1 hg with hg | hg
      · exact h g hg
      · rw [List.mem_singleton] at hg
        rw [hg]
        simp
  | stopped w => refine hmap _ (fun g hg => ?_); split <;> exact h g hg
  | happened file ev => refine hmap _ (fun g hg => ?_); split <;> exact h g hg
  | vanished file => refine hmap _ (fun g hg => ?_); split <;> exact h g hg
  | vanishedLost file => refine hmap _ (fun g hg => ?_); split <;> exact h g hg
  | closed fd => exact hmap _ h
  | _ => exact h

theorem foldl_ne : ∀ (log : List Event) (l : List Group), (∀ g ∈ l, g.members ≠ []) → ∀ g ∈ log.foldl share1 l, g.members ≠ [] := by
  intro log
  induction log with
  | nil => exact fun l h => h
  | cons e t ih => exact fun l h => ih (share1 l e) (share1_ne h e)

theorem groups_ne (log : List Event) : ∀ g ∈ groups log, g.members ≠ [] := foldl_ne log [] (fun _ h => by cases h)

/-- The instance has been closed. -/
theorem g_close {race : Option Nat} {base : Nat} {b b' : List (Nat × Ev)} {s : State} {i : Inst} (h : G base b s) (hd : ∀ (w : Nat) (x : Watch), s.watches[w]? = some x → x.wd = none) :
    G (groups s.log).length b' (closeSt race s i) := by
  have hg : groups (s.log ++ [.closed i.fd, .closed i.fd]) = ((groups s.log).map (fun g => g.forget false)).map (fun g => g.forget false) := by
    have : s.log ++ [.closed i.fd, .closed i.fd] = (s.log ++ [.closed i.fd]) ++ [.closed i.fd] := by simp
    rw [this, groups_append, groups_append]
    rfl
  have hdl : ∀ ws, deliveredTo ws (s.log ++ [.closed i.fd, .closed i.fd]) = deliveredTo ws s.log := by
    intro ws
    rw [deliveredTo_append]
    exact List.append_nil _
  have some_iff : ∀ (n : Nat) (g : Group), (groups (s.log ++ [.closed i.fd, .closed i.fd]))[n]? = some g → ∃ g0, (groups s.log)[n]? = some g0 ∧ g = { g0 with watched := false } := by
    intro n g h
    rw [hg, List.getElem?_map, List.getElem?_map, Option.map_map, Option.map_eq_some_iff] at h
    obtain ⟨g0, h1, rfl⟩ := h
    exact ⟨g0, h1, by simp [Group.forget]⟩
  have mem_iff : ∀ g, g ∈ groups (s.log ++ [.closed i.fd, .closed i.fd]) → ∃ g0 ∈ groups s.log, g = { g0 with watched := false } := by
    intro g h
    obtain ⟨n, hn⟩ := List.getElem?_of_mem h
    obtain ⟨g0, h1, h2⟩ := some_iff n g hn
    exact ⟨g0, List.mem_of_getElem? h1, h2⟩
  have hlen : (groups (s.log ++ [.closed i.fd, .closed i.fd])).length = (groups s.log).length := by rw [hg]; simp
  unfold closeSt
  constructor
  · dsimp only; rw [hlen]
  · intro n g hn _
    obtain ⟨g0, _, rfl⟩ := some_iff n g hn
    rfl
  · intro d g hd hn
    have := lt_of_some' hn
    dsimp only at this
    omega
  · intro g hgm he
    obtain ⟨g0, _, rfl⟩ := mem_iff g hgm
    rfl
  · intro i hi; cases hi
  · intro w x d hw hx
    rw [hd w x hw] at hx
    cases hx
  · intro n m g g' w h1 h2 h3 h4
    obtain ⟨g0, h01, rfl⟩ := some_iff n g h1
    obtain ⟨g1, h11, rfl⟩ := some_iff m g' h2
    exact h.uniq n m g0 g1 w h01 h11 h3 h4
  · intro g hgm w hwm
    obtain ⟨g0, h0, rfl⟩ := mem_iff g hgm
    exact h.lt g0 h0 w hwm
  · intro g hgm
    obtain ⟨g0, h0, rfl⟩ := mem_iff g hgm
    dsimp only
    rw [hdl]
    exact h.pre g0 h0
  · intro d g hd hn
    have := lt_of_some' hn
    dsimp only at this
    omega
  · have : s.log ++ [.closed i.fd, .closed i.fd] = (s.log ++ [.closed i.fd]) ++ [.closed i.fd] := by simp
    dsimp only
    rw [this]
    exact newest_append (newest_append h.newest (by simp)) (by simp)
  · intro n g hn _
    obtain ⟨g0, h0, rfl⟩ := some_iff n g hn
    show g0.ended = true
    by_cases hlt : n < base
    · exact h.done n g0 h0 hlt
    · apply Classical.byContradiction
      intro he
      cases hm : g0.members with
      | nil => exact groups_ne s.log g0 (List.mem_of_getElem? h0) hm
      | cons w t =>
        obtain ⟨x, hx, ex⟩ := h.back (n + 1 - base) g0 (by omega) (by rw [show base + (n + 1 - base) - 1 = n by omega]; exact h0) (by simpa using he) w (by rw [hm]; exact List.mem_cons_self)
        rw [hd w x hx] at ex
        cases ex
  · intro d g hd hn
    have := lt_of_some' hn
    dsimp only at this
    omega

theorem wd_unique {l : List KWatch} (h : l.Pairwise (fun a b => a.wd ≠ b.wd ∧ a.file ≠ b.file)) {k k' : KWatch} (hk : k ∈ l) (hk' : k' ∈ l) (e : k.wd = k'.wd) : k = k' := by
  induction l with
  | nil => cases hk
  | cons a t ih =>
    rw [List.pairwise_cons] at h
    rcases List.mem_cons.1 hk with rfl | h1 <;> rcases List.mem_cons.1 hk' with rfl | h2
    · rfl
    · exact absurd e (h.1 k' h2).1
    · exact absurd e.symm (h.1 k h1).1
    · exact ih h.2 h1 h2

theorem file_unique {l : List KWatch} (h : l.Pairwise (fun a b => a.wd ≠ b.wd ∧ a.file ≠ b.file)) {k k' : KWatch} (hk : k ∈ l) (hk' : k' ∈ l) (e : k.file = k'.file) : k = k' := by
  induction l with
  | nil => cases hk
  | cons a t ih =>
    rw [List.pairwise_cons] at h
    rcases List.mem_cons.1 hk with rfl | h1 <;> rcases List.mem_cons.1 hk' with rfl | h2
    · rfl
    · exact absurd e (h.1 k' h2).2
    · exact absurd e.symm (h.1 k h1).2
    · exact ih h.2 h1 h2

/-- Entries of the kernel and the groups -/
theorem G.entry {base : Nat} {b : List (Nat × Ev)} {s : State} (h : G base b s) {Q : Nat → Prop} (hh : Hist Q b s) {k : KWatch} (hk : k ∈ s.kernel) :
    ∃ g, (groups s.log)[base + k.wd - 1]? = some g ∧ g.watched = true ∧ g.file = k.file ∧ g.mask = k.mask := by
  obtain ⟨h1, h2⟩ := hh.wdK k hk
  have hl := h.len
  have hlt : base + k.wd - 1 < (groups s.log).length := by omega
  have hg := List.getElem?_eq_getElem hlt
  generalize (groups s.log)[base + k.wd - 1] = g at hg
  have := h.kern k.wd g h1 hg
  cases hw : g.watched with
  | false => rw [hw] at this; exact absurd rfl (this k hk)
  | true =>
    rw [hw] at this
    have e := wd_unique hh.nodup this hk rfl
    exact ⟨g, hg, hw, by rw [← e], by rw [← e]⟩

/-- Groups which are being watched -/
theorem G.active {base : Nat} {b : List (Nat × Ev)} {s : State} (h : G base b s) {n : Nat} {g : Group} (hg : (groups s.log)[n]? = some g) (hw : g.watched = true) :
    ∃ d, 0 < d ∧ n = base + d - 1 ∧ (⟨d, g.file, g.mask⟩ : KWatch) ∈ s.kernel := by
  have hlt : ¬ n < base := fun hlt => by rw [h.old n g hg hlt] at hw; cases hw
  have := h.kern (n + 1 - base) g (by omega) (by rw [show base + (n + 1 - base) - 1 = n by omega]; exact hg)
  rw [hw] at this
  exact ⟨n + 1 - base, by omega, by omega, this⟩

/-- A watch is being stopped. -/
theorem g_stop {base : Nat} {b : List (Nat × Ev)} {s : State} (h : G base b s) {Q : Nat → Prop} (hh : Hist Q b s) {w : Nat} {x : Watch} (hw : s.watches[w]? = some x) (r : Nat) :
    G base b (stopSt s w x r) := by
  cases hd : x.wd with
  | none =>
    have e : stopSt s w x r = { s with watches := s.watches.set w { x with refs := r } } := by unfold stopSt; rw [hd]
    rw [e]
    exact g_set h hw rfl
  | some d =>
    have e : stopSt s w x r = { kernelRemove s d with inst := s.inst.map (fun i => { i with table := tableRemove i.table d }),
                                                      watches := s.watches.set w { x with wd := none, refs := r }, log := s.log ++ [.stopped w] } := by
      unfold stopSt; rw [hd]
    rw [e]
    obtain ⟨g1, g2, g3, g4, g5, g6, g8⟩ := kernelRemove_fields s d
    obtain ⟨k1, k2, k3⟩ := kernelRemove_spec s d
    obtain ⟨gw, hgw, hm⟩ := h.mem w x d hw hd
    have hdp := (hh.wdLt w x d hw hd).1
    have only : ∀ (n : Nat) (g : Group), (groups s.log)[n]? = some g → (w ∈ g.members ↔ n = base + d - 1) := by
      intro n g hg
      constructor
      · intro hm'; exact h.uniq n _ g gw w hg hgw hm' hm
      · rintro rfl; rw [hgw] at hg; cases hg; exact hm
    refine g_map (e := .stopped w) (f := fun g => if w ∈ g.members then { g.forget true with ended := true } else g) h rfl rfl (by simp) ?_ ?_ ?_ (by simp) ?_ ?_ ?_ ?_ ?_ ?_ ?_ ?_
    · intro g; dsimp only; split <;> rfl
    · intro g
      dsimp only
      split
      · unfold Group.forget
        dsimp only
        split
        · exact List.prefix_append _ _
        · exact List.prefix_refl _
      · exact List.prefix_refl _
    · exact g6
    · intro v x' hv hx'
      dsimp only at hv
      rw [getElem?_set hw] at hv
      split at hv
      · cases hv; exact absurd rfl hx'
      · exact ⟨x', hv, rfl⟩
    · intro g hg; dsimp only; split
      · rfl
      · exact hg
    · intro g hg
      dsimp only
      split
      · intro _; rfl
      · exact h.fin g hg
    · intro d' g hd' hg
      have ho := only _ g hg
      by_cases he : d' = d
      · subst he
        rw [if_pos (ho.2 rfl)]
        show ∀ k ∈ _, _
        exact fun k hk => ((k1 k).1 hk).2
      · have : ¬ w ∈ g.members := fun hm' => by have := ho.1 hm'; omega
        rw [if_neg this]
        have hk := h.kern d' g hd' hg
        cases hwt : g.watched with
        | false => rw [hwt] at hk; exact fun k hk' => hk k ((k1 k).1 hk').1
        | true => rw [hwt] at hk; exact (k1 _).2 ⟨hk, he⟩
    · intro i' hi' d' hd'
      cases hi : s.inst with
      | none => dsimp only at hi'; rw [hi] at hi'; cases hi'
      | some i =>
        dsimp only at hi'; rw [hi] at hi'
        cases hi'
        dsimp only
        rw [lookup_remove, h.tab i hi d' hd']
        by_cases he : d' = d
        · subst he
          rw [if_pos rfl, hgw, Option.bind_some, if_pos hm]
          rfl
        · rw [if_neg he]
          cases hg : (groups s.log)[base + d' - 1]? with
          | none => rfl
          | some g =>
            have : ¬ w ∈ g.members := fun hm' => by have := (only _ g hg).1 hm'; omega
            rw [Option.bind_some, Option.bind_some, if_neg this]
    · intro d' g hd' hg hend
      have ho := only _ g hg
      by_cases he : w ∈ g.members
      · rw [if_pos he] at hend; cases hend
      · rw [if_neg he] at hend ⊢
        have hne : d ≠ d' := fun e => he (ho.2 (by rw [e]))
        rw [← h.pend d' g hd' hg hend]
        congr 1
        dsimp only
        rcases k2 with ⟨q, _⟩ | ⟨q, _⟩
        · rw [q]
        · rw [q, ← List.append_assoc, pend_append, pend_cons, if_neg hne]
          exact List.append_nil _
    · intro g he
      split
      · rfl
      · exact he
    · intro d' g hd' hg hend v hv
      dsimp only
      rw [getElem?_set hw]
      by_cases he : w ∈ g.members
      · rw [if_pos he] at hend; cases hend
      · rw [if_neg he] at hend
        rw [if_neg (show ¬ v = w from fun e => he (e ▸ hv))]
        exact h.back d' g hd' hg hend v hv

/-- Something happens to the file. -/
theorem g_happen {base : Nat} {b : List (Nat × Ev)} {s : State} (h : G base b s) {Q : Nat → Prop} (hh : Hist Q b s) (file : Nat) (ev : Ev) : G base b (happen s file ev) := by
  refine g_map (e := .happened file ev) (f := fun g => if g.active file ∧ ev.mask &&& g.mask ≠ 0 then g.report ev else g) h rfl rfl (by simp) ?_ ?_ rfl (Nat.le_refl _)
    (fun w x hw _ => ⟨x, hw, rfl⟩) ?_ ?_ ?_ ?_ ?_ (fun g he => by split <;> exact he) (fun d g hd hg he => h.back d g hd hg (by rw [← he]; split <;> rfl))
  · intro g; split <;> rfl
  · intro g; split
    · exact List.prefix_append _ _
    · exact List.prefix_refl _
  · intro g hg; split <;> exact hg
  · intro g hg; split <;> exact h.fin g hg
  · intro d g hd hg
    have := h.kern d g hd hg
    split <;> exact this
  · intro i hi d hd
    rw [h.tab i hi d hd]
    cases (groups s.log)[base + d - 1]? with
    | none => rfl
    | some g =>
      simp [apply_ite Group.ended, Group.report]
  · intro d g hd hg he
    have he' : g.ended = false := by
      rw [← he]
      split <;> rfl
    have hp := h.pend d g hd hg he'
    obtain ⟨r1, r2⟩ := pend_report hh.nodup (fun k => decide (k.file = file ∧ ev.mask &&& k.mask ≠ 0)) ev d
    have hk := h.kern d g hd hg
    show _ ++ pend d (b ++ (s.queue ++ _)) = _
    rw [← List.append_assoc, pend_append, ← List.append_assoc, hp]
    cases hw : g.watched with
    | false =>
      rw [hw] at hk
      rw [r2 hk, List.append_nil, if_neg (by simp [Group.active, hw])]
    | true =>
      rw [hw] at hk
      rw [r1 _ hk rfl]
      simp only [decide_eq_true_eq, Group.active, hw, Bool.true_and, beq_iff_eq]
      split
      · rfl
      · exact List.append_nil _

theorem active_iff {g : Group} {file : Nat} : g.active file = true ↔ g.watched = true ∧ g.file = file := by
  simp [Group.active]

/-- The file is gone. -/
theorem g_vanish {base : Nat} {b : List (Nat × Ev)} {s : State} (h : G base b s) {Q : Nat → Prop} (hh : Hist Q b s) (file : Nat) : G base b (vanish s file) := by
  refine g_map (e := .vanished file) (f := fun g => if g.active file then g.forget true else g) h rfl rfl (by simp) ?_ ?_ rfl (Nat.le_refl _)
    (fun w x hw _ => ⟨x, hw, rfl⟩) ?_ ?_ ?_ ?_ ?_ (fun g he => by split <;> exact he) (fun d g hd hg he => h.back d g hd hg (by rw [← he]; split <;> rfl))
  · intro g; split <;> rfl
  · intro g; split
    · unfold Group.forget
      dsimp only
      split
      · exact List.prefix_append _ _
      · exact List.prefix_refl _
    · exact List.prefix_refl _
  · intro g hg; split
    · rfl
    · exact hg
  · intro g hg; split
    · intro _; rfl
    · exact h.fin g hg
  · intro d g hd hg
    have hk := h.kern d g hd hg
    split
    · rename_i ha
      obtain ⟨h1, h2⟩ := active_iff.1 ha
      rw [h1] at hk
      intro k hk' e
      obtain ⟨hk', hne⟩ := List.mem_filter.1 hk'
      have := wd_unique hh.nodup hk' hk e
      rw [this] at hne
      simp [h2] at hne
    · rename_i ha
      cases hw : g.watched with
      | false => rw [hw] at hk; exact fun k hk' => hk k (List.mem_filter.1 hk').1
      | true =>
        rw [hw] at hk
        exact List.mem_filter.2 ⟨hk, by simpa using fun e => ha (active_iff.2 ⟨hw, e⟩)⟩
  · intro i hi d hd
    rw [h.tab i hi d hd]
    cases (groups s.log)[base + d - 1]? with
    | none => rfl
    | some g =>
      simp [apply_ite Group.ended, Group.forget]
  · intro d g hd hg he
    have he' : g.ended = false := by
      rw [← he]
      split <;> rfl
    have hp := h.pend d g hd hg he'
    obtain ⟨r1, r2⟩ := pend_report hh.nodup (fun k => decide (k.file = file)) ignored d
    have hk := h.kern d g hd hg
    show _ ++ pend d (b ++ (s.queue ++ _)) = _
    rw [← List.append_assoc, pend_append, ← List.append_assoc, hp]
    cases hw : g.watched with
    | false =>
      rw [hw] at hk
      rw [r2 hk, List.append_nil, if_neg (by simp [Group.active, hw])]
    | true =>
      rw [hw] at hk
      rw [r1 _ hk rfl]
      by_cases hf : g.file = file
      · rw [if_pos (by simpa using hf), if_pos (active_iff.2 ⟨hw, hf⟩)]
        simp [Group.forget, hw]
      · rw [if_neg (by simpa using hf), if_neg (fun ha => hf (active_iff.1 ha).2), List.append_nil]

theorem pend_overflowed {b : List (Nat × Ev)} {s : State} (file : Nat) {d : Nat} (hd : 0 < d) : pend d (b ++ overflowed s file) = pend d (b ++ s.queue) := by
  rcases overflowed_eq s file with e | ⟨e, _⟩
  · rw [e]
  · rw [e, ← List.append_assoc, pend_append, pend_cons, if_neg (by omega)]
    exact List.append_nil _

/-- The file is gone, but that can't be reported. -/
theorem g_vanishLost {base : Nat} {b : List (Nat × Ev)} {s : State} (h : G base b s) {Q : Nat → Prop} (hh : Hist Q b s) (file : Nat) : G base b (vanishLost s file) := by
  refine g_map (e := .vanishedLost file) (f := fun g => if g.active file then g.forget false else g) h rfl rfl (by simp) ?_ ?_ rfl (Nat.le_refl _)
    (fun w x hw _ => ⟨x, hw, rfl⟩) ?_ ?_ ?_ ?_ ?_ (fun g he => by split <;> exact he) (fun d g hd hg he => h.back d g hd hg (by rw [← he]; split <;> rfl))
  · intro g; split <;> rfl
  · intro g; split
    · unfold Group.forget
      simp
    · exact List.prefix_refl _
  · intro g hg; split
    · rfl
    · exact hg
  · intro g hg; split
    · intro _; rfl
    · exact h.fin g hg
  · intro d g hd hg
    have hk := h.kern d g hd hg
    split
    · rename_i ha
      obtain ⟨h1, h2⟩ := active_iff.1 ha
      rw [h1] at hk
      intro k hk' e
      obtain ⟨hk', hne⟩ := List.mem_filter.1 hk'
      have := wd_unique hh.nodup hk' hk e
      rw [this] at hne
      simp [h2] at hne
    · rename_i ha
      cases hw : g.watched with
      | false => rw [hw] at hk; exact fun k hk' => hk k (List.mem_filter.1 hk').1
      | true =>
        rw [hw] at hk
        exact List.mem_filter.2 ⟨hk, by simpa using fun e => ha (active_iff.2 ⟨hw, e⟩)⟩
  · intro i hi d hd
    rw [h.tab i hi d hd]
    cases (groups s.log)[base + d - 1]? with
    | none => rfl
    | some g =>
      simp [apply_ite Group.ended, Group.forget]
  · intro d g hd hg he
    have he' : g.ended = false := by
      rw [← he]
      split <;> rfl
    show _ ++ pend d (b ++ overflowed s file) = _
    rw [pend_overflowed file hd, h.pend d g hd hg he']
    split
    · simp [Group.forget]
    · rfl

/-- Events are lost. -/
theorem g_lose {base : Nat} {b : List (Nat × Ev)} {s : State} (h : G base b s) (file : Nat) (ev : Ev) : G base b (lose s file ev) := by
  have h1 : G base b { s with queue := overflowed s file } :=
    g_same h (fun i hi => ⟨i, hi, rfl⟩) (fun w x hw _ => ⟨x, hw, rfl⟩) (Nat.le_refl _) rfl (fun d hd => pend_overflowed file hd) rfl rfl
  exact g_log (e := .lost file ev) h1 (fun _ => rfl) (by simp)

/-- The group of the descriptor doesn't exist or has ended. -/
theorem g_skip {base : Nat} {b : List (Nat × Ev)} {s : State} {d : Nat} {ev : Ev} {i : Inst} (h : G base ((d, ev) :: b) s) (hi : s.inst = some i)
    (hl : tableLookup i.table d = none) (hne : ∀ g ∈ groups s.log, g.members ≠ []) : G base b s := by
  refine ⟨h.len, h.old, h.kern, h.fin, h.tab, h.mem, h.uniq, h.lt, h.pre, ?_, h.newest, h.done, h.back⟩
  intro d' g hd' hg he
  have hp := h.pend d' g hd' hg he
  have ht := h.tab i hi d' hd'
  rw [hg, Option.bind_some, he] at ht
  have : d ≠ d' := by
    rintro rfl
    rw [hl] at ht
    have := hne g (List.mem_of_getElem? hg)
    cases hm : g.members with
    | nil => exact this hm
    | cons a t => rw [hm] at ht; cases ht
  rw [List.cons_append, pend_cons, if_neg this] at hp
  exact hp

/-- Handlers are being called. -/
theorem g_deliver {base : Nat} {b : List (Nat × Ev)} {s : State} {d w : Nat} {ev : Ev} {i : Inst} (h : G base ((d, ev) :: b) s) (hi : s.inst = some i)
    (hd : 0 < d) (hl : tableLookup i.table d = some w) : G base b { s with log := s.log ++ [.delivered w ev] } := by
  have ht := h.tab i hi d hd
  rw [hl] at ht
  cases hg : (groups s.log)[base + d - 1]? with
  | none => rw [hg] at ht; cases ht
  | some g =>
    rw [hg, Option.bind_some] at ht
    have he : g.ended = false := by
      cases he : g.ended with
      | false => rfl
      | true => rw [he] at ht; cases ht
    rw [he] at ht
    have ht : some w = g.members.head? := ht
    have hwm : w ∈ g.members := List.mem_of_head? ht.symm
    have hgs : groups (s.log ++ [.delivered w ev]) = groups s.log := groups_append s.log _
    have hdl : ∀ ws, deliveredTo ws (s.log ++ [.delivered w ev]) = deliveredTo ws s.log ++ if w ∈ ws then [ev] else [] := by
      intro ws
      rw [deliveredTo_append]
      congr 1
      by_cases hm : w ∈ ws <;> simp [deliveredTo, hm]
    have hp := h.pend d g hd hg he
    rw [List.cons_append, pend_cons, if_pos rfl] at hp
    constructor
    · dsimp only; rw [hgs]; exact h.len
    · dsimp only; rw [hgs]; exact h.old
    · dsimp only; rw [hgs]; exact h.kern
    · dsimp only; rw [hgs]; exact h.fin
    · dsimp only; rw [hgs]; exact h.tab
    · dsimp only; rw [hgs]; exact h.mem
    · dsimp only; rw [hgs]; exact h.uniq
    · dsimp only; rw [hgs]; exact h.lt
    · dsimp only
      rw [hgs]
      intro g' hg'
      obtain ⟨n, hn⟩ := List.getElem?_of_mem hg'
      rw [hdl]
      by_cases hm : w ∈ g'.members
      · have := h.uniq n _ g' g w hn hg hm hwm
        subst this
        rw [hg] at hn
        cases hn
        rw [if_pos hm, ← hp]
        exact ⟨pend d (b ++ s.queue), by simp⟩
      · rw [if_neg hm, List.append_nil]
        exact h.pre g' hg'
    · dsimp only
      rw [hgs]
      intro d' g' hd' hg' he'
      rw [hdl]
      by_cases hm : w ∈ g'.members
      · have := h.uniq _ _ g' g w hg' hg hm hwm
        have : d' = d := by omega
        subst this
        rw [hg] at hg'
        cases hg'
        rw [if_pos hm, ← hp]
        simp
      · have hne : d ≠ d' := by
          rintro rfl
          rw [hg] at hg'
          cases hg'
          exact hm hwm
        have hp' := h.pend d' g' hd' hg' he'
        rw [List.cons_append, pend_cons, if_neg hne] at hp'
        rw [if_neg hm, List.append_nil]
        exact hp'
    · refine newest_append h.newest ?_
      rintro v e ⟨⟩
      exact ⟨g, List.mem_of_getElem? hg, ht.symm, he⟩
    · dsimp only; rw [hgs]; exact h.done
    · dsimp only; rw [hgs]; exact h.back

/-- Is anyone watching the file? -/
theorem any_active {base : Nat} {b : List (Nat × Ev)} {s : State} (h : G base b s) {Q : Nat → Prop} (hh : Hist Q b s) (file : Nat) :
    (groups s.log).any (·.active file) = true ↔ ∃ k ∈ s.kernel, k.file = file := by
  rw [List.any_eq_true]
  constructor
  · rintro ⟨g, hg, ha⟩
    obtain ⟨h1, h2⟩ := active_iff.1 ha
    obtain ⟨n, hn⟩ := List.getElem?_of_mem hg
    obtain ⟨d, _, _, hk⟩ := h.active hn h1
    exact ⟨_, hk, h2⟩
  · rintro ⟨k, hk, rfl⟩
    obtain ⟨g, hg, h1, h2, _⟩ := h.entry hh hk
    exact ⟨g, List.mem_of_getElem? hg, active_iff.2 ⟨h1, h2⟩⟩

/-- The first watch of a file -/
theorem g_new {base : Nat} {b : List (Nat × Ev)} {s : State} {i : Inst} (h : G base b s) {Q : Nat → Prop} (hh : Hist Q b s) (hi : s.inst = some i) (file : Nat) (mask : BitVec 32)
    (hnew : ∀ k ∈ s.kernel, k.file ≠ file) :
    G base b { s with inst := some { i with table := tableInsert i.table s.nextWd s.watches.length },
                      kernel := s.kernel ++ [⟨s.nextWd, file, mask⟩], nextWd := s.nextWd + 1,
                      watches := s.watches ++ [⟨i.id, file, mask, some s.nextWd, 1, 1⟩], log := s.log ++ [.created s.watches.length file mask] } := by
  have hlen := h.len
  have hwd := hh.wd1
  have hna : ¬ (groups s.log).any (·.active file) = true := fun ha => by
    obtain ⟨k, hk, e⟩ := (any_active h hh file).1 ha
    exact hnew k hk e
  have hg : groups (s.log ++ [.created s.watches.length file mask]) = groups s.log ++ [⟨file, mask, [s.watches.length], true, false, []⟩] := by
    rw [groups_append, share1, if_neg hna]
  have hdl : ∀ ws, deliveredTo ws (s.log ++ [.created s.watches.length file mask]) = deliveredTo ws s.log := fun ws => deliveredTo_other ws (by simp) s.log
  have none0 : deliveredTo [s.watches.length] s.log = [] := by
    rw [deliveredTo_cons (hh.fresh _ (Nat.le_refl _)).2]
    have : ∀ l : List Event, deliveredTo [] l = [] := by
      intro l
      induction l with
      | nil => rfl
      | cons e t ih => cases e <;> exact ih
    exact this _
  have key : ∀ (n : Nat) (g : Group), (groups s.log ++ [⟨file, mask, [s.watches.length], true, false, []⟩])[n]? = some g →
      n = (groups s.log).length ∧ g = ⟨file, mask, [s.watches.length], true, false, []⟩ ∨ n < (groups s.log).length ∧ (groups s.log)[n]? = some g := by
    intro n g hn
    rw [List.getElem?_append] at hn
    split at hn
    · rename_i hlt; exact .inr ⟨hlt, hn⟩
    · rename_i hge
      have hlt := (List.getElem?_eq_some_iff.1 hn).1
      simp only [List.length_singleton] at hlt
      have e : n - (groups s.log).length = 0 := by omega
      rw [e] at hn
      refine .inl ⟨by omega, ?_⟩
      cases hn
      rfl
  have keym : ∀ g, g ∈ groups s.log ++ [⟨file, mask, [s.watches.length], true, false, []⟩] → g ∈ groups s.log ∨ g = ⟨file, mask, [s.watches.length], true, false, []⟩ := by
    intro g hg
    rcases List.mem_append.1 hg with hg | hg
    · exact .inl hg
    · exact .inr (List.mem_singleton.1 hg)
  constructor
  · dsimp only; rw [hg, List.length_append, List.length_singleton]; omega
  · intro n g hn hlt
    dsimp only at hn
    rw [hg] at hn
    rcases key n g hn with ⟨rfl, rfl⟩ | ⟨_, hn⟩
    · omega
    · exact h.old n g hn hlt
  · intro d g hd hn
    dsimp only at hn ⊢
    rw [hg] at hn
    rcases key _ g hn with ⟨e, rfl⟩ | ⟨hlt, hn⟩
    · have : d = s.nextWd := by omega
      rw [this]
      simp
    · have hk := h.kern d g hd hn
      cases hw : g.watched with
      | true => rw [hw] at hk; exact List.mem_append_left _ hk
      | false =>
        rw [hw] at hk
        intro k hk'
        rcases List.mem_append.1 hk' with hk' | hk'
        · exact hk k hk'
        · rw [List.mem_singleton] at hk'
          rw [hk']
          dsimp only
          omega
  · intro g hm he
    dsimp only at hm
    rw [hg] at hm
    rcases keym g hm with hm | rfl
    · exact h.fin g hm he
    · cases he
  · intro j hj d hd
    cases hj
    dsimp only
    rw [lookup_insert, hg]
    by_cases e : d = s.nextWd
    · rw [if_pos e, List.getElem?_append, if_neg (by omega), show base + d - 1 - (groups s.log).length = 0 by omega]
      rfl
    · rw [if_neg e, h.tab i hi d hd]
      by_cases hlt : base + d - 1 < (groups s.log).length
      · rw [List.getElem?_append, if_pos hlt]
      · rw [List.getElem?_eq_none (by omega), List.getElem?_eq_none (by rw [List.length_append, List.length_singleton]; omega)]
  · intro w x d hw hd
    dsimp only at hw ⊢
    rw [hg]
    rcases getElem?_push hw with ⟨rfl, rfl⟩ | ⟨_, hw⟩
    · cases hd
      refine ⟨⟨file, mask, [s.watches.length], true, false, []⟩, ?_, by simp⟩
      rw [List.getElem?_append, if_neg (by omega), show base + s.nextWd - 1 - (groups s.log).length = 0 by omega]
      rfl
    · obtain ⟨g, h1, h2⟩ := h.mem w x d hw hd
      refine ⟨g, ?_, h2⟩
      rw [List.getElem?_append, if_pos (lt_of_some' h1)]
      exact h1
  · intro n m g g' w h1 h2 h3 h4
    dsimp only at h1 h2
    rw [hg] at h1 h2
    rcases key n g h1 with ⟨e1, rfl⟩ | ⟨_, h1⟩ <;> rcases key m g' h2 with ⟨e2, rfl⟩ | ⟨_, h2⟩
    · omega
    · have := h.lt g' (List.mem_of_getElem? h2) w h4
      rw [List.mem_singleton] at h3
      omega
    · have := h.lt g (List.mem_of_getElem? h1) w h3
      rw [List.mem_singleton] at h4
      omega
    · exact h.uniq n m g g' w h1 h2 h3 h4
  · intro g hm w hw
    dsimp only at hm ⊢
    rw [hg] at hm
    rw [List.length_append, List.length_singleton]
    rcases keym g hm with hm | rfl
    · have := h.lt g hm w hw
      omega
    · rw [List.mem_singleton] at hw
      omega
  · intro g hm
    dsimp only at hm ⊢
    rw [hg] at hm
    rw [hdl]
    rcases keym g hm with hm | rfl
    · exact h.pre g hm
    · rw [none0]
      exact List.nil_prefix
  · intro d g hd hn he
    dsimp only at hn ⊢
    rw [hg] at hn
    rw [hdl]
    rcases key _ g hn with ⟨e, rfl⟩ | ⟨hlt, hn⟩
    · have : d = s.nextWd := by omega
      rw [none0, pend_none]
      · rfl
      · intro p hp
        have := hh.wdQ p hp
        omega
    · exact h.pend d g hd hn he
  · exact newest_append h.newest (by simp)
  · intro n g hn hlt
    dsimp only at hn
    rw [hg] at hn
    rcases key n g hn with ⟨rfl, rfl⟩ | ⟨_, hn⟩
    · omega
    · exact h.done n g hn hlt
  · intro d g hd hn he w hw
    dsimp only at hn ⊢
    rw [hg] at hn
    rcases key _ g hn with ⟨e, rfl⟩ | ⟨hlt, hn⟩
    · rw [List.mem_singleton] at hw
      have : d = s.nextWd := by omega
      subst hw this
      exact ⟨_, List.getElem?_concat_length, rfl⟩
    · obtain ⟨x, hx, ex⟩ := h.back d g hd hn he w hw
      exact ⟨x, by rw [List.getElem?_append, if_pos (lt_of_some hx)]; exact hx, ex⟩

/-- Another watch of the same file -/
theorem g_join {base : Nat} {b : List (Nat × Ev)} {s : State} {i : Inst} (h : G base b s) {Q : Nat → Prop} (hh : Hist Q b s) (hi : s.inst = some i) (mask : BitVec 32) {k : KWatch}
    (hk : k ∈ s.kernel) :
    G base b { s with inst := some { i with table := tableInsert i.table k.wd s.watches.length },
                      kernel := s.kernel.map (fun x => if x.wd = k.wd then { x with mask := newMask x.mask mask } else x),
                      watches := s.watches ++ [⟨i.id, k.file, mask, some k.wd, 1, 1⟩], log := s.log ++ [.created s.watches.length k.file mask] } := by
  have hwk := (hh.wdK k hk).1
  have hg : groups (s.log ++ [.created s.watches.length k.file mask]) =
      (groups s.log).map (fun g => if g.active k.file then g.join s.watches.length mask else g) := by
    rw [groups_append, share1, if_pos ((any_active h hh k.file).2 ⟨k, hk, rfl⟩)]
  have hdl : ∀ ws, deliveredTo ws (s.log ++ [.created s.watches.length k.file mask]) = deliveredTo ws s.log := fun ws => deliveredTo_other ws (by simp) s.log
  have hdl2 : ∀ ws, deliveredTo (s.watches.length :: ws) s.log = deliveredTo ws s.log := fun ws => deliveredTo_cons (hh.fresh _ (Nat.le_refl _)).2 ws
  obtain ⟨gk, hgk, w1, w2, w3⟩ := h.entry hh hk
  have only : ∀ (n : Nat) (g : Group), (groups s.log)[n]? = some g → (g.active k.file = true ↔ n = base + k.wd - 1) := by
    intro n g hn
    rw [active_iff]
    constructor
    · rintro ⟨a1, a2⟩
      obtain ⟨d, d1, d2, d3⟩ := h.active hn a1
      have := file_unique hh.nodup d3 hk a2
      rw [d2, ← this]
    · rintro rfl
      rw [hgk] at hn
      cases hn
      exact ⟨w1, w2⟩
  have key : ∀ (n : Nat) (g : Group), (groups (s.log ++ [.created s.watches.length k.file mask]))[n]? = some g →
      n = base + k.wd - 1 ∧ g = gk.join s.watches.length mask ∨ n ≠ base + k.wd - 1 ∧ (groups s.log)[n]? = some g := by
    intro n g hn
    rw [hg, List.getElem?_map, Option.map_eq_some_iff] at hn
    obtain ⟨g0, h0, rfl⟩ := hn
    by_cases e : n = base + k.wd - 1
    · rw [if_pos ((only n g0 h0).2 e)]
      subst e
      rw [hgk] at h0
      cases h0
      exact .inl ⟨rfl, rfl⟩
    · rw [if_neg (fun ha => e ((only n g0 h0).1 ha))]
      exact .inr ⟨e, h0⟩
  have keym : ∀ g, g ∈ groups (s.log ++ [.created s.watches.length k.file mask]) → g ∈ groups s.log ∨ g = gk.join s.watches.length mask := by
    intro g hm
    obtain ⟨n, hn⟩ := List.getElem?_of_mem hm
    rcases key n g hn with ⟨_, e⟩ | ⟨_, hn⟩
    · exact .inr e
    · exact .inl (List.mem_of_getElem? hn)
  have get : ∀ n, (groups (s.log ++ [.created s.watches.length k.file mask]))[n]? =
      if n = base + k.wd - 1 then some (gk.join s.watches.length mask) else (groups s.log)[n]? := by
    intro n
    cases hn : (groups (s.log ++ [.created s.watches.length k.file mask]))[n]? with
    | some g =>
      rcases key n g hn with ⟨e, rfl⟩ | ⟨e, hn⟩
      · rw [if_pos e]
      · rw [if_neg e, hn]
    | none =>
      rw [hg, List.getElem?_map, Option.map_eq_none_iff] at hn
      rw [if_neg (by rintro rfl; rw [hgk] at hn; cases hn), hn]
  have hgke : gk.ended = false := by
    cases e : gk.ended with
    | false => rfl
    | true => rw [h.fin gk (List.mem_of_getElem? hgk) e] at w1; cases w1
  constructor
  · dsimp only; rw [hg, List.length_map]; exact h.len
  · intro n g hn hlt
    rcases key n g hn with ⟨e, rfl⟩ | ⟨_, hn⟩
    · omega
    · exact h.old n g hn hlt
  · intro d g hd hn
    rcases key _ g hn with ⟨e, rfl⟩ | ⟨e, hn⟩
    · have : d = k.wd := by omega
      subst this
      have ew : (gk.join s.watches.length mask).watched = true := w1
      rw [ew]
      refine List.mem_map.2 ⟨k, hk, ?_⟩
      rw [if_pos rfl]
      show _ = (⟨k.wd, gk.file, newMask gk.mask mask⟩ : KWatch)
      rw [w2, w3]
    · have hkn := h.kern d g hd hn
      have hne : d ≠ k.wd := fun e' => e (by rw [e'])
      dsimp only
      cases hw : g.watched with
      | true =>
        rw [hw] at hkn
        refine List.mem_map.2 ⟨_, hkn, ?_⟩
        rw [if_neg hne]
      | false =>
        rw [hw] at hkn
        intro k' hk'
        obtain ⟨k0, h0, rfl⟩ := List.mem_map.1 hk'
        have := hkn k0 h0
        split <;> exact this
  · intro g hm he
    rcases keym g hm with hm | rfl
    · exact h.fin g hm he
    · have he : gk.ended = true := he
      rw [hgke] at he
      cases he
  · intro j hj d hd
    cases hj
    dsimp only
    rw [lookup_insert, get]
    by_cases e : d = k.wd
    · rw [if_pos e, if_pos (by omega)]
      show _ = if gk.ended then none else some s.watches.length
      rw [hgke]
      rfl
    · rw [if_neg e, if_neg (by omega)]
      exact h.tab i hi d hd
  · intro w x d hw hd
    dsimp only at hw ⊢
    rw [get]
    rcases getElem?_push hw with ⟨rfl, rfl⟩ | ⟨_, hw⟩
    · cases hd
      rw [if_pos rfl]
      exact ⟨_, rfl, by simp [Group.join]⟩
    · obtain ⟨g, h1, h2⟩ := h.mem w x d hw hd
      by_cases e : base + d - 1 = base + k.wd - 1
      · rw [if_pos e]
        rw [e, hgk] at h1
        cases h1
        exact ⟨_, rfl, List.mem_cons_of_mem _ h2⟩
      · rw [if_neg e]
        exact ⟨g, h1, h2⟩
  · intro n m g g' w h1 h2 h3 h4
    rcases key n g h1 with ⟨e1, rfl⟩ | ⟨e1, h1⟩ <;> rcases key m g' h2 with ⟨e2, rfl⟩ | ⟨e2, h2⟩
    · omega
    · have := h.lt g' (List.mem_of_getElem? h2) w h4
      rcases List.mem_cons.1 h3 with h3 | h3
      · omega
      · exact absurd (h.uniq _ m gk g' w hgk h2 h3 h4).symm e2
    · have := h.lt g (List.mem_of_getElem? h1) w h3
      rcases List.mem_cons.1 h4 with h4 | h4
      · omega
      · exact absurd (h.uniq n _ g gk w h1 hgk h3 h4) e1
    · exact h.uniq n m g g' w h1 h2 h3 h4
  · intro g hm w hw
    dsimp only
    rw [List.length_append, List.length_singleton]
    rcases keym g hm with hm | rfl
    · have := h.lt g hm w hw
      omega
    · rcases List.mem_cons.1 hw with hw | hw
      · omega
      · have := h.lt gk (List.mem_of_getElem? hgk) w hw
        omega
  · intro g hm
    dsimp only
    rw [hdl]
    rcases keym g hm with hm | rfl
    · exact h.pre g hm
    · show deliveredTo (s.watches.length :: gk.members) s.log <+: gk.events
      rw [hdl2]
      exact h.pre gk (List.mem_of_getElem? hgk)
  · intro d g hd hn he
    dsimp only
    rw [hdl]
    rcases key _ g hn with ⟨e, rfl⟩ | ⟨e, hn⟩
    · show deliveredTo (s.watches.length :: gk.members) s.log ++ _ = gk.events
      rw [hdl2]
      exact h.pend d gk hd (by rw [e]; exact hgk) hgke
    · exact h.pend d g hd hn he
  · exact newest_append h.newest (by simp)
  · intro n g hn hlt
    rcases key n g hn with ⟨e, rfl⟩ | ⟨_, hn⟩
    · omega
    · exact h.done n g hn hlt
  · intro d g hd hn he w hw
    dsimp only
    have old : ∀ g0 : Group, (groups s.log)[base + d - 1]? = some g0 → g0.ended = false → w ∈ g0.members →
        ∃ x, (s.watches ++ [⟨i.id, k.file, mask, some k.wd, 1, 1⟩])[w]? = some x ∧ x.wd = some d := by
      intro g0 h0 he0 hw0
      obtain ⟨x, hx, ex⟩ := h.back d g0 hd h0 he0 w hw0
      exact ⟨x, by rw [List.getElem?_append, if_pos (lt_of_some hx)]; exact hx, ex⟩
    rcases key _ g hn with ⟨e, rfl⟩ | ⟨e, hn⟩
    · rcases List.mem_cons.1 hw with hw | hw
      · have : d = k.wd := by omega
        subst hw this
        exact ⟨_, List.getElem?_concat_length, rfl⟩
      · exact old gk (by rw [e]; exact hgk) hgke hw
    · exact old g hn he hw

/-! ## The steps -/

theorem g_newInst {base : Nat} {b : List (Nat × Ev)} {s : State} (h : G base b s) {c : Nat} {e : Nat → Nat} (hv : Inv c e s) (fd : Nat) : G base b (newInst s fd).1 := by
  unfold newInst
  cases hi : s.inst with
  | some i =>
    exact g_same h (fun j hj => by cases hj; exact ⟨i, hi, rfl⟩) (fun w x hw _ => ⟨x, hw, rfl⟩) (Nat.le_refl _) rfl (fun _ _ => rfl) rfl rfl
  | none =>
    have h1 : G base b { s with inst := some ⟨s.nextInst, fd, 1, true, []⟩, nextInst := s.nextInst + 1 } := by
      refine ⟨h.len, h.old, h.kern, h.fin, ?_, h.mem, h.uniq, h.lt, h.pre, h.pend, h.newest, h.done, h.back⟩
      rintro j ⟨⟩ d hd
      have h1 := (hv.noInst hi).2.2.2
      have h2 := h.len
      dsimp only
      rw [List.getElem?_eq_none (by omega)]
      rfl
    exact g_log (e := .opened fd) h1 (fun _ => rfl) (by simp)

theorem g_unrefInst {base : Nat} {b : List (Nat × Ev)} {s s' : State} (h : G base b s) {race : Option Nat} {c : Nat} {e : Nat → Nat} (hv : Inv (c + 1) e s) {i : Inst} (hi : s.inst = some i)
    (hs : unrefInst race s i.id = .ok s') : ∃ base', G base' b s' := by
  obtain ⟨s1, e1, _, h1⟩ := unrefInst_inv (race := race) hv hi
  rw [hs] at e1
  cases e1
  rcases h1 with ⟨_, _, hall, rfl⟩ | rfl
  · exact ⟨_, g_close h (fun w x hw => hv.dead w x hw (hall w x hw))⟩
  · exact ⟨base, g_same h (fun j hj => by cases hj; exact ⟨i, hi, rfl⟩) (fun w x hw _ => ⟨x, hw, rfl⟩) (Nat.le_refl _) rfl (fun _ _ => rfl) rfl rfl⟩

theorem some_of_extra {c : Nat} {e : Nat → Nat} {s : State} {w : Nat} (h : Inv c e s) (he : 0 < e w) : ∃ x, s.watches[w]? = some x := by
  have hlt : w < s.watches.length := by
    apply Classical.byContradiction
    intro hge
    have := h.extra w (by omega)
    omega
  exact ⟨_, List.getElem?_eq_getElem hlt⟩

theorem g_unrefWatch {q : Nat → Prop} {r : Prop} {base : Nat} {b : List (Nat × Ev)} {s s' : State} (h : G base b s) {race : Option Nat} {c : Nat} {e : Nat → Nat} (hf : Full q r c e b s) {w : Nat}
    (he : 0 < e w) (hs : unrefWatch race s w = .ok s') : ∃ base', G base' b s' := by
  obtain ⟨x, hw⟩ := some_of_extra hf.inv he
  obtain ⟨s1, e1, e2, e3⟩ := unrefWatch_inv (race := race) hf.inv hw he
  rw [hs] at e1
  cases e1
  rcases e3 with ⟨rfl, _⟩ | ⟨_, i, hi, rfl⟩ | ⟨h1, i, hi, hc, hall, rfl⟩
  · exact ⟨base, g_set h hw rfl⟩
  · have h1 := g_stop h hf.hist hw 0
    exact ⟨base, g_same h1 (fun j hj => by cases hj; exact ⟨i, hi, rfl⟩) (fun w x hw _ => ⟨x, hw, rfl⟩) (Nat.le_refl _) rfl (fun _ _ => rfl) rfl rfl⟩
  · have h2 := g_stop h hf.hist hw 0
    refine ⟨_, g_close h2 (fun v y hv => ?_)⟩
    have hown := hf.inv.own w x hw
    have h3 := stopSt_inv (c' := c + 1) (r := 0) (n := 0) hf.inv hw (by omega) (by omega) (by simp; omega)
    exact h3.dead v y hv (hall v y hv)

theorem g_drop {q : Nat → Prop} {r : Prop} {base : Nat} {b : List (Nat × Ev)} {s s' : State} (h : G base b s) {race : Option Nat} {c : Nat} {e : Nat → Nat} (hf : Full q r c e b s) {w : Nat} {x : Watch}
    (hw : s.watches[w]? = some x) (ho : 0 < x.owned) (hs : unrefWatch race (disown s w) w = .ok s') : ∃ base', G base' b s' := by
  refine g_unrefWatch (base := base) (s := disown s w) ?_ (full_disown hf hw ho) (by simp [upd]) hs
  rw [disown_eq hw]
  exact g_set h hw rfl

theorem g_frame {base : Nat} {b : List (Nat × Ev)} {s : State} (h : G base b s) (f : Option (Nat × List (Nat × Ev))) : G base b { s with frame := f } :=
  g_same h (fun i hi => ⟨i, hi, rfl⟩) (fun w x hw _ => ⟨x, hw, rfl⟩) (Nat.le_refl _) rfl (fun _ _ => rfl) rfl rfl

theorem g_proc {q : Nat → Prop} {r : Prop} {race : Option Nat} : ∀ {b : List (Nat × Ev)} {s s' : State} {i : Inst} {base : Nat}, Full q r 1 (fun _ => 0) b s → G base b s → s.frame = none →
    s.inst = some i → (∀ fd, race = some fd → fd ∉ s.foreign) → proc race s i.id b = .ok s' → ∃ base', G base' (bOf s'.frame) s' := by
  intro b
  induction b with
  | nil =>
    intro s s' i base hf h hfr hi hr hs
    obtain ⟨s1, e1, e2, e3, _, e4⟩ := full_unrefInst (race := race) (c := 0) hf hi hr (fun _ => rfl)
    have hs : unrefInst race s i.id = .ok s' := hs
    rw [hs] at e1
    cases e1
    obtain ⟨base', h1⟩ := g_unrefInst h hf.inv hi hs
    rw [e3, hfr]
    exact ⟨base', h1⟩
  | cons p t ih =>
    intro s s' i base hf h hfr hi hr hs
    obtain ⟨d, ev⟩ := p
    unfold proc at hs
    rw [access_eq hi, ok_bind] at hs
    cases hl : tableLookup i.table d with
    | none =>
      rw [hl] at hs
      exact ih ⟨hf.inv, hf.fd, hist_skip hf.hist hi hl⟩ (g_skip h hi hl (groups_ne s.log)) hfr hi hr hs
    | some w =>
      rw [hl] at hs
      dsimp only at hs
      obtain ⟨x, hw, hd⟩ := hf.inv.table i hi d w (lookup_mem hl)
      have hx : 0 < x.refs := by
        apply Classical.byContradiction
        intro h0
        have := hf.inv.dead w x hw (by omega)
        rw [this] at hd
        cases hd
      have hdp := (hf.hist.wdLt w x d hw hd).1
      unfold ref at hs
      rw [watch_eq hw hx, ok_bind, ok_bind] at hs
      cases hs
      have h1 := g_deliver h hi hdp hl
      have h2 := g_set (w := w) (x := x) h1 hw (y := { x with refs := x.refs + 1 }) rfl
      have h3 := g_frame h2 (some (w, t))
      exact ⟨base, h3⟩

theorem g_step {q : Nat → Prop} {r : Prop} {base : Nat} {s s' : State} {a : Act} {race : Option Nat} (hf : Rest q r s) (h : G base (bOf s.frame) s) (ha : Allowed s a)
    (hr : ∀ fd, race = some fd → fd ∉ s.foreign) (hs : step race s a = .ok s') : ∃ base', G base' (bOf s'.frame) s' := by
  cases a with
  | new file mask fd =>
    obtain ⟨i, hi, hi2, h1, hfr, hws, hk, hfo⟩ := full_newInst hf bOf_nil ha
    have g1 := g_newInst h hf.inv fd
    have hs : Except.ok (newWatch s file mask fd) = .ok s' := hs
    cases hs
    have e0 : (newInst s fd).1 = (newInst s fd).1 := rfl
    unfold newWatch
    dsimp only
    rw [hi2]
    unfold kernelAdd
    cases hfind : (newInst s fd).1.kernel.find? (fun k => decide (k.file = file)) with
    | none =>
      have g2 := g_new g1 h1.hist hi file mask (by
        rw [List.find?_eq_none] at hfind
        intro k hk'
        have := hfind k hk'
        simpa using this)
      rw [← hfr] at g2
      exact ⟨base, g2⟩
    | some k =>
      have hkm := List.mem_of_find?_eq_some hfind
      have hkf : k.file = file := by simpa using List.find?_some hfind
      subst hkf
      have g2 := g_join g1 h1.hist hi mask hkm
      rw [← hfr] at g2
      exact ⟨base, g2⟩
  | newFails fd =>
    obtain ⟨i, hi, hi2, h1, hfr, hws, hk, hfo⟩ := full_newInst hf bOf_nil ha
    have g1 := g_newInst h hf.inv fd
    obtain ⟨s1, e1, e2, e3, _, e4⟩ := full_unrefInst (race := race) h1 hi (by rw [hfo]; exact hr) bOf_nil
    have hs : unrefInst race (newInst s fd).1 (newInst s fd).2.id = .ok s' := hs
    rw [hi2] at hs
    obtain ⟨base', g2⟩ := g_unrefInst g1 h1.inv hi hs
    rw [hs] at e1
    cases e1
    rw [e3, hfr]
    exact ⟨base', g2⟩
  | ref w =>
    obtain ⟨x, hw, ho⟩ := owned_some ha
    have hown := hf.inv.own w x hw
    have hx : 0 < x.refs := by omega
    unfold step at hs
    dsimp only at hs
    unfold ref at hs
    rw [watch_eq hw hx, ok_bind, ok_bind] at hs
    cases hs
    have e1 : (s.watches.set w { x with refs := x.refs + 1 }).modify w (fun x => { x with owned := x.owned + 1 }) =
        s.watches.set w { x with refs := x.refs + 1, owned := x.owned + 1 } := by
      rw [modify_eq (x := { x with refs := x.refs + 1 }) _ (by rw [getElem?_set hw, if_pos rfl]), List.set_set]
    dsimp only
    rw [e1]
    have g1 := g_set h hw (y := { x with refs := x.refs + 1, owned := x.owned + 1 }) rfl
    exact ⟨base, g1⟩
  | unref w =>
    obtain ⟨x, hw, ho⟩ := owned_some ha
    obtain ⟨s1, e1, e2, e3, e4⟩ := full_drop (race := race) hf hw ho hr bOf_nil
    have hs : unrefWatch race (disown s w) w = .ok s' := hs
    obtain ⟨base', g1⟩ := g_drop h hf hw ho hs
    rw [hs] at e1
    cases e1
    rw [e3]
    exact ⟨base', g1⟩
  | destroy w =>
    obtain ⟨x, hw, ho⟩ := owned_some ha
    have hown := hf.inv.own w x hw
    have hx : 0 < x.refs := by omega
    obtain ⟨i, hi, hxi⟩ := hf.inv.ptr w x hw hx
    have hs : destroy race s w = .ok s' := hs
    unfold destroy at hs
    rw [watch_eq hw hx, ok_bind] at hs
    have e1 := stop_eq hi hxi x.refs hw
    have e2 : s.watches.set w { x with refs := x.refs } = s.watches := set_self hw
    rw [e2] at e1
    have e1 : stop s w x = .ok (stopSt s w x x.refs) := e1
    rw [e1, ok_bind] at hs
    obtain ⟨f1, f2, f3, f4, f6⟩ := stopSt_fields s w x x.refs
    have h1 : Full q r (cOf s.frame) (eOf s.frame) (bOf s.frame) (stopSt s w x x.refs) := by
      refine ⟨?_, fd_stop hf.fd x.refs, hist_stop hf.hist hi hw x.refs⟩
      have := stopSt_inv (c' := cOf s.frame) (r := x.refs) (n := eOf s.frame w) hf.inv hw hx hown (by rw [if_pos hx]; omega)
      rw [upd_self] at this
      exact this
    have hw' : (stopSt s w x x.refs).watches[w]? = some { x with wd := none, refs := x.refs } := by
      rw [f1, getElem?_set hw, if_pos rfl]
    obtain ⟨s1, e3, e4, e5, e6⟩ := full_drop (race := race) h1 hw' ho (by rw [f6]; exact hr) bOf_nil
    obtain ⟨base', g1⟩ := g_drop (g_stop h hf.hist hw x.refs) h1 hw' ho hs
    rw [hs] at e3
    cases e3
    rw [e5, f2]
    exact ⟨base', g1⟩
  | dispatch n =>
    obtain ⟨hn1, hn2, hfr, i, hi, hsrc⟩ := ha
    have hs : dispatch race s n = .ok s' := hs
    unfold dispatch at hs
    rw [hi] at hs
    dsimp only at hs
    unfold Rest at hf
    rw [hfr, eOf_none] at hf
    have h0 : Full q r 0 (fun _ => 0) [] s := hf
    rw [hfr] at h
    have h : G base [] s := h
    have h1 := full_dispatch h0 hi n
    have g1 : G base (s.queue.take n) { s with inst := some { i with refs := i.refs + 1 }, queue := s.queue.drop n } := by
      refine g_same h (fun j hj => by cases hj; exact ⟨i, hi, rfl⟩) (fun w x hw _ => ⟨x, hw, rfl⟩) (Nat.le_refl _) rfl (fun d _ => ?_) rfl rfl
      dsimp only
      rw [List.take_append_drop]
      rfl
    exact g_proc (i := { i with refs := i.refs + 1 }) h1 g1 hfr rfl hr hs
  | readFails =>
    obtain ⟨hfr, i, hi, hsrc⟩ := ha
    have hs : readFails s = .ok s' := hs
    unfold readFails at hs
    rw [hi] at hs
    cases hs
    exact ⟨base, g_same h (fun j hj => by cases hj; exact ⟨i, hi, rfl⟩) (fun w x hw _ => ⟨x, hw, rfl⟩) (Nat.le_refl _) rfl (fun _ _ => rfl) rfl rfl⟩
  | ret =>
    cases hfr : s.frame with
    | none => exact absurd hfr ha
    | some p =>
      obtain ⟨w, t⟩ := p
      unfold Rest at hf
      rw [hfr] at hf h
      have hf : Full q r 1 (eOf (some (w, t))) t s := hf
      have h : G base t s := h
      cases hi : s.inst with
      | none => exact absurd (hf.inv.noInst hi).1 (by simp)
      | some i =>
        have hs : ret race s = .ok s' := hs
        unfold ret at hs
        rw [hfr, hi] at hs
        dsimp only at hs
        have h1 := full_frame hf none
        have he : eOf (some (w, t)) w = 1 := by simp [eOf]
        obtain ⟨s1, e1, e2, e3, e4, _⟩ := full_unrefWatch (race := race) (w := w) h1 (by rw [he]; omega) hr (by simp)
        obtain ⟨base', g1⟩ := g_unrefWatch (g_frame h none) h1 (by rw [he]; omega) e1
        rw [hi] at e1
        rw [e1, ok_bind] at hs
        obtain ⟨e5, e6⟩ := e4 (by omega)
        obtain ⟨i', hi', hid⟩ := e6 i hi
        have e7 : upd (eOf (some (w, t))) w (eOf (some (w, t)) w - 1) = fun _ => 0 := by
          funext v
          unfold upd
          rw [he]
          by_cases hvw : v = w
          · rw [if_pos hvw]
          · rw [if_neg hvw]
            simp only [eOf, Option.map_some, Option.some.injEq]
            rw [if_neg (fun e => hvw e.symm)]
        rw [e7] at e2
        rw [← hid] at hs
        exact g_proc e2 g1 e3 hi' (by rw [e5]; exact hr) hs
  | happen file ev => cases hs; exact ⟨base, g_happen h hf.hist file ev⟩
  | vanish file => cases hs; exact ⟨base, g_vanish h hf.hist file⟩
  | merge file ev => cases hs; exact ⟨base, g_log (e := .merged file ev) h (fun _ => rfl) (by simp)⟩
  | lose file ev => cases hs; exact ⟨base, g_lose h file ev⟩
  | vanishLost file => cases hs; exact ⟨base, g_vanishLost h hf.hist file⟩
  | fopen fd =>
    cases hs
    exact ⟨base, g_same h (fun i hi => ⟨i, hi, rfl⟩) (fun w x hw _ => ⟨x, hw, rfl⟩) (Nat.le_refl _) rfl (fun _ _ => rfl) rfl rfl⟩
  | fclose fd =>
    cases hs
    exact ⟨base, g_same h (fun i hi => ⟨i, hi, rfl⟩) (fun w x hw _ => ⟨x, hw, rfl⟩) (Nat.le_refl _) rfl (fun _ _ => rfl) rfl rfl⟩

theorem g_init (foreign : List Nat) : G 0 [] (init foreign) := by
  refine ⟨rfl, ?_, ?_, ?_, ?_, ?_, ?_, ?_, ?_, ?_, ?_, ?_, ?_⟩
  · intro n g hn; cases hn
  · intro d g _ hn; cases hn
  · intro g hg; cases hg
  · intro i hi; cases hi
  · intro w x d hw; cases hw
  · intro n m g g' w hn; cases hn
  · intro g hg; cases hg
  · intro g hg; cases hg
  · intro d g _ hn; cases hn
  · intro pre w ev post e
    have : ([] : List Event) = pre ++ .delivered w ev :: post := e
    simp at this
  · intro n g hn; cases hn
  · intro d g _ hn; cases hn

theorem reach_g {P : State → Option Nat → Act → Prop} {s : State} (h : Reach P s) : ∃ base, G base (bOf s.frame) s := by
  induction h with
  | init foreign hn => exact ⟨0, g_init foreign⟩
  | step h0 ha hr hp e ih =>
    obtain ⟨base, g⟩ := ih
    exact g_step (reach_rest h0) g ha hr e

end Verif.Inotify
