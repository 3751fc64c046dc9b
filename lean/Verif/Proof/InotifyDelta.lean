import Verif.Proof.InotifyDebugExact

/-!
# What can be added to the history of inotify watches
-/

namespace Verif.Inotify
open Verif.C

/-- What an action may add to the history -/
def Kind (s : State) : Act → Event → Prop
  | .new file mask fd, e => e = .opened fd ∨ e = .created s.watches.length file mask
  | .newFails fd, e => e = .opened fd ∨ ∃ n, e = .closed n
  | .ref _, _ | .readFails, _ | .fopen _, _ | .fclose _, _ => False
  | .unref w, e | .destroy w, e => e = .stopped w ∨ ∃ n, e = .closed n
  | .dispatch _, e => (∃ n, e = .closed n) ∨ ∃ w ev, e = .delivered w ev
  | .ret, e => (∃ w, e = .stopped w) ∨ (∃ n, e = .closed n) ∨ ∃ w ev, e = .delivered w ev
  | .happen file ev, e => e = .happened file ev
  | .vanish file, e => e = .vanished file
  | .merge file ev, e => e = .merged file ev
  | .lose file ev, e => e = .lost file ev
  | .vanishLost file, e => e = .vanishedLost file

/-- Something has been added. -/
def Adds (s s' : State) (p : Event → Prop) : Prop := ∃ l, s'.log = s.log ++ l ∧ ∀ e ∈ l, p e

theorem adds_nil {s s' : State} {p : Event → Prop} (h : s'.log = s.log) : Adds s s' p := ⟨[], by rw [h, List.append_nil], fun e h => by cases h⟩

theorem adds_one {s s' : State} {p : Event → Prop} {e : Event} (h : s'.log = s.log ++ [e]) (hp : p e) : Adds s s' p :=
  ⟨[e], h, fun x hx => by rw [List.mem_singleton.1 hx]; exact hp⟩

theorem Adds.trans {s s1 s' : State} {p : Event → Prop} (h1 : Adds s s1 p) (h2 : Adds s1 s' p) : Adds s s' p := by
  obtain ⟨l1, e1, q1⟩ := h1
  obtain ⟨l2, e2, q2⟩ := h2
  refine ⟨l1 ++ l2, by rw [e2, e1, List.append_assoc], fun e he => ?_⟩
  rcases List.mem_append.1 he with he | he
  · exact q1 e he
  · exact q2 e he

theorem Adds.mono {s s' : State} {p q : Event → Prop} (h : Adds s s' p) (hpq : ∀ e, p e → q e) : Adds s s' q := by
  obtain ⟨l, e, h⟩ := h
  exact ⟨l, e, fun x hx => hpq x (h x hx)⟩

theorem bind_inv {α β : Type} {x : M α} {f : α → M β} {b : β} (h : (x >>= f) = .ok b) : ∃ a, x = .ok a ∧ f a = .ok b := by
  cases x with
  | error e => rw [error_bind] at h; cases h
  | ok a => exact ⟨a, rfl, h⟩

theorem unrefInst_adds {race : Option Nat} {s s' : State} {id : Nat} (h : unrefInst race s id = .ok s') : Adds s s' (fun e => ∃ n, e = .closed n) := by
  unfold unrefInst at h
  obtain ⟨i, _, h⟩ := bind_inv h
  split at h
  · cases h
    exact ⟨_, rfl, fun e he => by simp at he; exact ⟨_, he⟩⟩
  · cases h; exact adds_nil rfl

theorem kernelRemove_log (s : State) (wd : Nat) : (kernelRemove s wd).log = s.log := by
  unfold kernelRemove
  split <;> rfl

theorem stop_adds {s s' : State} {w : Nat} {x : Watch} (h : stop s w x = .ok s') : Adds s s' (fun e => e = .stopped w) := by
  unfold stop at h
  split at h
  · cases h; exact adds_nil rfl
  · obtain ⟨i, _, h⟩ := bind_inv h
    cases h
    exact adds_one (by rfl) rfl

theorem unrefWatch_adds {race : Option Nat} {s s' : State} {w : Nat} (h : unrefWatch race s w = .ok s') : Adds s s' (fun e => e = .stopped w ∨ ∃ n, e = .closed n) := by
  unfold unrefWatch at h
  obtain ⟨x, _, h⟩ := bind_inv h
  split at h
  · obtain ⟨s1, h1, h⟩ := bind_inv h
    have q := (stop_adds h1).mono (q := fun e => e = .stopped w ∨ ∃ n, e = .closed n) (fun e he => .inl he)
    have q : Adds s s1 (fun e => e = .stopped w ∨ ∃ n, e = .closed n) := q
    exact q.trans ((unrefInst_adds h).mono (fun e he => .inr he))
  · cases h; exact adds_nil rfl

theorem proc_adds {race : Option Nat} {id : Nat} : ∀ {b : List (Nat × Ev)} {s s' : State}, proc race s id b = .ok s' →
    Adds s s' (fun e => (∃ n, e = .closed n) ∨ ∃ w ev, e = .delivered w ev) := by
  intro b
  induction b with
  | nil => intro s s' h; exact (unrefInst_adds h).mono (fun e he => .inl he)
  | cons p t ih =>
    intro s s' h
    obtain ⟨d, ev⟩ := p
    unfold proc at h
    obtain ⟨i, _, h⟩ := bind_inv h
    split at h
    · exact ih h
    · unfold ref at h
      obtain ⟨s1, h1, h⟩ := bind_inv h
      obtain ⟨x, _, h1⟩ := bind_inv h1
      cases h1
      cases h
      exact adds_one rfl (.inr ⟨_, _, rfl⟩)

theorem newInst_adds (s : State) (fd : Nat) : Adds s (newInst s fd).1 (fun e => e = .opened fd) := by
  unfold newInst
  split
  · exact adds_nil rfl
  · exact adds_one rfl rfl

theorem newInst_watches (s : State) (fd : Nat) : (newInst s fd).1.watches = s.watches := by
  unfold newInst
  split <;> rfl

theorem kernelAdd_same (s : State) (file : Nat) (mask : BitVec 32) : (kernelAdd s file mask).1.log = s.log ∧ (kernelAdd s file mask).1.watches = s.watches := by
  unfold kernelAdd
  split <;> exact ⟨rfl, rfl⟩

theorem newWatch_log (s : State) (file : Nat) (mask : BitVec 32) (fd : Nat) :
    (newWatch s file mask fd).log = (newInst s fd).1.log ++ [.created s.watches.length file mask] := by
  unfold newWatch
  dsimp only
  rw [(kernelAdd_same _ _ _).1, (kernelAdd_same _ _ _).2, newInst_watches]

theorem step_adds {s s' : State} {a : Act} {race : Option Nat} (h : step race s a = .ok s') : Adds s s' (Kind s a) := by
  cases a with
  | new file mask fd =>
    cases h
    have h1 := (newInst_adds s fd).mono (q := Kind s (.new file mask fd)) (fun e he => .inl he)
    exact h1.trans (adds_one (newWatch_log s file mask fd) (.inr rfl))
  | newFails fd =>
    have h : unrefInst race (newInst s fd).1 (newInst s fd).2.id = .ok s' := h
    exact ((newInst_adds s fd).mono (fun e he => .inl he)).trans ((unrefInst_adds h).mono (fun e he => .inr he))
  | ref w =>
    obtain ⟨s1, h1, h⟩ := bind_inv h
    unfold ref at h1
    obtain ⟨x, _, h1⟩ := bind_inv h1
    cases h1
    cases h
    exact adds_nil rfl
  | unref w =>
    have q := unrefWatch_adds h
    exact q
  | destroy w =>
    have h : destroy race s w = .ok s' := h
    unfold destroy at h
    obtain ⟨x, _, h⟩ := bind_inv h
    obtain ⟨s1, h1, h⟩ := bind_inv h
    have q1 := (stop_adds h1).mono (q := Kind s (.destroy w)) (fun e he => .inl he)
    have q2 := (unrefWatch_adds h).mono (q := Kind s (.destroy w)) (fun e he => he)
    have q2 : Adds s1 s' (Kind s (.destroy w)) := q2
    exact q1.trans q2
  | dispatch n =>
    have h : dispatch race s n = .ok s' := h
    unfold dispatch at h
    split at h
    · cases h
    · have q := proc_adds h
      exact q
  | readFails =>
    have h : readFails s = .ok s' := h
    unfold readFails at h
    split at h
    · cases h
    · cases h; exact adds_nil rfl
  | ret =>
    have h : ret race s = .ok s' := h
    unfold ret at h
    split at h
    · obtain ⟨s1, h1, h⟩ := bind_inv h
      have q1 := (unrefWatch_adds h1).mono (q := Kind s .ret) (fun e he => by
        rcases he with he | he
        · exact .inl ⟨_, he⟩
        · exact .inr (.inl he))
      have q1 : Adds s s1 (Kind s .ret) := q1
      exact q1.trans ((proc_adds h).mono (fun e he => .inr he))
    · cases h
  | happen file ev => cases h; exact adds_one rfl rfl
  | vanish file => cases h; exact adds_one rfl rfl
  | merge file ev => cases h; exact adds_one rfl rfl
  | lose file ev => cases h; exact adds_one rfl rfl
  | vanishLost file => cases h; exact adds_one rfl rfl
  | fopen fd => cases h; exact adds_nil rfl
  | fclose fd => cases h; exact adds_nil rfl

theorem step_stops {s s' : State} (h : Reach anything s) {a : Act} (ha : Allowed s a) {race : Option Nat} (hr : ∀ fd, race = some fd → fd ∉ s.foreign)
    (e : step race s a = .ok s') (w : Nat) :
    isStopped w s'.log ↔ isStopped w s.log ∨ a = .destroy w ∨ (a = .unref w ∧ s.owned w = 1 ∧ s.frame.map (·.1) ≠ some w) ∨
      (a = .ret ∧ s.owned w = 0 ∧ s.frame.map (·.1) = some w) := by
  have hrest := reach_rest h
  obtain ⟨l1, l2⟩ := Debug.step_log hrest ha hr e
  have hst : Debug.Stops s a w ↔ a = .destroy w ∨ (a = .unref w ∧ s.owned w = 1 ∧ s.frame.map (·.1) ≠ some w) ∨
      (a = .ret ∧ s.owned w = 0 ∧ s.frame.map (·.1) = some w) := by
    have hown : ∀ x, s.watches[w]? = some x → x.refs = s.owned w + if s.frame.map (·.1) = some w then 1 else 0 := by
      intro x hx
      have h1 := hrest.inv.own w x hx
      have h2 : s.owned w = x.owned := by unfold State.owned; rw [hx]; rfl
      rw [h1, h2]
      cases hf : s.frame with
      | none => simp [eOf]
      | some p => simp [eOf, eq_comm]
    cases a <;> simp only [Debug.Stops, reduceCtorEq, false_and, false_or, or_false, Act.destroy.injEq, Act.unref.injEq, true_and]
    · rename_i v
      constructor
      · rintro ⟨rfl, x, hx, h1⟩
        have := hown x hx
        have h0 : 0 < s.owned v := ha
        split at this
        · omega
        · exact ⟨rfl, by omega, by assumption⟩
      · rintro ⟨rfl, h1, h2⟩
        obtain ⟨x, hx, _⟩ := owned_some ha
        have := hown x hx
        rw [if_neg h2] at this
        exact ⟨rfl, x, hx, by omega⟩
    · constructor
      · rintro ⟨h0, x, hx, h1⟩
        have := hown x hx
        rw [if_pos h0] at this
        exact ⟨by omega, h0⟩
      · rintro ⟨h0, h1⟩
        have he : 0 < eOf s.frame w := by
          cases hf : s.frame with
          | none => rw [hf] at h1; cases h1
          | some p => rw [hf] at h1; cases h1; simp [eOf]
        obtain ⟨x, hx⟩ := some_of_extra hrest.inv he
        have := hown x hx
        rw [if_pos h1] at this
        exact ⟨h1, x, hx, by omega⟩
  rw [← hst]
  constructor
  · intro hs
    rcases Classical.em (∃ v, Debug.Stops s a v ∧ Debug.Running s v) with ⟨v, h1, h2⟩ | hn
    · obtain ⟨l, h3, h4⟩ := l1 v h1 h2
      unfold isStopped at hs
      rw [h3] at hs
      rcases List.mem_append.1 hs with hs | hs
      · exact .inl hs
      · rcases List.mem_cons.1 hs with hs | hs
        · cases hs
          exact .inr h1
        · exact absurd hs (h4 w)
    · obtain ⟨l, h3, h4⟩ := l2 (fun v h1 h2 => hn ⟨v, h1, h2⟩)
      unfold isStopped at hs
      rw [h3] at hs
      rcases List.mem_append.1 hs with hs | hs
      · exact .inl hs
      · exact absurd hs (h4 w)
  · have grows : isStopped w s.log → isStopped w s'.log := by
      intro hs
      rcases Classical.em (∃ v, Debug.Stops s a v ∧ Debug.Running s v) with ⟨v, h1, h2⟩ | hn
      · obtain ⟨l, h3, h4⟩ := l1 v h1 h2
        unfold isStopped
        rw [h3]
        exact List.mem_append_left _ hs
      · obtain ⟨l, h3, h4⟩ := l2 (fun v h1 h2 => hn ⟨v, h1, h2⟩)
        unfold isStopped
        rw [h3]
        exact List.mem_append_left _ hs
    rintro (hs | hs)
    · exact grows hs
    · rcases Classical.em (Debug.Running s w) with h2 | hn
      · obtain ⟨l, h3, h4⟩ := l1 w hs h2
        unfold isStopped
        rw [h3]
        exact List.mem_append_right _ List.mem_cons_self
      · have hx : ∃ x, s.watches[w]? = some x := by
          cases a <;> simp only [Debug.Stops] at hs
          · obtain ⟨rfl, x, hx, _⟩ := hs; exact ⟨x, hx⟩
          · subst hs; obtain ⟨x, hx, _⟩ := owned_some ha; exact ⟨x, hx⟩
          · obtain ⟨_, x, hx, _⟩ := hs; exact ⟨x, hx⟩
        obtain ⟨x, hx⟩ := hx
        have hd : x.wd = none := Classical.byContradiction (fun hd => hn ⟨x, hx, hd⟩)
        exact grows (hrest.hist.stop w x hx hd).1

theorem born_step {s s' : State} (h : Reach anything s) (h' : Reach anything s') {a : Act} {race : Option Nat} (e : step race s a = .ok s') {w : Nat} (hw : w < s.watches.length) :
    w < s'.watches.length := by
  obtain ⟨x, hx⟩ : ∃ x, s.watches[w]? = some x := ⟨_, List.getElem?_eq_getElem hw⟩
  have h1 := (reach_rest h).hist.born w x hx
  obtain ⟨l, hl, _⟩ := step_adds e
  obtain ⟨y, hy, _⟩ := (reach_rest h').hist.made w x.file x.mask (by rw [hl]; exact List.mem_append_left _ h1)
  exact lt_of_some hy

theorem stopped_exists {s : State} (h : Reach anything s) {w : Nat} (hs : isStopped w s.log) : w < s.watches.length := by
  induction h with
  | init foreign hn => simp [isStopped, init] at hs
  | step h0 ha hr hp e ih =>
    have h' := h0.step ha hr hp e
    refine born_step h0 h' e ?_
    rcases (step_stops h0 ha hr e w).1 hs with h1 | rfl | ⟨rfl, _⟩ | ⟨rfl, _, h1⟩
    · exact ih h1
    · obtain ⟨x, hx, _⟩ := owned_some ha; exact lt_of_some hx
    · obtain ⟨x, hx, _⟩ := owned_some ha; exact lt_of_some hx
    · have he : ∀ f : Option (Nat × List (Nat × Ev)), f.map (·.1) = some w → 0 < eOf f w := by
        intro f h1
        cases f with
        | none => cases h1
        | some p => cases h1; simp [eOf]
      have he := he _ h1
      obtain ⟨x, hx⟩ := some_of_extra (reach_rest h0).inv he
      exact lt_of_some hx

/-- A watch which has been stopped isn't created again. -/
theorem not_again {s : State} (h : Reach anything s) {w f : Nat} {m : BitVec 32} {i j : Nat} (hi : s.log[i]? = some (.stopped w)) (hj : s.log[j]? = some (.created w f m)) : j < i := by
  induction h with
  | init foreign hn => simp [init] at hi
  | step h0 ha hr hp e ih =>
    rename_i s s' a race
    obtain ⟨l, hl, hk⟩ := step_adds e
    rw [hl, List.getElem?_append] at hi hj
    split at hj
    · split at hi
      · exact ih hi hj
      · omega
    · have hj' := hk _ (List.mem_of_getElem? hj)
      cases a <;> simp only [Kind, reduceCtorEq, exists_false, false_or, or_false, Event.created.injEq] at hj'
      rename_i file mask fd
      obtain ⟨rfl, _⟩ := hj'
      split at hi
      · have := stopped_exists h0 (List.mem_of_getElem? hi)
        omega
      · have hi' := hk _ (List.mem_of_getElem? hi)
        simp [Kind] at hi'

/-- All the groups of the watch have ended. -/
def Over (w : Nat) (l : List Group) : Prop := ∀ g ∈ l, w ∈ g.members → g.ended = true

theorem over_step {w : Nat} {l : List Group} (h : Over w l) {e : Event} (he : ∀ f m, e ≠ .created w f m) : Over w (share1 l e) := by
  have map : ∀ f : Group → Group, (∀ g ∈ l, (f g).members = g.members ∧ (g.ended = true → (f g).ended = true)) → Over w (l.map f) := by
    intro f hf g hg hw
    obtain ⟨g0, h0, rfl⟩ := List.mem_map.1 hg
    obtain ⟨h1, h2⟩ := hf g0 h0
    exact h2 (h g0 h0 (h1 ▸ hw))
  cases e with
  | created v file mask =>
    have hv : w ≠ v := fun e => he file mask (by rw [e])
    rw [share1]
    split
    · intro g hg hw
      obtain ⟨g0, h0, rfl⟩ := List.mem_map.1 hg
      split at hw
      · next hc =>
        rw [if_pos hc]
        have : w ∈ g0.members := by
          unfold Group.join at hw
          rcases List.mem_cons.1 hw with hw | hw
          · exact absurd hw hv
          · exact hw
        exact h g0 h0 this
      · next hc =>
        rw [if_neg hc]
        exact h g0 h0 hw
    · intro g hg hw
      rcases List.mem_append.1 hg with hg | hg
      · exact h g hg hw
      · rw [List.mem_singleton.1 hg] at hw
        exact absurd (List.mem_singleton.1 hw) hv
  | stopped v => exact map _ (fun g _ => by split <;> simp [Group.forget])
  | happened file ev => exact map _ (fun g _ => by split <;> simp [Group.report])
  | vanished file => exact map _ (fun g _ => by split <;> simp [Group.forget])
  | vanishedLost file => exact map _ (fun g _ => by split <;> simp [Group.forget])
  | closed n => exact map _ (fun g _ => by simp [Group.forget])
  | merged _ _ => exact h
  | lost _ _ => exact h
  | delivered _ _ => exact h
  | opened _ => exact h

theorem over_stopped (w : Nat) (l : List Group) : Over w (share1 l (.stopped w)) := by
  intro g hg hw
  obtain ⟨g0, h0, rfl⟩ := List.mem_map.1 hg
  split
  · rfl
  · next hc =>
    rw [if_neg hc] at hw
    exact absurd hw hc

theorem over_foldl {w : Nat} {t : List Event} : ∀ {l : List Group}, Over w l → (∀ f m, Event.created w f m ∉ t) → Over w (t.foldl share1 l) := by
  induction t with
  | nil => exact fun h _ => h
  | cons e t ih =>
    intro l h hn
    exact ih (over_step h (fun f m he => hn f m (he ▸ List.mem_cons_self))) (fun f m hm => hn f m (List.mem_cons_of_mem _ hm))

theorem silent {s : State} (h : Reach anything s) {w : Nat} {pre post : List Event} (hl : s.log = pre ++ .stopped w :: post) : delivered w post = [] := by
  obtain ⟨base, g⟩ := reach_g h
  refine List.filterMap_eq_nil_iff.2 (fun x hx => ?_)
  split
  · next v ev =>
    refine if_neg (fun hv => ?_)
    subst hv
    obtain ⟨p1, p2, rfl⟩ := List.append_of_mem hx
    have hl' : s.log = (pre ++ .stopped v :: p1) ++ .delivered v ev :: p2 := by rw [hl]; simp
    obtain ⟨gr, hg, hm, hn⟩ := g.newest _ v ev p2 hl'
    have ho : Over v (groups (pre ++ .stopped v :: p1)) := by
      unfold groups
      rw [List.foldl_append, List.foldl_cons]
      refine over_foldl (over_stopped _ _) (fun f m hc => ?_)
      obtain ⟨k, hk⟩ := List.getElem?_of_mem hc
      have := not_again h (w := v) (f := f) (m := m) (i := pre.length) (j := pre.length + 1 + k) (by rw [hl]; simp) (by
        have hk' := (List.getElem?_eq_some_iff.1 hk).1
        rw [hl, List.getElem?_append_right (by omega), show pre.length + 1 + k - pre.length = k + 1 by omega, List.getElem?_cons_succ, List.getElem?_append_left hk']
        exact hk)
      omega
    have := ho gr hg (List.mem_of_mem_head? hm)
    rw [hn] at this
    cases this
  · rfl

end Verif.Inotify
