import Verif.Proof.Inotify

namespace Verif.Inotify
open Verif.C

def track (w : Nat) (log : List Event) : Track := log.foldl (track1 w) (none, [])

theorem track_append (w : Nat) (log l : List Event) : track w (log ++ l) = l.foldl (track1 w) (track w log) := List.foldl_append

theorem expected_eq (w : Nat) (log : List Event) : expected w log = (track w log).2 := rfl

theorem delivered_append (w : Nat) (a b : List Event) : delivered w (a ++ b) = delivered w a ++ delivered w b := List.filterMap_append

/-- Events of the watch descriptor -/
def pend (d : Nat) (l : List (Nat × Ev)) : List Ev := (l.filter (fun p => p.1 = d)).map (·.2)

theorem pend_append (d : Nat) (a b : List (Nat × Ev)) : pend d (a ++ b) = pend d a ++ pend d b := by
  unfold pend
  rw [List.filter_append, List.map_append]

theorem pend_none {d : Nat} {l : List (Nat × Ev)} (h : ∀ p ∈ l, p.1 ≠ d) : pend d l = [] := by
  unfold pend
  rw [List.filter_eq_nil_iff.2 (fun p hp => by simp [h p hp])]
  rfl

/-- What is true at any time. `Q` are the files which are never being watched twice, and `b` is what has been read from the kernel. -/
structure Hist (Q : Nat → Prop) (b : List (Nat × Ev)) (s : State) : Prop where
  wd1 : 0 < s.nextWd
  wdK : ∀ k ∈ s.kernel, 0 < k.wd ∧ k.wd < s.nextWd
  nodup : s.kernel.Pairwise (fun a b => a.wd ≠ b.wd ∧ a.file ≠ b.file)
  wdQ : ∀ p ∈ b ++ s.queue, p.1 < s.nextWd
  wdLt : ∀ (w : Nat) (x : Watch) (d : Nat), s.watches[w]? = some x → x.wd = some d → 0 < d ∧ d < s.nextWd
  same : ∀ (w v : Nat) (x y : Watch) (d : Nat), s.watches[w]? = some x → s.watches[v]? = some y → x.wd = some d → y.wd = some d → x.file = y.file
  wdT : ∀ (w : Nat) (x : Watch) (d : Nat), s.watches[w]? = some x → x.wd = some d → Q x.file → ∃ i, s.inst = some i ∧ (d, w) ∈ i.table
  keys : ∀ i, s.inst = some i → (i.table.map (·.1)).Nodup
  kern : ∀ k ∈ s.kernel, ∀ e : BitVec 32, ∃ (w : Nat) (x : Watch), s.watches[w]? = some x ∧ x.wd = some k.wd ∧ x.file = k.file ∧ (e &&& k.mask ≠ 0 → e &&& x.mask ≠ 0)
  act : ∀ (w : Nat) (x : Watch), s.watches[w]? = some x → (∃ k ∈ s.kernel, x.wd = some k.wd) → (track w s.log).1 = some (x.file, x.mask)
  live : ∀ (w : Nat) (x : Watch) (d : Nat), s.watches[w]? = some x → x.wd = some d → Q x.file →
    (track w s.log).1 = some (x.file, x.mask) ∧ ⟨d, x.file, x.mask⟩ ∈ s.kernel ∨
    (track w s.log).1 = none ∧ ∀ k ∈ s.kernel, k.wd ≠ d
  deliv : ∀ (w : Nat) (x : Watch) (d : Nat), s.watches[w]? = some x → x.wd = some d → Q x.file →
    delivered w s.log ++ pend d (b ++ s.queue) = (track w s.log).2
  stop : ∀ (w : Nat) (x : Watch), s.watches[w]? = some x → x.wd = none →
    isStopped w s.log ∧ (track w s.log).1 = none ∧ (Q x.file → delivered w s.log <+: (track w s.log).2)
  fresh : ∀ w, s.watches.length ≤ w → track w s.log = (none, []) ∧ delivered w s.log = []
  made : ∀ w f m, Event.created w f m ∈ s.log → ∃ x, s.watches[w]? = some x ∧ x.file = f ∧ x.mask = m
  born : ∀ (w : Nat) (x : Watch), s.watches[w]? = some x → Event.created w x.file x.mask ∈ s.log
  src : ∀ p ∈ b ++ s.queue, ∀ (w : Nat) (x : Watch), s.watches[w]? = some x → x.wd = some p.1 → reported x.file p.2 s.log
  sound : ∀ w ev, Event.delivered w ev ∈ s.log → ∃ f m, Event.created w f m ∈ s.log ∧ reported f ev s.log

theorem reported_append {file : Nat} {ev : Ev} {log : List Event} (h : reported file ev log) (l : List Event) : reported file ev (log ++ l) := by
  obtain ⟨pre, e, post, v, m, h1, h2⟩ := h
  exact ⟨pre, e, post ++ l, v, m, by rw [h1]; simp, h2⟩

theorem watching_eq (w : Nat) (log : List Event) : watching w log = (track w log).1 := rfl

theorem Hist.uniq {Q : Nat → Prop} {b : List (Nat × Ev)} {s : State} (h : Hist Q b s) {w v d : Nat} {x y : Watch} (hw : s.watches[w]? = some x) (hv : s.watches[v]? = some y)
    (hx : x.wd = some d) (hy : y.wd = some d) (hq : Q x.file) : w = v := by
  obtain ⟨i, hi, hm⟩ := h.wdT w x d hw hx hq
  obtain ⟨j, hj, hn⟩ := h.wdT v y d hv hy (h.same w v x y d hw hv hx hy ▸ hq)
  rw [hi] at hj
  cases hj
  have := h.keys i hi
  have key : ∀ t : List (Nat × Nat), (t.map (·.1)).Nodup → (d, w) ∈ t → (d, v) ∈ t → w = v := by
    intro t
    induction t with
    | nil => simp
    | cons p t ih =>
      intro hnd h1 h2
      rw [List.map_cons, List.nodup_cons] at hnd
      have hne : ∀ u, (d, u) ∈ t → p.1 ≠ d := fun u hu e => hnd.1 (List.mem_map.2 ⟨(d, u), hu, e.symm⟩)
      rcases List.mem_cons.1 h1 with h1 | h1 <;> rcases List.mem_cons.1 h2 with h2 | h2
      · rw [← h1] at h2
        exact (Prod.ext_iff.1 h2).2.symm
      · exact absurd (congrArg (·.1) h1).symm (hne _ h2)
      · exact absurd (congrArg (·.1) h2).symm (hne _ h1)
      · exact ih hnd.2 h1 h2
  exact key _ this hm hn

/-- Something which isn't related to watches is added to the log. -/
def Neutral (e : Event) : Prop := (∀ w t, track1 w t e = t) ∧ (∀ w, delivered w [e] = []) ∧ (∀ w f m, e ≠ .created w f m) ∧ ∀ w ev, e ≠ .delivered w ev

theorem neutral_opened (fd : Nat) : Neutral (.opened fd) := ⟨fun _ _ => rfl, fun _ => rfl, by simp, by simp⟩
theorem neutral_closed (fd : Nat) : Neutral (.closed fd) := ⟨fun _ _ => rfl, fun _ => rfl, by simp, by simp⟩

/-- The history gets longer, nothing is delivered. -/
theorem sound_append {log : List Event} {e : Event} (h : ∀ w ev, Event.delivered w ev ∈ log → ∃ f m, Event.created w f m ∈ log ∧ reported f ev log)
    (he : ∀ w ev, e ≠ .delivered w ev) (w : Nat) (ev : Ev) (hm : Event.delivered w ev ∈ log ++ [e]) :
    ∃ f m, Event.created w f m ∈ log ++ [e] ∧ reported f ev (log ++ [e]) := by
  rcases List.mem_append.1 hm with hm | hm
  · obtain ⟨f, m, h1, h2⟩ := h w ev hm
    exact ⟨f, m, List.mem_append_left _ h1, reported_append h2 _⟩
  · exact absurd (List.mem_singleton.1 hm).symm (he w ev)

theorem hist_neutral {Q : Nat → Prop} {b : List (Nat × Ev)} {s : State} {e : Event} (h : Hist Q b s) (he : Neutral e) : Hist Q b { s with log := s.log ++ [e] } := by
  have ht : ∀ w, track w (s.log ++ [e]) = track w s.log := fun w => by rw [track_append]; exact he.1 w _
  have hd : ∀ w, delivered w (s.log ++ [e]) = delivered w s.log := fun w => by rw [delivered_append, he.2.1 w, List.append_nil]
  constructor
  · exact h.wd1
  · exact h.wdK
  · exact h.nodup
  · exact h.wdQ
  · exact h.wdLt
  · exact h.same
  · exact h.wdT
  · exact h.keys
  · exact h.kern
  · intro w x; dsimp only; rw [ht]; exact h.act w x
  · intro w x d; dsimp only; rw [ht]; exact h.live w x d
  · intro w x d; dsimp only; rw [ht, hd]; exact h.deliv w x d
  · intro w x hw hx; dsimp only; rw [ht, hd]
    obtain ⟨h1, h2, h3⟩ := h.stop w x hw hx
    exact ⟨List.mem_append_left _ h1, h2, h3⟩
  · intro w; dsimp only; rw [ht, hd]; exact h.fresh w
  · intro w f m hm
    rcases List.mem_append.1 hm with hm | hm
    · exact h.made w f m hm
    · exact absurd (List.mem_singleton.1 hm).symm (he.2.2.1 w f m)
  · exact fun w x hw => List.mem_append_left _ (h.born w x hw)
  · exact fun p hp w x hw hx => reported_append (h.src p hp w x hw hx) _
  · exact sound_append h.sound he.2.2.2

theorem hist_foreign {Q : Nat → Prop} {b : List (Nat × Ev)} {s : State} (h : Hist Q b s) (f : List Nat) : Hist Q b { s with foreign := f } :=
  ⟨h.wd1, h.wdK, h.nodup, h.wdQ, h.wdLt, h.same, h.wdT, h.keys, h.kern, h.act, h.live, h.deliv, h.stop, h.fresh, h.made, h.born, h.src, h.sound⟩

theorem hist_inst {Q : Nat → Prop} {b : List (Nat × Ev)} {s : State} {i j : Inst} (h : Hist Q b s) (hi : s.inst = some i) (hj : j.table = i.table) :
    Hist Q b { s with inst := some j } := by
  constructor
  · exact h.wd1
  · exact h.wdK
  · exact h.nodup
  · exact h.wdQ
  · exact h.wdLt
  · exact h.same
  · intro w x d hw hx hq
    obtain ⟨k, hk, hm⟩ := h.wdT w x d hw hx hq
    rw [hi] at hk
    cases hk
    exact ⟨j, rfl, hj ▸ hm⟩
  · rintro k ⟨⟩
    rw [hj]
    exact h.keys i hi
  · exact h.kern
  · exact h.act
  · exact h.live
  · exact h.deliv
  · exact h.stop
  · exact h.fresh
  · exact h.made
  · exact h.born
  · exact h.src
  · exact h.sound

/-- References of a watch -/
theorem hist_set {Q : Nat → Prop} {b : List (Nat × Ev)} {s : State} {w : Nat} {x : Watch} (h : Hist Q b s) (hw : s.watches[w]? = some x) (r o : Nat) :
    Hist Q b { s with watches := s.watches.set w { x with refs := r, owned := o } } := by
  have key : ∀ (v : Nat) (y : Watch), (s.watches.set w { x with refs := r, owned := o })[v]? = some y →
      ∃ z, s.watches[v]? = some z ∧ z.wd = y.wd ∧ z.file = y.file ∧ z.mask = y.mask := by
    intro v y hv
    rw [getElem?_set hw] at hv
    split at hv
    · next e => cases hv; exact ⟨x, e ▸ hw, rfl, rfl, rfl⟩
    · exact ⟨y, hv, rfl, rfl, rfl⟩
  have back : ∀ (v : Nat) (z : Watch), s.watches[v]? = some z →
      ∃ y, (s.watches.set w { x with refs := r, owned := o })[v]? = some y ∧ y.wd = z.wd ∧ y.file = z.file ∧ y.mask = z.mask := by
    intro v z hv
    rw [getElem?_set hw]
    by_cases hvw : v = w
    · subst hvw
      rw [hw] at hv
      cases hv
      exact ⟨_, if_pos rfl, rfl, rfl, rfl⟩
    · exact ⟨z, by rw [if_neg hvw]; exact hv, rfl, rfl, rfl⟩
  constructor
  · exact h.wd1
  · exact h.wdK
  · exact h.nodup
  · exact h.wdQ
  · intro v y d hv hy
    obtain ⟨z, hz, e1, e2, e3⟩ := key v y hv
    exact h.wdLt v z d hz (e1.trans hy)
  · intro v u y y' d hv hu hy hy'
    obtain ⟨z, hz, e1, e2, e3⟩ := key v y hv
    obtain ⟨z', hz', e1', e2', e3'⟩ := key u y' hu
    rw [← e2, ← e2']
    exact h.same v u z z' d hz hz' (e1.trans hy) (e1'.trans hy')
  · intro v y d hv hy hq
    obtain ⟨z, hz, e1, e2, e3⟩ := key v y hv
    exact h.wdT v z d hz (e1.trans hy) (e2 ▸ hq)
  · exact h.keys
  · intro k hk e
    obtain ⟨v, z, hv, e1, e2, e3⟩ := h.kern k hk e
    obtain ⟨y, hy, f1, f2, f3⟩ := back v z hv
    exact ⟨v, y, hy, f1.trans e1, f2.trans e2, f3 ▸ e3⟩
  · rintro v y hv ⟨k, hk, hy⟩
    obtain ⟨z, hz, e1, e2, e3⟩ := key v y hv
    have := h.act v z hz ⟨k, hk, e1.trans hy⟩
    rw [e2, e3] at this
    exact this
  · intro v y d hv hy hq
    obtain ⟨z, hz, e1, e2, e3⟩ := key v y hv
    have := h.live v z d hz (e1.trans hy) (e2 ▸ hq)
    rw [e2, e3] at this
    exact this
  · intro v y d hv hy hq
    obtain ⟨z, hz, e1, e2, e3⟩ := key v y hv
    exact h.deliv v z d hz (e1.trans hy) (e2 ▸ hq)
  · intro v y hv hy
    obtain ⟨z, hz, e1, e2, e3⟩ := key v y hv
    obtain ⟨h1, h2, h3⟩ := h.stop v z hz (e1.trans hy)
    exact ⟨h1, h2, fun hq => h3 (e2 ▸ hq)⟩
  · intro v hv
    dsimp only at hv
    rw [List.length_set] at hv
    exact h.fresh v hv
  · intro v f m hm
    obtain ⟨z, hz, e1, e2⟩ := h.made v f m hm
    obtain ⟨y, hy, f1, f2, f3⟩ := back v z hz
    exact ⟨y, hy, f2.trans e1, f3.trans e2⟩
  · intro v y hv
    obtain ⟨z, hz, e1, e2, e3⟩ := key v y hv
    rw [← e2, ← e3]
    exact h.born v z hz
  · intro p hp v y hv hy
    obtain ⟨z, hz, e1, e2, e3⟩ := key v y hv
    rw [← e2]
    exact h.src p hp v z hz (e1.trans hy)
  · exact h.sound

/-- The instance is gone -/
theorem hist_close {Q : Nat → Prop} {race : Option Nat} {s : State} {i : Inst} (h : Hist Q [] s)
    (hd : ∀ (w : Nat) (x : Watch), s.watches[w]? = some x → x.wd = none) : Hist Q [] (closeSt race s i) := by
  have h1 := hist_neutral (hist_neutral h (neutral_closed i.fd)) (neutral_closed i.fd)
  unfold closeSt
  have hl : s.log ++ [Event.closed i.fd, Event.closed i.fd] = s.log ++ [Event.closed i.fd] ++ [Event.closed i.fd] := by simp
  rw [hl]
  constructor
  · exact Nat.one_pos
  · intro k hk; cases hk
  · exact .nil
  · intro p hp; cases hp
  · intro w x d hw hx; rw [hd w x hw] at hx; cases hx
  · intro w v x y d hw hv hx; rw [hd w x hw] at hx; cases hx
  · intro w x d hw hx; rw [hd w x hw] at hx; cases hx
  · intro j hj; cases hj
  · intro k hk; cases hk
  · rintro w x hw ⟨k, hk, _⟩; cases hk
  · intro w x d hw hx; rw [hd w x hw] at hx; cases hx
  · intro w x d hw hx; rw [hd w x hw] at hx; cases hx
  · exact h1.stop
  · exact h1.fresh
  · exact h1.made
  · exact h1.born
  · intro p hp; cases hp
  · exact h1.sound

theorem kernelRemove_spec (s : State) (d : Nat) :
    (∀ k, k ∈ (kernelRemove s d).kernel ↔ k ∈ s.kernel ∧ k.wd ≠ d) ∧
    ((kernelRemove s d).queue = s.queue ∧ (∀ k ∈ s.kernel, k.wd ≠ d) ∨
     (kernelRemove s d).queue = s.queue ++ [(d, ignored)] ∧ ∃ k ∈ s.kernel, k.wd = d) ∧
    (kernelRemove s d).kernel.Sublist s.kernel := by
  unfold kernelRemove
  by_cases h : s.kernel.any (fun k => k.wd = d)
  · rw [if_pos h]
    refine ⟨fun k => by simp, .inr ⟨rfl, ?_⟩, List.filter_sublist⟩
    simpa using h
  · rw [if_neg h]
    have h' : ∀ k ∈ s.kernel, k.wd ≠ d := by simpa using h
    exact ⟨fun k => ⟨fun hk => ⟨hk, h' k hk⟩, fun hk => hk.1⟩, .inl ⟨rfl, h'⟩, List.Sublist.refl _⟩

theorem track_stopped (v w : Nat) (log : List Event) :
    track v (log ++ [.stopped w]) = if w = v then (none, (track v log).2) else track v log := track_append v log [.stopped w]

/-- The watch is stopped -/
theorem hist_stop {Q : Nat → Prop} {b : List (Nat × Ev)} {s : State} {w : Nat} {x : Watch} {i : Inst} (h : Hist Q b s) (hi : s.inst = some i) (hw : s.watches[w]? = some x) (r : Nat) :
    Hist Q b (stopSt s w x r) := by
  cases hd : x.wd with
  | none =>
    have e : stopSt s w x r = { s with watches := s.watches.set w { x with refs := r, owned := x.owned } } := by
      unfold stopSt
      rw [hd]
    rw [e]
    exact hist_set h hw r x.owned
  | some d =>
    obtain ⟨hk1, hk2, hk3⟩ := kernelRemove_spec s d
    obtain ⟨g1, g2, g3, g4, g5, g6, g8⟩ := kernelRemove_fields s d
    have e : stopSt s w x r = { kernelRemove s d with inst := some { i with table := tableRemove i.table d }, watches := s.watches.set w { x with wd := none, refs := r }, log := s.log ++ [.stopped w] } := by
      unfold stopSt
      rw [hd, hi]
      rfl
    rw [e]
    have dlt := h.wdLt w x d hw hd
    have hdl : ∀ v, delivered v (s.log ++ [.stopped w]) = delivered v s.log := fun v => by
      rw [delivered_append]
      exact List.append_nil _
    have key : ∀ (v : Nat) (y : Watch), (s.watches.set w { x with wd := none, refs := r })[v]? = some y →
        v = w ∧ y = { x with wd := none, refs := r } ∨ v ≠ w ∧ s.watches[v]? = some y := by
      intro v y hv
      rw [getElem?_set hw] at hv
      by_cases hvw : v = w
      · rw [if_pos hvw] at hv
        cases hv
        exact .inl ⟨hvw, rfl⟩
      · rw [if_neg hvw] at hv
        exact .inr ⟨hvw, hv⟩
    have other : ∀ (v : Nat) (y : Watch), v ≠ w → s.watches[v]? = some y → Q y.file → y.wd ≠ some d :=
      fun v y hvw hv hq hy => hvw (h.uniq hv hw hy hd hq)
    constructor
    · dsimp only; rw [g6]; exact h.wd1
    · intro k hk
      dsimp only
      rw [g6]
      exact h.wdK k ((hk1 k).1 hk).1
    · exact h.nodup.sublist hk3
    · dsimp only
      rw [g6]
      intro p hp
      rcases hk2 with ⟨e, _⟩ | ⟨e, _⟩
      · rw [e] at hp
        exact h.wdQ p hp
      · rw [e, ← List.append_assoc] at hp
        rcases List.mem_append.1 hp with hp | hp
        · exact h.wdQ p hp
        · rw [List.mem_singleton] at hp
          subst hp
          exact dlt.2
    · intro v y d' hv hy
      dsimp only
      rw [g6]
      rcases key v y hv with ⟨_, rfl⟩ | ⟨hvw, hv⟩
      · cases hy
      · exact h.wdLt v y d' hv hy
    · intro v u y z d' hv hu hy hz
      rcases key v y hv with ⟨_, rfl⟩ | ⟨_, hv⟩
      · cases hy
      · rcases key u z hu with ⟨_, rfl⟩ | ⟨_, hu⟩
        · cases hz
        · exact h.same v u y z d' hv hu hy hz
    · intro v y d' hv hy hq
      rcases key v y hv with ⟨_, rfl⟩ | ⟨hvw, hv⟩
      · cases hy
      · obtain ⟨j, hj, hm⟩ := h.wdT v y d' hv hy hq
        rw [hi] at hj
        cases hj
        refine ⟨_, rfl, ?_⟩
        simp only [tableRemove, List.mem_filter]
        refine ⟨hm, ?_⟩
        have : d' ≠ d := fun e => other v y hvw hv hq (e ▸ hy)
        simpa using this
    · rintro j ⟨⟩
      exact (h.keys i hi).sublist (List.Sublist.map _ List.filter_sublist)
    · intro k hk e
      obtain ⟨hk, hne⟩ := (hk1 k).1 hk
      obtain ⟨v, y, hv, e1, e2, e3⟩ := h.kern k hk e
      refine ⟨v, y, ?_, e1, e2, e3⟩
      dsimp only
      rw [getElem?_set hw, if_neg, hv]
      intro hvw
      subst hvw
      rw [hw] at hv
      cases hv
      rw [hd] at e1
      cases e1
      exact hne rfl
    · rintro v y hv ⟨k, hk, hy⟩
      rcases key v y hv with ⟨_, rfl⟩ | ⟨hvw, hv⟩
      · cases hy
      · dsimp only
        rw [track_stopped, if_neg (fun e => hvw e.symm)]
        exact h.act v y hv ⟨k, ((hk1 k).1 hk).1, hy⟩
    · intro v y d' hv hy hq
      rcases key v y hv with ⟨_, rfl⟩ | ⟨hvw, hv⟩
      · cases hy
      · dsimp only
        rw [track_stopped, if_neg (fun e => hvw e.symm)]
        rcases h.live v y d' hv hy hq with ⟨h1, h2⟩ | ⟨h1, h2⟩
        · refine .inl ⟨h1, (hk1 _).2 ⟨h2, ?_⟩⟩
          exact fun e => other v y hvw hv hq (e ▸ hy)
        · exact .inr ⟨h1, fun k hk => h2 k ((hk1 k).1 hk).1⟩
    · intro v y d' hv hy hq
      rcases key v y hv with ⟨_, rfl⟩ | ⟨hvw, hv⟩
      · cases hy
      · dsimp only
        rw [track_stopped, if_neg (fun e => hvw e.symm), hdl]
        have hq' : pend d' (b ++ (kernelRemove s d).queue) = pend d' (b ++ s.queue) := by
          rcases hk2 with ⟨e, _⟩ | ⟨e, _⟩
          · rw [e]
          · rw [e, ← List.append_assoc, pend_append, pend_none (l := [(d, ignored)]), List.append_nil]
            intro p hp
            rw [List.mem_singleton] at hp
            subst hp
            exact fun (e : d = d') => other v y hvw hv hq (e ▸ hy)
        rw [hq']
        exact h.deliv v y d' hv hy hq
    · intro v y hv hy
      dsimp only
      rw [track_stopped, hdl]
      rcases key v y hv with ⟨hvw, rfl⟩ | ⟨hvw, hv⟩
      · subst hvw
        rw [if_pos rfl]
        refine ⟨List.mem_append_right _ (List.mem_singleton.2 rfl), rfl, fun hq => ?_⟩
        have := h.deliv v x d hw hd hq
        exact ⟨_, this⟩
      · rw [if_neg (fun e => hvw e.symm)]
        obtain ⟨h1, h2, h3⟩ := h.stop v y hv hy
        exact ⟨List.mem_append_left _ h1, h2, h3⟩
    · intro v hv
      dsimp only at hv ⊢
      rw [List.length_set] at hv
      have := lt_of_some hw
      rw [track_stopped, if_neg (by omega), hdl]
      exact h.fresh v hv
    · intro v f m hm
      dsimp only
      rcases List.mem_append.1 hm with hm | hm
      · obtain ⟨y, hy, e1, e2⟩ := h.made v f m hm
        by_cases hvw : v = w
        · subst hvw
          rw [hw] at hy
          cases hy
          exact ⟨{ x with wd := none, refs := r }, by rw [getElem?_set hw, if_pos rfl], e1, e2⟩
        · exact ⟨y, by rw [getElem?_set hw, if_neg hvw]; exact hy, e1, e2⟩
      · simp at hm
    · intro v y hv
      rcases key v y hv with ⟨hvw, rfl⟩ | ⟨hvw, hv⟩
      · rw [hvw]
        exact List.mem_append_left _ (h.born w x hw)
      · exact List.mem_append_left _ (h.born v y hv)
    · intro p hp v y hv hy
      rcases key v y hv with ⟨_, rfl⟩ | ⟨hvw, hv⟩
      · cases hy
      · have old : p ∈ b ++ s.queue → reported y.file p.2 (s.log ++ [.stopped w]) := fun hp => reported_append (h.src p hp v y hv hy) _
        dsimp only at hp
        rcases hk2 with ⟨e, _⟩ | ⟨e, k, hk, hkd⟩
        · rw [e] at hp
          exact old hp
        · rw [e, ← List.append_assoc] at hp
          rcases List.mem_append.1 hp with hp | hp
          · exact old hp
          · rw [List.mem_singleton] at hp
            subst hp
            refine ⟨s.log, .stopped w, [], w, x.mask, rfl, ?_, .inr ⟨rfl, .inr rfl⟩⟩
            rw [watching_eq, h.same v w y x d hv hw hy hd]
            exact h.act w x hw ⟨k, hk, by rw [hd, hkd]⟩
    · exact sound_append h.sound (by simp)

theorem lookup_mem {t : List (Nat × Nat)} {d w : Nat} (h : tableLookup t d = some w) : (d, w) ∈ t := by
  unfold tableLookup at h
  cases hf : t.find? (fun e => decide (e.1 = d)) with
  | none => rw [hf] at h; cases h
  | some p =>
    rw [hf] at h
    cases h
    have h1 := List.mem_of_find?_eq_some hf
    have h2 := List.find?_some hf
    have h2 : p.1 = d := by simpa using h2
    rw [← h2]
    exact h1

theorem lookup_none {t : List (Nat × Nat)} {d w : Nat} (h : tableLookup t d = none) : (d, w) ∉ t := by
  intro hm
  unfold tableLookup at h
  rw [Option.map_eq_none_iff, List.find?_eq_none] at h
  have := h _ hm
  simp at this

theorem pend_cons (d d' : Nat) (ev : Ev) (l : List (Nat × Ev)) : pend d' ((d, ev) :: l) = if d = d' then ev :: pend d' l else pend d' l := by
  unfold pend
  rw [List.filter_cons]
  by_cases h : d = d'
  · simp [h]
  · simp [h]

/-- An event of a watch which doesn't exist anymore -/
theorem hist_skip {Q : Nat → Prop} {b : List (Nat × Ev)} {s : State} {d : Nat} {ev : Ev} {i : Inst} (h : Hist Q ((d, ev) :: b) s) (hi : s.inst = some i)
    (hl : tableLookup i.table d = none) : Hist Q b s := by
  refine ⟨h.wd1, h.wdK, h.nodup, fun p hp => h.wdQ p (List.mem_cons_of_mem _ hp), h.wdLt, h.same, h.wdT, h.keys, h.kern, h.act, h.live, ?_, h.stop, h.fresh, h.made, h.born,
    fun p hp => h.src p (List.mem_cons_of_mem _ hp), h.sound⟩
  intro v y d' hv hy hq
  obtain ⟨j, hj, hm⟩ := h.wdT v y d' hv hy hq
  rw [hi] at hj
  cases hj
  have hne : d ≠ d' := fun e => lookup_none hl (e ▸ hm)
  have := h.deliv v y d' hv hy hq
  rw [List.cons_append, pend_cons, if_neg hne] at this
  exact this

/-- Handlers are called -/
theorem hist_deliver {Q : Nat → Prop} {b : List (Nat × Ev)} {s : State} {d w : Nat} {ev : Ev} {x : Watch} (h : Hist Q ((d, ev) :: b) s)
    (hw : s.watches[w]? = some x) (hx : x.wd = some d) : Hist Q b { s with log := s.log ++ [.delivered w ev] } := by
  have ht : ∀ v, track v (s.log ++ [.delivered w ev]) = track v s.log := fun v => track_append v s.log [.delivered w ev]
  have hd : ∀ v, delivered v (s.log ++ [.delivered w ev]) = delivered v s.log ++ if w = v then [ev] else [] := by
    intro v
    rw [delivered_append]
    congr 1
    by_cases hwv : w = v <;> simp [delivered, hwv]
  have hlt := lt_of_some hw
  constructor
  · exact h.wd1
  · exact h.wdK
  · exact h.nodup
  · exact fun p hp => h.wdQ p (List.mem_cons_of_mem _ hp)
  · exact h.wdLt
  · exact h.same
  · exact h.wdT
  · exact h.keys
  · exact h.kern
  · intro v y; dsimp only; rw [ht]; exact h.act v y
  · intro v y d'; dsimp only; rw [ht]; exact h.live v y d'
  · intro v y d' hv hy hq
    dsimp only at hv ⊢
    rw [ht, hd]
    have := h.deliv v y d' hv hy hq
    rw [List.cons_append, pend_cons] at this
    by_cases hwv : w = v
    · subst hwv
      rw [hw] at hv
      cases hv
      rw [hx] at hy
      cases hy
      rw [if_pos rfl] at this ⊢
      simpa using this
    · rw [if_neg hwv]
      have hne : d ≠ d' := fun e => hwv (h.uniq hv hw (e ▸ hy) hx hq).symm
      rw [if_neg hne] at this
      simpa using this
  · intro v y hv hy
    dsimp only at hv ⊢
    rw [ht, hd]
    have hwv : w ≠ v := by
      intro e
      subst e
      rw [hw] at hv
      cases hv
      rw [hx] at hy
      cases hy
    rw [if_neg hwv, List.append_nil]
    obtain ⟨h1, h2, h3⟩ := h.stop v y hv hy
    exact ⟨List.mem_append_left _ h1, h2, h3⟩
  · intro v hv
    dsimp only at hv ⊢
    rw [ht, hd, if_neg (by omega), List.append_nil]
    exact h.fresh v hv
  · intro v f m hm
    rcases List.mem_append.1 hm with hm | hm
    · exact h.made v f m hm
    · simp at hm
  · exact fun v y hv => List.mem_append_left _ (h.born v y hv)
  · exact fun p hp v y hv hy => reported_append (h.src p (List.mem_cons_of_mem _ hp) v y hv hy) _
  · intro v e hm
    rcases List.mem_append.1 hm with hm | hm
    · obtain ⟨f, m, h1, h2⟩ := h.sound v e hm
      exact ⟨f, m, List.mem_append_left _ h1, reported_append h2 _⟩
    · rw [List.mem_singleton] at hm
      cases hm
      exact ⟨x.file, x.mask, List.mem_append_left _ (h.born w x hw), reported_append (h.src (d, ev) List.mem_cons_self w x hw hx) _⟩

/-- The kernel reports something to the watches of the file. -/
theorem pend_report {kernel : List KWatch} (hn : kernel.Pairwise (fun a b => a.wd ≠ b.wd ∧ a.file ≠ b.file)) (p : KWatch → Bool) (ev : Ev) (d : Nat) :
    (∀ k ∈ kernel, k.wd = d → pend d ((kernel.filter p).map (fun k => (k.wd, ev))) = if p k then [ev] else []) ∧
    ((∀ k ∈ kernel, k.wd ≠ d) → pend d ((kernel.filter p).map (fun k => (k.wd, ev))) = []) := by
  have h2 : ∀ l : List KWatch, (∀ k ∈ l, k.wd ≠ d) → pend d ((l.filter p).map (fun k => (k.wd, ev))) = [] := by
    intro l hl
    apply pend_none
    intro q hq
    obtain ⟨k, hk, rfl⟩ := List.mem_map.1 hq
    exact hl k (List.mem_filter.1 hk).1
  refine ⟨?_, h2 kernel⟩
  induction kernel with
  | nil => intro k hk; cases hk
  | cons a t ih =>
    rw [List.pairwise_cons] at hn
    intro k hk hkd
    rcases List.mem_cons.1 hk with rfl | hk
    · have hrest := h2 t (fun j hj => by rw [← hkd]; exact (hn.1 j hj).1.symm)
      rw [List.filter_cons]
      by_cases hp : p k = true
      · rw [if_pos hp, if_pos hp, List.map_cons, pend_cons, if_pos hkd, hrest]
      · rw [if_neg hp, if_neg hp, hrest]
    · have hne : a.wd ≠ d := by rw [← hkd]; exact (hn.1 k hk).1
      have := ih hn.2 k hk hkd
      rw [List.filter_cons]
      by_cases hp : p a = true
      · rw [if_pos hp, List.map_cons, pend_cons, if_neg hne]
        exact this
      · rw [if_neg hp]
        exact this

theorem hist_happen {Q : Nat → Prop} {b : List (Nat × Ev)} {s : State} (h : Hist Q b s) (file : Nat) (ev : Ev) : Hist Q b (happen s file ev) := by
  have hdl : ∀ v, delivered v (s.log ++ [.happened file ev]) = delivered v s.log := fun v => by
    rw [delivered_append]
    exact List.append_nil _
  have ht : ∀ v, track v (s.log ++ [.happened file ev]) = track1 v (track v s.log) (.happened file ev) := fun v => track_append v s.log [_]
  have hnone : ∀ v, (track v s.log).1 = none → track v (s.log ++ [.happened file ev]) = track v s.log := by
    intro v hv
    rw [ht, track1, hv]
  have h1 : ∀ v, (track v (s.log ++ [.happened file ev])).1 = (track v s.log).1 := by
    intro v
    rw [ht, track1]
    split
    · split <;> rfl
    · rfl
  unfold happen
  constructor
  · exact h.wd1
  · exact h.wdK
  · exact h.nodup
  · intro p hp
    rw [← List.append_assoc] at hp
    rcases List.mem_append.1 hp with hp | hp
    · exact h.wdQ p hp
    · obtain ⟨k, hk, rfl⟩ := List.mem_map.1 hp
      exact (h.wdK k (List.mem_filter.1 hk).1).2
  · exact h.wdLt
  · exact h.same
  · exact h.wdT
  · exact h.keys
  · exact h.kern
  · intro v y; dsimp only; rw [h1]; exact h.act v y
  · intro v y d; dsimp only; rw [h1]; exact h.live v y d
  · intro v y d hv hy hq
    dsimp only at hv ⊢
    rw [hdl, ← List.append_assoc, pend_append, ← List.append_assoc, h.deliv v y d hv hy hq]
    obtain ⟨r1, r2⟩ := pend_report h.nodup (fun k => decide (k.file = file ∧ ev.mask &&& k.mask ≠ 0)) ev d
    rcases h.live v y d hv hy hq with ⟨e1, e2⟩ | ⟨e1, e2⟩
    · rw [r1 _ e2 rfl, ht, track1, e1]
      dsimp only
      by_cases hc : y.file = file ∧ ev.mask &&& y.mask ≠ 0
      · rw [if_pos (by simpa using hc), if_pos hc]
      · rw [if_neg (by simpa using hc), if_neg hc, List.append_nil]
    · rw [r2 e2, hnone v e1, List.append_nil]
  · intro v y hv hy
    dsimp only at hv ⊢
    obtain ⟨e1, e2, e3⟩ := h.stop v y hv hy
    rw [hnone v e2, hdl]
    exact ⟨List.mem_append_left _ e1, e2, e3⟩
  · intro v hv
    obtain ⟨e1, e2⟩ := h.fresh v hv
    dsimp only
    rw [hnone v (by rw [e1]), hdl]
    exact ⟨e1, e2⟩
  · intro v f m hm
    rcases List.mem_append.1 hm with hm | hm
    · exact h.made v f m hm
    · simp at hm
  · exact fun v y hv => List.mem_append_left _ (h.born v y hv)
  · intro p hp v y hv hy
    rw [← List.append_assoc] at hp
    rcases List.mem_append.1 hp with hp | hp
    · exact reported_append (h.src p hp v y hv hy) _
    · obtain ⟨k, hk, rfl⟩ := List.mem_map.1 hp
      obtain ⟨hk, hc⟩ := List.mem_filter.1 hk
      have hc : k.file = file ∧ ev.mask &&& k.mask ≠ 0 := by simpa using hc
      obtain ⟨u, z, hu, z1, z2, z3⟩ := h.kern k hk ev.mask
      have hf : y.file = file := (h.same v u y z k.wd hv hu hy z1).trans (z2.trans hc.1)
      rw [hf]
      refine ⟨s.log, _, [], u, z.mask, rfl, ?_, .inl ⟨rfl, z3 hc.2⟩⟩
      rw [watching_eq, h.act u z hu ⟨k, hk, z1⟩, z2, hc.1]
  · exact sound_append h.sound (by simp)

theorem hist_vanish {Q : Nat → Prop} {b : List (Nat × Ev)} {s : State} (h : Hist Q b s) (file : Nat) : Hist Q b (vanish s file) := by
  have hdl : ∀ v, delivered v (s.log ++ [.vanished file]) = delivered v s.log := fun v => by
    rw [delivered_append]
    exact List.append_nil _
  have ht : ∀ v, track v (s.log ++ [.vanished file]) = track1 v (track v s.log) (.vanished file) := fun v => track_append v s.log [_]
  have hnone : ∀ v, (track v s.log).1 = none → track v (s.log ++ [.vanished file]) = track v s.log := by
    intro v hv
    rw [ht, track1, hv]
  unfold vanish
  constructor
  · exact h.wd1
  · exact fun k hk => h.wdK k (List.mem_filter.1 hk).1
  · exact h.nodup.sublist List.filter_sublist
  · intro p hp
    rw [← List.append_assoc] at hp
    rcases List.mem_append.1 hp with hp | hp
    · exact h.wdQ p hp
    · obtain ⟨k, hk, rfl⟩ := List.mem_map.1 hp
      exact (h.wdK k (List.mem_filter.1 hk).1).2
  · exact h.wdLt
  · exact h.same
  · exact h.wdT
  · exact h.keys
  · exact fun k hk => h.kern k (List.mem_filter.1 hk).1
  · rintro v y hv ⟨k, hk, hy⟩
    obtain ⟨hk, hne⟩ := List.mem_filter.1 hk
    have hne : k.file ≠ file := by simpa using hne
    obtain ⟨u, z, hu, z1, z2, z3⟩ := h.kern k hk 0
    have hf : y.file ≠ file := by rw [h.same v u y z k.wd hv hu hy z1, z2]; exact hne
    have := h.act v y hv ⟨k, hk, hy⟩
    dsimp only
    rw [ht, track1, this]
    dsimp only
    rw [if_neg hf]
    exact this
  · intro v y d hv hy hq
    dsimp only at hv ⊢
    rcases h.live v y d hv hy hq with ⟨e1, e2⟩ | ⟨e1, e2⟩
    · rw [ht, track1, e1]
      dsimp only
      by_cases hc : y.file = file
      · rw [if_pos hc]
        refine .inr ⟨rfl, fun k hk hkd => ?_⟩
        obtain ⟨hk, hne⟩ := List.mem_filter.1 hk
        have hne : k.file ≠ file := by simpa using hne
        obtain ⟨u, z, hu, z1, z2, z3⟩ := h.kern k hk 0
        have := h.same u v z y d hu hv (z1.trans (congrArg some hkd)) hy
        exact hne (z2.symm.trans (this.trans hc))
      · rw [if_neg hc]
        exact .inl ⟨e1, List.mem_filter.2 ⟨e2, by simpa using hc⟩⟩
    · rw [hnone v e1]
      exact .inr ⟨e1, fun k hk => e2 k (List.mem_filter.1 hk).1⟩
  · intro v y d hv hy hq
    dsimp only at hv ⊢
    rw [hdl, ← List.append_assoc, pend_append, ← List.append_assoc, h.deliv v y d hv hy hq]
    obtain ⟨r1, r2⟩ := pend_report h.nodup (fun k => decide (k.file = file)) ignored d
    rcases h.live v y d hv hy hq with ⟨e1, e2⟩ | ⟨e1, e2⟩
    · rw [r1 _ e2 rfl, ht, track1, e1]
      dsimp only
      by_cases hc : y.file = file
      · rw [if_pos (by simpa using hc), if_pos hc]
      · rw [if_neg (by simpa using hc), if_neg hc, List.append_nil]
    · rw [r2 e2, hnone v e1, List.append_nil]
  · intro v y hv hy
    dsimp only at hv ⊢
    obtain ⟨e1, e2, e3⟩ := h.stop v y hv hy
    rw [hnone v e2, hdl]
    exact ⟨List.mem_append_left _ e1, e2, e3⟩
  · intro v hv
    obtain ⟨e1, e2⟩ := h.fresh v hv
    dsimp only
    rw [hnone v (by rw [e1]), hdl]
    exact ⟨e1, e2⟩
  · intro v f m hm
    rcases List.mem_append.1 hm with hm | hm
    · exact h.made v f m hm
    · simp at hm
  · exact fun v y hv => List.mem_append_left _ (h.born v y hv)
  · intro p hp v y hv hy
    rw [← List.append_assoc] at hp
    rcases List.mem_append.1 hp with hp | hp
    · exact reported_append (h.src p hp v y hv hy) _
    · obtain ⟨k, hk, rfl⟩ := List.mem_map.1 hp
      obtain ⟨hk, hc⟩ := List.mem_filter.1 hk
      have hc : k.file = file := by simpa using hc
      obtain ⟨u, z, hu, z1, z2, z3⟩ := h.kern k hk 0
      have hf : y.file = file := (h.same v u y z k.wd hv hu hy z1).trans (z2.trans hc)
      rw [hf]
      refine ⟨s.log, _, [], u, z.mask, rfl, ?_, .inr ⟨rfl, .inl rfl⟩⟩
      rw [watching_eq, h.act u z hu ⟨k, hk, z1⟩, z2, hc]
  · exact sound_append h.sound (by simp)

theorem neutral_merged (file : Nat) (ev : Ev) : Neutral (.merged file ev) := ⟨fun _ _ => rfl, fun _ => rfl, by simp, by simp⟩
theorem neutral_lost (file : Nat) (ev : Ev) : Neutral (.lost file ev) := ⟨fun _ _ => rfl, fun _ => rfl, by simp, by simp⟩

theorem overflowed_eq (s : State) (file : Nat) : overflowed s file = s.queue ∨ overflowed s file = s.queue ++ [(0, overflow)] ∧ s.kernel ≠ [] := by
  unfold overflowed
  split
  · next h =>
    refine .inr ⟨rfl, fun hk => ?_⟩
    rw [hk] at h
    simp at h
  · exact .inl rfl

/-- The kernel has no more place in the queue. -/
theorem hist_queue {Q : Nat → Prop} {b : List (Nat × Ev)} {s : State} (h : Hist Q b s) {q : List (Nat × Ev)} (hq : q = s.queue ∨ q = s.queue ++ [(0, overflow)] ∧ 0 < s.nextWd) :
    Hist Q b { s with queue := q } := by
  rcases hq with rfl | ⟨rfl, hn⟩
  · exact h
  · refine ⟨h.wd1, h.wdK, h.nodup, ?_, h.wdLt, h.same, h.wdT, h.keys, h.kern, h.act, h.live, ?_, h.stop, h.fresh, h.made, h.born, ?_, h.sound⟩
    · intro p hp
      dsimp only at hp ⊢
      rw [← List.append_assoc] at hp
      rcases List.mem_append.1 hp with hp | hp
      · exact h.wdQ p hp
      · rw [List.mem_singleton] at hp
        subst hp
        exact hn
    · intro v y d hv hy hq
      dsimp only
      have := h.wdLt v y d hv hy
      rw [← List.append_assoc, pend_append, pend_none (l := [(0, overflow)]), List.append_nil]
      · exact h.deliv v y d hv hy hq
      · intro p hp
        rw [List.mem_singleton] at hp
        subst hp
        dsimp only
        omega
    · intro p hp v y hv hy
      dsimp only at hp
      rw [← List.append_assoc] at hp
      rcases List.mem_append.1 hp with hp | hp
      · exact h.src p hp v y hv hy
      · rw [List.mem_singleton] at hp
        subst hp
        have := h.wdLt v y 0 hv hy
        omega

theorem hist_overflow {Q : Nat → Prop} {b : List (Nat × Ev)} {s : State} (h : Hist Q b s) (file : Nat) : Hist Q b { s with queue := overflowed s file } := by
  refine hist_queue h ?_
  rcases overflowed_eq s file with e | ⟨e, hk⟩
  · exact .inl e
  · refine .inr ⟨e, ?_⟩
    obtain ⟨k, hk⟩ := List.exists_mem_of_ne_nil _ hk
    have := h.wdK k hk
    omega

theorem hist_lose {Q : Nat → Prop} {b : List (Nat × Ev)} {s : State} (h : Hist Q b s) (file : Nat) (ev : Ev) : Hist Q b (lose s file ev) :=
  hist_neutral (hist_overflow h file) (neutral_lost file ev)

theorem hist_vanishLost {Q : Nat → Prop} {b : List (Nat × Ev)} {s : State} (h : Hist Q b s) (file : Nat) : Hist Q b (vanishLost s file) := by
  have h := hist_overflow h file
  have e : vanishLost s file = { ({ s with queue := overflowed s file } : State) with
      kernel := s.kernel.filter (fun k => k.file ≠ file), log := s.log ++ [.vanishedLost file] } := rfl
  rw [e]
  generalize hs : ({ s with queue := overflowed s file } : State) = t at h
  have e1 : s.kernel = t.kernel := by rw [← hs]
  have e3 : s.log = t.log := by rw [← hs]
  rw [e1, e3]
  clear e e1 e3 hs
  have hdl : ∀ v, delivered v (t.log ++ [.vanishedLost file]) = delivered v t.log := fun v => by
    rw [delivered_append]
    exact List.append_nil _
  have ht : ∀ v, track v (t.log ++ [.vanishedLost file]) = track1 v (track v t.log) (.vanishedLost file) := fun v => track_append v t.log [_]
  have hnone : ∀ v, (track v t.log).1 = none → track v (t.log ++ [.vanishedLost file]) = track v t.log := by
    intro v hv
    rw [ht, track1, hv]
  have h2 : ∀ v, (track v (t.log ++ [.vanishedLost file])).2 = (track v t.log).2 := by
    intro v
    rw [ht, track1]
    split
    · split <;> rfl
    · rfl
  constructor
  · exact h.wd1
  · exact fun k hk => h.wdK k (List.mem_filter.1 hk).1
  · exact h.nodup.sublist List.filter_sublist
  · exact h.wdQ
  · exact h.wdLt
  · exact h.same
  · exact h.wdT
  · exact h.keys
  · exact fun k hk => h.kern k (List.mem_filter.1 hk).1
  · rintro v y hv ⟨k, hk, hy⟩
    obtain ⟨hk, hne⟩ := List.mem_filter.1 hk
    have hne : k.file ≠ file := by simpa using hne
    obtain ⟨u, z, hu, z1, z2, z3⟩ := h.kern k hk 0
    have hf : y.file ≠ file := by rw [h.same v u y z k.wd hv hu hy z1, z2]; exact hne
    have := h.act v y hv ⟨k, hk, hy⟩
    dsimp only
    rw [ht, track1, this]
    dsimp only
    rw [if_neg hf]
    exact this
  · intro v y d hv hy hq
    dsimp only at hv ⊢
    rcases h.live v y d hv hy hq with ⟨e1, e2⟩ | ⟨e1, e2⟩
    · rw [ht, track1, e1]
      dsimp only
      by_cases hc : y.file = file
      · rw [if_pos hc]
        refine .inr ⟨rfl, fun k hk hkd => ?_⟩
        obtain ⟨hk, hne⟩ := List.mem_filter.1 hk
        have hne : k.file ≠ file := by simpa using hne
        obtain ⟨u, z, hu, z1, z2, z3⟩ := h.kern k hk 0
        have := h.same u v z y d hu hv (z1.trans (congrArg some hkd)) hy
        exact hne (z2.symm.trans (this.trans hc))
      · rw [if_neg hc]
        exact .inl ⟨e1, List.mem_filter.2 ⟨e2, by simpa using hc⟩⟩
    · rw [hnone v e1]
      exact .inr ⟨e1, fun k hk => e2 k (List.mem_filter.1 hk).1⟩
  · intro v y d hv hy hq
    dsimp only at hv ⊢
    rw [hdl, h2]
    exact h.deliv v y d hv hy hq
  · intro v y hv hy
    dsimp only at hv ⊢
    obtain ⟨e1, e2, e3⟩ := h.stop v y hv hy
    rw [hnone v e2, hdl]
    exact ⟨List.mem_append_left _ e1, e2, e3⟩
  · intro v hv
    obtain ⟨e1, e2⟩ := h.fresh v hv
    dsimp only
    rw [hnone v (by rw [e1]), hdl]
    exact ⟨e1, e2⟩
  · intro v f m hm
    rcases List.mem_append.1 hm with hm | hm
    · exact h.made v f m hm
    · simp at hm
  · exact fun v y hv => List.mem_append_left _ (h.born v y hv)
  · exact fun p hp v y hv hy => reported_append (h.src p hp v y hv hy) _
  · exact sound_append h.sound (by simp)

theorem push_key {l : List Watch} {a : Watch} (v : Nat) (y : Watch) (hv : (l ++ [a])[v]? = some y) : v = l.length ∧ y = a ∨ v < l.length ∧ l[v]? = some y := by
  rw [List.getElem?_append] at hv
  split at hv
  · next hlt => exact .inr ⟨hlt, hv⟩
  · next hge =>
    have h0 : v - l.length = 0 := by
      have := (List.getElem?_eq_some_iff.1 hv).1
      simp at this
      omega
    rw [h0] at hv
    cases hv
    exact .inl ⟨by omega, rfl⟩

theorem keys_insert {t : List (Nat × Nat)} (h : (t.map (·.1)).Nodup) (d w : Nat) : ((tableInsert t d w).map (·.1)).Nodup := by
  dsimp only [tableInsert]
  rw [List.map_cons, List.nodup_cons]
  refine ⟨?_, h.sublist (List.Sublist.map _ List.filter_sublist)⟩
  intro hm
  obtain ⟨⟨d, w⟩, hm, e⟩ := List.mem_map.1 hm
  have := (List.mem_filter.1 hm).2
  simp at this
  exact this e

/-- Creation of a watch of a file which isn't being watched, `i` being the instance -/
theorem hist_new {Q : Nat → Prop} {b : List (Nat × Ev)} {s : State} {i : Inst} (h : Hist Q b s) (hi : s.inst = some i) (file : Nat) (mask : BitVec 32)
    (hnew : ∀ k ∈ s.kernel, k.file ≠ file) :
    Hist Q b { s with inst := some { i with table := tableInsert i.table s.nextWd s.watches.length },
                      kernel := s.kernel ++ [⟨s.nextWd, file, mask⟩], nextWd := s.nextWd + 1,
                      watches := s.watches ++ [⟨i.id, file, mask, some s.nextWd, 1, 1⟩], log := s.log ++ [.created s.watches.length file mask] } := by
  have hdl : ∀ v, delivered v (s.log ++ [.created s.watches.length file mask]) = delivered v s.log := fun v => by
    rw [delivered_append]
    exact List.append_nil _
  have ht : ∀ v, track v (s.log ++ [.created s.watches.length file mask]) =
      if s.watches.length = v then (some (file, mask), (track v s.log).2) else track v s.log := fun v => track_append v s.log [_]
  have key := @push_key s.watches ⟨i.id, file, mask, some s.nextWd, 1, 1⟩
  have hold : ∀ (v : Nat) (y : Watch), s.watches[v]? = some y → (s.watches ++ [⟨i.id, file, mask, some s.nextWd, 1, 1⟩])[v]? = some y := by
    intro v y hv
    rw [List.getElem?_append, if_pos (lt_of_some hv)]
    exact hv
  constructor
  · exact Nat.succ_pos _
  · intro k hk
    dsimp only
    rcases List.mem_append.1 hk with hk | hk
    · have := h.wdK k hk
      omega
    · rw [List.mem_singleton] at hk
      subst hk
      have := h.wd1
      dsimp only
      omega
  · rw [List.pairwise_append]
    refine ⟨h.nodup, List.pairwise_singleton _ _, fun k hk j hj => ?_⟩
    rw [List.mem_singleton] at hj
    subst hj
    have := h.wdK k hk
    exact ⟨by dsimp only; omega, hnew k hk⟩
  · intro p hp
    have := h.wdQ p hp
    dsimp only
    omega
  · intro v y d hv hy
    dsimp only
    rcases key v y hv with ⟨e1, rfl⟩ | ⟨hlt, hv⟩
    · cases hy
      have := h.wd1
      omega
    · have := h.wdLt v y d hv hy
      omega
  · intro v u y z d hv hu hy hz
    rcases key v y hv with ⟨_, rfl⟩ | ⟨_, hv⟩ <;> rcases key u z hu with ⟨_, rfl⟩ | ⟨_, hu⟩
    · rfl
    · cases hy
      have := h.wdLt u z _ hu hz
      omega
    · cases hz
      have := h.wdLt v y _ hv hy
      omega
    · exact h.same v u y z d hv hu hy hz
  · intro v y d hv hy hq
    dsimp only
    rcases key v y hv with ⟨e1, e2⟩ | ⟨hlt, hv⟩
    · subst e2
      cases hy
      exact ⟨_, rfl, by rw [e1]; exact List.mem_cons_self⟩
    · obtain ⟨j, hj, hm⟩ := h.wdT v y d hv hy hq
      rw [hi] at hj
      cases hj
      refine ⟨_, rfl, List.mem_cons_of_mem _ (List.mem_filter.2 ⟨hm, ?_⟩)⟩
      have := h.wdLt v y d hv hy
      have : d ≠ s.nextWd := by omega
      simpa using this
  · rintro j ⟨⟩
    exact keys_insert (h.keys i hi) _ _
  · intro k hk e
    dsimp only
    rcases List.mem_append.1 hk with hk | hk
    · obtain ⟨v, y, hv, e⟩ := h.kern k hk e
      exact ⟨v, y, hold v y hv, e⟩
    · rw [List.mem_singleton] at hk
      subst hk
      exact ⟨s.watches.length, ⟨i.id, file, mask, some s.nextWd, 1, 1⟩, by simp, rfl, rfl, id⟩
  · rintro v y hv ⟨k, hk, hy⟩
    dsimp only at hv ⊢
    rw [ht]
    rcases key v y hv with ⟨e1, rfl⟩ | ⟨hlt, hv⟩
    · rw [if_pos e1.symm]
    · rw [if_neg (by omega)]
      rcases List.mem_append.1 hk with hk | hk
      · exact h.act v y hv ⟨k, hk, hy⟩
      · rw [List.mem_singleton] at hk
        subst hk
        have := h.wdLt v y _ hv hy
        dsimp only at this
        omega
  · intro v y d hv hy hq
    dsimp only at hv ⊢
    rw [ht]
    rcases key v y hv with ⟨e1, e2⟩ | ⟨hlt, hv⟩
    · subst e2
      cases hy
      rw [if_pos e1.symm]
      exact .inl ⟨rfl, List.mem_append_right _ (List.mem_singleton.2 rfl)⟩
    · rw [if_neg (by omega)]
      rcases h.live v y d hv hy hq with ⟨e1, e2⟩ | ⟨e1, e2⟩
      · exact .inl ⟨e1, List.mem_append_left _ e2⟩
      · refine .inr ⟨e1, fun k hk => ?_⟩
        rcases List.mem_append.1 hk with hk | hk
        · exact e2 k hk
        · rw [List.mem_singleton] at hk
          subst hk
          have := h.wdLt v y d hv hy
          dsimp only
          omega
  · intro v y d hv hy hq
    dsimp only at hv ⊢
    rw [ht, hdl]
    rcases key v y hv with ⟨e1, e2⟩ | ⟨hlt, hv⟩
    · subst e2
      cases hy
      obtain ⟨f1, f2⟩ := h.fresh v (by omega)
      rw [if_pos e1.symm, f1, f2, pend_none (fun p hp => by have := h.wdQ p hp; omega)]
      rfl
    · rw [if_neg (by omega)]
      exact h.deliv v y d hv hy hq
  · intro v y hv hy
    dsimp only at hv ⊢
    rw [ht, hdl]
    rcases key v y hv with ⟨e1, e2⟩ | ⟨hlt, hv⟩
    · subst e2
      cases hy
    · rw [if_neg (by omega)]
      obtain ⟨h1, h2, h3⟩ := h.stop v y hv hy
      exact ⟨List.mem_append_left _ h1, h2, h3⟩
  · intro v hv
    dsimp only at hv ⊢
    rw [List.length_append, List.length_singleton] at hv
    rw [ht, hdl, if_neg (by omega)]
    exact h.fresh v (by omega)
  · intro v f m hm
    rcases List.mem_append.1 hm with hm | hm
    · obtain ⟨y, hy, e⟩ := h.made v f m hm
      exact ⟨y, hold v y hy, e⟩
    · rw [List.mem_singleton] at hm
      cases hm
      exact ⟨⟨i.id, file, mask, some s.nextWd, 1, 1⟩, by simp, rfl, rfl⟩
  · intro v y hv
    rcases key v y hv with ⟨e1, rfl⟩ | ⟨hlt, hv⟩
    · rw [e1]
      exact List.mem_append_right _ (List.mem_singleton.2 rfl)
    · exact List.mem_append_left _ (h.born v y hv)
  · intro p hp v y hv hy
    rcases key v y hv with ⟨e1, rfl⟩ | ⟨hlt, hv⟩
    · have := h.wdQ p hp
      have hy : s.nextWd = p.1 := by injection hy
      omega
    · exact reported_append (h.src p hp v y hv hy) _
  · exact sound_append h.sound (by simp)

/-- Creation of a watch of a file which is being watched already; the kernel returns the same descriptor and replaces the mask. -/
theorem hist_join {Q : Nat → Prop} {b : List (Nat × Ev)} {s : State} {i : Inst} (h : Hist Q b s) (hi : s.inst = some i) (mask : BitVec 32) {k : KWatch}
    (hk : k ∈ s.kernel) (hq : ¬ Q k.file) :
    Hist Q b { s with inst := some { i with table := tableInsert i.table k.wd s.watches.length },
                      kernel := s.kernel.map (fun x => if x.wd = k.wd then { x with mask := newMask x.mask mask } else x),
                      watches := s.watches ++ [⟨i.id, k.file, mask, some k.wd, 1, 1⟩], log := s.log ++ [.created s.watches.length k.file mask] } := by
  have hdl : ∀ v, delivered v (s.log ++ [.created s.watches.length k.file mask]) = delivered v s.log := fun v => by
    rw [delivered_append]
    exact List.append_nil _
  have ht : ∀ v, track v (s.log ++ [.created s.watches.length k.file mask]) =
      if s.watches.length = v then (some (k.file, mask), (track v s.log).2) else track v s.log := fun v => track_append v s.log [_]
  have key := @push_key s.watches ⟨i.id, k.file, mask, some k.wd, 1, 1⟩
  have hold : ∀ (v : Nat) (y : Watch), s.watches[v]? = some y → (s.watches ++ [⟨i.id, k.file, mask, some k.wd, 1, 1⟩])[v]? = some y := by
    intro v y hv
    rw [List.getElem?_append, if_pos (lt_of_some hv)]
    exact hv
  obtain ⟨u, z, hu, z1, z2, z3⟩ := h.kern k hk 0
  -- the file of the watches which have the same descriptor
  have hfile : ∀ (v : Nat) (y : Watch), s.watches[v]? = some y → y.wd = some k.wd → y.file = k.file :=
    fun v y hv hy => (h.same v u y z k.wd hv hu hy z1).trans z2
  have hne : ∀ (v : Nat) (y : Watch) (d : Nat), s.watches[v]? = some y → y.wd = some d → Q y.file → d ≠ k.wd := by
    intro v y d hv hy hqy e
    rw [hfile v y hv (e ▸ hy)] at hqy
    exact hq hqy
  have hmem : ∀ j, j ∈ s.kernel.map (fun x => if x.wd = k.wd then { x with mask := newMask x.mask mask } else x) → ∃ j' ∈ s.kernel, j'.wd = j.wd ∧ j'.file = j.file ∧
      (j'.wd ≠ k.wd → j = j') ∧ (j'.wd = k.wd → j.mask = newMask j'.mask mask) := by
    intro j hj
    obtain ⟨j', hj', rfl⟩ := List.mem_map.1 hj
    refine ⟨j', hj', ?_⟩
    by_cases hc : j'.wd = k.wd
    · rw [if_pos hc]
      exact ⟨rfl, rfl, fun h => absurd hc h, fun _ => rfl⟩
    · rw [if_neg hc]
      exact ⟨rfl, rfl, fun _ => rfl, fun h => absurd h hc⟩
  constructor
  · exact h.wd1
  · intro j hj
    obtain ⟨j', hj', e, _⟩ := hmem j hj
    rw [← e]
    exact h.wdK j' hj'
  · rw [List.pairwise_map]
    refine h.nodup.imp ?_
    intro a c hac
    have hf : ∀ x : KWatch, (if x.wd = k.wd then { x with mask := newMask x.mask mask } else x).wd = x.wd ∧ (if x.wd = k.wd then { x with mask := newMask x.mask mask } else x).file = x.file := by
      intro x
      split <;> exact ⟨rfl, rfl⟩
    rw [(hf a).1, (hf a).2, (hf c).1, (hf c).2]
    exact hac
  · exact h.wdQ
  · intro v y d hv hy
    rcases key v y hv with ⟨e1, rfl⟩ | ⟨hlt, hv⟩
    · cases hy
      exact h.wdK k hk
    · exact h.wdLt v y d hv hy
  · intro v u y z d hv hu hy hz
    rcases key v y hv with ⟨_, rfl⟩ | ⟨_, hv⟩ <;> rcases key u z hu with ⟨_, rfl⟩ | ⟨_, hu⟩
    · rfl
    · cases hy
      exact (hfile u z hu hz).symm
    · cases hz
      exact hfile v y hv hy
    · exact h.same v u y z d hv hu hy hz
  · intro v y d hv hy hqy
    dsimp only
    rcases key v y hv with ⟨e1, rfl⟩ | ⟨hlt, hv⟩
    · exact absurd hqy hq
    · obtain ⟨j, hj, hm⟩ := h.wdT v y d hv hy hqy
      rw [hi] at hj
      cases hj
      refine ⟨_, rfl, List.mem_cons_of_mem _ (List.mem_filter.2 ⟨hm, ?_⟩)⟩
      simpa using hne v y d hv hy hqy
  · rintro j ⟨⟩
    exact keys_insert (h.keys i hi) _ _
  · intro j hj e
    obtain ⟨j', hj', e1, e2, e3, e4⟩ := hmem j hj
    by_cases hc : j'.wd = k.wd
    · obtain ⟨v, y, hv, y1, y2, y3⟩ := h.kern j' hj' e
      have hjk : j'.file = k.file := y2.symm.trans (hfile v y hv (hc ▸ y1))
      by_cases hm : e &&& mask = 0
      · refine ⟨v, y, hold v y hv, e1 ▸ y1, e2 ▸ y2, ?_⟩
        rw [e4 hc]
        unfold newMask
        split
        · intro hne
          refine y3 fun h0 => hne ?_
          rw [BitVec.and_or_distrib_left, h0, hm]
          rfl
        · exact fun hne => absurd hm hne
      · exact ⟨s.watches.length, ⟨i.id, k.file, mask, some k.wd, 1, 1⟩, by simp, by rw [← e1, hc], by rw [← e2, hjk], fun _ => hm⟩
    · obtain ⟨v, y, hv, e⟩ := h.kern j' hj' e
      rw [e3 hc]
      exact ⟨v, y, hold v y hv, e⟩
  · rintro v y hv ⟨j, hj, hy⟩
    dsimp only at hv ⊢
    rw [ht]
    rcases key v y hv with ⟨e1, rfl⟩ | ⟨hlt, hv⟩
    · rw [if_pos e1.symm]
    · rw [if_neg (by omega)]
      obtain ⟨j', hj', e1, _⟩ := hmem j hj
      exact h.act v y hv ⟨j', hj', hy.trans (congrArg some e1.symm)⟩
  · intro v y d hv hy hqy
    dsimp only at hv ⊢
    rw [ht]
    rcases key v y hv with ⟨e1, rfl⟩ | ⟨hlt, hv⟩
    · exact absurd hqy hq
    · rw [if_neg (by omega)]
      rcases h.live v y d hv hy hqy with ⟨e1, e2⟩ | ⟨e1, e2⟩
      · refine .inl ⟨e1, List.mem_map.2 ⟨_, e2, ?_⟩⟩
        rw [if_neg (hne v y d hv hy hqy)]
      · refine .inr ⟨e1, fun j hj => ?_⟩
        obtain ⟨j', hj', e, _⟩ := hmem j hj
        rw [← e]
        exact e2 j' hj'
  · intro v y d hv hy hqy
    dsimp only at hv ⊢
    rw [ht, hdl]
    rcases key v y hv with ⟨e1, rfl⟩ | ⟨hlt, hv⟩
    · exact absurd hqy hq
    · rw [if_neg (by omega)]
      exact h.deliv v y d hv hy hqy
  · intro v y hv hy
    dsimp only at hv ⊢
    rw [ht, hdl]
    rcases key v y hv with ⟨e1, rfl⟩ | ⟨hlt, hv⟩
    · cases hy
    · rw [if_neg (by omega)]
      obtain ⟨h1, h2, h3⟩ := h.stop v y hv hy
      exact ⟨List.mem_append_left _ h1, h2, h3⟩
  · intro v hv
    dsimp only at hv ⊢
    rw [List.length_append, List.length_singleton] at hv
    rw [ht, hdl, if_neg (by omega)]
    exact h.fresh v (by omega)
  · intro v f m hm
    rcases List.mem_append.1 hm with hm | hm
    · obtain ⟨y, hy, e⟩ := h.made v f m hm
      exact ⟨y, hold v y hy, e⟩
    · rw [List.mem_singleton] at hm
      cases hm
      exact ⟨⟨i.id, k.file, mask, some k.wd, 1, 1⟩, by simp, rfl, rfl⟩
  · intro v y hv
    rcases key v y hv with ⟨e1, rfl⟩ | ⟨hlt, hv⟩
    · rw [e1]
      exact List.mem_append_right _ (List.mem_singleton.2 rfl)
    · exact List.mem_append_left _ (h.born v y hv)
  · intro p hp v y hv hy
    rcases key v y hv with ⟨e1, rfl⟩ | ⟨hlt, hv⟩
    · have := h.src p hp u z hu (z1.trans hy)
      rw [z2] at this
      exact reported_append this _
    · exact reported_append (h.src p hp v y hv hy) _
  · exact sound_append h.sound (by simp)

end Verif.Inotify
