import Verif.Proof.ObjvCb

namespace Verif.ObjvCb
open Verif.C Verif.Objv
open Verif.Strv.Spec (Holds firstIndex lastIndex)
open Verif.Strv (mk mk_length mk_cons mk_nil deref_mk drop_map_ptr lastIndex_ge lastIndex_neg lastIndex_spec filter_eraseIdx firstIndex_lt
  firstIndex_neg firstIndex_spec)
open Verif.Objv.Spec (Op Accounted Covered)

/-- The vector number `v` is being changed by the function which is running. -/
structure Mid (N : Nat) (s : State) (t : SState) (A : Nat → Option Nat) (E : Nat → List Nat) (v : Nat) : Prop where
  core : Core N s t A E (v :: busy s.stack)
  nodup : (v :: busy s.stack).Nodup
  frames : ∀ f ∈ s.stack, FrameOk s t A E f
  held : ∀ f ∈ s.stack, Held s f

theorem Mid.step {N : Nat} {s s' : State} {t t' : SState} {A A' : Nat → Option Nat} {E E' : Nat → List Nat} {v : Nat}
    (h : Mid N s t A E v) (hc : Core N s' t' A' E' (v :: busy s.stack)) (ha : Apart s s' t t' A A' E E' v) (hs : s'.stack = s.stack) :
    Mid N s' t' A' E' v :=
  ⟨by rw [hs]; exact hc, by rw [hs]; exact h.nodup, by rw [hs]; exact ha.frames (List.nodup_cons.mp h.nodup).1 h.frames,
    by rw [hs]; exact ha.allHeld (List.nodup_cons.mp h.nodup).1 h.frames h.held⟩

theorem Mid.push {N : Nat} {s : State} {t : SState} {A : Nat → Option Nat} {E : Nat → List Nat} {v : Nat}
    (h : Mid N s t A E v) {f : Frame} (hf : FrameOk s t A E f) (hh : Held s f) (hb : busy [f] = [v]) :
    Inv N { s with stack := f :: s.stack } t A E := by
  have hbusy : busy (f :: s.stack) = v :: busy s.stack := by rw [busy_cons, hb]; rfl
  have key : ∀ g, FrameOk s t A E g → FrameOk { s with stack := f :: s.stack } t A E g := by
    intro g hg
    cases g <;> exact hg
  have key' : ∀ g, Held s g → Held { s with stack := f :: s.stack } g := by
    intro g hg
    cases g <;> exact hg
  refine ⟨core_stack _ ?_, ?_, ?_, ?_⟩
  · show Core N s t A E (busy (f :: s.stack))
    rw [hbusy]; exact h.core
  · show (busy (f :: s.stack)).Nodup
    rw [hbusy]; exact h.nodup
  · intro g hg
    rcases List.mem_cons.mp hg with rfl | hg
    · exact key _ hf
    · exact key _ (h.frames g hg)
  · intro g hg
    rcases List.mem_cons.mp hg with rfl | hg
    · exact key' _ hh
    · exact key' _ (h.held g hg)

theorem Mid.done {N : Nat} {s : State} {t : SState} {A : Nat → Option Nat} {E : Nat → List Nat} {v : Nat} {a : Option Nat}
    (h : Mid N s t A E v) (ha : A v = a) (hl : Lives s (A v) (E v)) (he : E v = t.vec v) :
    Inv N { s with vars := s.vars.set v a } t A E := by
  subst ha
  have hap : Apart s { s with vars := s.vars.set v (A v) } t t A A E E v :=
    ⟨fun _ _ => rfl, fun _ _ => rfl, fun _ _ => rfl, fun _ _ _ _ => rfl,
      fun w hw => by show (s.vars.set v (A v))[w]?.getD none = _; rw [List.getElem?_set_ne (Ne.symm hw)], fun _ h => h, fun _ h => h⟩
  exact ⟨core_assign h.core hl he, (List.nodup_cons.mp h.nodup).2, hap.frames (List.nodup_cons.mp h.nodup).1 h.frames,
    hap.allHeld (List.nodup_cons.mp h.nodup).1 h.frames h.held⟩

theorem mk_ptr {os : List Nat} {i : Nat} (n : Nat) (h : i < os.length) : (mk os n)[i]? = some (.ptr os[i]) := by
  unfold mk
  rw [List.getElem?_append_left (by simpa using h), List.getElem?_map, List.getElem?_eq_getElem h]
  rfl

/-- A reference is dropped, the pointer is the same. -/
theorem stale_same {s s' : State} {v a : Nat} (h : Stale s v a) (hb : s'.blocks = s.blocks) (hv : s'.vars = s.vars) : Stale s' v a := by
  unfold Stale at *
  rw [hb, hv]
  exact h

/-- The vector has been moved. -/
theorem stale_moved {s s' : State} {v a a' : Nat} (h : Stale s v a) (hg : s'.blocks[a]? = some none)
    (hk : ∀ c : Nat, s.blocks[c]? = some none → s'.blocks[c]? = some none) (hv : s'.vars = s.vars) : Stale s' v a' := by
  unfold Stale at *
  rw [hv]
  rcases h with e | ⟨c, e, g⟩
  · exact .inr ⟨a, e, hg⟩
  · exact .inr ⟨c, e, hk c g⟩

/-- `gutil_objv_free` -/
theorem freeLoop_inv {N : Nat} {t : SState} {v a : Nat} : ∀ (k : Nat) {s : State} {A : Nat → Option Nat} {E : Nat → List Nat} {os : List Nat}
    {n i : Nat}, Mid N s t A E v → Stale s v a → A v = some a → t.vec v = [] → s.blocks[a]? = some (some (mk os n)) → i ≤ os.length → E v = os.drop i →
    os.length - i = k → ∃ s' A' E', freeLoop s v a i (mk (os.drop i) n) = .ok s' ∧ Inv N s' t A' E'
  | 0, s, A, E, os, n, i, h, hq, ha, ht, hb, hi, he, hk => by
    have hd : os.drop i = [] := List.drop_of_length_le (by omega)
    rw [hd, mk_nil, freeLoop, load, ok_bind]
    dsimp only
    obtain ⟨s1, h1, h2, h3, h4, h5⟩ := core_forget h.core List.mem_cons_self ha
    have hm : Mid N s1 t (upd A v none) E v := h.step h2 h3 h4
    rw [h1, ok_bind]
    refine ⟨_, _, _, rfl, hm.done (upd_self A v none) ?_ ?_⟩
    · rw [upd_self, he, hd]; exact rfl
    · rw [he, hd, ht]
  | k + 1, s, A, E, os, n, i, h, hq, ha, ht, hb, hi, he, hk => by
    have hlt : i < os.length := by omega
    have hd : os.drop i = os[i] :: os.drop (i + 1) := List.drop_eq_getElem_cons hlt
    rw [hd, mk_cons, freeLoop, load, ok_bind]
    dsimp only
    obtain ⟨s1, called, h1, h2, h3, h4, h5, h6, h7⟩ := core_drop (x := os[i]) (l := os.drop (i + 1)) h.core List.mem_cons_self
      (by intro y; rw [he, hd, count_cons'])
      (by intro y; rw [ht, List.count_nil]; omega)
    have hm := h.step h2 h3 h6
    have hq1 := stale_same hq h4 h5
    rw [h1, ok_bind]
    dsimp only
    have hb1 : s1.blocks[a]? = some (some (mk os n)) := by rw [h4]; exact hb
    cases called with
    | true => exact ⟨_, _, _, rfl, hm.push ⟨ha, ht, os, n, hb1, by omega, upd_self E v _⟩
        ⟨hq1, mk os n, os[i], hb1, by omega, mk_ptr n hlt, h7 rfl⟩ rfl⟩
    | false =>
      rw [if_neg (by decide)]
      exact freeLoop_inv k hm hq1 ha ht hb1 (by omega) (upd_self E v _) (by omega)

theorem count_filter_le (p : Nat → Bool) (l : List Nat) (x : Nat) : (l.filter p).count x ≤ l.count x :=
  (List.filter_sublist (l := l) (p := p)).count_le x

/-- What remains after removing the last of matching objects -/
theorem last_facts {o pos l i : Nat} {os : List Nat} (hpl : pos + l ≤ os.length)
    (hpre : ∀ a ∈ os.take pos, decide (a = o) = false) (hpost : ∀ a ∈ os.drop (pos + l), decide (a = o) = false)
    (hi : lastIndex (fun a => decide (a = o)) ((os.drop pos).take l) = i) :
    i < l ∧ (os.eraseIdx (pos + i)).filter (fun a => decide (a ≠ o)) = os.filter (fun a => decide (a ≠ o)) ∧
      (os.eraseIdx (pos + i)).length = os.length - 1 ∧
      (∀ a ∈ (os.eraseIdx (pos + i)).take pos, decide (a = o) = false) ∧
      ∀ a ∈ (os.eraseIdx (pos + i)).drop (pos + i), decide (a = o) = false := by
  obtain ⟨⟨x, hx, hxm⟩, hafter⟩ := lastIndex_spec hi
  have hil : i < l := by
    have := (List.getElem?_eq_some_iff.1 hx).1
    rw [List.length_take] at this
    omega
  have hk : pos + i < os.length := by omega
  have hxk : os[pos + i] = x := by
    rw [List.getElem?_take, if_pos hil, List.getElem?_drop, List.getElem?_eq_getElem hk] at hx
    exact Option.some.inj hx
  have hlen : (os.eraseIdx (pos + i)).length = os.length - 1 := by
    rw [List.length_eraseIdx, if_pos hk]
  have etake : (os.eraseIdx (pos + i)).take pos = os.take pos := by
    rw [List.eraseIdx_eq_take_drop_succ, List.take_append_of_le_length (by rw [List.length_take]; omega),
      List.take_take, Nat.min_eq_left (by omega)]
  have edrop : (os.eraseIdx (pos + i)).drop (pos + i) = os.drop (pos + i + 1) := by
    rw [List.eraseIdx_eq_take_drop_succ, List.drop_append_of_le_length (by rw [List.length_take]; omega),
      List.drop_of_length_le (by rw [List.length_take]; omega)]
    simp
  refine ⟨hil, filter_eraseIdx hk (by rw [hxk]; simpa using hxm), hlen, by rw [etake]; exact hpre, ?_⟩
  intro a ha
  rw [edrop] at ha
  have ha' : a ∈ (os.drop pos).drop (i + 1) := by
    rw [List.drop_drop]; exact ha
  rw [← List.take_append_drop l (os.drop pos), List.drop_append_of_le_length
    (by rw [List.length_take, List.length_drop]; omega), List.mem_append] at ha'
  rcases ha' with ha' | ha'
  · exact hafter a ha'
  · rw [List.drop_drop] at ha'
    exact hpost a ha'

/-- The loop in `gutil_objv_remove` -/
theorem removeLoop_inv {N : Nat} {t : SState} {v o pos : Nat} : ∀ (fuel : Nat) {s : State} {A : Nat → Option Nat} {E : Nat → List Nat}
    {os : List Nat} {n a l : Nat}, Mid N s t A E v → Stale s v a → A v = some a → s.blocks[a]? = some (some (mk os n)) → E v = os →
    t.vec v = os.filter (fun a => decide (a ≠ o)) → l < fuel → pos + l ≤ os.length → (∀ a ∈ os.take pos, decide (a = o) = false) →
    (∀ a ∈ os.drop (pos + l), decide (a = o) = false) →
    ∃ s' A' E', removeLoop v pos o fuel s a os.length l = .ok s' ∧ Inv N s' t A' E'
  | 0, _, _, _, _, _, _, _, _, _, _, _, _, _, hf, _, _, _ => by omega
  | fuel + 1, s, A, E, os, n, a, l, h, hq, ha, hb, he, ht, hf, hpl, hpre, hpost => by
    rw [removeLoop, block_ok hb, ok_bind, findLastImpl_mk os n pos l hpl, ok_bind]
    have hge := lastIndex_ge (p := fun a => decide (a = o)) (l := (os.drop pos).take l)
    by_cases h0 : lastIndex (fun a => decide (a = o)) ((os.drop pos).take l) < 0
    · rw [if_neg (by omega)]
      have hall : ∀ a ∈ os, decide (a = o) = false := by
        intro a ha
        rw [← List.take_append_drop pos os, List.mem_append] at ha
        rcases ha with ha | ha
        · exact hpre a ha
        · rw [← List.take_append_drop l (os.drop pos), List.mem_append, List.drop_drop] at ha
          rcases ha with ha | ha
          · exact lastIndex_neg.1 h0 a ha
          · exact hpost a ha
      have hfl : os.filter (fun a => decide (a ≠ o)) = os :=
        List.filter_eq_self.2 (fun a ha => by simpa using hall a ha)
      refine ⟨_, A, E, rfl, h.done ha ?_ (by rw [he, ht, hfl])⟩
      rw [ha, he]; exact ⟨n, hb⟩
    · rw [if_pos (by omega)]
      obtain ⟨i, hi⟩ : ∃ i : Nat, lastIndex (fun a => decide (a = o)) ((os.drop pos).take l) = i :=
        ⟨_, (Int.toNat_of_nonneg (by omega)).symm⟩
      obtain ⟨hil, efil, hlen, htk, hdr⟩ := last_facts hpl hpre hpost hi
      have hk : pos + i < os.length := by omega
      rw [hi, Int.toNat_natCast, deref_mk os n (pos + i) hk, ok_bind]
      dsimp only
      obtain ⟨s1, called, h1, h2, h3, h4, h5, h6, h7⟩ := core_drop (x := os[pos + i]) (l := os.eraseIdx (pos + i)) h.core List.mem_cons_self
        (by intro y; rw [he]; exact count_eraseIdx hk y)
        (by intro y; rw [ht, ← efil]; exact count_filter_le _ _ y)
      have hm := h.step h2 h3 h6
      have hq1 := stale_same hq h4 h5
      rw [h1, ok_bind]
      dsimp only
      have hb1 : s1.blocks[a]? = some (some (mk os n)) := by rw [h4]; exact hb
      have he1 : upd E v (os.eraseIdx (pos + i)) v = os.eraseIdx (pos + i) := upd_self E v _
      cases called with
      | true =>
        rw [if_pos rfl]
        refine ⟨_, _, _, rfl, hm.push ⟨ha, os, n, hb1, rfl, hk, he1, ?_⟩
          ⟨hq1, mk os n, os[pos + i], hb1, mk_ptr n hk, h7 rfl⟩ rfl⟩
        dsimp only
        rw [he1, efil]
        exact ⟨ht, by omega, htk, hdr⟩
      | false =>
        rw [if_neg (by decide)]
        obtain ⟨s2, a2, g1, g2, g3, g4, g5, g6, g7⟩ := core_shift hm.core List.mem_cons_self ha hb1 hk
        have hm2 := hm.step g2 g3 g6
        have hq2 : Stale s2 v a2 := stale_moved hq1 g7 g3.gone g5
        rw [g1, ok_bind]
        dsimp only
        rw [← hlen]
        exact removeLoop_inv fuel hm2 hq2 (upd_self A v _) g4 he1 (by rw [ht, efil]) (by omega) (by omega) htk hdr

/-- What follows the finalizer -/
theorem removeRest_inv {N : Nat} {s : State} {t : SState} {A : Nat → Option Nat} {E : Nat → List Nat} {v a pos len : Nat}
    {more : Option (Nat × Nat × Nat)} (h : Mid N s t A E v) (hq : Stale s v a) (hf : FrameOk s t A E (.remove v a pos len more)) :
    ∃ s' A' E', removeRest s v a pos len more = .ok s' ∧ Inv N s' t A' E' := by
  obtain ⟨ha, os, n, hb, rfl, hp, he, hmore⟩ := hf
  obtain ⟨s2, a2, g1, g2, g3, g4, g5, g6, g7⟩ := core_shift h.core List.mem_cons_self ha hb hp
  have hm2 := h.step g2 g3 g6
  have hq2 : Stale s2 v a2 := stale_moved hq g7 g3.gone g5
  rw [removeRest, g1, ok_bind]
  dsimp only
  match more, hmore with
  | none, hmore =>
    refine ⟨_, _, _, rfl, hm2.done (upd_self A v _) ?_ hmore.symm⟩
    rw [upd_self, he]
    exact ⟨0, g4⟩
  | some (o, p, l), hmore =>
    obtain ⟨m1, m2, m3, m4⟩ := hmore
    rw [he] at m1 m2 m3 m4
    have hlen : (os.eraseIdx pos).length = os.length - 1 := by rw [List.length_eraseIdx, if_pos hp]
    dsimp only
    rw [← hlen]
    exact removeLoop_inv (l + 1) hm2 hq2 (upd_self A v _) g4 he m1 (by omega) m2 m3 m4

/-- `gutil_objv_remove_impl` and what follows -/
theorem removeImpl_inv {N : Nat} {s : State} {t : SState} {A : Nat → Option Nat} {E : Nat → List Nat} {v a pos n : Nat} {os : List Nat}
    {more : Option (Nat × Nat × Nat)} (h : Mid N s t A E v) (hq : Stale s v a) (ha : A v = some a) (hb : s.blocks[a]? = some (some (mk os n)))
    (he : E v = os) (hp : pos < os.length)
    (hmore : match more with
      | none => t.vec v = os.eraseIdx pos
      | some (o, p, l) => t.vec v = (os.eraseIdx pos).filter (fun a => decide (a ≠ o)) ∧ p + l ≤ (os.eraseIdx pos).length ∧
        (∀ a ∈ (os.eraseIdx pos).take p, decide (a = o) = false) ∧ ∀ a ∈ (os.eraseIdx pos).drop (p + l), decide (a = o) = false) :
    ∃ s' A' E', removeImpl s v a pos os.length more = .ok s' ∧ Inv N s' t A' E' := by
  have hsub : ∀ y, (t.vec v).count y ≤ (os.eraseIdx pos).count y := by
    intro y
    match more, hmore with
    | none, hmore => rw [hmore]; exact Nat.le_refl _
    | some (o, p, l), hmore => rw [hmore.1]; exact count_filter_le _ _ y
  obtain ⟨s1, called, h1, h2, h3, h4, h5, h6, h7⟩ := core_drop (x := os[pos]) (l := os.eraseIdx pos) h.core List.mem_cons_self
    (by intro y; rw [he]; exact count_eraseIdx hp y) hsub
  have hm := h.step h2 h3 h6
  have hq1 := stale_same hq h4 h5
  have hb1 : s1.blocks[a]? = some (some (mk os n)) := by rw [h4]; exact hb
  have he1 : upd E v (os.eraseIdx pos) v = os.eraseIdx pos := upd_self E v _
  have hf : FrameOk s1 t A (upd E v (os.eraseIdx pos)) (.remove v a pos os.length more) := by
    refine ⟨ha, os, n, hb1, rfl, hp, he1, ?_⟩
    rw [he1]
    exact hmore
  rw [removeImpl, block_ok hb, ok_bind, deref_mk os n pos hp, ok_bind]
  dsimp only
  rw [h1, ok_bind]
  dsimp only
  cases called with
  | true => exact ⟨_, _, _, rfl, hm.push hf ⟨hq1, mk os n, os[pos], hb1, mk_ptr n hp, h7 rfl⟩ rfl⟩
  | false =>
    rw [if_neg (by decide)]
    exact removeRest_inv hm hq1 hf

/-- Finalizers return. -/
theorem ret_inv {N : Nat} {s : State} {t : SState} {A : Nat → Option Nat} {E : Nat → List Nat} (h : Inv N s t A E) (hs : s.stack ≠ []) :
    ∃ s' A' E', ret s = .ok s' ∧ Inv N s' t A' E' := by
  cases hst : s.stack with
  | nil => exact absurd hst hs
  | cons f rest =>
    have hcore := h.core
    have hnodup := h.nodup
    have hframes := h.frames
    have hheld := h.held
    rw [hst] at hcore hnodup hframes hheld
    have key' : ∀ g, Held s g → Held { s with stack := rest } g := by
      intro g hg
      cases g <;> exact hg
    have key : ∀ g, FrameOk s t A E g → FrameOk { s with stack := rest } t A E g := by
      intro g hg
      cases g <;> exact hg
    cases f with
    | unref =>
      rw [ret, hst]
      dsimp only
      exact ⟨_, A, E, rfl, core_stack rest hcore, hnodup, fun g hg => key g (hframes g (List.mem_cons_of_mem _ hg)),
        fun g hg => key' g (hheld g (List.mem_cons_of_mem _ hg))⟩
    | free v a i =>
      obtain ⟨h1, h2, os, n, h3, h4, h5⟩ := hframes _ List.mem_cons_self
      have hm : Mid N { s with stack := rest } t A E v :=
        ⟨core_stack rest hcore, hnodup, fun g hg => key g (hframes g (List.mem_cons_of_mem _ hg)),
          fun g hg => key' g (hheld g (List.mem_cons_of_mem _ hg))⟩
      rw [ret, hst]
      dsimp only
      rw [block_ok h3, ok_bind, drop_map_ptr os n i h4]
      exact freeLoop_inv (os.length - i) hm (hheld _ List.mem_cons_self).1 h1 h2 h3 h4 h5 rfl
    | remove v a pos len more =>
      have hm : Mid N { s with stack := rest } t A E v :=
        ⟨core_stack rest hcore, hnodup, fun g hg => key g (hframes g (List.mem_cons_of_mem _ hg)),
          fun g hg => key' g (hheld g (List.mem_cons_of_mem _ hg))⟩
      rw [ret, hst]
      dsimp only
      exact removeRest_inv hm (hheld _ List.mem_cons_self).1 (key _ (hframes _ List.mem_cons_self))

/-! ### The other functions -/

theorem mk_inj : ∀ {os qs : List Nat} {n m : Nat}, mk os n = mk qs m → os = qs
  | [], [], _, _, _ => rfl
  | [], _ :: _, _, _, h => by simp [mk_nil, mk_cons] at h
  | _ :: _, [], _, _, h => by simp [mk_nil, mk_cons] at h
  | o :: os, q :: qs, n, m, h => by
    rw [mk_cons, mk_cons] at h
    obtain ⟨h1, h2⟩ := List.cons.inj h
    cases h1
    rw [mk_inj h2]

theorem holds_inj {v : Vec} {os qs : List Nat} (h : Holds v os) (h' : Holds v qs) : os = qs := by
  rcases h with ⟨rfl, rfl⟩ | ⟨n, rfl⟩
  · rcases h' with ⟨_, rfl⟩ | ⟨m, e⟩
    · rfl
    · cases e
  · rcases h' with ⟨e, _⟩ | ⟨m, e⟩
    · cases e
    · exact mk_inj (n := n) (m := m) (Option.some.inj e)

theorem vec_ok {N : Nat} {s : State} {t : SState} {A : Nat → Option Nat} {E : Nat → List Nat} {B : List Nat} {v : Nat}
    (h : Core N s t A E B) (hv : v ∉ B) :
    ∃ o, vec s v = .ok o ∧ Holds o (t.vec v) ∧ (∀ a, A v = some a → ∃ b, o = some b ∧ s.blocks[a]? = some (some b)) ∧
      (A v = none → o = none) := by
  obtain ⟨q1, q2, q3⟩ := h.quiet v hv
  rw [vec, q1]
  cases hA : A v with
  | none =>
    rw [hA] at q3
    exact ⟨none, rfl, .inl ⟨rfl, by rw [← q2]; exact q3⟩, by simp, by simp⟩
  | some a =>
    rw [hA] at q3
    obtain ⟨n, hn⟩ := q3
    dsimp only
    rw [block_ok hn, ok_bind]
    refine ⟨_, rfl, .inr ⟨n, by rw [← q2]; rfl⟩, ?_, by simp⟩
    intro a' ha'
    cases ha'
    exact ⟨_, rfl, hn⟩

theorem set_same {l : List (Option Nat)} {v : Nat} {a : Option Nat} (hv : v < l.length) (h : l[v]?.getD none = a) : l.set v a = l := by
  rw [List.getElem?_eq_getElem hv, Option.getD_some] at h
  rw [← h, List.set_getElem_self]

/-- The last part of `change` -/
theorem mid_change {N : Nat} {s : State} {t : SState} {A : Nat → Option Nat} {E : Nat → List Nat} {v : Nat} {new : Vec}
    (h : Mid N s t A E v) (ha : A v = none) (he : E v = t.vec v) (hn : Holds new (t.vec v)) :
    ∃ s' A' E', (match new with
      | some b => (.ok { s with blocks := s.blocks ++ [some b], vars := s.vars.set v (some s.blocks.length) } : M State)
      | none => .ok { s with vars := s.vars.set v none }) = .ok s' ∧ Inv N s' t A' E' := by
  rcases hn with ⟨rfl, hn⟩ | ⟨n, rfl⟩
  · refine ⟨_, A, E, rfl, h.done ha ?_ he⟩
    rw [ha, he, hn]; exact rfl
  · obtain ⟨g1, g2⟩ := core_put (mk (t.vec v) n) h.core List.mem_cons_self ha
    refine ⟨_, _, _, rfl, (h.step g1 g2 rfl).done (upd_self A v _) ?_ he⟩
    rw [upd_self, he]
    exact ⟨n, by simp⟩

theorem change_inv {N : Nat} {s : State} {t : SState} {A : Nat → Option Nat} {E : Nat → List Nat} {v : Nat}
    {f : Refs → Vec → M (Refs × Vec)} {os : List Nat} (h : Inv N s t A E) (hv : v < t.vecs.length) (hb : v ∉ busy s.stack)
    (hf : ∀ old, Holds old (t.vec v) → ∃ c new, f s.refs old = .ok (c, new) ∧ Holds new os ∧ Accounted (cnt s.refs) (cnt c) (t.vec v) os)
    (hsub : ∀ x, (t.vec v).count x ≤ os.count x) (hos : ∀ x ∈ os, 0 < cnt s.refs x) :
    ∃ s' A' E', change s v f = .ok s' ∧ Inv N s' { t with vecs := t.vecs.set v os } A' E' := by
  obtain ⟨old, o1, o2, o3, o4⟩ := vec_ok h.core hb
  obtain ⟨c, new, f1, f2, f3⟩ := hf old o2
  have hpos : ∀ x, cnt c x = 0 ↔ cnt s.refs x = 0 := by
    intro x
    have h1 := f3 x
    have h2 := hsub x
    have h3 : os.count x = 0 ∨ 0 < cnt s.refs x := by
      by_cases e : x ∈ os
      · exact .inr (hos x e)
      · exact .inl (List.count_eq_zero.mpr e)
    omega
  obtain ⟨g1, g2⟩ := core_start (os := os) h.core hv hb (fun x => Nat.le_refl _) f3 hpos
  have hm : Mid N { s with refs := c } { t with vecs := t.vecs.set v os } A (upd E v os) v :=
    ⟨g1, List.nodup_cons.mpr ⟨hb, h.nodup⟩, g2.frames hb h.frames, g2.allHeld hb h.frames h.held⟩
  have hvec : ({ t with vecs := t.vecs.set v os } : SState).vec v = os := by rw [vec_set t os hv, if_pos rfl]
  obtain ⟨q1, q2, q3⟩ := h.core.quiet v hb
  rw [change, o1, ok_bind, f1, ok_bind]
  dsimp only
  by_cases e : new = old
  · rw [if_pos e]
    have hos' : os = t.vec v := holds_inj f2 (by rw [e]; exact o2)
    have hd := hm.done rfl (by rw [upd_self, hos', ← q2]; exact q3) (by rw [upd_self, hvec])
    have hset : s.vars.set v (A v) = s.vars := set_same (by rw [h.core.len]; exact hv) q1
    refine ⟨_, A, upd E v os, rfl, ?_⟩
    have hd' : Inv N { s with refs := c, vars := s.vars.set v (A v) } { t with vecs := t.vecs.set v os } A (upd E v os) := hd
    rw [hset] at hd'
    exact hd'
  · rw [if_neg e, q1]
    cases hA : A v with
    | none =>
      dsimp only
      rw [ok_bind]
      exact mid_change hm hA (by rw [upd_self, hvec]) (by rw [hvec]; exact f2)
    | some a =>
      dsimp only
      obtain ⟨s1, k1, k2, k3, k4, k5⟩ := core_forget hm.core List.mem_cons_self hA
      have hm1 : Mid N s1 _ _ _ v := hm.step k2 k3 k4
      rw [k1, ok_bind]
      exact mid_change hm1 (upd_self A v none) (by rw [upd_self, hvec]) (by rw [hvec]; exact f2)

theorem create_inv {N : Nat} {s : State} {t : SState} {A : Nat → Option Nat} {E : Nat → List Nat}
    {f : Refs → M (Refs × Vec)} {os : List Nat} (h : Inv N s t A E)
    (hf : ∃ c new, f s.refs = .ok (c, new) ∧ Holds new os ∧ Accounted (cnt s.refs) (cnt c) [] os) (hos : ∀ x ∈ os, 0 < cnt s.refs x) :
    ∃ s' A' E', create s f = .ok s' ∧ Inv N s' { t with vecs := t.vecs ++ [os] } A' E' := by
  obtain ⟨c, new, f1, f2, f3⟩ := hf
  obtain ⟨g1, g2⟩ := core_grow h.core
  have hb : s.vars.length ∉ busy s.stack := fun hm => absurd (h.core.inside _ hm) (by omega)
  have hlen : (t.vecs ++ [[]]).length = t.vecs.length + 1 := by simp
  have hv : s.vars.length < ({ t with vecs := t.vecs ++ [[]] } : SState).vecs.length := by
    show s.vars.length < (t.vecs ++ [[]]).length
    rw [hlen, h.core.len]; omega
  have hnil : ({ t with vecs := t.vecs ++ [[]] } : SState).vec s.vars.length = [] := by
    rw [g2, Objv.Spec.State.vec, List.getElem?_eq_none (by rw [h.core.len]; exact Nat.le_refl _)]
    rfl
  have hpos : ∀ x, cnt c x = 0 ↔ cnt s.refs x = 0 := by
    intro x
    have h1 := f3 x
    rw [List.count_nil] at h1
    have h3 : os.count x = 0 ∨ 0 < cnt s.refs x := by
      by_cases e : x ∈ os
      · exact .inr (hos x e)
      · exact .inl (List.count_eq_zero.mpr e)
    omega
  obtain ⟨k1, k2⟩ := core_start (os := os) (l := os) (c := c) g1 hv hb (fun x => Nat.le_refl _) (by rw [hnil]; exact f3) hpos
  have hgrow : Apart s { s with vars := s.vars ++ [none] } t { t with vecs := t.vecs ++ [[]] } A A E E s.vars.length :=
    ⟨fun _ _ => rfl, fun _ _ => rfl, fun w _ => g2 w, fun _ _ _ _ => rfl, fun w hw => by
      show (s.vars ++ [none])[w]?.getD none = _
      rw [List.getElem?_append]
      split
      · rfl
      · rename_i hn
        rw [List.getElem?_eq_none (by simp; omega), List.getElem?_eq_none (by omega)], fun _ h => h, fun _ h => h⟩
  have ht : ({ t with vecs := (t.vecs ++ [[]]).set s.vars.length os } : SState) = { t with vecs := t.vecs ++ [os] } := by
    rw [h.core.len]; simp
  have hm : Mid N { s with refs := c, vars := s.vars ++ [none] } { t with vecs := t.vecs ++ [os] } A (upd E s.vars.length os) s.vars.length := by
    rw [← ht]
    exact ⟨k1, List.nodup_cons.mpr ⟨hb, h.nodup⟩, (hgrow.trans k2).frames hb h.frames, (hgrow.trans k2).allHeld hb h.frames h.held⟩
  have hvec : ({ t with vecs := t.vecs ++ [os] } : SState).vec s.vars.length = os := by
    rw [← ht]
    have := vec_set ({ t with vecs := t.vecs ++ [[]] } : SState) os hv s.vars.length
    rw [if_pos rfl] at this
    exact this
  have hA : A s.vars.length = none := (h.core.out _ (Nat.le_refl _)).1
  obtain ⟨s', A', E', r1, r2⟩ := mid_change (new := new) hm hA (by rw [upd_self, hvec]) (by rw [hvec]; exact f2)
  refine ⟨s', A', E', ?_, r2⟩
  rw [create, f1, ok_bind, ← r1]
  dsimp only
  cases new with
  | none => simp
  | some b => simp

/-! ### All calls -/

theorem count_alive {N : Nat} {s : State} {t : SState} {A : Nat → Option Nat} {E : Nat → List Nat} {B : List Nat}
    (h : Core N s t A E B) (x : Nat) : t.refs x ≤ cnt s.refs x := by
  rw [refs_eq, h.refs x, h.len]
  have := total_le (E := t.vec) (F := E) t.vecs.length x (fun v => h.cover v x)
  omega

theorem vec_alive {N : Nat} {s : State} {t : SState} {A : Nat → Option Nat} {E : Nat → List Nat} {B : List Nat}
    (h : Core N s t A E B) {v x : Nat} (hx : x ∈ t.vec v) : 0 < cnt s.refs x := by
  have h1 := count_alive h x
  have h2 := count_le_sum x t.vecs v
  have h3 : 0 < (t.vec v).count x := List.count_pos_iff.2 hx
  unfold Objv.Spec.State.vec at h3
  unfold Objv.Spec.State.refs at h1
  omega

theorem next_same (t : SState) {v : Nat} (hv : v < t.vecs.length) : ({ t with vecs := t.vecs.set v (t.vec v) } : SState) = t := by
  have e : t.vecs.set v (t.vec v) = t.vecs := by
    unfold Objv.Spec.State.vec
    rw [List.getElem?_eq_getElem hv, Option.getD_some, List.set_getElem_self]
  rw [e]

/-- A call which is going to drop references -/
theorem mid_start {N : Nat} {s : State} {t : SState} {A : Nat → Option Nat} {E : Nat → List Nat} {v : Nat} {os : List Nat}
    (h : Inv N s t A E) (hv : v < t.vecs.length) (hb : v ∉ busy s.stack) (hsub : ∀ x, os.count x ≤ (t.vec v).count x) :
    Mid N s { t with vecs := t.vecs.set v os } A E v ∧ E v = t.vec v ∧
      ({ t with vecs := t.vecs.set v os } : SState).vec v = os := by
  obtain ⟨q1, q2, q3⟩ := h.core.quiet v hb
  obtain ⟨g1, g2⟩ := core_start (os := os) (l := E v) (c := s.refs) h.core hv hb (by rw [q2]; exact hsub)
    (by rw [q2]; exact accounted_refl) (fun x => Iff.rfl)
  have hu : upd E v (E v) = E := by
    funext w
    by_cases e : w = v
    · rw [e, upd_self]
    · exact upd_ne E _ e
  rw [hu] at g1 g2
  exact ⟨⟨g1, List.nodup_cons.mpr ⟨hb, h.nodup⟩, g2.frames hb h.frames, g2.allHeld hb h.frames h.held⟩, q2, by rw [vec_set t os hv, if_pos rfl]⟩

theorem free_inv {N : Nat} {s : State} {t : SState} {A : Nat → Option Nat} {E : Nat → List Nat} {v : Nat}
    (h : Inv N s t A E) (hv : v < t.vecs.length) (hb : v ∉ busy s.stack) :
    ∃ s' A' E', free s v = .ok s' ∧ Inv N s' { t with vecs := t.vecs.set v [] } A' E' := by
  obtain ⟨q1, q2, q3⟩ := h.core.quiet v hb
  obtain ⟨hm, he, ht⟩ := mid_start (os := []) h hv hb (by intro x; simp)
  rw [free, q1]
  cases hA : A v with
  | none =>
    rw [hA] at q3
    have hnil : t.vec v = [] := by rw [← q2]; exact q3
    rw [← hnil, next_same t hv]
    exact ⟨s, A, E, rfl, h⟩
  | some a =>
    rw [hA] at q3
    obtain ⟨n, hn⟩ := q3
    dsimp only
    rw [block_ok hn, ok_bind]
    exact freeLoop_inv (i := 0) ((E v).length) hm (.inl (q1.trans hA)) hA ht hn (Nat.zero_le _) rfl rfl

theorem removeAt_inv {N : Nat} {s : State} {t : SState} {A : Nat → Option Nat} {E : Nat → List Nat} {v pos : Nat}
    (h : Inv N s t A E) (hv : v < t.vecs.length) (hb : v ∉ busy s.stack) :
    ∃ s' A' E', removeAt s v pos = .ok s' ∧ Inv N s' { t with vecs := t.vecs.set v ((t.vec v).eraseIdx pos) } A' E' := by
  obtain ⟨q1, q2, q3⟩ := h.core.quiet v hb
  obtain ⟨hm, he, ht⟩ := mid_start (os := (t.vec v).eraseIdx pos) h hv hb (fun x => (List.eraseIdx_sublist _ _).count_le x)
  rw [removeAt, q1]
  cases hA : A v with
  | none =>
    rw [hA] at q3
    have hnil : t.vec v = [] := by rw [← q2]; exact q3
    rw [show (t.vec v).eraseIdx pos = t.vec v by rw [hnil]; rfl, next_same t hv]
    exact ⟨s, A, E, rfl, h⟩
  | some a =>
    rw [hA] at q3
    obtain ⟨n, hn⟩ := q3
    have hh : Holds (some (mk (E v) n)) (E v) := .inr ⟨n, rfl⟩
    dsimp only
    rw [block_ok hn, ok_bind, length_ok hh, ok_bind]
    by_cases hp : pos < (E v).length
    · rw [if_pos hp]
      refine removeImpl_inv hm (.inl (q1.trans hA)) hA hn rfl hp ?_
      rw [ht, q2]
    · rw [if_neg hp, List.eraseIdx_of_length_le (by rw [← q2]; omega), next_same t hv]
      exact ⟨s, A, E, rfl, h⟩

theorem remove_inv {N : Nat} {s : State} {t : SState} {A : Nat → Option Nat} {E : Nat → List Nat} {v o : Nat} {all : Bool}
    (h : Inv N s t A E) (hv : v < t.vecs.length) (hb : v ∉ busy s.stack) :
    ∃ s' A' E', remove s v (some o) all = .ok s' ∧
      Inv N s' { t with vecs := t.vecs.set v (Objv.Spec.without o all (t.vec v)) } A' E' := by
  obtain ⟨q1, q2, q3⟩ := h.core.quiet v hb
  obtain ⟨hm, he, ht⟩ := mid_start (os := Objv.Spec.without o all (t.vec v)) h hv hb (by
    intro x
    unfold Objv.Spec.without
    split
    · exact count_filter_le _ _ x
    · exact List.erase_sublist.count_le x)
  unfold remove
  rw [q1]
  cases hA : A v with
  | none =>
    rw [hA] at q3
    have hnil : t.vec v = [] := by rw [← q2]; exact q3
    rw [show Objv.Spec.without o all (t.vec v) = t.vec v by rw [hnil]; cases all <;> rfl, next_same t hv]
    exact ⟨s, A, E, rfl, h⟩
  | some a =>
    rw [hA] at q3
    obtain ⟨n, hn⟩ := q3
    have hh : Holds (some (mk (E v) n)) (E v) := .inr ⟨n, rfl⟩
    dsimp only
    rw [block_ok hn, ok_bind, find_ok hh, ok_bind]
    have hlt := firstIndex_lt (p := fun a => decide (a = o)) (l := E v)
    by_cases h0 : firstIndex (fun a => decide (a = o)) (E v) < 0
    · have hall := firstIndex_neg.1 h0
      have e : Objv.Spec.without o all (t.vec v) = t.vec v := by
        rw [← q2]
        unfold Objv.Spec.without
        cases all with
        | true => exact List.filter_eq_self.2 (fun a ha => by simpa using hall a ha)
        | false => exact List.erase_of_not_mem (fun hm => by simpa using hall o hm)
      rw [if_neg (by omega), e, next_same t hv]
      exact ⟨s, A, E, rfl, h⟩
    · obtain ⟨k, hk⟩ : ∃ k : Nat, firstIndex (fun a => decide (a = o)) (E v) = k := ⟨_, (Int.toNat_of_nonneg (by omega)).symm⟩
      obtain ⟨⟨x, hx, hxm⟩, hbefore⟩ := firstIndex_spec hk
      have hkl : k < (E v).length := by omega
      have hxk : (E v)[k] = x := by
        rw [List.getElem?_eq_getElem hkl] at hx
        exact Option.some.inj hx
      have hle : ((E v).eraseIdx k).length = (E v).length - 1 := by
        rw [List.length_eraseIdx, if_pos hkl]
      have etake : ((E v).eraseIdx k).take k = (E v).take k := by
        rw [List.eraseIdx_eq_take_drop_succ, List.take_append_of_le_length (by rw [List.length_take]; omega),
          List.take_take, Nat.min_eq_left (by omega)]
      rw [if_pos (by omega), length_ok hh, ok_bind, hk, Int.toNat_natCast]
      refine removeImpl_inv hm (.inl (q1.trans hA)) hA hn rfl hkl ?_
      rw [ht, ← q2]
      cases all with
      | false => exact firstIndex_erase' hk
      | true =>
        refine ⟨(filter_eraseIdx hkl (by rw [hxk]; simpa using hxm)).symm, by omega, by rw [etake]; exact hbefore, ?_⟩
        intro y hy
        rw [List.drop_of_length_le (by omega)] at hy
        cases hy

theorem frame_own {s s' : State} {t t' : SState} {A : Nat → Option Nat} {E : Nat → List Nat} {f : Frame} (hb : s'.blocks = s.blocks)
    (ht : t'.vecs = t.vecs) (h : FrameOk s t A E f) : FrameOk s' t' A E f := by
  have hvec : ∀ v, t'.vec v = t.vec v := fun v => by unfold Objv.Spec.State.vec; rw [ht]
  cases f with
  | unref => trivial
  | free v a i =>
    dsimp only [FrameOk] at h ⊢
    rw [hb, hvec]
    exact h
  | remove v a pos len more =>
    dsimp only [FrameOk] at h ⊢
    rw [hb, hvec]
    exact h

theorem held_own {s s' : State} {f : Frame} (hb : s'.blocks = s.blocks) (hv : s'.vars = s.vars)
    (hf : ∀ x ∈ s.finalized, x ∈ s'.finalized) (h : Held s f) : Held s' f := by
  cases f with
  | unref => trivial
  | free v a i =>
    obtain ⟨g1, b, x, g2, g3, g4, g5⟩ := h
    exact ⟨stale_same g1 hb hv, b, x, by rw [hb]; exact g2, g3, g4, hf x g5⟩
  | remove v a pos len more =>
    obtain ⟨g1, b, x, g2, g4, g5⟩ := h
    exact ⟨stale_same g1 hb hv, b, x, by rw [hb]; exact g2, g4, hf x g5⟩

theorem call_inv {N : Nat} {s : State} {t : SState} {A : Nat → Option Nat} {E : Nat → List Nat} {op : Op} (h : Inv N s t A E)
    (hp : Objv.Spec.Pre t op) (hq : ∀ v ∈ uses op, v ∉ busy s.stack) :
    ∃ s' A' E', call s op = .ok s' ∧ Inv N s' (Objv.Spec.next t op) A' E' := by
  have hc := h.core
  have halive : ∀ x, 0 < t.refs x → 0 < cnt s.refs x := fun x hx => by have := count_alive hc x; omega
  cases op with
  | ref a =>
    have ha := halive a hp
    obtain ⟨c, h1, h2⟩ := objRef_ok ha
    refine ⟨{ s with refs := c }, A, E, by rw [call, h1, ok_bind], ⟨⟨hc.len, hc.inside, hc.out, hc.quiet, hc.inj, hc.alive, hc.owned, hc.cover, ?_,
      hc.once, ?_, ?_⟩, h.nodup, fun f hf => frame_own rfl rfl (h.frames f hf),
      fun f hf => held_own rfl rfl (fun _ h => h) (h.held f hf)⟩⟩
    · intro x
      show cnt c x = (if x = a then t.own x + 1 else t.own x) + total E s.vars.length x
      have := hc.refs x
      rw [h2]
      split <;> omega
    · intro x hx
      have hx' : 0 < cnt c x := hx
      rw [h2] at hx'
      by_cases e : x = a
      · rw [e]; exact hc.small a ha
      · rw [if_neg e] at hx'
        exact hc.small x (by omega)
    · intro x
      show x ∈ s.finalized ↔ x < N ∧ cnt c x = 0
      rw [hc.dead x, h2]
      by_cases e : x = a
      · subst e
        rw [if_pos rfl]
        omega
      · rw [if_neg e]
        omega
  | unref a =>
    have ha : 0 < t.own a := hp
    obtain ⟨s1, called, h1, h2, h3, h4, h5, h6, h7⟩ := core_unref (t' := Objv.Spec.next t (.unref a)) (E' := E) (x := a) hc rfl (fun v => .inl rfl)
      hc.cover (by
        intro y
        show (if y = a then t.own y - 1 else t.own y) + _ + _ = _
        by_cases e : y = a
        · subst e; rw [if_pos rfl, if_pos rfl]; omega
        · rw [if_neg e, if_neg e]; omega)
    rw [call, h1, ok_bind]
    refine ⟨_, A, E, rfl, ?_⟩
    have hi : Inv N s1 (Objv.Spec.next t (.unref a)) A E :=
      ⟨by rw [h5]; exact h2, by rw [h5]; exact h.nodup, by rw [h5]; exact fun f hf => frame_own h3 rfl (h.frames f hf),
        by rw [h5]; exact fun f hf => held_own h3 h4 h6 (h.held f hf)⟩
    cases called with
    | false => exact hi
    | true =>
      refine ⟨core_stack _ hi.core, hi.nodup, ?_, ?_⟩
      · intro f hf
        rcases List.mem_cons.mp hf with rfl | hf
        · trivial
        · exact frame_own rfl rfl (hi.frames f hf)
      · intro f hf
        rcases List.mem_cons.mp hf with rfl | hf
        · trivial
        · exact held_own rfl rfl (fun _ h => h) (hi.held f hf)
  | new args =>
    have ha : ∀ x ∈ args, 0 < cnt s.refs x := fun x hx => halive x (hp x hx)
    exact create_inv (f := fun c => Objv.new c args) h (new_ok ha) ha
  | copy i =>
    have hi := hq i (by simp [uses])
    obtain ⟨o, o1, o2, -⟩ := vec_ok hc hi
    obtain ⟨c, w, c1, c2, c3, -⟩ := copy_ok (c := s.refs) o2 (fun x hx => vec_alive hc hx)
    rw [call, o1, ok_bind]
    exact create_inv h ⟨c, w, c1, c2, c3⟩ (fun x hx => vec_alive hc hx)
  | add i o =>
    have hi := hq i (by simp [uses])
    have hl : i < t.vecs.length := hp.1
    cases o with
    | none =>
      have := change_inv (f := fun c v => Objv.add c v none) (os := t.vec i) h hl hi
        (fun old hold => ⟨s.refs, old, rfl, hold, accounted_refl⟩) (fun x => Nat.le_refl _) (fun x hx => vec_alive hc hx)
      rw [next_same t hl] at this
      exact this
    | some o =>
      have ho := halive o (hp.2 o rfl)
      refine change_inv (f := fun c v => Objv.add c v (some o)) h hl hi (fun old hold => add_ok hold ho) ?_ ?_
      · intro x; rw [List.count_append]; omega
      · intro x hx
        rcases List.mem_append.mp hx with hx | hx
        · exact vec_alive hc hx
        · rw [List.mem_singleton.mp hx]; exact ho
  | insert i o pos =>
    have hi := hq i (by simp [uses])
    have hl : i < t.vecs.length := hp.1
    cases o with
    | none =>
      have := change_inv (f := fun c v => Objv.insert c v none pos) (os := t.vec i) h hl hi
        (fun old hold => ⟨s.refs, old, rfl, hold, accounted_refl⟩) (fun x => Nat.le_refl _) (fun x hx => vec_alive hc hx)
      rw [next_same t hl] at this
      exact this
    | some o =>
      have ho := halive o (hp.2 o rfl)
      refine change_inv (f := fun c v => Objv.insert c v (some o) pos) h hl hi (fun old hold => insert_ok pos hold ho) ?_ ?_
      · intro x
        rw [List.count_append, count_cons']
        have : (t.vec i).count x = ((t.vec i).take pos).count x + ((t.vec i).drop pos).count x := by
          rw [← List.count_append, List.take_append_drop]
        omega
      · intro x hx
        rcases List.mem_append.mp hx with hx | hx
        · exact vec_alive hc (List.mem_of_mem_take hx)
        · rcases List.mem_cons.mp hx with rfl | hx
          · exact ho
          · exact vec_alive hc (List.mem_of_mem_drop hx)
  | append i j =>
    have hi := hq i (by simp [uses])
    have hj := hq j (by simp [uses])
    have hl : i < t.vecs.length := hp.1
    obtain ⟨o, o1, o2, -⟩ := vec_ok hc hj
    rw [call, o1, ok_bind]
    refine change_inv (f := fun c v => Objv.append c v o) h hl hi (fun old hold => append_ok hold o2 (fun x hx => vec_alive hc hx)) ?_ ?_
    · intro x; rw [List.count_append]; omega
    · intro x hx
      rcases List.mem_append.mp hx with hx | hx <;> exact vec_alive hc hx
  | remove i o all =>
    have hi := hq i (by simp [uses])
    cases o with
    | none =>
      refine ⟨s, A, E, ?_, h⟩
      rw [call]
      unfold remove
      split
      · rename_i he; cases he
      · rfl
    | some o => exact remove_inv h hp hi
  | removeAt i pos => exact removeAt_inv h hp (hq i (by simp [uses]))
  | free i => exact free_inv h hp (hq i (by simp [uses]))

theorem new_inv {refs : Refs} (h : ∀ n ∈ refs, 0 < n) : Inv refs.length ⟨refs, [], [], [], []⟩ ⟨cnt refs, []⟩ (fun _ => none) (fun _ => []) := by
  have hc : ∀ x, cnt refs x = 0 ↔ refs.length ≤ x := by
    intro x
    rw [cnt]
    by_cases hx : x < refs.length
    · rw [List.getElem?_eq_getElem hx, Option.getD_some]
      have := h refs[x] (List.getElem_mem hx)
      omega
    · rw [List.getElem?_eq_none (by omega)]
      simp only [Option.getD_none, true_iff]
      omega
  refine ⟨⟨rfl, ?_, fun _ _ => ⟨rfl, rfl⟩, fun v _ => ⟨rfl, rfl, rfl⟩, ?_, ?_, ?_, ?_, ?_, List.nodup_nil, ?_, ?_⟩, List.nodup_nil, ?_, ?_⟩
  · intro v hv; cases hv
  · intro v w a ha; cases ha
  · intro v a ha; cases ha
  · intro a b ha
    have ha' : ([] : List (Option Block))[a]? = some (some b) := ha
    simp at ha'
  · intro v x; exact Nat.le_refl _
  · intro x; rfl
  · intro x hx
    have hx' : 0 < cnt refs x := hx
    have := hc x
    omega
  · intro x
    show x ∈ [] ↔ x < refs.length ∧ cnt refs x = 0
    rw [hc x]
    constructor
    · intro hx; cases hx
    · intro hx; omega
  · intro f hf; cases hf
  · intro f hf; cases hf

theorem reach_inv {refs : Refs} {s : State} {t : SState} (h : Reach Polite refs s t) : ∃ A E, Inv refs.length s t A E := by
  induction h with
  | new h => exact ⟨_, _, new_inv h⟩
  | call _ hp hq hs ih =>
    obtain ⟨A, E, ih⟩ := ih
    obtain ⟨s1, A1, E1, h1, h2⟩ := call_inv ih hp hq
    rw [hs] at h1
    cases h1
    exact ⟨A1, E1, h2⟩
  | ret _ hne _ hs ih =>
    obtain ⟨A, E, ih⟩ := ih
    obtain ⟨s1, A1, E1, h1, h2⟩ := ret_inv ih hne
    rw [hs] at h1
    cases h1
    exact ⟨A1, E1, h2⟩

/-! ### Calls finish -/

theorem bind_ok {α β : Type} {x : M α} {f : α → M β} {b : β} (h : (x >>= f) = .ok b) : ∃ a, x = .ok a ∧ f a = .ok b := by
  cases x with
  | error e => cases h
  | ok a => exact ⟨a, rfl, h⟩

theorem nodup_le : ∀ {l m : List Nat}, l.Nodup → (∀ x ∈ l, x ∈ m) → l.length ≤ m.length
  | [], _, _, _ => Nat.zero_le _
  | x :: l, m, hn, hs => by
    obtain ⟨h1, h2⟩ := List.nodup_cons.mp hn
    have hx := hs x List.mem_cons_self
    have h3 : l.length ≤ (m.erase x).length := nodup_le h2 (fun y hy =>
      (List.mem_erase_of_ne (by rintro rfl; exact h1 hy)).mpr (hs y (List.mem_cons_of_mem _ hy)))
    rw [List.length_erase_of_mem hx] at h3
    have := List.length_pos_of_mem hx
    rw [List.length_cons]
    omega

/-- How a function ends up: having returned, or having called a finalizer -/
def Goes (s s' : State) : Prop :=
  (s'.stack = s.stack ∧ s'.finalized = s.finalized) ∨ (∃ f x, s'.stack = f :: s.stack ∧ s'.finalized = s.finalized ++ [x])

theorem unref_goes {s s' : State} {x : Nat} {called : Bool} (h : unref s x = .ok (s', called)) :
    s'.stack = s.stack ∧ s'.finalized = if called then s.finalized ++ [x] else s.finalized := by
  unfold unref at h
  obtain ⟨c, h1, h⟩ := bind_ok h
  split at h
  · cases h; exact ⟨rfl, rfl⟩
  · cases h; exact ⟨rfl, rfl⟩

theorem release_goes {s s' : State} {a : Nat} (h : release s a = .ok s') : s'.stack = s.stack ∧ s'.finalized = s.finalized := by
  unfold release at h
  obtain ⟨b, h1, h⟩ := bind_ok h
  cases h
  exact ⟨rfl, rfl⟩

theorem shift_goes {s s' : State} {a a' pos len : Nat} (h : shift s a pos len = .ok (s', a')) :
    s'.stack = s.stack ∧ s'.finalized = s.finalized := by
  unfold shift at h
  obtain ⟨b, h1, h⟩ := bind_ok h
  obtain ⟨b, h2, h⟩ := bind_ok h
  obtain ⟨s1, h3, h⟩ := bind_ok h
  cases h
  have := release_goes h3
  exact this

theorem freeLoop_goes {v a : Nat} : ∀ {b : Block} {s s' : State} {i : Nat}, freeLoop s v a i b = .ok s' → Goes s s'
  | [], _, _, _, h => by cases h
  | c :: t, s, s', i, h => by
    unfold freeLoop at h
    obtain ⟨p, h1, h⟩ := bind_ok h
    cases p with
    | none =>
      obtain ⟨s1, h2, h⟩ := bind_ok h
      cases h
      have := release_goes h2
      exact .inl this
    | some o =>
      obtain ⟨⟨s1, called⟩, h2, h⟩ := bind_ok h
      obtain ⟨g1, g2⟩ := unref_goes h2
      dsimp only at h
      cases called with
      | true =>
        rw [if_pos rfl] at h g2
        cases h
        exact .inr ⟨_, o, by rw [← g1], g2⟩
      | false =>
        rw [if_neg (by decide)] at h g2
        have := freeLoop_goes h
        unfold Goes at this ⊢
        rw [g1, g2] at this
        exact this

theorem removeLoop_goes {v pos o : Nat} : ∀ {fuel : Nat} {s s' : State} {a len l : Nat}, removeLoop v pos o fuel s a len l = .ok s' → Goes s s'
  | 0, _, _, _, _, _, h => by cases h
  | fuel + 1, s, s', a, len, l, h => by
    unfold removeLoop at h
    obtain ⟨b, h1, h⟩ := bind_ok h
    obtain ⟨i, h2, h⟩ := bind_ok h
    split at h
    · obtain ⟨p, h3, h⟩ := bind_ok h
      cases p with
      | none => cases h
      | some x =>
        obtain ⟨⟨s1, called⟩, h4, h⟩ := bind_ok h
        obtain ⟨g1, g2⟩ := unref_goes h4
        dsimp only at h
        cases called with
        | true =>
          rw [if_pos rfl] at h g2
          cases h
          exact .inr ⟨_, x, by rw [← g1], g2⟩
        | false =>
          rw [if_neg (by decide)] at h g2
          obtain ⟨⟨s2, a2⟩, h5, h⟩ := bind_ok h
          obtain ⟨g3, g4⟩ := shift_goes h5
          have := removeLoop_goes h
          unfold Goes at this ⊢
          rw [g3, g4, g1, g2] at this
          exact this
    · cases h
      exact .inl ⟨rfl, rfl⟩

theorem removeRest_goes {s s' : State} {v a pos len : Nat} {more : Option (Nat × Nat × Nat)}
    (h : removeRest s v a pos len more = .ok s') : Goes s s' := by
  unfold removeRest at h
  obtain ⟨⟨s1, a1⟩, h1, h⟩ := bind_ok h
  obtain ⟨g1, g2⟩ := shift_goes h1
  dsimp only at h
  split at h
  · cases h; exact .inl ⟨g1, g2⟩
  · have := removeLoop_goes h
    unfold Goes at this ⊢
    rw [g1, g2] at this
    exact this

theorem ret_goes {s s' : State} (h : ret s = .ok s') :
    s'.stack.length + s.finalized.length + 1 = s.stack.length + s'.finalized.length ∧ s.finalized.length ≤ s'.finalized.length ∧
      s'.finalized.length ≤ s.finalized.length + 1 := by
  have key : ∀ {f : Frame} {rest : List Frame}, s.stack = f :: rest → Goes { s with stack := rest } s' →
      s'.stack.length + s.finalized.length + 1 = s.stack.length + s'.finalized.length ∧ s.finalized.length ≤ s'.finalized.length ∧
      s'.finalized.length ≤ s.finalized.length + 1 := by
    intro f rest hs hg
    rw [hs]
    rcases hg with ⟨g1, g2⟩ | ⟨f', x, g1, g2⟩
    · dsimp only at g1 g2
      rw [g1, g2, List.length_cons]
      omega
    · dsimp only at g1 g2
      rw [g1, g2, List.length_cons, List.length_cons, List.length_append, List.length_cons, List.length_nil]
      omega
  unfold ret at h
  split at h
  · cases h
  · rename_i hs
    cases h
    exact key hs (.inl ⟨rfl, rfl⟩)
  · rename_i hs
    obtain ⟨b, h1, h⟩ := bind_ok h
    exact key hs (freeLoop_goes h)
  · rename_i hs
    exact key hs (removeRest_goes h)

/-- No more than `n` finalizers return. -/
theorem rets_inv {N : Nat} {t : SState} : ∀ (k : Nat) {s : State} {A : Nat → Option Nat} {E : Nat → List Nat}, Inv N s t A E →
    s.stack.length + N - s.finalized.length ≤ k → ∃ n s' A' E', n ≤ k ∧ rets n s = .ok s' ∧ s'.stack = [] ∧ Inv N s' t A' E'
  | k, s, A, E, h, hk => by
    by_cases hs : s.stack = []
    · exact ⟨0, s, A, E, Nat.zero_le _, rfl, hs, h⟩
    · have hfin : s.finalized.length ≤ N := by
        have := nodup_le (m := List.range N) h.core.once (fun x hx => List.mem_range.mpr ((h.core.dead x).mp hx).1)
        simpa using this
      have hpos : 0 < s.stack.length := List.length_pos_iff.mpr hs
      obtain ⟨s1, A1, E1, h1, h2⟩ := ret_inv h hs
      obtain ⟨g1, g2, g3⟩ := ret_goes h1
      match k with
      | 0 => omega
      | k + 1 =>
        obtain ⟨n, s', A', E', r1, r2, r3, r4⟩ := rets_inv k h2 (by omega)
        exact ⟨n + 1, s', A', E', by omega, by rw [rets, h1, ok_bind]; exact r2, r3, r4⟩

end Verif.ObjvCb
