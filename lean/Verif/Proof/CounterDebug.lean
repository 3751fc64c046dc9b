import Verif.Model.CounterDebug
import Verif.Proof.Shared
import Verif.Proof.WeakRef
import Verif.Proof.TimeNotify

namespace Verif.Shared.Debug
open Verif.C

/-- A thread which isn't the one doing something keeps its references, and stays where it is. -/
theorem step_other {s s' : Shared.State} {a : Shared.Act} {t : Nat} (hs : Shared.step s a = .ok s') (ht : actor a ≠ t) :
    s.owned t ≤ s'.owned t ∧ (s'.busy t → s.busy t) := by
  have key : ∀ (x y : Thread) (u : Nat), u ≠ t →
      ((s.threads.set u y)[t]? = s.threads[t]?) := fun x y u hu => by
    rw [List.getElem?_set, if_neg hu]
  have same : s'.threads[t]? = s.threads[t]? → s.owned t ≤ s'.owned t ∧ (s'.busy t → s.busy t) := by
    intro e
    unfold State.owned State.busy
    rw [e]
    exact ⟨Nat.le_refl _, id⟩
  cases a with
  | ref u =>
    change u ≠ t at ht
    cases hu : s.threads[u]? with
    | none => simp [Shared.step, ref, State.thread, hu, bind, Except.bind] at hs
    | some x =>
      simp only [Shared.step, ref, thread_ok hu, bind, Except.bind, State.access] at hs
      split at hs <;> cases hs
      exact same (key x _ u ht)
  | use u =>
    cases hu : s.threads[u]? with
    | none => simp [Shared.step, use, State.thread, hu, bind, Except.bind] at hs
    | some x =>
      simp only [Shared.step, use, thread_ok hu, bind, Except.bind, State.access, State.read] at hs
      split at hs <;> try cases hs
      split at hs <;> cases hs
      exact same rfl
  | give u v =>
    change u ≠ t at ht
    cases hu : s.threads[u]? with
    | none => simp [Shared.step, give, State.thread, hu, bind, Except.bind] at hs
    | some x =>
      simp only [Shared.step, give, thread_ok hu, bind, Except.bind] at hs
      cases hv : (s.threads.set u { x with owned := x.owned - 1 })[v]? with
      | none => simp [State.thread, hv] at hs
      | some y =>
        rw [thread_ok (s := { s with threads := s.threads.set u { x with owned := x.owned - 1 } }) hv] at hs
        cases hs
        by_cases hvt : v = t
        · subst hvt
          rw [key x _ u ht] at hv
          have hl : v < s.threads.length := by
            rw [List.getElem?_eq_some_iff] at hv
            exact hv.1
          constructor
          · have e1 : s.owned v = y.owned := by simp [State.owned, hv]
            have e2 : ∀ z : Thread, ((s.threads.set u { x with owned := x.owned - 1 }).set v z)[v]? = some z := fun z => by
              rw [List.getElem?_set_self (by simpa using hl)]
            rw [e1]
            simp only [State.owned, e2, Option.map_some, Option.getD_some]
            omega
          · rintro ⟨z, h1, h2⟩
            simp [List.getElem?_set_self, hl] at h1
            subst h1
            exact ⟨y, hv, h2⟩
        · refine same ?_
          simp only
          rw [List.getElem?_set, if_neg hvt, key x _ u ht]
  | unref u =>
    change u ≠ t at ht
    cases hu : s.threads[u]? with
    | none => simp [Shared.step, dec, State.thread, hu, bind, Except.bind] at hs
    | some x =>
      simp only [Shared.step, dec, thread_ok hu, bind, Except.bind, State.access] at hs
      split at hs <;> try cases hs
      split at hs <;> cases hs
      exact same (key x _ u ht)
  | toData u =>
    change u ≠ t at ht
    cases hu : s.threads[u]? with
    | none => simp [Shared.step, dec, State.thread, hu, bind, Except.bind] at hs
    | some x =>
      simp only [Shared.step, dec, thread_ok hu, bind, Except.bind, State.access] at hs
      split at hs <;> try cases hs
      split at hs <;> cases hs
      exact same (key x _ u ht)
  | next u =>
    change u ≠ t at ht
    have fin : ∀ (s1 : Shared.State) (x : Thread) (pc : Pc), s1.threads = s.threads → s' = s1.goto u x pc → s'.threads[t]? = s.threads[t]? := by
      intro s1 x pc e1 e2
      rw [e2, State.goto, e1]
      exact key x _ u ht
    have rel : ∀ s1 s2 : Shared.State, release s1 = .ok s2 → s2.threads = s1.threads := by
      intro s1 s2 h
      unfold release at h
      split at h <;> cases h
      rfl
    cases hu : s.threads[u]? with
    | none => simp [Shared.step, next, State.thread, hu, bind, Except.bind] at hs
    | some x =>
      simp only [Shared.step, next, thread_ok hu, bind, Except.bind] at hs
      cases hp : x.pc with
      | idle => rw [hp] at hs; cases hs
      | last =>
        rw [hp] at hs
        dsimp only at hs
        split at hs <;> cases hs
        rename_i s1 hf
        refine same (fin s1 x _ ?_ rfl)
        simp only [finish, bind, Except.bind, State.access] at hf
        split at hf <;> try cases hf
        split at hf
        · cases hf; rfl
        · exact rel _ _ hf
      | free =>
        rw [hp] at hs
        dsimp only at hs
        split at hs <;> cases hs
        rename_i s1 hf
        refine same (fin s1 x _ ?_ rfl)
        unfold sliceFree at hf
        split at hf <;> cases hf
        rfl
      | lastData =>
        rw [hp] at hs
        dsimp only at hs
        split at hs <;> cases hs
        rename_i s1 hf
        refine same (fin s1 x _ ?_ rfl)
        simp only [finishData, bind, Except.bind, State.access, State.read] at hf
        split at hf <;> try cases hf
        split at hf
        · split at hf <;> cases hf
          rfl
        · split at hf <;> try cases hf
          exact rel _ _ hf
        · split at hf <;> cases hf
      | copy =>
        rw [hp] at hs
        dsimp only at hs
        split at hs <;> cases hs
        rename_i s1 hf
        refine same (fin s1 x _ ?_ rfl)
        simp only [copy, bind, Except.bind, State.access, State.read] at hf
        split at hf <;> try cases hf
        split at hf <;> cases hf
        rfl

/-- The invariant: that of the release build, and those who are about to do something still have their references. -/
structure Inv (s : State) : Prop where
  base : Shared.Inv True s.s
  pend : ∀ t fn, s.pending t = some fn → 0 < s.s.owned t ∧ ¬ s.s.busy t

theorem fn_actor (fn : Fn) (t : Nat) : actor (fn.act t) = t := by cases fn <;> rfl

theorem fn_allowed {s : Shared.State} {fn : Fn} {t : Nat} : Shared.Allowed s (fn.act t) ↔ 0 < s.owned t ∧ ¬ s.busy t := by cases fn <;> rfl

theorem refs_pos {s : Shared.State} (h : Shared.Inv True s) {t : Nat} (ht : 0 < s.owned t) : 0 < s.refs := by
  obtain ⟨x, hx, he⟩ := of_owned ht
  rw [h.sum]
  have : x.owned ≤ total fOwned s.threads := le_total fOwned _ _ _ hx
  omega

theorem check_ok {s : Shared.State} (h : Shared.Inv True s) {t : Nat} (ht : 0 < s.owned t) : check s = .ok () := by
  have hr := refs_pos h ht
  unfold check
  rw [Shared.access_ok (h.alive.mpr (.inl hr))]
  exact if_pos hr

theorem step_inv {s : State} {a : Act} (h : Inv s) (ha : Allowed s a) : ∃ s', step s a = .ok s' ∧ Inv s' := by
  cases a with
  | call t fn =>
    obtain ⟨h0, h1⟩ := ha
    rw [fn_allowed] at h1
    simp only [step, check_ok h.base h1.1, bind, Except.bind]
    refine ⟨_, rfl, h.base, fun u f hu => ?_⟩
    dsimp only at hu ⊢
    by_cases e : u = t
    · subst e; exact h1
    · rw [if_neg e] at hu; exact h.pend u f hu
  | go t =>
    cases hp : s.pending t with
    | none => exact absurd hp ha
    | some fn =>
      have h1 := h.pend t fn hp
      obtain ⟨s', hs, hi⟩ := Shared.step_inv h.base ((fn_allowed (fn := fn)).mpr h1) (by cases fn <;> trivial)
      simp only [step, hp, hs, bind, Except.bind]
      refine ⟨_, rfl, hi, fun u f hu => ?_⟩
      dsimp only at hu ⊢
      by_cases e : u = t
      · rw [if_pos e] at hu; cases hu
      · rw [if_neg e] at hu
        have h2 := step_other (t := u) hs (by rw [fn_actor]; exact fun e' => e e'.symm)
        have h3 := h.pend u f hu
        exact ⟨by omega, fun hb => h3.2 (h2.2 hb)⟩
  | other a =>
    obtain ⟨h0, h1, h2⟩ := ha
    obtain ⟨s', hs, hi⟩ := Shared.step_inv h.base h1 (by cases a <;> first | trivial | exact h2.elim)
    simp only [step, hs, bind, Except.bind]
    refine ⟨_, rfl, hi, fun u f hu => ?_⟩
    dsimp only at hu ⊢
    have hne : actor a ≠ u := fun e => by rw [e, hu] at h0; cases h0
    have h3 := step_other (t := u) hs hne
    have h4 := h.pend u f hu
    exact ⟨by omega, fun hb => h4.2 (h3.2 hb)⟩

theorem reach_inv {kind : Kind} {n : Nat} {s : State} (h : Reach kind n s) : Inv s := by
  induction h with
  | new => exact ⟨new_inv True kind n, fun _ _ hp => by cases hp⟩
  | step _ ha hs ih =>
    obtain ⟨s', h1, h2⟩ := step_inv ih ha
    rw [h1] at hs
    cases hs
    exact h2

end Verif.Shared.Debug

namespace Verif.Weak.Debug
open Verif.C

theorem step_eq {s : State} {a : Act} (h : Inv s) (ha : Allowed s a) : step s a = Weak.step s a := by
  have key : 0 < s.owned → s.access = .ok () ∧ 0 < s.refs := fun ho =>
    ⟨access_ok (h.aliveIff.2 ho), by rw [h.refsEq]; exact ho⟩
  cases a with
  | ref =>
    obtain ⟨h1, h2⟩ := key ha
    simp only [step, ref, h1, gassert, if_pos h2, bind, Except.bind]
    rfl
  | unref =>
    obtain ⟨h1, h2⟩ := key ha
    simp only [step, unref, h1, gassert, if_pos h2, bind, Except.bind]
    rfl
  | _ => rfl

end Verif.Weak.Debug

namespace Verif.TimeNotify.Debug
open Verif.C

theorem step_eq {s : State} {a : Act} (h : Inv s) (ha : Allowed s a) : step s a = TimeNotify.step s a := by
  cases a with
  | dispatch bad =>
    obtain ⟨_, h2⟩ := ha
    simp only [step, TimeNotify.step]
    cases hs : s.sources with
    | nil => rfl
    | cons src t =>
      rw [hs] at h2
      dsimp only at h2 ⊢
      cases bad with
      | true => rfl
      | false =>
        have hr : src.fd ∈ s.readable := h2.resolve_left (by simp)
        obtain ⟨ht, o, ho⟩ := sources_of h hs
        obtain ⟨_, _, _, hw⟩ := h.there o ho
        cases hc : o.chan with
        | none =>
          simp only [Wired, hc, hs] at hw
          cases hw.2.1
        | some c =>
          simp only [Wired, hc] at hw
          obtain ⟨_, w1, w2⟩ := hw
          rcases w2 with ⟨_, w, _⟩ | ⟨_, w, _⟩
          · rw [hs] at w; cases w
          · rw [hs] at w
            have e := (List.cons.inj w).1
            have hfd : src.fd = c.fd := by rw [e]
            rw [hfd] at hr
            have hm : c.fd ∈ s.fds := by rw [w1]; simp
            unfold callback
            simp only [self_ok ho, hc, read, if_pos hm, if_pos hr, gassert, bind, Except.bind]
            rfl
  | _ => rfl

end Verif.TimeNotify.Debug
