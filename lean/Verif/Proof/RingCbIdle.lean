import Verif.Proof.RingCb

namespace Verif.RingCb
open Verif.C Verif.Ring
open Verif.Ring.Spec (Ptr Op Out)

/-! # Free functions which don't use the ring: the two models agree -/

/-- The call has got to `s1`; if free functions just return then it ends up in `s'`. -/
def Ends (m : M State) (s' : State) : Prop := ∃ s1 k, m = .ok s1 ∧ exec s1 (List.replicate k .ret) = .ok s'

theorem Ends.done {m : M State} {s' : State} (h : m = .ok s') : Ends m s' := ⟨s', 0, h, rfl⟩

theorem Ends.ret {s1 s' : State} {m : M State} (h1 : m = .ok s1) (h2 : Ends (ret s1) s') : Ends m s' := by
  obtain ⟨s2, k, h3, h4⟩ := h2
  refine ⟨s1, k + 1, h1, ?_⟩
  rw [List.replicate_succ, exec, step, h3]
  exact h4

theorem get_keeps {r r' : Ring} {p : Ptr} (h : get r = .ok (p, r')) : r'.free = r.free ∧ r'.refCount = r.refCount ∧ r'.freed = r.freed := by
  unfold Ring.get at h
  split at h
  · cases h1 : slot r r.start with
    | error e => rw [h1, error_bind] at h; cases h
    | ok q =>
      rw [h1, ok_bind] at h
      cases h2 : chk32 (r.start + 1) with
      | error e => rw [h2, error_bind] at h; cases h
      | ok st =>
        rw [h2, ok_bind] at h
        split at h
        · cases h; exact ⟨rfl, rfl, rfl⟩
        · cases h3 : cMod st r.alloc with
          | error e => rw [h3, error_bind] at h; cases h
          | ok st =>
            rw [h3, ok_bind] at h
            split at h
            · cases h; exact ⟨rfl, rfl, rfl⟩
            · cases h; exact ⟨rfl, rfl, rfl⟩
  · cases h; exact ⟨rfl, rfl, rfl⟩

theorem callFree_some {r : Ring} {f : Nat} (p : Ptr) (h : r.free = some f) : callFree r p = { r with freed := r.freed ++ [(f, p)] } := by
  unfold callFree
  split
  · rename_i h1; rw [h] at h1; cases h1
  · rename_i g h1; rw [h] at h1; cases h1; rfl

theorem dropIter_eq {s : State} {f n : Nat} {max : Option Int} {p : Ptr} (hf : s.ring.free = some f) (h : slot s.ring s.ring.start = .ok p) :
    dropIter s n max = .ok (enter s f p (.drop n max)) := by
  unfold dropIter
  rw [h, ok_bind, hf]

theorem dropLastIter_eq {s : State} {f n : Nat} {e e' : Int} {p : Ptr} (hf : s.ring.free = some f) (h1 : chk32 (s.ring.fin + s.ring.alloc) = .ok e)
    (h2 : cMod (e - 1) s.ring.alloc = .ok e') (h3 : slot { s.ring with fin := e' } e' = .ok p) :
    dropLastIter s n = .ok (enter { s with ring := { s.ring with fin := e' } } f p (.dropLast n)) := by
  unfold dropLastIter
  rw [h1, ok_bind, h2, ok_bind]
  dsimp only
  rw [h3, ok_bind]
  split
  · rename_i g hg; rw [hf] at hg; cases hg; rfl
  · rename_i hg; rw [hf] at hg; cases hg

theorem unrefIter_eq {s : State} {f i n : Nat} {k k' : Int} {p : Ptr} (hf : s.ring.free = some f) (h1 : chk32 (s.ring.start + i) = .ok k)
    (h2 : cMod k s.ring.alloc = .ok k') (h3 : slot s.ring k' = .ok p) : unrefIter s i n = .ok (enter s f p (.unref (i + 1) n)) := by
  unfold unrefIter
  rw [h1, ok_bind, h2, ok_bind, h3, ok_bind, hf]

theorem clearLoop_ends {f : Nat} {max : Option Int} : ∀ (n : Nat) (s : State) (r' : Ring), s.ring.free = some f → s.ring.refCount ≠ 0 →
    clearLoop (n + 1) s.ring = .ok r' → Ends (clearIter s f n max) (finish { s with ring := r' } max) := by
  intro n
  induction n with
  | zero =>
    intro s r' hf hr h
    rw [clearLoop] at h
    cases h1 : get s.ring with
    | error e => rw [h1, error_bind] at h; cases h
    | ok x =>
      obtain ⟨p, r⟩ := x
      obtain ⟨g1, g2, _⟩ := get_keeps h1
      rw [h1, ok_bind] at h
      dsimp only at h
      rw [callFree_some p (g1.trans hf)] at h
      refine .ret (s1 := enter { s with ring := r } f p (.clear 0 f max)) (by rw [clearIter, h1, ok_bind]) ?_
      rw [ret, enter]
      dsimp only
      rw [if_neg (by rw [g2]; exact hr)]
      cases h2 : size { r with freed := r.freed ++ [(f, p)] } with
      | error e => rw [h2, error_bind] at h; cases h
      | ok sz =>
        rw [h2, ok_bind] at h
        rw [if_neg (by omega)] at h
        cases h
        rw [ok_bind]
        exact .done (if_neg (by omega))
  | succ n ih =>
    intro s r' hf hr h
    rw [clearLoop] at h
    cases h1 : get s.ring with
    | error e => rw [h1, error_bind] at h; cases h
    | ok x =>
      obtain ⟨p, r⟩ := x
      obtain ⟨g1, g2, _⟩ := get_keeps h1
      rw [h1, ok_bind] at h
      dsimp only at h
      rw [callFree_some p (g1.trans hf)] at h
      refine .ret (s1 := enter { s with ring := r } f p (.clear (n + 1) f max)) (by rw [clearIter, h1, ok_bind]) ?_
      rw [ret, enter]
      dsimp only
      rw [if_neg (by rw [g2]; exact hr)]
      cases h2 : size { r with freed := r.freed ++ [(f, p)] } with
      | error e => rw [h2, error_bind] at h; cases h
      | ok sz =>
        rw [h2, ok_bind] at h
        rw [ok_bind]
        by_cases hc : n + 1 > 0 ∧ sz > 0
        · rw [if_pos hc] at h ⊢
          exact ih { s with ring := { r with freed := r.freed ++ [(f, p)] } } r' (by dsimp only; rw [g1, hf]) (by dsimp only; rw [g2]; exact hr) h
        · rw [if_neg hc] at h ⊢
          cases h
          exact .done rfl

theorem clear_ends {s : State} {r' : Ring} {max : Option Int} (hr : s.ring.refCount ≠ 0) (h : Ring.clear s.ring = .ok r') :
    Ends (clear s max) (finish { s with ring := r' } max) := by
  rw [Ring.clear] at h
  rw [clear]
  cases h1 : size s.ring with
  | error e => rw [h1, error_bind] at h; cases h
  | ok n =>
    rw [h1, ok_bind] at h
    rw [ok_bind]
    by_cases hn : n > 0
    · rw [if_pos hn] at h ⊢
      rcases Option.eq_none_or_eq_some s.ring.free with hf | ⟨f, hf⟩
      · have hs : ¬ s.ring.free.isSome = true := by rw [hf]; simp
        rw [if_neg hs] at h
        cases h
        refine .done ?_
        split
        · rename_i g hg; rw [hf] at hg; cases hg
        · rfl
      · have hs : s.ring.free.isSome = true := by rw [hf]; rfl
        rw [if_pos hs] at h
        have e : n.toNat = (n.toNat - 1) + 1 := by omega
        rw [e] at h
        rw [hf]
        exact clearLoop_ends _ s r' hf hr h
    · rw [if_neg hn] at h ⊢
      cases h
      exact .done rfl

theorem dropLoop_ends {f : Nat} {max : Option Int} : ∀ (n : Nat) (s : State) (r' : Ring), s.ring.free = some f → s.ring.refCount ≠ 0 →
    dropLoop (n + 1) s.ring = .ok r' → Ends (dropIter s n max) (finish { s with ring := r' } max) := by
  intro n
  induction n with
  | zero =>
    intro s r' hf hr h
    rw [dropLoop] at h
    cases h1 : slot s.ring s.ring.start with
    | error e => rw [h1, error_bind] at h; cases h
    | ok p =>
      rw [h1, ok_bind] at h
      dsimp only at h
      rw [callFree_some p hf] at h
      dsimp only at h
      refine .ret (dropIter_eq hf h1) ?_
      rw [ret, enter]
      dsimp only
      rw [if_neg hr]
      cases h2 : chk32 (s.ring.start + 1) with
      | error e => rw [h2, error_bind] at h; cases h
      | ok st =>
        rw [h2, ok_bind] at h
        rw [ok_bind]
        cases h3 : cMod st s.ring.alloc with
        | error e => rw [h3, error_bind] at h; cases h
        | ok st =>
          rw [h3, ok_bind] at h
          rw [ok_bind, if_neg (by omega)]
          cases h
          exact .done rfl
  | succ n ih =>
    intro s r' hf hr h
    rw [dropLoop] at h
    cases h1 : slot s.ring s.ring.start with
    | error e => rw [h1, error_bind] at h; cases h
    | ok p =>
      rw [h1, ok_bind] at h
      dsimp only at h
      rw [callFree_some p hf] at h
      dsimp only at h
      refine .ret (dropIter_eq hf h1) ?_
      rw [ret, enter]
      dsimp only
      rw [if_neg hr]
      cases h2 : chk32 (s.ring.start + 1) with
      | error e => rw [h2, error_bind] at h; cases h
      | ok st =>
        rw [h2, ok_bind] at h
        rw [ok_bind]
        cases h3 : cMod st s.ring.alloc with
        | error e => rw [h3, error_bind] at h; cases h
        | ok st =>
          rw [h3, ok_bind] at h
          rw [ok_bind, if_pos (by omega)]
          exact ih { s with ring := { s.ring with start := st, freed := s.ring.freed ++ [(f, p)] } } r' hf hr h

theorem drop_ends {s : State} {r' : Ring} {max : Option Int} {n k : Int} (hr : s.ring.refCount ≠ 0) (h : Ring.drop s.ring n = .ok (k, r')) :
    Ends (drop s n max) (finish { s with ring := r' } max) := by
  rw [Ring.drop] at h
  rw [drop]
  by_cases hn : n > 0
  · rw [if_pos hn] at h ⊢
    cases h1 : size s.ring with
    | error e => rw [h1, error_bind] at h; cases h
    | ok sz =>
      rw [h1, ok_bind] at h
      rw [ok_bind]
      by_cases hz : sz > 0
      · rw [if_pos hz] at h ⊢
        by_cases hc : n ≥ sz
        · rw [if_pos hc] at h ⊢
          cases h2 : Ring.clear s.ring with
          | error e => rw [h2, error_bind] at h; cases h
          | ok r =>
            rw [h2, ok_bind] at h
            cases h
            exact clear_ends hr h2
        · rw [if_neg hc] at h ⊢
          rcases Option.eq_none_or_eq_some s.ring.free with hf | ⟨f, hf⟩
          · have hs : ¬ s.ring.free.isSome = true := by rw [hf]; simp
            rw [if_neg hs] at h ⊢
            cases h2 : chk32 (s.ring.start + n) with
            | error e => rw [h2, error_bind] at h; cases h
            | ok st =>
              rw [h2, ok_bind] at h
              rw [ok_bind]
              cases h3 : cMod st s.ring.alloc with
              | error e => rw [h3, error_bind] at h; cases h
              | ok st =>
                rw [h3, ok_bind] at h
                rw [ok_bind]
                cases h
                exact .done rfl
          · have hs : s.ring.free.isSome = true := by rw [hf]; rfl
            rw [if_pos hs] at h ⊢
            have e : n.toNat = (n.toNat - 1) + 1 := by omega
            rw [e] at h
            cases h2 : dropLoop (n.toNat - 1 + 1) s.ring with
            | error e => rw [h2, error_bind] at h; cases h
            | ok r =>
              rw [h2, ok_bind] at h
              cases h
              exact dropLoop_ends _ s _ hf hr h2
      · rw [if_neg hz] at h ⊢
        cases h
        exact .done rfl
  · rw [if_neg hn] at h ⊢
    cases h
    exact .done rfl

theorem dropLastLoop_ends {f : Nat} : ∀ (n : Nat) (s : State) (r' : Ring), s.ring.free = some f → s.ring.refCount ≠ 0 →
    dropLastLoop (n + 1) s.ring = .ok r' → Ends (dropLastIter s n) { s with ring := r' } := by
  intro n
  induction n with
  | zero =>
    intro s r' hf hr h
    rw [dropLastLoop] at h
    cases h1 : chk32 (s.ring.fin + s.ring.alloc) with
    | error e => rw [h1, error_bind] at h; cases h
    | ok e1 =>
      rw [h1, ok_bind] at h
      cases h2 : cMod (e1 - 1) s.ring.alloc with
      | error e => rw [h2, error_bind] at h; cases h
      | ok e =>
        rw [h2, ok_bind] at h
        dsimp only at h
        cases h3 : slot { s.ring with fin := e } e with
        | error e => rw [h3, error_bind] at h; cases h
        | ok p =>
          rw [h3, ok_bind] at h
          rw [callFree_some (r := { s.ring with fin := e }) p hf] at h
          dsimp only at h
          refine .ret (dropLastIter_eq hf h1 h2 h3) ?_
          rw [ret, enter]
          dsimp only
          rw [if_neg hr, if_neg (by omega)]
          rw [dropLastLoop] at h
          cases h
          exact .done rfl
  | succ n ih =>
    intro s r' hf hr h
    rw [dropLastLoop] at h
    cases h1 : chk32 (s.ring.fin + s.ring.alloc) with
    | error e => rw [h1, error_bind] at h; cases h
    | ok e1 =>
      rw [h1, ok_bind] at h
      cases h2 : cMod (e1 - 1) s.ring.alloc with
      | error e => rw [h2, error_bind] at h; cases h
      | ok e =>
        rw [h2, ok_bind] at h
        dsimp only at h
        cases h3 : slot { s.ring with fin := e } e with
        | error e => rw [h3, error_bind] at h; cases h
        | ok p =>
          rw [h3, ok_bind] at h
          rw [callFree_some (r := { s.ring with fin := e }) p hf] at h
          dsimp only at h
          refine .ret (dropLastIter_eq hf h1 h2 h3) ?_
          rw [ret, enter]
          dsimp only
          rw [if_neg hr, if_pos (by omega)]
          exact ih { s with ring := { s.ring with fin := e, freed := s.ring.freed ++ [(f, p)] } } r' hf hr h

theorem dropLast_ends {s : State} {r' : Ring} {n k : Int} (hr : s.ring.refCount ≠ 0) (h : Ring.dropLast s.ring n = .ok (k, r')) :
    Ends (dropLast s n) { s with ring := r' } := by
  rw [Ring.dropLast] at h
  rw [dropLast]
  by_cases hn : n > 0
  · rw [if_pos hn] at h ⊢
    cases h1 : size s.ring with
    | error e => rw [h1, error_bind] at h; cases h
    | ok sz =>
      rw [h1, ok_bind] at h
      rw [ok_bind]
      by_cases hz : sz > 0
      · rw [if_pos hz] at h ⊢
        by_cases hc : n ≥ sz
        · rw [if_pos hc] at h ⊢
          cases h2 : Ring.clear s.ring with
          | error e => rw [h2, error_bind] at h; cases h
          | ok r =>
            rw [h2, ok_bind] at h
            cases h
            exact clear_ends (max := none) hr h2
        · rw [if_neg hc] at h ⊢
          rcases Option.eq_none_or_eq_some s.ring.free with hf | ⟨f, hf⟩
          · have hs : ¬ s.ring.free.isSome = true := by rw [hf]; simp
            rw [if_neg hs] at h ⊢
            cases h2 : chk32 (s.ring.fin + s.ring.alloc) with
            | error e => rw [h2, error_bind] at h; cases h
            | ok e =>
              rw [h2, ok_bind] at h
              rw [ok_bind]
              cases h3 : cMod (e - n) s.ring.alloc with
              | error e => rw [h3, error_bind] at h; cases h
              | ok e =>
                rw [h3, ok_bind] at h
                rw [ok_bind]
                cases h
                exact .done rfl
          · have hs : s.ring.free.isSome = true := by rw [hf]; rfl
            rw [if_pos hs] at h ⊢
            have e : n.toNat = (n.toNat - 1) + 1 := by omega
            rw [e] at h
            cases h2 : dropLastLoop (n.toNat - 1 + 1) s.ring with
            | error e => rw [h2, error_bind] at h; cases h
            | ok r =>
              rw [h2, ok_bind] at h
              cases h
              exact dropLastLoop_ends _ s _ hf hr h2
      · rw [if_neg hz] at h ⊢
        cases h
        exact .done rfl
  · rw [if_neg hn] at h ⊢
    cases h
    exact .done rfl

theorem unrefLoop_ends {f : Nat} : ∀ (n : Nat) (i : Nat) (s : State) (r r' : Ring), r.free = some f → s.ring = { r with refCount := 0 } →
    unrefLoop (n + 1) i r = .ok r' → Ends (unrefIter s i (i + n + 1)) { s with ring := { r' with refCount := 0 } } := by
  intro n
  induction n with
  | zero =>
    intro i s r r' hf hs h
    rw [unrefLoop] at h
    have hf' : s.ring.free = some f := by rw [hs]; exact hf
    cases h1 : chk32 (r.start + i) with
    | error e => rw [h1, error_bind] at h; cases h
    | ok k1 =>
      rw [h1, ok_bind] at h
      cases h2 : cMod k1 r.alloc with
      | error e => rw [h2, error_bind] at h; cases h
      | ok k =>
        rw [h2, ok_bind] at h
        cases h3 : slot r k with
        | error e => rw [h3, error_bind] at h; cases h
        | ok p =>
          rw [h3, ok_bind] at h
          rw [callFree_some p hf] at h
          refine .ret (unrefIter_eq (k := k1) (k' := k) (p := p) hf' (by rw [hs]; exact h1) (by rw [hs]; exact h2) (by rw [hs]; exact h3)) ?_
          rw [ret, enter]
          dsimp only
          rw [if_neg (by omega)]
          rw [unrefLoop] at h
          cases h
          exact .done (by rw [hs])
  | succ n ih =>
    intro i s r r' hf hs h
    rw [unrefLoop] at h
    have hf' : s.ring.free = some f := by rw [hs]; exact hf
    cases h1 : chk32 (r.start + i) with
    | error e => rw [h1, error_bind] at h; cases h
    | ok k1 =>
      rw [h1, ok_bind] at h
      cases h2 : cMod k1 r.alloc with
      | error e => rw [h2, error_bind] at h; cases h
      | ok k =>
        rw [h2, ok_bind] at h
        cases h3 : slot r k with
        | error e => rw [h3, error_bind] at h; cases h
        | ok p =>
          rw [h3, ok_bind] at h
          rw [callFree_some p hf] at h
          refine .ret (unrefIter_eq (k := k1) (k' := k) (p := p) hf' (by rw [hs]; exact h1) (by rw [hs]; exact h2) (by rw [hs]; exact h3)) ?_
          rw [ret, enter]
          dsimp only
          rw [if_pos (by omega)]
          have := ih (i + 1) { s with ring := { r with refCount := 0, freed := r.freed ++ [(f, p)] } } { r with freed := r.freed ++ [(f, p)] } r' hf rfl
            (by exact_mod_cast h)
          have e : i + 1 + n + 1 = i + (n + 1) + 1 := by omega
          rw [e] at this
          rw [hs]
          exact this

theorem unref_ends {s : State} {r' : Ring} (h : Ring.unref s.ring = .ok r') : Ends (unref s) { s with ring := r' } := by
  rw [Ring.unref] at h
  rw [unref]
  by_cases h1 : s.ring.refCount = 1
  · rw [if_pos h1] at h ⊢
    dsimp only
    rcases Option.eq_none_or_eq_some s.ring.free with hf | ⟨f, hf⟩
    · have hs : ¬ s.ring.free.isSome = true := by rw [hf]; simp
      rw [if_neg hs, ok_bind] at h
      rw [if_neg hs]
      cases h
      exact .done rfl
    · have hs : s.ring.free.isSome = true := by rw [hf]; rfl
      rw [if_pos hs] at h ⊢
      have e0 : size { s.ring with refCount := 0 } = size s.ring := rfl
      rw [e0]
      cases h2 : size s.ring with
      | error e => rw [h2, error_bind] at h; cases h
      | ok n =>
        rw [h2, ok_bind] at h
        rw [ok_bind]
        by_cases hn : n > 0
        · rw [if_pos hn]
          obtain ⟨m, hm⟩ : ∃ m, n.toNat = m + 1 := ⟨n.toNat - 1, by omega⟩
          rw [hm] at h ⊢
          cases h3 : unrefLoop (m + 1) 0 s.ring with
          | error e => rw [h3, error_bind] at h; cases h
          | ok r =>
            rw [h3, ok_bind] at h
            cases h
            have := unrefLoop_ends m 0 { s with ring := { s.ring with refCount := 0 } } s.ring r hf rfl h3
            rw [Nat.zero_add] at this
            exact this
        · rw [if_neg hn]
          have e : n.toNat = 0 := by omega
          rw [e, unrefLoop, ok_bind] at h
          cases h
          exact .done rfl
  · rw [if_neg h1] at h ⊢
    cases h
    exact .done rfl

theorem setMaxSize_ends {s : State} {r' : Ring} {n : Int} (hr : s.ring.refCount ≠ 0) (h : Ring.setMaxSize s.ring n = .ok r') :
    Ends (setMaxSize s n) { s with ring := r' } := by
  rw [Ring.setMaxSize] at h
  rw [setMaxSize]
  dsimp only at h ⊢
  generalize (if n < 0 then (-1 : Int) else n) = m at h ⊢
  by_cases h1 : s.ring.maxsiz ≠ m
  · rw [if_pos h1] at h ⊢
    cases h2 : size s.ring with
    | error e => rw [h2, error_bind] at h; cases h
    | ok sz =>
      rw [h2, ok_bind] at h
      rw [ok_bind]
      by_cases h3 : m ≥ 0 ∧ sz > m
      · rw [if_pos h3] at h ⊢
        cases h4 : Ring.drop s.ring (sz - m) with
        | error e => rw [h4, error_bind] at h; cases h
        | ok x =>
          obtain ⟨k, r⟩ := x
          rw [h4, ok_bind] at h
          dsimp only at h
          cases h
          exact drop_ends hr h4
      · rw [if_neg h3] at h ⊢
        rw [ok_bind] at h
        cases h
        exact .done rfl
  · rw [if_neg h1] at h ⊢
    cases h
    exact .done rfl

theorem note_ring (s : State) (r : Ring) (op : Op) (o : Out) : (note s r op o).ring = r ∧ (note s r op o).stack = s.stack := by
  unfold note
  split <;> exact ⟨rfl, rfl⟩

theorem call_ends {s : State} {op : Op} {o : Out} {r' : Ring} (h : Ring.exec s.ring op = .ok (o, r')) :
    ∃ s', Ends (call s op) s' ∧ s'.ring = r' ∧ s'.stack = s.stack := by
  have hr : s.ring.refCount ≠ 0 := by
    intro e
    unfold Ring.exec at h
    rw [if_pos e] at h
    cases h
  cases op with
  | clear =>
    rw [Ring.exec, if_neg hr] at h
    rw [call, if_neg hr]
    cases h1 : Ring.clear s.ring with
    | error e => rw [h1, error_bind] at h; cases h
    | ok r => rw [h1, ok_bind] at h; cases h; exact ⟨_, clear_ends (max := none) hr h1, rfl, rfl⟩
  | drop n =>
    rw [Ring.exec, if_neg hr] at h
    dsimp only at h
    rw [call, if_neg hr]
    cases h1 : Ring.drop s.ring n with
    | error e => rw [h1, error_bind] at h; cases h
    | ok x => rw [h1, ok_bind] at h; cases h; exact ⟨_, drop_ends (max := none) hr h1, rfl, rfl⟩
  | dropLast n =>
    rw [Ring.exec, if_neg hr] at h
    dsimp only at h
    rw [call, if_neg hr]
    cases h1 : Ring.dropLast s.ring n with
    | error e => rw [h1, error_bind] at h; cases h
    | ok x => rw [h1, ok_bind] at h; cases h; exact ⟨_, dropLast_ends hr h1, rfl, rfl⟩
  | setMaxSize n =>
    rw [Ring.exec, if_neg hr] at h
    rw [call, if_neg hr]
    cases h1 : Ring.setMaxSize s.ring n with
    | error e => rw [h1, error_bind] at h; cases h
    | ok x => rw [h1, ok_bind] at h; cases h; exact ⟨_, setMaxSize_ends hr h1, rfl, rfl⟩
  | unref =>
    rw [Ring.exec, if_neg hr] at h
    rw [call, if_neg hr]
    cases h1 : Ring.unref s.ring with
    | error e => rw [h1, error_bind] at h; cases h
    | ok x => rw [h1, ok_bind] at h; cases h; exact ⟨_, unref_ends h1, rfl, rfl⟩
  | ref => exact ⟨note s r' (.ref) o, .done (by rw [call, if_neg hr, h] <;> first | rfl | simp), note_ring ..⟩
  | setFreeFunc f => exact ⟨note s r' (.setFreeFunc f) o, .done (by rw [call, if_neg hr, h] <;> first | rfl | simp), note_ring ..⟩
  | maxSize => exact ⟨note s r' (.maxSize) o, .done (by rw [call, if_neg hr, h] <;> first | rfl | simp), note_ring ..⟩
  | size => exact ⟨note s r' (.size) o, .done (by rw [call, if_neg hr, h] <;> first | rfl | simp), note_ring ..⟩
  | compact => exact ⟨note s r' (.compact) o, .done (by rw [call, if_neg hr, h] <;> first | rfl | simp), note_ring ..⟩
  | reserve n => exact ⟨note s r' (.reserve n) o, .done (by rw [call, if_neg hr, h] <;> first | rfl | simp), note_ring ..⟩
  | canPut n => exact ⟨note s r' (.canPut n) o, .done (by rw [call, if_neg hr, h] <;> first | rfl | simp), note_ring ..⟩
  | put p => exact ⟨note s r' (.put p) o, .done (by rw [call, if_neg hr, h] <;> first | rfl | simp), note_ring ..⟩
  | putFront p => exact ⟨note s r' (.putFront p) o, .done (by rw [call, if_neg hr, h] <;> first | rfl | simp), note_ring ..⟩
  | get => exact ⟨note s r' (.get) o, .done (by rw [call, if_neg hr, h] <;> first | rfl | simp), note_ring ..⟩
  | getLast => exact ⟨note s r' (.getLast) o, .done (by rw [call, if_neg hr, h] <;> first | rfl | simp), note_ring ..⟩
  | dataAt i => exact ⟨note s r' (.dataAt i) o, .done (by rw [call, if_neg hr, h] <;> first | rfl | simp), note_ring ..⟩
  | flatten => exact ⟨note s r' (.flatten) o, .done (by rw [call, if_neg hr, h] <;> first | rfl | simp), note_ring ..⟩

end Verif.RingCb
