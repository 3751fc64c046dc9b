import Verif.Props.IdlePoolDefault
import Verif.Props.IdlePoolOrder

/-!
# What happens to the default pool when the thread exits (C117)
-/

namespace Verif.Pool
open Verif.C

/-- No item is a reference to the pool. -/
def Plain (s : State) : Prop := ∀ i ∈ rests s.stack ++ s.items, i.self = false

theorem plain_still {s s' : State} (h : Still s s') (hp : Plain s) : Plain s' := by
  unfold Plain
  rw [h.stack, h.items]
  exact hp

theorem plain_drain {s s' : State} {k : Cont} {cont : State → M State} (h : drainNext s k cont = .ok s') (hc : ∀ s1, s1.items = [] → cont s1 = .ok s' → Still s1 s')
    (hp : Plain s) : Plain s' := by
  obtain ⟨h1, h2, h3⟩ := drainNext_spec h hc
  rcases h3 with ⟨_, h4, h5⟩ | ⟨p, i, t, h4, _, h5, h6⟩
  · unfold Plain at hp ⊢
    rw [h4, h1, List.append_nil]
    exact fun i hi => hp i (List.mem_append.2 (.inl hi))
  · unfold Plain at hp ⊢
    rw [h4] at hp
    rw [h5, h1]
    intro j hj
    refine hp j ?_
    simp only [rests, List.flatMap_cons, List.append_nil, List.mem_append, List.mem_cons] at hj ⊢
    rcases hj with hj | hj
    · exact .inr (.inr (.inr hj))
    · exact .inl hj

theorem plain_unref {s s' : State} (h : unref s = .ok s') (hp : Plain s) : Plain s' := by
  unfold unref at h
  obtain ⟨_, _, h⟩ := bind_inv h
  split at h
  · cases h
  · split at h
    · exact plain_drain h (fun s1 _ h => still_free h) (plain_still (still_clearCell { s with refs := 0 }) hp)
    · cases h
      exact hp

theorem plain_step {s s' : State} {a : Act} (h : step s a = .ok s') (hp : Plain s) : Plain s' := by
  cases a with
  | add =>
    obtain ⟨_, _, h⟩ := bind_inv h
    unfold add at h
    obtain ⟨l, h1, h⟩ := bind_inv h
    cases h
    have hl : ∀ i ∈ l, i.self = false := by
      have hi : ∀ i ∈ s.items, i.self = false := fun i hi => hp i (List.mem_append.2 (.inr hi))
      unfold append at h1
      split at h1
      · cases h1
        simp
      · split at h1
        · cases h1
          intro i hm
          rcases List.mem_append.1 hm with hm | hm
          · exact hi i (List.mem_of_mem_take hm)
          · rw [List.mem_singleton.1 hm]
        · cases h1
    have : ∀ x : State, x.items = l → x.stack = s.stack → Plain (schedule x) := by
      intro x h1 h2
      have : (schedule x).items = x.items ∧ (schedule x).stack = x.stack := by
        unfold schedule
        split <;> exact ⟨rfl, rfl⟩
      unfold Plain
      rw [this.1, this.2, h1, h2]
      intro i hm
      rcases List.mem_append.1 hm with hm | hm
      · exact hp i (List.mem_append.2 (.inl hm))
      · exact hl i hm
    exact this _ rfl rfl
  | ref =>
    obtain ⟨_, _, h⟩ := bind_inv h
    cases h
    exact hp
  | unref => exact plain_unref (s := { s with owned := s.owned - 1 }) h hp
  | drain => exact plain_drain (k := .ret) h (fun s1 hi h => still_after hi h) hp
  | destroy => exact plain_drain (k := .destroy) h (fun s1 hi h => still_after hi h) hp
  | dispatch src right =>
    obtain ⟨_, _, h⟩ := bind_inv h
    split at h
    · exact plain_drain (s := { s with idle := none }) (k := .idle src) h (fun s1 hi h => still_after hi h) hp
    · exact plain_unref (s := { s with idle := none, live := s.live.erase src }) h hp
  | ret =>
    have h : ret s = .ok s' := h
    unfold ret at h
    split at h
    · cases h
    · rename_i f st hs
      obtain ⟨⟨s2, done⟩, e1, h⟩ := bind_inv h
      obtain ⟨q1, q2, q3⟩ := proc_spec _ e1
      dsimp only at q1 q2 q3 h
      have hp2 : Plain s2 := by
        unfold Plain at hp ⊢
        rw [hs] at hp
        intro j hj
        refine hp j ?_
        simp only [rests, List.flatMap_cons, List.mem_append] at hj ⊢
        rw [q1] at hj
        rcases q3 with ⟨_, _, q4, _⟩ | ⟨_, p, i, t, q4, _, q6, _⟩
        · rw [q4] at hj
          rcases hj with hj | hj
          · exact .inl (.inr hj)
          · exact .inr hj
        · rw [q6, List.flatMap_cons, List.mem_append] at hj
          rcases hj with (hj | hj) | hj
          · exact .inl (.inl (by rw [q4]; simp only [List.mem_append, List.mem_cons]; exact .inr (.inr hj)))
          · exact .inl (.inr hj)
          · exact .inr hj
      split at h
      · exact plain_drain h (fun s1 hi h => still_after hi h) hp2
      · cases h
        exact hp2
  | cell c =>
    cases h
    exact hp

end Verif.Pool

namespace Verif.PoolDefault
open Verif.C

theorem pools_plain {s : State} (h : Reach s) : ∀ (p : Nat) (x : Pool.State), s.pools[p]? = some x → Pool.Plain x := by
  have hnew : ∀ own foreign, Pool.Plain (Pool.new own foreign) := by
    intro own foreign i hi
    simp [Pool.rests, Pool.new] at hi
  have hon : ∀ {s s' : State} {p : Nat} {a : Pool.Act}, onPool s p a = .ok s' → (∀ (p : Nat) (x : Pool.State), s.pools[p]? = some x → Pool.Plain x) →
      ∀ (p : Nat) (x : Pool.State), s'.pools[p]? = some x → Pool.Plain x := by
    intro s s' p a h hp q x hx
    unfold onPool at h
    split at h
    · cases h
    · rename_i y hy
      obtain ⟨y', h1, h⟩ := Pool.bind_inv h
      cases h
      dsimp only at hx
      rw [List.getElem?_set] at hx
      split at hx
      · split at hx
        · cases hx
          exact Pool.plain_step h1 (hp p y hy)
        · cases hx
      · exact hp q x hx
  have happ : ∀ {s : State} {own : Bool} {foreign : List Nat}, (∀ (p : Nat) (x : Pool.State), s.pools[p]? = some x → Pool.Plain x) →
      ∀ (p : Nat) (x : Pool.State), (s.pools ++ [Pool.new own foreign])[p]? = some x → Pool.Plain x := by
    intro s own foreign hp p x hx
    rw [List.getElem?_append] at hx
    split at hx
    · exact hp p x hx
    · rw [List.getElem?_singleton] at hx
      split at hx
      · cases hx
        exact hnew _ _
      · cases hx
  have hget : ∀ {s : State} {t : Nat} {own : Bool} {foreign : List Nat}, (∀ (p : Nat) (x : Pool.State), s.pools[p]? = some x → Pool.Plain x) →
      ∀ (p : Nat) (x : Pool.State), (getDefault s t own foreign).1.pools[p]? = some x → Pool.Plain x := by
    intro s t own foreign hp p x hx
    unfold getDefault at hx
    split at hx
    · exact hp p x hx
    · exact happ hp p x hx
  induction h with
  | init => intro p x hx; simp [init] at hx
  | @step s s' a h ha hs ih =>
    cases a with
    | getDefault t own foreign => cases hs; exact hget ih
    | add t own foreign => exact hon (p := (getDefault s t own foreign).2) hs (hget ih)
    | drain t own foreign => exact hon (p := (getDefault s t own foreign).2) hs (hget ih)
    | pool p a => exact hon hs ih
    | new own foreign => cases hs; exact happ ih
    | exit t =>
      have hs : exit s t = .ok s' := hs
      unfold exit at hs
      split at hs
      · cases hs; exact ih
      · exact hon hs ih

/-- C117. What exactly happens to the pool when the thread exits. It's deallocated, and everything in it is destroyed, if nothing else refers to the pool. If the client
has more references to it (`owned` includes the one which belongs to the thread) or there's an idle source, then nothing changes except that there's one reference less. -/
theorem C117_exit_exactly {s s' : State} (h : Reach s) {t p : Nat} {x : Pool.State} (hc : Current s.hist t p) (ha : Allowed s (.exit t)) (hs : step s (.exit t) = .ok s')
    (hx : s.pools[p]? = some x) :
    ∃ x', s'.pools[p]? = some x' ∧
      (x.owned = 1 ∧ x.live = [] → x'.refs = 0 ∧ (x'.alive = false ∨ x'.stack ≠ []) ∧ (x.items = [] → x'.alive = false) ∧
        ∀ id ∈ Pool.adds x.log, x'.stack = [] → (Pool.destroys x'.log).count id = 1) ∧
      (x.owned ≠ 1 ∨ x.live ≠ [] → x' = { x with refs := x.refs - 1, owned := x.owned - 1 } ∧ x'.alive = true ∧ 0 < x'.refs) := by
  by_cases hk : x.owned = 1 ∧ x.live = []
  · obtain ⟨x', h1, h2⟩ := C117_exit_partial h hc ha hs hx hk.1 hk.2 (fun i hi => pools_plain h p x hx i (List.mem_append.2 (.inr hi)))
    exact ⟨x', h1, fun _ => h2, fun hn => (hn.elim (fun hn => hn hk.1) (fun hn => hn hk.2)).elim⟩
  · obtain ⟨y, x', hy, hu, hx', _⟩ := exit_unref h hc hs
    have hinv := reach_inv h
    obtain ⟨z, hz, h1, h2, _, _, h3⟩ := hinv.own ((hinv.known t p).2 hc)
    rw [hx] at hy hz
    cases hy
    cases hz
    have h4 := (Pool.any_inv (hinv.pools p x hx)).refsEq
    obtain ⟨w, hw, h6⟩ := hinv.held t p ((hinv.known t p).2 hc)
    rw [hx] at hw
    cases hw
    have h5 : 1 < x.refs := by
      have : x.owned ≠ 1 ∨ 0 < x.live.length := by
        rcases Classical.em (x.owned = 1) with e | e
        · exact .inr (List.length_pos_iff.2 (fun e2 => hk ⟨e, e2⟩))
        · exact .inl e
      omega
    have hu : Pool.unref { x with owned := x.owned - 1 } = .ok x' := hu
    unfold Pool.unref at hu
    rw [Pool.access_ok (by exact h2), ok_bind] at hu
    dsimp only at hu
    rw [if_neg (by omega), if_neg (by omega)] at hu
    cases hu
    refine ⟨_, hx', fun hn => absurd hn hk, fun _ => ⟨rfl, h2, ?_⟩⟩
    show 0 < x.refs - 1
    omega

/-- The client has a reference to the pool, and there's something in it. -/
example : ∃ s s' x, Reach s ∧ Current s.hist 0 0 ∧ Allowed s (.exit 0) ∧ step s (.exit 0) = .ok s' ∧ s.pools[0]? = some x ∧ x.owned = 2 ∧ x.live = [] ∧ Pool.adds x.log = [0] := by
  obtain ⟨s, h, _, hq⟩ := leads_reach (acts := [.add 0 false [], .pool 0 .ref, .drain 0 false [], .pool 0 .ret]) (q := fun s => s.hist == [.got 0 0, .got 0 0] && allowed 2 s (.exit 0) &&
    s.priv 0 == some 0 && s.pools == [⟨true, 2, 2, none, [], none, false, .null, [], false, [], 2, 1, [], [.added 0, .destroy 0, .drained 0]⟩]) (by decide +kernel)
  simp only [Bool.and_eq_true, beq_iff_eq] at hq
  obtain ⟨⟨⟨h1, h2⟩, h3⟩, h4⟩ := hq
  have ha : Allowed s (.exit 0) := by
    intro p x hp hx
    rw [h3] at hp
    cases hp
    rw [h4] at hx
    cases hx
    rfl
  obtain ⟨s', hs⟩ := C117_safe h ha
  exact ⟨s, s', _, h, ⟨[.got 0 0], [], h1, by simp⟩, ha, hs, by rw [h4]; rfl, rfl, rfl, rfl⟩

end Verif.PoolDefault
