import Verif.Model.IdlePoolThreads

/-! Invariants of `Model/IdlePoolThreads.lean` -/

namespace Verif.PoolThreads
open Verif.C Spec

theorem added_append (a b : List Event) : added (a ++ b) = added a ++ added b := by
  induction a with
  | nil => rfl
  | cons e t ih => cases e <;> simp [added, ih]

theorem destroyed_append (a b : List Event) : destroyed (a ++ b) = destroyed a ++ destroyed b := by
  induction a with
  | nil => rfl
  | cons e t ih => cases e <;> simp [destroyed, ih]

theorem added_map (l : List Nat) : added (l.map Event.destroy) = [] := by
  induction l with
  | nil => rfl
  | cons e t ih => simpa [added] using ih

theorem destroyed_map (l : List Nat) : destroyed (l.map Event.destroy) = l := by
  induction l with
  | nil => rfl
  | cons e t ih => simpa [destroyed] using ih

theorem freed_map (l : List Nat) : Event.freed ∉ l.map Event.destroy := by simp

/-- References held by the main thread -/
def mainRefs : Main → Nat
  | .away => 0
  | _ => 1

/-- The reference which is going to belong to the source -/
def pending : Owner → Nat
  | .addAttach => 1
  | _ => 0

structure Inv (s : State) : Prop where
  alive : s.alive = true ↔ 0 < s.refs
  refs : s.refs = s.owned + s.live.length + mainRefs s.main + pending s.owner
  owned : s.owner ≠ .ready → 0 < s.owned
  log : destroyed s.log ++ s.items = added s.log
  range : added s.log = List.range s.nextId
  freed : Event.freed ∈ s.log ↔ s.alive = false
  once : s.log.count .freed ≤ 1
  empty : s.alive = false → s.items = []

theorem inv_new : Inv new := by
  constructor <;> simp [new, destroyed, added, mainRefs, pending]

theorem access_ok {s : State} (h : s.alive = true) : s.access = .ok () := by simp [State.access, h]

/-- The last reference -/
theorem inv_final {s : State} (ha : s.alive = true) (hl : s.live = []) (hm : s.main = .away) (ho : s.owned = 0) (hw : s.owner = .ready)
    (hlog : destroyed s.log ++ s.items = added s.log) (hr : added s.log = List.range s.nextId) (hf : Event.freed ∉ s.log)
    (h0 : s.refs = 0) :
    ∃ s', final s = .ok s' ∧ Inv s' := by
  rw [final]
  by_cases hi : s.idle = 0
  · refine ⟨{ s with items := [], log := (s.log ++ s.items.map .destroy) ++ [.freed], alive := false }, ?_, ?_⟩
    · simp [removeIdle, destroyItems, hi, ha, bind, Except.bind]
    · have hc := List.count_eq_zero_of_not_mem hf
      have hc2 := List.count_eq_zero_of_not_mem (freed_map s.items)
      constructor <;> simp_all [mainRefs, pending, destroyed_append, added_append, added_map, destroyed_map, added, destroyed]
  · refine ⟨{ s with items := [], idle := 0, log := ((s.log ++ s.items.map .destroy) ++ [.critical s.idle]) ++ [.freed], alive := false }, ?_, ?_⟩
    · simp [removeIdle, destroyItems, hi, ha, bind, Except.bind, removeSource, hl, hm]
    · have hc := List.count_eq_zero_of_not_mem hf
      have hc2 := List.count_eq_zero_of_not_mem (freed_map s.items)
      constructor <;> simp_all [mainRefs, pending, destroyed_append, added_append, added_map, destroyed_map, added, destroyed]

/-- A reference is released -/
theorem inv_unref {s : State} (ha : s.alive = true) (hr : s.refs = s.owned + s.live.length + mainRefs s.main + pending s.owner + 1)
    (hw : s.owner ≠ .ready → 0 < s.owned) (hlog : destroyed s.log ++ s.items = added s.log) (hrange : added s.log = List.range s.nextId)
    (hf : Event.freed ∉ s.log) :
    ∃ s', unref s = .ok s' ∧ Inv s' := by
  rw [unref, access_ok ha, ok_bind, if_neg (by omega)]
  by_cases h1 : s.refs = 1
  · rw [if_pos h1]
    have hl : s.live = [] := List.length_eq_zero_iff.mp (by omega)
    have hm : s.main = .away := by
      cases hm : s.main with
      | away => rfl
      | clear _ _ => rw [hm] at hr; simp [mainRefs] at hr; omega
      | release _ _ => rw [hm] at hr; simp [mainRefs] at hr; omega
    have ho : s.owner = .ready := by
      rcases Classical.em (s.owner = .ready) with h | h
      · exact h
      · have := hw h; omega
    exact inv_final (s := { s with refs := 0 }) ha hl hm (by show s.owned = 0; omega) ho hlog hrange hf rfl
  · rw [if_neg h1]
    refine ⟨_, rfl, ?_⟩
    have hc := List.count_eq_zero_of_not_mem hf
    constructor
    · show s.alive = true ↔ 0 < s.refs - 1
      constructor
      · intro; omega
      · intro; exact ha
    · dsimp only
      omega
    · exact hw
    · exact hlog
    · exact hrange
    · show Event.freed ∈ s.log ↔ s.alive = false
      simp [hf, ha]
    · show s.log.count .freed ≤ 1
      omega
    · intro h; rw [ha] at h; cases h

theorem inv_remove {s : State} (h : Inv s) (ho : 0 < s.owned) (hw : s.owner ≠ .addAttach) (id : Nat) :
    ∃ s', removeSource s id = .ok s' ∧ Inv { s' with owner := .ready } := by
  have hp : pending s.owner = 0 := by cases hw' : s.owner <;> simp_all [pending]
  have hr := h.refs
  have ha := h.alive.2 (by omega)
  rw [removeSource]
  by_cases h1 : id ∈ s.live
  · have hlen := List.length_erase_of_mem h1
    have hpos := List.length_pos_of_mem h1
    rw [if_pos h1, if_neg (by omega)]
    refine ⟨_, rfl, ?_⟩
    constructor
    · show s.alive = true ↔ 0 < s.refs - 1
      simp only [ha, true_iff]; omega
    · show s.refs - 1 = s.owned + (s.live.erase id).length + mainRefs s.main + 0
      omega
    · simp
    · exact h.log
    · exact h.range
    · exact h.freed
    · exact h.once
    · exact h.empty
  · rw [if_neg h1]
    by_cases h2 : s.main = .clear id false
    · rw [if_pos h2]
      refine ⟨_, rfl, ?_⟩
      rw [h2] at hr
      exact ⟨h.alive, by simp only [mainRefs, pending] at hr ⊢; omega, by simp, h.log, h.range, h.freed, h.once, h.empty⟩
    · rw [if_neg h2]
      by_cases h3 : s.main = .release id false
      · rw [if_pos h3]
        refine ⟨_, rfl, ?_⟩
        rw [h3] at hr
        exact ⟨h.alive, by simp only [mainRefs, pending] at hr ⊢; omega, by simp, h.log, h.range, h.freed, h.once, h.empty⟩
      · rw [if_neg h3]
        refine ⟨_, rfl, ?_⟩
        refine ⟨h.alive, by simp only [pending] at hr hp ⊢; omega, by simp, ?_, ?_, ?_, ?_, h.empty⟩
        · simpa [destroyed_append, added_append, destroyed, added] using h.log
        · simpa [added_append, added] using h.range
        · simpa using h.freed
        · have := h.once
          simpa [List.count_append] using this

theorem inv_step {s : State} {a : Act} (h : Inv s) (hal : Allowed s a) : ∃ s', step s a = .ok s' ∧ Inv s' := by
  have hr := h.refs
  have hal' : 0 < s.refs → s.alive = true := h.alive.2
  have hfr : s.alive = true → Event.freed ∉ s.log := fun h1 h2 => by rw [h.freed.1 h2] at h1; cases h1
  cases a with
  | ref =>
    obtain ⟨h1, h2⟩ := hal
    have ha := hal' (by omega)
    rw [step, access_ok ha, ok_bind]
    exact ⟨_, rfl, by simp [ha], by dsimp only; omega, by simp [h1], h.log, h.range, h.freed, h.once, h.empty⟩
  | unref =>
    obtain ⟨h1, h2⟩ := hal
    have ha := hal' (by omega)
    rw [step]
    exact inv_unref (s := { s with owned := s.owned - 1 }) ha (by dsimp only; omega) (by simp [h1])
      h.log h.range (hfr ha)
  | add =>
    obtain ⟨h1, h2⟩ := hal
    have ha := hal' (by omega)
    rw [step, addStart, access_ok ha, ok_bind]
    refine ⟨_, rfl, h.alive, ?_, fun _ => h2, ?_, ?_, ?_, ?_, ?_⟩
    · rw [h1] at hr; exact hr
    · simp [destroyed_append, added_append, destroyed, added, ← h.log]
    · simp [added_append, added, h.range, List.range_succ]
    · simpa using h.freed
    · simpa [List.count_append] using h.once
    · simp [ha]
  | drain =>
    obtain ⟨h1, h2⟩ := hal
    have ha := hal' (by omega)
    rw [step, drainStart, access_ok ha, ok_bind]
    refine ⟨_, rfl, h.alive, ?_, fun _ => h2, ?_, ?_, ?_, ?_, ?_⟩
    · rw [h1] at hr; exact hr
    · simp [destroyItems, destroyed_append, added_append, destroyed_map, added_map, ← h.log]
    · simp [destroyItems, added_append, added_map, h.range]
    · simpa [destroyItems] using h.freed
    · simpa [destroyItems, List.count_append, List.count_eq_zero_of_not_mem (freed_map s.items)] using h.once
    · simp [destroyItems]
  | go =>
    have hal : s.owner ≠ .ready := hal
    have h2 := h.owned hal
    have ha := hal' (by omega)
    rw [step, go, access_ok ha, ok_bind]
    cases hw : s.owner with
    | ready => exact absurd hw hal
    | addRead =>
      refine ⟨_, rfl, h.alive, ?_, fun _ => h2, h.log, h.range, h.freed, h.once, h.empty⟩
      rw [hw] at hr
      show s.refs = _ + _ + _ + pending (if _ then _ else _)
      split <;> exact hr
    | addRef =>
      rw [hw] at hr
      exact ⟨_, rfl, by simp [ha], by show s.refs + 1 = _ + _ + _ + 1; rw [hr]; rfl, fun _ => h2, h.log, h.range, h.freed, h.once, h.empty⟩
    | addAttach =>
      rw [hw] at hr
      refine ⟨_, rfl, h.alive, ?_, fun _ => h2, h.log, h.range, h.freed, h.once, h.empty⟩
      simp only [pending, List.length_append, List.length_singleton] at hr ⊢
      omega
    | addStore id =>
      rw [hw] at hr
      exact ⟨_, rfl, h.alive, hr, fun _ => h2, h.log, h.range, h.freed, h.once, h.empty⟩
    | drainRead =>
      refine ⟨_, rfl, h.alive, ?_, fun _ => h2, h.log, h.range, h.freed, h.once, h.empty⟩
      rw [hw] at hr
      show s.refs = _ + _ + _ + pending (if _ then _ else _)
      split <;> exact hr
    | drainRead2 =>
      rw [hw] at hr
      exact ⟨_, rfl, h.alive, hr, fun _ => h2, h.log, h.range, h.freed, h.once, h.empty⟩
    | drainClear id =>
      rw [hw] at hr
      exact ⟨_, rfl, h.alive, hr, fun _ => h2, h.log, h.range, h.freed, h.once, h.empty⟩
    | drainRemove id =>
      obtain ⟨s', h3, h4⟩ := inv_remove h h2 (by rw [hw]; simp) id
      refine ⟨_, ?_, h4⟩
      show (do let s ← removeSource s id; .ok { s with owner := .ready } : M State) = _
      rw [h3, ok_bind]
  | dispatch src =>
    obtain ⟨h1, h2⟩ := hal
    have hlen := List.length_erase_of_mem h2
    have hpos := List.length_pos_of_mem h2
    rw [h1] at hr
    refine ⟨_, rfl, h.alive, ?_, h.owned, h.log, h.range, h.freed, h.once, h.empty⟩
    show s.refs = s.owned + (s.live.erase src).length + 1 + pending s.owner
    simp only [mainRefs] at hr
    omega
  | main =>
    have hal : s.main ≠ .away := hal
    have hm : mainRefs s.main = 1 := by cases hm : s.main <;> simp_all [mainRefs]
    have ha := hal' (by omega)
    rw [step, mainGo, access_ok ha, ok_bind]
    cases hm' : s.main with
    | away => exact absurd hm' hal
    | clear src r =>
      refine ⟨_, rfl, h.alive, ?_, h.owned, h.log, h.range, h.freed, h.once, h.empty⟩
      rw [hm] at hr
      exact hr
    | release src r =>
      exact inv_unref (s := { s with main := .away }) ha (by show s.refs = s.owned + s.live.length + 0 + pending s.owner + 1; omega) h.owned
        h.log h.range (hfr ha)

theorem reach_inv {P : State → Act → Prop} {s : State} (h : Reach P s) : Inv s := by
  induction h with
  | new => exact inv_new
  | step _ ha _ hs ih =>
    obtain ⟨s', h1, h2⟩ := inv_step ih ha
    rw [hs] at h1
    cases h1
    exact h2

theorem reach_exec {P : State → Act → Prop} (hP : ∀ s a, P s a) {s s' : State} (h : Reach P s) (l : List Act) (hl : legal s l = true)
    (he : exec s l = .ok s') : Reach P s' := by
  induction l generalizing s with
  | nil => cases he; exact h
  | cons a t ih =>
    rw [legal] at hl
    by_cases ha : Allowed s a
    · rw [if_pos ha] at hl
      rw [exec] at he
      cases hs : step s a with
      | error e => rw [hs] at he; cases he
      | ok s1 =>
        rw [hs] at hl he
        exact ih (.step h ha (hP s a) hs) hl he
    · rw [if_neg ha] at hl; cases hl

theorem final_live {s s' : State} (h : final s = .ok s') (hl : s.live = []) (hm : s.main = .away) :
    s'.nextSource = s.nextSource ∧ s'.live = s.live := by
  rw [final] at h
  by_cases hi : s.idle = 0
  · cases ha : s.alive
    · simp [removeIdle, destroyItems, hi, ha, bind, Except.bind] at h
    · simp [removeIdle, destroyItems, hi, ha, bind, Except.bind] at h
      subst h
      exact ⟨rfl, rfl⟩
  · cases ha : s.alive
    · simp [removeIdle, destroyItems, hi, ha, bind, Except.bind, removeSource, hl, hm] at h
    · simp [removeIdle, destroyItems, hi, ha, bind, Except.bind, removeSource, hl, hm] at h
      subst h
      exact ⟨rfl, hl.symm⟩

/-- Ids of sources -/
def Ids (s : State) : Prop := 0 < s.nextSource ∧ ∀ id ∈ s.live, 0 < id

theorem ids_unref {s s' : State} (h : Ids s) (ha : s.alive = true)
    (hr : s.refs = s.owned + s.live.length + mainRefs s.main + pending s.owner + 1)
    (hu : unref s = .ok s') : Ids s' := by
  rw [unref, access_ok ha, ok_bind, if_neg (by omega)] at hu
  by_cases h1 : s.refs = 1
  · rw [if_pos h1] at hu
    have hl : s.live = [] := List.length_eq_zero_iff.mp (by omega)
    have hm : s.main = .away := by
      cases hm : s.main with
      | away => rfl
      | clear _ _ => rw [hm] at hr; simp [mainRefs] at hr; omega
      | release _ _ => rw [hm] at hr; simp [mainRefs] at hr; omega
    obtain ⟨q3, q4⟩ := final_live hu hl hm
    rw [Ids, q3, q4]
    exact h
  · rw [if_neg h1] at hu
    cases hu
    exact h

theorem ids_step {s s' : State} {a : Act} (hi : Inv s) (h : Ids s) (hal : Allowed s a) (hs : step s a = .ok s') : Ids s' := by
  have hr := hi.refs
  have hal' : 0 < s.refs → s.alive = true := hi.alive.2
  cases a with
  | ref =>
    obtain ⟨h1, h2⟩ := hal
    rw [step, access_ok (hal' (by omega)), ok_bind] at hs
    cases hs
    exact h
  | unref =>
    obtain ⟨h1, h2⟩ := hal
    rw [step] at hs
    exact ids_unref (s := { s with owned := s.owned - 1 }) h (hal' (by omega)) (by dsimp only; omega) hs
  | add =>
    obtain ⟨h1, h2⟩ := hal
    rw [step, addStart, access_ok (hal' (by omega)), ok_bind] at hs
    cases hs
    exact h
  | drain =>
    obtain ⟨h1, h2⟩ := hal
    rw [step, drainStart, access_ok (hal' (by omega)), ok_bind] at hs
    cases hs
    exact h
  | go =>
    have hal : s.owner ≠ .ready := hal
    have h2 := hi.owned hal
    rw [step, go, access_ok (hal' (by omega)), ok_bind] at hs
    cases hw : s.owner with
    | ready => exact absurd hw hal
    | addAttach =>
      rw [hw] at hs
      cases hs
      refine ⟨Nat.succ_pos _, fun id e => ?_⟩
      rcases List.mem_append.1 e with e | e
      · exact h.2 id e
      · rw [List.mem_singleton.1 e]; exact h.1
    | drainRemove id =>
      rw [hw] at hs
      have hs : (do let s ← removeSource s id; .ok { s with owner := .ready } : M State) = .ok s' := hs
      cases hq : removeSource s id with
      | error e => rw [hq] at hs; cases hs
      | ok s1 =>
        rw [hq, ok_bind] at hs
        cases hs
        show Ids s1
        rw [removeSource] at hq
        split at hq
        · split at hq
          · cases hq
          · cases hq; exact ⟨h.1, fun i e => h.2 i (List.mem_of_mem_erase e)⟩
        · split at hq
          · cases hq; exact h
          · split at hq <;> cases hq <;> exact h
    | _ => rw [hw] at hs; cases hs; exact h
  | dispatch src =>
    cases hs
    exact ⟨h.1, fun i e => h.2 i (List.mem_of_mem_erase e)⟩
  | main =>
    have hal : s.main ≠ .away := hal
    have hm : mainRefs s.main = 1 := by cases hm : s.main <;> simp_all [mainRefs]
    have ha := hal' (by omega)
    rw [step, mainGo, access_ok ha, ok_bind] at hs
    cases hm' : s.main with
    | away => exact absurd hm' hal
    | clear src r =>
      rw [hm'] at hs
      cases hs
      exact h
    | release src r =>
      rw [hm'] at hs
      exact ids_unref (s := { s with main := .away }) h ha
        (by show s.refs = s.owned + s.live.length + 0 + pending s.owner + 1; omega) hs

theorem reach_ids {P : State → Act → Prop} {s : State} (h : Reach P s) : ∀ id ∈ s.live, 0 < id := by
  suffices Ids s from this.2
  induction h with
  | new => exact ⟨by decide, by simp [new]⟩
  | step hr ha _ hs ih => exact ids_step (reach_inv hr) ih ha hs

theorem remove_added {s s' : State} {id : Nat} (h : removeSource s id = .ok s') : added s'.log = added s.log ∧ destroyed s'.log = destroyed s.log := by
  rw [removeSource] at h
  split at h
  · split at h
    · cases h
    · cases h; exact ⟨rfl, rfl⟩
  · split at h
    · cases h; exact ⟨rfl, rfl⟩
    · split at h
      · cases h; exact ⟨rfl, rfl⟩
      · cases h
        simp [added_append, destroyed_append, added, destroyed]

theorem unref_added {s s' : State} (h : unref s = .ok s') :
    added s'.log = added s.log ∧ (destroyed s'.log = destroyed s.log ∨ Event.freed ∈ s'.log) := by
  rw [unref] at h
  cases ha : s.alive with
  | false => simp [State.access, ha, bind, Except.bind] at h
  | true =>
    rw [access_ok ha, ok_bind] at h
    split at h
    · cases h
    · split at h
      · rw [final] at h
        cases hq : removeIdle (destroyItems { s with refs := 0 }) with
        | error e =>
          rw [hq] at h
          cases h
        | ok s1 =>
          rw [hq, ok_bind] at h
          have h1 : added s1.log = added s.log := by
            have h0 : added (destroyItems { s with refs := 0 }).log = added s.log := by
              show added (_ ++ _) = _
              rw [added_append, added_map, List.append_nil]
            rw [← h0]
            rw [removeIdle] at hq
            split at hq
            · exact (remove_added hq).1
            · cases hq; rfl
          split at h
          · cases h
            exact ⟨by simp [added_append, added, h1], .inr (by simp)⟩
          · cases h
      · cases h
        exact ⟨rfl, .inl rfl⟩

theorem step_added {s s' : State} {a : Act} (hi : Inv s) (hal : Allowed s a) (hs : step s a = .ok s') :
    (a ≠ .add → added s'.log = added s.log) ∧
      (a ≠ .drain → destroyed s'.log = destroyed s.log ∨ (a = .main ∨ a = .unref) ∧ Event.freed ∈ s'.log ∧ Event.freed ∉ s.log) := by
  have hr := hi.refs
  have hal' : 0 < s.refs → s.alive = true := hi.alive.2
  have hfr : s.alive = true → Event.freed ∉ s.log := fun h1 h2 => by rw [hi.freed.1 h2] at h1; cases h1
  cases a with
  | ref =>
    obtain ⟨h1, h2⟩ := hal
    rw [step, access_ok (hal' (by omega)), ok_bind] at hs
    cases hs
    exact ⟨fun _ => rfl, fun _ => .inl rfl⟩
  | unref =>
    obtain ⟨h1, h2⟩ := hal
    rw [step] at hs
    have q := unref_added hs
    refine ⟨fun _ => q.1, fun _ => ?_⟩
    rcases q.2 with q | q
    · exact .inl q
    · exact .inr ⟨.inr rfl, q, hfr (hal' (by omega))⟩
  | add =>
    obtain ⟨h1, h2⟩ := hal
    rw [step, addStart, access_ok (hal' (by omega)), ok_bind] at hs
    cases hs
    exact ⟨fun e => absurd rfl e, fun _ => .inl (by simp [destroyed_append, destroyed])⟩
  | drain =>
    obtain ⟨h1, h2⟩ := hal
    rw [step, drainStart, access_ok (hal' (by omega)), ok_bind] at hs
    cases hs
    exact ⟨fun _ => by show added (_ ++ _) = _; rw [added_append, added_map, List.append_nil], fun e => absurd rfl e⟩
  | go =>
    have hal : s.owner ≠ .ready := hal
    have h2 := hi.owned hal
    rw [step, go, access_ok (hal' (by omega)), ok_bind] at hs
    cases hw : s.owner with
    | ready => exact absurd hw hal
    | drainRemove id =>
      rw [hw] at hs
      have hs : (do let s ← removeSource s id; .ok { s with owner := .ready } : M State) = .ok s' := hs
      cases hq : removeSource s id with
      | error e => rw [hq] at hs; cases hs
      | ok s1 =>
        rw [hq, ok_bind] at hs
        cases hs
        exact ⟨fun _ => (remove_added hq).1, fun _ => .inl (remove_added hq).2⟩
    | _ => rw [hw] at hs; cases hs; exact ⟨fun _ => rfl, fun _ => .inl rfl⟩
  | dispatch src =>
    cases hs
    exact ⟨fun _ => rfl, fun _ => .inl rfl⟩
  | main =>
    have hal : s.main ≠ .away := hal
    have hm : mainRefs s.main = 1 := by cases hm : s.main <;> simp_all [mainRefs]
    have ha := hal' (by omega)
    rw [step, mainGo, access_ok ha, ok_bind] at hs
    cases hm' : s.main with
    | away => exact absurd hm' hal
    | clear src r =>
      rw [hm'] at hs
      cases hs
      exact ⟨fun _ => rfl, fun _ => .inl rfl⟩
    | release src r =>
      rw [hm'] at hs
      have hs : unref { s with main := .away } = .ok s' := hs
      have q := unref_added hs
      refine ⟨fun _ => q.1, fun _ => ?_⟩
      rcases q.2 with q | q
      · exact .inl q
      · exact .inr ⟨.inl rfl, q, hfr ha⟩

instance (s : State) (a : Act) : Decidable (Stored s a) := by
  cases a <;> unfold Stored <;> infer_instance

/-- The rules are being followed, and sources aren't dispatched until their ids are stored -/
def legalStored (s : State) : List Act → Bool
  | [] => true
  | a :: t =>
    if Allowed s a ∧ Stored s a then
      match step s a with
      | .ok s => legalStored s t
      | .error _ => false
    else false

theorem reach_exec_stored {s s' : State} (h : Reach Stored s) (l : List Act) (hl : legalStored s l = true) (he : exec s l = .ok s') :
    Reach Stored s' := by
  induction l generalizing s with
  | nil => cases he; exact h
  | cons a t ih =>
    rw [legalStored] at hl
    by_cases ha : Allowed s a ∧ Stored s a
    · rw [if_pos ha] at hl
      rw [exec] at he
      cases hs : step s a with
      | error e => rw [hs] at he; cases he
      | ok s1 =>
        rw [hs] at hl he
        exact ih (.step h ha.1 ha.2 hs) hl he
    · rw [if_neg ha] at hl; cases hl

/-- What holds if sources aren't dispatched until their ids are stored -/
structure InvS (s : State) : Prop where
  next : 0 < s.nextSource
  idle : s.idle ≠ 0 → s.idle ∈ s.live ∨ ∃ r, s.main = .clear s.idle r
  store : ∀ id, s.owner = .addStore id → id ∈ s.live
  remove : ∀ id, s.owner = .drainRemove id → s.idle = 0

theorem invS_new : InvS new := by
  constructor <;> simp [new]

theorem final_idle {s s' : State} (h : final s = .ok s') (hl : s.live = []) (hm : s.main = .away) :
    s'.idle = 0 ∧ s'.owner = s.owner ∧ s'.nextSource = s.nextSource ∧ s'.live = s.live := by
  rw [final] at h
  by_cases hi : s.idle = 0
  · cases ha : s.alive
    · simp [removeIdle, destroyItems, hi, ha, bind, Except.bind] at h
    · simp [removeIdle, destroyItems, hi, ha, bind, Except.bind] at h
      subst h
      exact ⟨rfl, rfl, rfl, rfl⟩
  · cases ha : s.alive
    · simp [removeIdle, destroyItems, hi, ha, bind, Except.bind, removeSource, hl, hm] at h
    · simp [removeIdle, destroyItems, hi, ha, bind, Except.bind, removeSource, hl, hm] at h
      subst h
      exact ⟨rfl, rfl, rfl, hl.symm⟩

theorem invS_unref {s s' : State} (h : InvS s) (ha : s.alive = true)
    (hr : s.refs = s.owned + s.live.length + mainRefs s.main + pending s.owner + 1)
    (hu : unref s = .ok s') : InvS s' := by
  rw [unref, access_ok ha, ok_bind, if_neg (by omega)] at hu
  by_cases h1 : s.refs = 1
  · rw [if_pos h1] at hu
    have hl : s.live = [] := List.length_eq_zero_iff.mp (by omega)
    have hm : s.main = .away := by
      cases hm : s.main with
      | away => rfl
      | clear _ _ => rw [hm] at hr; simp [mainRefs] at hr; omega
      | release _ _ => rw [hm] at hr; simp [mainRefs] at hr; omega
    obtain ⟨q1, q2, q3, q4⟩ := final_idle hu hl hm
    exact ⟨by rw [q3]; exact h.next, fun e => absurd q1 e, fun id e => by rw [q4]; exact h.store id (q2 ▸ e), fun _ _ => q1⟩
  · rw [if_neg h1] at hu
    cases hu
    exact ⟨h.next, h.idle, h.store, h.remove⟩

theorem invS_step {s s' : State} {a : Act} (hi : Inv s) (h : InvS s) (hal : Allowed s a) (hp : Stored s a) (hs : step s a = .ok s') :
    InvS s' := by
  have hr := hi.refs
  have hal' : 0 < s.refs → s.alive = true := hi.alive.2
  cases a with
  | ref =>
    obtain ⟨h1, h2⟩ := hal
    rw [step, access_ok (hal' (by omega)), ok_bind] at hs
    cases hs
    exact ⟨h.next, h.idle, h.store, h.remove⟩
  | unref =>
    obtain ⟨h1, h2⟩ := hal
    rw [step] at hs
    exact invS_unref (s := { s with owned := s.owned - 1 }) ⟨h.next, h.idle, h.store, h.remove⟩ (hal' (by omega))
      (by dsimp only; omega) hs
  | add =>
    obtain ⟨h1, h2⟩ := hal
    rw [step, addStart, access_ok (hal' (by omega)), ok_bind] at hs
    cases hs
    exact ⟨h.next, h.idle, by simp, by simp⟩
  | drain =>
    obtain ⟨h1, h2⟩ := hal
    rw [step, drainStart, access_ok (hal' (by omega)), ok_bind] at hs
    cases hs
    exact ⟨h.next, h.idle, by simp, by simp⟩
  | go =>
    have hal : s.owner ≠ .ready := hal
    have h2 := hi.owned hal
    rw [step, go, access_ok (hal' (by omega)), ok_bind] at hs
    cases hw : s.owner with
    | ready => exact absurd hw hal
    | addRead =>
      rw [hw] at hs
      cases hs
      refine ⟨h.next, h.idle, ?_, ?_⟩ <;> intro id e <;> dsimp only at e <;> split at e <;> cases e
    | addRef =>
      rw [hw] at hs
      cases hs
      exact ⟨h.next, h.idle, by simp, by simp⟩
    | addAttach =>
      rw [hw] at hs
      cases hs
      refine ⟨Nat.succ_pos _, fun e => ?_, ?_, by simp⟩
      · rcases h.idle e with q | q
        · exact .inl (by simp [q])
        · exact .inr q
      · simp
    | addStore id =>
      rw [hw] at hs
      cases hs
      exact ⟨h.next, fun _ => .inl (h.store id hw), by simp, by simp⟩
    | drainRead =>
      rw [hw] at hs
      cases hs
      refine ⟨h.next, h.idle, ?_, ?_⟩ <;> intro id e <;> dsimp only at e <;> split at e <;> cases e
    | drainRead2 =>
      rw [hw] at hs
      cases hs
      exact ⟨h.next, h.idle, by simp, by simp⟩
    | drainClear id =>
      rw [hw] at hs
      cases hs
      exact ⟨h.next, by simp, by simp, by simp⟩
    | drainRemove id =>
      rw [hw] at hs
      have h0 := h.remove id hw
      have hs : (do let s ← removeSource s id; .ok { s with owner := .ready } : M State) = .ok s' := hs
      cases hq : removeSource s id with
      | error e => rw [hq] at hs; cases hs
      | ok s1 =>
        rw [hq, ok_bind] at hs
        cases hs
        have q : s1.idle = s.idle ∧ s1.nextSource = s.nextSource := by
          rw [removeSource] at hq
          split at hq
          · split at hq
            · cases hq
            · cases hq; exact ⟨rfl, rfl⟩
          · split at hq
            · cases hq; exact ⟨rfl, rfl⟩
            · split at hq <;> cases hq <;> exact ⟨rfl, rfl⟩
        refine ⟨by show 0 < s1.nextSource; rw [q.2]; exact h.next, fun e => ?_, by simp, by simp⟩
        exact absurd (q.1.trans h0) e
  | dispatch src =>
    obtain ⟨h1, h2⟩ := hal
    have hp : s.owner ≠ .addStore src := hp
    cases hs
    refine ⟨h.next, fun e => ?_, fun id e => ?_, h.remove⟩
    · rcases h.idle e with q | ⟨r, q⟩
      · by_cases e2 : s.idle = src
        · exact .inr ⟨false, by rw [← e2]⟩
        · exact .inl ((List.mem_erase_of_ne e2).2 q)
      · rw [h1] at q; cases q
    · exact (List.mem_erase_of_ne (fun e2 => hp (by rw [← e2]; exact e))).2 (h.store id e)
  | main =>
    have hal : s.main ≠ .away := hal
    have hm : mainRefs s.main = 1 := by cases hm : s.main <;> simp_all [mainRefs]
    have ha := hal' (by omega)
    rw [step, mainGo, access_ok ha, ok_bind] at hs
    cases hm' : s.main with
    | away => exact absurd hm' hal
    | clear src r =>
      rw [hm'] at hs
      cases hs
      exact ⟨h.next, by simp, h.store, fun _ _ => rfl⟩
    | release src r =>
      rw [hm'] at hs
      refine invS_unref (s := { s with main := .away }) ⟨h.next, fun e => ?_, h.store, h.remove⟩ ha
        (by show s.refs = s.owned + s.live.length + 0 + pending s.owner + 1; omega) hs
      rcases h.idle e with q | ⟨r, q⟩
      · exact .inl q
      · rw [hm'] at q; cases q

theorem reach_invS {s : State} (h : Reach Stored s) : InvS s := by
  induction h with
  | new => exact invS_new
  | step hr ha hp hs ih => exact invS_step (reach_inv hr) ih ha hp hs

end Verif.PoolThreads
