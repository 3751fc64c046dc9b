import Verif.Model.MiscCb

namespace Verif.MiscCb
open Verif.C

/-- The ids without those which are being disconnected -/
def mask (ids : List Nat) (b : List Nat) : List Nat := b.foldl (fun l i => l.set i 0) ids

theorem mask_length (ids b : List Nat) : (mask ids b).length = ids.length := by
  induction b generalizing ids with
  | nil => rfl
  | cons i t ih => simp only [mask, List.foldl_cons] at *; rw [ih]; simp

theorem mask_set {ids b : List Nat} {j v : Nat} (h : j ∉ b) : mask (ids.set j v) b = (mask ids b).set j v := by
  induction b generalizing ids with
  | nil => rfl
  | cons i t ih =>
    simp only [List.mem_cons, not_or] at h
    simp only [mask, List.foldl_cons] at *
    rw [List.set_comm _ _ h.1, ih h.2]

theorem mask_get {ids b : List Nat} {j : Nat} (h : j ∉ b) : (mask ids b)[j]? = ids[j]? := by
  induction b generalizing ids with
  | nil => rfl
  | cons i t ih =>
    simp only [List.mem_cons, not_or] at h
    simp only [mask, List.foldl_cons] at *
    rw [ih h.2, List.getElem?_set_ne (Ne.symm h.1)]

/-- The calls in progress are in disjoint parts of the array. -/
def Ordered (len : Nat) : List Frame → Prop
  | [] => True
  | .disconnect i n :: t => i + n + 1 ≤ len ∧ (∀ j ∈ busy t, i + n + 1 ≤ j) ∧ Ordered len t
  | .clear :: t => Ordered len t

structure Inv (s : State) : Prop where
  ids : ∀ x, x ≠ 0 → (mask s.ids (busy s.stack)).count x = s.handlers.count x
  ord : Ordered s.ids.length s.stack
  once : (s.disconnected ++ s.handlers).Nodup
  lt : ∀ x ∈ s.disconnected ++ s.handlers, 0 < x ∧ x < s.next
  one : s.stack.count .clear ≤ 1
  idle : .clear ∉ s.stack → (s.id = 0 ∧ s.sources = []) ∨ (s.id ≠ 0 ∧ s.sources = [s.id])
  clearing : .clear ∈ s.stack → s.sources = []
  once' : (s.removed ++ s.sources).Nodup
  lt' : ∀ x ∈ s.removed ++ s.sources, 0 < x ∧ x < s.next
  pos : 0 < s.next

theorem count_set' {l : List Nat} {i a v : Nat} (h : l[i]? = some v) (x : Nat) :
    (l.set i a).count x + (if v = x then 1 else 0) = l.count x + (if a = x then 1 else 0) := by
  obtain ⟨hi, rfl⟩ := List.getElem?_eq_some_iff.mp h
  rw [List.count_set hi]
  have : l[i] = x → 0 < l.count x := by
    rintro rfl
    exact List.count_pos_iff.mpr (List.getElem_mem hi)
  simp only [beq_iff_eq]
  split <;> split <;> simp_all <;> omega

/-- Moving something from one list to the other -/
theorem move_nodup {a b : List Nat} {x : Nat} (h : (a ++ b).Nodup) (hx : x ∈ b) :
    (a ++ [x] ++ b.erase x).Nodup ∧ ∀ y ∈ a ++ [x] ++ b.erase x, y ∈ a ++ b := by
  have hp : (a ++ [x] ++ b.erase x).Perm (a ++ b) := by
    rw [List.append_assoc]
    exact List.Perm.append_left a (List.perm_cons_erase hx).symm
  exact ⟨hp.symm.nodup h, fun y hy => hp.mem_iff.mp hy⟩

theorem loop_inv (n i : Nat) (s : State) (h : Inv s) (hn : i + n ≤ s.ids.length) (hb : ∀ j ∈ busy s.stack, i + n ≤ j) :
    ∃ s', loop s n i = .ok s' ∧ Inv s' := by
  induction n generalizing i with
  | zero => exact ⟨s, rfl, h⟩
  | succ n ih =>
    have hi : i < s.ids.length := by omega
    have hnb : i ∉ busy s.stack := fun hj => by have := hb i hj; omega
    unfold loop
    rw [List.getElem?_eq_getElem hi]
    dsimp only
    generalize hx : s.ids[i] = x
    have hget : (mask s.ids (busy s.stack))[i]? = some x := by rw [mask_get hnb, List.getElem?_eq_getElem hi, hx]
    by_cases h0 : x ≠ 0
    · have hmem : x ∈ s.handlers := by
        have h1 := h.ids x h0
        have h2 : 0 < (mask s.ids (busy s.stack)).count x := List.count_pos_iff.mpr (List.mem_of_getElem? hget)
        exact List.count_pos_iff.mp (by omega)
      rw [if_pos h0, if_pos hmem]
      have hmv := move_nodup h.once hmem
      refine ⟨_, rfl, ⟨?_, ?_, hmv.1, fun y hy => h.lt y (hmv.2 y hy), ?_, ?_, ?_, h.once', h.lt', h.pos⟩⟩
      · intro y hy
        show (mask (s.ids.set i 0) (busy s.stack)).count y = (s.handlers.erase x).count y
        rw [mask_set hnb]
        have h1 := count_set' (a := 0) hget y
        have h2 := h.ids y hy
        rw [List.count_erase]
        simp only [beq_iff_eq]
        rw [if_neg (Ne.symm hy)] at h1
        split at h1 <;> split <;> simp_all <;> omega
      · exact ⟨by omega, fun j hj => by have := hb j hj; omega, h.ord⟩
      · show List.count Frame.clear (Frame.disconnect i n :: s.stack) ≤ 1
        rw [List.count_cons_of_ne (by simp)]
        exact h.one
      · intro hc; exact h.idle (fun hm => hc (List.mem_cons_of_mem _ hm))
      · intro hc
        rcases List.mem_cons.mp hc with hc | hc
        · cases hc
        · exact h.clearing hc
    · rw [if_neg h0]
      exact ih (i + 1) (by omega) (fun j hj => by have := hb j hj; omega)

theorem step_inv {s : State} {a : Act} (h : Inv s) (ha : Allowed s a) (hp : Polite s a) : ∃ s', step s a = .ok s' ∧ Inv s' := by
  cases a with
  | connect i =>
    obtain ⟨hi, hx⟩ := ha
    have hnb : i ∉ busy s.stack := hp
    have hget : (mask s.ids (busy s.stack))[i]? = some s.ids[i] := by rw [mask_get hnb, List.getElem?_eq_getElem hi]
    have h0 : s.ids[i] = 0 := by
      by_cases h0 : s.ids[i] = 0
      · exact h0
      · have h1 := h.ids _ h0
        have h2 : 0 < (mask s.ids (busy s.stack)).count s.ids[i] := List.count_pos_iff.mpr (List.mem_of_getElem? hget)
        exact absurd (List.getElem?_eq_getElem hi) (hx _ (List.count_pos_iff.mp (by omega)))
    rw [h0] at hget
    have hfresh : s.next ∉ s.disconnected ++ s.handlers := fun hm => by have := h.lt _ hm; omega
    refine ⟨_, rfl, ⟨?_, ?_, ?_, ?_, h.one, h.idle, h.clearing, h.once', ?_, Nat.succ_pos _⟩⟩
    · intro y hy
      show (mask (s.ids.set i s.next) (busy s.stack)).count y = (s.handlers ++ [s.next]).count y
      rw [mask_set hnb]
      have h1 := count_set' (a := s.next) hget y
      have h2 := h.ids y hy
      rw [if_neg (Ne.symm hy)] at h1
      rw [List.count_append, List.count_singleton]
      simp only [beq_iff_eq]
      split at h1 <;> simp_all
    · show Ordered (s.ids.set i s.next).length s.stack
      rw [List.length_set]
      exact h.ord
    · show (s.disconnected ++ (s.handlers ++ [s.next])).Nodup
      rw [← List.append_assoc]
      refine List.nodup_append.mpr ⟨h.once, by simp, ?_⟩
      intro a ha b hb
      rw [List.mem_singleton.mp hb]
      rintro rfl
      exact hfresh ha
    · intro x hm
      have hm' : x ∈ s.disconnected ++ (s.handlers ++ [s.next]) := hm
      rw [← List.append_assoc] at hm'
      show 0 < x ∧ x < s.next + 1
      rcases List.mem_append.mp hm' with hm' | hm'
      · have := h.lt x hm'; omega
      · have := h.pos
        rw [List.mem_singleton.mp hm']; omega
    · intro x hm
      have := h.lt' x hm
      exact ⟨this.1, Nat.lt_succ_of_lt this.2⟩
  | disconnect count => 
    have ha' : count ≤ s.ids.length := ha
    have hp' : ∀ j ∈ busy s.stack, count ≤ j := hp
    exact loop_inv count 0 s h (by omega) (fun j hj => by have := hp' j hj; omega)
  | add =>
    have hc : Frame.clear ∉ s.stack := hp
    have hs : s.sources = [] := by
      rcases h.idle hc with ⟨_, e⟩ | ⟨_, e⟩
      · exact e
      · exact absurd (by rw [e]; exact List.mem_singleton.mpr rfl) ha
    have hpos := h.pos
    refine ⟨_, rfl, ⟨h.ids, h.ord, h.once, ?_, h.one, ?_, fun hm => absurd hm hc, ?_, ?_, Nat.succ_pos _⟩⟩
    · intro x hm
      have := h.lt x hm
      exact ⟨this.1, Nat.lt_succ_of_lt this.2⟩
    · intro _
      exact .inr ⟨by show s.next ≠ 0; omega, by show s.sources ++ [s.next] = [s.next]; rw [hs]; rfl⟩
    · show (s.removed ++ (s.sources ++ [s.next])).Nodup
      rw [← List.append_assoc]
      refine List.nodup_append.mpr ⟨h.once', by simp, ?_⟩
      intro a ha b hb
      rw [List.mem_singleton.mp hb]
      rintro rfl
      have := h.lt' _ ha
      omega
    · intro x hm
      have hm' : x ∈ s.removed ++ (s.sources ++ [s.next]) := hm
      rw [← List.append_assoc] at hm'
      show 0 < x ∧ x < s.next + 1
      rcases List.mem_append.mp hm' with hm' | hm'
      · have := h.lt' x hm'; omega
      · rw [List.mem_singleton.mp hm']; omega
  | clear =>
    have hc : Frame.clear ∉ s.stack := hp
    simp only [step, clear]
    rcases h.idle hc with ⟨e0, e⟩ | ⟨e0, e⟩
    · rw [if_neg (by simp [e0])]
      exact ⟨s, rfl, h⟩
    · have hmem : s.id ∈ s.sources := by rw [e]; exact List.mem_singleton.mpr rfl
      rw [if_pos e0, if_pos hmem]
      have hmv := move_nodup h.once' hmem
      refine ⟨_, rfl, ⟨h.ids, h.ord, h.once, h.lt, ?_, ?_, ?_, hmv.1, fun y hy => h.lt' y (hmv.2 y hy), h.pos⟩⟩
      · show List.count Frame.clear (Frame.clear :: s.stack) ≤ 1
        rw [List.count_cons_self, List.count_eq_zero_of_not_mem hc]
        exact Nat.le_refl _
      · intro hm; exact absurd List.mem_cons_self hm
      · intro _
        show s.sources.erase s.id = []
        rw [e]; simp
  | ret =>
    have hne : s.stack ≠ [] := ha
    simp only [step, ret]
    cases hs : s.stack with
    | nil => exact absurd hs hne
    | cons fr rest =>
      have hord := h.ord
      have hids := h.ids
      have hone := h.one
      have hidle := h.idle
      have hclr := h.clearing
      rw [hs] at hord hids hone hidle hclr
      cases fr with
      | disconnect i n =>
        obtain ⟨o1, o2, o3⟩ := hord
        rw [List.count_cons_of_ne (by simp)] at hone
        refine loop_inv n (i + 1) _ ⟨?_, ?_, h.once, h.lt, hone, ?_, ?_, h.once', h.lt', h.pos⟩ ?_ ?_
        · exact hids
        · show Ordered (s.ids.set i 0).length rest
          rw [List.length_set]; exact o3
        · intro hc
          exact hidle (by simp only [List.mem_cons, not_or]; exact ⟨by simp, hc⟩)
        · intro hc; exact hclr (List.mem_cons_of_mem _ hc)
        · show i + 1 + n ≤ (s.ids.set i 0).length
          rw [List.length_set]; omega
        · intro j hj
          have := o2 j hj
          omega
      | clear =>
        have hrest : Frame.clear ∉ rest := by
          rw [List.count_cons_self] at hone
          intro hm
          have := List.count_pos_iff.mpr hm
          omega
        refine ⟨_, rfl, ⟨hids, hord, h.once, h.lt, ?_, fun _ => .inl ⟨rfl, hclr List.mem_cons_self⟩, fun hm => absurd hm hrest, h.once',
          h.lt', h.pos⟩⟩
        show List.count Frame.clear rest ≤ 1
        rw [List.count_eq_zero_of_not_mem hrest]
        omega

theorem new_inv (size : Nat) : Inv (new size) where
  ids := by
    intro x hx
    show (List.replicate size 0).count x = 0
    rw [List.count_replicate, if_neg (by simpa using Ne.symm hx)]
  ord := trivial
  once := List.nodup_nil
  lt := by intro x hx; cases hx
  one := Nat.zero_le _
  idle := fun _ => .inl ⟨rfl, rfl⟩
  clearing := fun hc => by cases hc
  once' := List.nodup_nil
  lt' := by intro x hx; cases hx
  pos := Nat.one_pos

theorem reach_inv {s : State} (h : Reach Polite s) : Inv s := by
  induction h with
  | new => exact new_inv _
  | step _ ha hp hs ih =>
    obtain ⟨s1, h1, h2⟩ := step_inv ih ha hp
    rw [h1] at hs
    cases hs
    exact h2

theorem exec_reach {P : State → Act → Prop} [∀ s a, Decidable (P s a)] {s s' : State} {l : List Act} (h : Reach P s)
    (he : exec P s l = some s') : Reach P s' := by
  induction l generalizing s with
  | nil => cases he; exact h
  | cons a t ih =>
    simp only [exec] at he
    split at he
    · rename_i ha
      cases hs : step s a with
      | error e => simp [hs] at he
      | ok s1 =>
        simp only [hs] at he
        exact ih (.step h ha.1 ha.2 hs) he
    · simp at he

/-- Notifications which do nothing -/
def rets (s : State) : Nat → M State
  | 0 => .ok s
  | n + 1 => do
    let s ← ret s
    rets s n

/-- The rest of the loop, if the notifications do nothing -/
theorem loop_run (n : Nat) : ∀ (pre a b : List Nat) (s : State), a.length = n → s.ids = pre ++ (a ++ b) →
    (∀ x ∈ a, x ≠ 0 → x ∈ s.handlers) → (a.filter (· ≠ 0)).Nodup →
    ∃ s1 s2, loop s n pre.length = .ok s1 ∧ rets s1 (a.filter (· ≠ 0)).length = .ok s2 ∧
      s2 = { s with ids := pre ++ (List.replicate n 0 ++ b), disconnected := s.disconnected ++ a.filter (· ≠ 0), handlers := s2.handlers } ∧
      ∀ x, s2.handlers.count x + (a.filter (· ≠ 0)).count x = s.handlers.count x := by
  induction n with
  | zero =>
    intro pre a b s ha hids _ _
    cases List.length_eq_zero_iff.mp ha
    refine ⟨s, s, rfl, rfl, ?_, by simp⟩
    have : s.ids = pre ++ (List.replicate 0 0 ++ b) := hids
    rw [List.filter_nil, List.append_nil, ← this]
  | succ n ih =>
    intro pre a b s ha hids hmem hnd
    cases a with
    | nil => simp at ha
    | cons x t =>
      simp only [List.length_cons, Nat.add_right_cancel_iff] at ha
      have hget : s.ids[pre.length]? = some x := by rw [hids]; simp
      unfold loop
      rw [hget]
      dsimp only
      by_cases h0 : x ≠ 0
      · rw [if_pos h0, if_pos (hmem x List.mem_cons_self h0)]
        have hf : (x :: t).filter (· ≠ 0) = x :: t.filter (· ≠ 0) := by rw [List.filter_cons, if_pos (by simpa using h0)]
        rw [hf] at hnd ⊢
        have hxt : x ∉ t.filter (· ≠ 0) := (List.nodup_cons.mp hnd).1
        have hset : s.ids.set pre.length 0 = (pre ++ [0]) ++ (t ++ b) := by
          rw [hids]; simp
        obtain ⟨s1, s2, g1, g2, g3, g4⟩ := ih (pre ++ [0]) t b
          { s with ids := s.ids.set pre.length 0, handlers := s.handlers.erase x, disconnected := s.disconnected ++ [x] } ha hset
          (by
            intro y hy hy0
            have : y ≠ x := by
              rintro rfl
              exact hxt (List.mem_filter.mpr ⟨hy, by simpa using hy0⟩)
            exact (List.mem_erase_of_ne this).mpr (hmem y (List.mem_cons_of_mem _ hy) hy0))
          (List.nodup_cons.mp hnd).2
        refine ⟨_, s2, rfl, ?_, ?_, ?_⟩
        · simp only [List.length_cons, rets, ret]
          rw [List.length_append, List.length_singleton] at g1
          show (loop { s with ids := s.ids.set pre.length 0, handlers := s.handlers.erase x, disconnected := s.disconnected ++ [x] } n
            (pre.length + 1)).bind _ = _
          rw [g1]
          exact g2
        · rw [g3]
          simp [List.replicate_succ]
        · intro y
          have h1 := g4 y
          have h2 := List.count_erase (a := y) (b := x) (l := s.handlers)
          have h3 : 0 < s.handlers.count x := List.count_pos_iff.mpr (hmem x List.mem_cons_self h0)
          simp only [beq_iff_eq] at h2
          rw [List.count_cons]
          simp only [beq_iff_eq]
          dsimp only at h1
          split at h2
          · rename_i e; subst e; simp only [if_true]; omega
          · rename_i e; rw [if_neg e]; omega
      · rw [if_neg h0]
        have h0' : x = 0 := by omega
        subst h0'
        have hf : (0 :: t).filter (· ≠ 0) = t.filter (· ≠ 0) := by simp
        rw [hf] at hnd ⊢
        obtain ⟨s1, s2, g1, g2, g3, g4⟩ := ih (pre ++ [0]) t b s ha (by rw [hids]; simp)
          (fun y hy => hmem y (List.mem_cons_of_mem _ hy)) hnd
        rw [List.length_append, List.length_singleton] at g1
        refine ⟨s1, s2, g1, g2, ?_, g4⟩
        rw [g3]
        simp [List.replicate_succ]

end Verif.MiscCb
