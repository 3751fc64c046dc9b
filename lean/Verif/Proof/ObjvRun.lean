import Verif.Proof.Objv

namespace Verif.Objv
open Verif.C Verif.Strv.Spec Spec
open Verif.Strv (mk mk_length mk_cons deref_mk)

theorem sum_set (a : Nat) : ∀ (l : List (List Nat)) (i : Nat) (x : List Nat), i < l.length →
    ((l.set i x).map (List.count a)).sum + (l[i]?.getD []).count a = (l.map (List.count a)).sum + x.count a
  | [], _, _, h => by simp at h
  | y :: l, 0, x, _ => by simp; omega
  | y :: l, i + 1, x, h => by
    have := sum_set a l i x (by simpa using h)
    simp only [List.set_cons_succ, List.map_cons, List.sum_cons, List.getElem?_cons_succ]
    omega

theorem count_le_sum (a : Nat) : ∀ (l : List (List Nat)) (i : Nat),
    (l[i]?.getD []).count a ≤ (l.map (List.count a)).sum
  | [], _ => by simp
  | y :: l, 0 => by simp
  | y :: l, i + 1 => by
    have := count_le_sum a l i
    simp only [List.getElem?_cons_succ, List.map_cons, List.sum_cons]
    omega

/-- The program's state is as specified. -/
structure Rel (m : State) (s : Spec.State) : Prop where
  len : m.vecs.length = s.vecs.length
  holds : ∀ i, Holds (m.vecs[i]?.getD none) (s.vec i)
  refs : ∀ a, cnt m.refs a = s.refs a

theorem rel_covered {m : State} {s : Spec.State} (R : Rel m s) (i : Nat) : Covered (cnt m.refs) (s.vec i) := by
  intro a
  rw [R.refs, Spec.State.refs]
  have := count_le_sum a s.vecs i
  unfold Spec.State.vec
  omega

theorem rel_alive {m : State} {s : Spec.State} (R : Rel m s) (i : Nat) : ∀ a ∈ s.vec i, 0 < cnt m.refs a := by
  intro a ha
  have := rel_covered R i a
  have : 0 < (s.vec i).count a := List.count_pos_iff.2 ha
  omega

theorem rel_set {m : State} {s : Spec.State} (R : Rel m s) {i : Nat} (hi : i < s.vecs.length) {c' : Refs} {v' : Vec}
    {os' : List Nat} (hv : Holds v' os') (hacc : Accounted (cnt m.refs) (cnt c') (s.vec i) os') :
    Rel ⟨c', m.vecs.set i v'⟩ { s with vecs := s.vecs.set i os' } := by
  refine ⟨by simp [R.len], ?_, ?_⟩
  · intro j
    unfold Spec.State.vec
    by_cases e : i = j
    · subst e
      dsimp only
      rw [List.getElem?_set_self (by rw [R.len]; exact hi), List.getElem?_set_self hi]
      exact hv
    · dsimp only
      rw [List.getElem?_set_ne e, List.getElem?_set_ne e]
      exact R.holds j
  · intro a
    have h1 := hacc a
    have h2 := sum_set a s.vecs i os' hi
    have h3 := R.refs a
    unfold Spec.State.refs at h3 ⊢
    unfold Spec.State.vec at h1
    dsimp only at h1 h2 ⊢
    omega

theorem rel_push {m : State} {s : Spec.State} (R : Rel m s) {c' : Refs} {v' : Vec}
    {os' : List Nat} (hv : Holds v' os') (hacc : Accounted (cnt m.refs) (cnt c') [] os') :
    Rel ⟨c', m.vecs ++ [v']⟩ { s with vecs := s.vecs ++ [os'] } := by
  refine ⟨by simp [R.len], ?_, ?_⟩
  · intro j
    unfold Spec.State.vec
    dsimp only
    have hj := R.holds j
    unfold Spec.State.vec at hj
    rw [List.getElem?_append, List.getElem?_append, R.len]
    by_cases h : j < s.vecs.length
    · rw [if_pos h, if_pos h]; exact hj
    · rw [if_neg h, if_neg h]
      by_cases e : j - s.vecs.length = 0
      · rw [e]; exact hv
      · obtain ⟨k, hk⟩ : ∃ k, j - s.vecs.length = k + 1 := ⟨j - s.vecs.length - 1, by omega⟩
        rw [hk]
        exact .inl ⟨rfl, rfl⟩
  · intro a
    have h1 := hacc a
    have h3 := R.refs a
    unfold Spec.State.refs at h3 ⊢
    rw [List.count_nil] at h1
    rw [List.map_append, List.sum_append]
    simp only [List.map_cons, List.map_nil, List.sum_cons, List.sum_nil]
    omega

theorem exec_ok {m : State} {s : Spec.State} (R : Rel m s) (op : Op) (hp : Pre s op) :
    ∃ m', exec m op = .ok m' ∧ Rel m' (next s op) := by
  cases op with
  | ref a =>
    obtain ⟨c', h1, h2⟩ := objRef_ok (c := m.refs) (a := a) (by rw [R.refs]; exact hp)
    refine ⟨⟨c', m.vecs⟩, by rw [exec, h1, ok_bind], R.len, R.holds, ?_⟩
    intro x
    have h3 := R.refs x
    dsimp only [next]
    unfold Spec.State.refs at h3 ⊢
    rw [h2]
    by_cases e : x = a <;> simp only [e, if_true, if_false] at * <;> omega
  | unref a =>
    have ha : 0 < s.own a := hp
    have h0 : 0 < cnt m.refs a := by rw [R.refs, Spec.State.refs]; omega
    obtain ⟨c', h1, h2⟩ := objUnref_ok (c := m.refs) (a := a) h0
    refine ⟨⟨c', m.vecs⟩, by rw [exec, h1, ok_bind], R.len, R.holds, ?_⟩
    intro x
    have h3 := R.refs x
    have h4 := h2 x
    dsimp only [next]
    unfold Spec.State.refs at h3 ⊢
    by_cases e : x = a
    · subst e
      simp only [if_true] at *
      omega
    · simp only [e, if_false] at *
      omega
  | new args =>
    obtain ⟨c', v', h1, h2, h3⟩ := new_ok (c := m.refs) (args := args) (by intro a ha; rw [R.refs]; exact hp a ha)
    exact ⟨_, by rw [exec, h1, ok_bind], rel_push R h2 h3⟩
  | copy i =>
    obtain ⟨c', v', h1, h2, h3, -⟩ := copy_ok (c := m.refs) (R.holds i) (rel_alive R i)
    exact ⟨_, by rw [exec, h1, ok_bind], rel_push R h2 h3⟩
  | add i o =>
    cases o with
    | none =>
      refine ⟨_, by rw [exec, add, ok_bind], ?_⟩
      have := rel_set R hp.1 (R.holds i) accounted_refl
      have e : s.vecs.set i (s.vec i) = s.vecs := by
        unfold Spec.State.vec
        rw [List.getElem?_eq_getElem hp.1, Option.getD_some, List.set_getElem_self]
      rw [e] at this
      exact this
    | some o =>
      obtain ⟨c', v', h1, h2, h3⟩ := add_ok (c := m.refs) (o := o) (R.holds i) (by rw [R.refs]; exact hp.2 o rfl)
      exact ⟨_, by rw [exec, h1, ok_bind], rel_set R hp.1 h2 h3⟩
  | insert i o pos =>
    cases o with
    | none =>
      refine ⟨_, by rw [exec, insert, ok_bind], ?_⟩
      have := rel_set R hp.1 (R.holds i) accounted_refl
      have e : s.vecs.set i (s.vec i) = s.vecs := by
        unfold Spec.State.vec
        rw [List.getElem?_eq_getElem hp.1, Option.getD_some, List.set_getElem_self]
      rw [e] at this
      exact this
    | some o =>
      obtain ⟨c', v', h1, h2, h3⟩ := insert_ok (c := m.refs) (o := o) pos (R.holds i) (by rw [R.refs]; exact hp.2 o rfl)
      exact ⟨_, by rw [exec, h1, ok_bind], rel_set R hp.1 h2 h3⟩
  | append i j =>
    obtain ⟨c', v', h1, h2, h3⟩ := append_ok (c := m.refs) (R.holds i) (R.holds j) (rel_alive R j)
    exact ⟨_, by rw [exec, h1, ok_bind], rel_set R hp.1 h2 h3⟩
  | remove i o all =>
    replace hp : i < s.vecs.length := hp
    cases o with
    | none =>
      refine ⟨_, by rw [exec]; unfold remove; split; · rename_i h; cases h
                    · rw [ok_bind], ?_⟩
      have := rel_set R hp (R.holds i) accounted_refl
      have e : s.vecs.set i (s.vec i) = s.vecs := by
        unfold Spec.State.vec
        rw [List.getElem?_eq_getElem hp, Option.getD_some, List.set_getElem_self]
      rw [e] at this
      exact this
    | some o =>
      obtain ⟨c', v', h1, h2, h3⟩ := remove_ok (c := m.refs) (o := o) all (R.holds i) (rel_covered R i)
      exact ⟨_, by rw [exec, h1, ok_bind], rel_set R hp h2 h3⟩
  | removeAt i pos =>
    obtain ⟨c', v', h1, h2, h3⟩ := removeAt_ok (c := m.refs) pos (R.holds i) (rel_covered R i)
    exact ⟨_, by rw [exec, h1, ok_bind], rel_set R hp h2 h3⟩
  | free i =>
    obtain ⟨c', h1, h3⟩ := free_ok (c := m.refs) (R.holds i) (rel_covered R i)
    exact ⟨_, by rw [exec, h1, ok_bind], rel_set R hp (.inl ⟨rfl, rfl⟩) h3⟩

theorem run_ok : ∀ (ops : List Op) {m : State} {s : Spec.State}, Rel m s → Legal s ops →
    ∃ m', run m ops = .ok m' ∧ Rel m' (Spec.run s ops)
  | [], m, s, R, _ => ⟨m, rfl, R⟩
  | op :: ops, m, s, R, hl => by
    obtain ⟨m1, h1, R1⟩ := exec_ok R op hl.1
    obtain ⟨m2, h2, R2⟩ := run_ok ops R1 hl.2
    exact ⟨m2, by rw [run, h1, ok_bind, h2], R2⟩

/-! ### Appending to itself -/

theorem appendSelfLoop_fails (q : Nat) : ∀ (k fuel : Nat) (c : Refs) (b : Block) (dest src : Nat),
    dest = src + (q + 1) → b.length - dest = k → dest ≤ b.length → k < fuel →
    (∀ i, src ≤ i → i < dest → ∃ a, b[i]? = some (.ptr a) ∧ 0 < cnt c a) →
    appendSelfLoop fuel c b dest src = .error .oobWrite
  | k, 0, _, _, _, _, _, _, _, hf, _ => by omega
  | k, fuel + 1, c, b, dest, src, hd, hk, hle, hf, hcells => by
    obtain ⟨a, ha, hca⟩ := hcells src (by omega) (by omega)
    obtain ⟨c', h1, h1'⟩ := objRef_ok hca
    have hder : deref b src = .ok (some a) := by rw [deref, ha]; rfl
    rw [appendSelfLoop, hder, ok_bind]
    dsimp only
    rw [h1, ok_bind, store, wr]
    by_cases hlt : dest < b.length
    · rw [if_pos hlt, ok_bind]
      refine appendSelfLoop_fails q (k - 1) fuel c' (b.set dest (.ptr a)) (dest + 1) (src + 1) (by omega)
        (by rw [List.length_set]; omega) (by rw [List.length_set]; omega) (by omega) ?_
      intro i hi hi'
      by_cases e : i = dest
      · subst e
        exact ⟨a, List.getElem?_set_self hlt, by rw [h1']; omega⟩
      · rw [List.getElem?_set_ne (fun h => e h.symm)]
        obtain ⟨x, hx, hx'⟩ := hcells i (by omega) (by omega)
        exact ⟨x, hx, by rw [h1']; omega⟩
    · rw [if_neg hlt, error_bind]

theorem appendSelf_fails {c : Refs} {v : Vec} {os : List Nat} (hv : Holds v os) (hne : os ≠ []) (hc : Covered (cnt c) os)
    (moved : Bool) : appendSelf moved c v = .error (if moved then .useAfterFree else .oobWrite) := by
  have hlen := length_ok hv
  have hpos : os.length > 0 := List.length_pos_iff.2 hne
  rw [appendSelf, hlen, ok_bind, if_pos hpos, ok_bind]
  cases moved with
  | true => rfl
  | false =>
    show _ = Except.error UB.oobWrite
    obtain ⟨x, rest, h1, h2⟩ := Strv.renew_holds hv (os.length + 1) (by omega)
    rw [show os.length + os.length + 1 = os.length + (os.length + 1) by omega, h1]
    simp only [Bool.false_eq_true, if_false]
    have e := appendSelfLoop_fails (os.length - 1) ((os.map Cell.ptr ++ x :: rest).length - os.length)
      ((os.map Cell.ptr ++ x :: rest).length + 1) c (os.map Cell.ptr ++ x :: rest) os.length 0 (by omega) rfl (by simp)
      (by omega) (by
        intro i _ hi
        refine ⟨os[i], ?_, ?_⟩
        · rw [List.getElem?_append_left (by simpa using hi), List.getElem?_map, List.getElem?_eq_getElem hi]; rfl
        · have := hc os[i]
          have : 0 < os.count os[i] := List.count_pos_iff.2 (List.getElem_mem _)
          omega)
    rw [e, error_bind]

end Verif.Objv
