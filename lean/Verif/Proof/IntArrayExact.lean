import Verif.Proof.IntArray
import Verif.Spec.IntArrayExact

namespace Verif.IntArray
open Verif.C Spec

theorem toInt32_big {k : Nat} (h : k < 2 ^ 32) : toInt32 (k : Int) = if k < 2 ^ 31 then (k : Int) else (k : Int) - 2 ^ 32 := by
  split
  · exact toInt32_small (by assumption)
  · unfold toInt32
    rw [BitVec.toInt_ofInt, Int.bmod_def]
    split <;> omega

theorem find_any (l : List Val) (h : l.length < 2 ^ 32) (v : Val) :
    (v ∉ l ∧ find (I l) v = .ok (-1)) ∨
    (∃ k : Nat, k < l.length ∧ l[k]? = some v ∧ v ∉ l.take k ∧
      find (I l) v = .ok (if k < 2 ^ 31 then (k : Int) else (k : Int) - 2 ^ 32)) := by
  rw [find, findLoop_ok]
  cases hx : l.findIdx? (· = v) with
  | none =>
    left
    refine ⟨?_, rfl⟩
    intro hm
    have := List.findIdx?_eq_none_iff.1 hx v hm
    simp at this
  | some k =>
    right
    obtain ⟨hk, e1, e2⟩ := List.findIdx?_eq_some_iff_getElem.1 hx
    simp only [decide_eq_true_eq] at e1 e2
    refine ⟨k, hk, List.getElem?_eq_some_iff.2 ⟨hk, e1⟩, ?_, ?_⟩
    · intro hm
      obtain ⟨j, hj, e⟩ := List.mem_take_iff_getElem.1 hm
      exact e2 j (by omega) e
    · dsimp only
      rw [Nat.zero_add, toInt32_big (by omega)]

/-- There's one first index. -/
theorem first_unique {l : List Val} {v : Val} {k j : Nat} (h1 : l[k]? = some v) (h2 : v ∉ l.take k)
    (h3 : l[j]? = some v) (h4 : v ∉ l.take j) : k = j := by
  rcases Nat.lt_trichotomy k j with h | h | h
  · exact absurd (List.mem_iff_getElem?.2 ⟨k, by rw [List.getElem?_take_of_lt h]; exact h1⟩) h4
  · exact h
  · exact absurd (List.mem_iff_getElem?.2 ⟨j, by rw [List.getElem?_take_of_lt h]; exact h3⟩) h2

theorem mem_take_first {l : List Val} {v : Val} {k : Nat} (h1 : l[k]? = some v) (h2 : v ∉ l.take k) (n : Nat) :
    v ∈ l.take n ↔ k < n := by
  constructor
  · intro hm
    rcases Nat.lt_or_ge k n with h | h
    · exact h
    · exfalso
      apply h2
      have : l.take n = (l.take k).take n := by rw [List.take_take, Nat.min_eq_left h]
      rw [this] at hm
      exact List.mem_of_mem_take hm
  · intro h
    exact List.mem_iff_getElem?.2 ⟨k, by rw [List.getElem?_take_of_lt h]; exact h1⟩

theorem find_absent (l : List Val) (v : Val) (h : v ∉ l) : find (I l) v = .ok (-1) := by
  rw [find, findLoop_ok]
  have : l.findIdx? (· = v) = none := by
    rw [List.findIdx?_eq_none_iff]
    intro x hx
    simp
    rintro rfl
    exact h hx
  rw [this]

theorem find_first {l : List Val} {v : Val} {k : Nat} (h : l.length < 2 ^ 32) (h1 : l[k]? = some v) (h2 : v ∉ l.take k) :
    find (I l) v = .ok (if k < 2 ^ 31 then (k : Int) else (k : Int) - 2 ^ 32) := by
  rcases find_any l h v with ⟨hn, -⟩ | ⟨j, -, h3, h4, e⟩
  · exact absurd (List.mem_iff_getElem?.2 ⟨k, h1⟩) hn
  · rw [first_unique h1 h2 h3 h4]; exact e

theorem remove_any (l : List Val) (h : l.length < 2 ^ 32) (v : Val) :
    remove (I l) v = .ok (I (if v ∈ l.take (2 ^ 31) then l.erase v else l), decide (v ∈ l.take (2 ^ 31))) := by
  rw [remove]
  rcases find_any l h v with ⟨hn, e⟩ | ⟨k, hk, h1, h2, e⟩
  · have : v ∉ l.take (2 ^ 31) := fun hm => hn (List.mem_of_mem_take hm)
    rw [e, ok_bind, if_neg (by omega), if_neg this]
    simp only [this, decide_false]
  · have hm := mem_take_first h1 h2 (2 ^ 31)
    rw [e, ok_bind]
    by_cases hlt : k < 2 ^ 31
    · rw [if_pos hlt, if_pos (by omega), onArray, gRemoveIndex, if_pos (by simpa using hk), ok_bind, ok_bind,
        Int.toNat_natCast, if_pos (hm.2 hlt), ← eraseIdx_first h1 h2, map_eraseIdx']
      simp only [hm.2 hlt, decide_true]
    · have hn : v ∉ l.take (2 ^ 31) := fun hmm => hlt (hm.1 hmm)
      rw [if_neg hlt, if_neg (by omega), if_neg hn]
      simp only [hn, decide_false]

theorem removeFast_any (l : List Val) (h : l.length < 2 ^ 32) (v : Val) :
    ∃ l', removeFast (I l) v = .ok (I l', decide (v ∈ l.take (2 ^ 31))) ∧
      l'.Perm (if v ∈ l.take (2 ^ 31) then l.erase v else l) := by
  rw [removeFast]
  rcases find_any l h v with ⟨hn, e⟩ | ⟨k, hk, h1, h2, e⟩
  · have : v ∉ l.take (2 ^ 31) := fun hm => hn (List.mem_of_mem_take hm)
    refine ⟨l, ?_, ?_⟩
    · rw [e, ok_bind, if_neg (by omega)]
      simp only [this, decide_false]
    · rw [if_neg this]
  · have hm := mem_take_first h1 h2 (2 ^ 31)
    rw [e, ok_bind]
    by_cases hlt : k < 2 ^ 31
    · refine ⟨swapRemove l k, ?_, ?_⟩
      · rw [if_pos hlt, if_pos (by omega), Int.toNat_natCast, onArray, gRemoveIndexFast_ok (by simpa using hk), ok_bind, ok_bind,
          swapRemove_map]
        simp only [hm.2 hlt, decide_true]
      · rw [if_pos (hm.2 hlt), ← eraseIdx_first h1 h2]
        exact swapRemove_perm hk
    · have hn : v ∉ l.take (2 ^ 31) := fun hmm => hlt (hm.1 hmm)
      refine ⟨l, ?_, ?_⟩
      · rw [if_neg hlt, if_neg (by omega)]
        simp only [hn, decide_false]
      · rw [if_neg hn]

theorem removeAllLoop_any (v : Val) (fuel : Nat) : ∀ (l : List Val) (n : Nat), l.length < fuel → l.length < 2 ^ 32 →
    n + l.length < 2 ^ 32 →
    ∃ r, removeLoop (fun a => remove a v) fuel (I l) n = .ok (I (eraseN v r l), n + r) ∧
      v ∉ (eraseN v r l).take (2 ^ 31) ∧ ∀ j < r, v ∈ (eraseN v j l).take (2 ^ 31) := by
  induction fuel with
  | zero => intro l n h; omega
  | succ fuel ih =>
    intro l n h1 h2 h3
    rw [removeLoop, remove_any l h2 v, ok_bind]
    dsimp only
    by_cases hm : v ∈ l.take (2 ^ 31)
    · have hml := List.mem_of_mem_take hm
      have hlen : (l.erase v).length + 1 = l.length := by
        rw [List.length_erase_of_mem hml]
        have := List.length_pos_of_mem hml
        omega
      rw [if_pos (by simp only [hm, decide_true]), if_pos hm]
      have hmod : (n + 1) % 2 ^ 32 = n + 1 := Nat.mod_eq_of_lt (by omega)
      rw [hmod]
      obtain ⟨r, r1, r2, r3⟩ := ih (l.erase v) (n + 1) (by omega) (by omega) (by omega)
      refine ⟨r + 1, ?_, r2, ?_⟩
      · rw [r1]
        have e : n + 1 + r = n + (r + 1) := by omega
        rw [e]; rfl
      · intro j hj
        cases j with
        | zero => exact hm
        | succ j => exact r3 j (by omega)
    · rw [if_neg (by simp only [hm, decide_false]; exact Bool.false_ne_true), if_neg hm]
      exact ⟨0, rfl, hm, by intro j hj; omega⟩

theorem eraseN_perm (v : Val) : ∀ (n : Nat) {l l' : List Val}, l.Perm l' → (eraseN v n l).Perm (eraseN v n l')
  | 0, _, _, h => h
  | n + 1, _, _, h => eraseN_perm v n (h.erase v)

theorem removeAllFastLoop_any (v : Val) (fuel : Nat) : ∀ (l : List Val) (n : Nat), l.length < fuel → l.length < 2 ^ 32 →
    n + l.length < 2 ^ 32 →
    ∃ r l', removeLoop (fun a => removeFast a v) fuel (I l) n = .ok (I l', n + r) ∧
      l'.Perm (eraseN v r l) ∧ r ≤ l.count v ∧ v ∉ l'.take (2 ^ 31) := by
  induction fuel with
  | zero => intro l n h; omega
  | succ fuel ih =>
    intro l n h1 h2 h3
    obtain ⟨l1, q1, p1⟩ := removeFast_any l h2 v
    rw [removeLoop, q1, ok_bind]
    dsimp only
    by_cases hm : v ∈ l.take (2 ^ 31)
    · have hml := List.mem_of_mem_take hm
      rw [if_pos hm] at p1
      have hlen : l1.length + 1 = l.length := by
        rw [p1.length_eq, List.length_erase_of_mem hml]
        have := List.length_pos_of_mem hml
        omega
      rw [if_pos (by simp only [hm, decide_true])]
      have hmod : (n + 1) % 2 ^ 32 = n + 1 := Nat.mod_eq_of_lt (by omega)
      rw [hmod]
      obtain ⟨r, l2, r1, r2, r3, r4⟩ := ih l1 (n + 1) (by omega) (by omega) (by omega)
      refine ⟨r + 1, l2, ?_, r2.trans (eraseN_perm v r p1), ?_, r4⟩
      · rw [r1]
        have e : n + 1 + r = n + (r + 1) := by omega
        rw [e]
      · rw [p1.count_eq, List.count_erase_self] at r3
        have : 0 < l.count v := List.count_pos_iff.2 hml
        omega
    · rw [if_neg (by simp only [hm, decide_false]; exact Bool.false_ne_true)]
      rw [if_neg hm] at p1
      have : l1 = l := by
        rw [removeFast] at q1
        rcases find_any l h2 v with ⟨hn, e⟩ | ⟨k, hk, g1, g2, e⟩
        · rw [e, ok_bind, if_neg (by omega)] at q1
          simp only [Except.ok.injEq, Prod.mk.injEq] at q1
          exact (List.map_inj_right (fun _ _ h => Option.some.inj h)).1 (Option.some.inj q1.1).symm
        · have : ¬ k < 2 ^ 31 := fun h => hm ((mem_take_first g1 g2 _).2 h)
          rw [e, ok_bind, if_neg this, if_neg (by omega)] at q1
          simp only [Except.ok.injEq, Prod.mk.injEq] at q1
          exact (List.map_inj_right (fun _ _ h => Option.some.inj h)).1 (Option.some.inj q1.1).symm
      subst this
      exact ⟨0, l1, rfl, List.Perm.refl _, Nat.zero_le _, hm⟩

end Verif.IntArray
