import Verif.Model.IntArray
import Verif.Proof.IntsData

namespace Verif.IntArray
open Verif.C
export Verif.Ints (toInt32_small toUInt32_sub)

/-- An array of the given ints. -/
abbrev I (l : List Val) : Option Arr := some (l.map some)

theorem findLoop_ok (v : Val) : ∀ (l : List Val) (i : Nat),
    findLoop v (l.map some) i = .ok (match l.findIdx? (· = v) with | some k => toInt32 ((i + k : Nat)) | none => -1)
  | [], i => rfl
  | x :: t, i => by
    rw [List.map_cons, findLoop, List.findIdx?_cons]
    by_cases e : x = v
    · simp [e]
    · rw [if_neg e, findLoop_ok v t (i + 1)]
      simp only [e, decide_false, Bool.false_eq_true, if_false]
      cases t.findIdx? (· = v) with
      | none => rfl
      | some k => simp [Nat.add_comm, Nat.add_left_comm]

theorem find_cases (l : List Val) (h : l.length ≤ 2 ^ 31) (v : Val) :
    (v ∉ l ∧ find (I l) v = .ok (-1)) ∨
    (∃ k : Nat, k < l.length ∧ l[k]? = some v ∧ v ∉ l.take k ∧ find (I l) v = .ok (k : Int)) := by
  rw [find, findLoop_ok]
  cases hx : l.findIdx? (· = v) with
  | none =>
    left
    refine ⟨?_, rfl⟩
    intro hm
    have := List.findIdx?_eq_none_iff.1 hx v hm
    simp at this
  | some k =>
    right
    obtain ⟨hk, e1, e2⟩ := List.findIdx?_eq_some_iff_getElem.1 hx
    simp only [decide_eq_true_eq] at e1 e2
    refine ⟨k, hk, List.getElem?_eq_some_iff.2 ⟨hk, e1⟩, ?_, ?_⟩
    · intro hm
      obtain ⟨j, hj, e⟩ := List.mem_take_iff_getElem.1 hm
      exact e2 j (by omega) e
    · dsimp only
      rw [Nat.zero_add, toInt32_small (by omega)]

theorem eraseIdx_first {l : List Val} {k : Nat} {v : Val} (h1 : l[k]? = some v) (h2 : v ∉ l.take k) : l.eraseIdx k = l.erase v := by
  induction l generalizing k with
  | nil => simp at h1
  | cons x t ih =>
    cases k with
    | zero =>
      simp at h1
      simp [h1]
    | succ k =>
      simp at h1 h2
      rw [List.eraseIdx_cons_succ, ih h1 h2.2, List.erase_cons_tail (by simpa using Ne.symm h2.1)]

/-- The last element takes the place of the one at `i`. -/
def swapRemove {α : Type} (l : List α) (i : Nat) : List α :=
  (match l.getLast? with | some x => if i ≠ l.length - 1 then l.set i x else l | none => l).dropLast

theorem gRemoveIndexFast_ok {a : Arr} {i : Nat} (h : i < a.length) : gRemoveIndexFast a i = .ok (swapRemove a i) := by
  rw [gRemoveIndexFast, dif_pos h]
  unfold swapRemove
  have : a.getLast? = some (a[a.length - 1]'(by omega)) := by
    rw [List.getLast?_eq_getElem?]
    exact List.getElem?_eq_getElem (by omega)
  rw [this]
  dsimp only
  rw [List.dropLast_eq_take]
  congr 2
  split <;> simp

theorem swapRemove_map {α β : Type} (f : α → β) (l : List α) (i : Nat) : swapRemove (l.map f) i = (swapRemove l i).map f := by
  unfold swapRemove
  rw [List.getLast?_map, List.length_map]
  cases l.getLast? with
  | none => simp
  | some x =>
    simp only [Option.map_some]
    split <;> simp

theorem swapRemove_perm {α : Type} {l : List α} {i : Nat} (h : i < l.length) : (swapRemove l i).Perm (l.eraseIdx i) := by
  have hl : l = l.dropLast ++ [l.getLast (by intro e; subst e; simp at h)] := (List.dropLast_concat_getLast _).symm
  generalize l.getLast (by intro e; subst e; simp at h) = x at hl
  generalize l.dropLast = d at hl
  subst hl
  unfold swapRemove
  simp only [List.getLast?_concat, List.length_append, List.length_singleton, Nat.add_sub_cancel]
  by_cases hi : i = d.length
  · subst hi
    simp [List.eraseIdx_append_of_length_le]
  · have hlt : i < d.length := by simp at h; omega
    rw [if_pos hi, List.set_append_left _ _ hlt, List.dropLast_concat, List.eraseIdx_append_of_lt_length hlt,
      List.set_eq_take_append_cons_drop, if_pos hlt, List.eraseIdx_eq_take_drop_succ]
    exact List.perm_middle.trans (List.perm_append_singleton x _).symm

theorem filter_ne_of_not_mem {l : List Val} {v : Val} (h : v ∉ l) : l.filter (· ≠ v) = l := by
  rw [List.filter_eq_self]
  intro a ha
  simp
  rintro rfl
  exact h ha

theorem filter_erase (l : List Val) (v : Val) : (l.erase v).filter (· ≠ v) = l.filter (· ≠ v) := by
  induction l with
  | nil => rfl
  | cons x t ih =>
    by_cases e : x = v
    · subst e; simp
    · rw [List.erase_cons_tail (by simpa using e)]
      simp only [List.filter_cons, ih]

theorem map_eraseIdx' {α β : Type} (f : α → β) (l : List α) (i : Nat) : (l.map f).eraseIdx i = (l.eraseIdx i).map f := by
  rw [List.eraseIdx_eq_take_drop_succ, List.eraseIdx_eq_take_drop_succ]
  simp

theorem remove_ok (l : List Val) (h : l.length ≤ 2 ^ 31) (v : Val) :
    remove (I l) v = .ok (I (l.erase v), decide (v ∈ l)) := by
  rw [remove]
  rcases find_cases l h v with ⟨hn, e⟩ | ⟨k, hk, h1, h2, e⟩
  · rw [e, ok_bind, if_neg (by omega), List.erase_of_not_mem hn]
    simp [hn]
  · have hm : v ∈ l := List.mem_iff_getElem?.2 ⟨k, h1⟩
    rw [e, ok_bind, if_pos (by omega), onArray, gRemoveIndex, if_pos (by simpa using hk), ok_bind, ok_bind]
    rw [Int.toNat_natCast, ← eraseIdx_first h1 h2, map_eraseIdx']
    simp [hm]

theorem removeFast_ok (l : List Val) (h : l.length ≤ 2 ^ 31) (v : Val) :
    ∃ l', removeFast (I l) v = .ok (I l', decide (v ∈ l)) ∧ l'.Perm (l.erase v) := by
  rw [removeFast]
  rcases find_cases l h v with ⟨hn, e⟩ | ⟨k, hk, h1, h2, e⟩
  · refine ⟨l, ?_, ?_⟩
    · rw [e, ok_bind, if_neg (by omega)]
      simp [hn]
    · rw [List.erase_of_not_mem hn]
  · have hm : v ∈ l := List.mem_iff_getElem?.2 ⟨k, h1⟩
    refine ⟨swapRemove l k, ?_, ?_⟩
    · rw [e, ok_bind, if_pos (by omega), Int.toNat_natCast, onArray, gRemoveIndexFast_ok (by simpa using hk), ok_bind, ok_bind, swapRemove_map]
      simp [hm]
    · rw [← eraseIdx_first h1 h2]
      exact swapRemove_perm hk

/-- Both loops. -/
theorem removeLoop_ok (rm : Option Arr → M (Option Arr × Bool)) (v : Val)
    (hrm : ∀ l : List Val, l.length ≤ 2 ^ 31 → ∃ l', rm (I l) = .ok (I l', decide (v ∈ l)) ∧ l'.Perm (l.erase v))
    (fuel : Nat) : ∀ (l : List Val) (n : Nat), l.length < fuel → l.length ≤ 2 ^ 31 → n + l.length < 2 ^ 32 →
    ∃ l', removeLoop rm fuel (I l) n = .ok (I l', n + l.count v) ∧ l'.Perm (l.filter (· ≠ v)) := by
  induction fuel with
  | zero => intro l n h; omega
  | succ fuel ih =>
    intro l n h1 h2 h3
    obtain ⟨l1, r1, p1⟩ := hrm l h2
    rw [removeLoop, r1, ok_bind]
    dsimp only
    by_cases hm : v ∈ l
    · have hlen : l1.length + 1 = l.length := by
        rw [p1.length_eq, List.length_erase_of_mem hm]
        have := List.length_pos_of_mem hm
        omega
      rw [if_pos (by simp [hm])]
      have hmod : (n + 1) % 2 ^ 32 = n + 1 := Nat.mod_eq_of_lt (by omega)
      rw [hmod]
      obtain ⟨l2, r2, p2⟩ := ih l1 (n + 1) (by omega) (by omega) (by omega)
      refine ⟨l2, ?_, ?_⟩
      · rw [r2, p1.count_eq, List.count_erase_self]
        have : 0 < l.count v := List.count_pos_iff.2 hm
        have e : n + 1 + (l.count v - 1) = n + l.count v := by omega
        rw [e]
      · refine p2.trans ?_
        rw [← filter_erase l v]
        exact p1.filter _
    · rw [if_neg (by simp [hm])]
      refine ⟨l1, ?_, ?_⟩
      · rw [List.count_eq_zero.2 hm]; rfl
      · rw [List.erase_of_not_mem hm] at p1
        rw [filter_ne_of_not_mem hm]
        exact p1

theorem removeAllLoop_ok (v : Val) (fuel : Nat) : ∀ (l : List Val) (n : Nat), l.length < fuel → l.length ≤ 2 ^ 31 →
    n + l.length < 2 ^ 32 →
    removeLoop (fun a => remove a v) fuel (I l) n = .ok (I (l.filter (· ≠ v)), n + l.count v) := by
  induction fuel with
  | zero => intro l n h; omega
  | succ fuel ih =>
    intro l n h1 h2 h3
    rw [removeLoop, remove_ok l h2 v, ok_bind]
    dsimp only
    by_cases hm : v ∈ l
    · have hlen : (l.erase v).length + 1 = l.length := by
        rw [List.length_erase_of_mem hm]
        have := List.length_pos_of_mem hm
        omega
      rw [if_pos (by simp [hm])]
      have hmod : (n + 1) % 2 ^ 32 = n + 1 := Nat.mod_eq_of_lt (by omega)
      rw [hmod, ih (l.erase v) (n + 1) (by omega) (by omega) (by omega), filter_erase, List.count_erase_self]
      have : 0 < l.count v := List.count_pos_iff.2 hm
      have e : n + 1 + (l.count v - 1) = n + l.count v := by omega
      rw [e]
    · rw [if_neg (by simp [hm]), List.erase_of_not_mem hm, filter_ne_of_not_mem hm, List.count_eq_zero.2 hm]
      rfl

theorem toInt_range (v : Val) : -2 ^ 31 ≤ v.toInt ∧ v.toInt < 2 ^ 31 := by
  have := BitVec.toInt_lt (x := v)
  have := BitVec.le_toInt (x := v)
  omega

theorem arith32_small (mode : Mode) {x : Int} (h : -2 ^ 31 ≤ x ∧ x < 2 ^ 31) : arith32 mode x = .ok x := by
  cases mode with
  | strict =>
    unfold arith32 chk32 intMin intMax
    simp only []
    rw [if_pos (by omega)]
  | wrap =>
    unfold arith32 toInt32
    simp only []
    rw [BitVec.toInt_ofInt, Int.bmod_eq_of_le (by omega) (by omega)]

end Verif.IntArray
