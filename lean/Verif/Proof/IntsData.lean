import Verif.Proof.IntsRun
import Verif.Proof.StrvSort

namespace Verif.Ints
open Verif.C Verif.Strv

theorem bytesOf_length (le : Bool) (x : Val) : (bytesOf le x).length = 4 := by
  cases le <;> rfl

theorem bytesOf_inj (le : Bool) (x y : Val) (h : bytesOf le x = bytesOf le y) : x = y := by
  have h4 : x.extractLsb' 0 8 = y.extractLsb' 0 8 ∧ x.extractLsb' 8 8 = y.extractLsb' 8 8 ∧
      x.extractLsb' 16 8 = y.extractLsb' 16 8 ∧ x.extractLsb' 24 8 = y.extractLsb' 24 8 := by
    cases le <;> simp [bytesOf] at h
    · exact ⟨h.2.2.2, h.2.2.1, h.2.1, h.1⟩
    · exact ⟨h.1, h.2.1, h.2.2.1, h.2.2.2⟩
  obtain ⟨h0, h1, h2, h3⟩ := h4
  apply BitVec.eq_of_getLsbD_eq
  intro i hi
  have key : ∀ k, x.extractLsb' k 8 = y.extractLsb' k 8 → k ≤ i → i < k + 8 → x.getLsbD i = y.getLsbD i := by
    intro k e hk hk'
    have := congrArg (fun b => b.getLsbD (i - k)) e
    simp only [BitVec.getLsbD_extractLsb'] at this
    have hd : decide (i - k < 8) = true := by simp; omega
    rw [hd] at this
    simp only [Bool.true_and] at this
    have e' : k + (i - k) = i := by omega
    rwa [e'] at this
  by_cases c0 : i < 8
  · exact key 0 h0 (by omega) (by omega)
  by_cases c1 : i < 16
  · exact key 8 h1 (by omega) (by omega)
  by_cases c2 : i < 24
  · exact key 16 h2 (by omega) (by omega)
  exact key 24 h3 (by omega) (by omega)

/-- The bytes of several ints. -/
abbrev bytes (le : Bool) (l : List Val) : List Byte := l.flatMap (bytesOf le)

theorem bytes_length (le : Bool) : ∀ l : List Val, (bytes le l).length = 4 * l.length
  | [] => rfl
  | x :: t => by
    have := bytes_length le t
    simp only [bytes, List.flatMap_cons, List.length_append, bytesOf_length, List.length_cons] at this ⊢
    omega

theorem bytes_inj (le : Bool) : ∀ a b : List Val, bytes le a = bytes le b → a = b
  | [], [], _ => rfl
  | [], y :: t, h => by
    have := congrArg List.length h
    simp only [bytes_length, List.length_cons, List.length_nil] at this
    omega
  | x :: s, [], h => by
    have := congrArg List.length h
    simp only [bytes_length, List.length_cons, List.length_nil] at this
    omega
  | x :: s, y :: t, h => by
    simp only [bytes, List.flatMap_cons] at h
    obtain ⟨h1, h2⟩ := List.append_inj h (by rw [bytesOf_length, bytesOf_length])
    rw [bytesOf_inj le x y h1, bytes_inj le s t h2]

theorem memcmp_eq_zero : ∀ s t : List Byte, s.length = t.length → (memcmp s t = 0 ↔ s = t)
  | [], [], _ => by simp [memcmp]
  | [], _ :: _, h => by simp at h
  | _ :: _, [], h => by simp at h
  | a :: s, b :: t, h => by
    rw [memcmp]
    by_cases e : a = b
    · subst e
      simp [memcmp_eq_zero s t (by simpa using h)]
    · rw [if_neg e]
      simp [e]
      split <;> simp

theorem equal_iff (le : Bool) (a b : Option (List Val)) : equal le a b = true ↔ a = b := by
  cases a <;> cases b <;> simp [equal]
  rename_i a b
  constructor
  · rintro ⟨h1, h2⟩
    exact bytes_inj le a b ((memcmp_eq_zero _ _ (by rw [bytes_length, bytes_length, h1])).1 h2)
  · rintro rfl
    exact ⟨rfl, (memcmp_eq_zero _ _ rfl).2 rfl⟩

theorem memcmp_append : ∀ s s' t t' : List Byte, s.length = s'.length →
    memcmp (s ++ t) (s' ++ t') = if s = s' then memcmp t t' else memcmp s s'
  | [], [], _, _, _ => by simp
  | [], _ :: _, _, _, h => by simp at h
  | _ :: _, [], _, _, h => by simp at h
  | a :: s, b :: s', t, t', h => by
    rw [List.cons_append, List.cons_append, memcmp, memcmp]
    by_cases e : a = b
    · subst e
      rw [if_pos rfl, if_pos rfl, memcmp_append s s' t t' (by simpa using h)]
      by_cases e2 : s = s' <;> simp [e2]
    · simp [e]

theorem bytes_take (le : Bool) : ∀ (n : Nat) (l : List Val), bytes le (l.take n) = (bytes le l).take (4 * n)
  | 0, l => by simp [bytes]
  | n + 1, [] => by simp [bytes]
  | n + 1, x :: t => by
    have ih := bytes_take le n t
    simp only [bytes, List.take_succ_cons, List.flatMap_cons] at ih ⊢
    have h1 : List.take (4 * (n + 1)) (bytesOf le x) = bytesOf le x :=
      List.take_of_length_le (by rw [bytesOf_length]; omega)
    have h2 : 4 * (n + 1) - 4 = 4 * n := by omega
    rw [ih, List.take_append, bytesOf_length, h1, h2]

theorem cmpBytes_memcmp : ∀ s t : List Byte, cmpBytes s t =
    if memcmp (s.take (min s.length t.length)) (t.take (min s.length t.length)) ≠ 0 ∨ s.length = t.length then
      memcmp (s.take (min s.length t.length)) (t.take (min s.length t.length))
    else if s.length > t.length then 1 else -1
  | [], [] => by simp [cmpBytes, memcmp]
  | [], _ :: _ => by simp [cmpBytes, memcmp]
  | _ :: _, [] => by simp [cmpBytes, memcmp]
  | a :: s, b :: t => by
    have ih := cmpBytes_memcmp s t
    have hm : min (a :: s).length (b :: t).length = min s.length t.length + 1 := by simp
    rw [hm, List.take_succ_cons, List.take_succ_cons, cmpBytes, memcmp, ih]
    by_cases e : a = b
    · subst e
      simp
    · have : ∀ x y : Int, (if a = b then x else y) = y := fun x y => if_neg e
      simp only [this]
      split <;> simp

theorem compare_some (le : Bool) (a b : List Val) : compare le (some a) (some b) = cmpBytes (bytes le a) (bytes le b) := by
  rw [cmpBytes_memcmp, compare]
  have hm : min (bytes le a).length (bytes le b).length = 4 * min a.length b.length := by
    rw [bytes_length, bytes_length]; omega
  rw [hm, ← bytes_take, ← bytes_take, bytes_length, bytes_length]
  have h1 : (4 * a.length = 4 * b.length) = (a.length = b.length) := by
    apply propext; omega
  have h2 : (4 * a.length > 4 * b.length) = (a.length > b.length) := by
    apply propext; omega
  simp only [h1, h2]

theorem compare_eq_zero (le : Bool) (a b : Option (List Val)) : compare le a b = 0 ↔ a = b := by
  cases a <;> cases b <;> try simp [compare]
  rw [← compare, compare_some, cmpBytes_eq_zero]
  exact ⟨bytes_inj le _ _, fun h => by rw [h]⟩

theorem compare_swap (le : Bool) (a b : Option (List Val)) : compare le b a = - compare le a b := by
  cases a <;> cases b <;> try simp [compare]
  rename_i a b
  have := cmpBytes_swap (bytes le a) (bytes le b)
  rw [← compare_some, ← compare_some] at this
  exact this

theorem compare_trans (le : Bool) (a b c : Option (List Val)) (h1 : compare le a b ≤ 0) (h2 : compare le b c ≤ 0) :
    compare le a c ≤ 0 := by
  cases a with
  | none => cases c <;> simp [compare]
  | some a =>
    cases b with
    | none => simp [compare] at h1
    | some b =>
      cases c with
      | none => simp [compare] at h2
      | some c =>
        rw [compare_some] at h1 h2 ⊢
        exact cmpBytes_trans h1 h2

theorem findLoop_spec (v : Val) : ∀ (l : List Val) (i : Nat),
    findLoop v l i = (match l.findIdx? (· = v) with | some k => toInt32 ((i + k : Nat)) | none => -1)
  | [], i => rfl
  | x :: t, i => by
    rw [findLoop, List.findIdx?_cons]
    by_cases e : x = v
    · simp [e]
    · rw [if_neg e, findLoop_spec v t (i + 1)]
      simp only [e, decide_false, Bool.false_eq_true, if_false]
      cases t.findIdx? (· = v) with
      | none => rfl
      | some k => simp [Nat.add_comm, Nat.add_left_comm]

theorem containsLoop_iff (v : Val) : ∀ l : List Val, containsLoop v l = true ↔ v ∈ l
  | [] => by simp [containsLoop]
  | x :: t => by
    rw [containsLoop]
    by_cases e : x = v
    · simp [e]
    · rw [if_neg e, containsLoop_iff v t]
      simp [Ne.symm e]

theorem toInt32_small {k : Nat} (h : k < 2 ^ 31) : toInt32 (k : Int) = k := by
  unfold toInt32
  rw [BitVec.toInt_ofInt]
  exact Int.bmod_eq_of_le (by omega) (by omega)

end Verif.Ints
