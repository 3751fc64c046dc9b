import Verif.Props.RemoveEach
import Verif.Props.IntArrayExact

/-!
# The order of removals doesn't matter: C173
-/

namespace Verif.RemoveEach
open Verif.C Spec

theorem filter_erase_comm {α : Type} [BEq α] [LawfulBEq α] [DecidableEq α] (t u : α) : ∀ l : List α,
    (l.filter (fun s => decide (s ≠ t))).erase u = (l.erase u).filter (fun s => decide (s ≠ t))
  | [] => rfl
  | x :: l => by
    have ih := filter_erase_comm t u l
    by_cases h : x = u
    · subst h
      rw [List.erase_cons_head]
      by_cases k : x = t
      · subst k
        rw [List.filter_cons_of_neg (by simp)]
        exact List.erase_of_not_mem (by simp)
      · rw [List.filter_cons_of_pos (by simpa using k), List.erase_cons_head]
    · rw [List.erase_cons_tail (by simpa using h)]
      by_cases k : x = t
      · rw [List.filter_cons_of_neg (by simpa using k), List.filter_cons_of_neg (by simpa using k), ih]
      · rw [List.filter_cons_of_pos (by simpa using k), List.filter_cons_of_pos (by simpa using k), List.erase_cons_tail (by simpa using h), ih]

theorem filter_ne_comm {α : Type} [DecidableEq α] (t u : α) (l : List α) :
    (l.filter (fun s => decide (s ≠ t))).filter (fun s => decide (s ≠ u)) = (l.filter (fun s => decide (s ≠ u))).filter (fun s => decide (s ≠ t)) := by
  simp only [List.filter_filter, Bool.and_comm]

section Ints
open Verif.IntArray

/-- **C173** Ints can be removed from an array in any order: the same ones are left, in the same order, and the same is returned for each of them (if they are different ones). That's for
arrays of at most 2^31 ints (see C46). -/
theorem C173_ints_partial (l : List Val) (h : l.length ≤ 2 ^ 31) (v w : Val) (hne : v ≠ w) :
    (∃ l1 l2 l' a b, remove (I l) v = .ok (I l1, a) ∧ remove (I l1) w = .ok (I l', b) ∧ remove (I l) w = .ok (I l2, b) ∧ remove (I l2) v = .ok (I l', a)) ∧
    (∃ l1 l2 l' m n, removeAll (I l) v = .ok (I l1, m) ∧ removeAll (I l1) w = .ok (I l', n) ∧ removeAll (I l) w = .ok (I l2, n) ∧ removeAll (I l2) v = .ok (I l', m)) := by
  have he : ∀ x : Val, (l.erase x).length ≤ 2 ^ 31 := fun x => Nat.le_trans List.length_erase_le h
  have hf : ∀ x : Val, (l.filter (· ≠ x)).length ≤ 2 ^ 31 := fun x => Nat.le_trans (List.length_filter_le _ _) h
  refine ⟨⟨l.erase v, l.erase w, (l.erase w).erase v, decide (v ∈ l), decide (w ∈ l), (C46_remove_partial l h v).1, ?_, (C46_remove_partial l h w).1, ?_⟩,
    ⟨l.filter (· ≠ v), l.filter (· ≠ w), (l.filter (· ≠ w)).filter (· ≠ v), l.count v, l.count w, (C46_remove_partial l h v).2.2.1, ?_, (C46_remove_partial l h w).2.2.1, ?_⟩⟩
  · rw [(C46_remove_partial _ (he v) w).1, List.erase_comm, decide_eq_decide.2 (List.mem_erase_of_ne hne.symm)]
  · rw [(C46_remove_partial _ (he w) v).1, decide_eq_decide.2 (List.mem_erase_of_ne hne)]
  · rw [(C46_remove_partial _ (hf v) w).2.2.1, filter_ne_comm, List.count_filter (by simpa using hne.symm)]
  · rw [(C46_remove_partial _ (hf w) v).2.2.1, List.count_filter (by simpa using hne)]

example : remove (I [1, 2, 1, 3]) 1 = .ok (I [2, 1, 3], true) ∧ remove (I [2, 1, 3]) 3 = .ok (I [2, 1], true) ∧ remove (I [1, 2, 1, 3]) 3 = .ok (I [1, 2, 1], true) ∧
    remove (I [1, 2, 1]) 1 = .ok (I [2, 1], true) := ⟨rfl, rfl, rfl, rfl⟩

/-- **C173** isn't true of larger arrays: an int which isn't found because there are too many of them before it, is found if one of those has been removed first. -/
theorem C173_refuted (n : Nat) (hn : n = 2 ^ 31) (l : List Val) (h : l = List.replicate n 0 ++ [1]) :
    ∃ l1 l2, remove (I l) 1 = .ok (I l, false) ∧ remove (I l) 0 = .ok (I l1, true) ∧ remove (I l1) 1 = .ok (I l2, true) := by
  have hlen : l.length = n + 1 := by rw [h]; simp
  have h1 : (1 : Val) ∉ l.take (2 ^ 31) := by
    rw [h, ← hn, List.take_append_of_le_length (by simp), List.take_of_length_le (by simp)]
    intro hm
    have := List.eq_of_mem_replicate hm
    exact absurd this (by decide)
  have h0 : l = 0 :: (List.replicate (n - 1) 0 ++ [1]) := by
    rw [h, show n = (n - 1) + 1 by omega, List.replicate_succ]
    simp
  have m0 : (0 : Val) ∈ l.take (2 ^ 31) := by
    rw [h0, show (2 ^ 31 : Nat) = (2 ^ 31 - 1) + 1 by omega, List.take_succ_cons]
    exact List.mem_cons_self
  have e1 := (C46_exactly l (by omega) 1).1
  have e2 := (C46_exactly l (by omega) 0).1
  rw [if_neg h1, decide_eq_false h1] at e1
  rw [if_pos m0, decide_eq_true m0] at e2
  have m1 : (1 : Val) ∈ l.erase 0 := by
    rw [List.mem_erase_of_ne (by decide), h]
    simp
  have e3 := (C46_remove_partial (l.erase 0) (by
    have := List.length_erase_of_mem (List.mem_of_mem_take m0)
    omega) 1).1
  rw [decide_eq_true m1] at e3
  exact ⟨_, _, e1, e2, e3⟩

end Ints

section Strings
open Verif.Strv Verif.Strv.Spec

theorem without_swap (t u : Str) (all all' : Bool) (ss : List Str) : without u all' (without t all ss) = without t all (without u all' ss) := by
  unfold without
  cases all <;> cases all' <;> simp only [Bool.false_eq_true, if_false, if_true]
  · exact List.erase_comm ..
  · exact (filter_erase_comm u t ss).symm
  · exact filter_erase_comm t u ss
  · exact filter_ne_comm t u ss

/-- **C173** Strings can be removed from a vector in any order (one or all of those which are equal to a given one): the same ones are left, in the same order. -/
theorem C173_strings {h : Heap} {v : Vec} {ps : List Nat} {ss : List Str} (H : Owns h v ps ss) {a b : Nat} {t u : Str} (ht : h[a]? = some (some t)) (hu : h[b]? = some (some u))
    (ha : a ∉ ps) (hb : b ∉ ps) (all all' : Bool) :
    ∃ h1 v1 h2 v2 ps2 h3 v3 h4 v4 ps4 left, Strv.remove h v (some a) all = .ok (h1, v1) ∧ Strv.remove h1 v1 (some b) all' = .ok (h2, v2) ∧
      Strv.remove h v (some b) all' = .ok (h3, v3) ∧ Strv.remove h3 v3 (some a) all = .ok (h4, v4) ∧ Owns h2 v2 ps2 left ∧ Owns h4 v4 ps4 left := by
  obtain ⟨h1, v1, ps1, e1, H1, s1, r1⟩ := C30_remove H ht ha all
  obtain ⟨h3, v3, ps3, e3, H3, s3, r3⟩ := C30_remove H hu hb all'
  have hu1 : h1[b]? = some (some u) := by
    rw [r1.2 b (List.getElem?_eq_some_iff.1 hu).1]
    simp [hb, hu]
  have ht3 : h3[a]? = some (some t) := by
    rw [r3.2 a (List.getElem?_eq_some_iff.1 ht).1]
    simp [ha, ht]
  obtain ⟨h2, v2, ps2, e2, H2, -, -⟩ := C30_remove H1 hu1 (fun hm => hb (s1.subset hm)) all'
  obtain ⟨h4, v4, ps4, e4, H4, -, -⟩ := C30_remove H3 ht3 (fun hm => ha (s3.subset hm)) all
  rw [without_swap] at H2
  exact ⟨h1, v1, h2, v2, ps2, h3, v3, h4, v4, ps4, _, e1, e2, e3, e4, H2, H4⟩

/-- The hypotheses are met. -/
example : Owns exHeap exVec [0, 1, 2] [[97], [98], [97]] ∧ exHeap[3]? = some (some [97]) ∧ 3 ∉ [0, 1, 2] := ⟨exOwns, rfl, by decide⟩

end Strings

section Objects
open Verif.Objv Verif.Objv.Spec Verif.Strv.Spec Verif.Ptrv

theorem objects_swap (t u : Nat) (all all' : Bool) (os : List Nat) : Objv.Spec.without u all' (Objv.Spec.without t all os) = Objv.Spec.without t all (Objv.Spec.without u all' os) := by
  unfold Objv.Spec.without
  cases all <;> cases all' <;> simp only [Bool.false_eq_true, if_false, if_true]
  · exact List.erase_comm ..
  · exact (filter_erase_comm u t os).symm
  · exact filter_erase_comm t u os
  · exact filter_ne_comm t u os

/-- **C173** The same for objects, and they have the same numbers of references. -/
theorem C173_objects {c : Refs} {v : Vec} {os : List Nat} (hv : Holds v os) (hc : Covered (cnt c) os) (o p : Nat) (all all' : Bool) :
    ∃ c1 v1 c2 v2 c3 v3 c4 v4 left, Objv.remove c v (some o) all = .ok (c1, v1) ∧ Objv.remove c1 v1 (some p) all' = .ok (c2, v2) ∧
      Objv.remove c v (some p) all' = .ok (c3, v3) ∧ Objv.remove c3 v3 (some o) all = .ok (c4, v4) ∧ Holds v2 left ∧ Holds v4 left ∧ cnt c2 = cnt c4 := by
  obtain ⟨-, -, -, -, -, g, -⟩ := C37_accounting hv hc
  obtain ⟨c1, v1, e1, hv1, a1⟩ := g o all
  obtain ⟨c3, v3, e3, hv3, a3⟩ := g p all'
  obtain ⟨-, -, -, -, -, g1, -⟩ := C37_accounting hv1 (covered_next hc a1)
  obtain ⟨-, -, -, -, -, g3, -⟩ := C37_accounting hv3 (covered_next hc a3)
  obtain ⟨c2, v2, e2, hv2, a2⟩ := g1 p all'
  obtain ⟨c4, v4, e4, hv4, a4⟩ := g3 o all
  rw [objects_swap] at hv2 a2
  refine ⟨c1, v1, c2, v2, c3, v3, c4, v4, _, e1, e2, e3, e4, hv2, hv4, funext fun a => ?_⟩
  have k1 := a1 a
  have k2 := a2 a
  have k3 := a3 a
  have k4 := a4 a
  omega

/-- The hypotheses are met (those about the vector are shown beside C154). -/
example : Objv.remove [3, 1, 1] (some [.ptr 0, .ptr 1, .ptr 0, .null]) (some 0) true = .ok ([1, 1, 1], some [.ptr 1, .null]) ∧
    Objv.remove [1, 1, 1] (some [.ptr 1, .null]) (some 1) false = .ok ([1, 0, 1], some [.null]) ∧
    Objv.remove [3, 1, 1] (some [.ptr 0, .ptr 1, .ptr 0, .null]) (some 1) false = .ok ([3, 0, 1], some [.ptr 0, .ptr 0, .null]) ∧
    Objv.remove [3, 0, 1] (some [.ptr 0, .ptr 0, .null]) (some 0) true = .ok ([1, 0, 1], some [.null]) :=
  ⟨by decide +kernel, by decide +kernel, by decide +kernel, by decide +kernel⟩

end Objects

end Verif.RemoveEach
