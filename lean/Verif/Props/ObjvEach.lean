import Verif.Props.Objv

/-!
# Different ways to make the same object vector: C167
-/

namespace Verif.Objv
open Verif.C Spec
open Verif.Strv.Spec (Holds)

theorem accounted_same {c c1 c2 : Nat → Nat} {os os' : List Nat} (h1 : Accounted c c1 os os') (h2 : Accounted c c2 os os') : c1 = c2 := by
  funext a
  have := h1 a
  have := h2 a
  omega

theorem alive_of_covered {c : Nat → Nat} {qs : List Nat} (hq : Covered c qs) : ∀ a ∈ qs, 0 < c a := by
  intro a ha
  have := hq a
  have : 0 < qs.count a := List.count_pos_iff.2 ha
  omega

theorem add_each_obj : ∀ (args : List Nat) {c : Refs} {v : Vec} {os : List Nat}, Holds v os → (∀ a ∈ args, 0 < cnt c a) →
    ∃ c' v', args.foldlM (fun (x : Refs × Vec) a => add x.1 x.2 (some a)) (c, v) = .ok (c', v') ∧ Holds v' (os ++ args) ∧
      Accounted (cnt c) (cnt c') os (os ++ args)
  | [], c, v, os, hv, _ => ⟨c, v, rfl, by simpa using hv, fun a => by simp⟩
  | o :: args, c, v, os, hv, ha => by
    obtain ⟨c1, v1, h1, h2, h3⟩ := add_ok hv (ha o List.mem_cons_self)
    obtain ⟨c2, v2, k1, k2, k3⟩ := add_each_obj args (c := c1) h2 (fun a hm => by
      have := ha a (List.mem_cons_of_mem _ hm)
      have := h3 a
      rw [List.count_append] at this
      omega)
    refine ⟨c2, v2, ?_, by simpa using k2, fun a => ?_⟩
    · rw [List.foldlM_cons]
      dsimp only
      rw [h1]
      exact k1
    · have e1 := h3 a
      have e2 := k3 a
      simp only [List.append_assoc, List.cons_append, List.nil_append] at e2
      omega

/-- **C167** `gutil_objv_append` (of another vector) does what `gutil_objv_add` does if it's called for each of its objects: the objects are the same after
that, and there are as many references to each. -/
theorem C167_append {c : Refs} {v w : Vec} {os qs : List Nat} (hv : Holds v os) (hw : Holds w qs) (hq : Covered (cnt c) qs) :
    ∃ c1 c2 v1 v2, append c v w = .ok (c1, v1) ∧ qs.foldlM (fun (x : Refs × Vec) a => add x.1 x.2 (some a)) (c, v) = .ok (c2, v2) ∧
      Holds v1 (os ++ qs) ∧ Holds v2 (os ++ qs) ∧ cnt c1 = cnt c2 := by
  obtain ⟨c1, v1, h1, h2, h3⟩ := append_ok hv hw (alive_of_covered hq)
  obtain ⟨c2, v2, k1, k2, k3⟩ := add_each_obj qs hv (alive_of_covered hq)
  exact ⟨c1, c2, v1, v2, h1, k1, h2, k2, accounted_same h3 k3⟩

/-- **C167** `gutil_objv_new` does what adding each of its arguments to `NULL` does. -/
theorem C167_new {c : Refs} {args : List Nat} (ha : ∀ a ∈ args, 0 < cnt c a) :
    ∃ c1 c2 v1 v2, new c args = .ok (c1, v1) ∧ args.foldlM (fun (x : Refs × Vec) a => add x.1 x.2 (some a)) (c, none) = .ok (c2, v2) ∧
      Holds v1 args ∧ Holds v2 args ∧ cnt c1 = cnt c2 := by
  obtain ⟨c1, v1, h1, h2, h3⟩ := new_ok ha
  obtain ⟨c2, v2, k1, k2, k3⟩ := add_each_obj args (v := none) (os := []) (.inl ⟨rfl, rfl⟩) ha
  exact ⟨c1, c2, v1, v2, h1, k1, h2, k2, accounted_same h3 k3⟩

/-- **C167** `gutil_objv_copy` does what appending to `NULL` does, and inserting an object at the end (or at any position behind it) does what adding it does. -/
theorem C167_copy {c : Refs} {v : Vec} {os : List Nat} (hv : Holds v os) (hc : Covered (cnt c) os) :
    (∃ c1 c2 v1 v2, copy c v = .ok (c1, v1) ∧ append c none v = .ok (c2, v2) ∧ Holds v1 os ∧ Holds v2 os ∧ cnt c1 = cnt c2) ∧
    ∀ o pos, 0 < cnt c o → os.length ≤ pos →
      ∃ c1 c2 v1 v2, insert c v (some o) pos = .ok (c1, v1) ∧ add c v (some o) = .ok (c2, v2) ∧ Holds v1 (os ++ [o]) ∧ Holds v2 (os ++ [o]) ∧ cnt c1 = cnt c2 := by
  constructor
  · obtain ⟨c1, v1, h1, h2, h3, -⟩ := copy_ok hv (alive_of_covered hc)
    obtain ⟨c2, v2, k1, k2, k3⟩ := append_ok (v := none) (os := []) (.inl ⟨rfl, rfl⟩) hv (alive_of_covered hc)
    exact ⟨c1, c2, v1, v2, h1, k1, h2, k2, accounted_same h3 k3⟩
  · intro o pos ho hp
    obtain ⟨c1, v1, h1, h2, h3⟩ := insert_ok pos hv ho
    obtain ⟨c2, v2, k1, k2, k3⟩ := add_ok hv ho
    rw [List.take_of_length_le hp, List.drop_eq_nil_of_le hp] at h2 h3
    exact ⟨c1, c2, v1, v2, h1, k1, h2, k2, accounted_same h3 k3⟩

/-- The conditions are met by vectors which have an object in common. -/
example : Holds (some [.ptr 1, .null]) [1] ∧ Holds (some [.ptr 1, .ptr 0, .null]) [1, 0] ∧ Covered (cnt [1, 2]) [1, 0] ∧
    append [1, 2] (some [.ptr 1, .null]) (some [.ptr 1, .ptr 0, .null]) = .ok ([2, 3], some [.ptr 1, .ptr 1, .ptr 0, .null]) ∧
    [1, 0].foldlM (fun (x : Refs × Vec) a => add x.1 x.2 (some a)) ([1, 2], some [.ptr 1, .null]) = .ok ([2, 3], some [.ptr 1, .ptr 1, .ptr 0, .null]) := by
  refine ⟨.inr ⟨0, rfl⟩, .inr ⟨0, rfl⟩, ?_, by decide +kernel, by decide +kernel⟩
  intro a
  match a with
  | 0 => decide
  | 1 => decide
  | a + 2 => rw [List.count_eq_zero.2 (by simp)]; omega

end Verif.Objv
