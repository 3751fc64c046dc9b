import Verif.Props.Objv

/-!
# Changes of object vectors can be undone: C154
-/

namespace Verif.Objv
open Verif.C Verif.Ptrv Verif.Strv.Spec Spec

theorem covered_next {c c' : Nat → Nat} {os os' : List Nat} (h : Covered c os) (ha : Accounted c c' os os') : Covered c' os' := by
  intro a
  have h1 := h a
  have h2 := ha a
  omega

theorem accounted_back {c c' c'' : Nat → Nat} {os os' : List Nat} (h : Accounted c c' os os') (g : Accounted c' c'' os' os) : c'' = c := by
  funext a
  have h1 := h a
  have h2 := g a
  omega

theorem erase_inserted (os : List Nat) (o pos : Nat) : (os.take pos ++ o :: os.drop pos).eraseIdx (min pos os.length) = os := by
  rw [List.eraseIdx_append_of_length_le (by rw [List.length_take]; omega), List.length_take, Nat.sub_self, List.eraseIdx_cons_zero, List.take_append_drop]

/-- **C154** Whatever has been added, inserted or appended can be removed again, and a copy can be released: after that the vector contains the same objects,
and there are as many references to each object as before. -/
theorem C154_undo {c : Refs} {v : Vec} {os : List Nat} (hv : Holds v os) (hc : Covered (cnt c) os) :
    (∀ o, 0 < cnt c o → ∃ c1 v1 c2 v2, add c v (some o) = .ok (c1, v1) ∧ removeAt c1 v1 os.length = .ok (c2, v2) ∧ Holds v2 os ∧ cnt c2 = cnt c) ∧
    (∀ o pos, 0 < cnt c o → ∃ c1 v1 c2 v2, insert c v (some o) pos = .ok (c1, v1) ∧ removeAt c1 v1 (min pos os.length) = .ok (c2, v2) ∧ Holds v2 os ∧
      cnt c2 = cnt c) ∧
    (∀ o pos all, 0 < cnt c o → o ∉ os → ∃ c1 v1 c2 v2, insert c v (some o) pos = .ok (c1, v1) ∧ remove c1 v1 (some o) all = .ok (c2, v2) ∧ Holds v2 os ∧
      cnt c2 = cnt c) ∧
    (∃ c1 v1 c2, copy c v = .ok (c1, v1) ∧ Holds v1 os ∧ free c1 v1 = .ok c2 ∧ cnt c2 = cnt c) := by
  refine ⟨fun o ho => ?_, fun o pos ho => ?_, fun o pos all ho hn => ?_, ?_⟩
  · obtain ⟨-, -, h, -⟩ := C37_accounting hv hc
    obtain ⟨c1, v1, e1, e2, e3⟩ := h o ho
    obtain ⟨-, -, -, -, -, -, g, -⟩ := C37_accounting e2 (covered_next hc e3)
    obtain ⟨c2, v2, f1, f2, f3⟩ := g os.length
    have e : (os ++ [o]).eraseIdx os.length = os := by
      rw [List.eraseIdx_append_of_length_le (Nat.le_refl _), Nat.sub_self, List.eraseIdx_cons_zero, List.append_nil]
    rw [e] at f2 f3
    exact ⟨c1, v1, c2, v2, e1, f1, f2, accounted_back e3 f3⟩
  · obtain ⟨-, -, -, h, -⟩ := C37_accounting hv hc
    obtain ⟨c1, v1, e1, e2, e3⟩ := h o pos ho
    obtain ⟨-, -, -, -, -, -, g, -⟩ := C37_accounting e2 (covered_next hc e3)
    obtain ⟨c2, v2, f1, f2, f3⟩ := g (min pos os.length)
    rw [erase_inserted] at f2 f3
    exact ⟨c1, v1, c2, v2, e1, f1, f2, accounted_back e3 f3⟩
  · obtain ⟨-, -, -, h, -⟩ := C37_accounting hv hc
    obtain ⟨c1, v1, e1, e2, e3⟩ := h o pos ho
    obtain ⟨-, -, -, -, -, g, -⟩ := C37_accounting e2 (covered_next hc e3)
    obtain ⟨c2, v2, f1, f2, f3⟩ := g o all
    have h1 : o ∉ os.take pos := fun h => hn (List.mem_of_mem_take h)
    have h2 : o ∉ os.drop pos := fun h => hn (List.mem_of_mem_drop h)
    have e : Spec.without o all (os.take pos ++ o :: os.drop pos) = os := by
      unfold Spec.without
      split
      · have k : ∀ l : List Nat, o ∉ l → l.filter (fun a => decide (a ≠ o)) = l := by
          intro l hl
          rw [List.filter_eq_self]
          intro a ha
          simp only [ne_eq, decide_eq_true_eq]
          rintro rfl
          exact hl ha
        rw [List.filter_append, List.filter_cons_of_neg (by simp), k _ h1, k _ h2, List.take_append_drop]
      · rw [List.erase_append_right _ h1, List.erase_cons_head, List.take_append_drop]
    rw [e] at f2 f3
    exact ⟨c1, v1, c2, v2, e1, f1, f2, accounted_back e3 f3⟩
  · obtain ⟨-, ⟨c1, v1, e1, e2, e3⟩, -⟩ := C37_accounting hv hc
    have hcov : Covered (cnt c1) os := by
      intro a
      have h1 := hc a
      have h2 := e3 a
      simp only [List.count_nil, Nat.add_zero] at h2
      omega
    obtain ⟨-, -, -, -, -, -, -, c2, f1, f2⟩ := C37_accounting e2 hcov
    refine ⟨c1, v1, c2, e1, e2, f1, ?_⟩
    funext a
    have h1 := e3 a
    have h2 := f2 a
    simp only [List.count_nil, Nat.add_zero] at h1 h2
    omega

/-- **C154** An object which has been removed can be put back if there are other references to it. If not then it has been released. -/
theorem C154_put_back {c : Refs} {v : Vec} {os : List Nat} (hv : Holds v os) (hc : Covered (cnt c) os) (pos o : Nat) (ho : os[pos]? = some o) :
    ∃ c1 v1, removeAt c v pos = .ok (c1, v1) ∧
      (1 < cnt c o → ∃ c2 v2, insert c1 v1 (some o) pos = .ok (c2, v2) ∧ Holds v2 os ∧ cnt c2 = cnt c) ∧ (cnt c o = 1 → cnt c1 o = 0) := by
  obtain ⟨-, -, -, -, -, -, g, -⟩ := C37_accounting hv hc
  obtain ⟨c1, v1, e1, e2, e3⟩ := g pos
  obtain ⟨hp, hget⟩ := List.getElem?_eq_some_iff.1 ho
  have hsplit : os = os.take pos ++ o :: os.drop (pos + 1) := by
    rw [← hget, List.getElem_cons_drop, List.take_append_drop]
  have hcount : os.count o = (os.eraseIdx pos).count o + 1 := by
    rw [List.eraseIdx_eq_take_drop_succ]
    conv => lhs; rw [hsplit]
    simp only [List.count_append, List.count_cons_self]
    omega
  have h1 := e3 o
  refine ⟨c1, v1, e1, fun h => ?_, fun h => by omega⟩
  obtain ⟨-, -, -, k, -⟩ := C37_accounting e2 (covered_next hc e3)
  obtain ⟨c2, v2, f1, f2, f3⟩ := k o pos (by omega)
  have e : (os.eraseIdx pos).take pos ++ o :: (os.eraseIdx pos).drop pos = os := by
    rw [List.eraseIdx_eq_take_drop_succ]
    have hl : (os.take pos).length = pos := by rw [List.length_take]; omega
    rw [List.take_append_of_le_length (by omega), List.take_of_length_le (by omega), List.drop_append_of_le_length (by omega),
      List.drop_eq_nil_of_le (by omega), List.nil_append]
    exact hsplit.symm
  rw [e] at f2 f3
  exact ⟨c2, v2, f1, f2, accounted_back e3 f3⟩

/-- The conditions are met by a vector of two objects one of which is there twice, and there's a third object. -/
example : Holds (some [.ptr 0, .ptr 1, .ptr 0, .null]) [0, 1, 0] ∧ Covered (cnt [3, 1, 1]) [0, 1, 0] ∧ 0 < cnt [3, 1, 1] 2 ∧ 1 < cnt [3, 1, 1] 0 ∧ cnt [3, 1, 1] 1 = 1 := by
  refine ⟨.inr ⟨0, rfl⟩, ?_, by decide, by decide, by decide⟩
  intro a
  match a with
  | 0 => decide
  | 1 => decide
  | a + 2 =>
    have : ([0, 1, 0] : List Nat).count (a + 2) = 0 := List.count_eq_zero.2 (by simp)
    omega

example : insert [3, 1, 1] (some [.ptr 0, .ptr 1, .ptr 0, .null]) (some 2) 1 = .ok ([3, 1, 2], some [.ptr 0, .ptr 2, .ptr 1, .ptr 0, .null]) ∧
    removeAt [3, 1, 2] (some [.ptr 0, .ptr 2, .ptr 1, .ptr 0, .null]) 1 = .ok ([3, 1, 1], some [.ptr 0, .ptr 1, .ptr 0, .null]) :=
  ⟨by decide +kernel, by decide +kernel⟩

end Verif.Objv
