import Verif.Proof.ObjvRun

/-!
# Properties of object vectors (C36 - C38)
-/

namespace Verif.Objv
open Verif.C Verif.Strv.Spec Spec

/-! ## C36 -/

/-- **C36** Lookups. Being defined means that nothing past the terminator is read. -/
theorem C36_lookup {v : Vec} {os : List Nat} (H : Holds v os) :
    (∀ i, at_ v i = .ok os[i]?) ∧ first v = .ok os.head? ∧ last v = .ok os.getLast? ∧
    (∀ o, find v (some o) = .ok (firstIndex (fun a => decide (a = o)) os)) ∧
    (∀ o, findLast v (some o) = .ok (lastIndex (fun a => decide (a = o)) os)) ∧
    (∀ o, contains v (some o) = .ok (decide (o ∈ os))) :=
  ⟨at_ok H, first_ok H, last_ok H, fun _ => find_ok H, fun _ => findLast_ok H, fun _ => contains_ok H⟩

/-- **C36** The indices found are what their names say. -/
theorem C36_index_meaning (o : Nat) (os : List Nat) :
    (∀ i : Nat, firstIndex (fun a => decide (a = o)) os = i → os[i]? = some o ∧ o ∉ os.take i) ∧
    (∀ i : Nat, lastIndex (fun a => decide (a = o)) os = i → os[i]? = some o ∧ o ∉ os.drop (i + 1)) ∧
    (firstIndex (fun a => decide (a = o)) os = -1 ↔ o ∉ os) ∧ (lastIndex (fun a => decide (a = o)) os = -1 ↔ o ∉ os) := by
  have hge := firstIndex_ge (p := fun a => decide (a = o)) (l := os)
  have hge2 := Strv.lastIndex_ge (p := fun a => decide (a = o)) (l := os)
  have h1 := Strv.firstIndex_neg (p := fun a => decide (a = o)) (l := os)
  have h2 := Strv.lastIndex_neg (p := fun a => decide (a = o)) (l := os)
  have h3 : (∀ x ∈ os, decide (x = o) = false) ↔ o ∉ os := by
    constructor
    · intro hh ht; simpa using hh o ht
    · intro hh x hx; simp; rintro rfl; exact hh hx
  rw [h3] at h1 h2
  refine ⟨?_, ?_, ?_, ?_⟩
  · intro i hi
    obtain ⟨⟨x, hx, hx'⟩, hb⟩ := Strv.firstIndex_spec hi
    simp at hx'
    subst hx'
    exact ⟨hx, fun hm => by simpa using hb _ hm⟩
  · intro i hi
    obtain ⟨⟨x, hx, hx'⟩, hb⟩ := Strv.lastIndex_spec hi
    simp at hx'
    subst hx'
    exact ⟨hx, fun hm => by simpa using hb _ hm⟩
  · rw [← h1]; omega
  · rw [← h2]; omega

/-- **C36** `gutil_objv_equal` holds iff the same objects are there in the same order, `NULL`
being equal to the empty vector. -/
theorem C36_equal {v w : Vec} {os qs : List Nat} (hv : Holds v os) (hw : Holds w qs) (same : Bool)
    (hs : same = true → v = w) : equal same v w = .ok (decide (os = qs)) := equal_ok hv hw same hs

/-- **C36** `NULL` is an empty vector; `NULL` objects are neither found nor added nor
removed. -/
theorem C36_null (c : Refs) (v : Vec) (pos : Nat) (all : Bool) :
    Holds none [] ∧ find v none = .ok (-1) ∧ findLast v none = .ok (-1) ∧ contains v none = .ok false ∧
    add c v none = .ok (c, v) ∧ insert c v none pos = .ok (c, v) ∧ remove c v none all = .ok (c, v) ∧
    copy c none = .ok (c, none) ∧ free c none = .ok c := by
  refine ⟨.inl ⟨rfl, rfl⟩, ?_, ?_, ?_, rfl, rfl, ?_, rfl, rfl⟩ <;> cases v <;> rfl

/-- **C36** The functions which make or change a vector.  The objects involved must exist;
that all those in a vector do follows from `Covered`. -/
theorem C36_changes {c : Refs} {v : Vec} {os : List Nat} (hv : Holds v os) (hc : Covered (cnt c) os) :
    (∀ args, (∀ a ∈ args, 0 < cnt c a) → ∃ c' v', new c args = .ok (c', v') ∧ Holds v' args) ∧
    (∃ c' v', copy c v = .ok (c', v') ∧ Holds v' os) ∧
    (∀ o, 0 < cnt c o → ∃ c' v', add c v (some o) = .ok (c', v') ∧ Holds v' (os ++ [o])) ∧
    (∀ o pos, 0 < cnt c o → ∃ c' v', insert c v (some o) pos = .ok (c', v') ∧
      Holds v' (os.take pos ++ o :: os.drop pos)) ∧
    (∀ w qs, Holds w qs → Covered (cnt c) qs → ∃ c' v', append c v w = .ok (c', v') ∧ Holds v' (os ++ qs)) ∧
    (∀ o all, ∃ c' v', remove c v (some o) all = .ok (c', v') ∧ Holds v' (Spec.without o all os)) ∧
    (∀ pos, ∃ c' v', removeAt c v pos = .ok (c', v') ∧ Holds v' (os.eraseIdx pos)) := by
  have alive : ∀ qs, Covered (cnt c) qs → ∀ a ∈ qs, 0 < cnt c a := by
    intro qs hq a ha
    have := hq a
    have : 0 < qs.count a := List.count_pos_iff.2 ha
    omega
  refine ⟨?_, ?_, ?_, ?_, ?_, ?_, ?_⟩
  · intro args ha
    obtain ⟨c', v', h1, h2, -⟩ := new_ok ha
    exact ⟨c', v', h1, h2⟩
  · obtain ⟨c', v', h1, h2, -⟩ := copy_ok hv (alive os hc)
    exact ⟨c', v', h1, h2⟩
  · intro o ho
    obtain ⟨c', v', h1, h2, -⟩ := add_ok hv ho
    exact ⟨c', v', h1, h2⟩
  · intro o pos ho
    obtain ⟨c', v', h1, h2, -⟩ := insert_ok pos hv ho
    exact ⟨c', v', h1, h2⟩
  · intro w qs hw hq
    obtain ⟨c', v', h1, h2, -⟩ := append_ok hv hw (alive qs hq)
    exact ⟨c', v', h1, h2⟩
  · intro o all
    obtain ⟨c', v', h1, h2, -⟩ := remove_ok all hv hc
    exact ⟨c', v', h1, h2⟩
  · intro pos
    obtain ⟨c', v', h1, h2, -⟩ := removeAt_ok pos hv hc
    exact ⟨c', v', h1, h2⟩

/-- The hypotheses are met: the vector `[1, 0, 1]`, with one reference to 0, two to 1 and one
(of somebody else) to 2. -/
example : Holds (some [.ptr 1, .ptr 0, .ptr 1, .null]) [1, 0, 1] ∧ Covered (cnt [1, 2, 1]) [1, 0, 1] ∧
    insert [1, 2, 1] (some [.ptr 1, .ptr 0, .ptr 1, .null]) (some 2) 1 =
      .ok ([1, 2, 2], some [.ptr 1, .ptr 2, .ptr 0, .ptr 1, .null]) ∧
    remove [1, 2, 1] (some [.ptr 1, .ptr 0, .ptr 1, .null]) (some 1) true = .ok ([1, 0, 1], some [.ptr 0, .null]) := by
  refine ⟨.inr ⟨0, rfl⟩, ?_, by decide +kernel, by decide +kernel⟩
  intro a
  match a with
  | 0 => decide
  | 1 => decide
  | a + 2 => rw [List.count_eq_zero.2 (by simp)]; omega

/-! ## C37 -/

/-- **C37** Each function changes the reference counts by exactly the change of the number of
occurrences: for a new vector from none, for a released one to none. -/
theorem C37_accounting {c : Refs} {v : Vec} {os : List Nat} (hv : Holds v os) (hc : Covered (cnt c) os) :
    (∀ args, (∀ a ∈ args, 0 < cnt c a) →
      ∃ c' v', new c args = .ok (c', v') ∧ Holds v' args ∧ Accounted (cnt c) (cnt c') [] args) ∧
    (∃ c' v', copy c v = .ok (c', v') ∧ Holds v' os ∧ Accounted (cnt c) (cnt c') [] os) ∧
    (∀ o, 0 < cnt c o → ∃ c' v', add c v (some o) = .ok (c', v') ∧ Holds v' (os ++ [o]) ∧
      Accounted (cnt c) (cnt c') os (os ++ [o])) ∧
    (∀ o pos, 0 < cnt c o → ∃ c' v', insert c v (some o) pos = .ok (c', v') ∧
      Holds v' (os.take pos ++ o :: os.drop pos) ∧ Accounted (cnt c) (cnt c') os (os.take pos ++ o :: os.drop pos)) ∧
    (∀ w qs, Holds w qs → Covered (cnt c) qs → ∃ c' v', append c v w = .ok (c', v') ∧ Holds v' (os ++ qs) ∧
      Accounted (cnt c) (cnt c') os (os ++ qs)) ∧
    (∀ o all, ∃ c' v', remove c v (some o) all = .ok (c', v') ∧ Holds v' (Spec.without o all os) ∧
      Accounted (cnt c) (cnt c') os (Spec.without o all os)) ∧
    (∀ pos, ∃ c' v', removeAt c v pos = .ok (c', v') ∧ Holds v' (os.eraseIdx pos) ∧
      Accounted (cnt c) (cnt c') os (os.eraseIdx pos)) ∧
    (∃ c', free c v = .ok c' ∧ Accounted (cnt c) (cnt c') os []) := by
  have alive : ∀ qs, Covered (cnt c) qs → ∀ a ∈ qs, 0 < cnt c a := by
    intro qs hq a ha
    have := hq a
    have : 0 < qs.count a := List.count_pos_iff.2 ha
    omega
  refine ⟨fun args ha => new_ok ha, ?_, fun o ho => add_ok hv ho, fun o pos ho => insert_ok pos hv ho,
    fun w qs hw hq => append_ok hv hw (alive qs hq), fun o all => remove_ok all hv hc, fun pos => removeAt_ok pos hv hc,
    free_ok hv hc⟩
  obtain ⟨c', v', h1, h2, h3, -⟩ := copy_ok hv (alive os hc)
  exact ⟨c', v', h1, h2, h3⟩

/-- **C37** Any program following the rules, starting with the references `refs` and no
vectors: nothing is used after it's gone, all vectors have the contents they should have and
the number of references to each object is that of the program's own plus the number of
occurrences in all its vectors. -/
theorem C37_history (refs : Refs) (ops : List Op) (hl : Legal ⟨cnt refs, []⟩ ops) :
    ∃ m, run ⟨refs, []⟩ ops = .ok m ∧
      (∀ i, Holds (m.vecs[i]?.getD none) ((Spec.run ⟨cnt refs, []⟩ ops).vec i)) ∧
      ∀ a, cnt m.refs a = (Spec.run ⟨cnt refs, []⟩ ops).refs a := by
  obtain ⟨m, h1, R⟩ := run_ok ops (m := ⟨refs, []⟩) (s := ⟨cnt refs, []⟩)
    ⟨rfl, fun i => .inl ⟨rfl, rfl⟩, fun a => by simp [Spec.State.refs]⟩ hl
  exact ⟨m, h1, R.holds, R.refs⟩

/-- **C37** When all the vectors have been released, only the program's own references are
left. -/
theorem C37_all_released (refs : Refs) (ops : List Op) (hl : Legal ⟨cnt refs, []⟩ ops)
    (hfree : ∀ l ∈ (Spec.run ⟨cnt refs, []⟩ ops).vecs, l = []) :
    ∃ m, run ⟨refs, []⟩ ops = .ok m ∧ ∀ a, cnt m.refs a = (Spec.run ⟨cnt refs, []⟩ ops).own a := by
  obtain ⟨m, h1, -, h3⟩ := C37_history refs ops hl
  refine ⟨m, h1, ?_⟩
  intro a
  rw [h3, Spec.State.refs]
  have : ∀ ls : List (List Nat), (∀ l ∈ ls, l = []) → (ls.map (List.count a)).sum = 0 := by
    intro ls
    induction ls with
    | nil => intro _; rfl
    | cons x ls ih =>
      intro h
      rw [List.map_cons, List.sum_cons, ih (fun l hl => h l (by simp [hl])), h x (by simp)]
      rfl
  rw [this _ hfree]
  omega

/-- The rules can be followed: a vector is made, copied and changed; the program drops its own
references meanwhile, and finally the vectors. -/
example : Legal ⟨cnt [1, 1], []⟩
    [.new [0, 1, 0], .unref 1, .copy 0, .remove 0 (some 0) true, .append 0 1, .free 1, .insert 0 (some 1) 0, .free 0] ∧
    (run ⟨[1, 1], []⟩
      [.new [0, 1, 0], .unref 1, .copy 0, .remove 0 (some 0) true, .append 0 1, .free 1, .insert 0 (some 1) 0]).map
        (fun m => (m.refs, m.vecs)) =
      .ok ([3, 3], [some [.ptr 1, .ptr 1, .ptr 0, .ptr 1, .ptr 0, .null], none]) ∧
    (∀ l ∈ (Spec.run ⟨cnt [1, 1], []⟩
      [.new [0, 1, 0], .unref 1, .copy 0, .remove 0 (some 0) true, .append 0 1, .free 1, .insert 0 (some 1) 0,
        .free 0]).vecs, l = []) := by
  refine ⟨?_, by decide +kernel, by decide +kernel⟩
  simp only [Legal, Pre, and_true]
  refine ⟨?_, ?_, ?_, ?_, ?_, ?_, ⟨?_, ?_⟩, ?_⟩
  · intro a ha; simp at ha; rcases ha with rfl | rfl | rfl <;> decide
  · decide
  · decide
  · decide
  · decide
  · decide
  · decide
  · intro a ha; cases ha; decide +kernel
  · decide

/-! ## C38 -/

/-- **C38** isn't true: appending a non-empty vector to itself is undefined, whether the
memory is moved or extended in place. -/
theorem C38_refuted {c : Refs} {v : Vec} {os : List Nat} (hv : Holds v os) (hne : os ≠ []) (hc : Covered (cnt c) os)
    (moved : Bool) : ∃ e, appendSelf moved c v = .error e := ⟨_, appendSelf_fails hv hne hc moved⟩

/-- **C38** What's wrong with that: if the memory is moved then the old vector is read after it has been released, otherwise the terminating
`NULL` is overwritten before it's reached, and the objects are copied until they are written past the end of the memory. -/
theorem C38_exactly {c : Refs} {v : Vec} {os : List Nat} (hv : Holds v os) (hc : Covered (cnt c) os) (moved : Bool) :
    appendSelf moved c v = if os = [] then .ok (c, v) else .error (if moved then .useAfterFree else .oobWrite) := by
  split
  · next h => subst h; rw [appendSelf, length_ok hv, ok_bind]; rfl
  · next h => exact appendSelf_fails hv h hc moved

/-- **C38** What is true: an empty vector can be appended to itself. -/
theorem C38_append_self_empty_partial {v : Vec} (hv : Holds v []) (c : Refs) (moved : Bool) :
    appendSelf moved c v = .ok (c, v) := by
  rw [appendSelf, length_ok hv, ok_bind]; rfl

example : Holds (some [.ptr 0, .null]) [0] ∧ Covered (cnt [1]) [0] ∧
    appendSelf false [1] (some [.ptr 0, .null]) = .error .oobWrite ∧
    appendSelf true [1] (some [.ptr 0, .null]) = .error .useAfterFree := by
  refine ⟨.inr ⟨0, rfl⟩, ?_, by decide +kernel, by decide +kernel⟩
  intro a
  match a with
  | 0 => decide
  | a + 1 => rw [List.count_eq_zero.2 (by simp)]; omega

end Verif.Objv
