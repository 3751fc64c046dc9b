import Verif.Proof.IntArray

/-!
# Properties of int arrays (C45 - C48, C80 - C82, C115)

`I l` is the array of the ints `l`, and `none` is `NULL`.
-/

namespace Verif.IntArray
open Verif.C

/-! ## C45 -/

/-- **C45** Adding ints to an array of any ints, as long as their number is a `guint`. -/
theorem C45_add (l vals : List Val) (x : Val) (hlen : l.length + vals.length < 2 ^ 32) (hx : l.length + 1 < 2 ^ 32) :
    append (I l) x = .ok (I (l ++ [x])) ∧ appendVals (I l) vals = .ok (I (l ++ vals)) ∧
    prepend (I l) x = .ok (I (x :: l)) ∧ prependVals (I l) vals = .ok (I (vals ++ l)) ∧
    (∀ pos ≤ l.length, insert (I l) pos x = .ok (I (l.take pos ++ x :: l.drop pos)) ∧
      insertVals (I l) pos vals = .ok (I (l.take pos ++ vals ++ l.drop pos))) := by
  have happ : ∀ vals : List Val, l.length + vals.length < 2 ^ 32 → appendVals (I l) vals = .ok (I (l ++ vals)) := by
    intro vals hlen
    rw [appendVals, gAppendVals, if_pos (by simpa using hlen), ok_bind]
    simp
  have hpre : ∀ vals : List Val, l.length + vals.length < 2 ^ 32 → prependVals (I l) vals = .ok (I (vals ++ l)) := by
    intro vals hlen
    rw [prependVals, gPrependVals, if_pos (by simpa using hlen), ok_bind]
    simp
  have hins : ∀ vals : List Val, l.length + vals.length < 2 ^ 32 → ∀ pos ≤ l.length,
      insertVals (I l) pos vals = .ok (I (l.take pos ++ vals ++ l.drop pos)) := by
    intro vals hlen pos hpos
    rw [insertVals, gInsertVals]
    by_cases h0 : vals.length = 0
    · rw [if_pos h0, ok_bind]
      rw [List.length_eq_zero_iff] at h0
      simp [h0]
    · rw [if_neg h0]
      by_cases hp : l.length ≤ pos
      · have : pos = l.length := by omega
        subst this
        rw [if_pos (by simp), gSetSize, if_pos (by omega), ok_bind, gAppendVals, if_pos (by simpa using hlen), ok_bind]
        simp [List.take_of_length_le]
      · rw [if_neg (by simpa using hp), if_pos (by simpa using hlen), ok_bind]
        simp
  refine ⟨happ [x] hx, happ vals hlen, hpre [x] hx, hpre vals hlen, fun pos hpos => ⟨?_, hins vals hlen pos hpos⟩⟩
  have := hins [x] hx pos hpos
  rw [insert, this]
  simp

/-- **C45** New arrays. -/
theorem C45_new (limit : Nat) (hl : limit < 2 ^ 32) (vals : List Val) (x : Val) (h : vals.length * 4 ≤ limit) (h4 : 4 ≤ limit) :
    new = I [] ∧ newFromVals limit vals = .ok (I vals) ∧ newFromValue limit x = .ok (I [x]) := by
  have key : ∀ vals : List Val, vals.length * 4 ≤ limit → newFromVals limit vals = .ok (I vals) := by
    intro vals h
    unfold newFromVals sizedNew gSizedNew
    rw [Nat.mod_eq_of_lt (by omega), if_pos h, ok_bind, ok_bind]
    dsimp only
    unfold appendVals gAppendVals
    dsimp only
    rw [if_pos (by simp; omega), ok_bind]
    rfl
  exact ⟨rfl, key vals h, key [x] h4⟩

example : newFromVals (2 ^ 30 - 1) [1, 2, 2] = .ok (I [1, 2, 2]) := (C45_new _ (by decide) [1, 2, 2] 0 (by decide) (by decide)).2.1

/-- **C45** Shrinking an array and removing one element. -/
theorem C45_remove (l : List Val) (h : l.length < 2 ^ 32) :
    (∀ n ≤ l.length, setCount (I l) n = .ok (I (l.take n))) ∧
    (∀ pos, removeIndex (I l) pos = .ok (I (l.eraseIdx pos))) ∧
    (∀ pos < l.length, ∃ l', removeIndexFast (I l) pos = .ok (I l') ∧ l'.Perm (l.eraseIdx pos) ∧
      l'.length = l.length - 1 ∧
      (∀ j < l'.length, l'[j]? = if j = pos then l.getLast? else l[j]?)) := by
  refine ⟨?_, ?_, ?_⟩
  · intro n hn
    rw [setCount, gSetSize, if_pos (by omega), ok_bind]
    have : n - (l.map some).length = 0 := by simp; omega
    rw [this]
    simp
  · intro pos
    rw [removeIndex]
    by_cases hp : pos < l.length
    · rw [if_pos (by simpa using hp), gRemoveIndex, if_pos (by simpa using hp), ok_bind, map_eraseIdx']
    · rw [if_neg (by simpa using hp), List.eraseIdx_of_length_le (by omega)]
  · intro pos hp
    have hperm := swapRemove_perm hp
    refine ⟨swapRemove l pos, ?_, hperm, ?_, ?_⟩
    · rw [removeIndexFast, gRemoveIndexFast_ok (by simpa using hp), ok_bind, swapRemove_map]
    · rw [hperm.length_eq, List.length_eraseIdx, if_pos hp]
    · intro j hj
      rw [hperm.length_eq, List.length_eraseIdx, if_pos hp] at hj
      unfold swapRemove
      cases hx : l.getLast? with
      | none =>
        rw [List.getLast?_eq_none_iff] at hx
        subst hx
        simp at hp
      | some x =>
        dsimp only
        rw [List.getElem?_dropLast]
        by_cases hpe : pos = l.length - 1
        · have e : (if pos ≠ l.length - 1 then l.set pos x else l) = l := if_neg (by simpa using hpe)
          rw [e, if_pos hj, if_neg (by omega)]
        · rw [if_pos hpe, List.length_set, if_pos hj]
          rw [List.getElem?_set]
          by_cases hjp : pos = j
          · subst hjp
            simp [hp]
          · rw [if_neg hjp, if_neg (fun e => hjp e.symm)]

/-- **C45** is false of searching: with more than 2^31 ints, one which is there isn't found. -/
theorem C45_find_refuted (n : Nat) (hn : n = 2 ^ 31) (l : List Val) (h : l = List.replicate n 0 ++ [1]) :
    l.length < 2 ^ 32 ∧ (1 : Val) ∈ l ∧ contains (I l) 1 = .ok false := by
  have hf : find (I l) 1 = .ok (toInt32 (n : Int)) := by
    subst h
    rw [find, findLoop_ok, List.findIdx?_append, List.findIdx?_replicate]
    simp
  refine ⟨by rw [h]; simp; omega, by rw [h]; simp, ?_⟩
  rw [contains, hf, ok_bind, hn]
  decide +kernel

/-- **C45** Searching arrays of at most 2^31 ints. -/
theorem C45_find_partial (l : List Val) (h : l.length ≤ 2 ^ 31) (v : Val) :
    contains (I l) v = .ok (decide (v ∈ l)) ∧
    ∃ r, find (I l) v = .ok r ∧ (r = -1 ↔ v ∉ l) ∧
      (∀ i : Nat, r = i → l[i]? = some v ∧ v ∉ l.take i) ∧ -1 ≤ r := by
  rcases find_cases l h v with ⟨hn, e⟩ | ⟨k, hk, h1, h2, e⟩
  · refine ⟨?_, -1, e, by simp [hn], ?_, by omega⟩
    · rw [contains, e, ok_bind]; simp [hn]
    · intro i hi; omega
  · have hm : v ∈ l := List.mem_iff_getElem?.2 ⟨k, h1⟩
    refine ⟨?_, k, e, ?_, ?_, by omega⟩
    · rw [contains, e, ok_bind]; simp [hm]
    · constructor
      · intro e; omega
      · intro e; exact absurd hm e
    · intro i hi
      have : k = i := by omega
      subst this
      exact ⟨h1, h2⟩

example : find (I [5, 7, 7]) 7 = .ok 1 := by decide
example : removeIndexFast (I [1, 2, 3, 4]) 1 = .ok (I [1, 4, 3]) := by decide

/-! ## C46 -/

/-- **C46** is false of arrays with more than 2^31 elements: nothing is removed. -/
theorem C46_refuted (n : Nat) (hn : n = 2 ^ 31) (l : List Val) (h : l = List.replicate n 0 ++ [1]) :
    l.length < 2 ^ 32 ∧ l.count 1 = 1 ∧ removeAll (I l) 1 = .ok (I l, 0) ∧ removeAllFast (I l) 1 = .ok (I l, 0) := by
  have hf : find (I l) 1 = .ok (toInt32 (n : Int)) := by
    subst h
    rw [find, findLoop_ok, List.findIdx?_append, List.findIdx?_replicate]
    simp
  have hneg : ¬ toInt32 (n : Int) ≥ 0 := by rw [hn]; decide +kernel
  refine ⟨by rw [h]; simp; omega, ?_, ?_, ?_⟩
  · rw [h, List.count_append, List.count_replicate]; simp
  · rw [removeAll, removeLoop, remove, hf, ok_bind, if_neg hneg, ok_bind]
    rfl
  · rw [removeAllFast, removeLoop, removeFast, hf, ok_bind, if_neg hneg, ok_bind]
    rfl

/-- **C46** Removal by value from arrays of at most 2^31 ints. -/
theorem C46_remove_partial (l : List Val) (h : l.length ≤ 2 ^ 31) (v : Val) :
    remove (I l) v = .ok (I (l.erase v), decide (v ∈ l)) ∧
    (∃ l', removeFast (I l) v = .ok (I l', decide (v ∈ l)) ∧ l'.Perm (l.erase v)) ∧
    removeAll (I l) v = .ok (I (l.filter (· ≠ v)), l.count v) ∧
    (∃ l', removeAllFast (I l) v = .ok (I l', l.count v) ∧ l'.Perm (l.filter (· ≠ v))) := by
  refine ⟨remove_ok l h v, removeFast_ok l h v, ?_, ?_⟩
  · have := removeAllLoop_ok v (l.length + 1) l 0 (by omega) h (by omega)
    rw [Nat.zero_add] at this
    rw [removeAll, ← this]
    simp
  · obtain ⟨l', r, p⟩ := removeLoop_ok (fun a => removeFast a v) v (fun l hl => removeFast_ok l hl v)
      (l.length + 1) l 0 (by omega) h (by omega)
    refine ⟨l', ?_, p⟩
    rw [Nat.zero_add] at r
    rw [removeAllFast, ← r]
    simp

example : removeAll (I [1, 2, 1, 3]) 1 = .ok (I [2, 3], 2) ∧ removeAllFast (I [1, 2, 1, 3]) 1 = .ok (I [3, 2], 2) := by decide

/-! ## C47 -/

/-- **C47** is false: whenever `pos + count` overflows, `g_array_remove_range` is called with a
range which isn't there, which it rejects. -/
theorem C47_refuted (l : List Val) (h : l.length < 2 ^ 32) (pos count : Nat) (h1 : pos < l.length) (h2 : count < 2 ^ 32)
    (h3 : 2 ^ 32 ≤ pos + count) : removeRange (I l) pos count = .error .badArg := by
  have hmod : (pos + count) % 2 ^ 32 = pos + count - 2 ^ 32 := by omega
  have hu : toUInt32 (((pos + count - 2 ^ 32 : Nat) : Int) - (pos : Int)) = count := by
    unfold toUInt32
    rw [BitVec.toNat_ofInt]
    omega
  rw [removeRange, if_pos ⟨by simpa using h1, by omega⟩, hmod]
  dsimp only
  rw [if_neg (by simp; omega), hu, gRemoveRange, if_neg (by simp; omega)]
  rfl

example : removeRange (I [1, 2, 3]) 1 (2 ^ 32 - 1) = .error .badArg :=
  C47_refuted [1, 2, 3] (by decide) 1 (2 ^ 32 - 1) (by decide) (by decide) (by decide)

/-- **C47** when it doesn't. -/
theorem C47_range_partial (l : List Val) (h : l.length < 2 ^ 32) (pos count : Nat) (hlt : pos + count < 2 ^ 32) :
    removeRange (I l) pos count = .ok (I (l.take pos ++ l.drop (pos + count))) := by
  rw [removeRange]
  by_cases hp : pos < l.length ∧ count ≠ 0
  · have hend : (if pos + count > (l.map some).length then (l.map some).length else pos + count) = pos + min count (l.length - pos) := by
      rw [List.length_map]
      split <;> omega
    rw [if_pos ⟨by simpa using hp.1, hp.2⟩, Nat.mod_eq_of_lt hlt]
    dsimp only
    rw [hend, toUInt32_sub (by omega) (by omega)]
    have hsub : pos + min count (l.length - pos) - pos = min count (l.length - pos) := by omega
    rw [hsub, gRemoveRange, if_pos (by simp; omega), ok_bind]
    have : (l.map some).drop (pos + min count (l.length - pos)) = (l.drop (pos + count)).map some := by
      rw [List.map_drop]
      by_cases hc : count ≤ l.length - pos
      · rw [Nat.min_eq_left hc]
      · rw [Nat.min_eq_right (by omega), List.drop_eq_nil_of_le (by simp; omega), List.drop_eq_nil_of_le (by simp; omega)]
    rw [this]
    simp
  · rw [if_neg (by simpa using hp)]
    by_cases h0 : count = 0
    · subst h0; simp
    · have : l.length ≤ pos := by
        rcases Nat.lt_or_ge pos l.length with h' | h'
        · exact absurd ⟨h', h0⟩ hp
        · exact h'
      rw [List.take_of_length_le this, List.drop_eq_nil_of_le (by omega)]
      simp

example : removeRange (I [1, 2, 3, 4]) 1 2 = .ok (I [1, 4]) := by decide

/-! ## C48 -/

/-- **C48** is false: the comparison overflows. Even with arithmetic which wraps, these two
ints are sorted to the wrong order by any sorting function. -/
theorem C48_refuted (gsort : (Option Val → Option Val → M Int) → Arr → Arr) (hs : SortContract gsort) :
    ascendingProc .strict (some 0x80000000) (some 1) = .error .signedOverflow ∧
    sortAscending gsort .wrap (I [0x80000000, 1]) = I [1, 0x80000000] ∧ (0x80000000 : Val).toInt < (1 : Val).toInt := by
  refine ⟨by decide, ?_, by decide⟩
  have key : ∀ x ∈ ([some 0x80000000, some 1] : Arr), x = some 0x80000000 ∨ x = some 1 := by simp
  obtain ⟨hp, hw⟩ := hs (ascendingProc .wrap) [some 0x80000000, some 1]
    (by intro x hx y hy
        rcases key x hx with rfl | rfl <;> rcases key y hy with rfl | rfl <;> exact ⟨_, rfl⟩)
    (by intro x hx y hy r s hr hs
        rcases key x hx with rfl | rfl <;> rcases key y hy with rfl | rfl <;>
        · cases hr; cases hs; decide +kernel)
    (by intro x hx y hy z hz r s t hr hs ht
        rcases key x hx with rfl | rfl <;> rcases key y hy with rfl | rfl <;> rcases key z hz with rfl | rfl <;>
        · cases hr; cases hs; cases ht; decide +kernel)
  rw [sortAscending]
  simp only [I, List.map_cons, List.map_nil]
  generalize gsort (ascendingProc .wrap) [some 0x80000000, some 1] = a at hp hw
  have hl := hp.length_eq
  match a, hl with
  | [x, y], _ =>
    have hx := key x (hp.mem_iff.1 (by simp))
    have hy := key y (hp.mem_iff.1 (by simp))
    simp only [List.pairwise_cons, List.mem_singleton, forall_eq] at hw
    obtain ⟨⟨r, hr, hr0⟩, -⟩ := hw
    have hc := hp.count_eq (some 1)
    rcases hx with rfl | rfl <;> rcases hy with rfl | rfl
    · exact absurd hc (by decide)
    · exfalso
      cases hr
      revert hr0
      decide +kernel
    · rfl
    · exact absurd hc (by decide)

/-- **C48** If the differences of the elements are less than 2^31, arrays are sorted, for any
`g_array_sort` meeting its contract, and nothing undefined happens. -/
theorem C48_sort_partial (gsort : (Option Val → Option Val → M Int) → Arr → Arr) (hs : SortContract gsort) (mode : Mode)
    (l : List Val) (h : ∀ x ∈ l, ∀ y ∈ l, x.toInt - y.toInt < 2 ^ 31) :
    (∃ l', sortAscending gsort mode (I l) = I l' ∧ l'.Perm l ∧ l'.Pairwise (fun x y => x.toInt ≤ y.toInt)) ∧
    (∃ l', sortDescending gsort mode (I l) = I l' ∧ l'.Perm l ∧ l'.Pairwise (fun x y => y.toInt ≤ x.toInt)) ∧
    (∀ x ∈ l, ∀ y ∈ l, ∃ r s, ascendingProc mode (some x) (some y) = .ok r ∧ descendingProc mode (some x) (some y) = .ok s) := by
  have hasc : ∀ x ∈ l, ∀ y ∈ l, ascendingProc mode (some x) (some y) = .ok (x.toInt - y.toInt) := by
    intro x hx y hy
    have := h x hx y hy
    have := h y hy x hx
    exact arith32_small mode (by omega)
  have hdesc : ∀ x ∈ l, ∀ y ∈ l, descendingProc mode (some x) (some y) = .ok (y.toInt - x.toInt) := by
    intro x hx y hy
    have := h x hx y hy
    have := h y hy x hx
    exact arith32_small mode (by omega)
  have key : ∀ (proc : Option Val → Option Val → M Int) (f : Val → Val → Int),
      (∀ x ∈ l, ∀ y ∈ l, proc (some x) (some y) = .ok (f x y)) →
      (∀ x y, f x y < 0 ↔ 0 < f y x) → (∀ x y z, f x y ≤ 0 → f y z ≤ 0 → f x z ≤ 0) →
      ∃ l' : List Val, gsort proc (l.map some) = l'.map some ∧ l'.Perm l ∧ l'.Pairwise (fun x y => f x y ≤ 0) := by
    intro proc f hf h1 h2
    have hm : ∀ x ∈ l.map some, ∃ v ∈ l, x = some v := by
      intro x hx
      obtain ⟨v, hv, e⟩ := List.mem_map.1 hx
      exact ⟨v, hv, e.symm⟩
    obtain ⟨hp, hw⟩ := hs proc (l.map some)
      (by intro x hx y hy
          obtain ⟨v, hv, rfl⟩ := hm x hx
          obtain ⟨w, hw, rfl⟩ := hm y hy
          exact ⟨_, hf v hv w hw⟩)
      (by intro x hx y hy r s hr hs
          obtain ⟨v, hv, rfl⟩ := hm x hx
          obtain ⟨w, hw, rfl⟩ := hm y hy
          rw [hf v hv w hw] at hr
          rw [hf w hw v hv] at hs
          cases hr; cases hs
          exact h1 v w)
      (by intro x hx y hy z hz r s t hr hs ht
          obtain ⟨v, hv, rfl⟩ := hm x hx
          obtain ⟨w, hw, rfl⟩ := hm y hy
          obtain ⟨u, hu, rfl⟩ := hm z hz
          rw [hf v hv w hw] at hr
          rw [hf w hw u hu] at hs
          rw [hf v hv u hu] at ht
          cases hr; cases hs; cases ht
          exact h2 v w u)
    generalize gsort proc (l.map some) = a at hp hw
    have ha : ∃ l' : List Val, a = l'.map some ∧ ∀ x ∈ l', x ∈ l := by
      have : ∀ x ∈ a, ∃ v ∈ l, x = some v := fun x hx => hm x (hp.mem_iff.1 hx)
      clear hp hw
      induction a with
      | nil => exact ⟨[], rfl, by simp⟩
      | cons x t ih =>
        obtain ⟨v, hv, rfl⟩ := this x (by simp)
        obtain ⟨l', rfl, hl'⟩ := ih (fun x hx => this x (by simp [hx]))
        refine ⟨v :: l', rfl, ?_⟩
        intro x hx
        rcases List.mem_cons.1 hx with rfl | hx
        · exact hv
        · exact hl' x hx
    obtain ⟨l', rfl, hl'⟩ := ha
    refine ⟨l', rfl, ?_, ?_⟩
    · have := hp.filterMap id
      simpa using this
    · rw [List.pairwise_map] at hw
      refine hw.imp_of_mem ?_
      intro x y hx hy hxy
      obtain ⟨r, hr, hr0⟩ := hxy
      rw [hf x (hl' x hx) y (hl' y hy)] at hr
      cases hr
      exact hr0
  refine ⟨?_, ?_, fun x hx y hy => ⟨_, _, hasc x hx y hy, hdesc x hx y hy⟩⟩
  · obtain ⟨l', e, p, w⟩ := key _ (fun x y => x.toInt - y.toInt) hasc (by intro x y; omega) (by intro x y z; omega)
    exact ⟨l', by rw [sortAscending, e], p, w.imp (by intro x y; omega)⟩
  · obtain ⟨l', e, p, w⟩ := key _ (fun x y => y.toInt - x.toInt) hdesc (by intro x y; omega) (by intro x y z; omega)
    exact ⟨l', by rw [sortDescending, e], p, w.imp (by intro x y; omega)⟩

example : SortContract Strv.insertionSort := Strv.insertionSort_sorts
example : sortAscending Strv.insertionSort .strict (I [3, 1, 2, 1]) = I [1, 1, 2, 3] := by decide

/-! ## C80 -/

/-- **C80** is false: `gutil_int_array_remove_index_fast` doesn't check the index, GLib
does. -/
theorem C80_fast_refuted (l : List Val) (pos : Nat) (h : l.length ≤ pos) : removeIndexFast (I l) pos = .error .badArg := by
  rw [removeIndexFast, gRemoveIndexFast, dif_neg (by simpa using h)]
  rfl

/-- **C80** `gutil_int_array_remove_index` and `gutil_int_array_remove_range` do. -/
theorem C80_index_partial (l : List Val) (pos count : Nat) (h : l.length ≤ pos) :
    removeIndex (I l) pos = .ok (I l) ∧ removeRange (I l) pos count = .ok (I l) := by
  constructor
  · rw [removeIndex, if_neg (by simpa using h)]
  · rw [removeRange, if_neg (by simp; omega)]

/-! ## C81 -/

/-- **C81** The data is handed over with all the ints in it, or `NULL` if there are none; it's
either freed or returned, but not both. -/
theorem C81_handover (l : List Val) :
    freeToInts (I l) = (if l = [] then none else some (l.map some, l.length)) ∧
    free (I l) false = (if l = [] then none else some (l.map some)) ∧ free (I l) true = none ∧
    freeToInts none = none ∧ (∀ b, free none b = none) := by
  refine ⟨?_, ?_, ?_, rfl, fun _ => rfl⟩ <;> cases l <;> simp [freeToInts, free]

/-! ## C82 -/

/-- **C82** is false: inserting past the end, or a larger count, leaves uninitialised ints,
and to search the array is undefined. -/
theorem C82_refuted (l : List Val) (v : Val) (h : l.length + 2 < 2 ^ 32) (hv : v ∉ l) :
    (∃ a, insert (I l) (l.length + 1) 7 = .ok a ∧ find a v = .error .uninit) ∧
    (∃ a, setCount (I l) (l.length + 1) = .ok a ∧ find a v = .error .uninit) := by
  have hf : ∀ (l : List Val) (i : Nat) (t : Arr), v ∉ l → findLoop v (l.map some ++ none :: t) i = .error .uninit := by
    intro l
    induction l with
    | nil => intro i t _; rfl
    | cons x l ih =>
      intro i t hv
      simp only [List.mem_cons, not_or] at hv
      rw [List.map_cons, List.cons_append, findLoop, if_neg (Ne.symm hv.1)]
      exact ih _ _ hv.2
  have hs : gSetSize (l.map some) (l.length + 1) = .ok (l.map some ++ [none]) := by
    rw [gSetSize, if_pos (by omega), List.take_of_length_le (by simp)]
    simp
  constructor
  · refine ⟨some (l.map some ++ none :: [some 7]), ?_, hf l 0 _ hv⟩
    rw [insert, insertVals, gInsertVals, if_neg (by simp), if_pos (by simp), hs, ok_bind, gAppendVals, if_pos (by simp; omega), ok_bind]
    simp
  · refine ⟨some (l.map some ++ [none]), ?_, hf l 0 _ hv⟩
    rw [setCount, hs, ok_bind]

/-! ## C115 -/

/-- **C115** The array can't be made if there would be room in it (`n ≤ limit`), as soon as its size is more than a quarter of the limit: the size is multiplied
by the size of an element, twice (once more in GLib). -/
theorem C115_refuted (limit : Nat) (vals : List Val) (h : limit < vals.length * 4) (hv : vals.length * 4 < 2 ^ 32) :
    sizedNew limit vals.length = .error .badArg ∧ newFromVals limit vals = .error .badArg := by
  have key : sizedNew limit vals.length = .error .badArg := by
    unfold sizedNew gSizedNew
    rw [Nat.mod_eq_of_lt hv, if_neg (by omega)]
    rfl
  refine ⟨key, ?_⟩
  unfold newFromVals
  rw [key]
  rfl

/-- **C115** If it's too large for `guint` after multiplication, there may be no room at all. -/
theorem C115_room_refuted (limit : Nat) : sizedNew limit (2 ^ 30) = .ok (I [], 0) := by
  unfold sizedNew gSizedNew
  rw [show (2 ^ 30 * 4 % 2 ^ 32 : Nat) = 0 by decide, if_pos (by omega)]
  rfl

/-- **C115** Otherwise the array is empty and there's room. -/
theorem C115_partial (limit : Nat) (hl : limit < 2 ^ 32) (n : Nat) (h : n * 4 ≤ limit) : ∃ room, sizedNew limit n = .ok (I [], room) ∧ n ≤ room := by
  unfold sizedNew gSizedNew
  rw [Nat.mod_eq_of_lt (by omega), if_pos h]
  exact ⟨_, rfl, by omega⟩

/-- With the limit of recent versions of GLib: a quarter of what could be stored -/
example : (∃ room, sizedNew (2 ^ 30 - 1) (2 ^ 28 - 1) = .ok (I [], room) ∧ 2 ^ 28 - 1 ≤ room) ∧
    newFromVals (2 ^ 30 - 1) (List.replicate (2 ^ 28) 0) = .error .badArg :=
  ⟨C115_partial _ (by decide) _ (by decide), (C115_refuted _ _ (by rw [List.length_replicate]; decide) (by rw [List.length_replicate]; decide)).2⟩

end Verif.IntArray
