import Verif.Props.IntArray

/-!
# What sorting an int array does in the cases excluded by C48
-/

namespace Verif.IntArray
open Verif.C

theorem sort_by (gsort : (Option Val → Option Val → M Int) → Arr → Arr) (hs : SortContract gsort) (l : List Val)
    (proc : Option Val → Option Val → M Int) (f : Val → Val → Int)
    (hf : ∀ x ∈ l, ∀ y ∈ l, proc (some x) (some y) = .ok (f x y))
    (h1 : ∀ x y, f x y < 0 ↔ 0 < f y x) (h2 : ∀ x y z, f x y ≤ 0 → f y z ≤ 0 → f x z ≤ 0) :
    ∃ l' : List Val, gsort proc (l.map some) = l'.map some ∧ l'.Perm l ∧ l'.Pairwise (fun x y => f x y ≤ 0) := by
  have hm : ∀ x ∈ l.map some, ∃ v ∈ l, x = some v := by
    intro x hx
    obtain ⟨v, hv, e⟩ := List.mem_map.1 hx
    exact ⟨v, hv, e.symm⟩
  obtain ⟨hp, hw⟩ := hs proc (l.map some)
    (by intro x hx y hy
        obtain ⟨v, hv, rfl⟩ := hm x hx
        obtain ⟨w, hw, rfl⟩ := hm y hy
        exact ⟨_, hf v hv w hw⟩)
    (by intro x hx y hy r s hr hs
        obtain ⟨v, hv, rfl⟩ := hm x hx
        obtain ⟨w, hw, rfl⟩ := hm y hy
        rw [hf v hv w hw] at hr
        rw [hf w hw v hv] at hs
        cases hr; cases hs
        exact h1 v w)
    (by intro x hx y hy z hz r s t hr hs ht
        obtain ⟨v, hv, rfl⟩ := hm x hx
        obtain ⟨w, hw, rfl⟩ := hm y hy
        obtain ⟨u, hu, rfl⟩ := hm z hz
        rw [hf v hv w hw] at hr
        rw [hf w hw u hu] at hs
        rw [hf v hv u hu] at ht
        cases hr; cases hs; cases ht
        exact h2 v w u)
  generalize gsort proc (l.map some) = a at hp hw
  have ha : ∃ l' : List Val, a = l'.map some ∧ ∀ x ∈ l', x ∈ l := by
    have : ∀ x ∈ a, ∃ v ∈ l, x = some v := fun x hx => hm x (hp.mem_iff.1 hx)
    clear hp hw
    induction a with
    | nil => exact ⟨[], rfl, by simp⟩
    | cons x t ih =>
      obtain ⟨v, hv, rfl⟩ := this x (by simp)
      obtain ⟨l', rfl, hl'⟩ := ih (fun x hx => this x (by simp [hx]))
      refine ⟨v :: l', rfl, ?_⟩
      intro x hx
      rcases List.mem_cons.1 hx with rfl | hx
      · exact hv
      · exact hl' x hx
  obtain ⟨l', rfl, hl'⟩ := ha
  refine ⟨l', rfl, ?_, ?_⟩
  · have := hp.filterMap id
    simpa using this
  · rw [List.pairwise_map] at hw
    refine hw.imp_of_mem ?_
    intro x y hx hy hxy
    obtain ⟨r, hr, hr0⟩ := hxy
    rw [hf x (hl' x hx) y (hl' y hy)] at hr
    cases hr
    exact hr0

theorem toInt_cases (x : Val) : -2 ^ 31 ≤ x.toInt ∧ x.toInt < 2 ^ 31 := by
  have h1 := BitVec.le_toInt x
  have h2 := BitVec.toInt_lt (x := x)
  omega

theorem toInt_add_cases (x k : Val) : (x + k).toInt = x.toInt + k.toInt ∨ (x + k).toInt = x.toInt + k.toInt + 2 ^ 32 ∨
    (x + k).toInt = x.toInt + k.toInt - 2 ^ 32 := by
  have h1 := toInt_cases x
  have h2 := toInt_cases k
  rw [BitVec.toInt_add, Int.bmod_def]
  split <;> omega

theorem toInt32_cases (x : Int) (h : -2 ^ 32 < x ∧ x < 2 ^ 32) :
    toInt32 x = if x < -2 ^ 31 then x + 2 ^ 32 else if x < 2 ^ 31 then x else x - 2 ^ 32 := by
  rw [toInt32, BitVec.toInt_ofInt, Int.bmod_def]
  split <;> split <;> (try split) <;> omega

/-- **C48**, the comparison itself, for all pairs of ints. If their difference doesn't fit in an `int` that's undefined; and with arithmetic
which wraps, the smaller one is the larger one then. -/
theorem C48_compare_exactly (x y : Val) :
    (-2 ^ 31 ≤ x.toInt - y.toInt ∧ x.toInt - y.toInt < 2 ^ 31 → ∀ mode, ascendingProc mode (some x) (some y) = .ok (x.toInt - y.toInt) ∧
      descendingProc mode (some y) (some x) = .ok (x.toInt - y.toInt)) ∧
    (2 ^ 31 ≤ x.toInt - y.toInt → ascendingProc .strict (some x) (some y) = .error .signedOverflow ∧
      descendingProc .strict (some y) (some x) = .error .signedOverflow ∧
      ∃ r, r < 0 ∧ ascendingProc .wrap (some x) (some y) = .ok r ∧ descendingProc .wrap (some y) (some x) = .ok r) ∧
    (x.toInt - y.toInt < -2 ^ 31 → ascendingProc .strict (some x) (some y) = .error .signedOverflow ∧
      descendingProc .strict (some y) (some x) = .error .signedOverflow ∧
      ∃ r, 0 < r ∧ ascendingProc .wrap (some x) (some y) = .ok r ∧ descendingProc .wrap (some y) (some x) = .ok r) := by
  have hx := toInt_cases x
  have hy := toInt_cases y
  have hw : ∀ r, toInt32 (x.toInt - y.toInt) = r → ascendingProc .wrap (some x) (some y) = .ok r ∧ descendingProc .wrap (some y) (some x) = .ok r := by
    rintro r rfl
    exact ⟨rfl, rfl⟩
  have hs : ¬ (intMin ≤ x.toInt - y.toInt ∧ x.toInt - y.toInt ≤ intMax) → ascendingProc .strict (some x) (some y) = .error .signedOverflow ∧
      descendingProc .strict (some y) (some x) = .error .signedOverflow := by
    intro h
    have : chk32 (x.toInt - y.toInt) = .error .signedOverflow := by rw [chk32, if_neg h]
    exact ⟨this, this⟩
  have hc := toInt32_cases (x.toInt - y.toInt) (by omega)
  refine ⟨?_, ?_, ?_⟩
  · intro h mode
    exact ⟨arith32_small mode h, arith32_small mode h⟩
  · intro h
    have h1 := hs (by unfold intMin intMax; omega)
    rw [if_neg (by omega), if_neg (by omega)] at hc
    exact ⟨h1.1, h1.2, _, by omega, hw _ hc⟩
  · intro h
    have h1 := hs (by unfold intMin intMax; omega)
    rw [if_pos h] at hc
    exact ⟨h1.1, h1.2, _, by omega, hw _ hc⟩

example : 2 ^ 31 ≤ (0x7fffffff : Val).toInt - (0xffffffff : Val).toInt := by decide

/-- **C48** with arithmetic which wraps. Ints are on a circle then: if all of them are within one half of it, they get sorted in the order in
which they are on that half. `k` is the shift which takes that half to where no difference overflows; it's zero in C48. -/
theorem C48_wrap_exactly (gsort : (Option Val → Option Val → M Int) → Arr → Arr) (hs : SortContract gsort) (l : List Val) (k : Val)
    (h : ∀ x ∈ l, ∀ y ∈ l, (x + k).toInt - (y + k).toInt < 2 ^ 31) :
    (∃ l', sortAscending gsort .wrap (I l) = I l' ∧ l'.Perm l ∧ l'.Pairwise (fun x y => (x + k).toInt ≤ (y + k).toInt)) ∧
    (∃ l', sortDescending gsort .wrap (I l) = I l' ∧ l'.Perm l ∧ l'.Pairwise (fun x y => (y + k).toInt ≤ (x + k).toInt)) := by
  have key : ∀ x y : Val, (x + k).toInt - (y + k).toInt < 2 ^ 31 → (y + k).toInt - (x + k).toInt < 2 ^ 31 →
      toInt32 (x.toInt - y.toInt) = (x + k).toInt - (y + k).toInt := by
    intro x y h1 h2
    have hx := toInt_cases x
    have hy := toInt_cases y
    rw [toInt32_cases _ (by omega)]
    have a1 := toInt_add_cases x k
    have a2 := toInt_add_cases y k
    have b1 := toInt_cases (x + k)
    have b2 := toInt_cases (y + k)
    split
    · omega
    · split <;> omega
  have hasc : ∀ x ∈ l, ∀ y ∈ l, ascendingProc .wrap (some x) (some y) = .ok ((x + k).toInt - (y + k).toInt) := by
    intro x hx y hy
    show Except.ok _ = _
    rw [key x y (h x hx y hy) (h y hy x hx)]
  have hdesc : ∀ x ∈ l, ∀ y ∈ l, descendingProc .wrap (some x) (some y) = .ok ((y + k).toInt - (x + k).toInt) := by
    intro x hx y hy
    show Except.ok _ = _
    rw [key y x (h y hy x hx) (h x hx y hy)]
  constructor
  · obtain ⟨l', e, p, w⟩ := sort_by gsort hs l _ (fun x y => (x + k).toInt - (y + k).toInt) hasc (by intro x y; omega) (by intro x y z; omega)
    exact ⟨l', by rw [sortAscending, I, e], p, w.imp (by intro x y; omega)⟩
  · obtain ⟨l', e, p, w⟩ := sort_by gsort hs l _ (fun x y => (y + k).toInt - (x + k).toInt) hdesc (by intro x y; omega) (by intro x y z; omega)
    exact ⟨l', by rw [sortDescending, I, e], p, w.imp (by intro x y; omega)⟩

/-- Around the largest `int`: positive ones come first. -/
example : (∀ x ∈ [0x80000000#32, 0x7fffffff#32, 0x80000001#32], ∀ y ∈ [0x80000000#32, 0x7fffffff#32, 0x80000001#32],
      (x + 0x80000000#32).toInt - (y + 0x80000000#32).toInt < 2 ^ 31) ∧
    sortAscending Strv.insertionSort .wrap (I [0x80000000#32, 0x7fffffff#32, 0x80000001#32]) = I [0x7fffffff#32, 0x80000000#32, 0x80000001#32] := by
  refine ⟨?_, by decide +kernel⟩
  intro x hx y hy
  simp only [List.mem_cons, List.not_mem_nil, or_false] at hx hy
  rcases hx with rfl | rfl | rfl <;> rcases hy with rfl | rfl | rfl <;> decide

end Verif.IntArray
