import Verif.Props.Strv
import Verif.Props.SortExact

/-!
# Sorting makes the order irrelevant: C141
-/

namespace Verif.Strv
open Verif.C
open Verif.Strv.Spec

theorem sorted_same {asc : Bool} {a b : List Str} (ha : Sorted asc a) (hb : Sorted asc b) (hp : a.Perm b) : a = b := by
  have eqz : ∀ x y : Str, cmpBytes x y ≤ 0 → cmpBytes y x ≤ 0 → x = y := by
    intro x y h1 h2
    rw [cmpBytes_swap] at h2
    exact (cmpBytes_eq_zero _ _).1 (by omega)
  have nl : ∀ x y : Str, ¬ less x y → cmpBytes y x ≤ 0 := by
    intro x y h
    rw [← cmpBytes_neg] at h
    rw [cmpBytes_swap]
    omega
  refine hp.eq_of_pairwise (fun x y _ _ h1 h2 => ?_) ha hb
  cases asc
  · exact eqz x y (nl y x h2) (nl x y h1)
  · exact eqz x y (nl y x h1) (nl x y h2)

theorem sorted_reverse {asc : Bool} {a : List Str} (h : Sorted asc a) : Sorted (!asc) a.reverse := by
  unfold Sorted at *
  rw [List.pairwise_reverse]
  refine h.imp ?_
  intro x y
  cases asc <;> exact id

/-- **C141** Two vectors are equal after sorting (by any functions which sort) exactly if each string is the same number of times in both of them,
wherever it was. -/
theorem C141_strings {q1 q2 : (Cell → Cell → M Int) → Block → Block} (hq1 : QsortContract q1) (hq2 : QsortContract q2) {h : Heap} {v w : Vec}
    {ps qs : List Nat} {ss ts : List Str} (H : Is h v ps ss) (G : Is h w qs ts) (ascending : Bool) :
    ∃ v' w' b, sort q1 h v ascending = .ok v' ∧ sort q2 h w ascending = .ok w' ∧ equal h false v' w' = .ok b ∧
      (b = true ↔ ∀ s, ss.count s = ts.count s) := by
  obtain ⟨v', ps', ss', h1, h2, -, h4, h5⟩ := C34_sort hq1 H ascending
  obtain ⟨w', qs', ts', g1, g2, -, g4, g5⟩ := C34_sort hq2 G ascending
  refine ⟨v', w', _, h1, g1, C33_equal h2 g2 false (by simp), ?_⟩
  rw [decide_eq_true_iff, ← List.perm_iff_count]
  constructor
  · rintro rfl
    exact h4.symm.trans g4
  · intro hp
    exact sorted_same h5 g5 (h4.trans (hp.trans g4.symm))

/-- **C141** Sorting in the other direction gives the opposite order, and sorting again changes nothing. -/
theorem C141_directions {q1 q2 : (Cell → Cell → M Int) → Block → Block} (hq1 : QsortContract q1) (hq2 : QsortContract q2) {h : Heap} {v : Vec}
    {ps : List Nat} {ss : List Str} (H : Is h v ps ss) (ascending : Bool) :
    ∃ v' v'' v''' ps' ps'' ps''' ss', sort q1 h v ascending = .ok v' ∧ Is h v' ps' ss' ∧
      sort q2 h v' ascending = .ok v'' ∧ Is h v'' ps'' ss' ∧ sort q2 h v' (!ascending) = .ok v''' ∧ Is h v''' ps''' ss'.reverse := by
  obtain ⟨v', ps', ss', h1, h2, -, -, h5⟩ := C34_sort hq1 H ascending
  obtain ⟨v'', ps'', ss'', g1, g2, -, g4, g5⟩ := C34_sort hq2 h2 ascending
  obtain ⟨v3, ps3, ss3, k1, k2, -, k4, k5⟩ := C34_sort hq2 h2 (!ascending)
  rw [sorted_same g5 h5 g4] at g2
  rw [sorted_same k5 (sorted_reverse h5) (k4.trans ss'.reverse_perm.symm)] at k2
  exact ⟨v', v'', v3, ps', ps'', ps3, ss', h1, h2, g1, g2, k1, k2⟩

/-- The conditions are met by two vectors with the same strings in a different order. -/
example : QsortContract insertionSort ∧ Is exHeap exVec [0, 1, 2] [[97], [98], [97]] ∧
    Is exHeap (some [.ptr 1, .ptr 3, .ptr 0, .null]) [1, 3, 0] [[98], [97], [97]] ∧ (∀ s : Str, List.count s [[97], [98], [97]] = List.count s [[98], [97], [97]]) :=
  ⟨insertionSort_contract, exOwns.toIs, ⟨.inr ⟨0, rfl⟩, rfl⟩, fun s => by
    rw [List.count_cons, List.count_cons, List.count_cons, List.count_cons, List.count_cons, List.count_cons]; omega⟩

end Verif.Strv

namespace Verif.IntArray
open Verif.C

theorem int_sorted_same {a b : List Val} (ha : a.Pairwise (fun x y => x.toInt ≤ y.toInt)) (hb : b.Pairwise (fun x y => x.toInt ≤ y.toInt)) (hp : a.Perm b) :
    a = b :=
  hp.eq_of_pairwise (fun x y _ _ h1 h2 => BitVec.eq_of_toInt_eq (by omega)) ha hb

/-- **C141** Two arrays of numbers (not too far from each other, see C48) are the same after sorting exactly if each number is the same number of
times in both of them; and sorting in the other direction gives the opposite order. -/
theorem C141_numbers (g1 g2 : (Option Val → Option Val → M Int) → Arr → Arr) (hg1 : SortContract g1) (hg2 : SortContract g2) (mode1 mode2 : Mode)
    (l m : List Val) (hl : ∀ x ∈ l, ∀ y ∈ l, x.toInt - y.toInt < 2 ^ 31) (hm : ∀ x ∈ m, ∀ y ∈ m, x.toInt - y.toInt < 2 ^ 31) :
    ∃ l' m', sortAscending g1 mode1 (I l) = I l' ∧ sortAscending g2 mode2 (I m) = I m' ∧
      sortDescending g1 mode1 (I l) = I l'.reverse ∧ sortDescending g2 mode2 (I m) = I m'.reverse ∧ (l' = m' ↔ ∀ x, l.count x = m.count x) := by
  obtain ⟨⟨l', a1, a2, a3⟩, ⟨l'', b1, b2, b3⟩, -⟩ := C48_sort_partial g1 hg1 mode1 l hl
  obtain ⟨⟨m', c1, c2, c3⟩, ⟨m'', d1, d2, d3⟩, -⟩ := C48_sort_partial g2 hg2 mode2 m hm
  have rev : ∀ {a b : List Val}, a.Perm b → a.Pairwise (fun x y => x.toInt ≤ y.toInt) → b.Pairwise (fun x y => y.toInt ≤ x.toInt) → b = a.reverse := by
    intro a b hp ha hb
    have := int_sorted_same ha (List.pairwise_reverse.2 hb) (hp.trans b.reverse_perm.symm)
    rw [this, List.reverse_reverse]
  refine ⟨l', m', a1, c1, ?_, ?_, ?_⟩
  · rw [b1, rev (a2.trans b2.symm) a3 b3]
  · rw [d1, rev (c2.trans d2.symm) c3 d3]
  · rw [← List.perm_iff_count]
    constructor
    · rintro rfl
      exact a2.symm.trans c2
    · intro hp
      exact int_sorted_same a3 c3 (a2.trans (hp.trans c2.symm))

/-- The conditions are met. -/
example : SortContract Strv.insertionSort ∧ (∀ x ∈ ([3, 0xffffffff, 3] : List Val), ∀ y ∈ ([3, 0xffffffff, 3] : List Val), x.toInt - y.toInt < 2 ^ 31) ∧
    (∀ x : Val, List.count x [3, 0xffffffff, 3] = List.count x [3, 3, 0xffffffff]) ∧ sortAscending Strv.insertionSort .strict (I [3, 0xffffffff, 3]) = I [0xffffffff, 3, 3] :=
  ⟨Strv.insertionSort_sorts, fun x hx y hy => by
    have b : ∀ z ∈ ([3, 0xffffffff, 3] : List Val), -1 ≤ z.toInt ∧ z.toInt ≤ 3 := by
      intro z hz
      simp only [List.mem_cons, List.not_mem_nil, or_false] at hz
      rcases hz with rfl | rfl | rfl <;> decide
    have := b x hx
    have := b y hy
    omega, fun x => by
    rw [List.count_cons, List.count_cons, List.count_cons, List.count_cons, List.count_cons, List.count_cons]; omega, by decide +kernel⟩

end Verif.IntArray
