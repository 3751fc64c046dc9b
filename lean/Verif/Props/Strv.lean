import Verif.Proof.StrvLift

/-!
# Properties of string vectors (C28 - C35)

`Is h v ps ss` says that the vector `v` consists of the strings `ss` (at the addresses `ps`),
`Owns` that the addresses are different in addition.
-/

namespace Verif.Strv
open Verif.C Spec

/-- A vector of three strings `a`, `b`, `a` and one more string `a`, used in the examples. -/
def exHeap : Heap := [some [97], some [98], some [97], some [97]]
def exVec : Vec := some [.ptr 0, .ptr 1, .ptr 2, .null]

theorem exOwns : Owns exHeap exVec [0, 1, 2] [[97], [98], [97]] :=
  ⟨⟨.inr ⟨0, rfl⟩, rfl⟩, by decide⟩

/-! ## C28 -/

/-- **C28** The simple lookups return what they should; being defined means that nothing past
the terminator is read. -/
theorem C28_lookup {h : Heap} {v : Vec} {ps : List Nat} {ss : List Str} (H : Is h v ps ss) :
    length v = .ok ss.length ∧
    (∀ i, ∃ p, at_ v i = .ok p ∧ (∀ a, p = some a → ∃ s, ss[i]? = some s ∧ h[a]? = some (some s)) ∧
      (p = none ↔ ss.length ≤ i)) ∧
    (∃ p, last v = .ok p ∧ (∀ a, p = some a → ∃ s, ss.getLast? = some s ∧ h[a]? = some (some s)) ∧
      (p = none ↔ ss = [])) := by
  have hlen := strings_length H.strings
  refine ⟨by rw [length_ok H.holds, hlen], fun i => ⟨_, at_ok H.holds i, ?_, ?_⟩, _, last_ok H.holds, ?_, ?_⟩
  · intro a ha
    exact strings_getElem? H.strings ha
  · rw [List.getElem?_eq_none_iff, hlen]
  · intro a ha
    rw [List.getLast?_eq_getElem?] at ha ⊢
    obtain ⟨s, hs, hs'⟩ := strings_getElem? H.strings ha
    exact ⟨s, by rw [← hlen]; exact hs, hs'⟩
  · rw [List.getLast?_eq_none_iff, ← List.length_eq_zero_iff, hlen, List.length_eq_zero_iff]

/-- **C28** Searching, for a string anywhere (it may belong to the vector). -/
theorem C28_find {h : Heap} {v : Vec} {ps : List Nat} {ss : List Str} (H : Is h v ps ss) {a : Nat} {t : Str}
    (ht : h[a]? = some (some t)) :
    find h v (some a) = .ok (firstIndex (fun s => decide (s = t)) ss) ∧
    findLast h v (some a) = .ok (lastIndex (fun s => decide (s = t)) ss) ∧
    contains h v (some a) = .ok (decide (t ∈ ss)) := by
  have hl := strings_live H.strings
  have hf := find_ok ht H.holds hl
  rw [strings_firstIndex H.strings] at hf
  refine ⟨hf, ?_, ?_⟩
  · rw [findLast_ok ht H.holds hl, strings_lastIndex H.strings]
  · rw [contains, hf, ok_bind]
    congr 1
    rw [decide_eq_decide]
    have := firstIndex_neg (p := fun s => decide (s = t)) (l := ss)
    by_cases hm : t ∈ ss
    · refine ⟨fun _ => hm, fun _ => ?_⟩
      have h2 : ¬ firstIndex (fun s => decide (s = t)) ss < 0 := fun hh => firstIndex_absent hh hm
      omega
    · have h2 := this.2 (fun x hx => by simp; rintro rfl; exact hm hx)
      simp [hm]
      omega

/-- **C28** The indices found are what their names say. -/
theorem C28_index_meaning (t : Str) (ss : List Str) :
    (∀ i : Nat, firstIndex (fun s => decide (s = t)) ss = i → ss[i]? = some t ∧ t ∉ ss.take i) ∧
    (∀ i : Nat, lastIndex (fun s => decide (s = t)) ss = i → ss[i]? = some t ∧ t ∉ ss.drop (i + 1)) ∧
    (firstIndex (fun s => decide (s = t)) ss = -1 ↔ t ∉ ss) ∧ (lastIndex (fun s => decide (s = t)) ss = -1 ↔ t ∉ ss) := by
  have hge : -1 ≤ firstIndex (fun s => decide (s = t)) ss := by
    induction ss with
    | nil => simp [firstIndex]
    | cons x l ih => rw [firstIndex]; repeat' split <;> omega
  have hge2 := lastIndex_ge (p := fun s => decide (s = t)) (l := ss)
  have h1 := firstIndex_neg (p := fun s => decide (s = t)) (l := ss)
  have h2 := lastIndex_neg (p := fun s => decide (s = t)) (l := ss)
  have h3 : (∀ x ∈ ss, decide (x = t) = false) ↔ t ∉ ss := by
    constructor
    · intro hh ht; simpa using hh t ht
    · intro hh x hx; simp; rintro rfl; exact hh hx
  rw [h3] at h1 h2
  refine ⟨?_, ?_, ?_, ?_⟩
  · intro i hi
    obtain ⟨⟨x, hx, hx'⟩, hb⟩ := firstIndex_spec hi
    simp at hx'
    subst hx'
    exact ⟨hx, fun hm => by simpa using hb _ hm⟩
  · intro i hi
    obtain ⟨⟨x, hx, hx'⟩, hb⟩ := lastIndex_spec hi
    simp at hx'
    subst hx'
    exact ⟨hx, fun hm => by simpa using hb _ hm⟩
  · rw [← h1]; omega
  · rw [← h2]; omega

/-- **C28** `NULL` is an empty vector, and a `NULL` string is never found. -/
theorem C28_null {h : Heap} {v : Vec} {ps : List Nat} {ss : List Str} (H : Is h v ps ss) :
    Is h none [] [] ∧ find h v none = .ok (-1) ∧ findLast h v none = .ok (-1) ∧ contains h v none = .ok false := by
  refine ⟨⟨.inl ⟨rfl, rfl⟩, rfl⟩, ?_, ?_, ?_⟩
  · unfold find; split
    · rename_i h2; cases h2
    · rfl
  · rfl
  · unfold contains find; split
    · rename_i h2; cases h2
    · rfl

/-- The hypotheses are met; the string looked for isn't one of those in the vector. -/
example : Is exHeap exVec [0, 1, 2] [[97], [98], [97]] ∧ exHeap[3]? = some (some [97]) ∧
    find exHeap exVec (some 3) = .ok 0 ∧ findLast exHeap exVec (some 3) = .ok 2 :=
  ⟨exOwns.toIs, rfl, by decide +kernel, by decide +kernel⟩

/-! ## C29 -/

/-- **C29** `gutil_strv_add` appends a copy: the string is found at a new address, everything
that was there is still there. -/
theorem C29_add {h : Heap} {v : Vec} {ps : List Nat} {ss : List Str} (H : Owns h v ps ss) {a : Nat} {t : Str}
    (ht : h[a]? = some (some t)) :
    ∃ h' v', add h v (some a) = .ok (h', v') ∧ Owns h' v' (ps ++ [h.length]) (ss ++ [t]) ∧ Extended h h' ∧
      h'.length = h.length + 1 := by
  obtain ⟨v', h1, h2⟩ := add_ok ht H.holds
  refine ⟨_, v', h1, ⟨⟨h2, ?_⟩, ?_⟩, ?_, by simp⟩
  · exact strings_append (strings_extend _ H.strings) (strings_new h [t])
  · rw [List.nodup_append]
    refine ⟨H.nodup, by simp, ?_⟩
    intro x hx y hy
    obtain ⟨s, hs⟩ := strings_live H.strings x hx
    have := (List.getElem?_eq_some_iff.1 hs).1
    simp at hy
    omega
  · intro x hx
    exact List.getElem?_append_left hx

/-- **C29** `gutil_strv_addv` appends copies of all its arguments, up to `NULL`. -/
theorem C29_addv {h : Heap} {v : Vec} {ps : List Nat} {ss : List Str} (H : Owns h v ps ss) {a : Nat} {t : Str}
    (ht : h[a]? = some (some t)) {args : List Nat} {ts : List Str} (hargs : Strings h args ts) :
    ∃ h' v', addv h v (some a) args = .ok (h', v') ∧
      Owns h' v' (ps ++ List.range' h.length (args.length + 1)) (ss ++ t :: ts) ∧ Extended h h' ∧
      h'.length = h.length + 1 + ts.length := by
  obtain ⟨v', h1, h2⟩ := addv_ok ht hargs H.holds
  refine ⟨_, v', h1, ⟨⟨h2, ?_⟩, ?_⟩, ?_, by simp; omega⟩
  · have := strings_new h (t :: ts)
    rw [List.length_cons, ← strings_length hargs] at this
    exact strings_append (strings_extend _ H.strings) this
  · rw [List.nodup_append]
    refine ⟨H.nodup, List.nodup_range', ?_⟩
    intro x hx y hy
    obtain ⟨s, hs⟩ := strings_live H.strings x hx
    have := (List.getElem?_eq_some_iff.1 hs).1
    rw [List.mem_range'_1] at hy
    omega
  · intro x hx
    exact List.getElem?_append_left hx

/-- **C29** A `NULL` string changes nothing. -/
theorem C29_add_null (h : Heap) (v : Vec) (args : List Nat) :
    add h v none = .ok (h, v) ∧ addv h v none args = .ok (h, v) := ⟨rfl, rfl⟩

/-- The hypotheses are met: adding the vector's own string together with two others. -/
example : Owns exHeap exVec [0, 1, 2] [[97], [98], [97]] ∧ exHeap[1]? = some (some [98]) ∧
    Strings exHeap [3, 0] [[97], [97]] ∧
    addv exHeap exVec (some 1) [3, 0] =
      .ok (exHeap ++ [some [98], some [97], some [97]],
        some [.ptr 0, .ptr 1, .ptr 2, .ptr 4, .ptr 5, .ptr 6, .null]) :=
  ⟨exOwns, rfl, rfl, by decide +kernel⟩

/-! ## C30 -/

/-- **C30** `gutil_strv_remove_at`: the element at the position is gone, the others stay in
order.  It is freed if requested (otherwise nothing is). -/
theorem C30_remove_at {h : Heap} {v : Vec} {ps : List Nat} {ss : List Str} (H : Owns h v ps ss) (pos : Nat)
    (hpos : pos < ss.length) (freeIt : Bool) :
    ∃ h' v' a, removeAt h v pos freeIt = .ok (h', v') ∧ ps[pos]? = some a ∧
      Owns h' v' (ps.eraseIdx pos) (ss.eraseIdx pos) ∧ Released h h' (fun x => freeIt && decide (x = a)) := by
  have hlen := strings_length H.strings
  have hl := strings_live H.strings
  have hp : pos < ps.length := by omega
  obtain ⟨v', h1, h2⟩ := (removeAt_ok H.holds hl (pos : Int) freeIt).1 ⟨by omega, by omega⟩
  rw [Int.toNat_natCast] at h1 h2
  rw [List.getElem?_eq_getElem hp, Option.getD_some] at h1
  have hrel : Released h (if freeIt then h.set ps[pos] none else h) (fun x => freeIt && decide (x = ps[pos])) := by
    cases freeIt with
    | true => simpa using released_one
    | false => exact released_none (by simp)
  refine ⟨_, v', ps[pos], h1, List.getElem?_eq_getElem hp, ⟨⟨h2, ?_⟩, nodup_erase H.nodup _⟩, hrel⟩
  refine strings_released hrel ?_ (strings_eraseIdx H.strings)
  intro a ha
  have := (mem_eraseIdx_ne H.nodup hp ha).2
  simp [this]

/-- **C30** A position out of range changes nothing. -/
theorem C30_remove_at_out_of_range {h : Heap} {v : Vec} {ps : List Nat} {ss : List Str} (H : Is h v ps ss) (pos : Int)
    (hpos : pos < 0 ∨ ss.length ≤ pos) (freeIt : Bool) : removeAt h v pos freeIt = .ok (h, v) := by
  have hlen := strings_length H.strings
  exact (removeAt_ok H.holds (strings_live H.strings) pos freeIt).2 (by omega)

theorem remove_one {h : Heap} {v : Vec} {ps : List Nat} {ss : List Str} (H : Owns h v ps ss) {a : Nat} {t : Str}
    (ht : h[a]? = some (some t)) :
    ∃ h' v' ps', remove h v (some a) false = .ok (h', v') ∧ Owns h' v' ps' (ss.erase t) ∧ ps'.Sublist ps ∧
      Released h h' (fun x => decide (x ∈ ps) && decide (x ∉ ps')) := by
  have hl := strings_live H.strings
  obtain ⟨-, k2, k3⟩ := remove_ok ht H.holds hl H.nodup
  by_cases h0 : firstIndex (matches_ h t) ps < 0
  · refine ⟨h, v, ps, k3 h0, ?_, .refl _, released_none (by grind)⟩
    rw [strings_firstIndex H.strings] at h0
    rw [List.erase_of_not_mem (firstIndex_absent h0)]
    exact H
  · obtain ⟨k, hk⟩ : ∃ k : Nat, firstIndex (matches_ h t) ps = k := ⟨_, (Int.toNat_of_nonneg (by omega)).symm⟩
    have hkl : k < ps.length := by have := firstIndex_lt (p := matches_ h t) (l := ps); omega
    obtain ⟨v', h1, h2⟩ := k2 k hk
    rw [List.getElem?_eq_getElem hkl, Option.getD_some] at h1
    have hrel : Released h (h.set ps[k] none) (fun x => decide (x ∈ ps) && decide (x ∉ ps.eraseIdx k)) := by
      have h3 : (fun x => decide (x ∈ ps) && decide (x ∉ ps.eraseIdx k)) = fun x => decide (x = ps[k]) := by
        funext x
        have hm := mem_eraseIdx_iff_ne H.nodup hkl (y := x)
        by_cases e : x = ps[k]
        · have : x ∈ ps := e ▸ List.getElem_mem _
          have : x ∉ ps.eraseIdx k := fun hh => (hm.1 hh).2 e
          simp only [e, List.getElem_mem, decide_true, Bool.true_and, decide_eq_true_eq]
          rw [← e]; exact this
        · by_cases hx : x ∈ ps
          · simp [hm.2 ⟨hx, e⟩, e]
          · simp [hx, e]
      rw [h3]
      exact released_one
    refine ⟨_, v', _, h1, ⟨⟨h2, ?_⟩, nodup_erase H.nodup _⟩, List.eraseIdx_sublist _ _, hrel⟩
    rw [firstIndex_erase (i := k) (by rw [← strings_firstIndex H.strings]; exact hk)]
    refine strings_released hrel ?_ (strings_eraseIdx H.strings)
    intro x hx
    simp [hx]

/-- **C30** `gutil_strv_remove` with a string which doesn't belong to the vector: the first
or all of the equal strings are gone, the others stay in order, and exactly those which are
gone have been released. -/
theorem C30_remove {h : Heap} {v : Vec} {ps : List Nat} {ss : List Str} (H : Owns h v ps ss) {a : Nat} {t : Str}
    (ht : h[a]? = some (some t)) (ha : a ∉ ps) (all : Bool) :
    ∃ h' v' ps', remove h v (some a) all = .ok (h', v') ∧ Owns h' v' ps' (without t all ss) ∧ ps'.Sublist ps ∧
      Released h h' (fun x => decide (x ∈ ps) && decide (x ∉ ps')) := by
  cases all with
  | false => exact remove_one H ht
  | true =>
    have hl := strings_live H.strings
    obtain ⟨k1, -, -⟩ := remove_ok ht H.holds hl H.nodup
    obtain ⟨h', v', h1, h2, h3⟩ := k1 ha
    have hrel : Released h h' (fun x => decide (x ∈ ps) && decide (x ∉ ps.filter (fun a => !matches_ h t a))) := by
      have e : (fun x => decide (x ∈ ps) && decide (x ∉ ps.filter (fun a => !matches_ h t a))) =
          fun a => decide (a ∈ ps) && matches_ h t a := by
        funext x
        by_cases hx : x ∈ ps <;> simp [List.mem_filter, hx]
      rw [e]; exact h3
    refine ⟨h', v', _, h1, ⟨⟨h2, ?_⟩, H.nodup.filter _⟩, List.filter_sublist, hrel⟩
    exact strings_released hrel (fun x hx => by simp only [hx, not_true_eq_false, decide_false, Bool.and_false])
      (strings_filter H.strings)

/-- **C30** Releasing the vector releases each of its strings, once, and nothing else. -/
theorem C30_free {h : Heap} {v : Vec} {ps : List Nat} {ss : List Str} (H : Owns h v ps ss) :
    ∃ h', Ptrv.free h v = .ok h' ∧ Released h h' (fun x => decide (x ∈ ps)) := by
  rcases hv : H.holds with ⟨rfl, rfl⟩ | ⟨n, rfl⟩
  · exact ⟨h, rfl, released_none (by simp)⟩
  · exact freeLoop_mk ps n h (strings_live H.strings) H.nodup

/-- The hypotheses are met, and two strings are removed. -/
example : Owns exHeap exVec [0, 1, 2] [[97], [98], [97]] ∧ exHeap[3]? = some (some [97]) ∧ 3 ∉ [0, 1, 2] ∧
    remove exHeap exVec (some 3) true = .ok ([none, some [98], none, some [97]], some [.ptr 1, .null]) :=
  ⟨exOwns, rfl, by decide, by decide +kernel⟩

/-! ## C31 -/

/-- **C31** isn't true: if the string belongs to the vector and all equal ones are to be
removed, it's used after it has been released.  That is the case whenever it's the first of
the equal strings and not the very last element. -/
theorem C31_refuted {h : Heap} {v : Vec} {ps : List Nat} {ss : List Str} (H : Owns h v ps ss) {a i : Nat} {t : Str}
    (ht : h[a]? = some (some t)) (ha : ps[i]? = some a) (hfirst : t ∉ ss.take i) (hlast : i + 1 < ss.length) :
    remove h v (some a) true = .error .useAfterFree := by
  have hl := strings_live H.strings
  have hlen := strings_length H.strings
  have hlenv := length_ok H.holds
  have hfind := find_ok ht H.holds hl
  have hip : i < ps.length := by omega
  obtain ⟨s, hs, hs'⟩ := strings_getElem? H.strings ha
  rw [ht] at hs'
  cases hs'
  have hidx : firstIndex (fun s => decide (s = t)) ss = i := by
    have hm := C28_index_meaning t ss
    have hmem : t ∈ ss := List.mem_of_getElem? hs
    have hnn : ¬ firstIndex (fun s => decide (s = t)) ss < 0 := fun hh => firstIndex_absent hh hmem
    obtain ⟨k, hk⟩ : ∃ k : Nat, firstIndex (fun s => decide (s = t)) ss = k :=
      ⟨_, (Int.toNat_of_nonneg (by omega)).symm⟩
    obtain ⟨q1, q2⟩ := hm.1 k hk
    rw [hk]
    have h1 : ¬ k < i := fun hlt => hfirst (List.mem_of_getElem? (i := k) (by rw [List.getElem?_take, if_pos hlt]; exact q1))
    have h2 : ¬ i < k := fun hlt => q2 (List.mem_of_getElem? (i := i) (by rw [List.getElem?_take, if_pos hlt]; exact hs))
    omega
  rw [strings_firstIndex H.strings, hidx] at hfind
  have hai : ps[i] = a := by
    rw [List.getElem?_eq_getElem hip] at ha
    exact Option.some.inj ha
  rcases hv : H.holds with ⟨rfl, rfl⟩ | ⟨n, rfl⟩
  · simp at hip
  · change length (some (mk ps n)) = _ at hlenv
    change find h (some (mk ps n)) _ = _ at hfind
    change remove h (some (mk ps n)) _ _ = _
    rw [remove, hfind, ok_bind, if_pos (by omega), hlenv, ok_bind, Int.toNat_natCast, removeImpl_mk hip hl true, ok_bind]
    simp only [if_true]
    have hle : (ps.eraseIdx i).length = ps.length - 1 := by rw [List.length_eraseIdx, if_pos hip]
    obtain ⟨l, hl'⟩ : ∃ l, ps.length - 1 - i = l + 1 := ⟨ps.length - 2 - i, by omega⟩
    rw [removeLoop, hl', findLastImpl, deref_mk _ 0 (i + l) (by omega), ok_bind]
    obtain ⟨u, hu⟩ := live_erase hl H.nodup hip _ (List.getElem_mem (l := ps.eraseIdx i) (n := i + l) (by omega))
    rw [strcmp, str_ok hu, ok_bind]
    have hfreed : str (h.set ps[i] none) a = .error .useAfterFree := by
      unfold str
      rw [hai, List.getElem?_set_self (List.getElem?_eq_some_iff.1 ht).1]
    rw [hfreed, error_bind, error_bind, error_bind, error_bind]

/-- The hypotheses of the refutation are met: `gutil_strv_remove(sv, sv[0], TRUE)`. -/
example : Owns exHeap exVec [0, 1, 2] [[97], [98], [97]] ∧ exHeap[0]? = some (some [97]) ∧
    remove exHeap exVec (some 0) true = .error .useAfterFree :=
  ⟨exOwns, rfl, by decide +kernel⟩

/-- **C31** What is true: removing only the first of the equal strings is safe with any
string, including those of the vector.  (Missing: removing all of them, see
`C31_refuted`.) -/
theorem C31_remove_own_string_partial {h : Heap} {v : Vec} {ps : List Nat} {ss : List Str} (H : Owns h v ps ss) {a : Nat}
    {t : Str} (ht : h[a]? = some (some t)) :
    ∃ h' v' ps', remove h v (some a) false = .ok (h', v') ∧ Owns h' v' ps' (ss.erase t) ∧ ps'.Sublist ps ∧
      Released h h' (fun x => decide (x ∈ ps) && decide (x ∉ ps')) := remove_one H ht

example : Owns exHeap exVec [0, 1, 2] [[97], [98], [97]] ∧ exHeap[0]? = some (some [97]) ∧
    remove exHeap exVec (some 0) false = .ok ([none, some [98], some [97], some [97]], some [.ptr 1, .ptr 2, .null]) :=
  ⟨exOwns, rfl, by decide +kernel⟩

/-! ## C32 -/

/-- **C32** `gutil_strv_remove_dups` leaves the first one of each group of equal strings
and releases exactly the others. -/
theorem C32_remove_dups {h : Heap} {v : Vec} {ps : List Nat} {ss : List Str} (H : Owns h v ps ss) :
    ∃ h' v' ps', removeDups h v = .ok (h', v') ∧ Owns h' v' ps' (firstsBy (fun s => s) ss) ∧ ps'.Sublist ps ∧
      Released h h' (fun x => decide (x ∈ ps) && decide (x ∉ ps')) := by
  have hl := strings_live H.strings
  obtain ⟨h', v', h1, h2, h3⟩ := removeDups_ok H.holds hl H.nodup
  refine ⟨h', v', _, h1, ⟨⟨h2, ?_⟩, H.nodup.sublist (firstsBy_subset _ _)⟩, firstsBy_subset _ _, h3⟩
  exact strings_released h3 (fun x hx => by simp [hx]) (strings_firsts H.strings)

/-- **C32** No two equal strings are left, none is lost, and the order is kept. -/
theorem C32_firsts_meaning (ss : List Str) :
    (firstsBy (fun s => s) ss).Nodup ∧ (∀ s, s ∈ firstsBy (fun s => s) ss ↔ s ∈ ss) ∧
    (firstsBy (fun s => s) ss).Sublist ss := ⟨firstsBy_nodup ss, fun _ => firstsBy_mem, firstsBy_subset _ _⟩

example : Owns exHeap exVec [0, 1, 2] [[97], [98], [97]] ∧
    removeDups exHeap exVec = .ok ([some [97], some [98], none, some [97]], some [.ptr 0, .ptr 1, .null]) :=
  ⟨exOwns, by decide +kernel⟩

/-! ## C33 -/

/-- **C33** `gutil_strv_equal` compares the contents. `same` tells whether both arguments are
the same pointer. -/
theorem C33_equal {h : Heap} {v w : Vec} {ps qs : List Nat} {ss ts : List Str} (H : Is h v ps ss) (G : Is h w qs ts)
    (same : Bool) (hsame : same = true → v = w) : equal h same v w = .ok (decide (ss = ts)) := by
  rw [equal_ok H.holds G.holds (strings_live H.strings) (strings_live G.strings) same hsame]
  congr 1
  rw [decide_eq_decide]
  have e1 := H.strings
  have e2 := G.strings
  unfold Strings at e1 e2
  rw [e1, e2]
  constructor
  · intro e
    have inj : Function.Injective (fun s : Str => some (some s)) := fun a b hab => by simpa using hab
    exact (List.map_inj_right inj).1 e
  · intro e; rw [e]

/-- **C33** Hence an equivalence, in which `NULL` and an empty vector are equal. -/
theorem C33_equal_null {h : Heap} {v : Vec} {ps : List Nat} {ss : List Str} (H : Is h v ps ss) (same : Bool)
    (hsame : same = true → v = none) : equal h same v none = .ok (decide (ss = [])) :=
  C33_equal H (qs := []) (ts := []) ⟨.inl ⟨rfl, rfl⟩, rfl⟩ same hsame

theorem C33_equal_equivalence {h : Heap} {u v w : Vec} {ps qs rs : List Nat} {ss ts us : List Str}
    (H : Is h u ps ss) (G : Is h v qs ts) (K : Is h w rs us) :
    equal h false u u = .ok true ∧ equal h false u v = equal h false v u ∧
    (equal h false u v = .ok true → equal h false v w = .ok true → equal h false u w = .ok true) := by
  rw [C33_equal H H false (by simp), C33_equal H G false (by simp), C33_equal G H false (by simp),
    C33_equal G K false (by simp), C33_equal H K false (by simp)]
  refine ⟨by simp, by congr 1; rw [decide_eq_decide]; exact eq_comm, ?_⟩
  intro e1 e2
  simp at e1 e2
  simp [e1, e2]

example : Is exHeap exVec [0, 1, 2] [[97], [98], [97]] ∧
    Is exHeap (some [.ptr 3, .ptr 1, .ptr 3, .null, .uninit]) [3, 1, 3] [[97], [98], [97]] ∧
    equal exHeap false exVec (some [.ptr 3, .ptr 1, .ptr 3, .null, .uninit]) = .ok true :=
  ⟨exOwns.toIs, ⟨.inr ⟨1, rfl⟩, rfl⟩, by decide +kernel⟩

/-! ## C34 -/

theorem sorted_iff {asc : Bool} {ss : List Str} : ss.Pairwise (InOrder asc) ↔ Sorted asc ss := by
  unfold Sorted
  constructor <;> intro h <;> refine h.imp ?_ <;> intro a b hab
  · exact inOrder_iff.1 hab
  · exact inOrder_iff.2 hab

/-- **C34** `gutil_strv_sort` sorts: given any `qsort` which does what the standard says, the
result has the same strings and is in order.  The strings themselves don't move. -/
theorem C34_sort {q : (Cell → Cell → M Int) → Block → Block} (hq : QsortContract q) {h : Heap} {v : Vec} {ps : List Nat}
    {ss : List Str} (H : Is h v ps ss) (ascending : Bool) :
    ∃ v' ps' ss', sort q h v ascending = .ok v' ∧ Is h v' ps' ss' ∧ ps'.Perm ps ∧ ss'.Perm ss ∧ Sorted ascending ss' := by
  have hl := strings_live H.strings
  obtain ⟨v', ps', h1, h2, h3, h4⟩ := sort_ok hq H.holds hl ascending
  obtain ⟨ss', hs'⟩ := live_strings (h := h) (ps := ps') (fun a ha => hl a (h3.mem_iff.1 ha))
  refine ⟨v', ps', ss', h1, ⟨h2, hs'⟩, h3, ?_, sorted_iff.1 ((sorted_strings hs').1 h4)⟩
  have h5 := h3.map (fun a => h[a]?)
  have e1 : ps'.map (fun a => h[a]?) = ss'.map (fun s => some (some s)) := hs'
  have e2 : ps.map (fun a => h[a]?) = ss.map (fun s => some (some s)) := H.strings
  rw [e1, e2] at h5
  have h6 := h5.filterMap (fun x => x.join)
  simpa [List.filterMap_map, Function.comp_def] using h6

/-- **C34** `gutil_strv_bsearch` in a vector sorted the same way finds the string if and only
if it's there. -/
theorem C34_bsearch {bs : (Cell → Cell → M Int) → Cell → Block → Option Nat} (hb : BsearchContract bs) {h : Heap} {v : Vec}
    {ps : List Nat} {ss : List Str} (H : Is h v ps ss) (ascending : Bool) (hsort : Sorted ascending ss) {a : Nat} {t : Str}
    (ht : h[a]? = some (some t)) :
    ∃ i : Int, search bs h v (some a) ascending = .ok i ∧
      ((∃ k : Nat, i = k ∧ ss[k]? = some t) ∨ (i = -1 ∧ t ∉ ss)) := by
  obtain ⟨i, h1, h2⟩ := search_ok hb H.holds (strings_live H.strings) ascending ht
    ((sorted_strings H.strings).2 (sorted_iff.2 hsort))
  refine ⟨i, h1, ?_⟩
  have e : ps.map (fun a => h[a]?) = ss.map (fun s => some (some s)) := H.strings
  rcases h2 with ⟨k, hk, hk'⟩ | ⟨hi, hno⟩
  · left
    refine ⟨k, hk, ?_⟩
    rw [e, List.getElem?_map] at hk'
    rcases hsk : ss[k]? with _ | s
    · rw [hsk] at hk'; cases hk'
    · rw [hsk] at hk'
      simp at hk'
      rw [hk']
  · right
    refine ⟨hi, fun hm => ?_⟩
    obtain ⟨k, hk⟩ := List.mem_iff_getElem?.1 hm
    have h3 := congrArg (fun l => l[k]?) e
    simp only [List.getElem?_map, hk, Option.map_some] at h3
    rcases hpk : ps[k]? with _ | b
    · rw [hpk] at h3; cases h3
    · rw [hpk] at h3
      simp at h3
      exact hno b (List.mem_of_getElem? hpk) h3

/-- **C34** Sorting followed by searching in the same direction: found iff it was there. -/
theorem C34_sort_then_bsearch {q : (Cell → Cell → M Int) → Block → Block} (hq : QsortContract q)
    {bs : (Cell → Cell → M Int) → Cell → Block → Option Nat} (hb : BsearchContract bs) {h : Heap} {v : Vec} {ps : List Nat}
    {ss : List Str} (H : Is h v ps ss) (ascending : Bool) {a : Nat} {t : Str} (ht : h[a]? = some (some t)) :
    ∃ v' i, sort q h v ascending = .ok v' ∧ search bs h v' (some a) ascending = .ok i ∧ (i ≥ 0 ↔ t ∈ ss) := by
  obtain ⟨v', ps', ss', h1, h2, -, h4, h5⟩ := C34_sort hq H ascending
  obtain ⟨i, h6, h7⟩ := C34_bsearch hb h2 ascending h5 ht
  refine ⟨v', i, h1, h6, ?_⟩
  rcases h7 with ⟨k, hk, hk'⟩ | ⟨hi, hno⟩
  · refine ⟨fun _ => h4.mem_iff.1 (List.mem_of_getElem? hk'), fun _ => by omega⟩
  · refine ⟨fun _ => by omega, fun hm => absurd (h4.mem_iff.2 hm) hno⟩

/-- A `NULL` string isn't found. -/
theorem C34_bsearch_null (bs : (Cell → Cell → M Int) → Cell → Block → Option Nat) (h : Heap) (v : Vec) (ascending : Bool) :
    search bs h v none ascending = .ok (-1) := rfl

/-- The contracts can be met (by insertion sort and linear search) and so can the other
hypotheses. -/
example : QsortContract insertionSort ∧ BsearchContract linearSearch ∧ Is exHeap exVec [0, 1, 2] [[97], [98], [97]] ∧
    sort insertionSort exHeap exVec false = .ok (some [.ptr 1, .ptr 0, .ptr 2, .null]) ∧
    search linearSearch exHeap (some [.ptr 1, .ptr 0, .ptr 2, .null]) (some 3) false = .ok 1 :=
  ⟨insertionSort_contract, linearSearch_contract, exOwns.toIs, by decide +kernel, by decide +kernel⟩

/-! ## C35 -/

/-- **C35** `gutil_strv_strip` strips each string where it is, and changes nothing else. -/
theorem C35_strip {h : Heap} {v : Vec} {ps : List Nat} {ss : List Str} (H : Owns h v ps ss) :
    ∃ h', strip h v = .ok h' ∧ Owns h' v ps (ss.map Spec.strip) ∧ h'.length = h.length ∧
      (∀ a, a ∉ ps → h'[a]? = h[a]?) := by
  have hl := strings_live H.strings
  have key : ∃ h', strip h v = .ok h' ∧ h'.length = h.length ∧ (∀ a, a ∉ ps → h'[a]? = h[a]?) ∧
      (∀ a s, a ∈ ps → h[a]? = some (some s) → h'[a]? = some (some (Spec.strip s))) := by
    rcases hv : H.holds with ⟨rfl, rfl⟩ | ⟨n, rfl⟩
    · exact ⟨h, rfl, rfl, by simp, by simp⟩
    · obtain ⟨h', h1, h2, h3, h4⟩ := stripLoop_mk ps n h hl H.nodup
      exact ⟨h', h1, h2, h3, fun a s ha hs => by rw [← chomp_chug]; exact h4 a s ha hs⟩
  obtain ⟨h', h1, h2, h3, h4⟩ := key
  refine ⟨h', h1, ⟨⟨H.holds, ?_⟩, H.nodup⟩, h2, h3⟩
  have e : ps.map (fun a => h[a]?) = ss.map (fun s => some (some s)) := H.strings
  unfold Strings
  refine List.ext_getElem (by simp [strings_length H.strings]) ?_
  intro i hi hi'
  simp at hi hi'
  obtain ⟨s, hs, hs'⟩ := strings_getElem? H.strings (List.getElem?_eq_getElem hi)
  rw [List.getElem?_eq_getElem hi'] at hs
  cases hs
  simp [h4 _ _ (List.getElem_mem hi) hs']

/-- **C35** Stripping removes whitespace only, all of it at both ends, and doing it again
changes nothing. -/
theorem C35_strip_meaning (s : Str) :
    (∃ l r, s = l ++ Spec.strip s ++ r ∧ (∀ b ∈ l, isSpace b) ∧ (∀ b ∈ r, isSpace b)) ∧
    (∀ b, (Spec.strip s).head? = some b → isSpace b = false) ∧
    (∀ b, (Spec.strip s).getLast? = some b → isSpace b = false) ∧
    Spec.strip (Spec.strip s) = Spec.strip s :=
  ⟨strip_mid s, (strip_ends s).1, (strip_ends s).2, strip_idem s⟩

/-- **C35** Stripping twice is stripping once. -/
theorem C35_strip_idempotent {h : Heap} {v : Vec} {ps : List Nat} {ss : List Str} (H : Owns h v ps ss) :
    ∃ h1 h2, strip h v = .ok h1 ∧ strip h1 v = .ok h2 ∧ Owns h2 v ps (ss.map Spec.strip) := by
  obtain ⟨h1, e1, H1, -, -⟩ := C35_strip H
  obtain ⟨h2, e2, H2, -, -⟩ := C35_strip H1
  refine ⟨h1, h2, e1, e2, ?_⟩
  rw [List.map_map] at H2
  have e : Spec.strip ∘ Spec.strip = Spec.strip := funext strip_idem
  rwa [e] at H2

example : Owns [some [32, 97, 32, 98, 10], some [9]] (some [.ptr 0, .ptr 1, .null]) [0, 1] [[32, 97, 32, 98, 10], [9]] ∧
    strip [some [32, 97, 32, 98, 10], some [9]] (some [.ptr 0, .ptr 1, .null]) = .ok [some [97, 32, 98], some []] :=
  ⟨⟨⟨.inr ⟨0, rfl⟩, rfl⟩, by decide⟩, by decide +kernel⟩

end Verif.Strv
