import Verif.Proof.StrvOwn
import Verif.Props.Strv

/-!
# When is it safe to remove all the strings equal to one of the vector's own (C31)
-/

namespace Verif.Strv
open Verif.C Spec

/-- **C31** Removing all the strings equal to `t`, given as the vector's own string number `i` (`k` is the index of the first one equal
to `t`). It's safe exactly if it's the first one of them and nothing comes after it, or if it comes right after the first one. The right
strings are removed and released then. In all the other cases it's used after it has been released. -/
theorem C31_exactly {h : Heap} {v : Vec} {ps : List Nat} {ss : List Str} (H : Owns h v ps ss) {a i k : Nat} {t : Str}
    (ht : h[a]? = some (some t)) (ha : ps[i]? = some a) (hk : ss[k]? = some t) (hfirst : t ∉ ss.take k) :
    ((i = k ∧ i + 1 = ss.length) ∨ i = k + 1 →
      ∃ h' v' ps', remove h v (some a) true = .ok (h', v') ∧ Owns h' v' ps' (ss.filter (fun s => decide (s ≠ t))) ∧ ps'.Sublist ps ∧
        Released h h' (fun x => decide (x ∈ ps) && decide (x ∉ ps'))) ∧
    (¬ ((i = k ∧ i + 1 = ss.length) ∨ i = k + 1) → remove h v (some a) true = .error .useAfterFree) := by
  have hl := strings_live H.strings
  have hlen := strings_length H.strings
  obtain ⟨s, hs, hs'⟩ := strings_getElem? H.strings ha
  rw [ht] at hs'
  cases hs'
  have hip := (List.getElem?_eq_some_iff.1 ha).1
  have hki : k ≤ i := by
    rcases Nat.lt_or_ge i k with hlt | hge
    · exact absurd (List.mem_of_getElem? (i := i) (by rw [List.getElem?_take, if_pos hlt]; exact hs)) hfirst
    · exact hge
  have hidx : firstIndex (fun s => decide (s = t)) ss = k := by
    have hm := C28_index_meaning t ss
    have hmem : t ∈ ss := List.mem_of_getElem? hs
    have hnn : ¬ firstIndex (fun s => decide (s = t)) ss < 0 := fun hh => firstIndex_absent hh hmem
    obtain ⟨j, hj⟩ : ∃ j : Nat, firstIndex (fun s => decide (s = t)) ss = j :=
      ⟨_, (Int.toNat_of_nonneg (by omega)).symm⟩
    obtain ⟨q1, q2⟩ := hm.1 j hj
    rw [hj]
    have h1 : ¬ j < k := fun hlt => hfirst (List.mem_of_getElem? (i := j) (by rw [List.getElem?_take, if_pos hlt]; exact q1))
    have h2 : ¬ k < j := fun hlt => q2 (List.mem_of_getElem? (i := k) (by rw [List.getElem?_take, if_pos hlt]; exact hk))
    omega
  have hidx' := hidx
  rw [← strings_firstIndex H.strings] at hidx'
  refine ⟨fun hc => ?_, fun hc => ?_⟩
  · obtain ⟨h', v', h1, h2, h3⟩ := remove_own ht H.holds hl H.nodup ha hidx' (by omega)
    have hrel : Released h h' (fun x => decide (x ∈ ps) && decide (x ∉ ps.filter (fun a => !matches_ h t a))) := by
      have e : (fun x => decide (x ∈ ps) && decide (x ∉ ps.filter (fun a => !matches_ h t a))) =
          fun a => decide (a ∈ ps) && matches_ h t a := by
        funext x
        by_cases hx : x ∈ ps <;> simp [List.mem_filter, hx]
      rw [e]; exact h3
    refine ⟨h', v', _, h1, ⟨⟨h2, ?_⟩, H.nodup.filter _⟩, List.filter_sublist, hrel⟩
    exact strings_released hrel (fun x hx => by simp only [hx, not_true_eq_false, decide_false, Bool.and_false])
      (strings_filter H.strings)
  · rcases Nat.lt_or_ge (k + 1) i with hlt | hge
    · exact remove_own_freed ht H.holds hl H.nodup ha hidx' hlt
    · have : i = k := by omega
      subst this
      exact C31_refuted H ht ha hfirst (by omega)

/-- The second of two equal strings in `a`, `a`, `b`; the third one of `a`, `b`, `a` -/
example : remove [some [97], some [97], some [98]] (some [.ptr 0, .ptr 1, .ptr 2, .null]) (some 1) true =
      .ok ([none, none, some [98]], some [.ptr 2, .null]) ∧
    remove [some [97], some [98], some [97]] (some [.ptr 0, .ptr 1, .ptr 2, .null]) (some 2) true = .error .useAfterFree ∧
    remove [some [98], some [97]] (some [.ptr 0, .ptr 1, .null]) (some 1) true = .ok ([some [98], none], some [.ptr 0, .null]) := by
  exact ⟨by decide +kernel, by decide +kernel, by decide +kernel⟩

example : Owns exHeap exVec [0, 1, 2] [[97], [98], [97]] ∧ exHeap[2]? = some (some [97]) ∧ ([[97], [98], [97]] : List Str)[0]? = some [97] ∧
    ([97] : Str) ∉ ([[97], [98], [97]] : List Str).take 0 :=
  ⟨exOwns, rfl, rfl, by decide⟩

end Verif.Strv
