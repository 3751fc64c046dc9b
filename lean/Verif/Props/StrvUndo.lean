import Verif.Props.Strv

/-!
# Undoing and repeating changes of a string vector: C149
-/

namespace Verif.Strv
open Verif.C Spec

/-- **C149** Adding a string and removing the last one gives the same strings at the same addresses. The copy which has been added is released and
no other string has changed, i.e. nothing is left behind. -/
theorem C149_undo {h : Heap} {v : Vec} {ps : List Nat} {ss : List Str} (H : Owns h v ps ss) {a : Nat} {t : Str} (ht : h[a]? = some (some t)) :
    ∃ h1 v1 h2 v2, add h v (some a) = .ok (h1, v1) ∧ removeAt h1 v1 ss.length true = .ok (h2, v2) ∧ Owns h2 v2 ps ss ∧ h2 = h ++ [none] := by
  obtain ⟨h1, v1, e1, H1, x1, l1⟩ := C29_add H ht
  have hps := strings_length H.strings
  obtain ⟨h2, v2, b, e2, hb, H2, r2⟩ := C30_remove_at H1 ss.length (by simp) true
  have hpn : (ps ++ [h.length])[ss.length]? = some h.length := by rw [← hps]; simp
  rw [hpn] at hb
  injection hb with hb
  subst hb
  refine ⟨h1, v1, h2, v2, e1, e2, ?_, ?_⟩
  · have p1 : (ps ++ [h.length]).eraseIdx ss.length = ps := by
      rw [List.eraseIdx_append_of_length_le (by omega), ← hps]; simp
    have p2 : (ss ++ [t]).eraseIdx ss.length = ss := by
      rw [List.eraseIdx_append_of_length_le (by omega)]; simp
    rwa [p1, p2] at H2
  · refine List.ext_getElem? fun i => ?_
    obtain ⟨rl, rv⟩ := r2
    by_cases hi : i < h.length
    · rw [rv i (by omega), x1 i hi, List.getElem?_append_left hi]
      simp; omega
    · by_cases he : i = h.length
      · subst he
        rw [rv _ (by omega)]
        simp
      · rw [List.getElem?_eq_none (by omega), List.getElem?_eq_none (by simp; omega)]

/-- **C149** Removing a string by value right after it has been added gives the same strings, if there was no equal one. -/
theorem C149_undo_value {h : Heap} {v : Vec} {ps : List Nat} {ss : List Str} (H : Owns h v ps ss) {a : Nat} {t : Str} (ht : h[a]? = some (some t))
    (hn : t ∉ ss) (all : Bool) :
    ∃ h1 v1 h2 v2 ps2, add h v (some a) = .ok (h1, v1) ∧ remove h1 v1 (some a) all = .ok (h2, v2) ∧ Owns h2 v2 ps2 ss := by
  obtain ⟨h1, v1, e1, H1, x1, l1⟩ := C29_add H ht
  have ha : a < h.length := (List.getElem?_eq_some_iff.1 ht).1
  have hap : a ∉ ps ++ [h.length] := by
    simp only [List.mem_append, List.mem_singleton, not_or]
    refine ⟨fun hm => ?_, by omega⟩
    -- then the string would be there
    obtain ⟨k, hk, hka⟩ := List.getElem_of_mem hm
    have e : ps.map (fun a => h[a]?) = ss.map (fun s => some (some s)) := H.strings
    have ek := congrArg (fun l => l[k]?) e
    have hks : k < ss.length := by rw [← strings_length H.strings]; exact hk
    simp only [List.getElem?_map, List.getElem?_eq_getElem hk, List.getElem?_eq_getElem hks, Option.map_some, hka, ht, Option.some.injEq] at ek
    exact hn (by rw [ek]; exact List.getElem_mem hks)
  obtain ⟨h2, v2, ps2, e2, H2, -, -⟩ := C30_remove H1 (by rw [x1 a ha]; exact ht) hap all
  refine ⟨h1, v1, h2, v2, ps2, e1, e2, ?_⟩
  have : without t all (ss ++ [t]) = ss := by
    unfold without
    cases all with
    | false =>
      rw [if_neg (by simp), List.erase_append_right _ hn]
      simp
    | true =>
      rw [if_pos rfl, List.filter_append]
      have : ss.filter (fun s => decide (s ≠ t)) = ss := by
        rw [List.filter_eq_self]
        intro s hs
        simp only [ne_eq, decide_not, Bool.not_eq_eq_eq_not, Bool.not_true, decide_eq_false_iff_not]
        rintro rfl
        exact hn hs
      rw [this]; simp
  rwa [this] at H2

theorem firsts_of_nodup : ∀ {ss : List Str}, ss.Nodup → firstsBy (fun s => s) ss = ss
  | [], _ => rfl
  | s :: ss, h => by
    rw [List.nodup_cons] at h
    rw [firstsBy, firsts_of_nodup h.2]
    congr 1
    rw [List.filter_eq_self]
    intro x hx
    simp only [ne_eq, decide_not, Bool.not_eq_eq_eq_not, Bool.not_true, decide_eq_false_iff_not]
    rintro rfl
    exact h.1 hx

theorem firsts_append_mem {t : Str} : ∀ {ss : List Str}, t ∈ ss → firstsBy (fun s => s) (ss ++ [t]) = firstsBy (fun s => s) ss
  | [], h => by cases h
  | s :: ss, h => by
    rw [List.cons_append, firstsBy_cons, firstsBy_cons, List.filter_append]
    congr 1
    by_cases hs : t = s
    · subst hs; simp
    · have hm : t ∈ ss.filter (fun y => decide (y ≠ s)) := by
        rcases List.mem_cons.1 h with h | h
        · exact (hs h).elim
        · simp [h, hs]
      have e : [t].filter (fun y => decide (y ≠ s)) = [t] := by simp [hs]
      rw [e]
      exact firsts_append_mem hm
  termination_by ss => ss.length
  decreasing_by
    simp only [List.length_cons]
    have := List.length_filter_le (fun y => decide (y ≠ s)) ss
    omega

/-- **C149** Removing duplicates twice is the same as doing it once: the second time nothing is released. -/
theorem C149_dups_twice {h : Heap} {v : Vec} {ps : List Nat} {ss : List Str} (H : Owns h v ps ss) :
    ∃ h1 v1 v2 ps1 ss1, removeDups h v = .ok (h1, v1) ∧ Owns h1 v1 ps1 ss1 ∧ removeDups h1 v1 = .ok (h1, v2) ∧ Owns h1 v2 ps1 ss1 := by
  obtain ⟨h1, v1, ps1, e1, H1, -, -⟩ := C32_remove_dups H
  obtain ⟨h2, v2, ps2, e2, H2, s2, r2⟩ := C32_remove_dups H1
  rw [firsts_of_nodup (firstsBy_nodup ss)] at H2
  have hlen : ps2.length = ps1.length := by rw [strings_length H2.strings, strings_length H1.strings]
  have hps : ps2 = ps1 := s2.eq_of_length hlen
  subst hps
  have hh : h2 = h1 := by
    refine List.ext_getElem? fun i => ?_
    by_cases hi : i < h1.length
    · rw [r2.2 i hi]
      simp
    · rw [List.getElem?_eq_none (by rw [r2.1]; omega), List.getElem?_eq_none (by omega)]
  subst hh
  exact ⟨_, v1, v2, _, _, e1, H1, e2, H2⟩

/-- **C149** Adding a string which is already there doesn't matter if duplicates are removed after that. -/
theorem C149_dups_absorb {h : Heap} {v : Vec} {ps : List Nat} {ss : List Str} (H : Owns h v ps ss) {a : Nat} {t : Str} (ht : h[a]? = some (some t))
    (hm : t ∈ ss) :
    ∃ h1 v1 h2 v2 ps2 h3 v3 ps3 ss', add h v (some a) = .ok (h1, v1) ∧ removeDups h1 v1 = .ok (h2, v2) ∧ Owns h2 v2 ps2 ss' ∧
      removeDups h v = .ok (h3, v3) ∧ Owns h3 v3 ps3 ss' := by
  obtain ⟨h1, v1, e1, H1, -, -⟩ := C29_add H ht
  obtain ⟨h2, v2, ps2, e2, H2, -, -⟩ := C32_remove_dups H1
  obtain ⟨h3, v3, ps3, e3, H3, -, -⟩ := C32_remove_dups H
  rw [firsts_append_mem hm] at H2
  exact ⟨h1, v1, h2, v2, ps2, h3, v3, ps3, _, e1, e2, H2, e3, H3⟩

/-- The hypotheses are met: a copy of the vector's own string, and a string which isn't there -/
example : Owns exHeap exVec [0, 1, 2] [[97], [98], [97]] ∧ exHeap[1]? = some (some [98]) ∧ [98] ∈ [[97], [98], ([97] : Str)] ∧
    (add exHeap exVec (some 1) >>= fun r => removeAt r.1 r.2 3 true) = .ok (exHeap ++ [none], exVec) := ⟨exOwns, rfl, by simp, by decide +kernel⟩

example : Owns (exHeap ++ [some [99]]) exVec [0, 1, 2] [[97], [98], [97]] ∧ (exHeap ++ [some [99]])[4]? = some (some [99]) ∧
    [99] ∉ [[97], [98], ([97] : Str)] := ⟨⟨⟨.inr ⟨0, rfl⟩, rfl⟩, by decide⟩, rfl, by decide⟩

end Verif.Strv
