import Verif.Proof.StrvOps

/-!
# Removing strings equal to one of the vector's own
-/

namespace Verif.Strv
open Verif.C Spec

/-- As `removeLoop_mk`, but the string may be the first one of those which are searched. -/
theorem removeLoop_own {s : Nat} {t : Str} (pos : Nat) : ∀ (fuel : Nat) (h : Heap) (ps : List Nat) (n l : Nat),
    l < fuel → (0 < l → h[s]? = some (some t)) → (∀ j : Nat, 0 < j → j < l → ps[pos + j]? ≠ some s) → Live h ps → ps.Nodup → pos + l ≤ ps.length →
    (∀ a ∈ ps.take pos, matches_ h t a = false) → (∀ a ∈ ps.drop (pos + l), matches_ h t a = false) →
    ∃ h' n', removeLoop pos s fuel h (mk ps n) ps.length l =
        .ok (h', mk (ps.filter (fun a => !matches_ h t a)) n') ∧
      Released h h' (fun a => decide (a ∈ ps) && matches_ h t a)
  | 0, _, _, _, _, hf, _, _, _, _, _, _, _ => by omega
  | fuel + 1, h, ps, n, l, hf, hs, hsp, hl, nd, hpl, hpre, hpost => by
    have hfl : findLastImpl h (mk ps n) pos (some s) l = .ok (lastIndex (matches_ h t) ((ps.drop pos).take l)) := by
      rcases Nat.eq_zero_or_pos l with h0 | h0
      · subst h0; simp [findLastImpl, lastIndex]
      · exact findLastImpl_mk (hs h0) ps n pos hl l hpl
    rw [removeLoop, hfl, ok_bind]
    have hge := lastIndex_ge (p := matches_ h t) (l := (ps.drop pos).take l)
    by_cases h0 : lastIndex (matches_ h t) ((ps.drop pos).take l) < 0
    · rw [if_neg (by omega)]
      have hall : ∀ a ∈ ps, matches_ h t a = false := by
        intro a ha
        rw [← List.take_append_drop pos ps, List.mem_append] at ha
        rcases ha with ha | ha
        · exact hpre a ha
        · rw [← List.take_append_drop l (ps.drop pos), List.mem_append, List.drop_drop] at ha
          rcases ha with ha | ha
          · exact lastIndex_neg.1 h0 a ha
          · exact hpost a ha
      refine ⟨h, n, ?_, ?_⟩
      · rw [List.filter_eq_self.2 (fun a ha => by simp [hall a ha])]
      · refine released_none ?_
        intro x
        by_cases hx : x ∈ ps
        · simp [hall x hx]
        · simp [hx]
    · rw [if_pos (by omega)]
      obtain ⟨i, hi⟩ : ∃ i : Nat, lastIndex (matches_ h t) ((ps.drop pos).take l) = i :=
        ⟨_, (Int.toNat_of_nonneg (by omega)).symm⟩
      obtain ⟨⟨x, hx, hxm⟩, hafter⟩ := lastIndex_spec hi
      rw [hi, Int.toNat_natCast]
      have hil : i < l := by
        have := (List.getElem?_eq_some_iff.1 hx).1
        rw [List.length_take] at this
        omega
      have hk : pos + i < ps.length := by omega
      have hxk : ps[pos + i] = x := by
        rw [List.getElem?_take, if_pos hil, List.getElem?_drop, List.getElem?_eq_getElem hk] at hx
        exact Option.some.inj hx
      rw [removeImpl_mk hk hl true, ok_bind]
      simp only [if_true]
      have hlen : (ps.eraseIdx (pos + i)).length = ps.length - 1 := by
        rw [List.length_eraseIdx, if_pos hk]
      rw [← hlen]
      have hm : ∀ a ∈ ps.eraseIdx (pos + i), matches_ (h.set ps[pos + i] none) t a = matches_ h t a := by
        intro a ha
        unfold matches_
        rw [set_none_other (mem_eraseIdx_ne nd hk ha).2]
      have etake : (ps.eraseIdx (pos + i)).take pos = ps.take pos := by
        rw [List.eraseIdx_eq_take_drop_succ, List.take_append_of_le_length (by rw [List.length_take]; omega),
          List.take_take, Nat.min_eq_left (by omega)]
      have edrop : (ps.eraseIdx (pos + i)).drop (pos + i) = ps.drop (pos + i + 1) := by
        rw [List.eraseIdx_eq_take_drop_succ, List.drop_append_of_le_length (by rw [List.length_take]; omega),
          List.drop_of_length_le (by rw [List.length_take]; omega)]
        simp
      obtain ⟨h', n', hr, hrel⟩ := removeLoop_own (s := s) (t := t) pos fuel (h.set ps[pos + i] none)
        (ps.eraseIdx (pos + i)) 0 i (by omega)
        (by
          intro hi0
          rw [set_none_other (by
            intro e
            exact hsp i hi0 hil (by rw [List.getElem?_eq_getElem hk, e]))]
          exact hs (by omega))
        (by
          intro j h1 h2
          rw [List.getElem?_eraseIdx, if_pos (by omega)]
          exact hsp j h1 (by omega)) (live_erase hl nd hk) (nodup_erase nd _)
        (by rw [hlen]; omega)
        (by
          intro a ha
          rw [hm a (List.mem_of_mem_take ha)]
          rw [etake] at ha
          exact hpre a ha)
        (by
          intro a ha
          rw [hm a (List.mem_of_mem_drop ha)]
          rw [edrop] at ha
          -- either within the window after i or beyond it
          have ha' : a ∈ (ps.drop pos).drop (i + 1) := by
            rw [List.drop_drop]; exact ha
          rw [← List.take_append_drop l (ps.drop pos), List.drop_append_of_le_length
            (by rw [List.length_take, List.length_drop]; omega), List.mem_append] at ha'
          rcases ha' with ha' | ha'
          · exact hafter a ha'
          · rw [List.drop_drop] at ha'
            exact hpost a ha')
      refine ⟨h', n', ?_, ?_⟩
      · rw [hr]
        congr 3
        rw [List.filter_congr (fun a ha => by rw [hm a ha])]
        exact filter_eraseIdx hk (by rw [hxk, hxm]; rfl)
      · refine released_trans released_one hrel ?_
        intro y
        by_cases hy : y = ps[pos + i]
        · subst hy
          simp [hxk, hxm]
          exact hxk ▸ List.getElem_mem _
        · simp only [hy, decide_false, Bool.false_or]
          have : y ∈ ps.eraseIdx (pos + i) ↔ y ∈ ps := by
            constructor
            · exact List.mem_of_mem_eraseIdx
            · intro hyp
              rw [List.mem_eraseIdx_iff_getElem]
              obtain ⟨j, hj, e⟩ := List.getElem_of_mem hyp
              refine ⟨j, hj, ?_, e⟩
              rintro rfl
              exact hy e.symm
          by_cases hyp : y ∈ ps
          · rw [hm y (this.2 hyp)]; simp [hyp, this.2 hyp]
          · simp [hyp, (not_congr this).2 hyp]


/-- If it's a later one, it's used after it has been released. -/
theorem removeLoop_freed {s : Nat} {t : Str} (pos d : Nat) (hd : 0 < d) : ∀ (fuel : Nat) (h : Heap) (ps : List Nat) (n l : Nat),
    l < fuel → h[s]? = some (some t) → ps[pos + d]? = some s → d < l → Live h ps → ps.Nodup → pos + l ≤ ps.length →
    removeLoop pos s fuel h (mk ps n) ps.length l = .error .useAfterFree
  | 0, _, _, _, _, hf, _, _, _, _, _, _ => by omega
  | fuel + 1, h, ps, n, l, hf, hs, hsp, hdl, hl, nd, hpl => by
    rw [removeLoop, findLastImpl_mk hs ps n pos hl l hpl, ok_bind]
    have hin : ((ps.drop pos).take l)[d]? = some s := by
      rw [List.getElem?_take, if_pos hdl, List.getElem?_drop]; exact hsp
    have hms : matches_ h t s = true := by unfold matches_; rw [hs]; simp
    have h0 : ¬ lastIndex (matches_ h t) ((ps.drop pos).take l) < 0 := by
      intro hh
      have := lastIndex_neg.1 hh s (List.mem_of_getElem? hin)
      rw [hms] at this
      cases this
    obtain ⟨i, hi⟩ : ∃ i : Nat, lastIndex (matches_ h t) ((ps.drop pos).take l) = i :=
      ⟨_, (Int.toNat_of_nonneg (by omega)).symm⟩
    obtain ⟨⟨x, hx, hxm⟩, hafter⟩ := lastIndex_spec hi
    rw [if_pos (by omega), hi, Int.toNat_natCast]
    have hil : i < l := by
      have := (List.getElem?_eq_some_iff.1 hx).1
      rw [List.length_take] at this
      omega
    have hdi : d ≤ i := by
      rcases Nat.lt_or_ge i d with hlt | hge
      · exfalso
        have : s ∈ ((ps.drop pos).take l).drop (i + 1) :=
          List.mem_of_getElem? (i := d - (i + 1)) (by rw [List.getElem?_drop, show i + 1 + (d - (i + 1)) = d by omega]; exact hin)
        have := hafter s this
        rw [hms] at this
        cases this
      · exact hge
    have hk : pos + i < ps.length := by omega
    rw [removeImpl_mk hk hl true, ok_bind]
    simp only [if_true]
    have hlen : (ps.eraseIdx (pos + i)).length = ps.length - 1 := by
      rw [List.length_eraseIdx, if_pos hk]
    rw [← hlen]
    rcases Nat.lt_or_ge d i with hlt | hge
    · refine removeLoop_freed (t := t) pos d hd fuel _ _ 0 i (by omega) ?_ ?_ hlt (live_erase hl nd hk) (nodup_erase nd _) (by omega)
      · rw [set_none_other]
        · exact hs
        · intro e
          have h1 := (List.getElem?_eq_some_iff.1 hsp)
          obtain ⟨q, e'⟩ := h1
          have := (List.getElem_inj nd).1 (e'.trans e)
          omega
      · rw [List.getElem?_eraseIdx, if_pos (by omega)]
        exact hsp
    · have : i = d := by omega
      subst this
      have e : ps[pos + i] = s := by
        rw [List.getElem?_eq_getElem hk] at hsp
        exact Option.some.inj hsp
      obtain ⟨m, rfl⟩ : ∃ m, i = m + 1 := ⟨i - 1, by omega⟩
      obtain ⟨f, rfl⟩ : ∃ f, fuel = f + 1 := ⟨fuel - 1, by omega⟩
      rw [removeLoop, findLastImpl, deref_mk _ 0 (pos + m) (by omega), ok_bind]
      obtain ⟨u, hu⟩ := live_erase hl nd hk _ (List.getElem_mem (l := ps.eraseIdx (pos + (m + 1))) (n := pos + m) (by omega))
      rw [strcmp, str_ok hu, ok_bind]
      have hfreed : str (h.set ps[pos + (m + 1)] none) s = .error .useAfterFree := by
        unfold str
        rw [e, List.getElem?_set_self (List.getElem?_eq_some_iff.1 hs).1]
      rw [hfreed, error_bind, error_bind, error_bind]

theorem remove_own {h : Heap} {v : Vec} {ps : List Nat} {s i k : Nat} {t : Str} (hs : h[s]? = some (some t))
    (hv : Holds v ps) (hl : Live h ps) (nd : ps.Nodup) (hi : ps[i]? = some s) (hk : firstIndex (matches_ h t) ps = k)
    (hc : (i = k ∧ i + 1 = ps.length) ∨ i = k + 1) :
    ∃ h' v', remove h v (some s) true = .ok (h', v') ∧ Holds v' (ps.filter (fun a => !matches_ h t a)) ∧
      Released h h' (fun a => decide (a ∈ ps) && matches_ h t a) := by
  have hlenv := length_ok hv
  have hfind := find_ok hs hv hl
  have hip := (List.getElem?_eq_some_iff.1 hi).1
  rcases hv with ⟨rfl, rfl⟩ | ⟨n, rfl⟩
  · simp at hip
  change length (some (mk ps n)) = _ at hlenv
  change find h (some (mk ps n)) _ = _ at hfind
  change ∃ h' v', remove h (some (mk ps n)) _ _ = _ ∧ _
  obtain ⟨⟨x, hx, hxm⟩, hbefore⟩ := firstIndex_spec hk
  have hkl : k < ps.length := by omega
  have hxk : ps[k] = x := by
    rw [List.getElem?_eq_getElem hkl] at hx
    exact Option.some.inj hx
  have hle : (ps.eraseIdx k).length = ps.length - 1 := by
    rw [List.length_eraseIdx, if_pos hkl]
  have hm : ∀ a ∈ ps.eraseIdx k, matches_ (h.set ps[k] none) t a = matches_ h t a := by
    intro a ha
    unfold matches_
    rw [set_none_other (mem_eraseIdx_ne nd hkl ha).2]
  have etake : (ps.eraseIdx k).take k = ps.take k := by
    rw [List.eraseIdx_eq_take_drop_succ, List.take_append_of_le_length (by rw [List.length_take]; omega),
      List.take_take, Nat.min_eq_left (by omega)]
  obtain ⟨h', n', hr, hrel⟩ := removeLoop_own (s := s) (t := t) k ((ps.eraseIdx k).length + 1) (h.set ps[k] none)
    (ps.eraseIdx k) 0 ((ps.eraseIdx k).length - k) (by omega)
    (by
      intro h0
      rcases hc with hc | hc
      · omega
      · rw [set_none_other]
        · exact hs
        · intro e
          obtain ⟨q, e'⟩ := List.getElem?_eq_some_iff.1 hi
          have := (List.getElem_inj nd).1 (e'.trans e)
          omega)
    (by
      intro j h1 h2
      rw [List.getElem?_eraseIdx, if_neg (by omega)]
      intro e
      rcases hc with hc | hc
      · omega
      · obtain ⟨q, e'⟩ := List.getElem?_eq_some_iff.1 hi
        obtain ⟨q', e2⟩ := List.getElem?_eq_some_iff.1 e
        have := (List.getElem_inj nd).1 (e'.trans e2.symm)
        omega) (live_erase hl nd hkl) (nodup_erase nd _)
    (by omega)
    (by
      intro a ha
      rw [hm a (List.mem_of_mem_take ha)]
      rw [etake] at ha
      exact hbefore a ha)
    (by
      intro a ha
      rw [List.drop_of_length_le (by omega)] at ha
      simp at ha)
  refine ⟨h', some (mk (ps.filter (fun a => !matches_ h t a)) n'), ?_, .inr ⟨n', rfl⟩, ?_⟩
  · rw [remove, hfind, ok_bind, if_pos (by omega), hlenv, ok_bind, hk, Int.toNat_natCast,
      removeImpl_mk hkl hl true, ok_bind]
    simp only [if_true]
    rw [← hle, hr, ok_bind]
    dsimp only
    congr 4
    rw [List.filter_congr (fun a ha => by rw [hm a ha])]
    exact filter_eraseIdx hkl (by rw [hxk, hxm]; rfl)
  · refine released_trans released_one hrel ?_
    intro y
    have hmem := mem_eraseIdx_iff_ne nd hkl (y := y)
    by_cases hy : y = ps[k]
    · have : y ∈ ps := hy ▸ List.getElem_mem _
      have h2 : matches_ h t y = true := by rw [hy, hxk, hxm]
      simp [hy]
      rw [← hy]; exact h2
    · simp only [hy, decide_false, Bool.false_or]
      by_cases hyp : y ∈ ps
      · rw [hm y (hmem.2 ⟨hyp, hy⟩)]; simp [hyp, hmem.2 ⟨hyp, hy⟩]
      · simp [hyp, (not_congr hmem).2 (fun e => hyp e.1)]

theorem remove_own_freed {h : Heap} {v : Vec} {ps : List Nat} {s i k : Nat} {t : Str} (hs : h[s]? = some (some t))
    (hv : Holds v ps) (hl : Live h ps) (nd : ps.Nodup) (hi : ps[i]? = some s) (hk : firstIndex (matches_ h t) ps = k)
    (hc : k + 1 < i) : remove h v (some s) true = .error .useAfterFree := by
  have hlenv := length_ok hv
  have hfind := find_ok hs hv hl
  have hip := (List.getElem?_eq_some_iff.1 hi).1
  rcases hv with ⟨rfl, rfl⟩ | ⟨n, rfl⟩
  · simp at hip
  change length (some (mk ps n)) = _ at hlenv
  change find h (some (mk ps n)) _ = _ at hfind
  change remove h (some (mk ps n)) _ _ = _
  have hkl : k < ps.length := by omega
  have hle : (ps.eraseIdx k).length = ps.length - 1 := by
    rw [List.length_eraseIdx, if_pos hkl]
  rw [remove, hfind, ok_bind, if_pos (by omega), hlenv, ok_bind, hk, Int.toNat_natCast, removeImpl_mk hkl hl true, ok_bind]
  simp only [if_true]
  rw [← hle, removeLoop_freed (t := t) k (i - k - 1) (by omega) _ _ _ 0 _ (by omega) ?_ ?_ (by omega) (live_erase hl nd hkl)
    (nodup_erase nd _) (by omega), error_bind]
  · rw [set_none_other]
    · exact hs
    · intro e
      obtain ⟨q, e'⟩ := List.getElem?_eq_some_iff.1 hi
      have := (List.getElem_inj nd).1 (e'.trans e)
      omega
  · rw [List.getElem?_eraseIdx, if_neg (by omega), show k + (i - k - 1) + 1 = i by omega]
    exact hi

end Verif.Strv
