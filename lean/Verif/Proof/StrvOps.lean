import Verif.Proof.Strv

namespace Verif.Strv
open Verif.C Spec

theorem mem_eraseIdx_iff_ne {ps : List Nat} (nd : ps.Nodup) {k : Nat} (hk : k < ps.length) {y : Nat} :
    y ∈ ps.eraseIdx k ↔ y ∈ ps ∧ y ≠ ps[k] := by
  constructor
  · exact mem_eraseIdx_ne nd hk
  · rintro ⟨hyp, hne⟩
    rw [List.mem_eraseIdx_iff_getElem]
    obtain ⟨j, hj, e⟩ := List.getElem_of_mem hyp
    refine ⟨j, hj, ?_, e⟩
    rintro rfl
    exact hne e.symm

theorem removeAt_ok {h : Heap} {v : Vec} {ps : List Nat} (hv : Holds v ps) (hl : Live h ps) (pos : Int) (f : Bool) :
    (0 ≤ pos ∧ pos < ps.length →
      ∃ v', removeAt h v pos f = .ok (if f then h.set (ps[pos.toNat]?.getD 0) none else h, v') ∧
        Holds v' (ps.eraseIdx pos.toNat)) ∧
    (¬ (0 ≤ pos ∧ pos < ps.length) → removeAt h v pos f = .ok (h, v)) := by
  have hlen := length_ok hv
  rcases hv with ⟨rfl, rfl⟩ | ⟨n, rfl⟩
  · constructor
    · rintro ⟨h1, h2⟩
      simp at h2; omega
    · intro _; rfl
  · change length (some (mk ps n)) = _ at hlen
    constructor
    · rintro ⟨h1, h2⟩
      have hp : pos.toNat < ps.length := by omega
      refine ⟨some (mk (ps.eraseIdx pos.toNat) 0), ?_, .inr ⟨0, rfl⟩⟩
      change removeAt h (some (mk ps n)) pos f = _
      rw [removeAt, if_pos h1, hlen, ok_bind, if_pos h2, removeImpl_mk hp hl f, ok_bind]
      dsimp only
      rw [List.getElem?_eq_getElem hp]
      rfl
    · intro hn
      change removeAt h (some (mk ps n)) pos f = _
      rw [removeAt]
      by_cases h1 : pos ≥ 0
      · rw [if_pos h1, hlen, ok_bind, if_neg (by omega)]; rfl
      · rw [if_neg h1]; rfl

theorem remove_ok {h : Heap} {v : Vec} {ps : List Nat} {s : Nat} {t : Str} (hs : h[s]? = some (some t))
    (hv : Holds v ps) (hl : Live h ps) (nd : ps.Nodup) :
    (s ∉ ps → ∃ h' v', remove h v (some s) true = .ok (h', v') ∧ Holds v' (ps.filter (fun a => !matches_ h t a)) ∧
      Released h h' (fun a => decide (a ∈ ps) && matches_ h t a)) ∧
    (∀ i : Nat, firstIndex (matches_ h t) ps = i → ∃ v', remove h v (some s) false =
        .ok (h.set (ps[i]?.getD 0) none, v') ∧ Holds v' (ps.eraseIdx i)) ∧
    (firstIndex (matches_ h t) ps < 0 → remove h v (some s) false = .ok (h, v)) := by
  have hlen := length_ok hv
  have hfind := find_ok hs hv hl
  have hv' := hv
  rcases hv with ⟨rfl, rfl⟩ | ⟨n, rfl⟩
  · refine ⟨fun _ => ⟨h, none, rfl, .inl ⟨rfl, rfl⟩, released_none (by simp)⟩, ?_, fun _ => rfl⟩
    intro i hi
    simp [firstIndex] at hi
  · change length (some (mk ps n)) = _ at hlen
    change find h (some (mk ps n)) _ = _ at hfind
    change (_ → ∃ h' v', remove h (some (mk ps n)) _ _ = _ ∧ _) ∧ (∀ i : Nat, _ → ∃ v', remove h (some (mk ps n)) _ _ = _ ∧ _) ∧ (_ → remove h (some (mk ps n)) _ _ = _)
    have hlt := firstIndex_lt (p := matches_ h t) (l := ps)
    by_cases h0 : firstIndex (matches_ h t) ps < 0
    · refine ⟨fun _ => ⟨h, some (mk ps n), ?_, ?_, ?_⟩, ?_, ?_⟩
      · rw [remove, hfind, ok_bind, if_neg (by omega)]
      · rw [List.filter_eq_self.2 (fun a ha => by simp [firstIndex_neg.1 h0 a ha])]
        exact .inr ⟨n, rfl⟩
      · refine released_none ?_
        intro x
        by_cases hx : x ∈ ps
        · simp [firstIndex_neg.1 h0 x hx]
        · simp [hx]
      · intro i hi; omega
      · intro _
        rw [remove, hfind, ok_bind, if_neg (by omega)]; rfl
    · obtain ⟨k, hk⟩ : ∃ k : Nat, firstIndex (matches_ h t) ps = k := ⟨_, (Int.toNat_of_nonneg (by omega)).symm⟩
      obtain ⟨⟨x, hx, hxm⟩, hbefore⟩ := firstIndex_spec hk
      have hkl : k < ps.length := by omega
      have hxk : ps[k] = x := by
        rw [List.getElem?_eq_getElem hkl] at hx
        exact Option.some.inj hx
      have hle : (ps.eraseIdx k).length = ps.length - 1 := by
        rw [List.length_eraseIdx, if_pos hkl]
      have hm : ∀ a ∈ ps.eraseIdx k, matches_ (h.set ps[k] none) t a = matches_ h t a := by
        intro a ha
        unfold matches_
        rw [set_none_other (mem_eraseIdx_ne nd hkl ha).2]
      have etake : (ps.eraseIdx k).take k = ps.take k := by
        rw [List.eraseIdx_eq_take_drop_succ, List.take_append_of_le_length (by rw [List.length_take]; omega),
          List.take_take, Nat.min_eq_left (by omega)]
      refine ⟨?_, ?_, ?_⟩
      · intro hsp
        obtain ⟨h', n', hr, hrel⟩ := removeLoop_mk (s := s) (t := t) k ((ps.eraseIdx k).length + 1) (h.set ps[k] none)
          (ps.eraseIdx k) 0 ((ps.eraseIdx k).length - k) (by omega)
          (by rw [set_none_other (by rintro rfl; exact hsp (List.getElem_mem _))]; exact hs)
          (fun hh => hsp (List.mem_of_mem_eraseIdx hh)) (live_erase hl nd hkl) (nodup_erase nd _)
          (by omega)
          (by
            intro a ha
            rw [hm a (List.mem_of_mem_take ha)]
            rw [etake] at ha
            exact hbefore a ha)
          (by
            intro a ha
            rw [List.drop_of_length_le (by omega)] at ha
            simp at ha)
        refine ⟨h', some (mk (ps.filter (fun a => !matches_ h t a)) n'), ?_, .inr ⟨n', rfl⟩, ?_⟩
        · rw [remove, hfind, ok_bind, if_pos (by omega), hlen, ok_bind, hk, Int.toNat_natCast,
            removeImpl_mk hkl hl true, ok_bind]
          simp only [if_true]
          rw [← hle, hr, ok_bind]
          dsimp only
          congr 4
          rw [List.filter_congr (fun a ha => by rw [hm a ha])]
          exact filter_eraseIdx hkl (by rw [hxk, hxm]; rfl)
        · refine released_trans released_one hrel ?_
          intro y
          have hmem := mem_eraseIdx_iff_ne nd hkl (y := y)
          by_cases hy : y = ps[k]
          · have : y ∈ ps := hy ▸ List.getElem_mem _
            have h2 : matches_ h t y = true := by rw [hy, hxk, hxm]
            simp [hy]
            rw [← hy]; exact h2
          · simp only [hy, decide_false, Bool.false_or]
            by_cases hyp : y ∈ ps
            · rw [hm y (hmem.2 ⟨hyp, hy⟩)]; simp [hyp, hmem.2 ⟨hyp, hy⟩]
            · simp [hyp, (not_congr hmem).2 (fun e => hyp e.1)]
      · intro i hi
        have hik : i = k := by omega
        subst hik
        refine ⟨some (mk (ps.eraseIdx i) 0), ?_, .inr ⟨0, rfl⟩⟩
        rw [remove, hfind, ok_bind, if_pos (by omega), hlen, ok_bind, hk, Int.toNat_natCast,
          removeImpl_mk hkl hl true, ok_bind, List.getElem?_eq_getElem hkl]
        simp
      · intro hn; omega

/-! ### Duplicates -/

theorem firstsBy_filter {α β : Type} [DecidableEq β] (f : α → β) (c : β) : ∀ l : List α,
    firstsBy f (l.filter (fun y => decide (f y ≠ c))) = (firstsBy f l).filter (fun y => decide (f y ≠ c))
  | [] => rfl
  | x :: t => by
    rw [firstsBy]
    by_cases hx : f x = c
    · rw [List.filter_cons, if_neg (by simp [hx]), firstsBy_filter f c t, List.filter_cons, if_neg (by simp [hx]),
        List.filter_filter]
      congr 1
      funext y
      rw [hx]
      simp
    · rw [List.filter_cons, if_pos (by simp [hx]), firstsBy, firstsBy_filter f c t, List.filter_cons,
        if_pos (by simp [hx]), List.filter_filter, List.filter_filter]
      congr 2
      funext y
      rw [Bool.and_comm]

theorem firstsBy_cons {α β : Type} [DecidableEq β] (f : α → β) (x : α) (t : List α) :
    firstsBy f (x :: t) = x :: firstsBy f (t.filter (fun y => decide (f y ≠ f x))) := by
  rw [firstsBy, firstsBy_filter]

theorem firstsBy_subset {α β : Type} [DecidableEq β] (f : α → β) : ∀ l : List α, (firstsBy f l).Sublist l
  | [] => List.Sublist.slnil
  | x :: t => by
    rw [firstsBy]
    exact List.Sublist.cons_cons x (List.filter_sublist.trans (firstsBy_subset f t))

theorem firstsBy_congr {α β : Type} [DecidableEq β] {f g : α → β} : ∀ {l : List α}, (∀ x ∈ l, f x = g x) →
    firstsBy f l = firstsBy g l
  | [], _ => rfl
  | x :: t, h => by
    rw [firstsBy, firstsBy, firstsBy_congr (fun y hy => h y (by simp [hy])), h x (by simp)]
    congr 1
    refine List.filter_congr (fun y hy => ?_)
    rw [h y (List.mem_cons_of_mem _ ((firstsBy_subset g t).subset hy))]

theorem dupsLoop_mk : ∀ (fuel : Nat) (h : Heap) (ps : List Nat) (n pos l : Nat),
    ps.length - pos < fuel → Live h ps → ps.Nodup → pos ≤ ps.length → pos + l ≤ ps.length →
    (pos < ps.length → 1 ≤ l) →
    (∀ x, ps[pos]? = some x → ∀ a ∈ ps.drop (pos + l), h[a]? ≠ h[x]?) →
    ∃ h' n', dupsLoop fuel h (mk ps n) ps.length pos l =
        .ok (h', mk (ps.take pos ++ firstsBy (fun a => h[a]?) (ps.drop pos)) n') ∧
      Released h h' (fun a => decide (a ∈ ps) &&
        decide (a ∉ ps.take pos ++ firstsBy (fun a => h[a]?) (ps.drop pos)))
  | 0, _, _, _, _, _, hf, _, _, _, _, _, _ => by omega
  | fuel + 1, h, ps, n, pos, l, hf, hl, nd, hpos, hpl, hl1, hpost => by
    rw [dupsLoop]
    by_cases hlt : pos < ps.length
    · rw [if_pos hlt, deref_mk ps n pos hlt, ok_bind]
      obtain ⟨t, ht⟩ := hl ps[pos] (List.getElem_mem _)
      rw [findLastImpl_mk ht ps n (pos + 1) hl (l - 1) (by have := hl1 hlt; omega), ok_bind]
      have hl1 := hl1 hlt
      have hge := lastIndex_ge (p := matches_ h t) (l := (ps.drop (pos + 1)).take (l - 1))
      have hdrop : ps.drop pos = ps[pos] :: ps.drop (pos + 1) := List.drop_eq_getElem_cons hlt
      have hpost' := hpost ps[pos] (List.getElem?_eq_getElem hlt)
      rw [ht] at hpost'
      by_cases h0 : lastIndex (matches_ h t) ((ps.drop (pos + 1)).take (l - 1)) < 0
      · rw [if_pos h0]
        obtain ⟨h', n', hr, hrel⟩ := dupsLoop_mk fuel h ps n (pos + 1) (ps.length - (pos + 1)) (by omega) hl nd
          (by omega) (by omega) (by omega)
          (by intro x _ a ha; rw [List.drop_of_length_le (by omega)] at ha; simp at ha)
        have hno : ∀ a ∈ ps.drop (pos + 1), h[a]? ≠ h[ps[pos]]? := by
          intro a ha
          rw [ht]
          rw [← List.take_append_drop (l - 1) (ps.drop (pos + 1)), List.mem_append, List.drop_drop] at ha
          rcases ha with ha | ha
          · simpa [matches_] using lastIndex_neg.1 h0 a ha
          · rw [show pos + 1 + (l - 1) = pos + l by omega] at ha
            exact hpost' a ha
        have e : ps.take (pos + 1) ++ firstsBy (fun a => h[a]?) (ps.drop (pos + 1)) =
            ps.take pos ++ firstsBy (fun a => h[a]?) (ps.drop pos) := by
          rw [hdrop, firstsBy_cons, List.filter_eq_self.2 (fun a ha => by simpa using hno a ha),
            List.take_succ_eq_append_getElem hlt, List.append_assoc]
          rfl
        rw [e] at hr hrel
        exact ⟨h', n', hr, hrel⟩
      · rw [if_neg h0]
        obtain ⟨i, hi⟩ : ∃ i : Nat, lastIndex (matches_ h t) ((ps.drop (pos + 1)).take (l - 1)) = i :=
          ⟨_, (Int.toNat_of_nonneg (by omega)).symm⟩
        obtain ⟨⟨x, hx, hxm⟩, hafter⟩ := lastIndex_spec hi
        rw [hi, Int.toNat_natCast]
        have hil : i < l - 1 := by
          have := (List.getElem?_eq_some_iff.1 hx).1
          rw [List.length_take] at this
          omega
        have hk : pos + 1 + i < ps.length := by omega
        have hxk : ps[pos + 1 + i] = x := by
          rw [List.getElem?_take, if_pos hil, List.getElem?_drop, List.getElem?_eq_getElem hk] at hx
          exact Option.some.inj hx
        have hval : h[ps[pos + 1 + i]]? = h[ps[pos]]? := by
          rw [hxk, ht]
          simpa [matches_] using hxm
        rw [removeImpl_mk hk hl true, ok_bind]
        simp only [if_true]
        have hlen : (ps.eraseIdx (pos + 1 + i)).length = ps.length - 1 := by
          rw [List.length_eraseIdx, if_pos hk]
        rw [← hlen]
        have hm : ∀ a ∈ ps.eraseIdx (pos + 1 + i), (h.set ps[pos + 1 + i] none)[a]? = h[a]? :=
          fun a ha => set_none_other (mem_eraseIdx_ne nd hk ha).2
        have eat : (ps.eraseIdx (pos + 1 + i))[pos]? = some ps[pos] := by
          rw [List.getElem?_eraseIdx, if_pos (by omega), List.getElem?_eq_getElem hlt]
        have etake : (ps.eraseIdx (pos + 1 + i)).take pos = ps.take pos := by
          rw [List.eraseIdx_eq_take_drop_succ, List.take_append_of_le_length (by rw [List.length_take]; omega),
            List.take_take, Nat.min_eq_left (by omega)]
        have edrop : (ps.eraseIdx (pos + 1 + i)).drop (pos + (i + 1)) = ps.drop (pos + i + 2) := by
          rw [List.eraseIdx_eq_take_drop_succ, List.drop_append_of_le_length (by rw [List.length_take]; omega),
            List.drop_of_length_le (by rw [List.length_take]; omega)]
          simp
          congr 1; omega
        have edrop2 : (ps.eraseIdx (pos + 1 + i)).drop pos = ps[pos] :: (ps.drop (pos + 1)).eraseIdx i := by
          have h1 : pos < (ps.eraseIdx (pos + 1 + i)).length := by omega
          rw [List.drop_eq_getElem_cons h1]
          congr 1
          · rw [List.getElem?_eq_getElem h1] at eat
            exact Option.some.inj eat
          · rw [List.eraseIdx_eq_take_drop_succ, List.eraseIdx_eq_take_drop_succ,
              List.drop_append_of_le_length (by rw [List.length_take]; omega), List.drop_take, List.drop_drop]
            congr 2
            omega
        obtain ⟨h', n', hr, hrel⟩ := dupsLoop_mk fuel (h.set ps[pos + 1 + i] none) (ps.eraseIdx (pos + 1 + i)) 0 pos
          (i + 1) (by omega) (live_erase hl nd hk) (nodup_erase nd _) (by omega) (by omega) (by omega)
          (by
            intro y hy a ha
            rw [eat] at hy
            cases hy
            rw [hm a (List.mem_of_mem_drop ha), hm ps[pos] (List.mem_of_getElem? eat), ht]
            rw [edrop] at ha
            have ha' : a ∈ (ps.drop (pos + 1)).drop (i + 1) := by
              rw [List.drop_drop]
              rw [show pos + 1 + (i + 1) = pos + i + 2 by omega]
              exact ha
            rw [← List.take_append_drop (l - 1) (ps.drop (pos + 1)), List.drop_append_of_le_length
              (by rw [List.length_take, List.length_drop]; omega), List.mem_append] at ha'
            rcases ha' with ha' | ha'
            · simpa [matches_] using hafter a ha'
            · rw [List.drop_drop, show pos + 1 + (l - 1) = pos + l by omega] at ha'
              exact hpost' a ha')
        have hkd : i < (ps.drop (pos + 1)).length := by rw [List.length_drop]; omega
        have efirst : firstsBy (fun a => (h.set ps[pos + 1 + i] none)[a]?) ((ps.eraseIdx (pos + 1 + i)).drop pos) =
            firstsBy (fun a => h[a]?) (ps.drop pos) := by
          rw [firstsBy_congr (g := fun a => h[a]?) (fun a ha => hm a (List.mem_of_mem_drop ha)), edrop2, hdrop,
            firstsBy_cons, firstsBy_cons, filter_eraseIdx hkd]
          rw [List.getElem_drop]
          simpa using hval
        rw [efirst, etake] at hr hrel
        refine ⟨h', n', hr, ?_⟩
        refine released_trans released_one hrel ?_
        intro y
        have hmem := mem_eraseIdx_iff_ne nd hk (y := y)
        by_cases hy : y = ps[pos + 1 + i]
        · have hyp : y ∈ ps := hy ▸ List.getElem_mem _
          have hnot : y ∉ ps.take pos ++ firstsBy (fun a => h[a]?) (ps.drop pos) := by
            rw [← efirst, ← etake, List.mem_append]
            rintro (hin | hin)
            · exact (hmem.1 (List.mem_of_mem_take hin)).2 hy
            · exact (hmem.1 (List.mem_of_mem_drop ((firstsBy_subset _ _).subset hin))).2 hy
          simp only [hyp, hnot, decide_true, not_false_eq_true, Bool.and_self]
          simp [hy]
        · by_cases hyp : y ∈ ps
          · simp [hy, hyp, hmem.2 ⟨hyp, hy⟩]
          · simp [hy, hyp, (not_congr hmem).2 (fun e => hyp e.1)]
    · rw [if_neg hlt]
      have e : ps.take pos ++ firstsBy (fun a => h[a]?) (ps.drop pos) = ps := by
        rw [List.drop_of_length_le (by omega), List.take_of_length_le (by omega)]
        simp [firstsBy]
      rw [e]
      refine ⟨h, n, rfl, released_none ?_⟩
      intro x
      by_cases hx : x ∈ ps <;> simp [hx]

theorem removeDups_ok {h : Heap} {v : Vec} {ps : List Nat} (hv : Holds v ps) (hl : Live h ps) (nd : ps.Nodup) :
    ∃ h' v', removeDups h v = .ok (h', v') ∧ Holds v' (firstsBy (fun a => h[a]?) ps) ∧
      Released h h' (fun a => decide (a ∈ ps) && decide (a ∉ firstsBy (fun a => h[a]?) ps)) := by
  have hlen := length_ok hv
  rcases hv with ⟨rfl, rfl⟩ | ⟨n, rfl⟩
  · exact ⟨h, none, rfl, .inl ⟨rfl, rfl⟩, released_none (by simp)⟩
  · change length (some (mk ps n)) = _ at hlen
    obtain ⟨h', n', hr, hrel⟩ := dupsLoop_mk (ps.length + 1) h ps n 0 ps.length (by omega) hl nd (by omega) (by omega)
      (by omega) (by intro x _ a ha; rw [List.drop_of_length_le (by omega)] at ha; simp at ha)
    simp only [List.take_zero, List.nil_append, List.drop_zero] at hr hrel
    refine ⟨h', some (mk (firstsBy (fun a => h[a]?) ps) n'), ?_, .inr ⟨n', rfl⟩, hrel⟩
    change removeDups h (some (mk ps n)) = _
    rw [removeDups, hlen, ok_bind, hr, ok_bind]

/-! ### Access -/

theorem atLoop_mk : ∀ (ps : List Nat) (n i : Nat), atLoop (mk ps n) i = .ok ps[i]?
  | [], n, 0 => rfl
  | [], n, i + 1 => rfl
  | a :: ps, n, 0 => rfl
  | a :: ps, n, i + 1 => by
    rw [mk_cons, atLoop, deref_zero, load, ok_bind]
    simp only [Option.isSome_some, if_true, List.drop_one, List.tail_cons]
    rw [atLoop_mk ps n i]
    simp

theorem at_ok {v : Vec} {ps : List Nat} (hv : Holds v ps) (i : Nat) : at_ v i = .ok ps[i]? := by
  rcases hv with ⟨rfl, rfl⟩ | ⟨n, rfl⟩
  · simp [at_]
  · exact atLoop_mk ps n i

theorem lastLoop_mk : ∀ (a : Nat) (ps : List Nat) (n : Nat), lastLoop (mk (a :: ps) n) = .ok (a :: ps).getLast?
  | a, [], n => rfl
  | a, b :: ps, n => by
    rw [mk_cons, lastLoop, mk_cons, deref_zero, load, ok_bind]
    simp only [Option.isSome_some, if_true]
    rw [← mk_cons, lastLoop_mk b ps n, List.getLast?_cons_cons]

theorem last_ok {v : Vec} {ps : List Nat} (hv : Holds v ps) : last v = .ok ps.getLast? := by
  rcases hv with ⟨rfl, rfl⟩ | ⟨n, rfl⟩
  · rfl
  · rcases ps with _ | ⟨a, ps⟩
    · rfl
    · show last (some (mk (a :: ps) n)) = _
      rw [last, mk_cons, deref_zero, load, ok_bind, ← mk_cons]
      exact lastLoop_mk a ps n

theorem findLast_ok {h : Heap} {v : Vec} {ps : List Nat} {s : Nat} {t : Str} (hs : h[s]? = some (some t)) (hv : Holds v ps)
    (hl : Live h ps) : findLast h v (some s) = .ok (lastIndex (matches_ h t) ps) := by
  rw [findLast, length_ok hv, ok_bind]
  rcases hv with ⟨rfl, rfl⟩ | ⟨n, rfl⟩
  · rfl
  · refine (findLastImpl_mk hs ps n 0 hl ps.length (by omega)).trans ?_
    simp

/-! ### Addition -/

theorem renew_holds {v : Vec} {ps : List Nat} (hv : Holds v ps) (k : Nat) (hk : 0 < k) :
    ∃ c rest, renew v (ps.length + k) = ps.map Cell.ptr ++ c :: rest ∧ rest.length = k - 1 := by
  have key : ∃ rest, renew v (ps.length + k) = ps.map Cell.ptr ++ rest ∧ rest.length = k := by
    rcases hv with ⟨rfl, rfl⟩ | ⟨n, rfl⟩
    · exact ⟨List.replicate k .uninit, by simp [renew], by simp⟩
    · refine ⟨(.null :: List.replicate n .uninit).take k ++
        List.replicate (ps.length + k - (mk ps n).length) .uninit, ?_, ?_⟩
      · simp only [renew, Option.getD_some]
        rw [List.take_append]
        simp only [List.length_map, Nat.add_sub_cancel_left]
        rw [List.take_of_length_le (by simp), List.append_assoc]
        rfl
      · rw [List.length_append, List.length_take, List.length_replicate, mk_length]
        simp only [List.length_cons, List.length_replicate]
        omega
  obtain ⟨rest, h1, h2⟩ := key
  rcases rest with _ | ⟨c, rest⟩
  · simp at h2; omega
  · exact ⟨c, rest, h1, by simp at h2; omega⟩

theorem store_at (ps : List Nat) (c : Cell) (rest : Block) (p : Option Nat) :
    store (ps.map Cell.ptr ++ c :: rest) ps.length p =
      .ok (ps.map Cell.ptr ++ (match p with | none => .null | some a => .ptr a) :: rest) := by
  have key : ∀ x, wr (ps.map Cell.ptr ++ c :: rest) ps.length x = .ok (ps.map Cell.ptr ++ x :: rest) := by
    intro x
    rw [wr_ok _ (by simp)]
    congr 1
    rw [List.set_append_right _ _ (by simp)]
    simp
  cases p with
  | none => exact key _
  | some a => exact key _

theorem strdup_ok {h : Heap} {s : Nat} {t : Str} (e : h[s]? = some (some t)) :
    strdup h s = .ok (h ++ [some t], h.length) := by
  rw [strdup, str_ok e, ok_bind]

theorem add_ok {h : Heap} {v : Vec} {ps : List Nat} {s : Nat} {t : Str} (e : h[s]? = some (some t)) (hv : Holds v ps) :
    ∃ v', add h v (some s) = .ok (h ++ [some t], v') ∧ Holds v' (ps ++ [h.length]) := by
  obtain ⟨c, rest, h1, h2⟩ := renew_holds hv 2 (by omega)
  rcases rest with _ | ⟨d, _ | ⟨e, rest⟩⟩
  · simp at h2
  · refine ⟨some (mk (ps ++ [h.length]) 0), ?_, .inr ⟨0, rfl⟩⟩
    rw [add, length_ok hv, ok_bind]
    dsimp only
    rw [strdup_ok e, ok_bind]
    dsimp only
    rw [h1, store_at, ok_bind]
    dsimp only
    have := store_at (ps ++ [h.length]) d [] none
    simp only [List.map_append, List.map_cons, List.map_nil, List.append_assoc, List.cons_append, List.nil_append,
      List.length_append, List.length_cons, List.length_nil] at this
    rw [this, ok_bind]
    simp [mk]
  · simp at h2

/-- The heap and the addresses after copying the strings. -/
theorem addvLoop_ok : ∀ (args : List Nat) (h : Heap) (ps : List Nat) (rest : Block) (ts : List Str),
    args.map (fun a => h[a]?) = ts.map (fun s => some (some s)) → rest.length = args.length + 1 →
    ∃ c, addvLoop h (ps.map Cell.ptr ++ rest) ps.length args =
      .ok (h ++ ts.map some, (ps ++ List.range' h.length args.length).map Cell.ptr ++ [c],
        ps.length + args.length)
  | [], h, ps, rest, ts, hs, hr => by
    rcases rest with _ | ⟨c, _ | ⟨d, rest⟩⟩
    · simp at hr
    · refine ⟨c, ?_⟩
      have : ts = [] := by simpa using hs.symm
      subst this
      simp [addvLoop]
    · simp at hr
  | s :: args, h, ps, rest, ts, hs, hr => by
    rcases ts with _ | ⟨t, ts⟩
    · simp at hs
    · rcases rest with _ | ⟨c, rest⟩
      · simp at hr
      · simp only [List.map_cons, List.cons.injEq] at hs
        obtain ⟨c', ih⟩ := addvLoop_ok args (h ++ [some t]) (ps ++ [h.length]) rest ts
          (by
            rw [← hs.2]
            refine List.map_congr_left ?_
            intro a ha
            have hlt : a < h.length := by
              have hm : h[a]? ∈ ts.map (fun s => some (some s)) := by
                rw [← hs.2]; exact List.mem_map_of_mem ha
              obtain ⟨x, -, hx⟩ := List.mem_map.1 hm
              exact (List.getElem?_eq_some_iff.1 hx.symm).1
            rw [List.getElem?_append_left hlt])
          (by simpa using hr)
        refine ⟨c', ?_⟩
        rw [addvLoop, strdup_ok hs.1, ok_bind]
        dsimp only
        rw [store_at, ok_bind]
        dsimp only
        simp only [List.map_append, List.map_cons, List.map_nil, List.append_assoc, List.cons_append, List.nil_append,
          List.length_append, List.length_cons, List.length_nil] at ih
        rw [ih, List.length_cons, List.range'_succ]
        simp only [List.map_append, List.map_cons, List.append_assoc, List.cons_append]
        congr 3
        omega

theorem addv_ok {h : Heap} {v : Vec} {ps : List Nat} {s : Nat} {t : Str} {args : List Nat} {ts : List Str}
    (e : h[s]? = some (some t)) (ea : args.map (fun a => h[a]?) = ts.map (fun s => some (some s))) (hv : Holds v ps) :
    ∃ v', addv h v (some s) args = .ok (h ++ (t :: ts).map some, v') ∧
      Holds v' (ps ++ List.range' h.length (args.length + 1)) := by
  obtain ⟨c, rest, h1, h2⟩ := renew_holds hv (args.length + 2) (by omega)
  have hlt : ∀ a ∈ args, a < h.length := by
    intro a ha
    have hm : h[a]? ∈ ts.map (fun s => some (some s)) := by
      rw [← ea]; exact List.mem_map_of_mem ha
    obtain ⟨x, -, hx⟩ := List.mem_map.1 hm
    exact (List.getElem?_eq_some_iff.1 hx.symm).1
  obtain ⟨c', ih⟩ := addvLoop_ok args (h ++ [some t]) (ps ++ [h.length]) rest ts
    (by
      rw [← ea]
      exact List.map_congr_left (fun a ha => List.getElem?_append_left (hlt a ha)))
    (by omega)
  refine ⟨some (mk (ps ++ List.range' h.length (args.length + 1)) 0), ?_, .inr ⟨0, rfl⟩⟩
  rw [addv, length_ok hv, ok_bind]
  dsimp only
  rw [show ps.length + (1 + args.length) + 1 = ps.length + (args.length + 2) by omega, strdup_ok e, ok_bind]
  dsimp only
  rw [h1, store_at, ok_bind]
  dsimp only
  have el : ps.map Cell.ptr ++ Cell.ptr h.length :: rest = (ps ++ [h.length]).map Cell.ptr ++ rest := by simp
  have el2 : ps.length + 1 = (ps ++ [h.length]).length := by simp
  rw [el, el2, ih, ok_bind]
  dsimp only
  have el3 : (ps ++ [h.length]).length + args.length =
      (ps ++ [h.length] ++ List.range' (h ++ [some t]).length args.length).length := by
    rw [List.length_append (bs := List.range' _ _), List.length_range']
  rw [el3, store_at, ok_bind]
  dsimp only
  have el4 : ps ++ [h.length] ++ List.range' (h ++ [some t]).length args.length =
      ps ++ List.range' h.length (args.length + 1) := by
    rw [List.range'_succ, List.append_assoc, List.length_append]
    rfl
  rw [el4]
  simp [mk]

/-! ### Equality -/

theorem equalLen_mk : ∀ (ps qs : List Nat) (n m k : Nat),
    equalLen (mk ps n) (mk qs m) k = .ok (if ps.length = qs.length then some (k + ps.length) else none)
  | [], [], n, m, k => rfl
  | [], b :: qs, n, m, k => rfl
  | a :: ps, [], n, m, k => rfl
  | a :: ps, b :: qs, n, m, k => by
    rw [mk_cons, mk_cons, equalLen, load, ok_bind, deref_zero, load, ok_bind]
    simp only [Option.isSome_some, if_true, List.drop_one, List.tail_cons]
    rw [equalLen_mk ps qs n m (k + 1)]
    simp only [List.length_cons, Nat.add_right_cancel_iff]
    congr 2
    congr 1
    omega

theorem equalLoop_mk {h : Heap} (ps qs : List Nat) (n m : Nat) (hp : Live h ps) (hq : Live h qs)
    (hlen : ps.length = qs.length) : ∀ k, k ≤ ps.length →
    equalLoop h (mk ps n) (mk qs m) ps.length k =
      .ok (decide ((ps.drop (ps.length - k)).map (fun a => h[a]?) = (qs.drop (ps.length - k)).map (fun a => h[a]?)))
  | 0, _ => by
    rw [equalLoop, List.drop_of_length_le (by omega), List.drop_of_length_le (by omega)]
    simp
  | k + 1, hk => by
    have h1 : ps.length - (k + 1) < ps.length := by omega
    have h2 : ps.length - (k + 1) < qs.length := by omega
    rw [equalLoop, deref_mk ps n _ h1, ok_bind, deref_mk qs m _ h2, ok_bind]
    obtain ⟨x, hx⟩ := hp _ (List.getElem_mem h1)
    obtain ⟨y, hy⟩ := hq _ (List.getElem_mem h2)
    rw [strcmp_ok hx hy, ok_bind, List.drop_eq_getElem_cons h1, List.drop_eq_getElem_cons h2]
    simp only [List.map_cons, hx, hy, List.cons.injEq, Option.some.injEq]
    rw [show ps.length - (k + 1) + 1 = ps.length - k by omega]
    by_cases e : x = y
    · rw [if_neg (by simpa using (cmpBytes_eq_zero x y).2 e), equalLoop_mk ps qs n m hp hq hlen k (by omega)]
      simp [e]
    · rw [if_pos (fun e' => e ((cmpBytes_eq_zero x y).1 e'))]
      simp [e]

theorem equal_ok {h : Heap} {v w : Vec} {ps qs : List Nat} (hv : Holds v ps) (hw : Holds w qs) (hp : Live h ps)
    (hq : Live h qs) (same : Bool) (hsame : same = true → v = w) :
    equal h same v w = .ok (decide (ps.map (fun a => h[a]?) = qs.map (fun a => h[a]?))) := by
  cases same with
  | true =>
    have : ps = qs := by
      have e := hsame rfl
      subst e
      rcases hv with ⟨rfl, rfl⟩ | ⟨n, rfl⟩
      · rcases hw with ⟨-, rfl⟩ | ⟨m, hm⟩
        · rfl
        · cases hm
      · rcases hw with ⟨hm, -⟩ | ⟨m, hm⟩
        · cases hm
        · have hl1 := lengthLoop_mk ps n 0
          have e : mk ps n = mk qs m := Option.some.inj hm
          rw [e, lengthLoop_mk] at hl1
          have hl : qs.length = ps.length := by
            have := Except.ok.inj hl1; omega
          have e2 : (mk ps n).take ps.length = (mk qs m).take ps.length := by rw [e]
          rw [take_map_ptr ps n _ (by omega), take_map_ptr qs m _ (by omega), List.take_of_length_le (by omega),
            List.take_of_length_le (by omega)] at e2
          exact (List.map_inj_right (fun a b e => by cases e; rfl)).1 e2
    subst this
    simp [equal]
  | false =>
    rcases hv with ⟨rfl, rfl⟩ | ⟨n, rfl⟩
    · rcases hw with ⟨rfl, rfl⟩ | ⟨m, rfl⟩
      · simp [equal]
      · rcases qs with _ | ⟨b, qs⟩
        · rfl
        · rfl
    · rcases hw with ⟨rfl, rfl⟩ | ⟨m, rfl⟩
      · rcases ps with _ | ⟨b, ps⟩
        · rfl
        · rfl
      · show equal h false (some (mk ps n)) (some (mk qs m)) = _
        rw [equal, if_neg (by simp), equalLen_mk, ok_bind]
        by_cases hl : ps.length = qs.length
        · simp only [hl, if_true, Nat.zero_add]
          have := equalLoop_mk ps qs n m hp hq hl ps.length (by omega)
          rw [hl] at this
          rw [this]
          simp
        · simp only [hl, if_false]
          rw [decide_eq_false]
          intro e
          have := congrArg List.length e
          simp at this
          exact hl this

/-! ### Strip -/

theorem stripLoop_mk : ∀ (ps : List Nat) (n : Nat) (h : Heap), Live h ps → ps.Nodup →
    ∃ h', stripLoop h (mk ps n) = .ok h' ∧ h'.length = h.length ∧
      (∀ a, a ∉ ps → h'[a]? = h[a]?) ∧
      (∀ a s, a ∈ ps → h[a]? = some (some s) → h'[a]? = some (some (chomp (chug s))))
  | [], n, h, _, _ => ⟨h, rfl, rfl, by simp, by simp⟩
  | a :: ps, n, h, hl, nd => by
    rw [List.nodup_cons] at nd
    obtain ⟨s, hs⟩ := hl a (by simp)
    have hlt := (List.getElem?_eq_some_iff.1 hs).1
    obtain ⟨h', hr, h1, h2, h3⟩ := stripLoop_mk ps n (h.set a (some (chomp (chug s))))
      (by
        intro b hb
        rw [List.getElem?_set_ne (by rintro rfl; exact nd.1 hb)]
        exact hl b (by simp [hb])) nd.2
    refine ⟨h', ?_, by simpa using h1, ?_, ?_⟩
    · rw [mk_cons, stripLoop, load, ok_bind]
      dsimp only
      rw [str_ok hs, ok_bind, hr]
    · intro b hb
      simp only [List.mem_cons, not_or] at hb
      rw [h2 b hb.2, List.getElem?_set_ne (fun e => hb.1 e.symm)]
    · intro b x hb hx
      by_cases e : b = a
      · subst e
        rw [h2 b nd.1, List.getElem?_set_self hlt]
        rw [hs] at hx
        cases hx
        rfl
      · have hb : b ∈ ps := by simpa [e] using hb
        exact h3 b x hb (by rw [List.getElem?_set_ne (fun e' => e e'.symm)]; exact hx)

theorem asciiIsSpace_eq : asciiIsSpace = isSpace := by
  funext b
  unfold asciiIsSpace isSpace
  rw [Bool.eq_iff_iff]
  simp [or_assoc]

theorem chomp_chug (s : Str) : chomp (chug s) = Spec.strip s := by
  unfold chomp chug Spec.strip
  rw [asciiIsSpace_eq]

end Verif.Strv
