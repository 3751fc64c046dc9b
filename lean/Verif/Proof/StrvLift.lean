import Verif.Proof.StrvSort

/-! Lemmas carrying facts about addresses over to strings. -/

namespace Verif.Strv
open Verif.C Spec

theorem strings_nil {h : Heap} {ss : List Str} : Strings h [] ss ↔ ss = [] := by
  cases ss <;> simp [Strings]

theorem strings_cons {h : Heap} {a : Nat} {ps : List Nat} {ss : List Str} (H : Strings h (a :: ps) ss) :
    ∃ s ss', ss = s :: ss' ∧ h[a]? = some (some s) ∧ Strings h ps ss' := by
  cases ss with
  | nil => simp [Strings] at H
  | cons s ss' =>
    simp only [Strings, List.map_cons, List.cons.injEq] at H
    exact ⟨s, ss', rfl, H.1, H.2⟩

theorem strings_mk {h : Heap} {a : Nat} {s : Str} {ps : List Nat} {ss : List Str} (e : h[a]? = some (some s))
    (H : Strings h ps ss) : Strings h (a :: ps) (s :: ss) := by
  simp only [Strings, List.map_cons, List.cons.injEq]
  exact ⟨e, H⟩

theorem strings_length {h : Heap} {ps : List Nat} {ss : List Str} (H : Strings h ps ss) : ps.length = ss.length := by
  have := congrArg List.length H
  simpa using this

theorem strings_live {h : Heap} : ∀ {ps : List Nat} {ss : List Str}, Strings h ps ss → Live h ps
  | [], _, _ => by simp [Live]
  | a :: ps, ss, H => by
    obtain ⟨s, ss', rfl, e, H'⟩ := strings_cons H
    intro b hb
    rcases List.mem_cons.1 hb with rfl | hb
    · exact ⟨s, e⟩
    · exact strings_live H' b hb

theorem live_strings {h : Heap} : ∀ {ps : List Nat}, Live h ps → ∃ ss, Strings h ps ss
  | [], _ => ⟨[], rfl⟩
  | a :: ps, H => by
    obtain ⟨s, hs⟩ := H a (by simp)
    obtain ⟨ss, hss⟩ := live_strings (fun b hb => H b (List.mem_cons_of_mem _ hb))
    exact ⟨s :: ss, strings_mk hs hss⟩

theorem strings_getElem? {h : Heap} : ∀ {ps : List Nat} {ss : List Str} {i : Nat} {a : Nat}, Strings h ps ss →
    ps[i]? = some a → ∃ s, ss[i]? = some s ∧ h[a]? = some (some s)
  | [], _, _, _, _, e => by simp at e
  | b :: ps, ss, i, a, H, e => by
    obtain ⟨s, ss', rfl, eb, H'⟩ := strings_cons H
    cases i with
    | zero =>
      simp only [List.getElem?_cons_zero, Option.some.injEq] at e
      subst e
      exact ⟨s, rfl, eb⟩
    | succ i => simpa using strings_getElem? H' (by simpa using e)

theorem matches_iff {h : Heap} {t s : Str} {a : Nat} (e : h[a]? = some (some s)) : matches_ h t a = decide (s = t) := by
  unfold matches_
  rw [e]
  simp

theorem strings_firstIndex {h : Heap} {t : Str} : ∀ {ps : List Nat} {ss : List Str}, Strings h ps ss →
    firstIndex (matches_ h t) ps = firstIndex (fun s => decide (s = t)) ss
  | [], ss, H => by rw [strings_nil.1 H]; rfl
  | a :: ps, ss, H => by
    obtain ⟨s, ss', rfl, e, H'⟩ := strings_cons H
    rw [firstIndex, firstIndex, strings_firstIndex H', matches_iff e]

theorem strings_lastIndex {h : Heap} {t : Str} : ∀ {ps : List Nat} {ss : List Str}, Strings h ps ss →
    lastIndex (matches_ h t) ps = lastIndex (fun s => decide (s = t)) ss
  | [], ss, H => by rw [strings_nil.1 H]; rfl
  | a :: ps, ss, H => by
    obtain ⟨s, ss', rfl, e, H'⟩ := strings_cons H
    rw [lastIndex, lastIndex, strings_lastIndex H', matches_iff e]

theorem strings_eraseIdx {h : Heap} : ∀ {ps : List Nat} {ss : List Str} {i : Nat}, Strings h ps ss →
    Strings h (ps.eraseIdx i) (ss.eraseIdx i)
  | [], ss, i, H => by rw [strings_nil.1 H]; rfl
  | a :: ps, ss, i, H => by
    obtain ⟨s, ss', rfl, e, H'⟩ := strings_cons H
    cases i with
    | zero => exact H'
    | succ i => exact strings_mk e (strings_eraseIdx H')

theorem strings_filter {h : Heap} {t : Str} : ∀ {ps : List Nat} {ss : List Str}, Strings h ps ss →
    Strings h (ps.filter (fun a => !matches_ h t a)) (ss.filter (fun s => decide (s ≠ t)))
  | [], ss, H => by rw [strings_nil.1 H]; rfl
  | a :: ps, ss, H => by
    obtain ⟨s, ss', rfl, e, H'⟩ := strings_cons H
    by_cases es : s = t
    · rw [List.filter_cons, if_neg (by rw [matches_iff e]; simp [es]), List.filter_cons, if_neg (by simp [es])]
      exact strings_filter H'
    · rw [List.filter_cons, if_pos (by rw [matches_iff e]; simp [es]), List.filter_cons, if_pos (by simp [es])]
      exact strings_mk e (strings_filter H')

theorem strings_filter_ne {h : Heap} {t : Str} {a : Nat} (ea : h[a]? = some (some t)) : ∀ {ps : List Nat} {ss : List Str},
    Strings h ps ss →
    Strings h (ps.filter (fun y => decide (h[y]? ≠ h[a]?))) (ss.filter (fun s => decide (s ≠ t)))
  | [], ss, H => by rw [strings_nil.1 H]; rfl
  | b :: ps, ss, H => by
    obtain ⟨s, ss', rfl, e, H'⟩ := strings_cons H
    by_cases es : s = t
    · rw [List.filter_cons, if_neg (by rw [e, ea]; simp [es]), List.filter_cons, if_neg (by simp [es])]
      exact strings_filter_ne ea H'
    · rw [List.filter_cons, if_pos (by rw [e, ea]; simp [es]), List.filter_cons, if_pos (by simp [es])]
      exact strings_mk e (strings_filter_ne ea H')

theorem strings_firsts {h : Heap} : ∀ {ps : List Nat} {ss : List Str}, Strings h ps ss →
    Strings h (firstsBy (fun a => h[a]?) ps) (firstsBy (fun s => s) ss)
  | [], ss, H => by rw [strings_nil.1 H]; rfl
  | a :: ps, ss, H => by
    obtain ⟨s, ss', rfl, e, H'⟩ := strings_cons H
    rw [firstsBy, firstsBy]
    exact strings_mk e (strings_filter_ne e (strings_firsts H'))

theorem strings_keep {h h' : Heap} : ∀ {ps : List Nat} {ss : List Str}, (∀ a ∈ ps, h'[a]? = h[a]?) → Strings h ps ss →
    Strings h' ps ss := by
  intro ps ss hk H
  unfold Strings at *
  rw [← H]
  exact List.map_congr_left hk

theorem strings_released {h h' : Heap} {p : Nat → Bool} {ps : List Nat} {ss : List Str} (r : Released h h' p)
    (hp : ∀ a ∈ ps, p a = false) (H : Strings h ps ss) : Strings h' ps ss := by
  refine strings_keep (fun a ha => ?_) H
  obtain ⟨s, hs⟩ := strings_live H a ha
  rw [released_keeps r hs (hp a ha), hs]

theorem strings_append {h : Heap} {ps qs : List Nat} {ss ts : List Str} (H : Strings h ps ss) (H' : Strings h qs ts) :
    Strings h (ps ++ qs) (ss ++ ts) := by
  unfold Strings at *
  rw [List.map_append, List.map_append, H, H']

theorem strings_new (h : Heap) : ∀ ts : List Str, Strings (h ++ ts.map some) (List.range' h.length ts.length) ts := by
  intro ts
  unfold Strings
  refine List.ext_getElem (by simp) ?_
  intro i hi hi'
  simp at hi hi'
  simp [hi']

theorem strings_extend {h : Heap} (g : Heap) {ps : List Nat} {ss : List Str} (H : Strings h ps ss) :
    Strings (h ++ g) ps ss := by
  refine strings_keep (fun a ha => ?_) H
  obtain ⟨s, hs⟩ := strings_live H a ha
  exact List.getElem?_append_left (List.getElem?_eq_some_iff.1 hs).1

theorem firstIndex_erase {t : Str} : ∀ {ss : List Str} {i : Nat}, firstIndex (fun s => decide (s = t)) ss = i →
    ss.erase t = ss.eraseIdx i
  | [], i, h => by simp [firstIndex] at h
  | s :: ss, i, h => by
    rw [firstIndex] at h
    by_cases e : s = t
    · subst e
      simp at h
      have : i = 0 := by omega
      subst this
      simp
    · rw [if_neg (by simpa using e)] at h
      split at h
      · omega
      · rename_i h0
        obtain ⟨k, rfl⟩ : ∃ k, i = k + 1 := ⟨i - 1, by omega⟩
        rw [List.erase_cons, if_neg (by simpa using e), List.eraseIdx_cons_succ, firstIndex_erase (i := k) (by omega)]

theorem firstIndex_absent {t : Str} {ss : List Str} (h : firstIndex (fun s => decide (s = t)) ss < 0) : t ∉ ss := by
  intro ht
  have := firstIndex_neg.1 h t ht
  simp at this

theorem sorted_strings {h : Heap} {asc : Bool} : ∀ {ps : List Nat} {ss : List Str}, Strings h ps ss →
    (ps.Pairwise (fun a b => ∀ x y, h[a]? = some (some x) → h[b]? = some (some y) → InOrder asc x y) ↔
      ss.Pairwise (InOrder asc)) := by
  intro ps ss H
  constructor
  · intro hp
    rw [List.pairwise_iff_getElem] at *
    intro i j hi hj hij
    have hlen := strings_length H
    obtain ⟨x, hx, hx'⟩ := strings_getElem? H (List.getElem?_eq_getElem (i := i) (by omega))
    obtain ⟨y, hy, hy'⟩ := strings_getElem? H (List.getElem?_eq_getElem (i := j) (by omega))
    rw [List.getElem?_eq_getElem hi] at hx
    rw [List.getElem?_eq_getElem hj] at hy
    cases hx; cases hy
    exact hp i j (by omega) (by omega) hij _ _ hx' hy'
  · intro hp
    rw [List.pairwise_iff_getElem] at *
    intro i j hi hj hij x y hx hy
    have hlen := strings_length H
    obtain ⟨x', h1, h1'⟩ := strings_getElem? H (List.getElem?_eq_getElem hi)
    obtain ⟨y', h2, h2'⟩ := strings_getElem? H (List.getElem?_eq_getElem hj)
    rw [hx] at h1'; rw [hy] at h2'
    cases h1'; cases h2'
    have := hp i j (by omega) (by omega) hij
    rw [List.getElem?_eq_getElem (by omega)] at h1 h2
    cases h1; cases h2
    exact this

/-- In order means not the other way round. -/
theorem inOrder_iff {asc : Bool} {x y : Str} : InOrder asc x y ↔ if asc then ¬ less y x else ¬ less x y := by
  have e := cmpBytes_swap x y
  have h1 := cmpBytes_neg x y
  have h2 := cmpBytes_neg y x
  cases asc with
  | true =>
    simp only [InOrder, dirCmp, if_true]
    rw [← h2, e]
    omega
  | false =>
    simp only [InOrder, dirCmp, Bool.false_eq_true, if_false]
    rw [← h1]
    omega

theorem dropWhile_head {α : Type} {p : α → Bool} : ∀ {l : List α} {x : α}, (l.dropWhile p).head? = some x → p x = false
  | [], x, h => by simp at h
  | a :: l, x, h => by
    rw [List.dropWhile_cons] at h
    split at h
    · exact dropWhile_head h
    · rename_i hp
      simp at h
      subst h
      simpa using hp

theorem dropWhile_id {α : Type} {p : α → Bool} : ∀ {l : List α}, (∀ x, l.head? = some x → p x = false) → l.dropWhile p = l
  | [], _ => rfl
  | a :: l, h => by rw [List.dropWhile_cons, if_neg (by simp [h a rfl])]

theorem dropWhile_suffix {α : Type} {p : α → Bool} (l : List α) : ∃ l', l = l' ++ l.dropWhile p :=
  ⟨l.takeWhile p, (List.takeWhile_append_dropWhile).symm⟩

/-- No whitespace at either end. -/
theorem strip_ends (s : Str) : (∀ b, (Spec.strip s).head? = some b → isSpace b = false) ∧
    (∀ b, (Spec.strip s).getLast? = some b → isSpace b = false) := by
  unfold Spec.strip
  constructor
  · intro b hb
    obtain ⟨l', hl⟩ := dropWhile_suffix (p := isSpace) (s.dropWhile isSpace).reverse
    have h2 : s.dropWhile isSpace = ((s.dropWhile isSpace).reverse.dropWhile isSpace).reverse ++ l'.reverse := by
      have := congrArg List.reverse hl
      rwa [List.reverse_reverse, List.reverse_append] at this
    refine dropWhile_head (l := s) (p := isSpace) (x := b) ?_
    rw [h2, List.head?_append, hb]
    rfl
  · intro b hb
    rw [List.getLast?_reverse] at hb
    exact dropWhile_head hb

theorem strip_idem (s : Str) : Spec.strip (Spec.strip s) = Spec.strip s := by
  have h := strip_ends s
  generalize Spec.strip s = u at *
  unfold Spec.strip
  rw [dropWhile_id h.1, dropWhile_id (by simpa using h.2), List.reverse_reverse]

/-- Only whitespace is removed. -/
theorem strip_mid (s : Str) : ∃ l r, s = l ++ Spec.strip s ++ r ∧ (∀ b ∈ l, isSpace b) ∧ (∀ b ∈ r, isSpace b) := by
  refine ⟨s.takeWhile isSpace, ((s.dropWhile isSpace).reverse.takeWhile isSpace).reverse, ?_, ?_, ?_⟩
  · unfold Spec.strip
    rw [List.append_assoc, ← List.reverse_append, List.takeWhile_append_dropWhile, List.reverse_reverse,
      List.takeWhile_append_dropWhile]
  · intro b hb
    exact List.all_eq_true.1 List.all_takeWhile b hb
  · intro b hb
    exact List.all_eq_true.1 (List.all_takeWhile) b (List.mem_reverse.1 hb)

theorem firstsBy_nodup : ∀ ss : List Str, (firstsBy (fun s => s) ss).Nodup
  | [] => by simp [firstsBy]
  | s :: ss => by
    rw [firstsBy, List.nodup_cons]
    refine ⟨by simp, (firstsBy_nodup ss).filter _⟩

theorem firstsBy_mem {ss : List Str} {s : Str} : s ∈ firstsBy (fun s => s) ss ↔ s ∈ ss := by
  induction ss with
  | nil => simp [firstsBy]
  | cons t ss ih =>
    rw [firstsBy]
    simp only [List.mem_cons, List.mem_filter, ih, ne_eq, decide_eq_true_eq]
    by_cases e : s = t <;> simp [e]

end Verif.Strv
