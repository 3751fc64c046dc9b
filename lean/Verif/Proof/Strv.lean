import Verif.Model.Strv
import Verif.Spec.Strv
import Verif.Proof.CBasic

namespace Verif.Strv
open Verif.C Spec

def mk (ps : List Nat) (n : Nat) : Block := ps.map Cell.ptr ++ .null :: List.replicate n .uninit

theorem holds_iff {v : Vec} {ps : List Nat} : Holds v ps ↔ (v = none ∧ ps = []) ∨ ∃ n, v = some (mk ps n) := Iff.rfl

theorem mk_length (ps : List Nat) (n : Nat) : (mk ps n).length = ps.length + 1 + n := by
  simp [mk]; omega

theorem mk_nil (n : Nat) : mk [] n = .null :: List.replicate n .uninit := rfl
theorem mk_cons (a : Nat) (ps : List Nat) (n : Nat) : mk (a :: ps) n = .ptr a :: mk ps n := rfl

theorem deref_cons (c : Cell) (b : Block) (i : Nat) : deref (c :: b) (i + 1) = deref b i := by
  simp [deref]

theorem deref_zero (c : Cell) (b : Block) : deref (c :: b) 0 = load c := by
  simp [deref]

theorem deref_mk : ∀ (ps : List Nat) (n i : Nat) (hi : i < ps.length), deref (mk ps n) i = .ok (some ps[i])
  | a :: ps, n, 0, _ => by rw [mk_cons, deref_zero]; rfl
  | a :: ps, n, i + 1, hi => by
    rw [mk_cons, deref_cons, deref_mk ps n i (by simpa using hi)]; rfl

theorem deref_mk_end : ∀ (ps : List Nat) (n : Nat), deref (mk ps n) ps.length = .ok none
  | [], n => rfl
  | a :: ps, n => by rw [mk_cons, List.length_cons, deref_cons, deref_mk_end ps n]

theorem lengthLoop_mk : ∀ (ps : List Nat) (n k : Nat), Ptrv.lengthLoop (mk ps n) k = .ok (k + ps.length)
  | [], n, k => rfl
  | a :: ps, n, k => by
    rw [mk_cons, Ptrv.lengthLoop, load, ok_bind]
    simp only [Option.isSome_some, if_true]
    rw [lengthLoop_mk ps n (k + 1), List.length_cons]
    congr 1; omega

theorem length_ok {v : Vec} {ps : List Nat} (h : Holds v ps) : length v = .ok ps.length := by
  rcases h with ⟨rfl, rfl⟩ | ⟨n, rfl⟩
  · rfl
  · exact (lengthLoop_mk ps n 0).trans (by simp)

theorem cmpBytes_eq_zero : ∀ (s t : Str), cmpBytes s t = 0 ↔ s = t
  | [], [] => by simp [cmpBytes]
  | [], _ :: _ => by simp [cmpBytes]
  | _ :: _, [] => by simp [cmpBytes]
  | a :: s, b :: t => by
    rw [cmpBytes]
    by_cases h : a = b
    · rw [if_pos h, cmpBytes_eq_zero s t]; simp [h]
    · rw [if_neg h]
      split <;> simp [h]

/-- All the pointers are valid. -/
def Live (h : Heap) (ps : List Nat) : Prop := ∀ a ∈ ps, ∃ s, h[a]? = some (some s)

theorem str_ok {h : Heap} {a : Nat} {s : Str} (e : h[a]? = some (some s)) : str h a = .ok s := by
  simp [str, e]

theorem strcmp_ok {h : Heap} {a b : Nat} {s t : Str} (e : h[a]? = some (some s)) (e' : h[b]? = some (some t)) :
    strcmp h (some a) (some b) = .ok (cmpBytes s t) := by
  rw [strcmp, str_ok e, ok_bind, str_ok e', ok_bind]

/-- Is this the string `t`? -/
def matches_ (h : Heap) (t : Str) (a : Nat) : Bool := decide (h[a]? = some (some t))

theorem strcmp_match {h : Heap} {a b : Nat} {s t : Str} (e : h[a]? = some (some s)) (e' : h[b]? = some (some t)) :
    (∃ r, strcmp h (some a) (some b) = .ok r ∧ (r = 0 ↔ matches_ h t a = true)) := by
  refine ⟨_, strcmp_ok e e', ?_⟩
  rw [cmpBytes_eq_zero, matches_, e]
  simp

theorem firstIndex_neg {α : Type} {p : α → Bool} : ∀ {l : List α}, firstIndex p l < 0 ↔ ∀ x ∈ l, p x = false
  | [] => by simp [firstIndex]
  | x :: t => by
    rw [firstIndex]
    by_cases hp : p x
    · simp [hp]
    · rw [if_neg hp]
      have := firstIndex_neg (p := p) (l := t)
      by_cases h : firstIndex p t < 0
      · rw [if_pos h]
        simp only [List.mem_cons, forall_eq_or_imp]
        simp [hp]
        simpa using this.1 h
      · rw [if_neg h]
        constructor
        · omega
        · intro hh
          exact absurd (this.2 (fun y hy => hh y (List.mem_cons_of_mem _ hy))) h

theorem firstIndex_lt {α : Type} {p : α → Bool} : ∀ {l : List α}, firstIndex p l < l.length
  | [] => by simp [firstIndex]
  | x :: t => by
    have := firstIndex_lt (p := p) (l := t)
    rw [firstIndex, List.length_cons]
    split
    · omega
    · split <;> omega

theorem firstIndex_spec {α : Type} {p : α → Bool} : ∀ {l : List α} {i : Nat}, firstIndex p l = i →
    (∃ x, l[i]? = some x ∧ p x = true) ∧ ∀ x ∈ l.take i, p x = false
  | [], i, h => by simp [firstIndex] at h
  | x :: t, i, h => by
    rw [firstIndex] at h
    by_cases hp : p x
    · rw [if_pos hp] at h
      have : i = 0 := by omega
      subst this
      exact ⟨⟨x, by simp, hp⟩, by simp⟩
    · rw [if_neg hp] at h
      by_cases h0 : firstIndex p t < 0
      · rw [if_pos h0] at h; omega
      · rw [if_neg h0] at h
        obtain ⟨j, rfl⟩ : ∃ j, i = j + 1 := ⟨i - 1, by omega⟩
        obtain ⟨h1, h2⟩ := firstIndex_spec (p := p) (l := t) (i := j) (by omega)
        refine ⟨by simpa using h1, ?_⟩
        intro y hy
        rw [List.take_succ_cons, List.mem_cons] at hy
        rcases hy with rfl | hy
        · simpa using hp
        · exact h2 y hy

theorem lastIndex_concat {α : Type} {p : α → Bool} : ∀ (l : List α) (x : α),
    lastIndex p (l ++ [x]) = if p x then (l.length : Int) else lastIndex p l
  | [], x => by simp [lastIndex]
  | y :: t, x => by
    have ih := lastIndex_concat (p := p) t x
    rw [List.cons_append, lastIndex, ih]
    by_cases hp : p x
    · simp only [hp, if_true]
      rw [if_neg (by omega), List.length_cons]; omega
    · simp only [hp]
      simp [lastIndex]

theorem lastIndex_ge {α : Type} {p : α → Bool} : ∀ {l : List α}, -1 ≤ lastIndex p l
  | [] => by simp [lastIndex]
  | x :: t => by
    have := lastIndex_ge (p := p) (l := t)
    rw [lastIndex]
    split
    · split <;> omega
    · omega

theorem lastIndex_neg {α : Type} {p : α → Bool} : ∀ {l : List α}, lastIndex p l < 0 ↔ ∀ x ∈ l, p x = false
  | [] => by simp [lastIndex]
  | x :: t => by
    have ih := lastIndex_neg (p := p) (l := t)
    rw [lastIndex]
    by_cases h : lastIndex p t < 0
    · rw [if_pos h]
      have := ih.1 h
      by_cases hp : p x
      · simp [hp]
      · simp [hp]; simpa using this
    · rw [if_neg h]
      constructor
      · omega
      · intro hh
        exact absurd (ih.2 (fun y hy => hh y (List.mem_cons_of_mem _ hy))) h

theorem lastIndex_spec {α : Type} {p : α → Bool} : ∀ {l : List α} {i : Nat}, lastIndex p l = i →
    (∃ x, l[i]? = some x ∧ p x = true) ∧ ∀ x ∈ l.drop (i + 1), p x = false
  | [], i, h => by simp [lastIndex] at h
  | x :: t, i, h => by
    rw [lastIndex] at h
    by_cases h0 : lastIndex p t < 0
    · rw [if_pos h0] at h
      by_cases hp : p x
      · rw [if_pos hp] at h
        have : i = 0 := by omega
        subst this
        exact ⟨⟨x, by simp, hp⟩, by simpa using lastIndex_neg.1 h0⟩
      · rw [if_neg hp] at h; omega
    · rw [if_neg h0] at h
      obtain ⟨j, rfl⟩ : ∃ j, i = j + 1 := ⟨i - 1, by omega⟩
      obtain ⟨h1, h2⟩ := lastIndex_spec (p := p) (l := t) (i := j) (by omega)
      exact ⟨by simpa using h1, by simpa using h2⟩

theorem findLoop_mk {h : Heap} {s : Nat} {t : Str} (hs : h[s]? = some (some t)) : ∀ (ps : List Nat) (n : Nat) (i : Int),
    Live h ps → findLoop h s (mk ps n) i =
      .ok (if firstIndex (matches_ h t) ps < 0 then -1 else i + firstIndex (matches_ h t) ps)
  | [], n, i, _ => rfl
  | a :: ps, n, i, hl => by
    obtain ⟨x, hx⟩ := hl a (by simp)
    obtain ⟨r, hr, hm⟩ := strcmp_match hx hs
    rw [mk_cons, findLoop, load, ok_bind]
    simp only [Option.isSome_some, if_true]
    rw [hr, ok_bind, firstIndex]
    by_cases h0 : r = 0
    · rw [if_pos h0, if_pos (hm.1 h0)]; simp
    · rw [if_neg h0, if_neg (fun e => h0 (hm.2 e)), findLoop_mk hs ps n (i + 1) (fun b hb => hl b (by simp [hb]))]
      congr 1
      by_cases hn : firstIndex (matches_ h t) ps < 0
      · simp [hn]
      · simp only [hn, if_false]
        rw [if_neg (by omega)]; omega

theorem find_ok {h : Heap} {v : Vec} {ps : List Nat} {s : Nat} {t : Str} (hs : h[s]? = some (some t)) (hv : Holds v ps)
    (hl : Live h ps) : find h v (some s) = .ok (firstIndex (matches_ h t) ps) := by
  rcases hv with ⟨rfl, rfl⟩ | ⟨n, rfl⟩
  · rfl
  · refine (findLoop_mk hs ps n 0 hl).trans ?_
    congr 1
    split
    · rename_i hn
      have : -1 ≤ firstIndex (matches_ h t) ps := by
        clear hl
        induction ps with
        | nil => simp [firstIndex]
        | cons a t ih =>
          rw [firstIndex]
          split
          · omega
          · split <;> omega
      omega
    · omega

theorem findLastImpl_mk {h : Heap} {s : Nat} {t : Str} (hs : h[s]? = some (some t)) (ps : List Nat) (n off : Nat)
    (hl : Live h ps) : ∀ i, off + i ≤ ps.length →
    findLastImpl h (mk ps n) off (some s) i = .ok (lastIndex (matches_ h t) ((ps.drop off).take i))
  | 0, _ => by simp [findLastImpl, lastIndex]
  | i + 1, hi => by
    rw [findLastImpl, deref_mk ps n (off + i) (by omega), ok_bind]
    obtain ⟨x, hx⟩ := hl ps[off + i] (List.getElem_mem _)
    obtain ⟨r, hr, hm⟩ := strcmp_match hx hs
    rw [hr, ok_bind]
    have e : (ps.drop off).take (i + 1) = (ps.drop off).take i ++ [ps[off + i]] := by
      rw [List.take_succ_eq_append_getElem (by rw [List.length_drop]; omega), List.getElem_drop]
    rw [e, lastIndex_concat]
    by_cases h0 : r = 0
    · rw [if_pos h0, if_pos (hm.1 h0), List.length_take, List.length_drop]
      congr 2; omega
    · rw [if_neg h0, if_neg (fun e => h0 (hm.2 e)), findLastImpl_mk hs ps n off hl i (by omega)]

theorem take_map_ptr (ps : List Nat) (n k : Nat) (hk : k ≤ ps.length) : (mk ps n).take k = (ps.take k).map Cell.ptr := by
  rw [mk, List.take_append_of_le_length (by simpa using hk), List.map_take]

theorem drop_map_ptr (ps : List Nat) (n k : Nat) (hk : k ≤ ps.length) : (mk ps n).drop k = mk (ps.drop k) n := by
  rw [mk, List.drop_append_of_le_length (by simpa using hk), mk, List.map_drop]

theorem memmove_mk (ps : List Nat) (n pos : Nat) (hp : pos < ps.length) :
    ∃ b, memmove (mk ps n) pos (pos + 1) (ps.length - pos) = .ok b ∧
      renew (some b) ps.length = mk (ps.eraseIdx pos) 0 := by
  refine ⟨_, by rw [memmove, if_pos (by rw [mk_length]; omega)], ?_⟩
  rw [drop_map_ptr ps n (pos + 1) (by omega), take_map_ptr ps n pos (by omega)]
  have e1 : (mk (ps.drop (pos + 1)) n).take (ps.length - pos) = mk (ps.drop (pos + 1)) 0 := by
    rw [mk, List.take_append, List.take_of_length_le (by simp; omega)]
    simp only [List.length_map, List.length_drop]
    rw [show ps.length - pos - (ps.length - (pos + 1)) = 1 by omega]
    simp [mk]
  rw [e1]
  have e2 : (ps.take pos).map Cell.ptr ++ mk (ps.drop (pos + 1)) 0 = mk (ps.eraseIdx pos) 0 := by
    rw [List.eraseIdx_eq_take_drop_succ, mk, mk]
    simp
  rw [e2]
  have hlen : (mk (ps.eraseIdx pos) 0).length = ps.length := by
    rw [mk_length, List.length_eraseIdx, if_pos hp]; omega
  simp only [renew, Option.getD_some]
  rw [List.take_append_of_le_length (by omega), List.take_of_length_le (by omega)]
  rw [List.length_append, hlen, show ps.length - (ps.length + _) = 0 by omega]
  simp

theorem gfree_ok {h : Heap} {a : Nat} {s : Str} (e : h[a]? = some (some s)) : gfree h (some a) = .ok (h.set a none) := by
  simp [gfree, e]

theorem removeImpl_mk {h : Heap} {ps : List Nat} {n pos : Nat} (hp : pos < ps.length) (hl : Live h ps) (f : Bool) :
    removeImpl h (mk ps n) pos ps.length f =
      .ok (if f then h.set ps[pos] none else h, mk (ps.eraseIdx pos) 0) := by
  obtain ⟨b, hb, hr⟩ := memmove_mk ps n pos hp
  obtain ⟨s, hs⟩ := hl ps[pos] (List.getElem_mem _)
  rw [removeImpl]
  cases f with
  | true =>
    simp only [if_true]
    rw [deref_mk ps n pos hp, ok_bind, gfree_ok hs, ok_bind, hb, ok_bind, hr]
  | false =>
    simp only [Bool.false_eq_true, if_false]
    rw [ok_bind, hb, ok_bind, hr]

theorem set_none_other {h : Heap} {a b : Nat} (e : b ≠ a) : (h.set a none)[b]? = h[b]? :=
  List.getElem?_set_ne (fun e' => e e'.symm)

theorem mem_eraseIdx_ne {ps : List Nat} (nd : ps.Nodup) {k : Nat} (hk : k < ps.length) {a : Nat}
    (ha : a ∈ ps.eraseIdx k) : a ∈ ps ∧ a ≠ ps[k] := by
  refine ⟨List.mem_of_mem_eraseIdx ha, ?_⟩
  rintro rfl
  rw [List.mem_eraseIdx_iff_getElem] at ha
  obtain ⟨i, hi, hne, e⟩ := ha
  have := (List.getElem_inj nd).1 e
  omega

theorem live_erase {h : Heap} {ps : List Nat} (hl : Live h ps) (nd : ps.Nodup) {k : Nat} (hk : k < ps.length) :
    Live (h.set ps[k] none) (ps.eraseIdx k) := by
  intro a ha
  obtain ⟨h1, h2⟩ := mem_eraseIdx_ne nd hk ha
  rw [set_none_other h2]
  exact hl a h1

theorem nodup_erase {ps : List Nat} (nd : ps.Nodup) (k : Nat) : (ps.eraseIdx k).Nodup :=
  List.Nodup.sublist (List.eraseIdx_sublist _ _) nd

theorem filter_eraseIdx {α : Type} {p : α → Bool} : ∀ {l : List α} {k : Nat} (hk : k < l.length), p l[k] = false →
    (l.eraseIdx k).filter p = l.filter p
  | x :: t, 0, _, h => by
    rw [List.eraseIdx_zero, List.tail_cons, List.filter_cons, if_neg]
    rw [List.getElem_cons_zero] at h; simp [h]
  | x :: t, k + 1, hk, h => by
    rw [List.eraseIdx_cons_succ, List.filter_cons, List.filter_cons,
      filter_eraseIdx (by simpa using hk) (by simpa using h)]

theorem released_trans {h h1 h2 : Heap} {p q r : Nat → Bool} (a : Released h h1 p) (b : Released h1 h2 q)
    (hr : ∀ x, r x = (p x || q x)) : Released h h2 r := by
  refine ⟨by rw [b.1, a.1], ?_⟩
  intro x hx
  rw [b.2 x (by rw [a.1]; exact hx), a.2 x hx, hr]
  cases p x <;> cases q x <;> simp

theorem released_one {h : Heap} {a : Nat} : Released h (h.set a none) (fun x => decide (x = a)) := by
  refine ⟨by simp, ?_⟩
  intro x hx
  by_cases e : x = a
  · subst e; simp [hx]
  · simp only [e, decide_false, Bool.false_eq_true, if_false]
    exact set_none_other e

theorem released_none {h : Heap} {p : Nat → Bool} (hp : ∀ x, p x = false) : Released h h p := by
  refine ⟨rfl, ?_⟩
  intro x _
  simp [hp x]

/-- `h'` still has the strings of `h` at the addresses `ps`. -/
theorem released_keeps {h h' : Heap} {p : Nat → Bool} (r : Released h h' p) {a : Nat} {s : Str}
    (ha : h[a]? = some (some s)) (hp : p a = false) : h'[a]? = some (some s) := by
  rw [r.2 a (List.getElem?_eq_some_iff.1 ha).1, hp]
  simpa using ha

theorem removeLoop_mk {s : Nat} {t : Str} (pos : Nat) : ∀ (fuel : Nat) (h : Heap) (ps : List Nat) (n l : Nat),
    l < fuel → h[s]? = some (some t) → s ∉ ps → Live h ps → ps.Nodup → pos + l ≤ ps.length →
    (∀ a ∈ ps.take pos, matches_ h t a = false) → (∀ a ∈ ps.drop (pos + l), matches_ h t a = false) →
    ∃ h' n', removeLoop pos s fuel h (mk ps n) ps.length l =
        .ok (h', mk (ps.filter (fun a => !matches_ h t a)) n') ∧
      Released h h' (fun a => decide (a ∈ ps) && matches_ h t a)
  | 0, _, _, _, _, hf, _, _, _, _, _, _, _ => by omega
  | fuel + 1, h, ps, n, l, hf, hs, hsp, hl, nd, hpl, hpre, hpost => by
    rw [removeLoop, findLastImpl_mk hs ps n pos hl l hpl, ok_bind]
    have hge := lastIndex_ge (p := matches_ h t) (l := (ps.drop pos).take l)
    by_cases h0 : lastIndex (matches_ h t) ((ps.drop pos).take l) < 0
    · rw [if_neg (by omega)]
      have hall : ∀ a ∈ ps, matches_ h t a = false := by
        intro a ha
        rw [← List.take_append_drop pos ps, List.mem_append] at ha
        rcases ha with ha | ha
        · exact hpre a ha
        · rw [← List.take_append_drop l (ps.drop pos), List.mem_append, List.drop_drop] at ha
          rcases ha with ha | ha
          · exact lastIndex_neg.1 h0 a ha
          · exact hpost a ha
      refine ⟨h, n, ?_, ?_⟩
      · rw [List.filter_eq_self.2 (fun a ha => by simp [hall a ha])]
      · refine released_none ?_
        intro x
        by_cases hx : x ∈ ps
        · simp [hall x hx]
        · simp [hx]
    · rw [if_pos (by omega)]
      obtain ⟨i, hi⟩ : ∃ i : Nat, lastIndex (matches_ h t) ((ps.drop pos).take l) = i :=
        ⟨_, (Int.toNat_of_nonneg (by omega)).symm⟩
      obtain ⟨⟨x, hx, hxm⟩, hafter⟩ := lastIndex_spec hi
      rw [hi, Int.toNat_natCast]
      have hil : i < l := by
        have := (List.getElem?_eq_some_iff.1 hx).1
        rw [List.length_take] at this
        omega
      have hk : pos + i < ps.length := by omega
      have hxk : ps[pos + i] = x := by
        rw [List.getElem?_take, if_pos hil, List.getElem?_drop, List.getElem?_eq_getElem hk] at hx
        exact Option.some.inj hx
      rw [removeImpl_mk hk hl true, ok_bind]
      simp only [if_true]
      have hlen : (ps.eraseIdx (pos + i)).length = ps.length - 1 := by
        rw [List.length_eraseIdx, if_pos hk]
      rw [← hlen]
      have hm : ∀ a ∈ ps.eraseIdx (pos + i), matches_ (h.set ps[pos + i] none) t a = matches_ h t a := by
        intro a ha
        unfold matches_
        rw [set_none_other (mem_eraseIdx_ne nd hk ha).2]
      have etake : (ps.eraseIdx (pos + i)).take pos = ps.take pos := by
        rw [List.eraseIdx_eq_take_drop_succ, List.take_append_of_le_length (by rw [List.length_take]; omega),
          List.take_take, Nat.min_eq_left (by omega)]
      have edrop : (ps.eraseIdx (pos + i)).drop (pos + i) = ps.drop (pos + i + 1) := by
        rw [List.eraseIdx_eq_take_drop_succ, List.drop_append_of_le_length (by rw [List.length_take]; omega),
          List.drop_of_length_le (by rw [List.length_take]; omega)]
        simp
      obtain ⟨h', n', hr, hrel⟩ := removeLoop_mk (s := s) (t := t) pos fuel (h.set ps[pos + i] none)
        (ps.eraseIdx (pos + i)) 0 i (by omega)
        (by rw [set_none_other (by rintro rfl; exact hsp (List.getElem_mem _))]; exact hs)
        (fun hh => hsp (List.mem_of_mem_eraseIdx hh)) (live_erase hl nd hk) (nodup_erase nd _)
        (by rw [hlen]; omega)
        (by
          intro a ha
          rw [hm a (List.mem_of_mem_take ha)]
          rw [etake] at ha
          exact hpre a ha)
        (by
          intro a ha
          rw [hm a (List.mem_of_mem_drop ha)]
          rw [edrop] at ha
          -- either within the window after i or beyond it
          have ha' : a ∈ (ps.drop pos).drop (i + 1) := by
            rw [List.drop_drop]; exact ha
          rw [← List.take_append_drop l (ps.drop pos), List.drop_append_of_le_length
            (by rw [List.length_take, List.length_drop]; omega), List.mem_append] at ha'
          rcases ha' with ha' | ha'
          · exact hafter a ha'
          · rw [List.drop_drop] at ha'
            exact hpost a ha')
      refine ⟨h', n', ?_, ?_⟩
      · rw [hr]
        congr 3
        rw [List.filter_congr (fun a ha => by rw [hm a ha])]
        exact filter_eraseIdx hk (by rw [hxk, hxm]; rfl)
      · refine released_trans released_one hrel ?_
        intro y
        by_cases hy : y = ps[pos + i]
        · subst hy
          simp [hxk, hxm]
          exact hxk ▸ List.getElem_mem _
        · simp only [hy, decide_false, Bool.false_or]
          have : y ∈ ps.eraseIdx (pos + i) ↔ y ∈ ps := by
            constructor
            · exact List.mem_of_mem_eraseIdx
            · intro hyp
              rw [List.mem_eraseIdx_iff_getElem]
              obtain ⟨j, hj, e⟩ := List.getElem_of_mem hyp
              refine ⟨j, hj, ?_, e⟩
              rintro rfl
              exact hy e.symm
          by_cases hyp : y ∈ ps
          · rw [hm y (this.2 hyp)]; simp [hyp, this.2 hyp]
          · simp [hyp, (not_congr this).2 hyp]

end Verif.Strv
