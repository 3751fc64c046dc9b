import Verif.Model.StrvHist
import Verif.Props.Strv

/-!
# Invariant of sequences of calls on string vectors
-/

namespace Verif.Strv
open Verif.C Spec

/-- One if there's a string at the address -/
def alive (h : Heap) (a : Nat) : Nat := match h[a]? with
  | some (some _) => 1
  | _ => 0

theorem alive_some {h : Heap} {a : Nat} {s : Str} (e : h[a]? = some (some s)) : alive h a = 1 := by
  simp [alive, e]

theorem alive_eq {h h' : Heap} {a : Nat} (e : h'[a]? = h[a]?) : alive h' a = alive h a := by
  simp [alive, e]

theorem alive_ge {h : Heap} {a : Nat} (e : h.length ≤ a) : alive h a = 0 := by
  simp [alive, List.getElem?_eq_none e]

theorem alive_le (h : Heap) (a : Nat) : alive h a ≤ 1 := by
  unfold alive; split <;> omega

/-- The strings of the vectors and those of the caller are all there are, and each one has one owner. -/
structure Inv (st : State) (w : World) (pss : List (List Nat)) : Prop where
  len : pss.length = st.vecs.length
  wlen : w.vecs.length = st.vecs.length
  vec : ∀ (i : Nat) v ps ss, st.vecs[i]? = some v → pss[i]? = some ps → w.vecs[i]? = some ss → Is st.heap v ps ss
  own : Strings st.heap st.own w.own
  count : ∀ a, pss.flatten.count a + st.own.count a = alive st.heap a

theorem count_flatten_set {pss : List (List Nat)} {i : Nat} {ps : List Nat} (h : pss[i]? = some ps) (qs : List Nat) (a : Nat) :
    (pss.set i qs).flatten.count a + ps.count a = pss.flatten.count a + qs.count a := by
  induction pss generalizing i with
  | nil => simp at h
  | cons x t ih =>
    cases i with
    | zero =>
      simp at h
      subst h
      simp only [List.set_cons_zero, List.flatten_cons, List.count_append]
      omega
    | succ i =>
      rw [List.getElem?_cons_succ] at h
      have := ih h
      simp only [List.set_cons_succ, List.flatten_cons, List.count_append]
      omega

theorem count_flatten_two {pss : List (List Nat)} {i j : Nat} {ps qs : List Nat} (hij : i ≠ j) (h : pss[i]? = some ps) (h' : pss[j]? = some qs) (a : Nat) :
    ps.count a + qs.count a ≤ pss.flatten.count a := by
  have e1 := count_flatten_set h [] a
  have e2 := count_flatten_set (pss := pss.set i []) (i := j) (ps := qs) (by rw [List.getElem?_set_ne hij]; exact h') [] a
  simp only [List.count_nil] at e1 e2
  omega

theorem count_flatten_one {pss : List (List Nat)} {i : Nat} {ps : List Nat} (h : pss[i]? = some ps) (a : Nat) :
    ps.count a ≤ pss.flatten.count a := by
  have e1 := count_flatten_set h [] a
  simp only [List.count_nil] at e1
  omega

theorem count_pos_live {h : Heap} {ps : List Nat} {ss : List Str} (H : Strings h ps ss) {a : Nat} (ha : a ∈ ps) : alive h a = 1 := by
  obtain ⟨s, hs⟩ := strings_live H a ha
  exact alive_some hs

theorem nodup_of_count {ps : List Nat} (h : ∀ a, ps.count a ≤ 1) : ps.Nodup := List.nodup_iff_count.2 h

/-- Everything about one of the vectors -/
theorem Inv.get {st : State} {w : World} {pss : List (List Nat)} (I : Inv st w pss) {i : Nat} (hi : i < w.vecs.length) :
    ∃ v ps, st.vecs[i]? = some v ∧ pss[i]? = some ps ∧ st.vec i = .ok v ∧ Owns st.heap v ps (w.vec i) := by
  have h1 : i < st.vecs.length := by have := I.wlen; omega
  have h2 : i < pss.length := by have := I.len; omega
  refine ⟨st.vecs[i], pss[i], List.getElem?_eq_getElem h1, List.getElem?_eq_getElem h2, ?_, ?_, ?_⟩
  · unfold State.vec; rw [List.getElem?_eq_getElem h1]
  · unfold World.vec
    rw [List.getElem?_eq_getElem hi, Option.getD_some]
    exact I.vec i _ _ _ (List.getElem?_eq_getElem h1) (List.getElem?_eq_getElem h2) (List.getElem?_eq_getElem hi)
  · refine nodup_of_count (fun a => ?_)
    have := count_flatten_one (List.getElem?_eq_getElem h2) a
    have := I.count a
    have := alive_le st.heap a
    omega

/-- One vector, the heap, and the caller's strings are changed. -/
theorem Inv.upd {st : State} {w : World} {pss : List (List Nat)} (I : Inv st w pss) {i : Nat} {ps ps' : List Nat} {h' : Heap} {v' : Vec} {ss' : List Str}
    {own' : List Nat} {wo : List Str} (hi : pss[i]? = some ps) (H : Is h' v' ps' ss') (ho : Strings h' own' wo)
    (hf : ∀ a s, a ∉ ps → a ∉ st.own → st.heap[a]? = some (some s) → h'[a]? = st.heap[a]?)
    (hc : ∀ a, ps'.count a + own'.count a + alive st.heap a = ps.count a + st.own.count a + alive h' a) :
    Inv ⟨h', st.vecs.set i v', own'⟩ ⟨w.vecs.set i ss', wo⟩ (pss.set i ps') := by
  refine ⟨by simp [I.len], by simp [I.wlen], ?_, ho, ?_⟩
  · intro j v qs ts hv hq ht
    dsimp only at hv hq ht
    by_cases e : i = j
    · subst e
      rw [List.getElem?_set] at hv hq ht
      simp only [if_true] at hv hq ht
      split at hv <;> split at hq <;> split at ht <;> first | (cases hv; done) | (cases hq; done) | (cases ht; done) | skip
      cases hv; cases hq; cases ht
      exact H
    · rw [List.getElem?_set_ne e] at hv hq ht
      have G := I.vec j v qs ts hv hq ht
      refine ⟨G.holds, strings_keep (fun a ha => ?_) G.strings⟩
      obtain ⟨s, hs⟩ := strings_live G.strings a ha
      have h1 := count_flatten_two e hi hq a
      have h2 := I.count a
      have h3 := List.one_le_count_iff.2 ha
      rw [alive_some hs] at h2
      refine hf a s (fun hm => ?_) (fun hm => ?_) hs
      · have := List.one_le_count_iff.2 hm
        omega
      · have := List.one_le_count_iff.2 hm
        omega
  · intro a
    have h1 := count_flatten_set hi ps' a
    have h2 := I.count a
    have h3 := hc a
    dsimp only
    omega

/-- The same if the caller's strings stay the same. -/
theorem Inv.upd_vec {st : State} {w : World} {pss : List (List Nat)} (I : Inv st w pss) {i : Nat} {ps ps' : List Nat} {h' : Heap} {v' : Vec} {ss' : List Str}
    (hi : pss[i]? = some ps) (H : Is h' v' ps' ss')
    (hf : ∀ a s, a ∉ ps → st.heap[a]? = some (some s) → h'[a]? = st.heap[a]?)
    (hc : ∀ a, ps'.count a + alive st.heap a = ps.count a + alive h' a) :
    Inv ⟨h', st.vecs.set i v', st.own⟩ ⟨w.vecs.set i ss', w.own⟩ (pss.set i ps') := by
  refine I.upd hi H (strings_keep (fun a ha => ?_) I.own) (fun a s h1 _ h2 => hf a s h1 h2) (fun a => by have := hc a; omega)
  obtain ⟨s, hs⟩ := strings_live I.own a ha
  have h1 := count_flatten_one hi a
  have h2 := I.count a
  have h3 := List.one_le_count_iff.2 ha
  rw [alive_some hs] at h2
  refine hf a s (fun hm => ?_) hs
  have := List.one_le_count_iff.2 hm
  omega

theorem count_nodup_mem {ps : List Nat} (nd : ps.Nodup) (a : Nat) : ps.count a = if a ∈ ps then 1 else 0 := by
  split
  · rename_i h
    have := List.nodup_iff_count.1 nd a
    have := List.one_le_count_iff.2 h
    omega
  · rename_i h
    exact List.count_eq_zero.2 h

/-- Some of the strings have been released. -/
theorem Inv.shrink {st : State} {w : World} {pss : List (List Nat)} (I : Inv st w pss) {i : Nat} {v v' : Vec} {ps ps' : List Nat} {ss ss' : List Str} {h' : Heap}
    (hi : pss[i]? = some ps) (O : Owns st.heap v ps ss) (H : Owns h' v' ps' ss') (hsub : ps'.Sublist ps)
    (r : Released st.heap h' (fun x => decide (x ∈ ps) && decide (x ∉ ps'))) :
    Inv ⟨h', st.vecs.set i v', st.own⟩ ⟨w.vecs.set i ss', w.own⟩ (pss.set i ps') := by
  refine I.upd_vec hi H.toIs ?_ ?_
  · intro a s ha hs
    have := r.2 a (List.getElem?_eq_some_iff.1 hs).1
    rw [this]
    simp [ha]
  · intro a
    rw [count_nodup_mem O.nodup, count_nodup_mem H.nodup]
    by_cases h1 : a ∈ ps
    · obtain ⟨s, hs⟩ := strings_live O.strings a h1
      have hr := r.2 a (List.getElem?_eq_some_iff.1 hs).1
      by_cases h2 : a ∈ ps'
      · rw [if_pos h1, if_pos h2]
        rw [alive_eq (h := st.heap) (h' := h') (by rw [hr]; simp [h2])]
      · rw [if_pos h1, if_neg h2]
        have : alive h' a = 0 := by simp [alive, hr, h1, h2]
        rw [alive_some hs, this]
    · have h2 : a ∉ ps' := fun hm => h1 (hsub.subset hm)
      rw [if_neg h1, if_neg h2]
      rcases Nat.lt_or_ge a st.heap.length with hl | hl
      · have hr := r.2 a hl
        rw [alive_eq (h := st.heap) (h' := h') (by rw [hr]; simp [h1])]
      · rw [alive_ge hl, alive_ge (by have := r.1; omega)]

/-- Strings have been added. -/
theorem Inv.grow {st : State} {w : World} {pss : List (List Nat)} (I : Inv st w pss) {i : Nat} {v v' : Vec} {ps : List Nat} {ss ss' : List Str} {h' : Heap} {n : Nat}
    (hi : pss[i]? = some ps) (O : Owns st.heap v ps ss) (H : Owns h' v' (ps ++ List.range' st.heap.length n) ss') (hx : Extended st.heap h')
    (hn : h'.length = st.heap.length + n) :
    Inv ⟨h', st.vecs.set i v', st.own⟩ ⟨w.vecs.set i ss', w.own⟩ (pss.set i (ps ++ List.range' st.heap.length n)) := by
  refine I.upd_vec hi H.toIs ?_ ?_
  · intro a s _ hs
    exact hx a (List.getElem?_eq_some_iff.1 hs).1
  · intro a
    rw [List.count_append, count_nodup_mem List.nodup_range' a]
    simp only [List.mem_range'_1]
    rcases Nat.lt_or_ge a st.heap.length with hl | hl
    · rw [alive_eq (hx a hl), if_neg (by omega)]
      omega
    · rw [alive_ge hl]
      split
      · rename_i hm
        have : a ∈ ps ++ List.range' st.heap.length n := by
          rw [List.mem_append, List.mem_range'_1]; exact .inr hm
        rw [count_pos_live H.strings this]
      · rename_i hm
        rw [alive_ge (by omega)]

/-- The same strings, in another order -/
theorem Inv.reorder {st : State} {w : World} {pss : List (List Nat)} (I : Inv st w pss) {i : Nat} {v' : Vec} {ps ps' : List Nat} {ss' : List Str}
    (hi : pss[i]? = some ps) (H : Is st.heap v' ps' ss') (hp : ps'.Perm ps) :
    Inv ⟨st.heap, st.vecs.set i v', st.own⟩ ⟨w.vecs.set i ss', w.own⟩ (pss.set i ps') :=
  I.upd_vec hi H (fun _ _ _ _ => rfl) (fun a => by rw [hp.count_eq])

/-- The string which is given to a call -/
theorem Inv.src_ok {st : State} {w : World} {pss : List (List Nat)} (I : Inv st w pss) {s : Src} (hs : w.Has s) :
    ∃ p, st.src s = .ok p ∧ (∀ a, p = some a → ∃ t, w.src s = some t ∧ st.heap[a]? = some (some t)) ∧ (p = none → w.src s = none) ∧
      (∀ a i ps, p = some a → (∀ j, s ≠ .elem i j) → pss[i]? = some ps → a ∉ ps) := by
  cases s with
  | null => exact ⟨none, rfl, by simp, fun _ => rfl, by simp⟩
  | mine k =>
    have hk : k < w.own.length := hs
    have hk' : k < st.own.length := by rw [strings_length I.own]; exact hk
    obtain ⟨t, ht, ht'⟩ := strings_getElem? I.own (List.getElem?_eq_getElem hk')
    refine ⟨some st.own[k], ?_, ?_, by simp, ?_⟩
    · simp only [State.src, List.getElem?_eq_getElem hk']
    · intro a ha
      cases ha
      exact ⟨t, ht, ht'⟩
    · intro a i ps ha _ hp hm
      cases ha
      have h1 := count_flatten_one hp st.own[k]
      have h2 := I.count st.own[k]
      have h3 := List.one_le_count_iff.2 hm
      have h4 := List.one_le_count_iff.2 (List.getElem_mem hk')
      have h5 := alive_le st.heap st.own[k]
      omega
  | elem i j =>
    have hi : i < w.vecs.length := hs
    obtain ⟨v, ps, h1, h2, h3, O⟩ := I.get hi
    refine ⟨ps[j]?, ?_, ?_, ?_, ?_⟩
    · simp only [State.src, h3, ok_bind]
      exact at_ok O.holds j
    · intro a ha
      obtain ⟨t, ht, ht'⟩ := strings_getElem? O.strings ha
      exact ⟨t, ht, ht'⟩
    · intro hn
      rw [List.getElem?_eq_none_iff] at hn
      simp only [World.src]
      rw [List.getElem?_eq_none_iff, ← strings_length O.strings]
      exact hn
    · intro a i' ps' ha hne hp hm
      have hii : i ≠ i' := fun e => hne j (by rw [e])
      have e1 := count_flatten_two hii h2 hp a
      have e2 := I.count a
      have e3 := List.one_le_count_iff.2 hm
      have e4 := List.one_le_count_iff.2 (List.mem_of_getElem? ha)
      have e5 := alive_le st.heap a
      omega

/-- The variable arguments -/
theorem Inv.args_ok {st : State} {w : World} {pss : List (List Nat)} (I : Inv st w pss) : ∀ {l : List Src}, (∀ s ∈ l, w.Has s) →
    ∃ ps, st.args l = .ok ps ∧ Strings st.heap ps (w.args l)
  | [], _ => ⟨[], rfl, rfl⟩
  | s :: t, h => by
    obtain ⟨p, h1, h2, h3, -⟩ := I.src_ok (h s (by simp))
    obtain ⟨ps, h4, h5⟩ := I.args_ok (l := t) (fun x hx => h x (by simp [hx]))
    cases p with
    | none =>
      refine ⟨[], ?_, ?_⟩
      · simp only [State.args, h1, ok_bind]
      · simp only [World.args, h3 rfl]
        rfl
    | some a =>
      obtain ⟨x, h6, h7⟩ := h2 a rfl
      refine ⟨a :: ps, ?_, ?_⟩
      · simp only [State.args, h1, ok_bind, h4]
      · simp only [World.args, h6]
        exact strings_mk h7 h5

theorem see_ok {h : Heap} {p : Option Nat} {s : Option Str} (h1 : ∀ a, p = some a → ∃ t, s = some t ∧ h[a]? = some (some t)) (h2 : p = none → s = none) :
    see h p = .ok (.str s) := by
  cases p with
  | none => rw [h2 rfl]; rfl
  | some a =>
    obtain ⟨t, e1, e2⟩ := h1 a rfl
    rw [e1]
    simp only [see, str_ok e2, ok_bind]

theorem World.setVec_eq {w : World} {i : Nat} {l : List Str} : w.setVec i l = ⟨w.vecs.set i l, w.own⟩ := rfl

theorem World.setVec_self {w : World} {i : Nat} : w.setVec i (w.vec i) = w := by
  cases w with
  | mk vecs own =>
    simp only [World.setVec, World.vec]
    congr 1
    rcases Nat.lt_or_ge i vecs.length with h | h
    · rw [List.getElem?_eq_getElem h]; simp
    · exact List.set_eq_of_length_le h

theorem State.set_self {l : List Vec} {i : Nat} {v : Vec} (h : l[i]? = some v) : l.set i v = l := by
  obtain ⟨hi, rfl⟩ := List.getElem?_eq_some_iff.1 h
  simp

theorem perm_eraseIdx {l : List Nat} {k : Nat} (h : k < l.length) : (l[k] :: l.eraseIdx k).Perm l := by
  induction l generalizing k with
  | nil => simp at h
  | cons x t ih =>
    cases k with
    | zero => simp
    | succ k =>
      simp only [List.getElem_cons_succ, List.eraseIdx_cons_succ]
      exact (List.Perm.swap _ _ _).trans ((ih (by simpa using h)).cons x)

theorem find_meaning {t : Str} {ss : List Str} :
    (firstIndex (fun s => decide (s = t)) ss = -1 ∧ t ∉ ss) ∨
      ∃ k : Nat, firstIndex (fun s => decide (s = t)) ss = k ∧ ss[k]? = some t ∧ t ∉ ss.take k := by
  obtain ⟨h1, -, h3, -⟩ := C28_index_meaning t ss
  have hge : -1 ≤ firstIndex (fun s => decide (s = t)) ss := by
    clear h1 h3
    induction ss with
    | nil => simp [firstIndex]
    | cons x l ih => rw [firstIndex]; repeat' split <;> omega
  by_cases h : firstIndex (fun s => decide (s = t)) ss = -1
  · exact .inl ⟨h, h3.1 h⟩
  · obtain ⟨k, hk⟩ : ∃ k : Nat, firstIndex (fun s => decide (s = t)) ss = k := ⟨_, (Int.toNat_of_nonneg (by omega)).symm⟩
    exact .inr ⟨k, hk, h1 k hk⟩

theorem findLast_meaning {t : Str} {ss : List Str} :
    (lastIndex (fun s => decide (s = t)) ss = -1 ∧ t ∉ ss) ∨
      ∃ k : Nat, lastIndex (fun s => decide (s = t)) ss = k ∧ ss[k]? = some t ∧ t ∉ ss.drop (k + 1) := by
  obtain ⟨-, h1, -, h3⟩ := C28_index_meaning t ss
  have hge := lastIndex_ge (p := fun s => decide (s = t)) (l := ss)
  by_cases h : lastIndex (fun s => decide (s = t)) ss = -1
  · exact .inl ⟨h, h3.1 h⟩
  · obtain ⟨k, hk⟩ : ∃ k : Nat, lastIndex (fun s => decide (s = t)) ss = k := ⟨_, (Int.toNat_of_nonneg (by omega)).symm⟩
    exact .inr ⟨k, hk, h1 k hk⟩

/-- A call which follows the rules -/
theorem step_good {q : (Cell → Cell → M Int) → Block → Block} (hq : QsortContract q)
    {bs : (Cell → Cell → M Int) → Cell → Block → Option Nat} (hb : BsearchContract bs) {st : State} {w : World} {pss : List (List Nat)}
    (I : Inv st w pss) (op : Op) (hp : Pre w op) :
    ∃ o st' w' pss', exec q bs st op = .ok (o, st') ∧ Does w op o w' ∧ Inv st' w' pss' := by
  obtain ⟨hv, hs, hp⟩ := hp
  cases op with
  | newStr s =>
    refine ⟨_, _, _, pss, rfl, ⟨rfl, rfl⟩, I.len, I.wlen, ?_, ?_, ?_⟩
    · intro i v ps ss h1 h2 h3
      have G := I.vec i v ps ss h1 h2 h3
      exact ⟨G.holds, strings_extend _ G.strings⟩
    · exact strings_append (strings_extend _ I.own) (strings_new st.heap [s])
    · intro a
      have h1 := I.count a
      dsimp only
      rw [List.count_append, List.count_singleton]
      rcases Nat.lt_trichotomy a st.heap.length with h | h | h
      · rw [alive_eq (h := st.heap) (List.getElem?_append_left h), if_neg (by simp; omega)]
        omega
      · rw [alive_some (s := s) (by simp [h]), if_pos (by simp [h])]
        rw [alive_ge (by omega)] at h1
        omega
      · rw [alive_ge (by simp; omega), if_neg (by simp; omega)]
        rw [alive_ge (by omega)] at h1
        omega
  | freeStr k =>
    have hk : k < w.own.length := hp
    have hk' : k < st.own.length := by rw [strings_length I.own]; exact hk
    obtain ⟨t, ht, ht'⟩ := strings_getElem? I.own (List.getElem?_eq_getElem hk')
    have hcount : ∀ a, (st.own.eraseIdx k).count a + (if a = st.own[k] then 1 else 0) = st.own.count a := by
      intro a
      have := (perm_eraseIdx hk').count_eq a
      rw [List.count_cons] at this
      rw [← this]
      congr 1
      by_cases e : a = st.own[k]
      · simp [e]
      · rw [if_neg e, if_neg (by simp; exact fun h => e h.symm)]
    have hone : ∀ a ∈ st.own.eraseIdx k, a ≠ st.own[k] := by
      rintro a ha rfl
      have h1 := hcount st.own[k]
      rw [if_pos rfl] at h1
      have h2 := List.one_le_count_iff.2 ha
      have h3 := I.count st.own[k]
      have h4 := alive_le st.heap st.own[k]
      omega
    refine ⟨.none, ⟨st.heap.set st.own[k] none, st.vecs, st.own.eraseIdx k⟩, _, pss, ?_, ⟨rfl, rfl⟩, I.len, I.wlen, ?_, ?_, ?_⟩
    · simp only [exec, State.src, List.getElem?_eq_getElem hk', ok_bind, gfree_ok ht']
    · intro i v ps ss h1 h2 h3
      have G := I.vec i v ps ss h1 h2 h3
      refine ⟨G.holds, strings_keep (fun a ha => set_none_other ?_) G.strings⟩
      rintro rfl
      have h4 := count_flatten_one h2 st.own[k]
      have h5 := I.count st.own[k]
      have h6 := alive_le st.heap st.own[k]
      have h7 := List.one_le_count_iff.2 ha
      have h8 := List.one_le_count_iff.2 (List.getElem_mem hk')
      omega
    · exact strings_keep (fun a ha => set_none_other (hone a ha)) (strings_eraseIdx I.own)
    · intro a
      have h1 := I.count a
      have h2 := hcount a
      dsimp only
      by_cases e : a = st.own[k]
      · rw [if_pos e] at h2
        have h3 := alive_some ht'
        have h4 : alive (st.heap.set st.own[k] none) a = 0 := by
          rw [e]; simp [alive, List.getElem?_set_self (List.getElem?_eq_some_iff.1 ht').1]
        rw [← e] at h3
        omega
      · rw [if_neg e] at h2
        rw [alive_eq (h := st.heap) (set_none_other e)]
        omega
  | newVec =>
    refine ⟨_, _, _, pss ++ [[]], rfl, ⟨rfl, rfl⟩, by simp [I.len], by simp [I.wlen], ?_, I.own, ?_⟩
    · intro i v ps ss h1 h2 h3
      have e1 := I.len
      have e2 := I.wlen
      dsimp only at h1 h2 h3
      rcases Nat.lt_or_ge i st.vecs.length with h | h
      · rw [List.getElem?_append_left (by omega)] at h1 h2 h3
        exact I.vec i v ps ss h1 h2 h3
      · rw [List.getElem?_append_right (by omega)] at h1 h2 h3
        rw [e1] at h2
        rw [e2] at h3
        rcases Nat.eq_zero_or_pos (i - st.vecs.length) with h0 | h0
        · rw [h0] at h1 h2 h3
          cases h1; cases h2; cases h3
          exact ⟨.inl ⟨rfl, rfl⟩, rfl⟩
        · rw [List.getElem?_eq_none (by simp; omega)] at h1
          cases h1
    · intro a
      have := I.count a
      simp only [List.flatten_append, List.count_append]
      simpa using this
  | free i =>
    obtain ⟨v, ps, h1, h2, h3, O⟩ := I.get (hv i (by simp [Op.vecs]))
    obtain ⟨h', h4, h5⟩ := C30_free O
    refine ⟨.none, _, _, _, ?_, ⟨rfl, rfl⟩, I.shrink (h' := h') (v' := none) (ps' := []) (ss' := []) h2 O ⟨⟨.inl ⟨rfl, rfl⟩, rfl⟩, by simp⟩ (by simp) ?_⟩
    · simp only [exec, h3, ok_bind, h4]
      rfl
    · simpa using h5
  | add i s =>
    obtain ⟨v, ps, h1, h2, h3, O⟩ := I.get (hv i (by simp [Op.vecs]))
    obtain ⟨p, k1, k2, k3, -⟩ := I.src_ok (hs s (by simp [Op.srcs]))
    cases p with
    | none =>
      refine ⟨.none, st, w, pss, ?_, ⟨rfl, ?_⟩, I⟩
      · simp only [exec, h3, ok_bind, k1, (C29_add_null st.heap v []).1, State.setVec, State.set_self h1]
      · rw [k3 rfl]; simp [World.setVec_self]
    | some a =>
      obtain ⟨t, k4, k5⟩ := k2 a rfl
      obtain ⟨h', v', e1, e2, e3, e4⟩ := C29_add O k5
      have J := I.grow (n := 1) h2 O e2 e3 e4
      refine ⟨.none, _, _, _, ?_, ⟨rfl, ?_⟩, J⟩
      · simp only [exec, h3, ok_bind, k1, e1]
        rfl
      · rw [k4]
        rfl
  | addv i l =>
    obtain ⟨v, ps, h1, h2, h3, O⟩ := I.get (hv i (by simp [Op.vecs]))
    obtain ⟨qs, k1, k2⟩ := I.args_ok (l := l) (fun s h => hs s h)
    cases qs with
    | nil =>
      refine ⟨.none, st, w, pss, ?_, ⟨rfl, ?_⟩, I⟩
      · simp only [exec, h3, ok_bind, k1, List.head?_nil, List.tail_nil, (C29_add_null st.heap v []).2, State.setVec, State.set_self h1]
      · rw [strings_nil.1 k2, List.append_nil, World.setVec_self]
    | cons a qs =>
      obtain ⟨t, ts, e, k3, k4⟩ : ∃ t ts, w.args l = t :: ts ∧ st.heap[a]? = some (some t) ∧ Strings st.heap qs ts := by
        obtain ⟨t, ts, h⟩ := strings_cons k2
        exact ⟨t, ts, h⟩
      obtain ⟨h', v', e1, e2, e3, e4⟩ := C29_addv O k3 k4
      have J := I.grow (n := qs.length + 1) h2 O e2 e3 (by rw [e4, strings_length k4]; omega)
      refine ⟨.none, _, _, _, ?_, ⟨rfl, ?_⟩, J⟩
      · simp only [exec, h3, ok_bind, k1, List.head?_cons, List.tail_cons, e1]
        rfl
      · rw [e]
        rfl
  | removeAt i pos free =>
    obtain ⟨v, ps, h1, h2, h3, O⟩ := I.get (hv i (by simp [Op.vecs]))
    have hlen := strings_length O.strings
    by_cases hpos : 0 ≤ pos ∧ pos < (w.vec i).length
    · obtain ⟨n, rfl⟩ : ∃ n : Nat, pos = n := ⟨pos.toNat, by omega⟩
      have hn : n < (w.vec i).length := by omega
      obtain ⟨h', v', a, e1, e2, e3, e4⟩ := C30_remove_at O n hn free
      obtain ⟨t, ht, ht'⟩ := strings_getElem? O.strings e2
      have hmem : a ∈ ps := List.mem_of_getElem? e2
      have hnp : n < ps.length := by omega
      have han : ps[n] = a := by
        rw [List.getElem?_eq_getElem hnp] at e2; exact Option.some.inj e2
      have herase : ∀ x, x ∈ ps.eraseIdx n ↔ x ∈ ps ∧ x ≠ a := by
        intro x; rw [mem_eraseIdx_iff_ne O.nodup hnp, han]
      cases free with
      | true =>
        refine ⟨.none, ⟨h', st.vecs.set i v', st.own⟩, ⟨w.vecs.set i ((w.vec i).eraseIdx n), w.own⟩, _, ?_, ⟨rfl, fun _ => rfl, fun h => absurd hpos h⟩, I.shrink h2 O e3 (List.eraseIdx_sublist _ _) ?_⟩
        · simp only [exec, taken, h3, ok_bind, e1, Bool.true_eq_false, and_false, if_false, Option.toList_none, List.append_nil]
        · have : (fun x => decide (x ∈ ps) && decide (x ∉ ps.eraseIdx n)) = fun x => true && decide (x = a) := by
            funext x
            by_cases e : x = a
            · subst e; simp [hmem, herase]
            · by_cases hx : x ∈ ps <;> simp [hx, herase, e]
          rw [this]
          exact e4
      | false =>
        have hh : h' = st.heap := by
          refine List.ext_getElem? (fun x => ?_)
          rcases Nat.lt_or_ge x st.heap.length with hx | hx
          · rw [e4.2 x hx]; simp
          · rw [List.getElem?_eq_none hx, List.getElem?_eq_none (by have := e4.1; omega)]
        subst hh
        refine ⟨.none, ⟨st.heap, st.vecs.set i v', st.own ++ [a]⟩, ⟨w.vecs.set i ((w.vec i).eraseIdx n), w.own ++ [t]⟩, _, ?_,
          ⟨rfl, fun _ => ?_, fun h => absurd hpos h⟩, I.upd h2 e3.toIs ?_ (fun _ _ _ _ _ => rfl) ?_⟩
        · have e0 : at_ v n = .ok (some a) := by rw [at_ok O.holds, e2]
          have e5 : taken v (n : Int) false = .ok (some a) := by
            rw [taken, if_pos ⟨by omega, rfl⟩, Int.toNat_natCast, e0]
          simp only [exec, h3, ok_bind, e5, e1]
          rfl
        · simp [World.setVec, ht]
        · exact strings_append I.own (strings_mk ht' rfl)
        · intro x
          have := (perm_eraseIdx hnp).count_eq x
          rw [han, List.count_cons] at this
          rw [List.count_append, List.count_singleton]
          omega
    · refine ⟨.none, st, w, pss, ?_, ⟨rfl, fun h => absurd h hpos, fun _ => rfl⟩, I⟩
      have e1 := C30_remove_at_out_of_range O.toIs pos (by omega) free
      have e2 : taken v pos free = .ok none := by
        unfold taken
        split
        · rename_i hc
          rw [at_ok O.holds, List.getElem?_eq_none (by omega)]
        · rfl
      simp only [exec, h3, ok_bind, e1, e2, Option.toList_none, List.append_nil, State.set_self h1]
  | remove i s all =>
    obtain ⟨v, ps, h1, h2, h3, O⟩ := I.get (hv i (by simp [Op.vecs]))
    obtain ⟨p, k1, k2, k3, k4⟩ := I.src_ok (hs s (by simp [Op.srcs]))
    have hp : all = true → ∀ j, s ≠ .elem i j := hp
    cases p with
    | none =>
      refine ⟨.none, st, w, pss, ?_, ⟨rfl, fun t ht => ?_, fun _ => rfl⟩, I⟩
      · have : remove st.heap v none all = .ok (st.heap, v) := by
          unfold remove; split
          · rename_i e; cases e
          · rfl
        simp only [exec, h3, ok_bind, k1, this, State.setVec, State.set_self h1]
      · rw [k3 rfl] at ht; cases ht
    | some a =>
      obtain ⟨t, k5, k6⟩ := k2 a rfl
      have key : ∃ h' v' ps', remove st.heap v (some a) all = .ok (h', v') ∧ Owns h' v' ps' (without t all (w.vec i)) ∧ ps'.Sublist ps ∧
          Released st.heap h' (fun x => decide (x ∈ ps) && decide (x ∉ ps')) := by
        cases all with
        | false => exact C31_remove_own_string_partial O k6
        | true => exact C30_remove O k6 (k4 a i ps rfl (hp rfl) h2) true
      obtain ⟨h', v', ps', e1, e2, e3, e4⟩ := key
      refine ⟨.none, _, _, _, ?_, ⟨rfl, fun t' ht' => ?_, fun hn => ?_⟩, I.shrink h2 O e2 e3 e4⟩
      · simp only [exec, h3, ok_bind, k1, e1]
        rfl
      · rw [k5] at ht'; cases ht'; rfl
      · rw [k5] at hn; cases hn
  | removeDups i =>
    obtain ⟨v, ps, h1, h2, h3, O⟩ := I.get (hv i (by simp [Op.vecs]))
    obtain ⟨h', v', ps', e1, e2, e3, e4⟩ := C32_remove_dups O
    refine ⟨.none, _, _, _, ?_, ⟨rfl, rfl⟩, I.shrink h2 O e2 e3 e4⟩
    simp only [exec, h3, ok_bind, e1]
    rfl
  | sort i asc =>
    obtain ⟨v, ps, h1, h2, h3, O⟩ := I.get (hv i (by simp [Op.vecs]))
    obtain ⟨v', ps', ss', e1, e2, e3, e4, e5⟩ := C34_sort hq O.toIs asc
    refine ⟨.none, _, _, _, ?_, ⟨rfl, ss', e4, e5, rfl⟩, I.reorder h2 e2 e3⟩
    simp only [exec, h3, ok_bind, e1]
    rfl
  | strip i =>
    obtain ⟨v, ps, h1, h2, h3, O⟩ := I.get (hv i (by simp [Op.vecs]))
    obtain ⟨h', e1, e2, e3, e4⟩ := C35_strip O
    have J := I.upd_vec h2 e2.toIs (fun a s ha _ => e4 a ha) (fun a => by
      by_cases ha : a ∈ ps
      · rw [count_pos_live O.strings ha, count_pos_live e2.strings ha]
      · rw [alive_eq (h := st.heap) (e4 a ha)])
    rw [State.set_self h1] at J
    refine ⟨.none, _, _, _, ?_, ⟨rfl, rfl⟩, J⟩
    simp only [exec, h3, ok_bind, e1]
  | length i =>
    obtain ⟨v, ps, h1, h2, h3, O⟩ := I.get (hv i (by simp [Op.vecs]))
    refine ⟨_, st, w, pss, ?_, ⟨rfl, rfl⟩, I⟩
    simp only [exec, h3, ok_bind, (C28_lookup O.toIs).1]
  | «at» i j =>
    obtain ⟨v, ps, h1, h2, h3, O⟩ := I.get (hv i (by simp [Op.vecs]))
    obtain ⟨p, e1, e2, e3⟩ := (C28_lookup O.toIs).2.1 j
    refine ⟨_, st, w, pss, ?_, ⟨rfl, rfl⟩, I⟩
    simp only [exec, h3, ok_bind, e1]
    rw [see_ok (s := (w.vec i)[j]?) e2 (fun hn => List.getElem?_eq_none (e3.1 hn)), ok_bind]
  | last i =>
    obtain ⟨v, ps, h1, h2, h3, O⟩ := I.get (hv i (by simp [Op.vecs]))
    obtain ⟨p, e1, e2, e3⟩ := (C28_lookup O.toIs).2.2
    refine ⟨_, st, w, pss, ?_, ⟨rfl, rfl⟩, I⟩
    simp only [exec, h3, ok_bind, e1]
    rw [see_ok (s := (w.vec i).getLast?) e2 (fun hn => by rw [e3.1 hn]; rfl), ok_bind]
  | find i s =>
    obtain ⟨v, ps, h1, h2, h3, O⟩ := I.get (hv i (by simp [Op.vecs]))
    obtain ⟨p, k1, k2, k3, -⟩ := I.src_ok (hs s (by simp [Op.srcs]))
    cases p with
    | none =>
      refine ⟨.int (-1), st, w, pss, ?_, ⟨rfl, .inl ⟨rfl, fun t ht => ?_⟩⟩, I⟩
      · simp only [exec, h3, ok_bind, k1, (C28_null O.toIs).2.1]
      · rw [k3 rfl] at ht; cases ht
    | some a =>
      obtain ⟨t, k4, k5⟩ := k2 a rfl
      refine ⟨.int (firstIndex (fun s => decide (s = t)) (w.vec i)), st, w, pss, ?_, ⟨rfl, ?_⟩, I⟩
      · simp only [exec, h3, ok_bind, k1, (C28_find O.toIs k5).1]
      · rcases find_meaning (t := t) (ss := w.vec i) with ⟨e, hn⟩ | ⟨k, e, hk⟩
        · exact .inl ⟨by rw [e], fun t' ht' => by rw [k4] at ht'; cases ht'; exact hn⟩
        · exact .inr ⟨k, t, by rw [e], k4, hk⟩
  | findLast i s =>
    obtain ⟨v, ps, h1, h2, h3, O⟩ := I.get (hv i (by simp [Op.vecs]))
    obtain ⟨p, k1, k2, k3, -⟩ := I.src_ok (hs s (by simp [Op.srcs]))
    cases p with
    | none =>
      refine ⟨.int (-1), st, w, pss, ?_, ⟨rfl, .inl ⟨rfl, fun t ht => ?_⟩⟩, I⟩
      · simp only [exec, h3, ok_bind, k1, (C28_null O.toIs).2.2.1]
      · rw [k3 rfl] at ht; cases ht
    | some a =>
      obtain ⟨t, k4, k5⟩ := k2 a rfl
      refine ⟨.int (lastIndex (fun s => decide (s = t)) (w.vec i)), st, w, pss, ?_, ⟨rfl, ?_⟩, I⟩
      · simp only [exec, h3, ok_bind, k1, (C28_find O.toIs k5).2.1]
      · rcases findLast_meaning (t := t) (ss := w.vec i) with ⟨e, hn⟩ | ⟨k, e, hk⟩
        · exact .inl ⟨by rw [e], fun t' ht' => by rw [k4] at ht'; cases ht'; exact hn⟩
        · exact .inr ⟨k, t, by rw [e], k4, hk⟩
  | contains i s =>
    obtain ⟨v, ps, h1, h2, h3, O⟩ := I.get (hv i (by simp [Op.vecs]))
    obtain ⟨p, k1, k2, k3, -⟩ := I.src_ok (hs s (by simp [Op.srcs]))
    cases p with
    | none =>
      refine ⟨.bool false, st, w, pss, ?_, ⟨rfl, false, rfl, ?_⟩, I⟩
      · simp only [exec, h3, ok_bind, k1, (C28_null O.toIs).2.2.2]
      · rw [k3 rfl]; simp
    | some a =>
      obtain ⟨t, k4, k5⟩ := k2 a rfl
      refine ⟨.bool (decide (t ∈ w.vec i)), st, w, pss, ?_, ⟨rfl, _, rfl, ?_⟩, I⟩
      · simp only [exec, h3, ok_bind, k1, (C28_find O.toIs k5).2.2]
      · rw [k4]; simp
  | bsearch i s asc =>
    obtain ⟨v, ps, h1, h2, h3, O⟩ := I.get (hv i (by simp [Op.vecs]))
    obtain ⟨p, k1, k2, k3, -⟩ := I.src_ok (hs s (by simp [Op.srcs]))
    have hp : Sorted asc (w.vec i) := hp
    cases p with
    | none =>
      refine ⟨.int (-1), st, w, pss, ?_, ⟨rfl, .inl ⟨rfl, fun t ht => ?_⟩⟩, I⟩
      · simp only [exec, h3, ok_bind, k1, C34_bsearch_null]
      · rw [k3 rfl] at ht; cases ht
    | some a =>
      obtain ⟨t, k4, k5⟩ := k2 a rfl
      obtain ⟨k, e1, e2⟩ := C34_bsearch hb O.toIs asc hp k5
      refine ⟨.int k, st, w, pss, ?_, ⟨rfl, ?_⟩, I⟩
      · simp only [exec, h3, ok_bind, k1, e1]
      · rcases e2 with ⟨n, rfl, hn⟩ | ⟨rfl, hn⟩
        · exact .inr ⟨n, t, rfl, k4, hn⟩
        · exact .inl ⟨rfl, fun t' ht' => by rw [k4] at ht'; cases ht'; exact hn⟩
  | equal i j =>
    obtain ⟨v, ps, h1, h2, h3, O⟩ := I.get (hv i (by simp [Op.vecs]))
    obtain ⟨v', ps', h1', h2', h3', O'⟩ := I.get (hv j (by simp [Op.vecs]))
    refine ⟨_, st, w, pss, ?_, ⟨rfl, rfl⟩, I⟩
    have := C33_equal O.toIs O'.toIs (decide (i = j)) (by
      intro e
      simp at e
      subst e
      rw [h1] at h1'
      exact Option.some.inj h1')
    simp only [exec, h3, h3', ok_bind, this]

/-- A number of calls -/
theorem run_good {q : (Cell → Cell → M Int) → Block → Block} (hq : QsortContract q)
    {bs : (Cell → Cell → M Int) → Cell → Block → Option Nat} (hb : BsearchContract bs) : ∀ (ops : List Op) {st : State} {w : World} {pss : List (List Nat)},
    Inv st w pss → Allowed w ops → ∃ os st' w' pss', run q bs st ops = .ok (os, st') ∧ Run w ops os w' ∧ Inv st' w' pss'
  | [], st, w, pss, I, _ => ⟨[], st, w, pss, rfl, .nil, I⟩
  | op :: ops, st, w, pss, I, ha => by
    obtain ⟨o, st1, w1, pss1, h1, h2, I1⟩ := step_good hq hb I op ha.1
    obtain ⟨os, st2, w2, pss2, h3, h4, I2⟩ := run_good hq hb ops I1 (ha.2 o w1 h2)
    refine ⟨o :: os, st2, w2, pss2, ?_, .cons h2 h4, I2⟩
    simp only [run, h1, ok_bind, h3]

theorem inv_init : Inv init ⟨[], []⟩ [] := by
  refine ⟨rfl, rfl, ?_, rfl, ?_⟩
  · intro i v ps ss h
    simp [init] at h
  · intro a
    simp [init, alive]

end Verif.Strv
