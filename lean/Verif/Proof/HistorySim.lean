import Verif.Proof.History

namespace Verif.History
open Verif.C Spec

structure Good (mode : Mode) (n : Nat) (I V lo : Int) (h : Hist) (l : List Sample) : Prop where
  view : View h l
  size : h.maxSize = n
  intv : h.maxInterval = I
  sorted : Sorted l
  times : ∀ s ∈ l, TimeOk lo s.time
  vals : mode = .strict → Vals V l
  dur : duration l ≤ I

/-- The parameters for which the arithmetic is fine. -/
structure Params (mode : Mode) (n : Nat) (I V lo : Int) : Prop where
  n0 : 0 < n
  n1 : n ≤ 2147483647
  I0 : 0 < I
  I1 : int64Min ≤ lo - I
  I2 : I ≤ int64Max
  V0 : 0 ≤ V
  V1 : mode = .strict → 2 * V ≤ 2147483647
  IV : mode = .strict → I * (2 * V) ≤ int64Max

def OpOk (mode : Mode) (n : Nat) (V lo : Int) (op : Op) : Prop :=
  (∀ now, op.now? = some now → TimeOk lo now) ∧
  (mode = .strict → ∀ v now, op = .add v now → -V ≤ v ∧ v ≤ V) ∧
  (mode = .strict → op.isSize = true → n ≤ 1073741824)

/-- `o` is what is expected; with overflows ignored, nothing is said of the averages. -/
def Agrees (mode : Mode) (op : Op) (o r : Int) : Prop :=
  (mode = .strict ∨ match op with | .add _ _ | .median _ _ => False | _ => True) → o = r

theorem duration_live {I now : Int} {l : List Sample} (hs : Sorted l) (hi : duration l ≤ I) (hI : 0 < I) :
    duration (live I now l) ≤ I := by
  rcases hq : live I now l with _ | ⟨a, t⟩
  · simp only [duration]; omega
  · have hq' := hq
    obtain ⟨s, hsl⟩ : ∃ s, (a :: t).getLast? = some s := by simp [List.getLast?_cons]
    rw [duration_eq hsl]
    have ha : a ∈ l := (mem_live (i := I) (now := now).1 (by rw [hq]; simp)).1
    have hsm : s ∈ l := (mem_live (i := I) (now := now).1 (by rw [hq]; exact List.mem_of_getLast? hsl)).1
    rcases l with _ | ⟨b, u⟩
    · simp at ha
    obtain ⟨e, hel⟩ : ∃ s, (b :: u).getLast? = some s := by simp [List.getLast?_cons]
    rw [duration_eq hel] at hi
    have h1 := sorted_last hs hel s hsm
    have h2 : b.time ≤ a.time := by
      rw [Sorted, List.pairwise_cons] at hs
      rcases List.mem_cons.1 ha with rfl | ha
      · omega
      · have := hs.1 a ha; omega
    omega

theorem lastN_suffix {α : Type} (n : Nat) (l : List α) : (lastN n l).Sublist l :=
  List.drop_sublist _ _

theorem record_mem {n : Nat} {l : List Sample} {v now : Int} {x : Sample} (h : x ∈ record n l v now) :
    x ∈ l ∨ (x.value = v ∧ ((x.time = now ∧ ∀ s, l.getLast? = some s → s.time < now) ∨
      ∃ s ∈ l, x.time = s.time)) := by
  unfold record at h
  rcases hl : l.getLast? with _ | s
  · rw [hl] at h
    simp at h; subst h; simp
  · rw [hl] at h
    dsimp only at h
    split at h
    rename_i hsn
    · have := (lastN_suffix n _).subset h
      rcases List.mem_append.1 this with h | h
      · exact .inl h
      · simp at h; subst h; right; exact ⟨rfl, .inl ⟨rfl, by intro y hy; cases hy; exact hsn⟩⟩
    · rcases List.mem_append.1 h with h | h
      · exact .inl (List.dropLast_subset _ h)
      · simp at h; subst h; right; exact ⟨rfl, .inr ⟨s, List.mem_of_getLast? hl, rfl⟩⟩

theorem record_sorted {n : Nat} {l : List Sample} {v now : Int} (hs : Sorted l) : Sorted (record n l v now) := by
  unfold record
  rcases hl : l.getLast? with _ | s
  · simp [Sorted]
  · dsimp only
    split
    · refine List.Pairwise.sublist (lastN_suffix n _) ?_
      rw [List.pairwise_append]
      refine ⟨hs, by simp, ?_⟩
      intro a ha b hb
      simp at hb; subst hb
      have := sorted_last hs hl a ha
      show a.time < now
      omega
    · rw [Sorted, List.pairwise_append]
      refine ⟨List.Pairwise.sublist (List.dropLast_sublist _) hs, by simp, ?_⟩
      intro a ha b hb
      simp at hb; subst hb
      have hne : l ≠ [] := by rintro rfl; simp at hl
      rw [List.getLast?_eq_some_getLast hne] at hl
      have e : l = l.dropLast ++ [s] := by
        rw [← List.dropLast_concat_getLast hne]
        simp at hl
        simp [hl]
      rw [Sorted, e, List.pairwise_append] at hs
      exact hs.2.2 a ha s (by simp)

theorem record_ne_nil {n : Nat} (hn : 0 < n) {l : List Sample} {v now : Int} : record n l v now ≠ [] := by
  unfold record
  split
  · simp
  · split
    · unfold lastN
      rw [Ne, List.drop_eq_nil_iff]
      simp only [List.length_append, List.length_cons, List.length_nil]
      omega
    · simp

theorem getLast?_drop' {α : Type} {l : List α} {k : Nat} (h : k < l.length) : (l.drop k).getLast? = l.getLast? := by
  rw [List.getLast?_drop, if_neg (by omega)]

theorem record_last {n : Nat} (hn : 0 < n) {l : List Sample} {v now : Int} :
    ∃ s, (record n l v now).getLast? = some s ∧ s.value = v ∧ (s.time = now ∨ l.getLast?.map Sample.time = some s.time) := by
  unfold record
  rcases hl : l.getLast? with _ | s
  · exact ⟨⟨now, v⟩, by simp, rfl, .inl rfl⟩
  · dsimp only
    split
    · refine ⟨⟨now, v⟩, ?_, rfl, .inl rfl⟩
      unfold lastN
      rw [getLast?_drop' (by simp only [List.length_append, List.length_cons, List.length_nil]; omega)]
      simp
    · exact ⟨⟨s.time, v⟩, by simp, rfl, .inr (by simp)⟩

theorem record_duration {n : Nat} (hn : 0 < n) {I v now : Int} {l : List Sample} (hs : Sorted l)
    (hI : 0 < I) (hd : duration l ≤ I) (hlive : ∀ s ∈ l, now - I ≤ s.time) :
    duration (record n l v now) ≤ I := by
  obtain ⟨s, h1, h2, h3⟩ := record_last (n := n) (now := now) (v := v) (l := l) hn
  rcases hr : record n l v now with _ | ⟨a, t⟩
  · exact absurd hr (record_ne_nil hn)
  · rw [hr] at h1
    rw [duration_eq h1]
    have ha := record_mem (n := n) (l := l) (v := v) (now := now) (x := a) (by rw [hr]; simp)
    have hsorted := record_sorted (n := n) (v := v) (now := now) hs
    rw [hr] at hsorted
    have ham := sorted_last hsorted h1 a (by simp)
    have key : now - I ≤ a.time := by
      rcases ha with ha | ⟨-, ⟨ha, hb'⟩ | ⟨x, hx, ha⟩⟩
      · exact hlive _ ha
      · omega
      · rw [ha]; exact hlive _ hx
    rcases h3 with h3 | h3
    · omega
    · -- the last time is unchanged
      rcases l with _ | ⟨b, u⟩
      · simp at h3
      · obtain ⟨e, hel⟩ : ∃ s, (b :: u).getLast? = some s := by simp [List.getLast?_cons]
        rw [duration_eq hel] at hd
        rw [hel] at h3
        simp at h3
        have hb : ∀ x ∈ b :: u, b.time ≤ x.time := by
          intro x hx
          rw [Sorted, List.pairwise_cons] at hs
          rcases List.mem_cons.1 hx with rfl | hx
          · omega
          · have := hs.1 x hx; omega
        rcases ha with ha | ⟨-, ⟨ha, hb'⟩ | ⟨x, hx, ha⟩⟩
        · have := hb _ ha; omega
        · have := hb' e hel; omega
        · have := hb x hx; omega

theorem sim {mode : Mode} {n : Nat} {I V lo : Int} (P : Params mode n I V lo) {h : Hist} {l : List Sample}
    (g : Good mode n I V lo h l) (op : Op) (ho : OpOk mode n V lo op) :
    ∃ o h', exec mode h op = .ok (o, h') ∧ Good mode n I V lo h' (next n I l op) ∧
      Agrees mode op o (result n I l op) := by
  obtain ⟨n0, n1, I0, I1, I2, V0, V1, IV⟩ := P
  obtain ⟨v, e1, e2, hs, htm, hvl, hd⟩ := g
  subst e2
  have liveGood : ∀ (h' : Hist) (now : Int), View h' (live h.maxInterval now l) → h'.maxSize = h.maxSize →
      h'.maxInterval = h.maxInterval → Good mode n h.maxInterval V lo h' (live h.maxInterval now l) := by
    intro h' now v' e3 e4
    exact { view := v', size := by omega, intv := e4, sorted := live_sorted _ _ hs
            times := fun s hsm => htm s (mem_live.1 hsm).1
            vals := fun hm s hsm => hvl hm s (mem_live.1 hsm).1
            dur := duration_live hs hd I0 }
  have hdm : ∀ (l' : List Sample), duration l' ≤ h.maxInterval → duration l' ≤ h.maxInterval := fun _ h => h
  have hImax : h.maxInterval ≤ int64Max := I2
  have hVV : mode = .strict → 2 * V ≤ 2147483647 ∧ h.maxInterval * (2 * V) ≤ int64Max :=
    fun e => ⟨V1 e, IV e⟩
  cases op with
  | size now =>
    obtain ⟨h', hx, v', e3, e4⟩ := size_ok mode now v hs (ho.1 now rfl) I0 I1 (fun hm => by have := ho.2.2 hm rfl; omega)
    exact ⟨_, h', hx, liveGood h' now v' e3 e4, fun _ => rfl⟩
  | interval now =>
    obtain ⟨h', hx, v', e3, e4⟩ := interval_ok mode now v hs (ho.1 now rfl) I0 I1 htm
    exact ⟨_, h', hx, liveGood h' now v' e3 e4, fun _ => rfl⟩
  | clear =>
    refine ⟨0, clear h, rfl, ?_, fun _ => rfl⟩
    have := v.maxPos
    exact { view := { maxPos := v.maxPos, maxInt := v.maxInt, len := v.len
                      fits := by show ((0 : Nat) : Int) ≤ h.maxSize; omega
                      empty := fun _ => ⟨rfl, rfl⟩
                      ends := fun e => absurd rfl e
                      holds := fun e => absurd rfl e }
            size := e1, intv := rfl, sorted := List.Pairwise.nil
            times := by simp [next], vals := by simp [next, Vals]
            dur := by simp only [next, duration]; omega }
  | add x now =>
    obtain ⟨h', hx, v', e3, e4⟩ := record_ok mode x now v hs (ho.1 now rfl) I0 I1
    have en : h.maxSize.toNat = n := by omega
    rw [en] at v'
    have hsr := record_sorted (n := n) (v := x) (now := now) (live_sorted h.maxInterval now hs)
    have hdr := record_duration (n := n) (v := x) n0 (live_sorted h.maxInterval now hs) I0 (duration_live (now := now) hs hd I0)
      (fun s hsm => (mem_live.1 hsm).2)
    have hvr : mode = .strict → Vals V (record n (live h.maxInterval now l) x now) := by
      intro hm s hsm
      rcases record_mem hsm with hsm | ⟨e, -⟩
      · exact hvl hm s (mem_live.1 hsm).1
      · rw [e]; exact ho.2.1 hm x now rfl
    obtain ⟨r, hr, hr2⟩ := medianAt_ok mode v' (record_ne_nil n0) hsr hImax V0 hVV hvr hdr
    refine ⟨r, h', ?_, ?_, ?_⟩
    · show add mode h x now = _
      rw [add, hx, ok_bind, hr, ok_bind]
    · exact { view := v', size := by omega, intv := e4, sorted := hsr
              times := by
                intro s hsm
                rcases record_mem hsm with hsm | ⟨-, ⟨e, -⟩ | ⟨y, hy, e⟩⟩
                · exact htm s (mem_live.1 hsm).1
                · rw [e]; exact ho.1 now rfl
                · rw [e]; exact htm y (mem_live.1 hy).1
              vals := hvr, dur := hdr }
    · rintro (hm | hm)
      · exact hr2 hm
      · exact hm.elim
  | median d now =>
    by_cases hne : l = []
    · subst hne
      have h2 := (v.empty rfl).2
      refine ⟨d, h, ?_, liveGood h now v rfl rfl, ?_⟩
      · show median mode h d now = _
        rw [median, if_neg (by omega)]
      · intro _
        simp [result, live]
    · obtain ⟨h', hf, v', e3, e4⟩ := flush_ok mode now v hne hs (ho.1 now rfl) I0 I1
      have hg := liveGood h' now v' e3 e4
      by_cases hq : live h.maxInterval now l = []
      · refine ⟨d, h', ?_, hg, ?_⟩
        · show median mode h d now = _
          rw [median, if_pos (v.nonneg_iff.2 hne), hf, ok_bind]
          dsimp only
          rw [if_neg (by simp [hq])]
        · intro _; rw [result, if_pos hq]
      · obtain ⟨r, hr, hr2⟩ := medianAt_ok mode v' hq hg.sorted hImax V0 hVV hg.vals hg.dur
        refine ⟨r, h', ?_, hg, ?_⟩
        · show median mode h d now = _
          rw [median, if_pos (v.nonneg_iff.2 hne), hf, ok_bind]
          dsimp only
          rw [if_pos (by simpa using hq), hr, ok_bind]
        · rintro (hm | hm)
          · rw [result, if_neg hq]; exact hr2 hm
          · exact hm.elim

/-- The outputs of a history agree with the expected ones. -/
def AgreesAll (mode : Mode) : List Op → List Int → List Int → Prop
  | [], [], [] => True
  | op :: ops, o :: os, r :: rs => Agrees mode op o r ∧ AgreesAll mode ops os rs
  | _, _, _ => False

theorem sim_run {mode : Mode} {n : Nat} {I V lo : Int} (P : Params mode n I V lo) :
    ∀ (ops : List Op) {h : Hist} {l : List Sample}, Good mode n I V lo h l → (∀ op ∈ ops, OpOk mode n V lo op) →
      ∃ os h', run mode h ops = .ok (os, h') ∧ Good mode n I V lo h' (contents n I l ops) ∧
        AgreesAll mode ops os (results n I l ops)
  | [], h, l, g, _ => ⟨[], h, rfl, g, trivial⟩
  | op :: ops, h, l, g, ho => by
    obtain ⟨o, h1, hx, g1, ha⟩ := sim P g op (ho op (by simp))
    obtain ⟨os, h2, hx2, g2, ha2⟩ := sim_run P ops g1 (fun op hop => ho op (by simp [hop]))
    refine ⟨o :: os, h2, ?_, g2, ha, ha2⟩
    rw [run, hx, ok_bind]
    dsimp only
    rw [hx2, ok_bind]

theorem new_good {mode : Mode} {n : Nat} {I V lo : Int} (P : Params mode n I V lo) :
    ∃ h, new n I = some h ∧ Good mode n I V lo h [] := by
  obtain ⟨n0, n1, I0, I1, I2, V0, V1, IV⟩ := P
  refine ⟨_, by rw [new, if_pos ⟨by omega, by omega⟩], ?_⟩
  exact { view := { maxPos := by show (0 : Int) < n; omega, maxInt := by show (n : Int) ≤ _; omega
                    len := by simp
                    fits := by show ((0 : Nat) : Int) ≤ n; omega
                    empty := fun _ => ⟨rfl, rfl⟩
                    ends := fun e => absurd rfl e
                    holds := fun e => absurd rfl e }
          size := rfl, intv := rfl, sorted := List.Pairwise.nil
          times := by simp, vals := by simp [Vals]
          dur := by simp only [duration]; omega }

theorem agrees_strict : ∀ {ops : List Op} {os rs : List Int}, AgreesAll .strict ops os rs → os = rs
  | [], [], [], _ => rfl
  | op :: ops, o :: os, r :: rs, h => by
    rw [h.1 (.inl rfl), agrees_strict h.2]

end Verif.History
