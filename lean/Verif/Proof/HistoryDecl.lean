import Verif.Proof.HistorySim

namespace Verif.History
open Verif.C Spec

theorem lastN_of_le {α : Type} {n : Nat} {l : List α} (h : l.length ≤ n) : lastN n l = l := by
  unfold lastN
  rw [show l.length - n = 0 by omega]
  rfl

theorem lastN_cons {α : Type} {n : Nat} {a : α} {l : List α} (h : n ≤ l.length) :
    lastN n (a :: l) = lastN n l := by
  unfold lastN
  rw [List.length_cons, show l.length + 1 - n = (l.length - n) + 1 by omega, List.drop_succ_cons]

theorem lastN_length {α : Type} (n : Nat) (l : List α) : (lastN n l).length = min n l.length := by
  unfold lastN; rw [List.length_drop]; omega

theorem lastN_concat {α : Type} {n : Nat} (hn : 0 < n) (l : List α) (x : α) :
    lastN n (l ++ [x]) = lastN (n - 1) l ++ [x] := by
  unfold lastN
  rw [List.length_append, List.length_singleton, List.drop_append_of_le_length (by omega),
    show l.length + 1 - n = l.length - (n - 1) by omega]

theorem lastN_lastN {α : Type} {n m : Nat} (h : m ≤ n) (l : List α) : lastN m (lastN n l) = lastN m l := by
  unfold lastN
  rw [List.drop_drop, List.length_drop]
  congr 1
  omega

theorem live_all {I now : Int} {l : List Sample} (h : ∀ s ∈ l, now - I ≤ s.time) : live I now l = l := by
  unfold live
  rw [List.filter_eq_self]
  intro s hs
  simpa using h s hs

theorem live_lastN {I now : Int} (n : Nat) : ∀ {l : List Sample}, Sorted l →
    live I now (lastN n l) = lastN n (live I now l)
  | [], _ => by simp [live, lastN]
  | a :: t, hs => by
    have hs' := hs
    rw [Sorted, List.pairwise_cons] at hs
    by_cases hn : n ≤ t.length
    · rw [lastN_cons hn, live_lastN n hs.2]
      by_cases hd : now - I ≤ a.time
      · have ht : ∀ s ∈ t, now - I ≤ s.time := fun s hsm => by have := hs.1 s hsm; omega
        rw [live_all ht, live_all (l := a :: t), lastN_cons hn]
        intro s hsm
        rcases List.mem_cons.1 hsm with rfl | hsm
        · exact hd
        · exact ht s hsm
      · congr 1
        unfold live
        rw [List.filter_cons, if_neg (by simpa using hd)]
    · rw [lastN_of_le (by rw [List.length_cons]; omega), lastN_of_le]
      have : (live I now (a :: t)).length ≤ (a :: t).length := List.length_filter_le _ _
      rw [List.length_cons] at this
      omega

theorem live_live {I t now : Int} (h : t ≤ now) (l : List Sample) : live I now (live I t l) = live I now l := by
  unfold live
  rw [List.filter_filter]
  congr 1
  funext s
  rw [Bool.eq_iff_iff]
  simp only [Bool.and_eq_true, decide_eq_true_eq]
  omega

theorem live_append {I now : Int} (a b : List Sample) : live I now (a ++ b) = live I now a ++ live I now b := by
  simp [live]

theorem sorted_concat {A : List Sample} {s : Sample} (hs : Sorted (A ++ [s])) :
    Sorted A ∧ ∀ x ∈ A, x.time < s.time := by
  rw [Sorted, List.pairwise_append] at hs
  exact ⟨hs.1, fun x hx => hs.2.2 x hx s (by simp)⟩

theorem record_decl {n : Nat} (hn : 0 < n) {I now v : Int} (hI : 0 < I) {A : List Sample} (hs : Sorted A)
    (hA : ∀ s ∈ A, s.time ≤ now) :
    record n (lastN n (live I now A)) v now =
      lastN n (live I now (A.filter (fun s => decide (s.time ≠ now)) ++ [⟨now, v⟩])) := by
  have hnew : live I now [⟨now, v⟩] = [⟨now, v⟩] := by
    simp [live]; omega
  rw [live_append, hnew]
  rcases List.eq_nil_or_concat A with rfl | ⟨B, s, rfl⟩
  · have e : lastN n (live I now []) = [] := by simp [live, lastN]
    rw [e, List.filter_nil, lastN_of_le]
    · rfl
    · simp [live]; omega
  · rw [List.concat_eq_append] at *
    obtain ⟨hB, hlt⟩ := sorted_concat hs
    have hsn : s.time ≤ now := hA s (by simp)
    by_cases e : s.time = now
    · have hf : (B ++ [s]).filter (fun s => decide (s.time ≠ now)) = B := by
        rw [List.filter_append, List.filter_eq_self.2, List.filter_cons, if_neg (by simpa using e)]
        · simp
        · intro x hx
          have := hlt x hx
          simp only [decide_eq_true_eq]
          omega
      have hsl : live I now [s] = [s] := by simp [live]; omega
      rw [hf, live_append, hsl, lastN_concat hn, lastN_concat hn]
      unfold record
      rw [List.getLast?_concat]
      dsimp only
      rw [if_neg (by omega), List.dropLast_concat, e]
    · have hf : (B ++ [s]).filter (fun s => decide (s.time ≠ now)) = B ++ [s] := by
        rw [List.filter_eq_self]
        intro x hx
        rcases List.mem_append.1 hx with hx | hx
        · have := hlt x hx
          simp only [decide_eq_true_eq]
          omega
        · simp at hx; subst hx; simpa using e
      rw [hf]
      have key : ∀ q : List Sample, (∀ x ∈ q, x.time < now) → record n q v now = lastN n (q ++ [⟨now, v⟩]) := by
        intro q hq
        unfold record
        rcases hl : q.getLast? with _ | y
        · rw [List.getLast?_eq_none_iff] at hl
          subst hl
          simp only [List.nil_append]
          rw [lastN_of_le (by rw [List.length_singleton]; omega)]
        · dsimp only
          rw [if_pos (hq y (List.mem_of_getLast? hl))]
      rw [key]
      · rw [lastN_concat hn, lastN_concat hn, lastN_lastN (by omega)]
      · intro x hx
        have hx := (mem_live.1 ((lastN_suffix n _).subset hx)).1
        rcases List.mem_append.1 hx with hx | hx
        · have := hlt x hx; omega
        · simp at hx; subst hx; omega

theorem added_sorted {A : List Sample} {now v : Int} (hs : Sorted A) (hA : ∀ s ∈ A, s.time ≤ now) :
    Sorted (A.filter (fun s => decide (s.time ≠ now)) ++ [⟨now, v⟩]) ∧
    ∀ s ∈ A.filter (fun s => decide (s.time ≠ now)) ++ [⟨now, v⟩], s.time ≤ now := by
  constructor
  · rw [Sorted, List.pairwise_append]
    refine ⟨hs.filter _, by simp, ?_⟩
    intro a ha b hb
    simp at hb; subst hb
    rw [List.mem_filter] at ha
    have h1 := hA a ha.1
    have h2 : a.time ≠ now := by simpa using ha.2
    show a.time < now
    omega
  · intro s hsm
    rcases List.mem_append.1 hsm with h | h
    · exact hA s (List.mem_filter.1 h).1
    · simp at h; subst h; show now ≤ now; omega

theorem contents_decl {n : Nat} (hn : 0 < n) {I : Int} (hI : 0 < I) :
    ∀ (ops : List Op) (t : Int) (A : List Sample), Sorted A → (∀ s ∈ A, s.time ≤ t) → Monotonic t ops →
      contents n I (lastN n (live I t A)) ops = lastN n (live I (clock t ops) (added A ops))
  | [], t, A, _, _, _ => rfl
  | op :: ops, t, A, hs, hA, hm => by
    have look : ∀ now, t ≤ now → Monotonic now ops →
        contents n I (live I now (lastN n (live I t A))) ops = lastN n (live I (clock now ops) (added A ops)) := by
      intro now h1 h2
      rw [live_lastN n (live_sorted _ _ hs), live_live h1]
      exact contents_decl hn hI ops now A hs (fun s h => by have := hA s h; omega) h2
    cases op with
    | size now => exact look now hm.1 hm.2
    | interval now => exact look now hm.1 hm.2
    | median d now => exact look now hm.1 hm.2
    | clear =>
      have := contents_decl hn hI ops t [] List.Pairwise.nil (by simp) hm
      have e : lastN n (live I t []) = [] := by simp [live, lastN]
      rw [e] at this
      exact this
    | add v now =>
      have hA' : ∀ s ∈ A, s.time ≤ now := fun s h => by have := hA s h; have := hm.1; omega
      obtain ⟨k1, k2⟩ := added_sorted (v := v) hs hA'
      have := contents_decl hn hI ops now _ k1 k2 hm.2
      rw [← record_decl hn hI hs hA'] at this
      rw [contents, next, live_lastN n (live_sorted _ _ hs), live_live hm.1, this]
      rfl

theorem record_length {n : Nat} (hn : 0 < n) {l : List Sample} {v now : Int} (hl : l.length ≤ n) :
    (record n l v now).length ≤ n := by
  unfold record
  split
  · rw [List.length_singleton]; omega
  · rename_i s hsl
    split
    · rw [lastN_length]; omega
    · have : l ≠ [] := by rintro rfl; simp at hsl
      have := List.length_pos_iff.2 this
      rw [List.length_append, List.length_dropLast, List.length_singleton]
      omega

theorem next_length {n : Nat} (hn : 0 < n) {I : Int} {l : List Sample} (op : Op) (hl : l.length ≤ n) :
    (next n I l op).length ≤ n := by
  have hlive : ∀ now, (live I now l).length ≤ n := fun now => by
    have : (live I now l).length ≤ l.length := List.length_filter_le _ _
    omega
  cases op with
  | size now => exact hlive now
  | interval now => exact hlive now
  | median d now => exact hlive now
  | clear => simp [next]
  | add v now => exact record_length hn (hlive now)

theorem area_bounds {m M : Int} : ∀ {l : List Sample}, Sorted l →
    (∀ s ∈ l, m ≤ s.value ∧ s.value ≤ M) → m * duration l ≤ area l ∧ area l ≤ M * duration l
  | [], _, _ => by simp [area, duration]
  | [_], _, _ => by simp [area, duration]
  | a :: b :: t, hs, hv => by
    rw [Sorted, List.pairwise_cons] at hs
    have hab := hs.1 b (by simp)
    obtain ⟨i1, i2⟩ := area_bounds (m := m) (M := M) hs.2 (fun s h => hv s (List.mem_cons_of_mem _ h))
    have va := hv a (by simp)
    have vb := hv b (by simp)
    rw [area, duration, Int.mul_add m, Int.mul_add M]
    have p1 : (b.time - a.time) * (2 * m) ≤ (b.time - a.time) * (a.value + b.value) :=
      Int.mul_le_mul_of_nonneg_left (by omega) (by omega)
    have p2 : (b.time - a.time) * (a.value + b.value) ≤ (b.time - a.time) * (2 * M) :=
      Int.mul_le_mul_of_nonneg_left (by omega) (by omega)
    have e1 : (b.time - a.time) * (2 * m) = (m * (b.time - a.time)) * 2 := by
      rw [Int.mul_comm m, Int.mul_assoc, Int.mul_comm 2 m]
    have e2 : (b.time - a.time) * (2 * M) = (M * (b.time - a.time)) * 2 := by
      rw [Int.mul_comm M, Int.mul_assoc, Int.mul_comm 2 M]
    have q1 := (tdiv_between (m := m * (b.time - a.time)) (d := 2)
      (x := (b.time - a.time) * (a.value + b.value)) (by decide)).1 (by omega)
    have q2 := (tdiv_between (m := M * (b.time - a.time)) (d := 2)
      (x := (b.time - a.time) * (a.value + b.value)) (by decide)).2 (by omega)
    exact ⟨Int.add_le_add q1 i1, Int.add_le_add q2 i2⟩

theorem average_bounds {m M : Int} {l : List Sample} (hne : l ≠ []) (hs : Sorted l)
    (hv : ∀ s ∈ l, m ≤ s.value ∧ s.value ≤ M) : m ≤ average l ∧ average l ≤ M := by
  rcases l with _ | ⟨a, _ | ⟨b, t⟩⟩
  · exact absurd rfl hne
  · exact hv a (by simp)
  · obtain ⟨h1, h2⟩ := area_bounds hs hv
    exact ⟨(tdiv_between (duration_pos hs)).1 h1, (tdiv_between (duration_pos hs)).2 h2⟩

theorem next_sorted {n : Nat} {I : Int} {l : List Sample} (op : Op) (hs : Sorted l) : Sorted (next n I l op) := by
  cases op with
  | size now => exact live_sorted _ _ hs
  | interval now => exact live_sorted _ _ hs
  | median d now => exact live_sorted _ _ hs
  | clear => exact List.Pairwise.nil
  | add v now => exact record_sorted (live_sorted _ _ hs)

theorem contents_sorted {n : Nat} {I : Int} : ∀ (ops : List Op) {l : List Sample}, Sorted l → Sorted (contents n I l ops)
  | [], _, h => h
  | op :: ops, _, h => contents_sorted ops (next_sorted op h)

theorem contents_length {n : Nat} (hn : 0 < n) {I : Int} : ∀ (ops : List Op) {l : List Sample}, l.length ≤ n →
    (contents n I l ops).length ≤ n
  | [], _, h => h
  | op :: ops, _, h => contents_length hn ops (next_length hn op h)

theorem view_samples {h : Hist} {l : List Sample} (v : View h l) : samples h = l := by
  unfold samples
  by_cases hl : l = []
  · subst hl
    rw [if_pos (by have := (v.empty rfl).2; omega)]
  · obtain ⟨l0, l1, -⟩ := v.last hl
    obtain ⟨f0, f1, f2⟩ := v.ends hl
    have hfit := v.fits
    have hpos := List.length_pos_iff.2 hl
    have hidx := idx_nat (i := l.length - 1) f0 f1 (by omega)
    rw [← f2] at hidx
    rw [if_neg (by omega)]
    have hn : (if h.first > h.last then h.maxSize + h.last - h.first + 1 else h.last - h.first + 1) = l.length := by
      split at hidx <;> split <;> omega
    dsimp only
    rw [hn, Int.toNat_natCast]
    have key : ∀ i (hi : i < l.length), h.entry[((h.first + i) % h.maxSize).toNat]? = some l[i] := by
      intro i hi
      rw [← v.holds hl i hi]
      congr 1
      unfold idx
      split
      · rw [Int.emod_eq_of_lt (by omega) (by omega)]
      · rw [← Int.sub_emod_right, Int.emod_eq_of_lt (by omega) (by omega)]
    clear hn hidx f2 hl
    have gen : ∀ k, k ≤ l.length → (List.range k).filterMap
        (fun (i : Nat) => h.entry[((h.first + i) % h.maxSize).toNat]?) = l.take k := by
      intro k
      induction k with
      | zero => intro _; simp
      | succ k ih =>
        intro hk
        rw [List.range_succ, List.filterMap_append, ih (by omega), List.take_succ_eq_append_getElem (by omega)]
        simp [key k (by omega)]
    rw [gen l.length (by omega), List.take_length]

theorem run_append {mode : Mode} : ∀ (a b : List Op) (h : Hist),
    run mode h (a ++ b) = (do
      let (os, h) ← run mode h a
      let (os', h) ← run mode h b
      .ok (os ++ os', h))
  | [], b, h => by
    rw [List.nil_append, run, ok_bind]
    dsimp only
    rcases run mode h b with e | ⟨os, h'⟩
    · rfl
    · rfl
  | op :: a, b, h => by
    rw [List.cons_append, run, run]
    rcases exec mode h op with e | ⟨o, h1⟩
    · rfl
    · rw [ok_bind, ok_bind]
      dsimp only
      rw [run_append a b h1]
      rcases run mode h1 a with e | ⟨os, h2⟩
      · rfl
      · rw [ok_bind, ok_bind, ok_bind]
        dsimp only
        rcases run mode h2 b with e | ⟨os', h3⟩
        · rfl
        · rfl

theorem contents_append {n : Nat} {I : Int} : ∀ (ops : List Op) (op : Op) {l : List Sample},
    contents n I l (ops ++ [op]) = next n I (contents n I l ops) op
  | [], _, _ => rfl
  | _ :: ops, op, _ => contents_append ops op

theorem times_le : ∀ (ops : List Op) (l : List Sample) (t now : Int) (n : Nat) (I : Int),
    (∀ s ∈ l, s.time ≤ t) → Monotonic t (ops ++ [.interval now]) →
    ∀ s ∈ contents n I l ops, s.time ≤ now
  | [], l, t, now, n, I, hl, hm, s, hs => by
    have := hl s hs
    have := hm.1
    omega
  | op :: ops, l, t, now, n, I, hl, hm, s, hs => by
    have look : ∀ t', t ≤ t' → ∀ s ∈ live I t' l, s.time ≤ t' := by
      intro t' h s hs
      have := hl s (mem_live.1 hs).1
      omega
    cases op with
    | size t' => exact times_le ops _ t' now n I (look t' hm.1) hm.2 s hs
    | interval t' => exact times_le ops _ t' now n I (look t' hm.1) hm.2 s hs
    | median d t' => exact times_le ops _ t' now n I (look t' hm.1) hm.2 s hs
    | clear => exact times_le ops [] t now n I (by simp) hm s hs
    | add v t' =>
      refine times_le ops (record n (live I t' l) v t') t' now n I ?_ hm.2 s hs
      intro x hx
      rcases record_mem hx with hx | ⟨-, ⟨e, -⟩ | ⟨y, hy, e⟩⟩
      · exact look t' hm.1 x hx
      · omega
      · have := look t' hm.1 y hy; omega

end Verif.History
