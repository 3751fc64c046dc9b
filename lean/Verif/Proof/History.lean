import Verif.Model.History
import Verif.Proof.CBasic

namespace Verif.History
open Verif.C Spec

/-- The samples `l` are found from the position `pos` on. -/
def Holds (h : Hist) (pos : Int) (l : List Sample) : Prop :=
  ∀ (i : Nat) (hi : i < l.length), h.entry[idx pos h.maxSize i]? = some l[i]

structure View (h : Hist) (l : List Sample) : Prop where
  maxPos : 0 < h.maxSize
  maxInt : h.maxSize ≤ 2147483647
  len : h.entry.length = h.maxSize.toNat
  fits : (l.length : Int) ≤ h.maxSize
  empty : l = [] → h.first = -1 ∧ h.last = -1
  ends : l ≠ [] → 0 ≤ h.first ∧ h.first < h.maxSize ∧ h.last = idx h.first h.maxSize (l.length - 1)
  holds : l ≠ [] → Holds h h.first l

def stepPos (h : Hist) (pos : Int) : Int := if pos + 1 < h.maxSize then pos + 1 else pos + 1 - h.maxSize

theorem stepPos_range {h : Hist} {pos : Int} (_ : 0 ≤ pos) (_ : pos < h.maxSize) :
    0 ≤ stepPos h pos ∧ stepPos h pos < h.maxSize := by
  unfold stepPos; split <;> omega

theorem idx_step {h : Hist} {pos : Int} {i : Nat} (h0 : 0 ≤ pos) (h1 : pos < h.maxSize)
    (hi : (i : Int) + 1 ≤ h.maxSize) :
    idx (stepPos h pos) h.maxSize i = idx pos h.maxSize (i + 1) := by
  have := stepPos_range h0 h1
  unfold idx stepPos
  split <;> split <;> split <;> omega

theorem idx_zero {h : Hist} {pos : Int} (_ : 0 ≤ pos) (h1 : pos < h.maxSize) :
    idx pos h.maxSize 0 = pos.toNat := by
  unfold idx; simp [h1]

theorem Holds.tail {h : Hist} {pos : Int} {a : Sample} {t : List Sample} (hh : Holds h pos (a :: t))
    (h0 : 0 ≤ pos) (h1 : pos < h.maxSize) (hl : ((a :: t).length : Int) ≤ h.maxSize) :
    Holds h (stepPos h pos) t := by
  intro i hi
  simp only [List.length_cons] at hl
  rw [idx_step h0 h1 (by omega), hh (i + 1) (by simpa using hi)]
  simp

theorem Holds.head {h : Hist} {pos : Int} {a : Sample} {t : List Sample} (hh : Holds h pos (a :: t))
    (h0 : 0 ≤ pos) (h1 : pos < h.maxSize) : rd h.entry pos = .ok a := by
  have := hh 0 (by simp)
  rw [idx_zero h0 h1] at this
  exact rd_ok h0 (by simpa using this)

theorem step_ok {h : Hist} {pos : Int} (h0 : 0 ≤ pos) (h1 : pos < h.maxSize) (hm : h.maxSize ≤ 2147483647) :
    chk32 (pos + 1) = .ok (pos + 1) ∧ cMod (pos + 1) h.maxSize = .ok (stepPos h pos) := by
  constructor
  · exact chk32_ok (by omega) (by omega)
  · rw [cMod_ok (by omega) (by omega)]; rfl

theorem flushLoop_ok {h : Hist} {cutoff : Int} (hm : h.maxSize ≤ 2147483647) :
    ∀ (l : List Sample) (pos : Int) (fuel : Nat), Holds h pos l → 0 ≤ pos → pos < h.maxSize →
      (l.length : Int) ≤ h.maxSize → l.length ≤ fuel → (∃ s ∈ l, cutoff ≤ s.time) →
      ∃ p, flushLoop h cutoff fuel pos = .ok p ∧ 0 ≤ p ∧ p < h.maxSize ∧
        Holds h p (l.dropWhile (fun s => decide (s.time < cutoff))) ∧
        idx p h.maxSize ((l.dropWhile (fun s => decide (s.time < cutoff))).length - 1)
          = idx pos h.maxSize (l.length - 1)
  | [], _, _, _, _, _, _, _, hex => by simp at hex
  | a :: t, pos, 0, _, _, _, _, hf, _ => by simp at hf
  | a :: t, pos, fuel + 1, hh, h0, h1, hl, hf, hex => by
    rw [flushLoop, hh.head h0 h1, ok_bind]
    by_cases hc : a.time < cutoff
    · have hs := step_ok h0 h1 hm
      have ht : ∃ s ∈ t, cutoff ≤ s.time := by
        obtain ⟨s, hs, hsc⟩ := hex
        rcases List.mem_cons.1 hs with rfl | hs
        · omega
        · exact ⟨s, hs, hsc⟩
      have htl : 0 < t.length := by
        obtain ⟨s, hs, _⟩ := ht
        exact List.length_pos_of_mem hs
      have hr := stepPos_range h0 h1
      have hl' := hl
      simp only [List.length_cons] at hl hf
      obtain ⟨p, hp, hp0, hp1, hph, hpi⟩ := flushLoop_ok hm t (stepPos h pos) fuel (hh.tail h0 h1 hl') hr.1 hr.2
        (by omega) (by omega) ht
      refine ⟨p, ?_, hp0, hp1, ?_, ?_⟩
      · rw [if_pos hc, hs.1, ok_bind, hs.2, ok_bind, hp]
      · simpa [List.dropWhile_cons, hc] using hph
      · rw [List.dropWhile_cons, if_pos (by simpa using hc), hpi, idx_step h0 h1 (by omega)]
        congr 1
        simp only [List.length_cons]
        omega
    · rw [if_neg hc]
      refine ⟨pos, rfl, h0, h1, ?_, ?_⟩
      · simpa [List.dropWhile_cons, hc] using hh
      · simp [hc]

def Sorted (l : List Sample) : Prop := l.Pairwise (fun a b => a.time < b.time)

theorem live_dropWhile {interval now : Int} : ∀ {l : List Sample}, Sorted l →
    live interval now l = l.dropWhile (fun s => decide (s.time < now - interval))
  | [], _ => rfl
  | a :: t, hs => by
    unfold live
    rw [List.filter_cons, List.dropWhile_cons]
    rw [Sorted, List.pairwise_cons] at hs
    by_cases hc : a.time < now - interval
    · rw [if_neg (by simpa using hc), if_pos (by simpa using hc)]
      exact live_dropWhile hs.2
    · rw [if_pos (by simpa using hc), if_neg (by simpa using hc)]
      congr 1
      rw [List.filter_eq_self]
      intro s h
      have := hs.1 s h
      simp only [decide_eq_true_eq]
      omega

theorem sorted_last {l : List Sample} {s : Sample} (hs : Sorted l) (hl : l.getLast? = some s) :
    ∀ x ∈ l, x.time ≤ s.time := by
  intro x hx
  have hne : l ≠ [] := by rintro rfl; simp at hx
  rw [List.getLast?_eq_some_getLast hne] at hl
  have e : l = l.dropLast ++ [s] := by
    rw [← List.dropLast_concat_getLast hne]
    simp at hl
    simp [hl]
  rw [e, Sorted, List.pairwise_append] at hs
  rw [e] at hx
  rcases List.mem_append.1 hx with hx | hx
  · have := hs.2.2 x hx s (by simp)
    omega
  · simp at hx; subst hx; omega

theorem View.last {h : Hist} {l : List Sample} (v : View h l) (hne : l ≠ []) :
    0 ≤ h.last ∧ h.last < h.maxSize ∧ ∃ s, l.getLast? = some s ∧ h.entry[h.last.toNat]? = some s := by
  obtain ⟨h0, h1, h2⟩ := v.ends hne
  have hp : 0 < l.length := List.length_pos_iff.2 hne
  have := v.fits
  have e := idx_nat (i := l.length - 1) h0 h1 (by omega)
  refine ⟨by omega, ?_, ?_⟩
  · rw [h2, e]; split <;> omega
  · refine ⟨l[l.length - 1], ?_, ?_⟩
    · rw [List.getLast?_eq_getElem?, List.getElem?_eq_getElem]
    · rw [h2]
      simpa using v.holds hne (l.length - 1) (by omega)

/-- The clock and the interval are such that the differences fit. -/
def TimeOk (lo now : Int) : Prop := lo ≤ now ∧ now ≤ lo + int64Max ∧ now ≤ int64Max

theorem flush_ok {lo : Int} {h : Hist} {l : List Sample} (mode : Mode) (now : Int) (v : View h l) (hne : l ≠ [])
    (hs : Sorted l) (ht : TimeOk lo now) (hi0 : 0 < h.maxInterval) (hi : int64Min ≤ lo - h.maxInterval) :
    ∃ h', flush mode h now = .ok (decide (live h.maxInterval now l ≠ []), h') ∧
      View h' (live h.maxInterval now l) ∧ h'.maxSize = h.maxSize ∧ h'.maxInterval = h.maxInterval := by
  obtain ⟨hl0, hl1, s, hsl, hse⟩ := v.last hne
  obtain ⟨t1, t2, t3⟩ := ht
  rw [flush, arith64_ok mode (by omega) (by omega), ok_bind,
    rd_ok hl0 hse, ok_bind]
  have hmem : s ∈ l := List.mem_of_getLast? hsl
  by_cases hc : s.time ≥ now - h.maxInterval
  · obtain ⟨e0, e1, e2⟩ := v.ends hne
    have hfit := v.fits
    obtain ⟨p, hp, hp0, hp1, hph, hpi⟩ := flushLoop_ok (cutoff := now - h.maxInterval) v.maxInt l h.first
      h.maxSize.toNat (v.holds hne) e0 e1 v.fits (by omega) ⟨s, hmem, hc⟩
    rw [← live_dropWhile hs] at hph hpi
    have hne' : live h.maxInterval now l ≠ [] := by
      intro e
      have : s ∈ live h.maxInterval now l := by
        unfold live
        rw [List.mem_filter]
        exact ⟨hmem, by simpa using hc⟩
      simp [e] at this
    refine ⟨{ h with first := p }, ?_, ?_, rfl, rfl⟩
    · rw [if_pos hc, hp, ok_bind]; simp [hne']
    · exact { maxPos := v.maxPos, maxInt := v.maxInt, len := v.len
              fits := by
                have : (live h.maxInterval now l).length ≤ l.length := List.length_filter_le _ _
                have := v.fits
                show ((live h.maxInterval now l).length : Int) ≤ h.maxSize
                omega
              empty := fun e => absurd e hne'
              ends := fun _ => ⟨hp0, hp1, by rw [hpi]; exact e2⟩
              holds := fun _ => hph }
  · have he : live h.maxInterval now l = [] := by
      unfold live
      rw [List.filter_eq_nil_iff]
      intro x hx
      have := sorted_last hs hsl x hx
      simp only [decide_eq_true_eq]
      omega
    refine ⟨{ h with first := -1, last := -1 }, ?_, ?_, rfl, rfl⟩
    · rw [if_neg hc, he]; rfl
    · rw [he]
      exact { maxPos := v.maxPos, maxInt := v.maxInt, len := v.len
              fits := by have := v.maxPos; show ((0:Nat) : Int) ≤ h.maxSize; omega
              empty := fun _ => ⟨rfl, rfl⟩
              ends := fun e => absurd rfl e
              holds := fun e => absurd rfl e }

theorem View.nonneg_iff {h : Hist} {l : List Sample} (v : View h l) : h.last ≥ 0 ↔ l ≠ [] := by
  constructor
  · rintro h0 rfl
    have := (v.empty rfl).2
    omega
  · intro hne
    exact (v.last hne).1

theorem mem_live {i now : Int} {l : List Sample} {a : Sample} :
    a ∈ live i now l ↔ a ∈ l ∧ now - i ≤ a.time := by
  simp [live]

theorem live_sorted {l : List Sample} (i n : Int) (h : Sorted l) : Sorted (live i n l) :=
  List.Pairwise.filter _ h

theorem toUInt32_ok {x : Int} (h0 : 0 ≤ x) (h1 : x < 4294967296) : (toUInt32 x : Int) = x := by
  rw [toUInt32, BitVec.toNat_ofInt]
  omega

theorem arith32_wrap (x : Int) : arith32 .wrap x = .ok (toInt32 x) := rfl

theorem toUInt32_wrap3 (a b : Int) : toUInt32 (toInt32 (toInt32 (toInt32 a - b) + 1)) = toUInt32 (a - b + 1) := by
  unfold toUInt32 toInt32
  congr 1
  apply BitVec.eq_of_toInt_eq
  simp only [BitVec.toInt_ofInt, Int.bmod_def]
  split <;> split <;> split <;> split <;> split <;> omega

theorem size_ok {lo : Int} {h : Hist} {l : List Sample} (mode : Mode) (now : Int) (v : View h l)
    (hs : Sorted l) (ht : TimeOk lo now) (hi0 : 0 < h.maxInterval) (hi : int64Min ≤ lo - h.maxInterval)
    (hm : mode = .strict → h.maxSize ≤ 1073741824) :
    ∃ h', size mode h now = .ok (((live h.maxInterval now l).length : Int), h') ∧
      View h' (live h.maxInterval now l) ∧ h'.maxSize = h.maxSize ∧ h'.maxInterval = h.maxInterval := by
  by_cases hne : l = []
  · subst hne
    have h2 := (v.empty rfl).2
    refine ⟨h, ?_, v, rfl, rfl⟩
    rw [size, if_neg (by omega)]; rfl
  · obtain ⟨h', hf, v', e1, e2⟩ := flush_ok mode now v hne hs ht hi0 hi
    refine ⟨h', ?_, v', e1, e2⟩
    rw [size, if_pos (v.nonneg_iff.2 hne), hf, ok_bind]
    dsimp only
    by_cases hn : live h.maxInterval now l = []
    · rw [if_neg (by simp [hn]), hn]; rfl
    · obtain ⟨f0, f1, f2⟩ := v'.ends hn
      obtain ⟨l0, l1, -⟩ := v'.last hn
      have hfit := v'.fits
      have hmx := v'.maxInt
      have hp : 0 < (live h.maxInterval now l).length := List.length_pos_iff.2 hn
      have hix := idx_nat (i := (live h.maxInterval now l).length - 1) f0 f1 (by omega)
      rw [← f2] at hix
      simp only [if_pos (show decide (live h.maxInterval now l ≠ []) = true by simpa using hn)]
      by_cases hw : h'.first > h'.last
      · have : h'.maxSize + h'.last - h'.first + 1 = ((live h.maxInterval now l).length : Int) := by
          split at hix <;> omega
        rw [if_pos hw]
        cases mode with
        | strict =>
          have hm := hm rfl
          rw [arith32_ok .strict (by omega) (by omega), ok_bind,
            arith32_ok .strict (by omega) (by omega), ok_bind, arith32_ok .strict (by omega) (by omega), ok_bind]
          rw [this, toUInt32_ok (by omega) (by omega)]
        | wrap =>
          rw [arith32_wrap, ok_bind, arith32_wrap, ok_bind, arith32_wrap, ok_bind, toUInt32_wrap3, this,
            toUInt32_ok (by omega) (by omega)]
      · rw [if_neg hw, arith32_ok mode (by omega) (by omega), ok_bind,
          arith32_ok mode (by omega) (by omega), ok_bind]
        have : h'.last - h'.first + 1 = ((live h.maxInterval now l).length : Int) := by
          split at hix <;> omega
        rw [this, toUInt32_ok (by omega) (by omega)]

theorem interval_ok {lo : Int} {h : Hist} {l : List Sample} (mode : Mode) (now : Int) (v : View h l)
    (hs : Sorted l) (ht : TimeOk lo now) (hi0 : 0 < h.maxInterval) (hi : int64Min ≤ lo - h.maxInterval)
    (hlt : ∀ s ∈ l, TimeOk lo s.time) :
    ∃ h', interval mode h now =
        .ok ((match live h.maxInterval now l with | [] => 0 | s :: _ => now - s.time), h') ∧
      View h' (live h.maxInterval now l) ∧ h'.maxSize = h.maxSize ∧ h'.maxInterval = h.maxInterval := by
  by_cases hne : l = []
  · subst hne
    have h2 := (v.empty rfl).2
    refine ⟨h, ?_, v, rfl, rfl⟩
    rw [interval, if_neg (by omega)]; rfl
  · obtain ⟨h', hf, v', e1, e2⟩ := flush_ok mode now v hne hs ht hi0 hi
    refine ⟨h', ?_, v', e1, e2⟩
    rw [interval, if_pos (v.nonneg_iff.2 hne), hf, ok_bind]
    dsimp only
    rcases hn : live h.maxInterval now l with _ | ⟨s, t⟩
    · rw [if_neg (by simp)]
    · rw [hn] at v'
      obtain ⟨f0, f1, f2⟩ := v'.ends (by simp)
      have hin : s ∈ live h.maxInterval now l := by rw [hn]; simp
      obtain ⟨hmem, hsi⟩ := mem_live.1 hin
      obtain ⟨b1, b2, b3⟩ := hlt s hmem
      obtain ⟨t1, t2, t3⟩ := ht
      unfold int64Max at b2 t2
      rw [if_pos (show decide (s :: t ≠ []) = true by simp), (v'.holds (by simp)).head f0 f1, ok_bind,
        arith64_ok mode (by unfold int64Min; omega) (by unfold int64Max; omega), ok_bind]

/-- All the values are between `-V` and `V`. -/
def Vals (V : Int) (l : List Sample) : Prop := ∀ s ∈ l, -V ≤ s.value ∧ s.value ≤ V

theorem tdiv_between {x d m : Int} (hd : 0 < d) : (m * d ≤ x → m ≤ x.tdiv d) ∧ (x ≤ m * d → x.tdiv d ≤ m) := by
  have e := Int.mul_tdiv_cancel m (show d ≠ 0 by omega)
  constructor
  · intro h
    have := Int.tdiv_le_tdiv hd h
    omega
  · intro h
    have := Int.tdiv_le_tdiv hd h
    omega

theorem tdiv2_bound {p b : Int} (h1 : -(2 * b) ≤ p) (h2 : p ≤ 2 * b) :
    -b ≤ p.tdiv 2 ∧ p.tdiv 2 ≤ b :=
  ⟨(tdiv_between (by decide)).1 (by omega), (tdiv_between (by decide)).2 (by omega)⟩

theorem duration_nonneg : ∀ {l : List Sample}, Sorted l → 0 ≤ duration l
  | [], _ => by simp [duration]
  | [_], _ => by simp [duration]
  | a :: b :: t, h => by
    rw [Sorted, List.pairwise_cons] at h
    have h1 := h.1 b (by simp)
    have h2 := duration_nonneg h.2
    rw [duration]; omega

theorem duration_pos {a b : Sample} {t : List Sample} (h : Sorted (a :: b :: t)) :
    0 < duration (a :: b :: t) := by
  rw [Sorted, List.pairwise_cons] at h
  have h1 := h.1 b (by simp)
  have h2 := duration_nonneg h.2
  rw [duration]; omega

theorem duration_eq : ∀ {a : Sample} {t : List Sample} {s : Sample}, (a :: t).getLast? = some s →
    duration (a :: t) = s.time - a.time
  | a, [], s, h => by simp at h; subst h; simp [duration]
  | a, b :: t, s, h => by
    rw [List.getLast?_cons_cons] at h
    rw [duration, duration_eq h]; omega

theorem last_idx {h : Hist} {pos : Int} {n : Nat} (h0 : 0 ≤ pos) (h1 : pos < h.maxSize)
    (hn : (n : Int) < h.maxSize) : pos = (idx pos h.maxSize n : Nat) ↔ n = 0 := by
  rw [idx_nat h0 h1 (by omega)]
  split <;> omega

/-- What is known of the area which has been computed. -/
def AreaOk (mode : Mode) (V dt area : Int) : Prop :=
  mode = .strict → -(V * dt) ≤ area ∧ area ≤ V * dt

theorem medianLoop_ok {h : Hist} {D V : Int} (mode : Mode) (hm : h.maxSize ≤ 2147483647)
    (hD : D ≤ int64Max) (hV0 : 0 ≤ V) (hV : mode = .strict → 2 * V ≤ 2147483647 ∧ D * (2 * V) ≤ int64Max) :
    ∀ (t : List Sample) (a : Sample) (pos : Int) (fuel : Nat) (dt ar : Int),
      Holds h pos (a :: t) → 0 ≤ pos → pos < h.maxSize →
      ((a :: t).length : Int) ≤ h.maxSize → t.length < fuel →
      h.last = idx pos h.maxSize t.length → Sorted (a :: t) → (mode = .strict → Vals V (a :: t)) →
      0 ≤ dt → dt + duration (a :: t) ≤ D → AreaOk mode V dt ar →
      ∃ r, medianLoop mode h fuel pos a.value a.time dt ar = .ok (r, dt + duration (a :: t)) ∧
        (mode = .strict → r = ar + area (a :: t)) ∧ AreaOk mode V (dt + duration (a :: t)) r
  | _, _, _, 0, _, _, _, _, _, _, hf, _, _, _, _, _, _ => by omega
  | [], a, pos, fuel + 1, dt, ar, hh, h0, h1, hl, hf, hlast, hs, hv, hdt, hdD, ha => by
    have : ¬ (pos ≠ h.last) := by
      rw [hlast]
      exact fun hn => hn ((last_idx h0 h1 (by simp only [List.length_nil]; omega)).2 rfl)
    refine ⟨ar, ?_, fun _ => by simp [area], ?_⟩
    · rw [medianLoop, if_neg this]; simp [duration]
    · simpa [duration] using ha
  | b :: t, a, pos, fuel + 1, dt, ar, hh, h0, h1, hl, hf, hlast, hs, hv, hdt, hdD, ha => by
    have hne : pos ≠ h.last := by
      rw [hlast]
      intro e
      have := (last_idx h0 h1 (by simp only [List.length_cons] at hl ⊢; omega)).1 e
      simp at this
    have hst := step_ok h0 h1 hm
    have hr := stepPos_range h0 h1
    have hh' := hh.tail h0 h1 hl
    have hs' := hs
    rw [Sorted, List.pairwise_cons] at hs
    have hab := hs.1 b (by simp)
    have hdn := duration_nonneg hs.2
    have hlen := hl
    simp only [List.length_cons] at hl hf
    rw [duration] at hdD
    have hrec : ∀ ar', AreaOk mode V (dt + (b.time - a.time)) ar' → _ := fun ar' ha' =>
      medianLoop_ok mode hm hD hV0 hV t b (stepPos h pos) fuel (dt + (b.time - a.time)) ar' hh' hr.1 hr.2
        (by simp only [List.length_cons]; omega) (by omega)
        (by rw [hlast, List.length_cons, idx_step h0 h1 (by omega)]) hs.2
        (fun e s hsm => hv e s (List.mem_cons_of_mem _ hsm)) (by omega) (by omega) ha'
    rw [medianLoop, if_pos hne, hst.1, ok_bind, hst.2, ok_bind, hh'.head hr.1 hr.2, ok_bind]
    have hd : b.time - a.time ≤ D := by omega
    unfold int64Max at hD
    dsimp only
    rw [arith64_ok mode (by unfold int64Min; omega) (by unfold int64Max; omega), ok_bind,
      arith64_ok mode (by unfold int64Min; omega) (by unfold int64Max; omega), ok_bind]
    cases mode with
    | strict =>
      obtain ⟨v1, v2⟩ := hV rfl
      have ba := hv rfl a (by simp)
      have bb := hv rfl b (by simp)
      obtain ⟨ar1, ar2⟩ := ha rfl
      have p1 : -((b.time - a.time) * (2 * V)) ≤ (b.time - a.time) * (a.value + b.value) := by
        rw [← Int.mul_neg]
        exact Int.mul_le_mul_of_nonneg_left (by omega) (by omega)
      have p2 : (b.time - a.time) * (a.value + b.value) ≤ (b.time - a.time) * (2 * V) :=
        Int.mul_le_mul_of_nonneg_left (by omega) (by omega)
      have p3 : (b.time - a.time) * (2 * V) ≤ D * (2 * V) :=
        Int.mul_le_mul_of_nonneg_right (by omega) (by omega)
      have e2 : (b.time - a.time) * (2 * V) = 2 * ((b.time - a.time) * V) := by
        rw [Int.mul_left_comm]
      obtain ⟨q1, q2⟩ := tdiv2_bound (b := (b.time - a.time) * V) (p := (b.time - a.time) * (a.value + b.value))
        (by omega) (by omega)
      have e3 : V * (dt + (b.time - a.time)) = V * dt + (b.time - a.time) * V := by
        rw [Int.mul_add, Int.mul_comm V (b.time - a.time)]
      have hA : AreaOk .strict V (dt + (b.time - a.time))
          (ar + ((b.time - a.time) * (a.value + b.value)).tdiv 2) := by
        intro _
        rw [e3]
        constructor <;> omega
      have p4 : V * (dt + (b.time - a.time)) ≤ V * D :=
        Int.mul_le_mul_of_nonneg_left (by omega) hV0
      have p5 : D * (2 * V) = 2 * (V * D) := by rw [Int.mul_comm D, Int.mul_assoc]
      obtain ⟨A1, A2⟩ := hA rfl
      unfold int64Max at v2
      have hVD : 0 ≤ V * D := Int.mul_nonneg hV0 (by omega)
      rw [arith32_ok _ (by omega) (by omega), ok_bind,
        arith64_ok _ (by unfold int64Min; omega) (by unfold int64Max; omega), ok_bind,
        cDiv, if_neg (by decide), ok_bind,
        arith64_ok _ (by unfold int64Min; omega) (by unfold int64Max; omega), ok_bind]
      obtain ⟨r, hr1, hr2, hr3⟩ := hrec _ hA
      refine ⟨r, ?_, ?_, ?_⟩
      · rw [hr1, duration]; congr 2; omega
      · intro e; rw [hr2 e, area]; omega
      · rw [duration]; rw [Int.add_assoc] at hr3; exact hr3
    | wrap =>
      simp only [arith32, arith64, ok_bind, cDiv]
      rw [if_neg (by decide), ok_bind]
      obtain ⟨r, hr1, hr2, hr3⟩ := hrec (toInt64 (ar + (toInt64 ((b.time - a.time) * toInt32 (a.value + b.value))).tdiv 2))
        (by intro e; cases e)
      refine ⟨r, ?_, (fun e => by cases e), (fun e => by cases e)⟩
      rw [hr1, duration]; congr 2; omega

theorem medianAt_ok {h : Hist} {l : List Sample} {D V : Int} (mode : Mode) (v : View h l) (hne : l ≠ [])
    (hs : Sorted l) (hD : D ≤ int64Max) (hV0 : 0 ≤ V)
    (hV : mode = .strict → 2 * V ≤ 2147483647 ∧ D * (2 * V) ≤ int64Max)
    (hv : mode = .strict → Vals V l) (hdD : duration l ≤ D) :
    ∃ r, medianAt mode h = .ok r ∧ (mode = .strict → r = average l) := by
  obtain ⟨f0, f1, f2⟩ := v.ends hne
  obtain ⟨l0, l1, s, hsl, hse⟩ := v.last hne
  have hfit := v.fits
  rcases l with _ | ⟨a, _ | ⟨b, t⟩⟩
  · exact absurd rfl hne
  · have e : h.first = h.last := by
      rw [f2]; exact (last_idx f0 f1 (by omega)).2 rfl
    refine ⟨a.value, ?_, fun _ => rfl⟩
    rw [medianAt, if_pos e, rd_ok l0 hse, ok_bind]
    simp at hsl
    rw [hsl]
  · simp only [List.length_cons] at f2 hfit
    have e : h.first ≠ h.last := by
      rw [f2]
      intro e
      have := (last_idx f0 f1 (by omega)).1 e
      omega
    obtain ⟨r, hr, hr2, hr3⟩ := medianLoop_ok mode v.maxInt hD hV0 hV (b :: t) a h.first h.maxSize.toNat 0 0
      (v.holds hne) f0 f1 v.fits (by simp only [List.length_cons]; omega)
      (by rw [f2]; rfl) hs hv (by omega) (by omega) (fun _ => by simp)
    have hp := duration_pos hs
    rw [medianAt, if_neg e, (v.holds hne).head f0 f1, ok_bind, hr, ok_bind]
    dsimp only
    rw [cDiv, if_neg (by omega), ok_bind]
    refine ⟨_, rfl, ?_⟩
    intro hmode
    obtain ⟨b1, b2⟩ := hr3 hmode
    rw [hr2 hmode]
    rw [hr2 hmode] at b1 b2
    simp only [Int.zero_add] at b1 b2 ⊢
    obtain ⟨v1, -⟩ := hV hmode
    have k1 := (tdiv_between (x := area (a :: b :: t)) (m := -V) hp).1 (by rw [Int.neg_mul]; exact b1)
    have k2 := (tdiv_between (x := area (a :: b :: t)) (m := V) hp).2 b2
    rw [toInt32_ok (by omega) (by omega)]
    rfl

theorem idx_lt {h : Hist} {pos : Int} {n : Nat} (h0 : 0 ≤ pos) (h1 : pos < h.maxSize)
    (hn : (n : Int) ≤ h.maxSize) : idx pos h.maxSize n < h.maxSize.toNat := by
  have := idx_nat h0 h1 hn
  split at this <;> omega

theorem idx_inj {h : Hist} {pos : Int} {n m : Nat} (h0 : 0 ≤ pos) (h1 : pos < h.maxSize)
    (hn : (n : Int) < h.maxSize) (hm : (m : Int) < h.maxSize)
    (e : idx pos h.maxSize n = idx pos h.maxSize m) : n = m := by
  have a := idx_nat (i := n) h0 h1 (by omega)
  have b := idx_nat (i := m) h0 h1 (by omega)
  split at a <;> split at b <;> omega

theorem view_set {h : Hist} {pos : Int} {l : List Sample} (x : Sample) (hm0 : 0 < h.maxSize)
    (hm : h.maxSize ≤ 2147483647) (hlen : h.entry.length = h.maxSize.toNat)
    (hh : Holds h pos l) (h0 : 0 ≤ pos) (h1 : pos < h.maxSize) (hl : (l.length : Int) < h.maxSize) :
    View { h with first := pos, last := (idx pos h.maxSize l.length : Nat)
                  entry := h.entry.set (idx pos h.maxSize l.length) x } (l ++ [x]) where
  maxPos := hm0
  maxInt := hm
  len := by simpa using hlen
  fits := by simp only [List.length_append, List.length_cons, List.length_nil]; omega
  empty := by simp
  ends := fun _ => ⟨h0, h1, by simp⟩
  holds := by
    intro _ i hi
    simp only [List.length_append, List.length_cons, List.length_nil] at hi
    show (h.entry.set _ x)[idx pos h.maxSize i]? = _
    by_cases e : i = l.length
    · subst e
      rw [List.getElem?_set_self (by rw [hlen]; exact idx_lt h0 h1 (by omega))]
      simp
    · rw [List.getElem?_set_ne (fun e' => e (idx_inj h0 h1 (by omega) (by omega) e').symm),
        hh i (by omega), List.getElem_append_left]

theorem Holds.take {h : Hist} {pos : Int} {l : List Sample} (hh : Holds h pos l) (n : Nat) :
    Holds h pos (l.take n) := by
  intro i hi
  simp only [List.length_take] at hi
  rw [hh i (by omega), List.getElem_take]

theorem Holds.nil (h : Hist) (pos : Int) : Holds h pos [] := by
  intro i hi; simp at hi

theorem record_ok {lo : Int} {h : Hist} {l : List Sample} (mode : Mode) (value now : Int) (v : View h l)
    (hs : Sorted l) (ht : TimeOk lo now) (hi0 : 0 < h.maxInterval) (hi : int64Min ≤ lo - h.maxInterval) :
    ∃ h', put mode h value now = .ok h' ∧
      View h' (record h.maxSize.toNat (live h.maxInterval now l) value now) ∧
      h'.maxSize = h.maxSize ∧ h'.maxInterval = h.maxInterval := by
  have hf : ∃ h', addFlush mode h now =
      .ok (decide (live h.maxInterval now l ≠ []), h') ∧ View h' (live h.maxInterval now l) ∧
      h'.maxSize = h.maxSize ∧ h'.maxInterval = h.maxInterval := by
    by_cases hne : l = []
    · subst hne
      have := (v.empty rfl).2
      refine ⟨h, ?_, v, rfl, rfl⟩
      rw [addFlush, if_pos (by omega)]; rfl
    · rw [addFlush, if_neg (by have := v.nonneg_iff.2 hne; omega)]
      exact flush_ok mode now v hne hs ht hi0 hi
  obtain ⟨h', hf, v', e1, e2⟩ := hf
  rw [put, hf, ok_bind]
  have hs' := live_sorted h.maxInterval now hs
  rw [← e1, ← e2]
  rw [← e2] at v' hs'
  generalize live h'.maxInterval now l = q at *
  clear hf v hs hi hi0 e1 e2
  dsimp only
  by_cases hq : q = []
  · subst hq
    have := v'.maxPos
    rw [show decide (([] : List Sample) ≠ []) = false by simp, addPos, ok_bind]
    dsimp only
    have vs := view_set (pos := 0) (l := []) ⟨now, value⟩ v'.maxPos v'.maxInt v'.len (Holds.nil h' 0)
      (by omega) (by omega) (by simpa using v'.maxPos)
    have e : idx 0 h'.maxSize 0 = 0 := by unfold idx; simp [v'.maxPos]
    simp only [List.length_nil, e] at vs
    rw [wr_ok _ (by rw [v'.len]; simp; omega), ok_bind]
    exact ⟨_, rfl, vs, rfl, rfl⟩
  · obtain ⟨f0, f1, f2⟩ := v'.ends hq
    obtain ⟨l0, l1, s, hsl, hse⟩ := v'.last hq
    have hfit := v'.fits
    have hlen : 0 < q.length := List.length_pos_iff.2 hq
    have hh := v'.holds hq
    rw [show decide (q ≠ []) = true by simpa using hq, addPos, rd_ok l0 hse, ok_bind]
    simp only [record, hsl]
    have hst := step_ok l0 l1 v'.maxInt
    have hidx := idx_nat (i := q.length - 1) f0 f1 (by omega)
    rw [← f2] at hidx
    by_cases hn : s.time < now
    · rw [if_pos hn, if_pos hn, hst.1, ok_bind, hst.2, ok_bind]
      by_cases hfull : q.length = h'.maxSize.toNat
      · have e : stepPos h' h'.last = h'.first := by
          unfold stepPos
          split at hidx <;> split <;> omega
        have hst2 := step_ok f0 f1 v'.maxInt
        have hr := stepPos_range f0 f1
        rw [if_pos e, hst2.1, ok_bind, hst2.2, ok_bind]
        rw [ok_bind]
        dsimp only
        rw [e, wr_ok _ (by rw [v'.len]; omega), ok_bind]
        rcases q with _ | ⟨a, t⟩
        · exact absurd rfl hq
        · simp only [List.length_cons] at hfull hfit
          have vs := view_set (pos := stepPos h' h'.first) (l := t) ⟨now, value⟩ v'.maxPos v'.maxInt v'.len
            (hh.tail f0 f1 v'.fits) hr.1 hr.2 (by omega)
          have ei : idx (stepPos h' h'.first) h'.maxSize t.length = h'.first.toNat := by
            rw [idx_step f0 f1 (by omega)]
            unfold idx
            split <;> omega
          rw [ei] at vs
          have el : lastN h'.maxSize.toNat (a :: t ++ [⟨now, value⟩]) = t ++ [⟨now, value⟩] := by
            unfold lastN
            simp only [List.cons_append, List.length_cons, List.length_append, List.length_nil]
            rw [show t.length + (0 + 1) + 1 - h'.maxSize.toNat = 1 by omega]
            rfl
          rw [el]
          refine ⟨_, rfl, ?_, rfl, rfl⟩
          have e3 : ((h'.first.toNat : Nat) : Int) = h'.first := by omega
          rw [e3] at vs
          exact vs
      · have e : stepPos h' h'.last ≠ h'.first := by
          unfold stepPos
          split at hidx <;> split <;> omega
        have hr := stepPos_range l0 l1
        rw [if_neg e]
        rw [ok_bind]
        dsimp only
        rw [wr_ok _ (by rw [v'.len]; omega), ok_bind]
        have vs := view_set (pos := h'.first) (l := q) ⟨now, value⟩ v'.maxPos v'.maxInt v'.len
            hh f0 f1 (by omega)
        have ei : stepPos h' h'.last = (idx h'.first h'.maxSize q.length : Nat) := by
          rw [idx_nat f0 f1 (by omega)]
          unfold stepPos
          split at hidx <;> split <;> split <;> omega
        have el : lastN h'.maxSize.toNat (q ++ [⟨now, value⟩]) = q ++ [⟨now, value⟩] := by
          unfold lastN
          simp only [List.length_cons, List.length_append, List.length_nil]
          rw [show q.length + (0 + 1) - h'.maxSize.toNat = 0 by omega]
          rfl
        rw [el]
        refine ⟨_, rfl, ?_, rfl, rfl⟩
        rw [← ei] at vs
        have e3 : (stepPos h' h'.last).toNat = idx h'.first h'.maxSize q.length := by omega
        rw [e3]
        exact vs
    · rw [if_neg hn, if_neg hn]
      have e4 : (if now < s.time then (.ok (s.time, h') : M (Int × Hist)) else .ok (now, h')) = .ok (s.time, h') := by
        by_cases hx : now < s.time
        · rw [if_pos hx]
        · rw [if_neg hx, show now = s.time by omega]
      rw [e4, ok_bind]
      dsimp only
      rw [wr_ok _ (by rw [v'.len]; omega), ok_bind]
      have vs := view_set (pos := h'.first) (l := q.dropLast) ⟨s.time, value⟩ v'.maxPos v'.maxInt v'.len
            (by rw [List.dropLast_eq_take]; exact hh.take _) f0 f1 (by rw [List.length_dropLast]; omega)
      rw [List.length_dropLast, ← f2] at vs
      refine ⟨_, rfl, ?_, rfl, rfl⟩
      have e3 : h'.last.toNat = idx h'.first h'.maxSize (q.length - 1) := by omega
      rw [e3]
      exact vs

end Verif.History
