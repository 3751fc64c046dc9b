import Verif.Proof.HistorySim
import Verif.Props.History
import Verif.Spec.HistoryExact

namespace Verif.History
open Verif.C Spec

theorem chk32_fits {x : Int} (h : Fits32 x) : arith32 .strict x = .ok x := by
  unfold Fits32 at h
  exact arith32_ok _ (by omega) (by omega)

theorem chk32_not {x : Int} (h : ¬ Fits32 x) : arith32 .strict x = .error .signedOverflow := by
  unfold Fits32 at h
  unfold arith32 chk32 intMin intMax
  rw [if_neg (by omega)]

theorem chk64_fits {x : Int} (h : Fits64 x) : arith64 .strict x = .ok x := by
  unfold Fits64 at h
  exact arith64_ok _ (by unfold int64Min; omega) (by unfold int64Max; omega)

theorem chk64_not {x : Int} (h : ¬ Fits64 x) : arith64 .strict x = .error .signedOverflow := by
  unfold Fits64 at h
  unfold arith64 chk64 int64Min int64Max
  rw [if_neg (by omega)]

theorem medianLoop_exact {h : Hist} {D : Int} (hm : h.maxSize ≤ 2147483647) (hD : D ≤ int64Max) :
    ∀ (t : List Sample) (a : Sample) (pos : Int) (fuel : Nat) (dt ar : Int),
      Holds h pos (a :: t) → 0 ≤ pos → pos < h.maxSize →
      ((a :: t).length : Int) ≤ h.maxSize → t.length < fuel →
      h.last = idx pos h.maxSize t.length → Sorted (a :: t) →
      0 ≤ dt → dt + duration (a :: t) ≤ D →
      (AreaFits ar (a :: t) → medianLoop .strict h fuel pos a.value a.time dt ar = .ok (ar + area (a :: t), dt + duration (a :: t))) ∧
      (¬ AreaFits ar (a :: t) → medianLoop .strict h fuel pos a.value a.time dt ar = .error .signedOverflow)
  | _, _, _, 0, _, _, _, _, _, _, hf, _, _, _, _ => by omega
  | [], a, pos, fuel + 1, dt, ar, hh, h0, h1, hl, hf, hlast, hs, hdt, hdD => by
    have : ¬ (pos ≠ h.last) := by
      rw [hlast]
      exact fun hn => hn ((last_idx h0 h1 (by simp only [List.length_nil]; omega)).2 rfl)
    refine ⟨fun _ => ?_, fun h => absurd trivial h⟩
    rw [medianLoop, if_neg this]
    simp [duration, area]
  | b :: t, a, pos, fuel + 1, dt, ar, hh, h0, h1, hl, hf, hlast, hs, hdt, hdD => by
    have hne : pos ≠ h.last := by
      rw [hlast]
      intro e
      have := (last_idx h0 h1 (by simp only [List.length_cons] at hl ⊢; omega)).1 e
      simp at this
    have hst := step_ok h0 h1 hm
    have hr := stepPos_range h0 h1
    have hh' := hh.tail h0 h1 hl
    have hs' := hs
    rw [Sorted, List.pairwise_cons] at hs
    have hab := hs.1 b (by simp)
    have hdn := duration_nonneg hs.2
    have hlen := hl
    simp only [List.length_cons] at hl hf
    rw [duration] at hdD
    have hrec : ∀ ar', _ := fun ar' =>
      medianLoop_exact hm hD t b (stepPos h pos) fuel (dt + (b.time - a.time)) ar' hh' hr.1 hr.2
        (by simp only [List.length_cons]; omega) (by omega)
        (by rw [hlast, List.length_cons, idx_step h0 h1 (by omega)]) hs.2 (by omega) (by omega)
    rw [medianLoop, if_pos hne, hst.1, ok_bind, hst.2, ok_bind, hh'.head hr.1 hr.2, ok_bind]
    have hd : b.time - a.time ≤ D := by omega
    unfold int64Max at hD
    dsimp only
    rw [arith64_ok .strict (by unfold int64Min; omega) (by unfold int64Max; omega), ok_bind,
      arith64_ok .strict (by unfold int64Min; omega) (by unfold int64Max; omega), ok_bind]
    rw [AreaFits]
    rcases Classical.em (Fits32 (a.value + b.value)) with f1 | f1
    rotate_left
    · refine ⟨fun h => absurd h.1 f1, fun _ => ?_⟩
      rw [chk32_not f1, error_bind]
    rw [chk32_fits f1, ok_bind]
    rcases Classical.em (Fits64 ((b.time - a.time) * (a.value + b.value))) with f2 | f2
    rotate_left
    · refine ⟨fun h => absurd h.2.1 f2, fun _ => ?_⟩
      rw [chk64_not f2, error_bind]
    rw [chk64_fits f2, ok_bind, cDiv, if_neg (by decide), ok_bind]
    rcases Classical.em (Fits64 (ar + ((b.time - a.time) * (a.value + b.value)).tdiv 2)) with f3 | f3
    rotate_left
    · refine ⟨fun h => absurd h.2.2.1 f3, fun _ => ?_⟩
      rw [chk64_not f3, error_bind]
    rw [chk64_fits f3, ok_bind]
    obtain ⟨r1, r2⟩ := hrec (ar + ((b.time - a.time) * (a.value + b.value)).tdiv 2)
    refine ⟨fun h => ?_, fun h => r2 (fun h4 => h ⟨f1, f2, f3, h4⟩)⟩
    rw [r1 h.2.2.2, duration, area]
    congr 2 <;> omega

theorem average_fits {l : List Sample} (hne : l ≠ []) (hs : Sorted l) (hv : ∀ s ∈ l, Fits32 s.value) : Fits32 (average l) := by
  have := average_bounds hne hs (m := -2 ^ 31) (M := 2 ^ 31 - 1) (fun s h => by have := hv s h; unfold Fits32 at this; omega)
  unfold Fits32
  omega

theorem medianAt_exact {h : Hist} {l : List Sample} {D : Int} (v : View h l) (hne : l ≠ []) (hs : Sorted l) (hD : D ≤ int64Max)
    (hv : ∀ s ∈ l, Fits32 s.value) (hdD : duration l ≤ D) :
    (AreaFits 0 l → medianAt .strict h = .ok (average l)) ∧ (¬ AreaFits 0 l → medianAt .strict h = .error .signedOverflow) := by
  obtain ⟨f0, f1, f2⟩ := v.ends hne
  obtain ⟨l0, l1, s, hsl, hse⟩ := v.last hne
  have hfit := v.fits
  have hav := average_fits hne hs hv
  rcases l with _ | ⟨a, _ | ⟨b, t⟩⟩
  · exact absurd rfl hne
  · have e : h.first = h.last := by
      rw [f2]; exact (last_idx f0 f1 (by omega)).2 rfl
    refine ⟨fun _ => ?_, fun h => absurd trivial h⟩
    rw [medianAt, if_pos e, rd_ok l0 hse, ok_bind]
    simp at hsl
    rw [hsl]
    rfl
  · simp only [List.length_cons] at f2 hfit
    have e : h.first ≠ h.last := by
      rw [f2]
      intro e
      have := (last_idx f0 f1 (by omega)).1 e
      omega
    obtain ⟨r1, r2⟩ := medianLoop_exact v.maxInt hD (b :: t) a h.first h.maxSize.toNat 0 0
      (v.holds hne) f0 f1 v.fits (by simp only [List.length_cons]; omega)
      (by rw [f2]; rfl) hs (by omega) (by omega)
    have hp := duration_pos hs
    rw [medianAt, if_neg e, (v.holds hne).head f0 f1, ok_bind]
    constructor
    · intro hf
      rw [r1 hf, ok_bind]
      dsimp only
      rw [cDiv, if_neg (by omega), ok_bind, Int.zero_add, Int.zero_add]
      unfold Fits32 at hav
      have : (area (a :: b :: t)).tdiv (duration (a :: b :: t)) = average (a :: b :: t) := rfl
      rw [this, toInt32_ok (by omega) (by omega)]
    · intro hf
      rw [r2 hf, error_bind]

/-- What's always true of the state of a history -/
structure Fine (n : Nat) (I lo : Int) (h : Hist) (l : List Sample) : Prop where
  good : Good .wrap n I 0 lo h l
  ints : ∀ s ∈ l, Fits32 s.value

theorem sim_exact {n : Nat} {I lo : Int} (n0 : 0 < n) (I0 : 0 < I) (I1 : int64Min ≤ lo - I) (I2 : I ≤ int64Max) {h : Hist} {l : List Sample}
    (g : Fine n I lo h l) (op : Op) (ht : ∀ now, op.now? = some now → TimeOk lo now) (hi : ∀ v now, op = .add v now → Fits32 v)
    (hz : n ≤ 1073741824 ∨ op.isSize = false) :
    (OpFits n I l op → ∃ h', exec .strict h op = .ok (result n I l op, h') ∧ Fine n I lo h' (next n I l op)) ∧
    (¬ OpFits n I l op → exec .strict h op = .error .signedOverflow) := by
  obtain ⟨⟨v, e1, e2, hs, htm, hvl, hd⟩, hint⟩ := g
  subst e2
  have liveFine : ∀ (h' : Hist) (now : Int), View h' (live h.maxInterval now l) → h'.maxSize = h.maxSize →
      h'.maxInterval = h.maxInterval → Fine n h.maxInterval lo h' (live h.maxInterval now l) := by
    intro h' now v' e3 e4
    exact { good := { view := v', size := by omega, intv := e4, sorted := live_sorted _ _ hs
                      times := fun s hsm => htm s (mem_live.1 hsm).1
                      vals := fun hm => by cases hm
                      dur := duration_live hs hd I0 }
            ints := fun s hsm => hint s (mem_live.1 hsm).1 }
  have hImax : h.maxInterval ≤ int64Max := I2
  cases op with
  | size now =>
    obtain ⟨h', hx, v', e3, e4⟩ := size_ok .strict now v hs (ht now rfl) I0 I1 (fun _ => by
      rcases hz with hz | hz
      · omega
      · cases hz)
    exact ⟨fun _ => ⟨h', hx, liveFine h' now v' e3 e4⟩, fun h => absurd trivial h⟩
  | interval now =>
    obtain ⟨h', hx, v', e3, e4⟩ := interval_ok .strict now v hs (ht now rfl) I0 I1 htm
    exact ⟨fun _ => ⟨h', hx, liveFine h' now v' e3 e4⟩, fun h => absurd trivial h⟩
  | clear =>
    refine ⟨fun _ => ⟨clear h, rfl, ?_⟩, fun h => absurd trivial h⟩
    have := v.maxPos
    exact { good := { view := { maxPos := v.maxPos, maxInt := v.maxInt, len := v.len
                                fits := by show ((0 : Nat) : Int) ≤ h.maxSize; omega
                                empty := fun _ => ⟨rfl, rfl⟩
                                ends := fun e => absurd rfl e
                                holds := fun e => absurd rfl e }
                      size := e1, intv := rfl, sorted := List.Pairwise.nil
                      times := by simp [next], vals := by simp [next, Vals]
                      dur := by simp only [next, duration]; omega }
            ints := by simp [next] }
  | add x now =>
    obtain ⟨h', hx, v', e3, e4⟩ := record_ok .strict x now v hs (ht now rfl) I0 I1
    have en : h.maxSize.toNat = n := by omega
    rw [en] at v'
    have hsr := record_sorted (n := n) (v := x) (now := now) (live_sorted h.maxInterval now hs)
    have hdr := record_duration (n := n) (v := x) n0 (live_sorted h.maxInterval now hs) I0 (duration_live (now := now) hs hd I0)
      (fun s hsm => (mem_live.1 hsm).2)
    have hvr : ∀ s ∈ record n (live h.maxInterval now l) x now, Fits32 s.value := by
      intro s hsm
      rcases record_mem hsm with hsm | ⟨e, -⟩
      · exact hint s (mem_live.1 hsm).1
      · rw [e]; exact hi x now rfl
    obtain ⟨r1, r2⟩ := medianAt_exact v' (record_ne_nil n0) hsr hImax hvr hdr
    constructor
    · intro hf
      refine ⟨h', ?_, ?_⟩
      · show add .strict h x now = _
        rw [add, hx, ok_bind, r1 hf, ok_bind]
        rfl
      · exact { good := { view := v', size := by omega, intv := e4, sorted := hsr
                          times := by
                            intro s hsm
                            rcases record_mem hsm with hsm | ⟨-, ⟨e, -⟩ | ⟨y, hy, e⟩⟩
                            · exact htm s (mem_live.1 hsm).1
                            · rw [e]; exact ht now rfl
                            · rw [e]; exact htm y (mem_live.1 hy).1
                          vals := fun hm => by cases hm
                          dur := hdr }
                ints := hvr }
    · intro hf
      show add .strict h x now = _
      rw [add, hx, ok_bind, r2 hf, error_bind]
  | median d now =>
    by_cases hne : l = []
    · subst hne
      have h2 := (v.empty rfl).2
      refine ⟨fun _ => ⟨h, ?_, liveFine h now v rfl rfl⟩, fun h => absurd trivial h⟩
      show median .strict h d now = _
      rw [median, if_neg (by omega)]
      simp [result, live]
    · obtain ⟨h', hf, v', e3, e4⟩ := flush_ok .strict now v hne hs (ht now rfl) I0 I1
      have hg := liveFine h' now v' e3 e4
      by_cases hq : live h.maxInterval now l = []
      · refine ⟨fun _ => ⟨h', ?_, hg⟩, fun h => absurd (by show AreaFits 0 _; rw [hq]; trivial) h⟩
        show median .strict h d now = _
        rw [median, if_pos (v.nonneg_iff.2 hne), hf, ok_bind]
        dsimp only
        rw [if_neg (by simp [hq]), result, if_pos hq]
      · obtain ⟨r1, r2⟩ := medianAt_exact v' hq hg.good.sorted hImax hg.ints hg.good.dur
        constructor
        · intro hfit
          refine ⟨h', ?_, hg⟩
          show median .strict h d now = _
          rw [median, if_pos (v.nonneg_iff.2 hne), hf, ok_bind]
          dsimp only
          rw [if_pos (by simpa using hq), r1 hfit, ok_bind, result, if_neg hq]
        · intro hfit
          show median .strict h d now = _
          rw [median, if_pos (v.nonneg_iff.2 hne), hf, ok_bind]
          dsimp only
          rw [if_pos (by simpa using hq), r2 hfit, error_bind]

theorem run_exact {n : Nat} {I lo : Int} (n0 : 0 < n) (I0 : 0 < I) (I1 : int64Min ≤ lo - I) (I2 : I ≤ int64Max) :
    ∀ (ops : List Op) {h : Hist} {l : List Sample}, Fine n I lo h l → (∀ op ∈ ops, ∀ now, op.now? = some now → TimeOk lo now) → IntValues ops → (n ≤ 1073741824 ∨ ∀ op ∈ ops, op.isSize = false) →
      (RunFits n I l ops → ∃ h', run .strict h ops = .ok (results n I l ops, h') ∧ Fine n I lo h' (contents n I l ops)) ∧
      (¬ RunFits n I l ops → run .strict h ops = .error .signedOverflow)
  | [], h, l, g, _, _, _ => ⟨fun _ => ⟨h, rfl, g⟩, fun h => absurd trivial h⟩
  | op :: ops, h, l, g, ht, hi, hz => by
    obtain ⟨s1, s2⟩ := sim_exact n0 I0 I1 I2 g op (ht op (by simp)) (fun v now e => hi v now (by simp [e])) (hz.imp id (fun q => q op (by simp)))
    have ih : ∀ {h : Hist}, Fine n I lo h (next n I l op) → _ := fun {h} g =>
      run_exact n0 I0 I1 I2 ops (h := h) g (fun op hop => ht op (by simp [hop])) (fun v now hop => hi v now (by simp [hop]))
        (hz.imp id (fun q op hop => q op (by simp [hop])))
    constructor
    · rintro ⟨f1, f2⟩
      obtain ⟨h1, hx, g1⟩ := s1 f1
      obtain ⟨h2, hx2, g2⟩ := (ih g1).1 f2
      refine ⟨h2, ?_, g2⟩
      rw [run, hx, ok_bind]
      dsimp only
      rw [hx2, ok_bind]
      rfl
    · intro hf
      rw [run]
      by_cases f1 : OpFits n I l op
      · obtain ⟨h1, hx, g1⟩ := s1 f1
        rw [hx, ok_bind]
        dsimp only
        rw [(ih g1).2 (fun f2 => hf ⟨f1, f2⟩), error_bind]
      · rw [s2 f1, error_bind]

end Verif.History
