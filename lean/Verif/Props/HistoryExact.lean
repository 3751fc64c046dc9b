import Verif.Proof.HistoryExact
import Verif.Proof.HistorySize

/-!
# C26, C27: exactly when the history works
-/

namespace Verif.History
open Verif.C Spec

theorem new_fine {n : Nat} {I lo : Int} (hn : 0 < n) (hn' : n < 2 ^ 31) (hI : 0 < I) (hI' : I < 2 ^ 63) (hlo : int64Min ≤ lo - I) : ∃ h, new n I = some h ∧ Fine n I lo h [] := by
  obtain ⟨h, h1, h2⟩ := new_good (mode := .wrap) (n := n) (I := I) (V := 0) (lo := lo) ⟨hn, by omega, hI, hlo, by unfold int64Max; omega, by omega, fun e => (by cases e), fun e => (by cases e)⟩
  exact ⟨h, h1, ⟨h2, by simp⟩⟩

/-- **C27** Exactly when the arithmetic of a history of calls is defined: if the sums of neighbouring values are ints, and the areas 64-bit ints, whenever
an average is computed. Then everything returned is what's expected, otherwise it's a signed overflow. -/
theorem C27_exactly (n : Nat) (I : Int) (hn : 0 < n) (hn' : n < 2 ^ 31) (hI : 0 < I) (hI' : I < 2 ^ 63) (ops : List Op) (hc : ClockOk I ops) (hv : IntValues ops) (hz : SizeOk n ops) :
    ∃ h, new n I = some h ∧
      (RunFits n I [] ops → ∃ h', run .strict h ops = .ok (results n I [] ops, h') ∧ samples h' = contents n I [] ops) ∧
      (¬ RunFits n I [] ops → run .strict h ops = .error .signedOverflow) := by
  obtain ⟨lo, hlo, hc⟩ := clockOk_times hc
  obtain ⟨h, h1, h2⟩ := new_fine hn hn' hI hI' hlo
  obtain ⟨r1, r2⟩ := run_exact hn hI hlo (by unfold int64Max; omega) ops h2 hc hv hz
  refine ⟨h, h1, fun hf => ?_, r2⟩
  obtain ⟨h', h3, h4⟩ := r1 hf
  exact ⟨h', h3, view_samples h4.good.view⟩

/-- **C27** The size being asked for is the only other thing that overflows, and that happens with all larger maximum sizes: zeros are added until there
are no more free entries, then until the last but one is overwritten. -/
theorem C27_size_refuted (n : Nat) (hn : 2 ^ 30 < n) (hn' : n < 2 ^ 31) :
    ∃ ops h, ops = (List.range' 1 (2 * n - 1)).map (fun (t : Nat) => Op.add 0 (t : Int)) ++ [.size (2 * n - 1 : Nat)] ∧
      ClockOk (2 ^ 62) ops ∧ Bounded 0 ops ∧ new n (2 ^ 62) = some h ∧ run .strict h ops = .error .signedOverflow := by
  have P : Params .strict n (2 ^ 62) 0 0 := ⟨by omega, by omega, by decide, by decide, by decide, by decide, by decide, by decide⟩
  obtain ⟨h, hh, g⟩ := new_good P
  refine ⟨_, h, rfl, clockOk_nonneg (by decide) ?_, ?_, hh, ?_⟩
  · intro op hop now e
    rcases List.mem_append.1 hop with hop | hop
    · obtain ⟨t, ht, rfl⟩ := List.mem_map.1 hop
      rw [List.mem_range'_1] at ht
      simp only [Op.now?, Option.some.injEq] at e
      omega
    · rw [List.mem_singleton] at hop
      subst hop
      simp only [Op.now?, Option.some.injEq] at e
      omega
  · intro v now hop
    rcases List.mem_append.1 hop with hop | hop
    · obtain ⟨t, ht, e⟩ := List.mem_map.1 hop
      injection e with e _
      omega
    · simp at hop
  · have := filled_run P [.size ((2 * n - 1 : Nat) : Int)] .signedOverflow (2 * n - 1) 0 (h := h) (l := []) (by omega)
      ⟨g, by simp, by simp, fun h => absurd h (by omega)⟩
      (fun h' l' g' => filled_size P (by omega) (by omega) (by rw [Nat.zero_add] at g'; exact g'))
    rw [fill_eq] at this
    exact this

/-- Such numbers exist. -/
example : (2 : Nat) ^ 30 < 2 ^ 30 + 1 ∧ (2 : Nat) ^ 30 + 1 < 2 ^ 31 := by decide

/-- **C27** The condition on the clock is necessary too: one interval before the earliest time has to be a 64-bit number. -/
theorem C27_clock_refuted : ∃ h, new 2 1000 = some h ∧
    run .strict h [.add 0 (-2 ^ 63 + 999), .size (-2 ^ 63 + 999)] = .error .signedOverflow ∧
    (∃ r, run .strict h [.add 0 (-2 ^ 63 + 1000), .size (-2 ^ 63 + 1000)] = .ok r) :=
  ⟨⟨1000, -1, -1, 2, [⟨0, 0⟩, ⟨0, 0⟩]⟩, by decide +kernel, by decide +kernel,
    ([0, 1], ⟨1000, 0, 0, 2, [⟨-2 ^ 63 + 1000, 0⟩, ⟨0, 0⟩]⟩), by decide +kernel⟩

/-- Bounds on the values and the interval, as in `C27_history_defined_partial`, are sufficient. -/
theorem runFits_of_bounded {n : Nat} {I V : Int} (hn : 0 < n) (hn' : n < 2 ^ 31) (hI : 0 < I) (hI' : I < 2 ^ 63) (hV : 0 ≤ V) (hV' : 2 * V < 2 ^ 31)
    (hIV : I * (2 * V) < 2 ^ 63) {ops : List Op} (hc : ClockOk I ops) (hb : Bounded V ops) (hz : SizeOk n ops) : RunFits n I [] ops := by
  have hi : IntValues ops := fun v now hm => by have := hb v now hm; unfold Fits32; omega
  obtain ⟨h, h1, _, h3⟩ := C27_exactly n I hn hn' hI hI' ops hc hi hz
  obtain ⟨h', h'', h4, h5⟩ := C27_history_defined_partial n I V hn hn' hI hI' hV hV' hIV ops hc hb hz
  rw [h1] at h4
  injection h4 with h4
  subst h4
  refine Classical.byContradiction (fun hf => ?_)
  rw [h3 hf] at h5
  cases h5

/-- They aren't necessary: here the values are larger than that. -/
example : RunFits 3 1000 [] [.add 2147483647 1, .add (-2147483648) 2, .add 2147483647 5, .median 0 6] := by
  simp only [RunFits, OpFits, next, live, record, lastN, List.filter_nil, List.getLast?_nil, AreaFits]
  simp (decide := true) [AreaFits, Fits32, Fits64]

/-- **C26** Whenever an average can be computed, it's the time-weighted average of the samples, truncated, and it's between the smallest and the largest
of them; otherwise it's a signed overflow. -/
theorem C26_exactly_partial (n : Nat) (I : Int) (hn : 0 < n) (hn' : n < 2 ^ 31) (hI : 0 < I) (hI' : I < 2 ^ 63) (ops : List Op) (op : Op)
    (hop : op.averages = true) (hc : ClockOk I (ops ++ [op])) (hv : IntValues (ops ++ [op])) (hz : SizeOk n (ops ++ [op])) (hf : RunFits n I [] ops) :
    ∃ h h', new n I = some h ∧ run .strict h ops = .ok (results n I [] ops, h') ∧
      (OpFits n I (contents n I [] ops) op → ∃ o h'', exec .strict h' op = .ok (o, h'') ∧ samples h'' = contents n I [] (ops ++ [op]) ∧
        (samples h'' ≠ [] → o = average (samples h'') ∧ ∀ m M, (∀ s ∈ samples h'', m ≤ s.value ∧ s.value ≤ M) → m ≤ o ∧ o ≤ M) ∧
        (samples h'' = [] → ∃ d now, op = .median d now ∧ o = d)) ∧
      (¬ OpFits n I (contents n I [] ops) op → exec .strict h' op = .error .signedOverflow) := by
  obtain ⟨lo, hlo, hc⟩ := clockOk_times hc
  obtain ⟨h, h1, h2⟩ := new_fine hn hn' hI hI' hlo
  obtain ⟨r1, -⟩ := run_exact hn hI hlo (by unfold int64Max; omega) ops h2 (fun o ho => hc o (List.mem_append_left _ ho)) (fun v now ho => hv v now (List.mem_append_left _ ho))
    (hz.imp id (fun q o ho => q o (List.mem_append_left _ ho)))
  obtain ⟨h', h3, h4⟩ := r1 hf
  obtain ⟨s1, s2⟩ := sim_exact hn hI hlo (by unfold int64Max; omega) h4 op (hc op (by simp)) (fun v now e => hv v now (by simp [e]))
    (hz.imp id (fun q => q op (by simp)))
  refine ⟨h, h', h1, h3, ?_, s2⟩
  intro hfit
  obtain ⟨h'', h5, h6⟩ := s1 hfit
  have hs := view_samples h6.good.view
  have hcont : contents n I [] (ops ++ [op]) = next n I (contents n I [] ops) op := contents_append ops op
  refine ⟨_, h'', h5, by rw [hs, hcont], ?_, ?_⟩
  · rw [hs]
    intro hne
    have e : result n I (contents n I [] ops) op = average (next n I (contents n I [] ops) op) := by
      cases op with
      | add v now => rfl
      | median d now =>
        rw [next] at hne
        rw [result, if_neg hne, next]
      | size now => simp [Op.averages] at hop
      | interval now => simp [Op.averages] at hop
      | clear => simp [Op.averages] at hop
    rw [e]
    exact ⟨rfl, fun m M hb => average_bounds hne h6.good.sorted hb⟩
  · rw [hs]
    intro hne
    cases op with
    | add v now => exact absurd hne (record_ne_nil hn)
    | median d now =>
      rw [next] at hne
      exact ⟨d, now, rfl, by rw [result, if_pos hne]⟩
    | size now => simp [Op.averages] at hop
    | interval now => simp [Op.averages] at hop
    | clear => simp [Op.averages] at hop

end Verif.History
