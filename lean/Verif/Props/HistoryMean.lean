import Verif.Props.HistoryExact
import Verif.Proof.HistoryMean

/-!
# C134, C135: how accurate the averages are, and how they depend on the values and the times

`Spec/HistoryMean.lean` says what the average is when nothing is truncated (`area2 l / (2 * duration l)`), and what the same calls with larger values,
opposite values, or some time later are.
-/

namespace Verif.History
open Verif.C Spec

/-- **C134** Whenever an average of several samples can be computed, the difference between what's returned and the time-weighted average is less than 3/2.
If there are no negative samples then it's never larger than the average. If there's just one sample then it's returned. -/
theorem C134_accuracy_partial (n : Nat) (I : Int) (hn : 0 < n) (hn' : n < 2 ^ 31) (hI : 0 < I) (hI' : I < 2 ^ 63) (ops : List Op) (op : Op)
    (hop : op.averages = true) (hc : ClockOk I (ops ++ [op])) (hv : IntValues (ops ++ [op])) (hz : SizeOk n (ops ++ [op])) (hf : RunFits n I [] ops)
    (hf' : OpFits n I (contents n I [] ops) op) :
    ∃ h os h' o h'', new n I = some h ∧ run .strict h ops = .ok (os, h') ∧ exec .strict h' op = .ok (o, h'') ∧
      (2 ≤ (samples h'').length → Near (samples h'') o ∧
        ((∀ s ∈ samples h'', 0 ≤ s.value) → 0 ≤ o ∧ 2 * duration (samples h'') * o ≤ area2 (samples h'')) ∧ 0 < duration (samples h'')) ∧
      (∀ s, samples h'' = [s] → o = s.value) := by
  obtain ⟨h, h', h1, h2, h3, -⟩ := C26_exactly_partial n I hn hn' hI hI' ops op hop hc hv hz hf
  obtain ⟨o, h'', h4, h5, h6, -⟩ := h3 hf'
  refine ⟨h, _, h', o, h'', h1, h2, h4, fun hl => ?_, fun s hs => ?_⟩
  · have hs : Sorted (samples h'') := by rw [h5]; exact contents_sorted _ List.Pairwise.nil
    obtain ⟨h7, -⟩ := h6 (by intro e; rw [e] at hl; simp at hl)
    rw [h7]
    exact ⟨average_near hs hl, fun hp => average_below hs hl hp, duration_two hs hl⟩
  · obtain ⟨h7, -⟩ := h6 (by rw [hs]; simp)
    rw [h7, hs]
    rfl

/-- Here the hypotheses are met, and what's returned is 8 although the average is 26/3. -/
example : RunFits 4 1000 [] [.add 5 1, .add 7 2, .add 10 3] ∧ OpFits 4 1000 (contents 4 1000 [] [.add 5 1, .add 7 2, .add 10 3]) (.add 13 4) ∧
    contents 4 1000 [] [.add 5 1, .add 7 2, .add 10 3, .add 13 4] = [⟨1, 5⟩, ⟨2, 7⟩, ⟨3, 10⟩, ⟨4, 13⟩] ∧
    average [⟨1, 5⟩, ⟨2, 7⟩, ⟨3, 10⟩, ⟨4, 13⟩] = 8 ∧ area2 [⟨1, 5⟩, ⟨2, 7⟩, ⟨3, 10⟩, ⟨4, 13⟩] = 52 := by
  refine ⟨?_, ?_, by decide, by decide, by decide⟩
  · simp only [RunFits, OpFits, next, live, record, lastN, List.filter_nil, List.getLast?_nil, AreaFits]
    simp (decide := true) [AreaFits, Fits32, Fits64]
  · have e : contents 4 1000 [] [.add 5 1, .add 7 2, .add 10 3] = [⟨1, 5⟩, ⟨2, 7⟩, ⟨3, 10⟩] := by decide
    rw [e]
    simp only [OpFits, live, record, lastN]
    simp (decide := true) [AreaFits, Fits32, Fits64]

/-- **C134** It isn't the average truncated towards zero: 0, 1, 2 and 1 one microsecond after another give 0, although the average is 7/6. -/
theorem C134_refuted : ∃ h os h', new 4 1000 = some h ∧ run .strict h [.add 0 1, .add 1 2, .add 2 3] = .ok (os, h') ∧
    ∃ o h'', exec .strict h' (.add 1 4) = .ok (o, h'') ∧ o = 0 ∧ area2 (samples h'') = 7 ∧ duration (samples h'') = 3 ∧ ¬ Truncated (samples h'') o :=
  ⟨⟨1000, -1, -1, 4, [⟨0, 0⟩, ⟨0, 0⟩, ⟨0, 0⟩, ⟨0, 0⟩]⟩, [0, 0, 0], ⟨1000, 0, 2, 4, [⟨1, 0⟩, ⟨2, 1⟩, ⟨3, 2⟩, ⟨0, 0⟩]⟩, by decide +kernel, by decide +kernel,
    0, ⟨1000, 0, 3, 4, [⟨1, 0⟩, ⟨2, 1⟩, ⟨3, 2⟩, ⟨4, 1⟩]⟩, by decide +kernel, rfl, by decide +kernel, by decide +kernel, by unfold Truncated; decide +kernel⟩

/-- **C134** There is no better bound than 3/2: for any number of samples, there are values (0, 1, 2, 1, 2, 1...) such that 0 is returned although the average
is 3/2 minus one divided by the duration. -/
theorem C134_bound_refuted (n m : Nat) (I : Int) (hm : m + 2 ≤ n) (hn' : n ≤ 2 ^ 30) (hI : m < I) (hI' : I * 4 < 2 ^ 63) :
    ∃ ops op h os h' h'', ClockOk I (ops ++ [op]) ∧ Bounded 2 (ops ++ [op]) ∧ ops.length = m + 1 ∧ op.averages = true ∧
      new n I = some h ∧ run .strict h ops = .ok (os, h') ∧ exec .strict h' op = .ok (0, h'') ∧
      duration (samples h'') = m + 1 ∧ area2 (samples h'') = 3 * (m + 1) - 2 := by
  let all := (List.range (m + 2)).map (fun (k : Nat) => Op.add (zig k) k)
  have ha : all = (List.range (m + 1)).map (fun (k : Nat) => Op.add (zig k) k) ++ [Op.add (zig (m + 1)) (m + 1 : Nat)] := by
    show (List.range (m + 2)).map _ = _
    rw [List.range_succ, List.map_append]
    rfl
  have hmem : ∀ o ∈ all, ∃ k : Nat, k < m + 2 ∧ o = Op.add (zig k) k := by
    intro o ho
    obtain ⟨k, hk, rfl⟩ := List.mem_map.1 ho
    exact ⟨k, List.mem_range.1 hk, rfl⟩
  have hc : ClockOk I all := clockOk_nonneg (by omega) (fun o ho now e => by
    obtain ⟨k, hk, rfl⟩ := hmem o ho
    simp only [Op.now?, Option.some.injEq] at e
    omega)
  have hb : Bounded 2 all := fun v now ho => by
    obtain ⟨k, hk, e⟩ := hmem _ ho
    injection e with e _
    subst e
    unfold zig
    split
    · omega
    · split <;> omega
  obtain ⟨h, os, h', o, h'', h1, h2, h3, h4, h5, -⟩ := C26_average_partial n I 2 (by omega) (by omega) (by omega) (by omega) (by decide) (by decide) (by omega)
    _ (Op.add (zig (m + 1)) (m + 1 : Nat)) rfl (ha ▸ hc) (ha ▸ hb) (.inl (by omega))
  obtain ⟨z1, z2, z3⟩ := zigs_sums m
  have hz : samples h'' = zigs (m + 2) := by
    rw [h4, ← ha]
    exact zigs_contents (m + 2) (by omega) (by omega)
  have hlen : (zigs (m + 2)).length = m + 2 := by simp [zigs]
  have ho : o = 0 := by
    obtain ⟨h6, -⟩ := h5 (by rw [hz]; intro e; rw [e] at hlen; simp at hlen)
    rw [h6, hz, average_two (by omega), z1, z3]
    exact Int.tdiv_eq_zero_of_lt (by omega) (by omega)
  subst ho
  refine ⟨_, Op.add (zig (m + 1)) (m + 1 : Nat), h, os, h', h'', ha ▸ hc, ha ▸ hb, by simp, rfl, h1, h2, h3, by rw [hz, z3], by rw [hz, z2]; omega⟩

/-- **C134** What isn't true: adding the same number to all values doesn't always add it to what's returned (the direction of rounding depends on the sign). -/
theorem C134_shift_refuted : ∃ h, new 2 1000 = some h ∧ (∃ h', run .strict h [.add 0 1, .add 1 2] = .ok ([0, 0], h')) ∧
    (∃ h', run .strict h [.add (0 - 1) 1, .add (1 - 1) 2] = .ok ([-1, 0], h')) :=
  ⟨⟨1000, -1, -1, 2, [⟨0, 0⟩, ⟨0, 0⟩]⟩, by decide +kernel, ⟨⟨1000, 0, 1, 2, [⟨1, 0⟩, ⟨2, 1⟩]⟩, by decide +kernel⟩,
    ⟨⟨1000, 0, 1, 2, [⟨1, -1⟩, ⟨2, 0⟩]⟩, by decide +kernel⟩⟩

/-- **C135** The same calls at the same times with the same values or larger ones never return anything smaller (and the sizes and intervals are the same),
as long as nothing overflows. -/
theorem C135_larger_values (n : Nat) (I : Int) (hn : 0 < n) (hn' : n < 2 ^ 31) (hI : 0 < I) (hI' : I < 2 ^ 63) (as bs : List Op) (hab : OpsLe as bs)
    (hca : ClockOk I as) (hva : IntValues as) (hza : SizeOk n as) (hfa : RunFits n I [] as)
    (hvb : IntValues bs) (hfb : RunFits n I [] bs) :
    ∃ h ra ha rb hb, new n I = some h ∧ run .strict h as = .ok (ra, ha) ∧ run .strict h bs = .ok (rb, hb) ∧ AllLe as ra rb := by
  obtain ⟨h, h1, h2, -⟩ := C27_exactly n I hn hn' hI hI' as hca hva hza
  obtain ⟨h', h1', h2', -⟩ := C27_exactly n I hn hn' hI hI' bs (clockOk_le hab hca) hvb (sizeOk_le hab hza)
  rw [h1] at h1'
  injection h1' with h1'
  subst h1'
  obtain ⟨ha, h3, -⟩ := h2 hfa
  obtain ⟨hb, h4, -⟩ := h2' hfb
  exact ⟨h, _, ha, _, hb, h1, h3, h4, le_results (l := []) (m := []) trivial List.Pairwise.nil hab⟩

/-- **C135** The same calls with the opposite values return the opposite averages, as long as nothing overflows. -/
theorem C135_opposite_values (n : Nat) (I : Int) (hn : 0 < n) (hn' : n < 2 ^ 31) (hI : 0 < I) (hI' : I < 2 ^ 63) (ops : List Op)
    (hc : ClockOk I ops) (hv : IntValues ops) (hz : SizeOk n ops) (hf : RunFits n I [] ops)
    (hv' : IntValues (ops.map Op.neg)) (hf' : RunFits n I [] (ops.map Op.neg)) :
    ∃ h os ha hb, new n I = some h ∧ run .strict h ops = .ok (os, ha) ∧ run .strict h (ops.map Op.neg) = .ok (negResults ops os, hb) := by
  obtain ⟨h, h1, h2, -⟩ := C27_exactly n I hn hn' hI hI' ops hc hv hz
  obtain ⟨h', h1', h2', -⟩ := C27_exactly n I hn hn' hI hI' _ (clockOk_neg hc) hv' (sizeOk_neg hz)
  rw [h1] at h1'
  injection h1' with h1'
  subst h1'
  obtain ⟨ha, h3, -⟩ := h2 hf
  obtain ⟨hb, h4, -⟩ := h2' hf'
  have e := neg_results (n := n) (I := I) ops []
  rw [List.map_nil] at e
  rw [e] at h4
  exact ⟨h, _, ha, hb, h1, h3, h4⟩

/-- **C135** The same calls some time later (or earlier) return the same. It overflows later if it did before. -/
theorem C135_any_time (n : Nat) (I d : Int) (hn : 0 < n) (hn' : n < 2 ^ 31) (hI : 0 < I) (hI' : I < 2 ^ 63) (ops : List Op)
    (hc : ClockOk I ops) (hv : IntValues ops) (hz : SizeOk n ops) (hc' : ClockOk I (ops.map (Op.later d))) :
    ∃ h, new n I = some h ∧
      ((run .strict h ops = .error .signedOverflow ∧ run .strict h (ops.map (Op.later d)) = .error .signedOverflow) ∨
        ∃ os ha hb, run .strict h ops = .ok (os, ha) ∧ run .strict h (ops.map (Op.later d)) = .ok (os, hb)) := by
  have hv' : IntValues (ops.map (Op.later d)) := by
    intro v now hm
    obtain ⟨op, ho, e⟩ := List.mem_map.1 hm
    cases op <;> simp only [Op.later, reduceCtorEq, Op.add.injEq] at e
    obtain ⟨rfl, -⟩ := e
    exact hv _ _ ho
  have hz' : SizeOk n (ops.map (Op.later d)) := hz.imp id (fun q o ho => by
    obtain ⟨op, hop, rfl⟩ := List.mem_map.1 ho
    have := q op hop
    cases op <;> simp_all [Op.later, Op.isSize])
  obtain ⟨h, h1, h2, h3⟩ := C27_exactly n I hn hn' hI hI' ops hc hv hz
  obtain ⟨h', h1', h2', h3'⟩ := C27_exactly n I hn hn' hI hI' _ hc' hv' hz'
  rw [h1] at h1'
  injection h1' with h1'
  subst h1'
  refine ⟨h, h1, ?_⟩
  have e := later_results (n := n) (I := I) (d := d) ops []
  have ef := later_fits (n := n) (I := I) (d := d) ops []
  rw [List.map_nil] at e ef
  rw [e] at h2'
  rcases Classical.em (RunFits n I [] ops) with hf | hf
  · obtain ⟨ha, h4, -⟩ := h2 hf
    obtain ⟨hb, h5, -⟩ := h2' (ef.2 hf)
    exact .inr ⟨_, ha, hb, h4, h5⟩
  · exact .inl ⟨h3 hf, h3' (fun q => hf (ef.1 q))⟩

/-- Such calls. -/
example : OpsLe [.add (-7) 1, .add 6 3, .size 4, .median 0 5] [.add 2 1, .add 6 3, .size 4, .median 1 5] ∧
    results 3 1000 [] [.add (-7) 1, .add 6 3, .size 4, .median 0 5] = [-7, 0, 2, 0] ∧
    results 3 1000 [] [.add 2 1, .add 6 3, .size 4, .median 1 5] = [2, 4, 2, 4] ∧
    negResults [.add (-7) 1, .add 6 3, .size 4, .median 0 5] [-7, 0, 2, 0] = [7, 0, 2, 0] ∧
    RunFits 3 1000 [] [.add (-7) 1, .add 6 3, .size 4, .median 0 5] ∧ RunFits 3 1000 [] [.add 2 1, .add 6 3, .size 4, .median 1 5] ∧
    RunFits 3 1000 [] ([.add (-7) 1, .add 6 3, .size 4, .median 0 5].map Op.neg) := by
  refine ⟨by simp [OpsLe, OpLe], by decide, by decide, by decide, ?_, ?_, ?_⟩ <;>
  · simp only [List.map_cons, List.map_nil, Op.neg, RunFits, OpFits, next, live, record, lastN, List.filter_nil, List.getLast?_nil, AreaFits]
    simp (decide := true) [AreaFits, Fits32, Fits64]

end Verif.History
