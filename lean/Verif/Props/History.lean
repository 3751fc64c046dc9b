import Verif.Proof.HistoryDecl

/-!
# C24-C27: the history

`Spec/History.lean` says what the history is: a list of samples with their times.
The maximum size is any positive `int` and the interval is any positive 64-bit integer. The clock is what `ClockOk` says,
which any clock that isn't negative is (`clockOk_nonneg`).
-/

namespace Verif.History
open Verif.C Spec

/-- Any clock which isn't negative will do, with any interval. -/
theorem clockOk_nonneg {I : Int} {ops : List Op} (hI' : I < 2 ^ 63)
    (h : ∀ op ∈ ops, ∀ now, op.now? = some now → 0 ≤ now ∧ now < 2 ^ 63) : ClockOk I ops :=
  ⟨0, by omega, fun op hop now e => by have := h op hop now e; omega⟩

theorem clockOk_times {I : Int} {ops : List Op} (hc : ClockOk I ops) :
    ∃ lo : Int, int64Min ≤ lo - I ∧ ∀ op ∈ ops, ∀ now, op.now? = some now → TimeOk lo now := by
  obtain ⟨lo, h1, h2⟩ := hc
  refine ⟨lo, by unfold int64Min; omega, fun op hop now e => ?_⟩
  have := h2 op hop now e
  unfold TimeOk int64Max
  omega

theorem clockOk_mono {I : Int} {ops ops' : List Op} (hc : ClockOk I ops) (h : ∀ op ∈ ops', op ∈ ops) : ClockOk I ops' := by
  obtain ⟨lo, h1, h2⟩ := hc
  exact ⟨lo, h1, fun op hop => h2 op (h op hop)⟩

private theorem opOk_wrap {n : Nat} {lo : Int} {ops : List Op} (hc : ∀ op ∈ ops, ∀ now, op.now? = some now → TimeOk lo now) :
    ∀ op ∈ ops, OpOk .wrap n 0 lo op :=
  fun op hop => ⟨fun now e => hc op hop now e, fun e => (by cases e), fun e => (by cases e)⟩

private theorem opOk_strict {n : Nat} {V lo : Int} {ops : List Op} (hc : ∀ op ∈ ops, ∀ now, op.now? = some now → TimeOk lo now)
    (hb : Bounded V ops) (hz : SizeOk n ops) : ∀ op ∈ ops, OpOk .strict n V lo op :=
  fun op hop => ⟨fun now e => hc op hop now e, fun _ v now e => hb v now (e ▸ hop), fun _ e => hz.elim id (fun q => by rw [q op hop] at e; cases e)⟩

private theorem params_wrap {n : Nat} {I lo : Int} (hn : 0 < n) (hn' : n < 2 ^ 31) (hI : 0 < I) (hI' : I < 2 ^ 63) (hlo : int64Min ≤ lo - I) :
    Params .wrap n I 0 lo :=
  ⟨hn, by omega, hI, hlo, by unfold int64Max; omega, by omega, fun e => (by cases e), fun e => (by cases e)⟩

private theorem agrees_wrap : ∀ {ops : List Op} {os rs : List Int}, AgreesAll .wrap ops os rs → AgreeOnSizes ops os rs
  | [], [], [], _ => trivial
  | op :: ops, o :: os, r :: rs, h =>
    ⟨fun e => h.1 (.inr (by cases op <;> simp_all [Op.averages])), agrees_wrap h.2⟩

/-- **C24** Whatever the clock shows and whatever values are added, the history holds what
`contents` says (each call forgets what has become too old; a sample with the time of the
last one, or earlier, replaces it), and the sizes and intervals returned are those of that
list. -/
theorem C24_history_contents (n : Nat) (I : Int) (hn : 0 < n) (hn' : n < 2 ^ 31) (hI : 0 < I)
    (hI' : I < 2 ^ 63) (ops : List Op) (hc : ClockOk I ops) :
    ∃ h os h', new n I = some h ∧ run .wrap h ops = .ok (os, h') ∧
      samples h' = contents n I [] ops ∧ AgreeOnSizes ops os (results n I [] ops) := by
  obtain ⟨lo, hlo, hc⟩ := clockOk_times hc
  have P := params_wrap hn hn' hI hI' hlo
  obtain ⟨h, hh, g⟩ := new_good P
  obtain ⟨os, h', hr, g', ha⟩ := sim_run P ops g (opOk_wrap hc)
  exact ⟨h, os, h', hh, hr, view_samples g'.view, agrees_wrap ha⟩

/-- **C24** With a clock which doesn't go back, these are the last (at most) `n` of all the
samples added since the history was last cleared and not older than the interval now, only
the last one being taken of those added at the same time. -/
theorem C24_history_keeps_recent_samples (n : Nat) (I : Int) (hn : 0 < n) (hn' : n < 2 ^ 31)
    (hI : 0 < I) (hI' : I < 2 ^ 63) (ops : List Op) (hc : ClockOk I ops) (t0 : Int)
    (hm : Monotonic t0 ops) :
    ∃ h os h', new n I = some h ∧ run .wrap h ops = .ok (os, h') ∧
      samples h' = lastN n (live I (clock t0 ops) (added [] ops)) := by
  obtain ⟨h, os, h', h1, h2, h3, -⟩ := C24_history_contents n I hn hn' hI hI' ops hc
  refine ⟨h, os, h', h1, h2, ?_⟩
  rw [h3, ← contents_decl hn hI ops t0 [] List.Pairwise.nil (by simp) hm]
  simp [live, lastN]

/-- **C24** Nothing else can be created. -/
theorem C24_history_bad_parameters (n I : Int) : new n I = none ↔ n ≤ 0 ∨ I ≤ 0 := by
  unfold new
  split <;> simp <;> omega

/-- Five samples into three entries, one of them replaced, one at an earlier time, one
expired. -/
example : ClockOk 10 [.add 5 1, .add 6 2, .add 7 2, .add 1 4, .add 2 5, .add 3 14, .size 14] ∧
    Monotonic 0 [.add 5 1, .add 6 2, .add 7 2, .add 1 4, .add 2 5, .add 3 14, .size 14] ∧
    lastN 3 (live 10 14 (added [] [.add 5 1, .add 6 2, .add 7 2, .add 1 4, .add 2 5, .add 3 14, .size 14]))
      = [⟨4, 1⟩, ⟨5, 2⟩, ⟨14, 3⟩] := by
  refine ⟨?_, ?_, by decide⟩
  · refine clockOk_nonneg (by decide) (fun op hop now e => ?_)
    simp only [List.mem_cons, List.not_mem_nil, or_false] at hop
    rcases hop with rfl | rfl | rfl | rfl | rfl | rfl | rfl <;> simp [Op.now?] at e <;> omega
  · simp [Monotonic, Op.now?]

/-- **C25** The size is never more than the maximum one. -/
theorem C25_size_bounded (n : Nat) (I : Int) (hn : 0 < n) (hn' : n < 2 ^ 31) (hI : 0 < I)
    (hI' : I < 2 ^ 63) (ops : List Op) (now : Int) (hc : ClockOk I (ops ++ [.size now])) :
    ∃ h os h' o h'', new n I = some h ∧ run .wrap h ops = .ok (os, h') ∧
      size .wrap h' now = .ok (o, h'') ∧ 0 ≤ o ∧ o ≤ n := by
  obtain ⟨lo, hlo, hc⟩ := clockOk_times hc
  have P := params_wrap hn hn' hI hI' hlo
  obtain ⟨h, hh, g⟩ := new_good P
  have hok := opOk_wrap (n := n) hc
  obtain ⟨os, h', hr, g', -⟩ := sim_run P ops g (fun op hop => hok op (List.mem_append_left _ hop))
  obtain ⟨o, h'', hx, g'', ha⟩ := sim P g' (.size now) (hok _ (by simp))
  refine ⟨h, os, h', o, h'', hh, hr, hx, ?_⟩
  have e := ha (.inr trivial)
  simp only [result] at e
  have h1 := contents_length hn (I := I) ops (l := []) (by simp)
  have h2 : (live I now (contents n I [] ops)).length ≤ (contents n I [] ops).length := List.length_filter_le _ _
  constructor <;> omega

/-- **C25** With a clock which doesn't go back, the interval is between zero and the maximum
one. -/
theorem C25_interval_bounded (n : Nat) (I : Int) (hn : 0 < n) (hn' : n < 2 ^ 31) (hI : 0 < I)
    (hI' : I < 2 ^ 63) (ops : List Op) (now : Int) (hc : ClockOk I (ops ++ [.interval now])) (t0 : Int)
    (hm : Monotonic t0 (ops ++ [.interval now])) :
    ∃ h os h' o h'', new n I = some h ∧ run .wrap h ops = .ok (os, h') ∧
      interval .wrap h' now = .ok (o, h'') ∧ 0 ≤ o ∧ o ≤ I := by
  obtain ⟨lo, hlo, hc⟩ := clockOk_times hc
  have P := params_wrap hn hn' hI hI' hlo
  obtain ⟨h, hh, g⟩ := new_good P
  have hok := opOk_wrap (n := n) hc
  obtain ⟨os, h', hr, g', -⟩ := sim_run P ops g (fun op hop => hok op (List.mem_append_left _ hop))
  obtain ⟨o, h'', hx, g'', ha⟩ := sim P g' (.interval now) (hok _ (by simp))
  refine ⟨h, os, h', o, h'', hh, hr, hx, ?_⟩
  have e := ha (.inr trivial)
  have hle := times_le ops [] t0 now n I (by simp) hm
  simp only [result] at e
  split at e
  · omega
  · rename_i s t hq
    obtain ⟨h1, h2⟩ := mem_live (i := I) (now := now) (l := contents n I [] ops) (a := s) |>.1 (by rw [hq]; simp)
    have := hle s h1
    omega

/-- **C26** The value returned is the time-weighted average of the samples, truncated, and
is between the smallest and the largest of them (as long as nothing overflows). -/
theorem C26_average_partial (n : Nat) (I V : Int) (hn : 0 < n) (hn' : n < 2 ^ 31) (hI : 0 < I)
    (hI' : I < 2 ^ 63) (hV : 0 ≤ V) (hV' : 2 * V < 2 ^ 31) (hIV : I * (2 * V) < 2 ^ 63)
    (ops : List Op) (op : Op) (hop : op.averages = true) (hc : ClockOk I (ops ++ [op]))
    (hb : Bounded V (ops ++ [op])) (hz : SizeOk n (ops ++ [op])) :
    ∃ h os h' o h'', new n I = some h ∧ run .strict h ops = .ok (os, h') ∧
      exec .strict h' op = .ok (o, h'') ∧ samples h'' = contents n I [] (ops ++ [op]) ∧
      (samples h'' ≠ [] → o = average (samples h'') ∧
        ∀ m M, (∀ s ∈ samples h'', m ≤ s.value ∧ s.value ≤ M) → m ≤ o ∧ o ≤ M) ∧
      (samples h'' = [] → ∃ d now, op = .median d now ∧ o = d) := by
  obtain ⟨lo, hlo, hc⟩ := clockOk_times hc
  have P : Params .strict n I V lo := ⟨hn, by omega, hI, hlo, by unfold int64Max; omega, hV, fun _ => by omega, fun _ => by unfold int64Max; omega⟩
  obtain ⟨h, hh, g⟩ := new_good P
  have hok := opOk_strict (n := n) hc hb hz
  obtain ⟨os, h', hr, g', -⟩ := sim_run P ops g (fun op hop => hok op (List.mem_append_left _ hop))
  obtain ⟨o, h'', hx, g'', ha⟩ := sim P g' op (hok _ (by simp))
  have hs := view_samples g''.view
  have e := ha (.inl rfl)
  have hcont : contents n I [] (ops ++ [op]) = next n I (contents n I [] ops) op := contents_append ops op
  have hsort : Sorted (samples h'') := by rw [hs]; exact g''.sorted
  have hav : samples h'' ≠ [] → o = average (samples h'') := by
    rw [hs]
    intro hne
    cases op with
    | add v now => exact e
    | median d now =>
      rw [next] at hne
      rw [result, if_neg hne] at e
      exact e
    | size now => simp [Op.averages] at hop
    | interval now => simp [Op.averages] at hop
    | clear => simp [Op.averages] at hop
  refine ⟨h, os, h', o, h'', hh, hr, hx, by rw [hs, hcont], ?_, ?_⟩
  · intro hne
    refine ⟨hav hne, ?_⟩
    rw [hav hne]
    intro m M hb
    exact average_bounds hne hsort hb
  · rw [hs]
    intro hne
    cases op with
    | add v now => exact absurd hne (record_ne_nil hn)
    | median d now =>
      rw [next] at hne
      rw [result, if_pos hne] at e
      exact ⟨d, now, rfl, e⟩
    | size now => simp [Op.averages] at hop
    | interval now => simp [Op.averages] at hop
    | clear => simp [Op.averages] at hop

/-- The hypotheses are met by the values of up to a billion and an hour's history. -/
example : (2 : Int) * 1000000000 < 2 ^ 31 ∧ (3600000000 : Int) * (2 * 1000000000) < 2 ^ 63 ∧
    Bounded 1000000000 [.add 1000000000 5, .add (-7) 6, .median 0 7] ∧
    average [⟨5, 1000000000⟩, ⟨6, -7⟩] = 499999996 := by
  refine ⟨by decide, by decide, ?_, by decide⟩
  intro v now h
  simp only [List.mem_cons, List.not_mem_nil, or_false, Op.add.injEq, reduceCtorEq] at h
  omega

/-- **C26** What isn't true: the average of two large values isn't between them. -/
theorem C26_refuted : ∃ h h1 h2 o,
    new 2 1000 = some h ∧ add .wrap h 2147483647 1 = .ok (2147483647, h1) ∧
    add .wrap h1 2147483647 2 = .ok (o, h2) ∧ o = -1 :=
  ⟨⟨1000, -1, -1, 2, [⟨0, 0⟩, ⟨0, 0⟩]⟩, ⟨1000, 0, 0, 2, [⟨1, 2147483647⟩, ⟨0, 0⟩]⟩,
    ⟨1000, 0, 1, 2, [⟨1, 2147483647⟩, ⟨2, 2147483647⟩]⟩, -1,
    by decide +kernel, by decide +kernel, by decide +kernel, rfl⟩

/-- **C27** Two large values make the sum overflow. -/
theorem C27_refuted : ∃ h,
    new 2 1000 = some h ∧ run .strict h [.add 2147483647 1, .add 2147483647 2] = .error .signedOverflow :=
  ⟨⟨1000, -1, -1, 2, [⟨0, 0⟩, ⟨0, 0⟩]⟩, by decide +kernel, by decide +kernel⟩

/-- **C27** So do moderate values with a large interval (two months of microseconds). -/
theorem C27_refuted_by_interval : ∃ h,
    new 2 (2 ^ 43) = some h ∧ run .strict h [.add 1000000000 1, .add 1000000000 (2 ^ 43)] = .error .signedOverflow :=
  ⟨⟨2 ^ 43, -1, -1, 2, [⟨0, 0⟩, ⟨0, 0⟩]⟩, by decide +kernel, by decide +kernel⟩

/-- **C27** The arithmetic of any history of calls is defined, and everything returned is
what is expected, provided that twice the largest absolute value fits in an int and
multiplied by the interval in 64 bits (and that the size isn't asked for if the maximum one exceeds 2^30). -/
theorem C27_history_defined_partial (n : Nat) (I V : Int) (hn : 0 < n) (hn' : n < 2 ^ 31) (hI : 0 < I)
    (hI' : I < 2 ^ 63) (hV : 0 ≤ V) (hV' : 2 * V < 2 ^ 31) (hIV : I * (2 * V) < 2 ^ 63)
    (ops : List Op) (hc : ClockOk I ops) (hb : Bounded V ops) (hz : SizeOk n ops) :
    ∃ h h', new n I = some h ∧ run .strict h ops = .ok (results n I [] ops, h') := by
  obtain ⟨lo, hlo, hc⟩ := clockOk_times hc
  have P : Params .strict n I V lo := ⟨hn, by omega, hI, hlo, by unfold int64Max; omega, hV, fun _ => by omega, fun _ => by unfold int64Max; omega⟩
  obtain ⟨h, hh, g⟩ := new_good P
  obtain ⟨os, h', hr, g', ha⟩ := sim_run P ops g (opOk_strict hc hb hz)
  rw [agrees_strict ha] at hr
  exact ⟨h, h', hh, hr⟩

/-- **C27** If overflow is defined to wrap around then there is nothing else to go wrong:
no index leaves the array, no division by zero, no endless loop, for all values. -/
theorem C27_history_defined_if_wrapping (n : Nat) (I : Int) (hn : 0 < n) (hn' : n < 2 ^ 31) (hI : 0 < I)
    (hI' : I < 2 ^ 63) (ops : List Op) (hc : ClockOk I ops) :
    ∃ h r, new n I = some h ∧ run .wrap h ops = .ok r := by
  obtain ⟨h, os, h', h1, h2, -⟩ := C24_history_contents n I hn hn' hI hI' ops hc
  exact ⟨h, _, h1, h2⟩

end Verif.History
