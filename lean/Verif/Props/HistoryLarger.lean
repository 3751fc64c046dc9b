import Verif.Props.History

/-!
# Larger histories: C159
-/

namespace Verif.History
open Verif.C Spec

theorem added_all_sorted : ∀ (ops : List Op) (t : Int) (A : List Sample), Sorted A → (∀ s ∈ A, s.time ≤ t) → Monotonic t ops → Sorted (added A ops)
  | [], _, _, hs, _, _ => hs
  | op :: ops, t, A, hs, hA, hm => by
    have look : ∀ now, t ≤ now → Monotonic now ops → Sorted (added A ops) := fun now h1 h2 =>
      added_all_sorted ops now A hs (fun s h => by have := hA s h; omega) h2
    cases op with
    | size now => exact look now hm.1 hm.2
    | interval now => exact look now hm.1 hm.2
    | median d now => exact look now hm.1 hm.2
    | clear => exact added_all_sorted ops t [] List.Pairwise.nil (by simp) hm
    | add v now =>
      have hA' : ∀ s ∈ A, s.time ≤ now := fun s h => by have := hA s h; have := hm.1; omega
      obtain ⟨k1, k2⟩ := added_sorted (v := v) hs hA'
      exact added_all_sorted ops now _ k1 k2 hm.2

theorem live_narrow {I J now : Int} (h : I ≤ J) (l : List Sample) : live I now (live J now l) = live I now l := by
  unfold live
  rw [List.filter_filter]
  congr 1
  funext s
  by_cases h1 : now - I ≤ s.time
  · have : now - J ≤ s.time := by omega
    simp [h1, this]
  · simp [h1]

/-- **C159** (partial: the clock never goes backwards) Of two histories which have been used in the same way, the smaller one contains exactly the samples which the larger one
would contain if it were that small: the last ones, those which aren't too old. -/
theorem C159_larger_partial (n m : Nat) (I J : Int) (hn : 0 < n) (hnm : n ≤ m) (hm' : m < 2 ^ 31) (hI : 0 < I) (hIJ : I ≤ J) (hJ' : J < 2 ^ 63) (ops : List Op)
    (hc : ClockOk J ops) (t0 : Int) (hm : Monotonic t0 ops) :
    ∃ h os h' g ps g', new n I = some h ∧ run .wrap h ops = .ok (os, h') ∧ new m J = some g ∧ run .wrap g ops = .ok (ps, g') ∧
      samples h' = lastN n (live I (clock t0 ops) (samples g')) ∧ samples h' <:+ samples g' := by
  have hcI : ClockOk I ops := by
    obtain ⟨lo, h1, h2⟩ := hc
    exact ⟨lo, by omega, h2⟩
  obtain ⟨h, os, h', a1, a2, a3⟩ := C24_history_keeps_recent_samples n I hn (by omega) hI (by omega) ops hcI t0 hm
  obtain ⟨g, ps, g', b1, b2, b3⟩ := C24_history_keeps_recent_samples m J (by omega) hm' (by omega) hJ' ops hc t0 hm
  have hs : Sorted (added [] ops) := added_all_sorted ops t0 [] List.Pairwise.nil (by simp) hm
  have e : samples h' = lastN n (live I (clock t0 ops) (samples g')) := by
    rw [a3, b3, live_lastN m (live_sorted _ _ hs), live_narrow hIJ, lastN_lastN hnm]
  refine ⟨h, os, h', g, ps, g', a1, a2, b1, b2, e, ?_⟩
  rw [e]
  have hg : Sorted (samples g') := by
    rw [b3]
    exact (live_sorted _ _ hs).sublist (List.drop_sublist _ _)
  refine (List.drop_suffix _ _).trans ?_
  generalize samples g' = l at hg
  generalize clock t0 ops = now
  induction l with
  | nil => exact List.suffix_refl _
  | cons s l ih =>
    have hs := List.pairwise_cons.1 hg
    unfold live at ih ⊢
    by_cases h1 : now - I ≤ s.time
    · rw [List.filter_eq_self.2]
      · exact List.suffix_refl _
      · intro x hx
        rcases List.mem_cons.1 hx with rfl | hx
        · simpa using h1
        · have := hs.1 x hx
          simp only [decide_eq_true_eq]
          omega
    · rw [List.filter_cons_of_neg (by simpa using h1)]
      exact (ih hs.2).trans (List.suffix_cons _ _)

/-- **C159** If the clock goes backwards then a smaller history may contain a sample which the larger one doesn't. -/
theorem C159_refuted : ∃ h g h' g' os ps ops, new 4 10 = some h ∧ new 4 1000 = some g ∧ ops = [Op.add 1 100, .size 200, .add 7 90] ∧
    run .wrap h ops = .ok (os, h') ∧ run .wrap g ops = .ok (ps, g') ∧ samples h' = [⟨90, 7⟩] ∧ samples g' = [⟨100, 7⟩] :=
  ⟨_, _, _, _, _, _, _, rfl, rfl, rfl, rfl, rfl, by decide +kernel, by decide +kernel⟩

/-- The hypotheses are met, both limits matter. -/
example : ∃ h g h' g' os ps ops, new 2 10 = some h ∧ new 3 1000 = some g ∧ ops = [Op.add 1 100, .add 2 102, .add 3 104, .add 4 106, .size 115] ∧
    ClockOk 1000 ops ∧ Monotonic 0 ops ∧
    run .wrap h ops = .ok (os, h') ∧ run .wrap g ops = .ok (ps, g') ∧ samples h' = [⟨106, 4⟩] ∧ samples g' = [⟨102, 2⟩, ⟨104, 3⟩, ⟨106, 4⟩] := by
  refine ⟨_, _, _, _, _, _, _, rfl, rfl, rfl, clockOk_nonneg (by omega) ?_, by simp [Monotonic, Op.now?], rfl, rfl, by decide +kernel, by decide +kernel⟩
  intro op hop now e
  simp only [List.mem_cons, List.not_mem_nil, or_false] at hop
  rcases hop with rfl | rfl | rfl | rfl | rfl <;> (cases e; omega)

end Verif.History
