import Verif.Props.HistoryExact

/-!
# Only the samples of a history matter: C169
-/

namespace Verif.History
open Verif.C Spec

/-- Both calls return the same, and the histories contain the same samples after that; or both overflow. -/
def SameFrom (r1 r2 : M (List Int × Hist)) : Prop :=
  (∃ os h1 h2, r1 = .ok (os, h1) ∧ r2 = .ok (os, h2) ∧ samples h1 = samples h2) ∨ (r1 = .error .signedOverflow ∧ r2 = .error .signedOverflow)

theorem fine_run {n : Nat} {I lo : Int} (n0 : 0 < n) (I0 : 0 < I) (I1 : int64Min ≤ lo - I) (I2 : I ≤ int64Max) {ops : List Op} {h h' : Hist} {os : List Int} {l : List Sample}
    (g : Fine n I lo h l) (ht : ∀ op ∈ ops, ∀ now, op.now? = some now → TimeOk lo now) (hv : IntValues ops) (hz : SizeOk n ops) (e : run .strict h ops = .ok (os, h')) :
    Fine n I lo h' (contents n I l ops) := by
  obtain ⟨r1, r2⟩ := run_exact n0 I0 I1 I2 ops g ht hv hz
  by_cases hf : RunFits n I l ops
  · obtain ⟨h'', e1, e2⟩ := r1 hf
    rw [e] at e1
    cases e1
    exact e2
  · rw [r2 hf] at e
    cases e

theorem sameFrom_of_fine {n : Nat} {I lo : Int} (n0 : 0 < n) (I0 : 0 < I) (I1 : int64Min ≤ lo - I) (I2 : I ≤ int64Max) {ops : List Op} {h1 h2 : Hist} {l : List Sample}
    (g1 : Fine n I lo h1 l) (g2 : Fine n I lo h2 l) (ht : ∀ op ∈ ops, ∀ now, op.now? = some now → TimeOk lo now) (hv : IntValues ops) (hz : SizeOk n ops) :
    SameFrom (run .strict h1 ops) (run .strict h2 ops) := by
  obtain ⟨a1, a2⟩ := run_exact n0 I0 I1 I2 ops g1 ht hv hz
  obtain ⟨b1, b2⟩ := run_exact n0 I0 I1 I2 ops g2 ht hv hz
  by_cases hf : RunFits n I l ops
  · obtain ⟨h1', e1, f1⟩ := a1 hf
    obtain ⟨h2', e2, f2⟩ := b1 hf
    exact .inl ⟨_, h1', h2', e1, e2, by rw [view_samples f1.good.view, view_samples f2.good.view]⟩
  · exact .inr ⟨a2 hf, b2 hf⟩

/-- **C169** If two histories of the same maximum size and interval contain the same samples, then whatever has been done to them before, the same calls return the same after that, the
samples stay the same, and if there's an overflow (C27) then in both of them. (The maximum size is at most 2^30, or the size isn't asked for.) -/
theorem C169_samples (n : Nat) (I : Int) (hn : 0 < n) (hn' : n < 2 ^ 31) (hI : 0 < I) (hI' : I < 2 ^ 63) (ops1 ops2 ops : List Op)
    (hc : ClockOk I (ops1 ++ ops2 ++ ops)) (hv : IntValues (ops1 ++ ops2 ++ ops)) (hz : SizeOk n (ops1 ++ ops2 ++ ops))
    {h h1 h2 : Hist} {os1 os2 : List Int} (h0 : new n I = some h) (e1 : run .strict h ops1 = .ok (os1, h1)) (e2 : run .strict h ops2 = .ok (os2, h2))
    (hs : samples h1 = samples h2) : SameFrom (run .strict h1 ops) (run .strict h2 ops) := by
  obtain ⟨lo, hlo, hc⟩ := clockOk_times hc
  obtain ⟨h', k1, k2⟩ := new_fine hn hn' hI hI' hlo
  rw [h0] at k1
  cases k1
  have I2 : I ≤ int64Max := by unfold int64Max; omega
  have g1 := fine_run hn hI hlo I2 k2 (fun o ho => hc o (by simp [ho])) (fun v now ho => hv v now (by simp [ho])) (hz.imp id (fun q o ho => q o (by simp [ho]))) e1
  have g2 := fine_run hn hI hlo I2 k2 (fun o ho => hc o (by simp [ho])) (fun v now ho => hv v now (by simp [ho])) (hz.imp id (fun q o ho => q o (by simp [ho]))) e2
  have e : contents n I [] ops1 = contents n I [] ops2 := by rw [← view_samples g1.good.view, ← view_samples g2.good.view, hs]
  rw [← e] at g2
  exact sameFrom_of_fine hn hI hlo I2 g1 g2 (fun o ho => hc o (by simp [ho])) (fun v now ho => hv v now (by simp [ho])) (hz.imp id (fun q o ho => q o (by simp [ho])))

/-- **C169** In particular, a history which has been cleared is like a new one. -/
theorem C169_clear (n : Nat) (I : Int) (hn : 0 < n) (hn' : n < 2 ^ 31) (hI : 0 < I) (hI' : I < 2 ^ 63) (ops1 ops : List Op)
    (hc : ClockOk I (ops1 ++ ops)) (hv : IntValues (ops1 ++ ops)) (hz : SizeOk n (ops1 ++ ops))
    {h h1 : Hist} {os1 : List Int} (h0 : new n I = some h) (e1 : run .strict h ops1 = .ok (os1, h1)) : SameFrom (run .strict (clear h1) ops) (run .strict h ops) := by
  obtain ⟨lo, hlo, hc⟩ := clockOk_times hc
  obtain ⟨h', k1, k2⟩ := new_fine hn hn' hI hI' hlo
  rw [h0] at k1
  cases k1
  have I2 : I ≤ int64Max := by unfold int64Max; omega
  have g1 := fine_run hn hI hlo I2 k2 (fun o ho => hc o (by simp [ho])) (fun v now ho => hv v now (by simp [ho])) (hz.imp id (fun q o ho => q o (by simp [ho]))) e1
  obtain ⟨s1, -⟩ := sim_exact hn hI hlo I2 g1 .clear (by simp [Op.now?]) (by simp) (.inr rfl)
  obtain ⟨h'', e3, g3⟩ := s1 trivial
  have e4 : h'' = clear h1 := by
    rw [exec] at e3
    cases e3
    rfl
  rw [e4] at g3
  exact sameFrom_of_fine hn hI hlo I2 g3 k2 (fun o ho => hc o (by simp [ho])) (fun v now ho => hv v now (by simp [ho])) (hz.imp id (fun q o ho => q o (by simp [ho])))

/-- The conditions are met: the same samples are at different positions. -/
example : ∃ h h1 h2, new 2 100 = some h ∧ run .strict h [.add 1 10, .add 5 20, .add 7 30] = .ok ([1, 3, 6], h1) ∧ run .strict h [.add 5 20, .add 7 30] = .ok ([5, 6], h2) ∧
    samples h1 = [⟨20, 5⟩, ⟨30, 7⟩] ∧ samples h2 = [⟨20, 5⟩, ⟨30, 7⟩] ∧ h1 ≠ h2 ∧
    ClockOk 100 ([.add 1 10, .add 5 20, .add 7 30] ++ [.add 5 20, .add 7 30] ++ [.median 0 40]) ∧
    IntValues ([.add 1 10, .add 5 20, .add 7 30] ++ [.add 5 20, .add 7 30] ++ [.median 0 40]) :=
  ⟨_, _, _, rfl, rfl, rfl, by decide +kernel, by decide +kernel, by decide +kernel,
    ⟨0, by decide, fun op hop now e => by
      simp only [List.cons_append, List.nil_append, List.mem_cons, List.not_mem_nil, or_false] at hop
      rcases hop with rfl | rfl | rfl | rfl | rfl | rfl <;> cases e <;> decide⟩,
    fun v now hop => by
      simp only [List.cons_append, List.nil_append, List.mem_cons, List.not_mem_nil, or_false] at hop
      rcases hop with h | h | h | h | h | h <;> cases h <;> exact ⟨by decide, by decide⟩⟩

end Verif.History
