import Verif.Props.HistoryExact
import Verif.Proof.HistoryQuiet

/-!
# Calls which only look at the history: C139
-/

namespace Verif.History
open Verif.C
open Verif.History.Spec

/-- **C139** isn't true if the clock goes back: asking for the size at a later time removes samples, and then they aren't there. -/
theorem C139_refuted : ∃ h ops, new 4 10 = some h ∧ ops = [Op.add 1 100, .add 3 105, .size 200, .median 7 106] ∧
    Skips [true, true, false, true] ops ∧
    (run .strict h ops).map Prod.fst = .ok [1, 2, 0, 7] ∧
    (run .strict h (pick [true, true, false, true] ops)).map Prod.fst = .ok [1, 2, 2] := by
  refine ⟨_, _, rfl, rfl, ⟨rfl, fun i op h1 h2 => ?_⟩, by decide +kernel, by decide +kernel⟩
  rcases i with _ | _ | _ | _ | i
  · cases h1
  · cases h1
  · cases h2; rfl
  · cases h1
  · cases h1

/-- **C139** With a clock which doesn't go back, calls which only look at the history (size, interval and median) change nothing: if some of them
aren't made then all other calls still return the same, and what's left at the end doesn't look any different at that time or later.
Nothing overflows without them if it didn't overflow with them. -/
theorem C139_looking_partial (n : Nat) (I : Int) (hn : 0 < n) (hn' : n < 2 ^ 31) (hI : 0 < I) (hI' : I < 2 ^ 63) (ops : List Op) (keep : List Bool)
    (hs : Skips keep ops) (t0 : Int) (hm : Monotonic t0 ops)
    (hc : ClockOk I ops) (hv : IntValues ops) (hz : SizeOk n ops) (hf : RunFits n I [] ops) :
    ∃ h os ha hb, new n I = some h ∧ run .strict h ops = .ok (os, ha) ∧ run .strict h (pick keep ops) = .ok (pick keep os, hb) ∧
      ∀ now, clock t0 ops ≤ now → live I now (samples ha) = live I now (samples hb) := by
  obtain ⟨h, h1, h2, -⟩ := C27_exactly n I hn hn' hI hI' ops hc hv hz
  obtain ⟨h', h1', h2', -⟩ := C27_exactly n I hn hn' hI hI' _ (clockOk_pick keep hc) (intValues_pick keep hv) (sizeOk_pick keep hz)
  rw [h1] at h1'
  injection h1' with h1'
  subst h1'
  obtain ⟨p1, p2, p3⟩ := pick_results (n := n) (I := I) ops keep t0 [] [] hs hm (alike_refl _ _ _)
  obtain ⟨ha, h3, h4⟩ := h2 hf
  obtain ⟨hb, h5, h6⟩ := h2' (p3 hf)
  refine ⟨h, _, ha, hb, h1, h3, ?_, ?_⟩
  · rw [p1]; exact h5
  · rw [h4, h6]; exact p2

/-- The conditions are met: samples expire while the history is being looked at. -/
example : Skips [true, false, true, false, true] [.add 4 1, .median 0 2, .add 8 5, .size 12, .median 0 13] ∧
    Monotonic 0 [.add 4 1, .median 0 2, .add 8 5, .size 12, .median 0 13] ∧
    RunFits 4 10 [] [.add 4 1, .median 0 2, .add 8 5, .size 12, .median 0 13] ∧
    results 4 10 [] [.add 4 1, .median 0 2, .add 8 5, .size 12, .median 0 13] = [4, 4, 6, 1, 8] := by
  refine ⟨⟨rfl, fun i op h1 h2 => ?_⟩, by simp [Monotonic, Op.now?], ?_, by decide⟩
  · rcases i with _ | _ | _ | _ | _ | i
    · cases h1
    · cases h2; rfl
    · cases h1
    · cases h2; rfl
    · cases h1
    · cases h1
  · simp only [RunFits, OpFits, next, live, record, lastN, List.filter_nil, List.getLast?_nil, AreaFits]
    simp (decide := true) [AreaFits, Fits32, Fits64]

end Verif.History
