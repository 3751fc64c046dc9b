import Verif.Props.Ring
import Verif.Proof.RingMirror

/-!
# A ring seen from its other end: C143
-/

namespace Verif.Ring
open Verif.C Spec

/-- **C143** If each call is replaced by the one which does the same thing at the other end (put and put_front, get and get_last, drop and drop_last;
elements being counted from the other end) then all calls return the same, only flattened blocks are in the opposite order; and the same elements are
released by the same functions. That's for the histories of C17, without those which lower the maximum size so that elements get dropped; the order in
which elements are released isn't always the same. -/
theorem C143_mirror_partial (reserved max : Int) (free : Option Nat) (h0 : 0 ≤ reserved) (h1 : reserved ≤ 2 ^ 30) (ops : List Op)
    (ha : (Buf.new reserved max free).Allowed ops) (hc : (Buf.new reserved max free).NoCut ops) :
    ∃ r os r1 r2, newFull reserved max free = .ok r ∧ run r ops = .ok (os, r1) ∧
      run r ((Buf.new reserved max free).mirrors ops) = .ok (os.map Out.mirror, r2) ∧ ∀ x, r1.freed.count x = r2.freed.count x := by
  have hm : Mirror (Buf.new reserved max free) (Buf.new reserved max free) := ⟨rfl, rfl, rfl, .rfl, rfl, rfl, rfl⟩
  obtain ⟨g1, g2, g3⟩ := mirror_run ops _ _ hm ha hc
  obtain ⟨r, r1, e1, e2, e3⟩ := C17_exact_partial reserved max free h0 h1 ops ha
  obtain ⟨r', r2, f1, f2, f3⟩ := C17_exact_partial reserved max free h0 h1 _ g1
  rw [e1] at f1
  injection f1 with f1
  subst f1
  refine ⟨r, _, r1, r2, e1, e2, ?_, fun x => ?_⟩
  · rw [← g2]; exact f2
  · rw [e3, f3]
    exact (g3.freed.count_eq x).symm

/-- **C143** isn't true of the order in which elements are released: drop_last begins with the oldest one if everything is dropped, and with the last one
if not. Drop always begins with the oldest one, which is what it should do. -/
theorem C143_refuted :
    (newFull 2 (-1) (some 7) >>= fun r => run r [.put 1, .put 2, .drop 2]).map (fun x => x.2.freed) = .ok [(7, 1), (7, 2)] ∧
    (newFull 2 (-1) (some 7) >>= fun r => run r [.putFront 1, .putFront 2, .dropLast 2]).map (fun x => x.2.freed) = .ok [(7, 2), (7, 1)] ∧
    (newFull 2 (-1) (some 7) >>= fun r => run r [.putFront 1, .putFront 2, .putFront 3, .dropLast 2]).map (fun x => x.2.freed) = .ok [(7, 1), (7, 2)] :=
  ⟨by decide +kernel, by decide +kernel, by decide +kernel⟩

/-- ... and lowering the maximum size drops the oldest elements, there's no function which drops the newest ones. -/
theorem C143_refuted_by_limit :
    (newFull 2 (-1) none >>= fun r => run r [.put 1, .put 2, .setMaxSize 1, .get]).map Prod.fst = .ok [.bool true, .bool true, .unit, .ptr 2] ∧
    (newFull 2 (-1) none >>= fun r => run r [.putFront 1, .putFront 2, .setMaxSize 1, .getLast]).map Prod.fst = .ok [.bool true, .bool true, .unit, .ptr 1] :=
  ⟨by decide +kernel, by decide +kernel⟩

/-- The conditions are met by a ring which wraps around, grows and is flattened. -/
example : (Buf.new 2 5 (some 7)).Allowed [.put 1, .put 2, .get, .put 3, .putFront 4, .dataAt 0, .setMaxSize 6, .dropLast 1, .flatten, .drop 1, .unref] ∧
    (Buf.new 2 5 (some 7)).NoCut [.put 1, .put 2, .get, .put 3, .putFront 4, .dataAt 0, .setMaxSize 6, .dropLast 1, .flatten, .drop 1, .unref] ∧
    (Buf.new 2 5 (some 7)).mirrors [.put 1, .put 2, .get, .put 3, .putFront 4, .dataAt 0, .setMaxSize 6, .dropLast 1, .flatten, .drop 1, .unref] =
      [.putFront 1, .putFront 2, .getLast, .putFront 3, .put 4, .dataAt 2, .setMaxSize 6, .drop 1, .flatten, .dropLast 1, .unref] ∧
    (Buf.new 2 5 (some 7)).outs [.put 1, .put 2, .get, .put 3, .putFront 4, .dataAt 0, .setMaxSize 6, .dropLast 1, .flatten, .drop 1, .unref] =
      [.bool true, .bool true, .ptr 1, .bool true, .bool true, .ptr 4, .unit, .int 1, .block (some [4, 2]) 2, .int 1, .unit] :=
  ⟨by decide +kernel, by simp (decide := true) [Buf.NoCut], by decide +kernel, by decide +kernel⟩

end Verif.Ring
