import Verif.Props.MiscData
import Verif.Spec.DataLaws

/-!
# Laws of concatenation and exclusive or: C145
-/

namespace Verif.Misc
open Verif.C Spec

theorem contents_new (l : List Byte) : contents ⟨some l, l.length⟩ = l := by simp [contents, bytesAt]
theorem valid_new (l : List Byte) : Valid ⟨some l, l.length⟩ := by simp [Valid, Readable]

theorem xor_returned (mode : Mode) (w a1 a2 : Nat) (b1 b2 : Data) (hw : 0 < w) (h1 : Valid b1) (h2 : Valid b2)
    (ha : mode = .wrap ∨ (a1 % w = 0 ∧ a2 % w = 0)) :
    ∃ r d, bytesXor mode w a1 a2 (some b1) (some b2) = .ok (some r) ∧ Returned [b1, b2] r d ∧ Valid d ∧
      contents d = List.zipWith (· ^^^ ·) (contents b1) (contents b2) := by
  obtain ⟨r, e1, e2⟩ := C55_xor_partial mode w a1 a2 b1 b2 hw h1 h2 (ha.elim .inl (fun h => .inr (.inr h)))
  cases r with
  | new l => exact ⟨.new l, ⟨some l, l.length⟩, e1, rfl, valid_new l, by rw [contents_new]; exact e2⟩
  | ref i =>
    obtain ⟨d, g1, g2, g3⟩ := e2
    refine ⟨.ref i, d, e1, g1, ?_, by rw [g2, g3]⟩
    rcases i with _ | _ | i
    · cases g1; exact h1
    · cases g1; exact h2
    · cases g1

theorem zipWith_xor_comm (a b : List Byte) : List.zipWith (· ^^^ ·) a b = List.zipWith (· ^^^ ·) b a :=
  List.zipWith_comm_of_comm (fun x y => BitVec.xor_comm x y)

theorem zipWith_xor_undo : ∀ a b : List Byte, List.zipWith (· ^^^ ·) (List.zipWith (· ^^^ ·) a b) b = a.take b.length
  | [], b => by simp
  | _ :: _, [] => by simp
  | x :: a, y :: b => by
    simp only [List.zipWith_cons_cons, List.length_cons, List.take_succ_cons, zipWith_xor_undo a b]
    rw [BitVec.xor_assoc, BitVec.xor_self, BitVec.xor_zero]

theorem zipWith_xor_self : ∀ a : List Byte, List.zipWith (· ^^^ ·) a a = List.replicate a.length 0
  | [] => rfl
  | x :: a => by
    simp only [List.zipWith_cons_cons, List.length_cons, List.replicate_succ, zipWith_xor_self a, BitVec.xor_self]
    rfl

/-- **C145** Exclusive or: it doesn't matter which one is first; doing it again with the second one gives the first one back (as much of it as was
used); the block with itself gives zeros. For compilers which accept words at any address, or addresses which are aligned (see C55). -/
theorem C145_xor_partial (mode : Mode) (w a1 a2 a3 : Nat) (b1 b2 : Data) (hw : 0 < w) (h1 : Valid b1) (h2 : Valid b2)
    (ha : mode = .wrap ∨ (a1 % w = 0 ∧ a2 % w = 0 ∧ a3 % w = 0)) :
    ∃ r r1 r2 r3 d d1 d2 d3,
      bytesXor mode w a1 a2 (some b1) (some b2) = .ok (some r) ∧ Returned [b1, b2] r d ∧
      bytesXor mode w a2 a1 (some b2) (some b1) = .ok (some r1) ∧ Returned [b2, b1] r1 d1 ∧ contents d1 = contents d ∧
      bytesXor mode w a3 a2 (some d) (some b2) = .ok (some r2) ∧ Returned [d, b2] r2 d2 ∧ contents d2 = (contents b1).take b2.size ∧
      bytesXor mode w a1 a1 (some b1) (some b1) = .ok (some r3) ∧ Returned [b1, b1] r3 d3 ∧ contents d3 = List.replicate b1.size 0 := by
  obtain ⟨r, d, e1, e2, e3, e4⟩ := xor_returned mode w a1 a2 b1 b2 hw h1 h2 (ha.imp id (fun h => ⟨h.1, h.2.1⟩))
  obtain ⟨r1, d1, f1, f2, -, f4⟩ := xor_returned mode w a2 a1 b2 b1 hw h2 h1 (ha.imp id (fun h => ⟨h.2.1, h.1⟩))
  obtain ⟨r2, d2, g1, g2, -, g4⟩ := xor_returned mode w a3 a2 d b2 hw e3 h2 (ha.imp id (fun h => ⟨h.2.2, h.2.1⟩))
  obtain ⟨r3, d3, k1, k2, -, k4⟩ := xor_returned mode w a1 a1 b1 b1 hw h1 h1 (ha.imp id (fun h => ⟨h.1, h.1⟩))
  refine ⟨r, r1, r2, r3, d, d1, d2, d3, e1, e2, f1, f2, ?_, g1, g2, ?_, k1, k2, ?_⟩
  · rw [f4, e4, zipWith_xor_comm]
  · rw [g4, e4, zipWith_xor_undo, contents_length b2 h2]
  · rw [k4, zipWith_xor_self, contents_length b1 h1]

theorem concat_returned (mode : Mode) (b : Data) (more : List Data) (hv : ∀ d ∈ b :: more, Valid d ∧ Usable mode d.bytes)
    (hs : ((b :: more).map Data.size).sum < 2 ^ 64) :
    ∃ r d, bytesConcat mode (some b) more = .ok (some r) ∧ Returned (b :: more) r d ∧ Valid d ∧ Usable mode d.bytes ∧
      contents d = (b :: more).flatMap contents := by
  obtain ⟨r, e1, e2⟩ := C55_concat_partial mode b more hv hs
  cases r with
  | new l => exact ⟨.new l, ⟨some l, l.length⟩, e1, rfl, valid_new l, .inr (by simp), by rw [contents_new]; exact e2⟩
  | ref i =>
    obtain ⟨d, g1, g2⟩ := e2
    have hm := hv d (List.mem_of_getElem? g1)
    exact ⟨.ref i, d, e1, g1, hm.1, hm.2, g2⟩

/-- **C145** Concatenation: it doesn't matter which blocks are concatenated first; the result begins with the first one and ends with the last one. (The
sizes fit, and empty blocks are acceptable for memcpy, see C55.) -/
theorem C145_concat_partial (mode : Mode) (a b c : Data) (ha : Valid a ∧ Usable mode a.bytes) (hb : Valid b ∧ Usable mode b.bytes)
    (hc : Valid c ∧ Usable mode c.bytes) (hs : a.size + b.size + c.size < 2 ^ 64) :
    ∃ r r1 r2 r3 r4 d ab bc d3 d4,
      bytesConcat mode (some a) [b, c] = .ok (some r) ∧ Returned [a, b, c] r d ∧
      bytesConcat mode (some a) [b] = .ok (some r1) ∧ Returned [a, b] r1 ab ∧
      bytesConcat mode (some b) [c] = .ok (some r2) ∧ Returned [b, c] r2 bc ∧
      bytesConcat mode (some ab) [c] = .ok (some r3) ∧ Returned [ab, c] r3 d3 ∧ contents d3 = contents d ∧
      bytesConcat mode (some a) [bc] = .ok (some r4) ∧ Returned [a, bc] r4 d4 ∧ contents d4 = contents d ∧
      bytesHasPrefix mode (some d) a.bytes a.size = .ok true ∧ bytesHasSuffix mode (some d) c.bytes c.size = .ok true := by
  have two : ∀ x y : Data, Valid x ∧ Usable mode x.bytes → Valid y ∧ Usable mode y.bytes → ∀ d ∈ [x, y], Valid d ∧ Usable mode d.bytes := by
    intro x y hx hy d hd
    simp only [List.mem_cons, List.not_mem_nil, or_false] at hd
    rcases hd with rfl | rfl
    · exact hx
    · exact hy
  have sz : ∀ x : Data, Valid x → x.size = (contents x).length := fun x hx => (contents_length x hx).symm
  obtain ⟨r, d, e1, e2, e3, e4, e5⟩ := concat_returned mode a [b, c] (by
    intro x hx
    simp only [List.mem_cons, List.not_mem_nil, or_false] at hx
    rcases hx with rfl | rfl | rfl <;> assumption) (by simp; omega)
  obtain ⟨r1, ab, f1, f2, f3, f4, f5⟩ := concat_returned mode a [b] (two a b ha hb) (by simp; omega)
  obtain ⟨r2, bc, g1, g2, g3, g4, g5⟩ := concat_returned mode b [c] (two b c hb hc) (by simp; omega)
  have s1 : ab.size = a.size + b.size := by
    rw [sz ab f3, f5, sz a ha.1, sz b hb.1]; simp
  have s2 : bc.size = b.size + c.size := by
    rw [sz bc g3, g5, sz b hb.1, sz c hc.1]; simp
  obtain ⟨r3, d3, k1, k2, -, -, k5⟩ := concat_returned mode ab [c] (two ab c ⟨f3, f4⟩ hc) (by simp; omega)
  obtain ⟨r4, d4, m1, m2, -, -, m5⟩ := concat_returned mode a [bc] (two a bc ha ⟨g3, g4⟩) (by simp; omega)
  obtain ⟨⟨p, p1, p2⟩, -⟩ := C54_bytes_prefix mode (some d) a.bytes a.size (fun x hx => by cases hx; exact e3) ha.1
  obtain ⟨-, ⟨q, q1, q2⟩⟩ := C54_bytes_prefix mode (some d) c.bytes c.size (fun x hx => by cases hx; exact e3) hc.1
  have hp : p = true := p2.2 ⟨d, rfl, by
    rw [e5]
    exact ⟨contents b ++ contents c, by simp [contents]⟩⟩
  have hq : q = true := q2.2 ⟨d, rfl, by
    rw [e5]
    exact ⟨contents a ++ contents b, by simp [contents]⟩⟩
  subst hp hq
  refine ⟨r, r1, r2, r3, r4, d, ab, bc, d3, d4, e1, e2, f1, f2, g1, g2, k1, k2, ?_, m1, m2, ?_, p1, q1⟩
  · rw [k5, e5]; simp [f5]
  · rw [m5, e5]; simp [g5]

/-- **C145** isn't true in the strict reading of the standard: empty blocks (whose data is `NULL`) can't be concatenated to others, and the exclusive or of
the result with one of the arguments can't be formed if its address isn't aligned. -/
theorem C145_refuted :
    bytesConcat .strict (some ⟨some [1], 1⟩) [⟨some [2], 1⟩, ⟨none, 0⟩] = .error .badArg ∧
    bytesConcat .strict (some ⟨some [2], 1⟩) [⟨none, 0⟩] = .ok (some (.ref 0)) ∧
    bytesConcat .strict (some ⟨some [1], 1⟩) [⟨some [2], 1⟩] = .ok (some (.new [1, 2])) ∧
    bytesXor .strict 4 0 4 (some ⟨some [1, 2, 3, 4], 4⟩) (some ⟨some [1, 2, 3, 4], 4⟩) = .ok (some (.new [0, 0, 0, 0])) ∧
    bytesXor .strict 4 1 4 (some ⟨some [1, 2, 3, 4], 4⟩) (some ⟨some [0, 0, 0, 0], 4⟩) = .error .badPtr := by decide +kernel

/-- The conditions are met, and something is lost if the second block is shorter. -/
example : Valid ⟨some [1, 2, 3], 3⟩ ∧ Valid ⟨some [7, 8], 2⟩ ∧ bytesXor .wrap 4 0 1 (some ⟨some [1, 2, 3], 3⟩) (some ⟨some [7, 8], 2⟩) = .ok (some (.new [6, 10])) ∧
    bytesXor .wrap 4 2 1 (some ⟨some [6, 10], 2⟩) (some ⟨some [7, 8], 2⟩) = .ok (some (.new [1, 2])) :=
  ⟨by simp [Valid, Readable], by simp [Valid, Readable], by decide +kernel, by decide +kernel⟩
example : bytesConcat .strict (some ⟨some [1], 1⟩) [⟨some [2, 3], 2⟩, ⟨some [4], 1⟩] = .ok (some (.new [1, 2, 3, 4])) ∧ Usable .strict (some [1]) :=
  ⟨by decide +kernel, .inr (by simp)⟩

end Verif.Misc
