import Verif.Proof.Version

/-!
# Properties of the version macros (C77, C92)
-/

namespace Verif.Version

/-- How versions compare -/
def older (a b : Nat × Nat × Nat) : Prop :=
  a.1 < b.1 ∨ a.1 = b.1 ∧ (a.2.1 < b.2.1 ∨ a.2.1 = b.2.1 ∧ a.2.2 < b.2.2)

/-- The components of a version can be recovered from the word. -/
theorem C77_decode {major minor micro : BitVec 32} (h1 : major.toNat < 128) (h2 : minor.toNat < 4096) (h3 : micro.toNat < 4096) :
    majorOf (pack major minor micro) = major ∧ minorOf (pack major minor micro) = minor ∧ microOf (pack major minor micro) = micro := by
  have e := pack_toNat h1 h2 h3
  obtain ⟨e1, e2, e3⟩ := unpack_toNat (v := pack major minor micro)
  rw [e] at e1 e2 e3
  refine ⟨BitVec.eq_of_toNat_eq ?_, BitVec.eq_of_toNat_eq ?_, BitVec.eq_of_toNat_eq ?_⟩
  · rw [e1]; omega
  · rw [e2]; omega
  · rw [e3]; omega

example : majorOf (pack 127 4095 4095) = 127#32 := rfl

/-- Words compare in the same way as versions, and are never negative when treated as signed integers. -/
theorem C77_order {a b c a' b' c' : BitVec 32} (h1 : a.toNat < 128) (h2 : b.toNat < 4096) (h3 : c.toNat < 4096)
    (h1' : a'.toNat < 128) (h2' : b'.toNat < 4096) (h3' : c'.toNat < 4096) :
    (pack a b c < pack a' b' c' ↔ older (a.toNat, b.toNat, c.toNat) (a'.toNat, b'.toNat, c'.toNat)) ∧
    (pack a b c).toInt = (pack a b c).toNat := by
  have e := pack_toNat h1 h2 h3
  have e' := pack_toNat h1' h2' h3'
  refine ⟨?_, ?_⟩
  · rw [BitVec.lt_def, e, e']
    unfold older
    dsimp only
    omega
  · rw [BitVec.toInt_eq_toNat_cond, if_pos (by omega)]

example : older (1, 0, 79) (1, 1, 0) := by unfold older; dsimp only; omega

/-- The compile time version and the run time version of the same library are the same, and that's the one in the string. -/
theorem C77_current : runTime = compileTime ∧
    string = s!"{(majorOf runTime).toNat}.{(minorOf runTime).toNat}.{(microOf runTime).toNat}" := by
  constructor
  · rfl
  · decide +kernel

/-! ## C92 -/

/-- C92, full statement: the macros for specific versions, 1.0.69 to 1.0.79, are expressions which have the right value. Proved for
those up to 1.0.74. -/
theorem C92_specific_partial {x : Nat} (h1 : 69 ≤ x) (h2 : x ≤ 74) : ∃ t, specific x = some t ∧ value t = some (pack 1 0 x) := by
  refine ⟨[.version 1 0 x], ?_, rfl⟩
  unfold specific
  rw [if_pos]
  simp only [List.mem_cons, List.not_mem_nil, or_false]
  omega

example : (69 : Nat) ≤ 74 ∧ specific 74 = some [.version 1 0 74] := ⟨by omega, rfl⟩

/-- The ones from 1.0.75 on are not expressions: there's an extra parenthesis at the end. -/
theorem C92_specific_refuted {x : Nat} (h1 : 75 ≤ x) (h2 : x ≤ 79) : ∃ t, specific x = some t ∧ value t = none := by
  refine ⟨[.version 1 0 x, .close], ?_, rfl⟩
  unfold specific
  rw [if_neg, if_pos]
  all_goals
    simp only [List.mem_cons, List.not_mem_nil, or_false]
    omega

/-- There are no other ones. -/
theorem C92_others {x : Nat} (h : x < 69 ∨ 79 < x) : specific x = none := by
  unfold specific
  rw [if_neg, if_neg]
  all_goals
    simp only [List.mem_cons, List.not_mem_nil, or_false]
    omega

example : specific 79 = some [.version 1 0 79, .close] := rfl

end Verif.Version
