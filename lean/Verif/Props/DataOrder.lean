import Verif.Props.MiscData
import Verif.Props.DataLaws

/-!
# Prefixes of prefixes and suffixes of suffixes: C164
-/

namespace Verif.Misc
open Verif.C Spec

theorem data_prefix_iff {mode : Mode} {d p : Option Data}
    (hd : ∀ x, d = some x → Valid x ∧ Usable mode x.bytes) (hp : ∀ x, p = some x → Valid x ∧ Usable mode x.bytes) :
    dataHasPrefix mode d p = .ok true ↔ (d = none ∧ p = none) ∨ ∃ x y, d = some x ∧ p = some y ∧ contents y <+: contents x := by
  obtain ⟨r, h1, h2⟩ := C54_data_prefix_partial mode d p hd hp
  rw [h1, ← h2]
  exact ⟨fun h => Except.ok.inj h, fun h => by rw [h]⟩

theorem data_suffix_iff {mode : Mode} {d p : Option Data}
    (hd : ∀ x, d = some x → Valid x ∧ Usable mode x.bytes) (hp : ∀ x, p = some x → Valid x ∧ Usable mode x.bytes) :
    dataHasSuffix mode d p = .ok true ↔ (d = none ∧ p = none) ∨ ∃ x y, d = some x ∧ p = some y ∧ contents y <:+ contents x := by
  obtain ⟨r, h1, h2⟩ := C54_data_suffix_partial mode d p hd hp
  rw [h1, ← h2]
  exact ⟨fun h => Except.ok.inj h, fun h => by rw [h]⟩

theorem data_equal_iff {mode : Mode} {i j : Nat} (hij : i ≠ j) {a b : Option Data}
    (ha : ∀ x, a = some x → Valid x ∧ Usable mode x.bytes) (hb : ∀ x, b = some x → Valid x ∧ Usable mode x.bytes) :
    dataEqual mode (a.map (i, ·)) (b.map (j, ·)) = .ok true ↔ a.map contents = b.map contents := by
  rw [C54_data_equal_partial mode (a.map (i, ·)) (b.map (j, ·))]
  · rw [Option.map_map, Option.map_map]
    constructor
    · intro h
      exact of_decide_eq_true (Except.ok.inj h)
    · intro h
      exact congrArg _ (decide_eq_true h)
  · intro x hx
    obtain ⟨y, rfl, rfl⟩ := Option.map_eq_some_iff.1 hx
    exact ha y rfl
  · intro x hx
    obtain ⟨y, rfl, rfl⟩ := Option.map_eq_some_iff.1 hx
    exact hb y rfl
  · intro x y hx hy h
    obtain ⟨x, rfl, rfl⟩ := Option.map_eq_some_iff.1 hx
    obtain ⟨y, rfl, rfl⟩ := Option.map_eq_some_iff.1 hy
    exact absurd h hij

/-- **C164** `gutil_data_has_prefix` is a partial order of blocks (including `NULL`): each block starts with itself, what a prefix starts with
the whole block starts with too, and blocks which start with each other are those which `gutil_data_equal` finds equal (`i` and `j` are their
addresses). Of two prefixes of a block, one is a prefix of the other. What's missing: blocks with `NULL` data, see `C164_refuted`. -/
theorem C164_prefixes_partial (mode : Mode) (i j : Nat) (hij : i ≠ j) (a b c : Option Data) (ha : ∀ x, a = some x → Valid x ∧ Usable mode x.bytes)
    (hb : ∀ x, b = some x → Valid x ∧ Usable mode x.bytes) (hc : ∀ x, c = some x → Valid x ∧ Usable mode x.bytes) :
    dataHasPrefix mode a a = .ok true ∧
    (dataHasPrefix mode a b = .ok true → dataHasPrefix mode b c = .ok true → dataHasPrefix mode a c = .ok true) ∧
    (dataHasPrefix mode a b = .ok true ∧ dataHasPrefix mode b a = .ok true ↔ dataEqual mode (a.map (i, ·)) (b.map (j, ·)) = .ok true) ∧
    (dataHasPrefix mode a b = .ok true → dataHasPrefix mode a c = .ok true →
      dataHasPrefix mode b c = .ok true ∨ dataHasPrefix mode c b = .ok true) := by
  rw [data_prefix_iff ha ha, data_prefix_iff ha hb, data_prefix_iff hb hc, data_prefix_iff ha hc, data_prefix_iff hb ha, data_prefix_iff hc hb,
    data_equal_iff hij ha hb]
  cases a <;> cases b <;> cases c <;> simp
  · exact ⟨fun h => h.2.eq_of_length_le h.1.length_le, fun h => by rw [h]; simp⟩
  · refine ⟨fun h g => g.trans h, ⟨fun h => h.2.eq_of_length_le h.1.length_le, fun h => by rw [h]; simp⟩, fun h g => ?_⟩
    exact (List.prefix_or_prefix_of_prefix g h)

/-- **C164** The same of `gutil_data_has_suffix`. -/
theorem C164_suffixes_partial (mode : Mode) (i j : Nat) (hij : i ≠ j) (a b c : Option Data) (ha : ∀ x, a = some x → Valid x ∧ Usable mode x.bytes)
    (hb : ∀ x, b = some x → Valid x ∧ Usable mode x.bytes) (hc : ∀ x, c = some x → Valid x ∧ Usable mode x.bytes) :
    dataHasSuffix mode a a = .ok true ∧
    (dataHasSuffix mode a b = .ok true → dataHasSuffix mode b c = .ok true → dataHasSuffix mode a c = .ok true) ∧
    (dataHasSuffix mode a b = .ok true ∧ dataHasSuffix mode b a = .ok true ↔ dataEqual mode (a.map (i, ·)) (b.map (j, ·)) = .ok true) ∧
    (dataHasSuffix mode a b = .ok true → dataHasSuffix mode a c = .ok true →
      dataHasSuffix mode b c = .ok true ∨ dataHasSuffix mode c b = .ok true) := by
  rw [data_suffix_iff ha ha, data_suffix_iff ha hb, data_suffix_iff hb hc, data_suffix_iff ha hc, data_suffix_iff hb ha, data_suffix_iff hc hb,
    data_equal_iff hij ha hb]
  cases a <;> cases b <;> cases c <;> simp
  · exact ⟨fun h => h.2.eq_of_length_le h.1.length_le, fun h => by rw [h]; simp⟩
  · refine ⟨fun h g => g.trans h, ⟨fun h => h.2.eq_of_length_le h.1.length_le, fun h => by rw [h]; simp⟩, fun h g => ?_⟩
    exact (List.suffix_or_suffix_of_suffix g h)

/-- **C164** Blocks of the right size which begin with `a` and end with `b` are those which are equal to the concatenation of `a` and `b`. -/
theorem C164_split_partial (mode : Mode) (a b x : Data) (ha : Valid a ∧ Usable mode a.bytes) (hb : Valid b ∧ Usable mode b.bytes) (hx : Valid x)
    (hs : a.size + b.size < 2 ^ 64) :
    ∃ r d, bytesConcat mode (some a) [b] = .ok (some r) ∧ Returned [a, b] r d ∧
      (bytesHasPrefix mode (some x) a.bytes a.size = .ok true ∧ bytesHasSuffix mode (some x) b.bytes b.size = .ok true ∧ x.size = a.size + b.size ↔
        bytesEqualData mode (some x) (some d) = .ok true) := by
  obtain ⟨r, d, h1, h2, h3, -, h5⟩ := concat_returned mode a [b] (by
    intro y hy
    simp only [List.mem_cons, List.not_mem_nil, or_false] at hy
    rcases hy with rfl | rfl <;> assumption) (by simp; omega)
  refine ⟨r, d, h1, h2, ?_⟩
  have hv : ∀ y, some x = some y → Valid y := fun y hy => by cases hy; exact hx
  obtain ⟨⟨p, p1, p2⟩, -⟩ := C54_bytes_prefix mode (some x) a.bytes a.size hv ha.1
  obtain ⟨-, ⟨q, q1, q2⟩⟩ := C54_bytes_prefix mode (some x) b.bytes b.size hv hb.1
  rw [(C54_bytes_equal mode (some x) (some d) none 0 hv (fun y hy => by cases hy; exact h3) (by simp)).2, p1, q1]
  have la := contents_length a ha.1
  have lb := contents_length b hb.1
  have lx := contents_length x hx
  have hd : contents d = contents a ++ contents b := by rw [h5]; simp
  have ok : ∀ z : Bool, (Except.ok z : M Bool) = .ok true ↔ z = true := fun z => ⟨fun h => Except.ok.inj h, fun h => by rw [h]⟩
  rw [ok, ok, ok, p2, q2, decide_eq_true_iff]
  simp only [Option.map_some, Option.some.injEq, exists_eq_left', hd]
  constructor
  · rintro ⟨⟨t, ht⟩, hq, hz⟩
    replace ht : contents a ++ t = contents x := ht
    have e : t <:+ contents x := ⟨_, ht⟩
    have lt : t.length = b.size := by
      have := congrArg List.length ht
      simp at this
      omega
    have : t = contents b := by
      obtain ⟨u, hu⟩ := hq
      replace hu : u ++ contents b = contents x := hu
      exact (List.append_inj' (ht.trans hu.symm) (by omega)).2
    rw [← ht, this]
  · intro h
    refine ⟨⟨contents b, h.symm⟩, ⟨contents a, h.symm⟩, ?_⟩
    have := congrArg List.length h
    simp at this
    omega

/-- **C164** isn't true in the strict reading of the standard: an empty block whose data is `NULL` (which is what `gutil_data_from_string` returns for
`NULL`) can't be compared with itself. -/
theorem C164_refuted : dataFromString none = .ok ⟨none, 0⟩ ∧ Valid ⟨none, 0⟩ ∧ dataHasPrefix .strict (some ⟨none, 0⟩) (some ⟨none, 0⟩) ≠ .ok true ∧
    dataHasSuffix .strict (some ⟨none, 0⟩) (some ⟨none, 0⟩) ≠ .ok true :=
  ⟨rfl, rfl, by decide +kernel, by decide +kernel⟩

/-- The conditions are met: two prefixes of the same block, and a block which can be split in two. -/
example : Valid ⟨some [1, 2, 3], 3⟩ ∧ Usable .strict (some [1, 2, 3]) ∧ dataHasPrefix .strict (some ⟨some [1, 2, 3], 3⟩) (some ⟨some [1, 2], 2⟩) = .ok true ∧
    dataHasPrefix .strict (some ⟨some [1, 2, 3], 3⟩) (some ⟨some [1], 1⟩) = .ok true ∧
    dataHasPrefix .strict (some ⟨some [1], 1⟩) (some ⟨some [1, 2], 2⟩) = .ok false ∧
    dataHasSuffix .strict (some ⟨some [1, 2, 3], 3⟩) (some ⟨some [2, 3], 2⟩) = .ok true ∧
    bytesHasPrefix .strict (some ⟨some [1, 2, 3], 3⟩) (some [1, 2]) 2 = .ok true ∧ bytesHasSuffix .strict (some ⟨some [1, 2, 3], 3⟩) (some [3]) 1 = .ok true ∧
    bytesConcat .strict (some ⟨some [1, 2], 2⟩) [⟨some [3], 1⟩] = .ok (some (.new [1, 2, 3])) :=
  ⟨by simp [Valid, Readable], .inr (by simp), by decide +kernel, by decide +kernel, by decide +kernel, by decide +kernel, by decide +kernel, by decide +kernel,
    by decide +kernel⟩

end Verif.Misc
