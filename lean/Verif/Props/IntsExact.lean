import Verif.Props.Ints
import Verif.Proof.IntArrayExact

/-!
# What happens to blocks of ints in the cases excluded by C40, C41, C42 and C44
-/

namespace Verif.Ints
open Verif.C

/-- The object and the memory from which its ints come. -/
theorem getData_inv {m : State} {i : Nat} {l : List Val} (h : getData m i = .ok l) :
    ∃ o v, m.obj i = .ok o ∧ m.objs[i]? = some (some o) ∧ m.blocks[o.block]? = some (some v) ∧ o.off + o.count ≤ v.length ∧
      l = (v.drop o.off).take o.count ∧ l.length = o.count := by
  unfold getData at h
  cases ho : m.obj i with
  | error e => rw [ho] at h; cases h
  | ok o =>
    rw [ho, ok_bind] at h
    have hobj : m.objs[i]? = some (some o) := by
      unfold State.obj at ho
      split at ho <;> cases ho
      assumption
    unfold State.read at h
    split at h
    · rename_i v hv
      split at h
      · cases h
        rename_i hle
        refine ⟨o, v, rfl, hobj, hv, hle, rfl, ?_⟩
        simp; omega
      · cases h
    · cases h
    · cases h

/-- **C40** in each of the cases excluded by `C40_subrange_partial`: if the offset is within the block, but the sum of offset and count
isn't a `guint`, then the new object claims to have all the ints which were asked for, although there aren't that many, and reading them
is undefined. (No block of memory has 2^32 ints.) If the offset isn't within the block, `NULL` is returned and nothing happens. -/
theorem C40_exactly {m : State} {i : Nat} {l : List Val} (h : getData m i = .ok l) (hl : l.length < 2 ^ 32)
    (hb : ∀ (b : Nat) (v : List Val), m.blocks[b]? = some (some v) → v.length < 2 ^ 32)
    (off count : Nat) (ho : off < 2 ^ 32) (hc : count < 2 ^ 32) (hge : 2 ^ 32 ≤ off + count) :
    (off < l.length → ∃ m' j, newFromInts m i off count = .ok (m', some j) ∧ getCount m' j = .ok count ∧
      l.length - off < count ∧ getData m' j = .error .oobRead) ∧
    (l.length ≤ off → newFromInts m i off count = .ok (m, none)) := by
  obtain ⟨o, v, hobj, hobj', hv, hle, rfl, hlen⟩ := getData_inv h
  refine ⟨fun hlt => ?_, fun hle' => ?_⟩
  · rw [hlen] at hlt hl ⊢
    have hmod : (off + count) % 2 ^ 32 = off + count - 2 ^ 32 := by omega
    have hu : toUInt32 (((off + count - 2 ^ 32 : Nat) : Int) - (off : Int)) = count := by
      unfold toUInt32
      rw [BitVec.toNat_ofInt]
      omega
    rw [newFromInts, hobj, ok_bind, if_pos hlt, hmod, ref, hobj, ok_bind, ok_bind, if_neg (by omega), hu]
    unfold newWithFreeFunc
    rw [if_neg (by omega)]
    refine ⟨_, _, rfl, ?_, by omega, ?_⟩
    · rw [getCount, obj_ok (m := ⟨m.blocks, _⟩) (by dsimp only; rw [List.getElem?_append_right (Nat.le_refl _), Nat.sub_self]; rfl), ok_bind]
    · rw [getData, obj_ok (m := ⟨m.blocks, _⟩) (by dsimp only; rw [List.getElem?_append_right (Nat.le_refl _), Nat.sub_self]; rfl), ok_bind]
      unfold State.read
      dsimp only
      rw [hv]
      dsimp only
      rw [if_neg]
      have := hb _ _ hv
      omega
  · rw [newFromInts, hobj, ok_bind, if_neg (by omega)]

example : ∃ m' j, newFromInts ⟨[some [1, 2, 3]], [some ⟨0, 0, 3, 1, .gfree 0⟩]⟩ 0 2 (2 ^ 32 - 2) = .ok (m', some j) ∧
    getCount m' j = .ok (2 ^ 32 - 2) ∧ getData m' j = .error .oobRead := by
  have := (C40_exactly (m := ⟨[some [1, 2, 3]], [some ⟨0, 0, 3, 1, .gfree 0⟩]⟩) (i := 0) (l := [1, 2, 3]) rfl (by decide)
    (by
      intro b v hv
      rcases b with _ | b
      · cases hv; decide
      · simp at hv)
    2 (2 ^ 32 - 2) (by decide) (by decide) (by decide)).1 (by decide)
  obtain ⟨m', j, h1, h2, -, h3⟩ := this
  exact ⟨m', j, h1, h2, h3⟩

/-- **C41** `NULL` is returned exactly if the part is empty; and exactly if it's an empty part at an offset within the block, there's
one reference more although `NULL` has been returned. -/
theorem C41_exactly {m m' : State} {i : Nat} {o : Obj} {r : Option Nat} (ho : m.obj i = .ok o) (off count : Nat)
    (h1 : count < 2 ^ 32) (h2 : off < 2 ^ 32) (h : newFromInts m i off count = .ok (m', r)) :
    (r = none ↔ count = 0 ∨ o.count ≤ off) ∧
    (r = none → m' = if off < o.count then { m with objs := m.objs.set i (some { o with refs := o.refs + 1 }) } else m) := by
  by_cases hoff : off < o.count
  · by_cases h0 : count = 0
    · subst h0
      rw [C41_refuted ho off hoff h2] at h
      cases h
      simp [hoff]
    · have : r ≠ none := by
        rintro rfl
        have := C41_null_partial off count (by omega) h1 h2 h
        subst this
        rw [newFromInts, ho, ok_bind, if_pos hoff, ref, ho, ok_bind, ok_bind] at h
        generalize he : (if (off + count) % 2 ^ 32 > o.count then o.count else (off + count) % 2 ^ 32) = e at h
        have hne : ¬ toUInt32 ((e : Int) - (off : Int)) = 0 := by
          unfold toUInt32
          rw [BitVec.toNat_ofInt]
          split at he <;> omega
        unfold newWithFreeFunc at h
        rw [if_neg hne] at h
        have := congrArg Prod.snd (Except.ok.inj h)
        simp at this
      refine ⟨⟨fun e => absurd e this, fun e => by omega⟩, fun e => absurd e this⟩
  · rw [newFromInts, ho, ok_bind, if_neg hoff] at h
    cases h
    simp [hoff]
    omega

example : (⟨[some [7]], [some ⟨0, 0, 1, 1, .gfree 0⟩]⟩ : State).obj 0 = .ok ⟨0, 0, 1, 1, .gfree 0⟩ ∧
    newFromInts ⟨[some [7]], [some ⟨0, 0, 1, 1, .gfree 0⟩]⟩ 0 0 0 = .ok (⟨[some [7]], [some ⟨0, 0, 1, 2, .gfree 0⟩]⟩, none) := ⟨rfl, rfl⟩

/-- **C44** for blocks of any size: -1 is returned exactly if the value isn't there; otherwise it's the first index converted to an
`int`, which is negative as soon as it's 2^31 or more. -/
theorem C44_find_exactly (l : List Val) (h : l.length < 2 ^ 32) (v : Val) :
    (v ∉ l → find (some l) v = -1) ∧
    (∀ k : Nat, l[k]? = some v → v ∉ l.take k → find (some l) v = if k < 2 ^ 31 then (k : Int) else (k : Int) - 2 ^ 32) := by
  have key : IntArray.find (IntArray.I l) v = .ok (find (some l) v) := by
    rw [IntArray.find, IntArray.findLoop_ok, find, findLoop_spec]
    cases l.findIdx? (· = v) <;> rfl
  refine ⟨fun hn => ?_, fun k h1 h2 => ?_⟩
  · have := IntArray.find_absent l v hn
    rw [key] at this
    exact Except.ok.inj this
  · have := IntArray.find_first h h1 h2
    rw [key] at this
    exact Except.ok.inj this

example (n : Nat) (hn : n = 2 ^ 31 + 5) : find (some (List.replicate n 0 ++ [1])) 1 = -2 ^ 31 + 5 := by
  rw [(C44_find_exactly _ (by simp only [List.length_append, List.length_replicate, List.length_singleton]; omega) 1).2 n
    (by rw [List.getElem?_append_right (by rw [List.length_replicate]; exact Nat.le_refl _), List.length_replicate, Nat.sub_self]; rfl)
    (by
      rw [List.take_left' List.length_replicate]
      intro hm
      exact absurd (List.eq_of_mem_replicate hm) (by decide)), if_neg (by omega)]
  omega

/-- **C42**, the excluded case, after any history: `gutil_ints_unref_to_data` drops the last reference to static data if and only if it calls a
`NULL` function. -/
theorem C42_static_exactly (ops : List Spec.Op) (h : Spec.Legal ⟨[], []⟩ ops) (i : Nat) (o : Spec.Obj)
    (ho : (Spec.run ⟨[], []⟩ ops).1.objs[i]? = some o) (hown : 0 < o.own) (hk : o.kind = .static) :
    ∃ m rs, Ints.run ⟨[], []⟩ ops = .ok (m, rs) ∧
      (unrefToData m i = .error .nullCall ↔ ¬ Spec.Kept ((Spec.run ⟨[], []⟩ ops).1.dropOwn i) i) := by
  obtain ⟨m, r, inv⟩ := Inv.empty.run h
  refine ⟨m, _, r, ?_⟩
  generalize (Spec.run ⟨[], []⟩ ops).1 = s at inv ho
  have hi := inv.dropOwn ho hown
  obtain ⟨mo, hmo⟩ := inv.owned ho hown
  have hrd := inv.read hmo ho
  obtain ⟨so, hso, -, -, -, e4, -, -⟩ := inv.live i mo hmo
  rw [ho] at hso
  cases hso
  have hf : mo.free = .null := by rw [e4, hk]; rfl
  have hlast := hi.last hmo ho (by rw [hk]; intro p e; cases e)
  rw [hlast]
  rw [unrefToData, obj_ok hmo, ok_bind]
  by_cases hr : mo.refs = 1
  · rw [if_pos hr, if_neg (by rw [hf]; decide), copyAndFree, hrd, ok_bind, hf]
    simp only [hr, ne_eq, not_true_eq_false, not_false_eq_true, iff_true]
    rfl
  · have hrd' : ({ m with objs := m.objs.set i (some { mo with refs := mo.refs - 1 }) } : State).read mo.block mo.off mo.count
        = m.read mo.block mo.off mo.count := rfl
    rw [if_neg hr, copyData, hrd', hrd, ok_bind]
    constructor
    · intro e
      cases e
    · intro e
      exact absurd hr e

example : Spec.Legal ⟨[], []⟩ [.alloc [7], .static 0 1] ∧
    ∃ m rs, Ints.run ⟨[], []⟩ [.alloc [7], .static 0 1] = .ok (m, rs) ∧ unrefToData m 0 = .error .nullCall :=
  ⟨⟨trivial, ⟨_, rfl, rfl, by decide⟩, trivial⟩, _, _, rfl, rfl⟩

end Verif.Ints
