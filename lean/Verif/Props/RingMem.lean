import Verif.Proof.RingBlock

/-!
# C17, C20, C120: what happens if elements are added after flatten

`Spec/RingMem.lean` says which slots of which memory the elements occupy, and which puts are therefore going to write outside of it.
-/

namespace Verif.Ring
open Verif.C Spec

/-- **C20** Exactly: for any sequence of calls, it's known in advance whether (and where) it writes outside of the memory allocated by flatten, and that's the
only thing that can go wrong. If it doesn't, then it's known what each call returns. The only limits: the ring is not used after the last reference is gone, and the
capacity doesn't exceed 2^30. -/
theorem C20_exactly (reserved max : Int) (free : Option Nat) (h0 : 0 ≤ reserved) (h1 : reserved ≤ 2 ^ 30) (ops : List Op)
    (ha : (Mem.new reserved max free).Allowed ops) :
    history reserved max free ops = match (Mem.new reserved max free).outs ops with
      | none => .error .oobWrite
      | some os => .ok os := by
  obtain ⟨r, hr, hp, _⟩ := mem_new reserved max free h0 h1
  have h2 := mem_run ops r _ (.inl hp) ha
  unfold history
  rw [hr, ok_bind]
  cases e : (Mem.new reserved max free).outs ops with
  | none =>
    rw [e] at h2
    dsimp only at h2 ⊢
    rw [h2]
    rfl
  | some os =>
    rw [e] at h2
    obtain ⟨r', h2, _⟩ := h2
    dsimp only
    rw [h2]
    rfl

/-- The elements wrap around and flatten allocates 2 slots out of 4. Both are occupied then, so adding one to the end is going to be a disaster, -/
example : (Mem.new 4 (-1) none).Allowed [.put 1, .put 2, .put 3, .put 4, .drop 3, .put 5, .flatten, .put 6] ∧
    (Mem.new 4 (-1) none).outs [.put 1, .put 2, .put 3, .put 4, .drop 3, .put 5, .flatten, .put 6] = none := by decide +kernel

/-- ... and to the beginning too, -/
example : (Mem.new 4 (-1) none).outs [.put 1, .put 2, .put 3, .put 4, .drop 3, .put 5, .flatten, .putFront 6] = none := by decide +kernel

/-- ... but not if one of them gets removed first. -/
example : (Mem.new 4 (-1) none).Allowed [.put 1, .put 2, .put 3, .put 4, .drop 3, .put 5, .flatten, .get, .putFront 6, .flatten, .getLast, .put 7, .reserve 5, .put 8, .put 9] ∧
    (Mem.new 4 (-1) none).outs [.put 1, .put 2, .put 3, .put 4, .drop 3, .put 5, .flatten, .get, .putFront 6, .flatten, .getLast, .put 7, .reserve 5, .put 8, .put 9] =
      some [.bool true, .bool true, .bool true, .bool true, .int 3, .bool true, .block (some [4, 5]) 2, .ptr 4, .bool true, .block (some [6, 5]) 2, .ptr 5, .bool true,
        .bool true, .bool true, .bool true] := by decide +kernel

/-- Flatten is harmless if the elements don't reach the last slot. -/
example : (Mem.new 4 (-1) none).outs [.put 1, .put 2, .get, .flatten, .put 3, .put 4, .put 5] =
    some [.bool true, .bool true, .ptr 1, .block (some [2]) 1, .bool true, .bool true, .bool true] := by decide +kernel

/-- **C20** Without flatten, nothing goes wrong. -/
theorem C20_without_flatten (reserved max : Int) (free : Option Nat) (h0 : 0 ≤ reserved) (h1 : reserved ≤ 2 ^ 30) (ops : List Op)
    (ha : (Mem.new reserved max free).Allowed ops) (hf : .flatten ∉ ops) :
    history reserved max free ops = .ok ((Buf.new reserved max free).outs ops) := by
  obtain ⟨r, _, hp, hb⟩ := mem_new reserved max free h0 h1
  rw [C20_exactly reserved max free h0 h1 ops ha]
  have := outs_noflatten ops r _ (.inl ⟨hp, hb⟩) rfl hf ha
  cases e : (Mem.new reserved max free).outs ops with
  | none => exact (this e).elim
  | some os => rw [outs_buf ops _ os e]; rfl

example : (Mem.new 2 3 (some 7)).Allowed [.put 1, .put 2, .get, .put 3, .putFront 4, .put 5, .dropLast 1, .setMaxSize 1, .compact, .unref] ∧
    history 2 3 (some 7) [.put 1, .put 2, .get, .put 3, .putFront 4, .put 5, .dropLast 1, .setMaxSize 1, .compact, .unref] =
      .ok [.bool true, .bool true, .ptr 1, .bool true, .bool true, .bool false, .int 1, .unit, .unit, .unit] := by decide +kernel

/-- **C17** With flatten, the sequence either writes outside of the memory or returns what it returns on a list. -/
theorem C17_or_oob (reserved max : Int) (free : Option Nat) (h0 : 0 ≤ reserved) (h1 : reserved ≤ 2 ^ 30) (ops : List Op)
    (ha : (Mem.new reserved max free).Allowed ops) :
    history reserved max free ops = .ok ((Buf.new reserved max free).outs ops) ∨
    (history reserved max free ops = .error .oobWrite ∧ .flatten ∈ ops) := by
  rcases Classical.em (.flatten ∈ ops) with hf | hf
  · rw [C20_exactly reserved max free h0 h1 ops ha]
    cases e : (Mem.new reserved max free).outs ops with
    | none => exact .inr ⟨rfl, hf⟩
    | some os => rw [outs_buf ops _ os e]; exact .inl rfl
  · exact .inl (C20_without_flatten reserved max free h0 h1 ops ha hf)

example : (Mem.new 2 (-1) none).Allowed [.put 1, .put 2, .get, .put 3, .flatten, .put 4, .get, .get, .flatten, .put 5] ∧
    history 2 (-1) none [.put 1, .put 2, .get, .put 3, .flatten, .put 4, .get, .get, .flatten, .put 5] =
      .ok [.bool true, .bool true, .ptr 1, .bool true, .block (some [2, 3]) 2, .bool true, .ptr 2, .ptr 3, .block (some [4]) 1, .bool true] := by decide +kernel

/-- **C17** ... and calls the free functions which a list would have called. -/
theorem C17_or_oob_freed (reserved max : Int) (free : Option Nat) (h0 : 0 ≤ reserved) (h1 : reserved ≤ 2 ^ 30) (ops : List Op)
    (ha : (Mem.new reserved max free).Allowed ops) (r : Ring) (hr : newFull reserved max free = .ok r) (os : List Out) (r' : Ring) (h : run r ops = .ok (os, r')) :
    os = (Buf.new reserved max free).outs ops ∧ r'.freed = ((Buf.new reserved max free).final ops).freed := by
  obtain ⟨r1, hr1, hp, _⟩ := mem_new reserved max free h0 h1
  rw [hr] at hr1
  cases hr1
  have h2 := mem_run ops r _ (.inl hp) ha
  cases e : (Mem.new reserved max free).outs ops with
  | none =>
    rw [e] at h2
    dsimp only at h2
    rw [h] at h2
    cases h2
  | some os' =>
    rw [e] at h2
    obtain ⟨r2, h2, h3⟩ := h2
    rw [h] at h2
    cases h2
    refine ⟨?_, h3⟩
    rw [outs_buf ops _ os e]
    rfl

/-- Elements 2 and 3 wrap around when they get flattened, yet there's room for 4 because 2 is gone. -/
example : (Mem.new 2 (-1) (some 7)).Allowed [.put 1, .put 2, .drop 1, .put 3, .flatten, .drop 1, .put 4, .dropLast 1, .unref] ∧
    ((newFull 2 (-1) (some 7)).bind fun r => run r [.put 1, .put 2, .drop 1, .put 3, .flatten, .drop 1, .put 4, .dropLast 1, .unref]).map (·.2.freed) =
      .ok [(7, 1), (7, 2), (7, 4), (7, 3)] := by decide +kernel

/-- **C120** The block returned by flatten stays (it's the same memory: nothing gets allocated in the meantime) and holds the same elements, whatever is done to the
ring by calls other than put, put_front, reserve, compact and flatten, as long as it's alive. -/
theorem C120_block_stays (reserved max : Int) (free : Option Nat) (h0 : 0 ≤ reserved) (h1 : reserved ≤ 2 ^ 30) (ops later : List Op)
    (ha : (Mem.new reserved max free).Allowed ops) (hl : ∀ op ∈ later, op.moves = false)
    (r0 r r1 r2 : Ring) (os os' : List Out) (off : Option Int) (n : Int)
    (hn : newFull reserved max free = .ok r0) (hr : run r0 ops = .ok (os, r)) (hf : flatten r = .ok (off, n, r1))
    (hr2 : run r1 later = .ok (os', r2)) (hal : r2.refCount ≠ 0) :
    r2.allocs = r1.allocs ∧ (((Buf.new reserved max free).final ops).items ≠ [] →
      ∃ p : Int, off = some p ∧ n = ((Buf.new reserved max free).final ops).items.length ∧
        readBlock r2.data p n.toNat = .ok ((Buf.new reserved max free).final ops).items) := by
  obtain ⟨h2, h3⟩ := run_kept hl hr2 hal
  refine ⟨h3, fun hne => ?_⟩
  rw [h2]
  obtain ⟨r3, hn3, hp, _⟩ := mem_new reserved max free h0 h1
  rw [hn] at hn3
  cases hn3
  have hrel := mem_rel ops r0 _ (.inl hp) ha hr
  rcases hrel with hrel | hrel
  · obtain ⟨data, s, e, k, g1, g2, g3, g4, g5⟩ := flatten_spec hrel.1.view hne hrel.1.alloc0 hrel.1.alloc1 hrel.1.len
    rw [hf] at g1
    injection g1 with g1
    injection g1 with e1 g1
    injection g1 with e2 e3
    refine ⟨s, e1, e2, ?_⟩
    rw [e2, e3]
    exact g4
  · have h5 : r1.refCount = 0 := by rw [flatten_refs hf]; exact hrel.2.1
    exact (run_alive hr2 hal h5).elim

/-- Three elements are flattened. One gets taken, one is dropped and then the ring is cleared; all three can still be read from the block. -/
example : ((newFull 4 (-1) none).bind fun r => (run r [.put 1, .put 2, .put 3, .put 4, .drop 2, .put 5]).bind fun (_, r) =>
      (flatten r).bind fun (off, n, r) => (run r [.get, .dropLast 1, .clear]).bind fun (os, r) =>
      (readBlock r.data (off.getD 0) n.toNat).map fun ps => (off, n, os, ps)) =
    .ok (some 0, 3, [.ptr 3, .int 1, .unit], [3, 4, 5]) := by decide +kernel

end Verif.Ring
