import Verif.Proof.IntsData

/-!
# Properties of int blocks (C39 - C44)
-/

namespace Verif.Ints
open Verif.C Spec

/-! ## C39 -/

/-- **C39** is false: after a sub-range of zero ints has been asked for (and `NULL`
returned), dropping the only reference doesn't release the data (block 0). -/
theorem C39_refuted : ∃ m, Ints.run ⟨[], []⟩ [.alloc [7], .take 0 1, .part 0 0 0, .unref 0]
      = .ok (m, [.data 0 1, .ints (some 0), .ints none, .none]) ∧
    m.blocks = [some [7]] := ⟨_, rfl, rfl⟩

/-- **C39**, for all the histories of calls respecting `Spec.Pre` (no empty sub-ranges, `guint`
sums which don't overflow). No call does anything undefined, the data of an object is there and
unchanged as long as there's a reference to the object or to a part of it, and otherwise it's
released; it's never released twice, that would be undefined. -/
theorem C39_lifetime_partial (ops : List Op) (h : Legal ⟨[], []⟩ ops) :
    ∃ m, Ints.run ⟨[], []⟩ ops = .ok (m, (Spec.run ⟨[], []⟩ ops).2) ∧
    (∀ (i : Nat) (o : Spec.Obj), (Spec.run ⟨[], []⟩ ops).1.objs[i]? = some o →
      (Kept (Spec.run ⟨[], []⟩ ops).1 i →
        getData m i = .ok ((Spec.run ⟨[], []⟩ ops).1.data o) ∧ getCount m i = .ok o.count) ∧
      (¬ Kept (Spec.run ⟨[], []⟩ ops).1 i → m.objs[i]? = some none)) ∧
    (∀ (b : Nat) (k : Spec.Block), (Spec.run ⟨[], []⟩ ops).1.blocks[b]? = some k →
      (Remains (Spec.run ⟨[], []⟩ ops).1 k → m.blocks[b]? = some (some k.vals)) ∧
      (¬ Remains (Spec.run ⟨[], []⟩ ops).1 k → m.blocks[b]? = some none)) ∧
    m.blocks.length = (Spec.run ⟨[], []⟩ ops).1.blocks.length := by
  obtain ⟨m, r, inv⟩ := Inv.empty.run h
  exact ⟨m, r, inv.lifetime⟩

/-- The spec after `alloc [1,2,3]`, `take`, `part` and `unref` of the parent. The history is
legal and the data is kept. -/
private def sample : List Op := [.alloc [1, 2, 3], .take 0 3, .part 0 1 9, .unref 0]

private theorem sample_run : Spec.run ⟨[], []⟩ sample =
    (⟨[⟨[1, 2, 3], .lent 0⟩], [⟨0, .gfree, 0, 0, 3⟩, ⟨1, .part 0, 0, 1, 2⟩]⟩,
     [.data 0 3, .ints (some 0), .ints (some 1), .none]) := rfl

example : Legal ⟨[], []⟩ sample ∧ Kept (Spec.run ⟨[], []⟩ sample).1 0 := by
  refine ⟨⟨trivial, ⟨_, rfl, rfl, by decide⟩, ⟨⟨_, rfl, by decide⟩, by decide, by decide⟩, ⟨_, rfl, by decide⟩, trivial⟩, ?_⟩
  rw [sample_run]
  exact .part (j := 1) rfl rfl (.own (i := 1) rfl (by decide))

/-! ## C40 -/

/-- **C40** is false: the sub-range from index 1 of three ints with a count of 2^32-1 isn't
cut, and reading it is undefined. -/
theorem C40_refuted : ∃ m, newFromInts ⟨[some [1, 2, 3]], [some ⟨0, 0, 3, 1, .gfree 0⟩]⟩ 0 1 (2 ^ 32 - 1) = .ok (m, some 1) ∧
    getCount m 1 = .ok (2 ^ 32 - 1) ∧ getData m 1 = .error .oobRead := ⟨_, rfl, rfl, rfl⟩

/-- **C40** for all arguments whose sum is a `guint`: the new block has exactly the given part
of the ints (`l`), and there's none if there are none. -/
theorem C40_subrange_partial {m : State} {i : Nat} {l : List Val} (h : getData m i = .ok l) (hl : l.length < 2 ^ 32)
    (off count : Nat) (hlt : off + count < 2 ^ 32) :
    ∃ m' r, newFromInts m i off count = .ok (m', r) ∧
      (r = none ↔ (l.drop off).take count = []) ∧
      (∀ j, r = some j → getData m' j = .ok ((l.drop off).take count) ∧
        getCount m' j = .ok ((l.drop off).take count).length) ∧
      getData m' i = .ok l := by
  unfold getData at h
  cases ho : m.obj i with
  | error e => rw [ho] at h; cases h
  | ok o =>
    rw [ho, ok_bind] at h
    have hobj : m.objs[i]? = some (some o) := by
      unfold State.obj at ho
      split at ho <;> cases ho
      assumption
    have hread : ∃ v, m.blocks[o.block]? = some (some v) ∧ o.off + o.count ≤ v.length ∧ l = (v.drop o.off).take o.count := by
      unfold State.read at h
      split at h
      · rename_i v hv
        split at h
        · cases h; exact ⟨v, hv, by assumption, rfl⟩
        · cases h
      · cases h
      · cases h
    obtain ⟨v, hv, hle, hlv⟩ := hread
    have hlen : l.length = o.count := by rw [hlv]; simp; omega
    rw [newFromInts, ho, ok_bind]
    by_cases hoff : off < o.count
    · rw [if_pos hoff, Nat.mod_eq_of_lt hlt, ref, ho, ok_bind, ok_bind]
      have hend : (if off + count > o.count then o.count else off + count) = off + min count (o.count - off) := by
        split <;> omega
      rw [hend, toUInt32_sub (by omega) (by omega)]
      have hsub : off + min count (o.count - off) - off = min count (o.count - off) := by omega
      rw [hsub]
      unfold newWithFreeFunc
      have hnil : (l.drop off).take count = [] ↔ min count (o.count - off) = 0 := by
        rw [← List.length_eq_zero_iff]
        simp only [List.length_take, List.length_drop, hlen]
      have hi : ∀ t, getData ⟨m.blocks, m.objs.set i (some { o with refs := o.refs + 1 }) ++ t⟩ i = .ok l := by
        intro t
        obtain ⟨hi, -⟩ := List.getElem?_eq_some_iff.1 hobj
        have : (m.objs.set i (some { o with refs := o.refs + 1 }) ++ t)[i]? = some (some { o with refs := o.refs + 1 }) := by
          rw [List.getElem?_append_left (by simpa using hi), getElem?_set' hobj, if_pos rfl]
        rw [getData, obj_ok (m := ⟨m.blocks, _⟩) this, ok_bind]
        exact h
      by_cases h0 : min count (o.count - off) = 0
      · rw [if_pos h0]
        refine ⟨_, _, rfl, by simp [hnil, h0], by simp, ?_⟩
        have := hi []
        simpa using this
      · rw [if_neg h0]
        refine ⟨_, _, rfl, by simp [hnil, h0], ?_, ?_⟩
        · intro j e
          cases e
          have hg : (m.objs.set i (some { o with refs := o.refs + 1 }) ++
              [some (⟨o.block, o.off + off, min count (o.count - off), 1, .unref i⟩ : Obj)])[
                (m.objs.set i (some { o with refs := o.refs + 1 })).length]? =
              some (some ⟨o.block, o.off + off, min count (o.count - off), 1, .unref i⟩) := by simp
          constructor
          · rw [getData, obj_ok (m := ⟨m.blocks, _⟩) hg, ok_bind]
            unfold State.read
            dsimp only
            rw [hv]
            dsimp only
            rw [if_pos (by omega), hlv]
            congr 1
            rw [List.drop_take, List.take_take, List.drop_drop]
          · rw [getCount, obj_ok (m := ⟨m.blocks, _⟩) hg, ok_bind]
            simp only [List.length_take, List.length_drop, hlen]
        · exact hi _
    · rw [if_neg hoff]
      refine ⟨m, none, rfl, ?_, by simp, ?_⟩
      · rw [List.drop_eq_nil_of_le (by omega)]; simp
      · rw [getData, ho, ok_bind]; exact h

example : getData ⟨[some [1, 2, 3]], [some ⟨0, 0, 3, 1, .gfree 0⟩]⟩ 0 = .ok [1, 2, 3] := rfl

/-! ## C41 -/

/-- **C41** is false: in each case of an empty part within the range `NULL` is returned, but
there's one reference more. -/
theorem C41_refuted {m : State} {i : Nat} {o : Obj} (h : m.obj i = .ok o) (off : Nat) (h1 : off < o.count) (h2 : off < 2 ^ 32) :
    newFromInts m i off 0 = .ok ({ m with objs := m.objs.set i (some { o with refs := o.refs + 1 }) }, none) := by
  rw [newFromInts, h, ok_bind, if_pos h1, ref, h, ok_bind, ok_bind]
  have : (off + 0) % 2 ^ 32 = off := by rw [Nat.add_zero]; exact Nat.mod_eq_of_lt h2
  rw [this, if_neg (by omega)]
  have : toUInt32 ((off : Int) - (off : Int)) = 0 := by rw [Int.sub_self]; rfl
  rw [this]
  rfl

example : (⟨[some [7]], [some ⟨0, 0, 1, 1, .gfree 0⟩]⟩ : State).obj 0 = .ok ⟨0, 0, 1, 1, .gfree 0⟩ := rfl

/-- **C41** in all other cases: if `NULL` is returned nothing has changed. -/
theorem C41_null_partial {m m' : State} {i : Nat} (off count : Nat) (h0 : 0 < count) (h1 : count < 2 ^ 32) (h2 : off < 2 ^ 32)
    (h : newFromInts m i off count = .ok (m', none)) : m' = m := by
  rw [newFromInts] at h
  cases ho : m.obj i with
  | error e => rw [ho] at h; cases h
  | ok o =>
    rw [ho, ok_bind] at h
    by_cases hoff : off < o.count
    · exfalso
      rw [if_pos hoff, ref, ho, ok_bind, ok_bind] at h
      generalize he : (if (off + count) % 2 ^ 32 > o.count then o.count else (off + count) % 2 ^ 32) = e at h
      have hne : ¬ toUInt32 ((e : Int) - (off : Int)) = 0 := by
        unfold toUInt32
        rw [BitVec.toNat_ofInt]
        split at he <;> omega
      unfold newWithFreeFunc at h
      rw [if_neg hne] at h
      have := congrArg Prod.snd (Except.ok.inj h)
      simp at this
    · rw [if_neg hoff] at h
      cases h
      rfl

example : newFromInts ⟨[some [7]], [some ⟨0, 0, 1, 1, .gfree 0⟩]⟩ 0 1 5
    = .ok (⟨[some [7]], [some ⟨0, 0, 1, 1, .gfree 0⟩]⟩, none) := rfl

/-! ## C42 -/

/-- **C42** is false for static data: with the last reference, a `NULL` function is called. -/
theorem C42_static_refuted (vals : List Val) (m : State) (h : m = ⟨[some vals], [some ⟨0, 0, vals.length, 1, .null⟩]⟩) :
    newStatic ⟨[some vals], []⟩ 0 vals.length = (if vals.length = 0 then (⟨[some vals], []⟩, none) else (m, some 0)) ∧
    unrefToData m 0 = .error .nullCall := by
  subst h
  refine ⟨rfl, ?_⟩
  have hr : (⟨[some vals], [some ⟨0, 0, vals.length, 1, .null⟩]⟩ : State).read 0 0 vals.length = .ok vals := by
    simp [State.read]
  rw [unrefToData]
  show copyAndFree _ _ _ = _
  rw [copyAndFree, hr]
  rfl

/-- **C42** is false for `g_free` with another argument than the data: a part of a block is
returned, which can't be freed. -/
theorem C42_gfree_refuted : ∃ m r, newWithFreeFunc ⟨[some [1, 2, 3]], []⟩ 0 1 2 (.gfree 0) = (m, r) ∧
    ∃ m', unrefToData m 0 = .ok (m', (0, 1), 2) := ⟨_, _, rfl, _, rfl⟩

/-- **C42** for all histories respecting `Spec.Pre` and all objects, except for the last
reference to one of static data: a block of memory with the data is returned, which can be
released by the caller, and there is one reference less. -/
theorem C42_to_data_partial (ops : List Op) (h : Legal ⟨[], []⟩ ops) (i : Nat) (o : Spec.Obj)
    (ho : (Spec.run ⟨[], []⟩ ops).1.objs[i]? = some o) (hown : 0 < o.own)
    (hs : o.kind = .static → Kept ((Spec.run ⟨[], []⟩ ops).1.dropOwn i) i) :
    ∃ m rs m' b, Ints.run ⟨[], []⟩ ops = .ok (m, rs) ∧ unrefToData m i = .ok (m', (b, 0), o.count) ∧
      m'.read b 0 o.count = .ok ((Spec.run ⟨[], []⟩ ops).1.data o) ∧
      (∃ m'', m'.release b = .ok m'') ∧
      (∀ j, (∃ mo, m'.obj j = .ok mo) ↔ Kept ((Spec.run ⟨[], []⟩ ops).1.dropOwn i) j) := by
  obtain ⟨m, r, inv⟩ := Inv.empty.run h
  generalize hs' : (Spec.run ⟨[], []⟩ ops).1 = s at inv ho hs
  obtain ⟨m', r', inv'⟩ := inv.step (.toData i) ⟨o, ho, hown, hs⟩
  have hdata : ∃ mo, m.objs[i]? = some (some mo) := inv.owned ho hown
  have hkept : ∀ s1 : Spec.State, s1.objs = (s.dropOwn i).objs → ∀ j, Kept s1 j ↔ Kept (s.dropOwn i) j := by
    intro s1 he j
    constructor
    · intro hk
      induction hk with
      | own a b => exact .own (by rw [← he]; exact a) b
      | part a b _ ih => exact .part (by rw [← he]; exact a) b ih
    · intro hk
      induction hk with
      | own a b => exact .own (by rw [he]; exact a) b
      | part a b _ ih => exact .part (by rw [he]; exact a) b ih
  have hlive : ∀ j, (∃ mo, m'.obj j = .ok mo) ↔ m'.live j = true := by
    intro j
    rw [live_iff]
    constructor
    · rintro ⟨mo, e⟩
      unfold State.obj at e
      split at e <;> cases e
      exact ⟨_, by assumption⟩
    · rintro ⟨mo, e⟩; exact ⟨mo, obj_ok e⟩
  rw [exec] at r'
  cases hu : unrefToData m i with
  | error e => rw [hu] at r'; cases r'
  | ok x =>
    obtain ⟨m1, ⟨b, off⟩, n⟩ := x
    rw [hu, ok_bind] at r'
    dsimp only at r'
    split at r'
    · rename_i hoff
      subst hoff
      have hr' := Except.ok.inj r'
      have hm : m1 = m' := congrArg Prod.fst hr'
      subst hm
      have hres : Res.data b n = (next s (.toData i)).2 := congrArg Prod.snd hr'
      rw [Spec.next] at hres inv'
      rw [ho] at hres inv'
      dsimp only at hres inv'
      obtain ⟨mo, hmo⟩ := hdata
      obtain ⟨so, a, a1, a2, a3, -⟩ := inv.live i mo hmo
      rw [ho] at a; cases a
      obtain ⟨k, c1, c2, c3⟩ := inv.readable _ i mo (Nat.lt_succ_self i) hmo
      split at hres
      · rename_i hc
        rw [if_pos hc] at inv'
        cases hres
        have hk2 : ((s.dropOwn i).setStat o.block .mine).blocks[o.block]? = some { k with stat := .mine } := by
          rw [a1] at c1
          simp [Spec.State.setStat, Spec.State.dropOwn, c1]
        have hb := inv'.blocks _ _ hk2
        have hroot : o.off = 0 := by
          rw [← a2]; exact (inv.root i mo o hmo ho (by rw [hc.1]; intro p e; cases e)).1
        refine ⟨m, _, m1, _, r, hu, ?_, ⟨_, release_ok hb⟩, ?_⟩
        · unfold State.read Spec.State.data
          rw [hb, ← a1, c1, hroot]
          simp only [blockOf]
          rw [if_pos (by omega)]
        · intro j
          rw [hlive, ← inv'.kept_iff]
          exact hkept ((s.dropOwn i).setStat o.block .mine) rfl j
      · rename_i hc
        rw [if_neg hc] at inv'
        cases hres
        have hk2 : ((s.dropOwn i).addBlock ⟨s.data o, .mine⟩).blocks[s.blocks.length]? = some ⟨s.data o, .mine⟩ := by
          simp [Spec.State.addBlock, Spec.State.dropOwn]
        have hb := inv'.blocks _ _ hk2
        refine ⟨m, _, m1, _, r, hu, ?_, ⟨_, release_ok hb⟩, ?_⟩
        · unfold State.read
          rw [hb]
          have hl : (s.data o).length = o.count := by
            unfold Spec.State.data
            rw [← a1, c1]
            simp
            omega
          simp only [blockOf]
          rw [if_pos (by omega), List.drop_zero, ← hl, List.take_length]
        · intro j
          rw [hlive, ← inv'.kept_iff]
          exact hkept ((s.dropOwn i).addBlock ⟨s.data o, .mine⟩) rfl j
    · cases r'

example : (Spec.run ⟨[], []⟩ sample).1.objs[1]? = some ⟨1, .part 0, 0, 1, 2⟩ := by rw [sample_run]; rfl

/-! ## C43 -/

/-- **C43** `gutil_ints_equal` is equality of contents (`none` is `NULL`), on little- and on
big-endian machines. -/
theorem C43_equal (le : Bool) (a b : Option (List Val)) : equal le a b = true ↔ a = b := equal_iff le a b

/-- **C43** Equal blocks have equal hashes. -/
theorem C43_hash (le : Bool) (a b : Option (List Val)) (h : equal le a b = true) : hash a = hash b := by
  rw [(equal_iff le a b).1 h]

example : equal true (some [1, 2]) (some [1, 2]) = true := rfl
example : hash (some [1, 2]) ≠ hash (some [2, 1]) := by decide

/-- **C43** `gutil_ints_compare` is a total order, zero exactly for equal blocks, and `NULL`
is the smallest. -/
theorem C43_compare (le : Bool) (a b c : Option (List Val)) :
    (compare le a b = 0 ↔ equal le a b = true) ∧
    (compare le a b < 0 ↔ 0 < compare le b a) ∧
    (compare le a b ≤ 0 → compare le b c ≤ 0 → compare le a c ≤ 0) ∧
    (compare le none b ≤ 0) := by
  refine ⟨?_, ?_, compare_trans le a b c, ?_⟩
  · rw [compare_eq_zero, equal_iff]
  · rw [compare_swap le a b]; omega
  · cases b <;> simp [compare]

/-- **C43** A block which starts another is smaller than it. -/
theorem C43_prefix (le : Bool) (a : List Val) (x : Val) (b : List Val) : compare le (some a) (some (a ++ x :: b)) < 0 := by
  have hz : memcmp (bytes le a) (bytes le a) = 0 := (memcmp_eq_zero _ _ rfl).2 rfl
  have hm : min a.length (a ++ x :: b).length = a.length := by simp
  rw [compare]
  simp only [hm, List.take_length, List.take_left]
  rw [show memcmp (List.flatMap (bytesOf le) a) (List.flatMap (bytesOf le) a) = 0 from hz]
  simp
  rw [if_neg (by omega)]
  decide

example : compare true (some [256]) (some [1]) < 0 ∧ compare false (some [1]) (some [256]) < 0 := by decide

/-! ## C44 -/

/-- **C44** is false: the first index of a value is an `unsigned int`, what's returned is an
`int`. Here is a block of 2^31 + 1 ints. -/
theorem C44_find_refuted (n : Nat) (hn : n = 2 ^ 31) (l : List Val) (h : l = List.replicate n 0 ++ [1]) :
    l.length < 2 ^ 32 ∧ (1 : Val) ∈ l ∧ find (some l) 1 < 0 := by
  have hf : find (some l) 1 = toInt32 (n : Int) := by
    subst h
    rw [find, findLoop_spec, List.findIdx?_append, List.findIdx?_replicate]
    simp
  refine ⟨by rw [h]; simp; omega, by rw [h]; simp, ?_⟩
  rw [hf, hn]
  decide +kernel

/-- **C44** for blocks of at most 2^31 ints: what's returned is -1 if the value isn't there,
and its first index otherwise. -/
theorem C44_find_partial (l : List Val) (h : l.length ≤ 2 ^ 31) (v : Val) :
    (find (some l) v = -1 ↔ v ∉ l) ∧
    (∀ i : Nat, find (some l) v = i ↔ (l[i]? = some v ∧ v ∉ l.take i)) ∧ find none v = -1 := by
  rw [find, findLoop_spec]
  cases hx : l.findIdx? (· = v) with
  | none =>
    have hn : v ∉ l := by
      intro hm
      have := List.findIdx?_eq_none_iff.1 hx v hm
      simp at this
    refine ⟨by simp [hn], ?_, rfl⟩
    intro i
    constructor
    · intro e
      have : (-1 : Int) = i := e
      omega
    · rintro ⟨e, -⟩
      exact absurd (List.mem_iff_getElem?.2 ⟨i, e⟩) hn
  | some k =>
    obtain ⟨hk, e1, e2⟩ := List.findIdx?_eq_some_iff_getElem.1 hx
    simp only [decide_eq_true_eq] at e1 e2
    dsimp only
    rw [Nat.zero_add, toInt32_small (by omega)]
    have hm : v ∈ l := by rw [← e1]; exact List.getElem_mem hk
    refine ⟨?_, ?_, rfl⟩
    · constructor
      · intro e; omega
      · intro e; exact absurd hm e
    · intro i
      constructor
      · intro e
        have : k = i := by omega
        subst this
        refine ⟨List.getElem?_eq_some_iff.2 ⟨hk, e1⟩, ?_⟩
        intro hm
        obtain ⟨j, hj, e⟩ := List.mem_take_iff_getElem.1 hm
        exact e2 j (by omega) e
      · rintro ⟨a, b⟩
        obtain ⟨hi, a⟩ := List.getElem?_eq_some_iff.1 a
        rcases Nat.lt_trichotomy k i with hlt | rfl | hgt
        · exact absurd (List.mem_take_iff_getElem.2 ⟨k, by omega, e1⟩) b
        · rfl
        · exact absurd a (e2 i hgt)

example : find (some [5, 7, 7]) 7 = 1 := by decide

/-- **C44** `gutil_ints_contains` for blocks of any size. -/
theorem C44_contains (l : List Val) (v : Val) : (contains (some l) v = true ↔ v ∈ l) ∧ contains none v = false :=
  ⟨containsLoop_iff v l, rfl⟩

end Verif.Ints
