import Verif.Proof.StrvHist

/-!
# C119: histories of calls on string vectors
-/

namespace Verif.Strv
open Verif.C Spec

/-- How many strings there are which haven't been released -/
def allocated (h : Heap) : Nat := h.countP Option.isSome

theorem allocated_eq (h : Heap) : allocated h = (List.range h.length).countP (fun a => alive h a == 1) := by
  have e : h = (List.range h.length).map (fun a => (h[a]?).getD none) := by
    refine List.ext_getElem (by simp) (fun i h1 h2 => ?_)
    simp [List.getElem?_eq_getElem h1]
  have e2 : allocated h = ((List.range h.length).map (fun a => (h[a]?).getD none)).countP Option.isSome := by
    rw [← e]; rfl
  rw [e2, List.countP_map]
  refine List.countP_congr (fun a ha => ?_)
  simp only [Function.comp_def, alive, List.getElem?_eq_getElem (List.mem_range.1 ha), Option.getD_some]
  cases h[a]'(List.mem_range.1 ha) <;> simp

theorem length_eq_allocated {h : Heap} {l : List Nat} (hl : ∀ a, l.count a = alive h a) : l.length = allocated h := by
  rw [allocated_eq, List.countP_eq_length_filter]
  refine List.Perm.length_eq ?_
  rw [List.perm_iff_count]
  intro a
  rw [hl a, count_nodup_mem (List.nodup_range.filter _)]
  have := alive_le h a
  simp only [List.mem_filter, List.mem_range, beq_iff_eq]
  split
  · rename_i e
    exact e.2
  · rename_i e
    rcases Nat.lt_or_ge a h.length with h1 | h1
    · have : alive h a ≠ 1 := fun h2 => e ⟨h1, h2⟩
      omega
    · exact alive_ge h1

/-- **C119** Any sequence of calls on any number of string vectors, with strings from anywhere, does what it would do to lists of strings: nothing that's
released is used, nothing is released twice, everything returned is right, all variables have the right contents at the end. At that time there are as many
strings allocated as there are in vectors or in the hands of the caller, i.e. none has been lost. -/
theorem C119_histories {q : (Cell → Cell → M Int) → Block → Block} (hq : QsortContract q)
    {bs : (Cell → Cell → M Int) → Cell → Block → Option Nat} (hb : BsearchContract bs) (ops : List Op) (ha : Allowed ⟨[], []⟩ ops) :
    ∃ os st w, run q bs init ops = .ok (os, st) ∧ Run ⟨[], []⟩ ops os w ∧
      st.vecs.length = w.vecs.length ∧ (∀ (i : Nat) v ss, st.vecs[i]? = some v → w.vecs[i]? = some ss → ∃ ps, Owns st.heap v ps ss) ∧
      Strings st.heap st.own w.own ∧ allocated st.heap = (w.vecs.map List.length).sum + w.own.length := by
  obtain ⟨os, st, w, pss, h1, h2, I⟩ := run_good hq hb ops inv_init ha
  refine ⟨os, st, w, h1, h2, I.wlen.symm, ?_, I.own, ?_⟩
  · intro i v ss hv hs
    obtain ⟨v', ps, e1, e2, -, O⟩ := I.get (List.getElem?_eq_some_iff.1 hs).1
    rw [hv] at e1
    cases e1
    refine ⟨ps, ?_⟩
    have : w.vec i = ss := by simp [World.vec, hs]
    rw [← this]
    exact O
  · have e := length_eq_allocated (h := st.heap) (l := pss.flatten ++ st.own) (fun a => by rw [List.count_append]; exact I.count a)
    rw [← e, List.length_append, strings_length I.own, List.length_flatten]
    congr 2
    refine List.ext_getElem (by simp [I.len, I.wlen]) ?_
    intro i hi hi'
    simp only [List.length_map] at hi hi'
    obtain ⟨v, ps, -, e2, -, O⟩ := I.get hi'
    have e3 := strings_length O.strings
    rw [List.getElem?_eq_getElem hi] at e2
    cases e2
    simp only [List.getElem_map, e3, World.vec, List.getElem?_eq_getElem hi', Option.getD_some]

/-- **C119** Nothing is left if all vectors have been released and so have the caller's own strings. -/
theorem C119_nothing_left {q : (Cell → Cell → M Int) → Block → Block} (hq : QsortContract q)
    {bs : (Cell → Cell → M Int) → Cell → Block → Option Nat} (hb : BsearchContract bs) (ops : List Op) (ha : Allowed ⟨[], []⟩ ops)
    (he : ∀ os w, Run ⟨[], []⟩ ops os w → (∀ ss ∈ w.vecs, ss = []) ∧ w.own = []) :
    ∃ os st, run q bs init ops = .ok (os, st) ∧ ∀ x ∈ st.heap, x = none := by
  obtain ⟨os, st, w, h1, h2, -, -, -, h3⟩ := C119_histories hq hb ops ha
  obtain ⟨h4, h5⟩ := he os w h2
  refine ⟨os, st, h1, ?_⟩
  have : (w.vecs.map List.length).sum = 0 := by
    rw [List.sum_eq_zero_iff_forall_eq_nat]
    intro n hn
    obtain ⟨ss, hs, rfl⟩ := List.mem_map.1 hn
    rw [h4 ss hs]; rfl
  rw [this, h5, allocated, List.length_nil, List.countP_eq_zero] at h3
  intro x hx
  have := h3 x hx
  cases x with
  | none => rfl
  | some s => simp at this

/-- Two vectors: one of them is filled with copies of the caller's string and of its own element, one is added to the other one, one is taken out and used to
remove its copies, and everything is released. -/
def exOps : List Op :=
  [.newStr [98], .newVec, .newVec, .addv 0 [.mine 0, .mine 0, .null, .mine 0], .add 1 (.elem 0 1), .newStr [97, 32], .add 1 (.mine 1), .strip 1, .sort 1 true,
    .bsearch 1 (.mine 0) true, .add 0 (.elem 1 0), .removeAt 0 1 false, .equal 0 1, .remove 0 (.mine 2) true, .at 0 0, .removeDups 1, .free 0, .free 1,
    .freeStr 0, .freeStr 0, .freeStr 0]

theorem sorted_ab {l : List Str} (h : l.Perm [[98], [97]]) (hs : Sorted true l) : l = [[97], [98]] := by
  match l, h, hs with
  | [x, y], h, hs =>
    have hx : x = [98] ∨ x = [97] := by simpa using (h.mem_iff (a := x)).1 (by simp)
    have hc := h.count_eq [97]
    have hc' := h.count_eq [98]
    rcases hx with rfl | rfl
    · have hy : y = [98] ∨ y = [97] := by simpa using (h.mem_iff (a := y)).1 (by simp)
      rcases hy with rfl | rfl
      · exact absurd hc (by decide)
      · exact absurd hs (by simp [Sorted, less])
    · have hy : y = [98] ∨ y = [97] := by simpa using (h.mem_iff (a := y)).1 (by simp)
      rcases hy with rfl | rfl
      · rfl
      · exact absurd hc (by decide)
  | [], h, _ => simpa using h.length_eq
  | [_], h, _ => simpa using h.length_eq
  | _ :: _ :: _ :: _, h, _ => simpa using h.length_eq

/-- The rules are followed, and there's only one possible end. -/
def Leads (w : World) (ops : List Op) (w1 : World) : Prop := Allowed w ops ∧ ∀ os w', Run w ops os w' → w' = w1

theorem leads_nil {w : World} : Leads w [] w := ⟨trivial, fun _ _ h => by cases h; rfl⟩

theorem leads_cons {w w1 w2 : World} {op : Op} {ops : List Op} (hp : Pre w op) (hd : ∀ o w', Does w op o w' → w' = w1) (h : Leads w1 ops w2) :
    Leads w (op :: ops) w2 := by
  refine ⟨⟨hp, fun o w' hw => ?_⟩, fun os w' hr => ?_⟩
  · rw [hd o w' hw]; exact h.1
  · cases hr with
    | cons h1 h2 =>
      rw [hd _ _ h1] at h2
      exact h.2 _ _ h2

theorem exLeads : Leads ⟨[], []⟩ exOps ⟨[[], []], []⟩ := by
  unfold exOps
  refine leads_cons (w1 := ⟨[], [[98]]⟩) (by simp [Pre, Op.vecs, Op.srcs, World.Has]) (fun o w' h => by simp only [Does] at h; obtain ⟨-, h⟩ := h; rw [h]; decide) ?_
  refine leads_cons (w1 := ⟨[[]], [[98]]⟩) (by simp [Pre, Op.vecs, Op.srcs, World.Has]) (fun o w' h => by simp only [Does] at h; obtain ⟨-, h⟩ := h; rw [h]; decide) ?_
  refine leads_cons (w1 := ⟨[[], []], [[98]]⟩) (by simp [Pre, Op.vecs, Op.srcs, World.Has]) (fun o w' h => by simp only [Does] at h; obtain ⟨-, h⟩ := h; rw [h]; decide) ?_
  refine leads_cons (w1 := ⟨[[[98], [98]], []], [[98]]⟩) (by simp [Pre, Op.vecs, Op.srcs, World.Has]) (fun o w' h => by simp only [Does] at h; obtain ⟨-, h⟩ := h; rw [h]; decide) ?_
  refine leads_cons (w1 := ⟨[[[98], [98]], [[98]]], [[98]]⟩) (by simp [Pre, Op.vecs, Op.srcs, World.Has]) (fun o w' h => by simp only [Does] at h; obtain ⟨-, h⟩ := h; rw [h]; decide) ?_
  refine leads_cons (w1 := ⟨[[[98], [98]], [[98]]], [[98], [97, 32]]⟩) (by simp [Pre, Op.vecs, Op.srcs, World.Has]) (fun o w' h => by simp only [Does] at h; obtain ⟨-, h⟩ := h; rw [h]; decide) ?_
  refine leads_cons (w1 := ⟨[[[98], [98]], [[98], [97, 32]]], [[98], [97, 32]]⟩) (by simp [Pre, Op.vecs, Op.srcs, World.Has]) (fun o w' h => by simp only [Does] at h; obtain ⟨-, h⟩ := h; rw [h]; decide) ?_
  refine leads_cons (w1 := ⟨[[[98], [98]], [[98], [97]]], [[98], [97, 32]]⟩) (by simp [Pre, Op.vecs, Op.srcs, World.Has]) (fun o w' h => by simp only [Does] at h; obtain ⟨-, h⟩ := h; rw [h]; decide) ?_
  refine leads_cons (w1 := ⟨[[[98], [98]], [[97], [98]]], [[98], [97, 32]]⟩) (by simp [Pre, Op.vecs, Op.srcs, World.Has]) (fun o w' h => by obtain ⟨-, l, h1, h2, rfl⟩ := h; rw [sorted_ab h1 h2]; decide) ?_
  refine leads_cons (w1 := ⟨[[[98], [98]], [[97], [98]]], [[98], [97, 32]]⟩) ⟨by decide, by simp [Op.srcs, World.Has], by simp [Sorted, less, World.vec]⟩ (fun o w' h => h.1) ?_
  refine leads_cons (w1 := ⟨[[[98], [98], [97]], [[97], [98]]], [[98], [97, 32]]⟩) (by simp [Pre, Op.vecs, Op.srcs, World.Has]) (fun o w' h => by simp only [Does] at h; obtain ⟨-, h⟩ := h; rw [h]; decide) ?_
  refine leads_cons (w1 := ⟨[[[98], [97]], [[97], [98]]], [[98], [97, 32], [98]]⟩) (by simp [Pre, Op.vecs, Op.srcs, World.Has]) (fun o w' h => by rw [h.2.1 (by decide)]; decide) ?_
  refine leads_cons (w1 := ⟨[[[98], [97]], [[97], [98]]], [[98], [97, 32], [98]]⟩) (by simp [Pre, Op.vecs, Op.srcs, World.Has]) (fun o w' h => by simp only [Does] at h; obtain ⟨-, h⟩ := h; exact h) ?_
  refine leads_cons (w1 := ⟨[[[97]], [[97], [98]]], [[98], [97, 32], [98]]⟩) (by simp [Pre, Op.vecs, Op.srcs, World.Has]) (fun o w' h => by rw [h.2.1 [98] (by decide)]; decide) ?_
  refine leads_cons (w1 := ⟨[[[97]], [[97], [98]]], [[98], [97, 32], [98]]⟩) (by simp [Pre, Op.vecs, Op.srcs, World.Has]) (fun o w' h => by simp only [Does] at h; obtain ⟨-, h⟩ := h; exact h) ?_
  refine leads_cons (w1 := ⟨[[[97]], [[97], [98]]], [[98], [97, 32], [98]]⟩) (by simp [Pre, Op.vecs, Op.srcs, World.Has]) (fun o w' h => by simp only [Does] at h; obtain ⟨-, h⟩ := h; rw [h]; decide) ?_
  refine leads_cons (w1 := ⟨[[], [[97], [98]]], [[98], [97, 32], [98]]⟩) (by simp [Pre, Op.vecs, Op.srcs, World.Has]) (fun o w' h => by simp only [Does] at h; obtain ⟨-, h⟩ := h; rw [h]; decide) ?_
  refine leads_cons (w1 := ⟨[[], []], [[98], [97, 32], [98]]⟩) (by simp [Pre, Op.vecs, Op.srcs, World.Has]) (fun o w' h => by simp only [Does] at h; obtain ⟨-, h⟩ := h; rw [h]; decide) ?_
  refine leads_cons (w1 := ⟨[[], []], [[97, 32], [98]]⟩) (by simp [Pre, Op.vecs, Op.srcs, World.Has]) (fun o w' h => by simp only [Does] at h; obtain ⟨-, h⟩ := h; rw [h]; decide) ?_
  refine leads_cons (w1 := ⟨[[], []], [[98]]⟩) (by simp [Pre, Op.vecs, Op.srcs, World.Has]) (fun o w' h => by simp only [Does] at h; obtain ⟨-, h⟩ := h; rw [h]; decide) ?_
  refine leads_cons (w1 := ⟨[[], []], []⟩) (by simp [Pre, Op.vecs, Op.srcs, World.Has]) (fun o w' h => by simp only [Does] at h; obtain ⟨-, h⟩ := h; rw [h]; decide) ?_
  exact leads_nil

/-- The hypotheses are met, and this is what happens. -/
example : QsortContract insertionSort ∧ BsearchContract linearSearch ∧ Allowed ⟨[], []⟩ exOps ∧
    (∀ os w, Run ⟨[], []⟩ exOps os w → (∀ ss ∈ w.vecs, ss = []) ∧ w.own = []) ∧
    run insertionSort linearSearch init exOps =
      .ok ([.none, .none, .none, .none, .none, .none, .none, .none, .none, .int 1, .none, .none, .bool false, .none, .str (some [97]), .none, .none, .none,
        .none, .none, .none], ⟨[none, none, none, none, none, none, none], [none, none], []⟩) := by
  refine ⟨insertionSort_contract, linearSearch_contract, exLeads.1, fun os w h => ?_, by decide +kernel⟩
  rw [exLeads.2 os w h]
  exact ⟨by simp, rfl⟩

end Verif.Strv
