import Verif.Proof.IntArrayRef

/-!
# C108: int arrays with several owners

`Abs` (in `Spec/IntArrayRef.lean`) is what the user knows: the number of owners and the contents of each array, and the data which have been
given to the user.
-/

namespace Verif.IntArray.Ref
open Verif.C

/-- **C108** Whatever the owners do, they get what they expect: they all see the same contents; the one who takes the data gets all
of it, and it stays intact no matter what happens to the array later; the others then have an empty array which they can go on using. No
memory is used after it's been deallocated, or deallocated twice. -/
theorem C108_exact (ops : List Op) (h : Abs.init.Follows ops) : ∃ s', run init ops = .ok (Abs.init.outs ops, s') := by
  obtain ⟨s', h1, _⟩ := run_rel ops init_rel h
  exact ⟨s', h1⟩

/-- **C108** The array exists exactly as long as it has an owner, and its counter is the number of owners. -/
theorem C108_lifetime (ops : List Op) (h : Abs.init.Follows ops) :
    ∃ os s', run init ops = .ok (os, s') ∧ s'.arrs.length = (Abs.init.final ops).arrs.length ∧
      ∀ p, p < s'.arrs.length → (∃ a, s'.arrs[p]? = some a ∧ a.map (·.refs) =
        if (Abs.init.final ops).owners p = 0 then none else some ((Abs.init.final ops).owners p)) := by
  obtain ⟨s', h1, h2⟩ := run_rel ops init_rel h
  refine ⟨_, s', h1, h2.len, fun p hp => ?_⟩
  have he : s'.arrs[p]? = some s'.arrs[p] := List.getElem?_eq_getElem hp
  refine ⟨_, he, ?_⟩
  cases hx : s'.arrs[p] with
  | none =>
    obtain ⟨v, hv⟩ := h2.gone p (hx ▸ he)
    simp [Abs.owners, hv]
  | some a =>
    obtain ⟨h3, v, hv, _⟩ := h2.arr p a (he.trans (congrArg some hx))
    simp [Abs.owners, hv]
    omega

/-- **C108** When there are no owners left and the user has freed the data which they were given, all memory has been deallocated. -/
theorem C108_freed (ops : List Op) (h : Abs.init.Follows ops) (ho : ∀ p, (Abs.init.final ops).owners p = 0)
    (hd : ∀ k, ¬ (Abs.init.final ops).has k) :
    ∃ os s', run init ops = .ok (os, s') ∧ (∀ a ∈ s'.arrs, a = none) ∧ ∀ b ∈ s'.blocks, b = none := by
  obtain ⟨s', h1, h2⟩ := run_rel ops init_rel h
  have hn : ∀ p a, ¬ Arr s' p a := by
    intro p a ha
    obtain ⟨h3, v, h4, _⟩ := h2.arr p a ha
    have := ho p
    simp [Abs.owners, h4] at this
    omega
  refine ⟨_, s', h1, fun a ha => ?_, fun b hb => ?_⟩
  · obtain ⟨p, hp⟩ := List.getElem?_of_mem ha
    cases a with
    | none => rfl
    | some a => exact absurd hp (hn p a)
  · obtain ⟨i, hi⟩ := List.getElem?_of_mem hb
    cases b with
    | none => rfl
    | some v =>
      rcases h2.live i v hi with h3 | ⟨p, a, h3, _⟩
      · obtain ⟨k, hk⟩ := List.getElem?_of_mem h3
        obtain ⟨x, h4, h5⟩ := h2.giv k i hk
        rw [hi] at h5
        cases h5
        exact absurd ⟨v, h4⟩ (hd k)
      · exact absurd h3 (hn p a)

/-- Two owners; one takes the data, the other one goes on using the array, then gives it up too. -/
def sample : List Op :=
  [.new [some 1, some 2], .ref 0, .get 0, .free 0 false, .get 0, .change 0 [some 5], .get 0, .getData 0, .toInts 0, .freeData 0, .getData 1, .freeData 1]

example : Abs.init.Follows sample := by
  simp [sample, Abs.Follows, Abs.Allowed, Abs.next, Abs.init, Abs.owners, Abs.vals, Abs.drop, Abs.has]

example : Abs.init.outs sample =
    [.none, .none, .vals [some 1, some 2], .data (some [some 1, some 2]), .vals [], .none, .vals [some 5], .data (some [some 1, some 2]),
     .data (some [some 5]), .none, .data (some [some 5]), .none] := by decide +kernel

example : (∀ p, (Abs.init.final sample).owners p = 0) ∧ ∀ k, ¬ (Abs.init.final sample).has k := by
  have e : Abs.init.final sample = { arrs := [(0, [])], datas := [none, none] } := by decide +kernel
  rw [e]
  constructor
  · intro p
    cases p <;> simp [Abs.owners]
  · rintro k ⟨v, hv⟩
    rcases k with _ | _ | k <;> simp at hv

end Verif.IntArray.Ref
