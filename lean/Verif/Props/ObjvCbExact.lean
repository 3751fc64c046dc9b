import Verif.Props.ObjvCb

/-!
# Object vectors used by finalizers: exactly what isn't allowed

`C111_copy_refuted` and `C111_add_refuted` are about particular programs. Here it's any program, and any moment when a finalizer is
running.
-/

namespace Verif.ObjvCb
open Verif.C Verif.Objv
open Verif.Strv.Spec (Holds)
open Verif.Strv (mk mk_cons mk_nil)
open Verif.Objv.Spec (Op)

theorem objRef_gone {c : Refs} {a : Nat} (h : cnt c a = 0) : objRef c a = .error .useAfterFree := by
  rw [objRef, if_neg (by omega)]

theorem copyLoop_gone : ∀ {qs : List Nat} {c : Refs} {n k x : Nat}, x ∈ qs → cnt c x = 0 → copyLoop c (mk qs n) k = .error .useAfterFree
  | [], _, _, _, _, hx, _ => by cases hx
  | q :: qs, c, n, k, x, hx, h0 => by
    rw [mk_cons, copyLoop, load, ok_bind]
    dsimp only
    by_cases hq : cnt c q = 0
    · rw [objRef_gone hq, error_bind]
    · obtain ⟨c', h1, h2⟩ := objRef_ok (c := c) (a := q) (by omega)
      have hne : x ≠ q := by rintro rfl; exact hq h0
      rw [h1, ok_bind]
      refine copyLoop_gone (x := x) ?_ (by rw [h2, if_neg hne, h0])
      rcases List.mem_cons.mp hx with e | e
      · exact absurd e hne
      · exact e

theorem appendLoop_gone : ∀ {qs : List Nat} {c : Refs} {b : Block} {n d x : Nat}, x ∈ qs → cnt c x = 0 → d + qs.length ≤ b.length →
    appendLoop c b d (mk qs n) = .error .useAfterFree
  | [], _, _, _, _, _, hx, _, _ => by cases hx
  | q :: qs, c, b, n, d, x, hx, h0, hd => by
    rw [mk_cons, appendLoop, load, ok_bind]
    dsimp only
    by_cases hq : cnt c q = 0
    · rw [objRef_gone hq, error_bind]
    · obtain ⟨c', h1, h2⟩ := objRef_ok (c := c) (a := q) (by omega)
      have hne : x ≠ q := by rintro rfl; exact hq h0
      rw [List.length_cons] at hd
      rw [h1, ok_bind, store, wr, if_pos (by omega), ok_bind]
      refine appendLoop_gone (x := x) ?_ (by rw [h2, if_neg hne, h0]) (by rw [List.length_set]; omega)
      rcases List.mem_cons.mp hx with e | e
      · exact absurd e hne
      · exact e

/-- What the program finds if it looks at a vector which is being changed: nothing, because that memory is gone, or the object which
is gone. -/
theorem busy_vec {N : Nat} {s : State} {t : SState} {A : Nat → Option Nat} {E : Nat → List Nat} (h : Inv N s t A E) {v : Nat}
    (hv : v ∈ busy s.stack) : vec s v = .error .useAfterFree ∨
      ∃ os n x, vec s v = .ok (some (mk os n)) ∧ x ∈ os ∧ x ∈ s.finalized ∧ cnt s.refs x = 0 := by
  have key : ∀ (l : List Frame), v ∈ busy l → ∃ f ∈ l, busy [f] = [v] := by
    intro l
    induction l with
    | nil => intro hm; cases hm
    | cons g l ih =>
      intro hm
      rw [busy_cons, List.mem_append] at hm
      rcases hm with hm | hm
      · refine ⟨g, List.mem_cons_self, ?_⟩
        cases g with
        | unref => cases hm
        | free w a i => rw [List.mem_singleton.mp hm]; rfl
        | remove w a pos len more => rw [List.mem_singleton.mp hm]; rfl
      · obtain ⟨f, h1, h2⟩ := ih hm
        exact ⟨f, List.mem_cons_of_mem _ h1, h2⟩
  have fin : ∀ {a : Nat} {os : List Nat} {n x : Nat} {b : Block} {p : Nat}, Stale s v a → s.blocks[a]? = some (some (mk os n)) →
      s.blocks[a]? = some (some b) → b[p]? = some (.ptr x) → p < os.length → x ∈ s.finalized →
      vec s v = .error .useAfterFree ∨ ∃ os n x, vec s v = .ok (some (mk os n)) ∧ x ∈ os ∧ x ∈ s.finalized ∧ cnt s.refs x = 0 := by
    intro a os n x b p hs h1 h2 h3 h4 h5
    rw [h1] at h2
    cases h2
    rw [mk_ptr n h4] at h3
    cases h3
    unfold vec
    rcases hs with e | ⟨a', e, g⟩
    · rw [e]
      dsimp only
      rw [block_ok h1, ok_bind]
      exact .inr ⟨os, n, _, rfl, List.getElem_mem h4, h5, ((h.core.dead _).mp h5).2⟩
    · rw [e]
      dsimp only
      rw [block, g]
      exact .inl rfl
  obtain ⟨f, hf, hb⟩ := key s.stack hv
  have h1 := h.frames f hf
  have h2 := h.held f hf
  cases f with
  | unref => cases hb
  | free w a i =>
    cases hb
    obtain ⟨g1, g2, os, n, g3, g4, g5⟩ := h1
    obtain ⟨k1, b, x, k2, k3, k4, k5⟩ := h2
    exact fin k1 g3 k2 k4 (by omega) k5
  | remove w a pos len more =>
    cases hb
    obtain ⟨g1, os, n, g3, g4, g5, g6⟩ := h1
    obtain ⟨k1, b, x, k2, k4, k5⟩ := h2
    exact fin k1 g3 k2 k4 (by omega) k5

/-- **C111, exactly**: whenever a finalizer is running, each of the vectors being changed by the calls in progress is one which can't be
looked at: the program's pointer is to the memory which is gone, or there's an object which is gone in it. -/
theorem C111_contents_exactly {refs : Refs} {s : State} {t : Objv.Spec.State} (h : Reach Polite refs s t) {v : Nat}
    (hv : v ∈ busy s.stack) : vec s v = .error .useAfterFree ∨
      ∃ (b : Block) (x : Nat), vec s v = .ok (some b) ∧ .ptr x ∈ b ∧ x ∈ s.finalized := by
  obtain ⟨A, E, hi⟩ := reach_inv h
  rcases busy_vec hi hv with e | ⟨os, n, x, h1, h2, h3, _⟩
  · exact .inl e
  · refine .inr ⟨_, x, h1, ?_, h3⟩
    unfold mk
    exact List.mem_append_left _ (List.mem_map_of_mem h2)

/-- **C111, exactly**: a finalizer which copies such a vector, or appends it to another one, always uses an object (or the memory)
which is gone. -/
theorem C111_copy_exactly {refs : Refs} {s : State} {t : Objv.Spec.State} (h : Reach Polite refs s t) {v : Nat}
    (hv : v ∈ busy s.stack) :
    call s (.copy v) = .error .useAfterFree ∧ ∀ w, call s (.append w v) = .error .useAfterFree := by
  obtain ⟨A, E, hi⟩ := reach_inv h
  rcases busy_vec hi hv with e | ⟨os, n, x, h1, h2, h3, h4⟩
  · exact ⟨by rw [call, e, error_bind], fun w => by rw [call, e, error_bind]⟩
  · constructor
    · rw [call, h1, ok_bind, create, copy, copyLoop_gone h2 h4, error_bind, error_bind]
    · intro w
      rw [call, h1, ok_bind, change]
      have hw : vec s w = .error .useAfterFree ∨ ∃ o qs, vec s w = .ok o ∧ Holds o qs := by
        by_cases hb : w ∈ busy s.stack
        · rcases busy_vec hi hb with e | ⟨qs, m, _, e, _⟩
          · exact .inl e
          · exact .inr ⟨_, qs, e, .inr ⟨m, rfl⟩⟩
        · obtain ⟨o, e1, e2, _⟩ := vec_ok hi.core hb
          exact .inr ⟨o, _, e1, e2⟩
      rcases hw with e | ⟨o, qs, e, ho⟩
      · rw [e, error_bind]
      · have hh : Holds (some (mk os n)) os := .inr ⟨n, rfl⟩
        have hlen : 0 < os.length := List.length_pos_of_mem h2
        rw [e, ok_bind, append, length_ok hh, ok_bind, if_pos hlen, length_ok ho, ok_bind]
        dsimp only
        rw [Option.getD_some, appendLoop_gone h2 h4 (by
          have : (renew o (qs.length + os.length + 1)).length = qs.length + os.length + 1 := by
            simp only [renew, List.length_append, List.length_take, List.length_replicate]; omega
          omega), error_bind, error_bind]

/-- The contents of the vector of the innermost call change, and then the finalizer returns. -/
theorem change_ret {N : Nat} {s : State} {t : SState} {A : Nat → Option Nat} {E : Nat → List Nat} (hi : Inv N s t A E) {f : Frame} {rest : List Frame}
    {v : Nat} (hs : s.stack = f :: rest) (hf : busy [f] = [v]) {g : Refs → Vec → M (Refs × Vec)}
    (hg : ∀ os n, ∃ c new qs, g s.refs (some (mk os n)) = .ok (c, new) ∧ Holds new qs ∧ os.length < qs.length) :
    change s v g = .error .useAfterFree ∨ ∃ s', change s v g = .ok s' ∧ s'.stack = s.stack ∧ ret s' = .error .useAfterFree := by
  have fin : ∀ {a : Nat} {os : List Nat} {n : Nat}, Stale s v a → s.blocks[a]? = some (some (mk os n)) →
      (∀ s' : State, s'.stack = s.stack → s'.blocks[a]? = some none → ret s' = .error .useAfterFree) →
      change s v g = .error .useAfterFree ∨ ∃ s', change s v g = .ok s' ∧ s'.stack = s.stack ∧ ret s' = .error .useAfterFree := by
    intro a os n h1 h2 h3
    rcases h1 with e | ⟨a', e, k⟩
    · obtain ⟨c, new, qs, g1, g2, g3⟩ := hg os n
      have hlt := (List.getElem?_eq_some_iff.mp h2).1
      have hne : ¬ (new = some (mk os n)) := by
        rintro rfl
        rw [holds_inj g2 (.inr ⟨n, rfl⟩)] at g3
        omega
      rcases g2 with ⟨rfl, rfl⟩ | ⟨m, rfl⟩
      · exact absurd g3 (by simp)
      · refine .inr ⟨{ s with refs := c, blocks := s.blocks.set a none ++ [some (mk qs m)], vars := s.vars.set v (some (s.blocks.set a none).length) },
          ?_, ?_, h3 _ ?_ ?_⟩
        · rw [change, vec, e]
          dsimp only
          rw [block_ok h2, ok_bind, ok_bind, g1, ok_bind]
          dsimp only
          rw [if_neg hne, e]
          dsimp only
          have hr : release { s with refs := c } a = .ok { s with refs := c, blocks := s.blocks.set a none } := by
            rw [release, block_ok (s := { s with refs := c }) h2, ok_bind]
          rw [hr, ok_bind]
          rfl
        · rfl
        · rfl
        · show (s.blocks.set a none ++ [some (mk qs m)])[a]? = some none
          rw [List.getElem?_append_left (by simpa using hlt)]
          exact List.getElem?_set_self hlt
    · left
      rw [change, vec, e]
      dsimp only
      rw [block, k]
      rfl
  have h1 := hi.frames f (by rw [hs]; exact List.mem_cons_self)
  have h2 := hi.held f (by rw [hs]; exact List.mem_cons_self)
  cases f with
  | unref => cases hf
  | free w a i =>
    cases hf
    obtain ⟨_, _, os, n, g3, _⟩ := h1
    refine fin h2.1 g3 (fun s' k1 k2 => ?_)
    rw [ret, k1, hs]
    dsimp only
    rw [block, k2]
    rfl
  | remove w a pos len more =>
    cases hf
    obtain ⟨_, os, n, g3, _⟩ := h1
    refine fin h2.1 g3 (fun s' k1 k2 => ?_)
    rw [ret, k1, hs]
    dsimp only
    rw [removeRest, shift, block]
    dsimp only
    rw [k2]
    rfl

/-- **C111, exactly**: a finalizer which adds something to the vector it has been called for (by adding or inserting an object, or
appending another vector which isn't empty), in any such program, either uses the memory which is gone or, having returned, makes the
function which has called it do that. -/
theorem C111_add_exactly {refs : Refs} {s : State} {t : Objv.Spec.State} (h : Reach Polite refs s t) {f : Frame} {rest : List Frame} {v : Nat}
    (hs : s.stack = f :: rest) (hf : busy [f] = [v]) {op : Op} (hp : Objv.Spec.Pre t op)
    (hop : (∃ o, op = .add v (some o)) ∨ (∃ o pos, op = .insert v (some o) pos) ∨
      ∃ w, op = .append v w ∧ w ∉ busy s.stack ∧ t.vec w ≠ []) :
    call s op = .error .useAfterFree ∨ ∃ s', call s op = .ok s' ∧ s'.stack = s.stack ∧ ret s' = .error .useAfterFree := by
  obtain ⟨A, E, hi⟩ := reach_inv h
  have halive : ∀ x, 0 < t.refs x → 0 < cnt s.refs x := fun x hx => by have := count_alive hi.core x; omega
  rcases hop with ⟨o, rfl⟩ | ⟨o, pos, rfl⟩ | ⟨w, rfl, hw, hne⟩
  · rw [call]
    refine change_ret hi hs hf (fun os n => ?_)
    obtain ⟨c, new, h1, h2, _⟩ := add_ok (v := some (mk os n)) (.inr ⟨n, rfl⟩) (halive o (hp.2 o rfl))
    exact ⟨c, new, _, h1, h2, by simp⟩
  · rw [call]
    refine change_ret hi hs hf (fun os n => ?_)
    obtain ⟨c, new, h1, h2, _⟩ := insert_ok (v := some (mk os n)) pos (.inr ⟨n, rfl⟩) (halive o (hp.2 o rfl))
    refine ⟨c, new, _, h1, h2, ?_⟩
    simp only [List.length_append, List.length_cons, List.length_take, List.length_drop]
    omega
  · obtain ⟨o, o1, o2, -⟩ := vec_ok hi.core hw
    rw [call, o1, ok_bind]
    refine change_ret hi hs hf (fun os n => ?_)
    obtain ⟨c, new, h1, h2, _⟩ := append_ok (v := some (mk os n)) (.inr ⟨n, rfl⟩) o2 (fun x hx => vec_alive hi.core hx)
    refine ⟨c, new, _, h1, h2, ?_⟩
    have := List.length_pos_iff.2 hne
    rw [List.length_append]
    omega

/-- The object 0 is being removed from the vector number 0 while there is another vector, with the same object 1. -/
example : ∃ s t, Reach Polite [1, 1] s t ∧ s.stack = [.remove 0 0 0 2 none] ∧ 0 ∈ busy s.stack ∧
    Objv.Spec.Pre t (.append 0 1) ∧ 1 ∉ busy s.stack ∧ t.vec 1 ≠ [] ∧ call s (.copy 0) = .error .useAfterFree := by
  have h := sample_reach Polite (fun op s hu => by
    have : ∀ v ∈ uses op, v ∉ busy s.stack := by rw [hu]; intro v hv; cases hv
    exact this)
  have h1 := h.call (op := .new [1]) (s' := ⟨[1, 3], [some [.ptr 0, .ptr 1, .null], some [.ptr 1, .null]], [some 0, some 1], [], []⟩)
    (by decide) (by decide) (by decide)
  have h2 := h1.call (op := .removeAt 0 0)
    (s' := ⟨[0, 3], [some [.ptr 0, .ptr 1, .null], some [.ptr 1, .null]], [some 0, some 1], [.remove 0 0 0 2 none], [0]⟩)
    (by decide) (by decide) (by decide)
  exact ⟨_, _, h2, rfl, by decide, by decide, by decide, by decide, (C111_copy_exactly h2 (by decide)).1⟩

end Verif.ObjvCb
