import Verif.Proof.Counter32

/-!
# C125: how many references there may be
-/

namespace Verif.Counter32
open Verif.C Spec

/-- **C125** as long as there are less than 2^32 references at a time. Nothing is used after it has been deallocated, the object exists exactly as long as there
are references to it, and is deallocated once. -/
theorem C125_partial (ops : List Op) (hh : Held 1 ops) (hb : Below (2 ^ 32) ops) :
    ∃ s, run new ops = .ok s ∧ (s.alive = true ↔ 0 < left 1 ops) ∧ s.released = if left 1 ops = 0 then 1 else 0 := by
  have fall : ∀ rest, Falls 1 ops rest → ops ≠ [] ∧ rest = [] ∧ left 1 ops = 0 := by
    rintro rest ⟨pre, e, h⟩
    have hlt := hb (pre ++ [.unref]) rest (by rw [e, List.append_assoc]; rfl)
    have h0 : left 1 (pre ++ [.unref]) = 0 := by omega
    have hr : rest = [] := by
      have : ∀ (p : List Op) (n : Nat), Held n (p ++ rest) → left n p = 0 → rest = [] := by
        intro p
        induction p with
        | nil =>
          intro n h hn
          cases hn
          cases rest with
          | nil => rfl
          | cons x t => cases x <;> exact absurd h.1 (by decide)
        | cons x p ih =>
          intro n h hn
          cases x
          · exact ih _ h.2 hn
          · exact ih _ h.2 hn
      refine this (pre ++ [.unref]) 1 ?_ h0
      rw [List.append_assoc]
      rw [e] at hh
      exact hh
    subst hr
    rw [e]
    exact ⟨by simp, rfl, h0⟩
  rcases run_cases ops new 1 inv_new hh with ⟨s, e, h, hf⟩ | ⟨s, e, h1, h2, h3, -⟩ | ⟨-, rest, h1, h2⟩
  · refine ⟨s, e, ?_⟩
    have : left 1 ops ≠ 0 := by
      intro h0
      -- The last operation has dropped the last reference
      have : ∀ (p : List Op) (n : Nat), 0 < n → Held n p → left n p = 0 → ∃ pre, p = pre ++ [.unref] := by
        intro p
        induction p with
        | nil => intro n hn _ h; exact absurd h (by rw [left]; omega)
        | cons x p ih =>
          intro n hn hh h
          cases x with
          | ref =>
            obtain ⟨pre, e⟩ := ih (n + 1) (by omega) hh.2 h
            exact ⟨.ref :: pre, by rw [e]; rfl⟩
          | unref =>
            by_cases h1 : n = 1
            · subst h1
              have : p = [] := by
                cases p with
                | nil => rfl
                | cons y p => cases y <;> exact absurd hh.2.1 (by decide)
              exact ⟨[], by rw [this]; rfl⟩
            · obtain ⟨pre, e⟩ := ih (n - 1) (by omega) hh.2 h
              exact ⟨.unref :: pre, by rw [e]; rfl⟩
      obtain ⟨pre, ep⟩ := this ops 1 (by decide) hh h0
      refine hf [] ⟨pre, ep, ?_⟩
      rw [← ep, h0]
    rw [if_neg this]
    exact ⟨⟨fun _ => by omega, fun _ => h.1⟩, h.2.1⟩
  · have := fall _ h3
    refine ⟨s, e, ?_, by rw [if_pos this.2.2, h2]⟩
    rw [h1, this.2.2]
    decide
  · exact absurd (fall _ h2).2.1 h1

example : Held 1 [.ref, .unref, .ref, .unref, .unref] ∧ Below (2 ^ 32) [.ref, .unref, .ref, .unref, .unref] ∧ left 1 [.ref, .unref, .ref, .unref, .unref] = 0 ∧
    run new [.ref, .unref, .ref, .unref, .unref] = .ok ⟨0, false, 1⟩ := by
  refine ⟨by simp [Held], ?_, rfl, rfl⟩
  intro pre post e
  have h : ∀ (p : List Op) (n : Nat), left n p ≤ n + p.length := by
    intro p
    induction p with
    | nil => intro n; exact Nat.le_refl _
    | cons x p ih =>
      intro n
      cases x
      · exact Nat.le_trans (ih (n + 1)) (by simp; omega)
      · exact Nat.le_trans (ih (n - 1)) (by simp; omega)
  have := h pre 1
  have hl := congrArg List.length e
  simp at hl
  omega

/-- **C125** isn't true of more references than that: after 2^32 calls of `ref` dropping one of the references deallocates the object, and there are 2^32 of them
left. -/
theorem C125_refuted : ∃ ops, Held 1 ops ∧ left 1 ops = 2 ^ 32 ∧ ∃ s, run new ops = .ok s ∧ s.alive = false := by
  refine ⟨List.replicate (2 ^ 32) .ref ++ [.unref], held_refs (2 ^ 32) 1 [.unref] (by decide) ⟨by decide, trivial⟩, ?_, ?_⟩
  · rw [left_append, left_refs]
    rfl
  · obtain ⟨s, e, h⟩ := run_refs (2 ^ 32) new 1 inv_new
    obtain ⟨s', e', h', -⟩ := unref_last h (by omega) (by decide)
    refine ⟨s', ?_, h'⟩
    rw [run_append, e, ok_bind, run, step, e', ok_bind, run]

/-- **C125** exactly, without any limit: the object is deallocated as soon as a reference is dropped such that the number of those which are left is a multiple of
2^32, and whatever is done after that is done to an object which doesn't exist. -/
theorem C125_exactly (ops : List Op) (hh : Held 1 ops) :
    ((∃ s, run new ops = .ok s ∧ s.alive = true) ↔ ∀ pre rest, ops = pre ++ .unref :: rest → left 1 (pre ++ [.unref]) % 2 ^ 32 ≠ 0) ∧
    (run new ops = .error .useAfterFree ↔ ∃ pre rest, rest ≠ [] ∧ ops = pre ++ .unref :: rest ∧ left 1 (pre ++ [.unref]) % 2 ^ 32 = 0) ∧
    (run new ops ≠ .error .useAfterFree → ∃ s, run new ops = .ok s ∧ s.released = if s.alive then 0 else 1) := by
  rcases run_cases ops new 1 inv_new hh with ⟨s, e, h, hf⟩ | ⟨s, e, h1, h2, h3, h4⟩ | ⟨e, rest, h1, h2⟩
  · rw [e]
    refine ⟨⟨fun _ pre rest e h0 => hf rest ⟨pre, e, h0⟩, fun _ => ⟨s, rfl, h.1⟩⟩, ⟨fun e => (nomatch e), ?_⟩, fun _ => ⟨s, rfl, by rw [h.1, h.2.1]; rfl⟩⟩
    rintro ⟨pre, rest, -, e, h0⟩
    exact absurd ⟨pre, e, h0⟩ (hf rest)
  · rw [e]
    refine ⟨⟨?_, ?_⟩, ⟨fun e => (nomatch e), ?_⟩, fun _ => ⟨s, rfl, by rw [h1, h2]; rfl⟩⟩
    · rintro ⟨s', e', h'⟩
      cases e'
      rw [h1] at h'
      cases h'
    · intro h
      obtain ⟨pre, e, h0⟩ := h3
      exact absurd h0 (h pre [] e)
    · rintro ⟨pre, rest, hr, e, h0⟩
      exact absurd (h4 rest ⟨pre, e, h0⟩) hr
  · rw [e]
    obtain ⟨pre, ep, h0⟩ := h2
    refine ⟨⟨?_, ?_⟩, ⟨fun _ => ⟨pre, rest, h1, ep, h0⟩, fun _ => rfl⟩, fun h => absurd rfl h⟩
    · rintro ⟨s', e', -⟩
      cases e'
    · intro h
      exact absurd h0 (h pre rest ep)

/-- The next one to drop a reference uses an object which doesn't exist. -/
example : Held 1 (List.replicate (2 ^ 32) .ref ++ [.unref, .unref]) ∧ run new (List.replicate (2 ^ 32) .ref ++ [.unref, .unref]) = .error .useAfterFree := by
  have hh : Held 1 (List.replicate (2 ^ 32) .ref ++ [.unref, .unref]) := held_refs _ _ _ (by decide) ⟨by decide, by decide, trivial⟩
  refine ⟨hh, (C125_exactly _ hh).2.1.2 ⟨List.replicate (2 ^ 32) .ref, [.unref], by simp, rfl, ?_⟩⟩
  rw [left_append, left_refs]
  decide

/-- **C125** in debug builds (of everything but ints): the assertions hold as long as there are less than 2^31 references, and the first one made when there are at
least as many as that fails, although there isn't anything wrong yet. -/
theorem C125_assertions (ops : List Op) (hh : Held 1 ops) (hb : Below (2 ^ 32) ops) :
    (debugRun new ops = .error .assertFail ↔ ∃ pre op post, ops = pre ++ op :: post ∧ 2 ^ 31 ≤ left 1 pre) ∧
    (debugRun new ops = .error .assertFail ∨ debugRun new ops = run new ops) :=
  debugRun_cases ops new 1 inv_new (by decide) hh hb

example : debugRun new [.ref, .unref, .unref] = .ok ⟨0, false, 1⟩ := rfl

/-- The 2^31st call of `ref`, when there are 2^31 references already. -/
example : Held 1 (List.replicate (2 ^ 31 - 1) .ref ++ [.ref]) ∧ debugRun new (List.replicate (2 ^ 31 - 1) .ref ++ [.ref]) = .error .assertFail := by
  have hh : Held 1 (List.replicate (2 ^ 31 - 1) .ref ++ [.ref]) := held_refs _ _ _ (by decide) ⟨by decide, trivial⟩
  refine ⟨hh, (C125_assertions _ hh ?_).1.2 ⟨List.replicate (2 ^ 31 - 1) .ref, .ref, [], rfl, ?_⟩⟩
  · intro pre post e
    have h : ∀ (p : List Op) (n : Nat), left n p ≤ n + p.length := by
      intro p
      induction p with
      | nil => intro n; exact Nat.le_refl _
      | cons x p ih =>
        intro n
        cases x
        · exact Nat.le_trans (ih (n + 1)) (by simp; omega)
        · exact Nat.le_trans (ih (n - 1)) (by simp; omega)
    have := h pre 1
    have hl := congrArg List.length e
    rw [List.length_append, List.length_append, List.length_replicate, List.length_singleton] at hl
    omega
  · rw [left_refs]
    decide

end Verif.Counter32
