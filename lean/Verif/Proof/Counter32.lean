import Verif.Model.Counter32

namespace Verif.Counter32
open Verif.C Spec

/-- The counter of an object which hasn't been deallocated is the number of references, as far as 32 bits can tell. -/
def Inv (s : State) (n : Nat) : Prop := s.alive = true ∧ s.released = 0 ∧ s.count = BitVec.ofNat 32 n

theorem left_append : ∀ (a b : List Op) (n : Nat), left n (a ++ b) = left (left n a) b
  | [], _, _ => rfl
  | .ref :: a, b, n => left_append a b (n + 1)
  | .unref :: a, b, n => left_append a b (n - 1)

theorem ref_inv {s : State} {n : Nat} (h : Inv s n) : ∃ s', ref s = .ok s' ∧ Inv s' (n + 1) := by
  obtain ⟨ha, hr, hc⟩ := h
  refine ⟨{ s with count := s.count + 1#32 }, ?_, ha, hr, ?_⟩
  · rw [ref, State.access, if_pos ha, ok_bind]
  · show s.count + 1#32 = _
    rw [hc, BitVec.ofNat_add]

theorem pred_eq {n : Nat} (h : 0 < n) : BitVec.ofNat 32 n - 1#32 = BitVec.ofNat 32 (n - 1) := by
  apply BitVec.eq_of_toNat_eq
  rw [BitVec.toNat_sub, BitVec.toNat_ofNat, BitVec.toNat_ofNat, BitVec.toNat_ofNat]
  omega

theorem ofNat_zero_iff {n : Nat} : BitVec.ofNat 32 n = 0#32 ↔ n % 2 ^ 32 = 0 := by
  rw [← BitVec.toNat_inj, BitVec.toNat_ofNat, BitVec.toNat_ofNat]

theorem unref_keep {s : State} {n : Nat} (h : Inv s n) (h0 : 0 < n) (hn : (n - 1) % 2 ^ 32 ≠ 0) : ∃ s', unref s = .ok s' ∧ Inv s' (n - 1) := by
  obtain ⟨ha, hr, hc⟩ := h
  refine ⟨{ s with count := s.count - 1#32 }, ?_, ha, hr, ?_⟩
  · rw [unref, State.access, if_pos ha, ok_bind, if_neg]
    rw [hc, pred_eq h0, ofNat_zero_iff]
    exact hn
  · show s.count - 1#32 = _
    rw [hc, pred_eq h0]

theorem unref_last {s : State} {n : Nat} (h : Inv s n) (h0 : 0 < n) (hn : (n - 1) % 2 ^ 32 = 0) : ∃ s', unref s = .ok s' ∧ s'.alive = false ∧ s'.released = 1 := by
  obtain ⟨ha, hr, hc⟩ := h
  refine ⟨⟨s.count - 1#32, false, s.released + 1⟩, ?_, rfl, by rw [hr]⟩
  rw [unref, State.access, if_pos ha, ok_bind, if_pos]
  rw [hc, pred_eq h0, ofNat_zero_iff]
  exact hn

theorem gone {s : State} (h : s.alive = false) {ops : List Op} (ho : ops ≠ []) : run s ops = .error .useAfterFree := by
  cases ops with
  | nil => exact absurd rfl ho
  | cons op t =>
    cases op
    · rw [run, step, ref, State.access, if_neg (by simp [h]), error_bind, error_bind]
    · rw [run, step, unref, State.access, if_neg (by simp [h]), error_bind, error_bind]

/-- Somewhere in there a reference is dropped, and what's left is a multiple of 2^32. -/
def Falls (n : Nat) (ops rest : List Op) : Prop := ∃ pre, ops = pre ++ .unref :: rest ∧ left n (pre ++ [.unref]) % 2 ^ 32 = 0

/-- What becomes of the object. -/
theorem run_cases : ∀ (ops : List Op) (s : State) (n : Nat), Inv s n → Held n ops →
    (∃ s', run s ops = .ok s' ∧ Inv s' (left n ops) ∧ ∀ rest, ¬ Falls n ops rest) ∨
    (∃ s', run s ops = .ok s' ∧ s'.alive = false ∧ s'.released = 1 ∧ Falls n ops [] ∧ ∀ rest, Falls n ops rest → rest = []) ∨
    (run s ops = .error .useAfterFree ∧ ∃ rest, rest ≠ [] ∧ Falls n ops rest)
  | [], s, n, h, _ => .inl ⟨s, rfl, h, by rintro rest ⟨pre, e, -⟩; simp at e⟩
  | .ref :: t, s, n, h, hh => by
    obtain ⟨s1, e1, h1⟩ := ref_inv h
    have key : ∀ rest, Falls n (.ref :: t) rest ↔ Falls (n + 1) t rest := by
      intro rest
      constructor
      · rintro ⟨pre, e, h⟩
        cases pre with
        | nil => cases e
        | cons x pre => cases e; exact ⟨pre, rfl, h⟩
      · rintro ⟨pre, e, h⟩
        exact ⟨.ref :: pre, by rw [e]; rfl, h⟩
    rw [run, step, e1, ok_bind]
    simp only [key]
    exact run_cases t s1 (n + 1) h1 hh.2
  | .unref :: t, s, n, h, hh => by
    by_cases hn : (n - 1) % 2 ^ 32 = 0
    · obtain ⟨s1, e1, h1, h2⟩ := unref_last h hh.1 hn
      rw [run, step, e1, ok_bind]
      right
      by_cases ht : t = []
      · subst ht
        refine .inl ⟨s1, rfl, h1, h2, ⟨[], rfl, hn⟩, ?_⟩
        rintro rest ⟨pre, e, -⟩
        cases pre with
        | nil => cases e; rfl
        | cons x pre => simp at e
      · exact .inr ⟨gone h1 ht, t, ht, [], rfl, hn⟩
    · obtain ⟨s1, e1, h1⟩ := unref_keep h hh.1 hn
      have key : ∀ rest, Falls n (.unref :: t) rest ↔ Falls (n - 1) t rest := by
        intro rest
        constructor
        · rintro ⟨pre, e, h⟩
          cases pre with
          | nil => exact absurd h hn
          | cons x pre => cases e; exact ⟨pre, rfl, h⟩
        · rintro ⟨pre, e, h⟩
          exact ⟨.unref :: pre, by rw [e]; rfl, h⟩
      rw [run, step, e1, ok_bind]
      simp only [key]
      exact run_cases t s1 (n - 1) h1 hh.2

theorem inv_new : Inv new 1 := ⟨rfl, rfl, rfl⟩

theorem left_refs : ∀ (k n : Nat), left n (List.replicate k .ref) = n + k
  | 0, _ => rfl
  | k + 1, n => by rw [List.replicate_succ, left, left_refs k (n + 1)]; omega

theorem held_refs : ∀ (k n : Nat) (ops : List Op), 0 < n → Held (n + k) ops → Held n (List.replicate k .ref ++ ops)
  | 0, _, _, _, h => h
  | k + 1, n, ops, h0, h => by
    rw [List.replicate_succ]
    exact ⟨h0, held_refs k (n + 1) ops (by omega) (by rw [show n + 1 + k = n + (k + 1) by omega]; exact h)⟩

theorem run_refs : ∀ (k : Nat) (s : State) (n : Nat), Inv s n → ∃ s', run s (List.replicate k .ref) = .ok s' ∧ Inv s' (n + k)
  | 0, s, _, h => ⟨s, rfl, h⟩
  | k + 1, s, n, h => by
    obtain ⟨s1, e1, h1⟩ := ref_inv h
    obtain ⟨s2, e2, h2⟩ := run_refs k s1 (n + 1) h1
    rw [List.replicate_succ, run, step, e1, ok_bind]
    exact ⟨s2, e2, by rw [show n + (k + 1) = n + 1 + k by omega]; exact h2⟩

theorem run_append : ∀ (a b : List Op) (s : State), run s (a ++ b) = (run s a >>= fun s => run s b)
  | [], _, _ => rfl
  | op :: a, b, s => by
    rw [List.cons_append, run, run]
    cases step s op with
    | error e => rfl
    | ok s1 => exact run_append a b s1

theorem toInt_pos {n : Nat} (h : n < 2 ^ 32) : (BitVec.ofNat 32 n).toInt > 0 ↔ 0 < n ∧ n < 2 ^ 31 := by
  rw [BitVec.toInt_eq_toNat_cond, BitVec.toNat_ofNat]
  split <;> omega

/-- Debug builds, as long as the counter doesn't wrap around. -/
theorem debugRun_cases : ∀ (ops : List Op) (s : State) (n : Nat), Inv s n → 0 < n → Held n ops → (∀ pre post, ops = pre ++ post → left n pre < 2 ^ 32) →
    (debugRun s ops = .error .assertFail ↔ ∃ pre op post, ops = pre ++ op :: post ∧ 2 ^ 31 ≤ left n pre) ∧
    (debugRun s ops = .error .assertFail ∨ debugRun s ops = run s ops)
  | [], s, n, _, _, _, _ => by
    refine ⟨?_, .inr rfl⟩
    constructor
    · intro e; cases e
    · rintro ⟨pre, op, post, e, -⟩; simp at e
  | op :: t, s, n, h, h0, hh, hl => by
    have hn : n < 2 ^ 32 := hl [] _ rfl
    have ha := h.1
    have hb : ∀ m, left n [op] = m → ((∃ pre op' post, op :: t = pre ++ op' :: post ∧ 2 ^ 31 ≤ left n pre) ↔
        2 ^ 31 ≤ n ∨ ∃ pre op' post, t = pre ++ op' :: post ∧ 2 ^ 31 ≤ left m pre) := by
      intro m hm
      constructor
      · rintro ⟨pre, op', post, e, hp⟩
        cases pre with
        | nil => exact .inl hp
        | cons x pre =>
          cases e
          refine .inr ⟨pre, op', post, rfl, ?_⟩
          rw [← hm, ← left_append]
          exact hp
      · rintro (hp | ⟨pre, op', post, e, hp⟩)
        · exact ⟨[], op, t, rfl, hp⟩
        · refine ⟨op :: pre, op', post, by rw [e]; rfl, ?_⟩
          rw [← hm, ← left_append] at hp
          exact hp
    by_cases hs : 2 ^ 31 ≤ n
    · have e : debugRun s (op :: t) = .error .assertFail := by
        rw [debugRun, debugStep, State.access, if_pos ha, ok_bind, if_neg, error_bind]
        rw [h.2.2, toInt_pos hn]
        omega
      rw [e, hb _ rfl]
      exact ⟨⟨fun _ => .inl hs, fun _ => rfl⟩, .inl rfl⟩
    · have ed : debugStep s op = step s op := by
        rw [debugStep, State.access, if_pos ha, ok_bind, if_pos]
        rw [h.2.2, toInt_pos hn]
        omega
      rw [debugRun, run, ed, hb _ rfl]
      cases op with
      | ref =>
        obtain ⟨s1, e1, h1⟩ := ref_inv h
        have ih := debugRun_cases t s1 (n + 1) h1 (by omega) hh.2 (fun pre post e => hl (.ref :: pre) post (by rw [e]; rfl))
        rw [step, e1, ok_bind, ok_bind]
        refine ⟨?_, ih.2⟩
        rw [ih.1]
        constructor
        · exact .inr
        · rintro (hx | hx)
          · exact absurd hx hs
          · exact hx
      | unref =>
        by_cases h1 : n = 1
        · subst h1
          obtain ⟨s1, e1, hd, -⟩ := unref_last h h0 (by decide)
          have ht : t = [] := by
            cases t with
            | nil => rfl
            | cons x t => cases x <;> exact absurd hh.2.1 (by decide)
          subst ht
          rw [step, e1, ok_bind, ok_bind]
          refine ⟨?_, .inr rfl⟩
          constructor
          · intro e; cases e
          · rintro (hx | ⟨pre, op', post, e, -⟩)
            · exact absurd hx hs
            · simp at e
        · obtain ⟨s1, e1, hi⟩ := unref_keep h h0 (by omega)
          have ih := debugRun_cases t s1 (n - 1) hi (by omega) hh.2 (fun pre post e => hl (.unref :: pre) post (by rw [e]; rfl))
          rw [step, e1, ok_bind, ok_bind]
          refine ⟨?_, ih.2⟩
          rw [ih.1]
          constructor
          · exact .inr
          · rintro (hx | hx)
            · exact absurd hx hs
            · exact hx

end Verif.Counter32
