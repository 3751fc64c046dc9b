import Verif.Proof.HistoryDecl

namespace Verif.History
open Verif.C Spec

theorem bindInv {α β : Type} {x : M α} {f : α → M β} {b : β} (h : (x >>= f) = .ok b) : ∃ a, x = .ok a ∧ f a = .ok b := by
  cases x with
  | error e => cases h
  | ok a => exact ⟨a, rfl, h⟩

theorem flush_last {mode : Mode} {h h' : Hist} {now : Int} (hf : flush mode h now = .ok (true, h')) : h'.last = h.last := by
  unfold flush at hf
  obtain ⟨c, -, hf⟩ := bindInv hf
  obtain ⟨e, -, hf⟩ := bindInv hf
  split at hf
  · obtain ⟨f, -, hf⟩ := bindInv hf
    injection hf with hf
    injection hf with _ hf
    rw [← hf]
  · injection hf with hf
    injection hf with hf _
    cases hf

/-- Where the new sample goes if none of the others is too old -/
theorem put_last {lo : Int} {h : Hist} {l : List Sample} (mode : Mode) (value now : Int) (v : View h l)
    (hs : Sorted l) (ht : TimeOk lo now) (hi0 : 0 < h.maxInterval) (hi : int64Min ≤ lo - h.maxInterval)
    (hl : live h.maxInterval now l = l) (hn : ∀ s ∈ l, s.time < now) {h' : Hist} (hp : put mode h value now = .ok h') :
    h'.last = if l = [] then 0 else stepPos h h.last := by
  rw [put] at hp
  by_cases hne : l = []
  · subst hne
    have := (v.empty rfl).2
    rw [addFlush, if_pos (by omega), ok_bind] at hp
    dsimp only at hp
    rw [addPos, ok_bind] at hp
    obtain ⟨es, -, hp⟩ := bindInv hp
    injection hp with hp
    rw [← hp]
    rfl
  · obtain ⟨h1, hf, v1, e1, e2⟩ := flush_ok mode now v hne hs ht hi0 hi
    have hlast := v.nonneg_iff.2 hne
    rw [hl] at hf v1
    rw [show decide (l ≠ []) = true by simpa using hne] at hf
    have e3 := flush_last hf
    rw [addFlush, if_neg (by omega), hf, ok_bind] at hp
    dsimp only at hp
    obtain ⟨l0, l1, s, hsl, hse⟩ := v1.last hne
    have hst := step_ok l0 l1 v1.maxInt
    have hsn := hn s (List.mem_of_getLast? hsl)
    rw [addPos, rd_ok l0 hse, ok_bind, if_pos hsn, hst.1, ok_bind, hst.2, ok_bind] at hp
    have e4 : stepPos h1 h1.last = stepPos h h.last := by unfold stepPos; rw [e1, e3]
    rw [if_neg hne]
    split at hp
    · obtain ⟨x, hx, hp⟩ := bindInv hp
      obtain ⟨f1, -, hx⟩ := bindInv hx
      obtain ⟨f2, -, hx⟩ := bindInv hx
      injection hx with hx
      subst hx
      dsimp only at hp
      obtain ⟨es, -, hp⟩ := bindInv hp
      injection hp with hp
      rw [← hp]
      exact e4
    · rw [ok_bind] at hp
      dsimp only at hp
      obtain ⟨es, -, hp⟩ := bindInv hp
      injection hp with hp
      rw [← hp]
      exact e4

/-- The state after `k` samples -/
structure Filled (n : Nat) (I : Int) (k : Nat) (h : Hist) (l : List Sample) : Prop where
  good : Good .strict n I 0 0 h l
  len : l.length = min n k
  times : ∀ s ∈ l, 0 ≤ s.time ∧ s.time ≤ k
  last : 0 < k → h.last = ((k - 1) % n : Nat)

/-- Samples at the times from `k + 1` on -/
def fill (k : Nat) : Nat → List Op
  | 0 => []
  | m + 1 => .add 0 ((k : Int) + 1) :: fill (k + 1) m

theorem fill_eq : ∀ (m k : Nat), fill k m = (List.range' (k + 1) m).map (fun (t : Nat) => Op.add 0 (t : Int))
  | 0, _ => rfl
  | m + 1, k => by rw [fill, fill_eq m (k + 1), List.range'_succ, List.map_cons]; rfl

theorem filled_add {n : Nat} {I : Int} (P : Params .strict n I 0 0) {k : Nat} (hk : (k : Int) + 1 ≤ I) {h : Hist} {l : List Sample} (g : Filled n I k h l) :
    ∃ o h' l', exec .strict h (.add 0 ((k : Int) + 1)) = .ok (o, h') ∧ Filled n I (k + 1) h' l' := by
  have hI2 := P.I2
  have hT : TimeOk 0 ((k : Int) + 1) := by unfold TimeOk; omega
  obtain ⟨o, h', hx, g', -⟩ := sim P g.good (.add 0 ((k : Int) + 1))
    ⟨fun now e => by simp only [Op.now?, Option.some.injEq] at e; subst e; exact hT,
      fun _ v now e => by injection e with e _; omega, fun _ e => by cases e⟩
  have hlive : live I ((k : Int) + 1) l = l := by
    unfold live
    rw [List.filter_eq_self]
    intro s hs
    have := g.times s hs
    simp only [decide_eq_true_eq]
    omega
  have hlt : ∀ s ∈ l, s.time < (k : Int) + 1 := fun s hs => by have := g.times s hs; omega
  refine ⟨o, h', _, hx, g', ?_, ?_, ?_⟩
  · show (record n (live I ((k : Int) + 1) l) 0 ((k : Int) + 1)).length = _
    rw [hlive]
    have := P.n0
    have hl := g.len
    unfold record
    cases hq : l.getLast? with
    | none =>
      rw [List.getLast?_eq_none_iff] at hq
      subst hq
      simp only [List.length_nil] at hl
      simp only [List.length_singleton]
      omega
    | some s =>
      simp only [if_pos (hlt s (List.mem_of_getLast? hq)), lastN_length, List.length_append, List.length_singleton]
      omega
  · intro s hs
    have hs : s ∈ record n (live I ((k : Int) + 1) l) 0 ((k : Int) + 1) := hs
    rw [hlive] at hs
    rcases record_mem hs with hs | ⟨-, ⟨e, -⟩ | ⟨y, hy, e⟩⟩
    · have := g.times s hs; omega
    · omega
    · have := g.times y hy; omega
  · intro _
    have hx : add .strict h 0 ((k : Int) + 1) = .ok (o, h') := hx
    rw [add] at hx
    obtain ⟨h1, hp, hx⟩ := bindInv hx
    obtain ⟨m, -, hx⟩ := bindInv hx
    injection hx with hx
    injection hx with _ hx
    subst hx
    have e := put_last .strict 0 ((k : Int) + 1) g.good.view g.good.sorted hT (g.good.intv ▸ P.I0) (g.good.intv ▸ P.I1)
      (by rw [g.good.intv]; exact hlive) hlt hp
    rw [e]
    have hl := g.len
    have hsz := g.good.size
    have n0 := P.n0
    by_cases hne : l = []
    · rw [if_pos hne]
      subst hne
      simp only [List.length_nil] at hl
      have : k = 0 := by omega
      subst this
      simp
    · have hp := List.length_pos_iff.2 hne
      rw [if_neg hne, g.last (by omega), stepPos, hsz]
      have hm := Nat.mod_lt (k - 1) n0
      have e1 : k + 1 - 1 = (k - 1) + 1 := by omega
      rw [e1]
      generalize k - 1 = j at *
      have := Nat.add_mod j 1 n
      have hd := Nat.div_add_mod j n
      have hd2 := Nat.div_add_mod (j + 1) n
      split
      · have : (j + 1) % n = j % n + 1 := by
          rw [Nat.add_mod]
          rcases Nat.lt_or_ge 1 n with h1 | h1
          · rw [Nat.mod_eq_of_lt h1, Nat.mod_eq_of_lt (by omega)]
          · omega
        omega
      · have e2 : j % n + 1 = n := by omega
        have : (j + 1) % n = 0 := by
          have : j + 1 = n * (j / n + 1) := by rw [Nat.mul_add]; omega
          rw [this, Nat.mul_mod_right]
        omega

theorem filled_run {n : Nat} {I : Int} (P : Params .strict n I 0 0) (tail : List Op) (err : UB) :
    ∀ (m k : Nat) {h : Hist} {l : List Sample}, (k : Int) + m ≤ I → Filled n I k h l →
      (∀ h' l', Filled n I (k + m) h' l' → run .strict h' tail = .error err) → run .strict h (fill k m ++ tail) = .error err
  | 0, k, h, l, _, g, ht => ht h l g
  | m + 1, k, h, l, hk, g, ht => by
    obtain ⟨o, h', l', hx, g'⟩ := filled_add P (by omega) g
    have := filled_run P tail err m (k + 1) (by omega) g' (fun h'' l'' g'' => ht h'' l'' (by rw [show k + (m + 1) = k + 1 + m by omega]; exact g''))
    rw [fill, List.cons_append, run, hx, ok_bind]
    dsimp only
    rw [this, error_bind]

theorem filled_size {n : Nat} {I : Int} (P : Params .strict n I 0 0) (hn : 2 ^ 30 < n) (hI : 2 * (n : Int) ≤ I) {h : Hist} {l : List Sample}
    (g : Filled n I (2 * n - 1) h l) : run .strict h [.size ((2 * n - 1 : Nat) : Int)] = .error .signedOverflow := by
  have hl := g.len
  have hne : l ≠ [] := List.length_pos_iff.1 (by omega)
  have hI2 := P.I2
  have hT : TimeOk 0 ((2 * n - 1 : Nat) : Int) := by unfold TimeOk; omega
  have hlive : live I ((2 * n - 1 : Nat) : Int) l = l := by
    unfold live
    rw [List.filter_eq_self]
    intro s hs
    have := g.times s hs
    simp only [decide_eq_true_eq]
    omega
  obtain ⟨h1, hf, v1, e1, e2⟩ := flush_ok .strict ((2 * n - 1 : Nat) : Int) g.good.view hne g.good.sorted hT (g.good.intv ▸ P.I0) (g.good.intv ▸ P.I1)
  rw [g.good.intv, hlive] at hf v1
  rw [show decide (l ≠ []) = true by simpa using hne] at hf
  have e3 := flush_last hf
  have e4 := g.last (by omega)
  have e5 : (2 * n - 1 - 1) % n = n - 2 := by
    rw [show 2 * n - 1 - 1 = (n - 2) + n by omega, Nat.add_mod_right, Nat.mod_eq_of_lt (by omega)]
  have hsz := g.good.size
  obtain ⟨f0, f1, f2⟩ := v1.ends hne
  have hix := idx_nat (i := l.length - 1) f0 f1 (by omega)
  rw [← f2] at hix
  rw [run]
  show ((size .strict h _ >>= _ : M _)) = _
  rw [size, if_pos (g.good.view.nonneg_iff.2 hne), hf, ok_bind]
  dsimp only
  rw [if_pos (show (true : Bool) = true from rfl), if_pos (show h1.first > h1.last by split at hix <;> omega)]
  have : arith32 .strict (h1.maxSize + h1.last) = .error .signedOverflow := by
    unfold arith32 chk32 intMin intMax
    rw [if_neg (by omega)]
  rw [this]
  rfl

end Verif.History
