import Verif.Proof.RingDebug

/-! # Assertions in the ring: no rules at all -/

namespace Verif.Ring.Debug
open Verif.C Spec

/-- Two outcomes are the same, and if that's a value then it has the property. -/
def Same {α : Type} (P : α → Prop) (x y : M α) : Prop := x = y ∧ ∀ v, y = .ok v → P v

theorem same_ok {α : Type} {P : α → Prop} {v : α} (h : P v) : Same P (.ok v) (.ok v) := ⟨rfl, fun w e => by cases e; exact h⟩

theorem same_error {α : Type} {P : α → Prop} {e : UB} : Same P (.error e) (.error e) := ⟨rfl, fun w e => by cases e⟩

theorem same_bind {α β : Type} {P : α → Prop} {Q : β → Prop} {x y : M α} {f g : α → M β} (h : Same P x y) (hf : ∀ v, P v → Same Q (f v) (g v)) :
    Same Q (x >>= f) (y >>= g) := by
  obtain ⟨h1, h2⟩ := h
  subst h1
  cases x with
  | error e => exact same_error
  | ok v => exact hf v (h2 v rfl)

theorem same_skip {α β : Type} {Q : β → Prop} {x : M α} {f g : α → M β} (hf : ∀ v, x = .ok v → Same Q (f v) (g v)) : Same Q (x >>= f) (x >>= g) := by
  cases x with
  | error e => exact same_error
  | ok v => exact hf v rfl

theorem same_assert {α : Type} {Q : α → Prop} {c : Prop} [Decidable c] {f : Unit → M α} {y : M α} (hc : c) (h : Same Q (f ()) y) : Same Q (gassert c >>= f) y := by
  rw [gassert_ok hc, ok_bind]
  exact h

theorem same_imp {α : Type} {P Q : α → Prop} {x y : M α} (h : Same P x y) (hi : ∀ v, P v → Q v) : Same Q x y := ⟨h.1, fun v e => hi v (h.2 v e)⟩

theorem chk32_val {x v : Int} (h : chk32 x = .ok v) : v = x := by
  unfold chk32 at h
  split at h
  · injection h with h; exact h.symm
  · cases h

theorem cMod_val {a b v : Int} (ha : 0 ≤ a) (hb : a < 2 * b) (h : cMod a b = .ok v) : v = if a < b then a else a - b := by
  rw [cMod_ok ha hb] at h
  injection h with h
  exact h.symm

/-- The indices make sense (nothing is said about the contents). -/
def Idx (r : Ring) : Prop :=
  Nz r ∧ 0 ≤ r.alloc ∧ ((r.start = -1 ∧ r.fin = -1) ∨
    (0 ≤ r.start ∧ r.start < r.alloc ∧ 0 ≤ r.fin ∧ (r.fin < r.alloc ∨ (r.start = 0 ∧ r.fin = 1 ∧ r.alloc = 1))))

/-- The number of elements -/
def cnt (r : Ring) : Int :=
  if 0 ≤ r.start then
    if r.start > r.fin then r.alloc + r.fin - r.start
    else if r.fin > r.start then r.fin - r.start
    else r.alloc
  else 0

theorem size_same {r : Ring} (h : Idx r) : Same (fun n => n = cnt r) (size r) (Ring.size r) := by
  obtain ⟨_, h0, h⟩ := h
  unfold size Ring.size cnt
  split
  · split
    · refine same_skip fun v hv => ?_
      have e1 := chk32_val hv
      refine ⟨rfl, fun w hw => ?_⟩
      have e2 := chk32_val hw
      omega
    · split
      · exact ⟨rfl, fun w hw => chk32_val hw⟩
      · refine same_assert (by omega) (same_assert (by omega) (same_ok rfl))
  · exact same_ok rfl

theorem callFree_fields (r : Ring) (p : Ptr) : (callFree r p).start = r.start ∧ (callFree r p).fin = r.fin ∧ (callFree r p).alloc = r.alloc ∧
    (callFree r p).data = r.data ∧ (callFree r p).free = r.free ∧ (callFree r p).refCount = r.refCount := by
  unfold callFree
  split <;> exact ⟨rfl, rfl, rfl, rfl, rfl, rfl⟩

theorem idx_congr {r r' : Ring} (h : Idx r) (h1 : r'.start = r.start) (h2 : r'.fin = r.fin) (h3 : r'.alloc = r.alloc) (h4 : r'.data = r.data) : Idx r' := by
  unfold Idx Nz at *
  rw [h1, h2, h3, h4]
  exact h

theorem idx_free {r : Ring} (h : Idx r) (p : Ptr) : Idx (callFree r p) := by
  obtain ⟨h1, h2, h3, h4, _⟩ := callFree_fields r p
  exact idx_congr h h1 h2 h3 h4

theorem cnt_free (r : Ring) (p : Ptr) : cnt (callFree r p) = cnt r := by
  obtain ⟨h1, h2, h3, _⟩ := callFree_fields r p
  unfold cnt
  rw [h1, h2, h3]

theorem get_same {r : Ring} (h : Idx r) : Same (fun v => Idx v.2) (Ring.get r) (Ring.get r) := by
  obtain ⟨hz, h0, h⟩ := h
  unfold Ring.get
  split
  · refine same_skip fun p _ => same_skip fun st hst => ?_
    have := chk32_val hst
    subst this
    split
    · exact same_ok ⟨hz, h0, .inl ⟨rfl, rfl⟩⟩
    · refine same_skip fun s hs => ?_
      have := cMod_val (by omega) (by omega) hs
      split
      · exact same_ok ⟨hz, h0, .inl ⟨rfl, rfl⟩⟩
      · refine same_ok ⟨hz, h0, .inr ?_⟩
        dsimp only
        split at this <;> omega
  · exact same_ok ⟨hz, h0, h⟩

theorem getLast_same {r : Ring} (h : Idx r) : Same (fun v => Idx v.2) (Ring.getLast r) (Ring.getLast r) := by
  obtain ⟨hz, h0, h⟩ := h
  unfold Ring.getLast
  split
  · refine same_skip fun e he => ?_
    have := chk32_val he
    subst this
    refine same_skip fun e he => same_skip fun p _ => ?_
    have := cMod_val (by omega) (by omega) he
    split
    · exact same_ok ⟨hz, h0, .inl ⟨rfl, rfl⟩⟩
    · refine same_ok ⟨hz, h0, .inr ?_⟩
      dsimp only
      split at this <;> omega
  · exact same_ok ⟨hz, h0, h⟩

theorem clearLoop_same : ∀ (n : Nat) (r : Ring), Idx r → Same Idx (clearLoop n r) (Ring.clearLoop n r) := by
  intro n
  induction n with
  | zero => intro r h; exact same_ok h
  | succ n ih =>
    intro r h
    unfold clearLoop Ring.clearLoop
    refine same_bind (get_same h) fun v hv => ?_
    obtain ⟨p, r1⟩ := v
    dsimp only
    have h1 := idx_free hv p
    refine same_bind (size_same h1) fun s _ => ?_
    split
    · exact ih _ h1
    · exact same_ok h1

theorem clear_same {r : Ring} (h : Idx r) : Same Idx (clear r) (Ring.clear r) := by
  unfold clear Ring.clear
  refine same_bind (size_same h) fun n _ => ?_
  split
  · split
    · exact clearLoop_same _ r h
    · exact same_ok ⟨h.1, h.2.1, .inl ⟨rfl, rfl⟩⟩
  · exact same_ok h

theorem dropLoop_same : ∀ (n : Nat) (r : Ring), Idx r → (n : Int) < cnt r → Same Idx (dropLoop n r) (Ring.dropLoop n r) := by
  intro n
  induction n with
  | zero => intro r h _; exact same_ok h
  | succ n ih =>
    intro r h hn
    unfold dropLoop Ring.dropLoop
    refine same_skip fun p _ => ?_
    dsimp only
    have h1 := idx_free h p
    rw [← cnt_free r p] at hn
    generalize callFree r p = q at h1 hn
    refine same_skip fun st hst => ?_
    have := chk32_val hst
    subst this
    refine same_skip fun s hs => ?_
    obtain ⟨hz, h0, h⟩ := h1
    unfold cnt at hn
    have hs' := cMod_val (by split at hn <;> omega) (by split at hn <;> omega) hs
    have hne : s ≠ q.fin := by split at hn <;> split at hs' <;> (try split at hn) <;> (try split at hn) <;> omega
    refine same_assert hne (ih _ ⟨hz, h0, .inr ?_⟩ ?_)
    · dsimp only
      split at hn <;> split at hs' <;> (try split at hn) <;> (try split at hn) <;> omega
    · unfold cnt
      dsimp only
      split at hn <;> split at hs' <;> (try split at hn) <;> (try split at hn) <;> split <;> (try split) <;> (try split) <;> omega

theorem drop_same {r : Ring} (h : Idx r) (n : Int) : Same (fun v => Idx v.2) (drop r n) (Ring.drop r n) := by
  unfold drop Ring.drop
  split
  · refine same_bind (size_same h) fun sz hsz => ?_
    subst hsz
    split
    · split
      · refine same_bind (clear_same h) fun v hv => same_ok hv
      · split
        · refine same_bind (dropLoop_same n.toNat r h (by omega)) fun v hv => same_ok hv
        · next h2 _ =>
          obtain ⟨hz, h0, h⟩ := h
          unfold cnt at h2
          refine same_skip fun st hst => ?_
          have := chk32_val hst
          subst this
          refine same_skip fun s hs => ?_
          have hb : 0 ≤ r.start ∧ n < r.alloc := by
            split at h2 <;> (try split at h2) <;> (try split at h2) <;> omega
          have hs' := cMod_val (by omega) (by omega) hs
          have hne : s ≠ r.fin := by split at h2 <;> split at hs' <;> (try split at h2) <;> (try split at h2) <;> omega
          refine same_assert hne (same_ok ⟨hz, h0, .inr ?_⟩)
          dsimp only
          split at h2 <;> split at hs' <;> (try split at h2) <;> (try split at h2) <;> omega
    · exact same_ok h
  · exact same_ok h

theorem dropLastLoop_same : ∀ (n : Nat) (r : Ring), Idx r → (n : Int) < cnt r → Same Idx (dropLastLoop n r) (Ring.dropLastLoop n r) := by
  intro n
  induction n with
  | zero => intro r h _; exact same_ok h
  | succ n ih =>
    intro r h hn
    unfold dropLastLoop Ring.dropLastLoop
    refine same_skip fun e1 he1 => ?_
    have := chk32_val he1
    subst this
    refine same_skip fun s hs => ?_
    obtain ⟨hz, h0, h⟩ := h
    unfold cnt at hn
    have hs' := cMod_val (by split at hn <;> omega) (by split at hn <;> (try split at hn) <;> (try split at hn) <;> omega) hs
    dsimp only
    refine same_skip fun p _ => ?_
    have hne : r.start ≠ s := by split at hn <;> split at hs' <;> (try split at hn) <;> (try split at hn) <;> omega
    have hi : Idx { r with fin := s } := by
      refine ⟨hz, h0, .inr ?_⟩
      dsimp only
      split at hn <;> split at hs' <;> (try split at hn) <;> (try split at hn) <;> omega
    refine same_assert hne (ih _ (idx_free hi p) ?_)
    rw [cnt_free]
    unfold cnt
    dsimp only
    split at hn <;> split at hs' <;> (try split at hn) <;> (try split at hn) <;> split <;> (try split) <;> (try split) <;> omega

theorem dropLast_same {r : Ring} (h : Idx r) (n : Int) : Same (fun v => Idx v.2) (dropLast r n) (Ring.dropLast r n) := by
  unfold dropLast Ring.dropLast
  split
  · refine same_bind (size_same h) fun sz hsz => ?_
    subst hsz
    split
    · split
      · refine same_bind (clear_same h) fun v hv => same_ok hv
      · split
        · refine same_bind (dropLastLoop_same n.toNat r h (by omega)) fun v hv => same_ok hv
        · next h2 _ =>
          obtain ⟨hz, h0, h⟩ := h
          unfold cnt at h2
          refine same_skip fun e1 he1 => ?_
          have := chk32_val he1
          subst this
          refine same_skip fun s hs => ?_
          have hb : 0 ≤ r.start ∧ n < r.alloc := by
            split at h2 <;> (try split at h2) <;> (try split at h2) <;> omega
          have hs' := cMod_val (by omega) (by omega) hs
          have hne : r.start ≠ s := by split at h2 <;> split at hs' <;> (try split at h2) <;> (try split at h2) <;> omega
          refine same_assert hne (same_ok ⟨hz, h0, .inr ?_⟩)
          dsimp only
          split at h2 <;> split at hs' <;> (try split at h2) <;> (try split at h2) <;> omega
    · exact same_ok h
  · exact same_ok h

theorem unrefLoop_same : ∀ (n : Nat) (i : Int) (r : Ring), Idx r → Same Idx (unrefLoop n i r) (unrefLoop n i r) := by
  intro n
  induction n with
  | zero => intro i r h; exact same_ok h
  | succ n ih =>
    intro i r h
    unfold unrefLoop
    exact same_skip fun k _ => same_skip fun k' _ => same_skip fun p _ => ih _ _ (idx_free h p)

theorem unref_same {r : Ring} (h : Idx r) (hr : r.refCount ≠ 0) : Same Idx (unref r) (Ring.unref r) := by
  unfold unref Ring.unref
  refine same_assert (by omega) ?_
  split
  · dsimp only
    split
    · refine same_bind (size_same h) fun n _ => same_bind (unrefLoop_same _ _ _ h) fun v hv => same_ok (idx_congr hv rfl rfl rfl rfl)
    · exact same_ok (idx_congr h rfl rfl rfl rfl)
  · exact same_ok (idx_congr h rfl rfl rfl rfl)

theorem setMaxSize_same {r : Ring} (h : Idx r) (n : Int) : Same Idx (setMaxSize r n) (Ring.setMaxSize r n) := by
  unfold setMaxSize Ring.setMaxSize
  dsimp only
  generalize (if n < 0 then -1 else n) = m
  split
  · refine same_bind (size_same h) fun sz _ => ?_
    split
    · exact same_bind (drop_same h _) fun v hv => same_ok (idx_congr hv rfl rfl rfl rfl)
    · exact same_ok (idx_congr h rfl rfl rfl rfl)
  · exact same_ok h

theorem newBlock_nz {m : Int} {l d : List (Option Ptr)} (h : newBlock m l = .ok d) (hm : 0 < m) : d ≠ [] := by
  unfold newBlock at h
  rw [if_neg (by omega)] at h
  split at h
  · injection h with h
    intro e
    rw [e] at h
    have := congrArg List.length h
    rw [List.length_append, List.length_replicate, List.length_nil] at this
    omega
  · cases h

theorem compact_same {r : Ring} (h : Idx r) : Same Idx (compact r) (Ring.compact r) := by
  unfold compact Ring.compact
  refine same_bind (size_same h) fun n hn => ?_
  obtain ⟨hz, h0, h⟩ := h
  split
  · split
    · split
      · refine same_skip fun a _ => same_skip fun d hd => same_ok ⟨fun _ => newBlock_nz hd (by assumption), by dsimp only; omega, .inr (by dsimp only; omega)⟩
      · refine same_skip fun tail _ => same_skip fun a _ => same_skip fun b _ => same_skip fun d hd =>
          same_ok ⟨fun _ => newBlock_nz hd (by assumption), by dsimp only; omega, .inr (by dsimp only; omega)⟩
    · refine same_assert (hz ?_) (same_ok ⟨fun h => absurd h (by dsimp only; omega), by dsimp only; omega, .inl ?_⟩)
      · unfold cnt at hn
        split at hn <;> (try split at hn) <;> (try split at hn) <;> omega
      · dsimp only
        unfold cnt at hn
        split at hn <;> (try split at hn) <;> (try split at hn) <;> omega
  · exact same_ok ⟨hz, h0, h⟩

/-- Also, what's needed by those who put something -/
theorem reserve_same {r : Ring} (h : Idx r) (n : Int) : Same (fun v => Idx v.2 ∧ (v.1 = true → n ≤ r.alloc ∧ v.2 = r ∨ r.alloc < v.2.alloc ∧ v.2.fin < v.2.alloc))
    (reserve r n) (Ring.reserve r n) := by
  unfold reserve Ring.reserve
  obtain ⟨hz, h0, h⟩ := h
  split
  · exact same_ok ⟨⟨hz, h0, h⟩, fun _ => .inl ⟨by assumption, rfl⟩⟩
  · split
    · exact same_ok ⟨⟨hz, h0, h⟩, fun h => by cases h⟩
    · refine same_skip fun twice ht => ?_
      have := chk32_val ht
      dsimp only
      have hm : r.alloc < (if r.maxsiz > 0 ∧ max n twice > r.maxsiz then r.maxsiz else max n twice) := by
        split <;> omega
      generalize (if r.maxsiz > 0 ∧ max n twice > r.maxsiz then r.maxsiz else max n twice) = m at hm
      split
      · refine same_skip fun k hk => ?_
        have := chk32_val hk
        refine same_skip fun a _ => same_skip fun d hd => same_ok ⟨⟨fun _ => newBlock_nz hd (by omega), by dsimp only; omega, .inr (by dsimp only; omega)⟩, fun _ => .inr ⟨hm, by dsimp only; omega⟩⟩
      · split
        · refine same_skip fun tail hk => ?_
          have := chk32_val hk
          refine same_skip fun a _ => same_skip fun b _ => same_skip fun d hd => same_assert (by omega)
            (same_ok ⟨⟨fun _ => newBlock_nz hd (by omega), by dsimp only; omega, .inr (by dsimp only; omega)⟩, fun _ => .inr ⟨hm, by dsimp only; omega⟩⟩)
        · refine same_skip fun d hd => same_ok ⟨⟨fun _ => newBlock_nz hd (by omega), by dsimp only; omega, .inl (by dsimp only; omega)⟩, fun _ => .inr ⟨hm, by dsimp only; omega⟩⟩

theorem setSlot_fields {r r' : Ring} {i : Int} {p : Ptr} (h : setSlot r i p = .ok r') : r'.start = r.start ∧ r'.fin = r.fin ∧ r'.alloc = r.alloc ∧ r'.data ≠ [] := by
  unfold setSlot at h
  split at h
  · unfold wr at h
    split at h
    · next hl =>
      rw [ok_bind] at h
      injection h with h
      subst h
      refine ⟨rfl, rfl, rfl, ?_⟩
      dsimp only
      intro e
      have := congrArg List.length e
      rw [List.length_set, List.length_nil] at this
      omega
    · cases h
  · cases h

theorem canPut_same {r : Ring} (h : Idx r) (n : Int) : Same (fun _ => True) (canPut r n) (Ring.canPut r n) := by
  unfold canPut Ring.canPut
  split
  · exact same_ok trivial
  · exact same_bind (size_same h) fun sz _ => same_skip fun s _ => same_ok trivial

theorem put_same {r : Ring} (h : Idx r) (p : Ptr) : Same (fun v => Idx v.2) (put r p) (Ring.put r p) := by
  unfold put Ring.put
  refine same_bind (size_same h) fun sz hsz => same_skip fun s hs => ?_
  have := chk32_val hs
  subst this
  refine same_bind (reserve_same h _) fun v hv => ?_
  obtain ⟨ok, q⟩ := v
  obtain ⟨h1, h2⟩ := hv
  dsimp only at h1 h2 ⊢
  split
  · next e =>
    have h2 := h2 e
    obtain ⟨hz, h0, h1⟩ := h1
    have hi : q.start < 0 ∨ (0 ≤ q.start ∧ q.start < q.alloc ∧ 0 ≤ q.fin ∧ q.fin < q.alloc) := by
      rcases h1 with h1 | h1
      · exact .inl (by omega)
      · right
        rcases h2 with ⟨h3, h4⟩ | h3
        · subst h4
          subst hsz
          unfold cnt at h3
          split at h3 <;> (try split at h3) <;> (try split at h3) <;> omega
        · exact ⟨h1.1, h1.2.1, h1.2.2.1, h3.2⟩
    have hpos : 0 < q.alloc := by
      have := h.2.1
      have : 0 ≤ sz := by
        subst hsz
        obtain ⟨_, h0, h⟩ := h
        unfold cnt
        split <;> (try split) <;> (try split) <;> omega
      rcases h2 with ⟨h3, h4⟩ | h3
      · subst h4; omega
      · omega
    have hq : ∀ q' : Ring, q' = (if q.start < 0 then { q with start := 0, fin := 0 } else q) →
        0 ≤ q'.start ∧ q'.start < q'.alloc ∧ 0 ≤ q'.fin ∧ q'.fin < q'.alloc := by
      intro q' e'
      split at e'
      · subst e'; dsimp only; omega
      · subst e'; omega
    obtain ⟨a, b, c, d⟩ := hq _ rfl
    revert a b c d
    generalize (if q.start < 0 then { q with start := 0, fin := 0 } else q : Ring) = q'
    intro a b c d
    refine same_assert d (same_skip fun q2 hq2 => same_skip fun e1 he1 => ?_)
    obtain ⟨f1, f2, f3, f4⟩ := setSlot_fields hq2
    have := chk32_val he1
    subst this
    refine same_skip fun e2 he2 => ?_
    have := cMod_val (by omega) (by omega) he2
    refine same_ok ⟨fun _ => f4, by dsimp only; omega, .inr ?_⟩
    dsimp only
    split at this <;> omega
  · exact same_ok h1

theorem putFront_same {r : Ring} (h : Idx r) (p : Ptr) : Same (fun v => Idx v.2) (putFront r p) (Ring.putFront r p) := by
  unfold putFront Ring.putFront
  refine same_bind (size_same h) fun sz hsz => same_skip fun s hs => ?_
  have := chk32_val hs
  subst this
  refine same_bind (reserve_same h _) fun v hv => ?_
  obtain ⟨ok, q⟩ := v
  obtain ⟨h1, h2⟩ := hv
  dsimp only at h1 h2 ⊢
  split
  · next e =>
    have h2 := h2 e
    obtain ⟨hz, h0, h1⟩ := h1
    have hi : q.start < 0 ∨ (0 ≤ q.start ∧ q.start < q.alloc ∧ 0 ≤ q.fin ∧ q.fin < q.alloc) := by
      rcases h1 with h1 | h1
      · exact .inl (by omega)
      · right
        rcases h2 with ⟨h3, h4⟩ | h3
        · subst h4
          subst hsz
          unfold cnt at h3
          split at h3 <;> (try split at h3) <;> (try split at h3) <;> omega
        · exact ⟨h1.1, h1.2.1, h1.2.2.1, h3.2⟩
    have hpos : 0 < q.alloc := by
      have := h.2.1
      have : 0 ≤ sz := by
        subst hsz
        obtain ⟨_, h0, h⟩ := h
        unfold cnt
        split <;> (try split) <;> (try split) <;> omega
      rcases h2 with ⟨h3, h4⟩ | h3
      · subst h4; omega
      · omega
    split
    · refine same_skip fun s1 hs1 => ?_
      have := chk32_val hs1
      subst this
      refine same_skip fun s2 hs2 => ?_
      have := cMod_val (by omega) (by omega) hs2
      show Same _ (setSlot { q with start := s2 } s2 p >>= _) (setSlot { q with start := s2 } s2 p >>= _)
      refine same_skip fun q2 hq2 => ?_
      obtain ⟨f1, f2, f3, f4⟩ := setSlot_fields hq2
      dsimp only at f1 f2 f3
      refine same_ok ⟨fun _ => f4, by dsimp only; omega, .inr ?_⟩
      dsimp only
      split at this <;> omega
    · show Same _ (setSlot { q with start := 0, fin := 1 } 0 p >>= _) (setSlot { q with start := 0, fin := 1 } 0 p >>= _)
      refine same_skip fun q2 hq2 => ?_
      obtain ⟨f1, f2, f3, f4⟩ := setSlot_fields hq2
      dsimp only at f1 f2 f3
      refine same_ok ⟨fun _ => f4, by dsimp only; omega, .inr ?_⟩
      dsimp only
      omega
  · exact same_ok h1

theorem dataAt_same {r : Ring} (h : Idx r) (pos : Int) : Same (fun _ => True) (dataAt r pos) (Ring.dataAt r pos) := by
  unfold dataAt Ring.dataAt
  refine same_bind (size_same h) fun sz _ => ?_
  split
  · exact same_skip fun k _ => same_skip fun k _ => ⟨rfl, fun _ _ => trivial⟩
  · exact same_ok trivial

theorem flatten_same {r : Ring} (h : Idx r) : Same (fun v => Idx v.2.2) (flatten r) (Ring.flatten r) := by
  unfold flatten Ring.flatten
  refine same_bind (size_same h) fun n hn => ?_
  split
  · split
    · refine same_skip fun n1 hn1 => ?_
      have := chk32_val hn1
      refine same_skip fun a _ => same_skip fun b _ => same_skip fun d hd => same_skip fun e he => ?_
      obtain ⟨hz, h0, h⟩ := h
      have hb : n ≤ r.alloc := by
        subst hn
        unfold cnt
        split <;> (try split) <;> (try split) <;> omega
      have := cMod_val (by omega) (by omega) he
      refine same_ok ⟨fun _ => newBlock_nz hd (by assumption), h0, .inr ?_⟩
      dsimp only
      split at this <;> omega
    · exact same_ok h
  · exact same_ok h

theorem exec_same {r : Ring} (h : Idx r) (op : Op) : Same (fun v => Idx v.2) (exec r op) (Ring.exec r op) := by
  unfold exec Ring.exec
  split
  · exact same_error
  · next hr =>
    cases op with
    | ref => exact same_assert (by omega) (same_ok (idx_congr h rfl rfl rfl rfl))
    | unref => exact same_bind (unref_same h hr) fun v hv => same_ok hv
    | setFreeFunc f => exact same_ok (idx_congr h rfl rfl rfl rfl)
    | maxSize => exact same_ok h
    | setMaxSize n => exact same_bind (setMaxSize_same h n) fun v hv => same_ok hv
    | size => exact same_bind (size_same h) fun v _ => same_ok h
    | clear => exact same_bind (clear_same h) fun v hv => same_ok hv
    | compact => exact same_bind (compact_same h) fun v hv => same_ok hv
    | reserve n => exact same_bind (reserve_same h n) fun v hv => same_ok hv.1
    | canPut n => exact same_bind (canPut_same h n) fun v _ => same_ok h
    | put p => exact same_bind (put_same h p) fun v hv => same_ok hv
    | putFront p => exact same_bind (putFront_same h p) fun v hv => same_ok hv
    | get => exact same_bind (get_same h) fun v hv => same_ok hv
    | getLast => exact same_bind (getLast_same h) fun v hv => same_ok hv
    | drop n => exact same_bind (drop_same h n) fun v hv => same_ok hv
    | dropLast n => exact same_bind (dropLast_same h n) fun v hv => same_ok hv
    | dataAt i => exact same_bind (dataAt_same h i) fun v _ => same_ok h
    | flatten =>
      refine same_bind (flatten_same h) fun v hv => ?_
      obtain ⟨off, n, q⟩ := v
      dsimp only
      cases off with
      | none => exact same_ok hv
      | some off => exact same_skip fun ps _ => same_ok hv

theorem run_same (ops : List Op) : ∀ (r : Ring), Idx r → run r ops = Ring.run r ops := by
  induction ops with
  | nil => intros; rfl
  | cons op ops ih =>
    intro r h
    obtain ⟨h1, h2⟩ := exec_same h op
    simp only [run, Ring.run, h1]
    cases he : Ring.exec r op with
    | error e => rfl
    | ok v => simp only [ok_bind, ih v.2 (h2 v he)]

theorem new_idx (reserved max : Int) (free : Option Nat) {r : Ring} (e : newFull reserved max free = .ok r) : Idx r := by
  unfold newFull at e
  dsimp only at e
  split at e
  · cases hb : newBlock reserved [] with
    | error e' => rw [hb] at e; cases e
    | ok d =>
      rw [hb, ok_bind] at e
      injection e with e
      subst e
      have h0 : 0 ≤ reserved := by
        unfold newBlock at hb
        split at hb
        · cases hb
        · omega
      exact ⟨fun h => newBlock_nz hb h, h0, .inl ⟨rfl, rfl⟩⟩
  · injection e with e
    subst e
    exact ⟨fun h => absurd h (by simp), by simp, .inl ⟨rfl, rfl⟩⟩

end Verif.Ring.Debug
