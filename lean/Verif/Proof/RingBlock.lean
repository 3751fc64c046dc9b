import Verif.Proof.RingMem

namespace Verif.Ring
open Verif.C Spec

/-- The memory is the same block and has the same contents. -/
def Kept (r r' : Ring) : Prop := r'.data = r.data ∧ r'.allocs = r.allocs

theorem Kept.refl (r : Ring) : Kept r r := ⟨rfl, rfl⟩
theorem Kept.trans {a b c : Ring} (h1 : Kept a b) (h2 : Kept b c) : Kept a c := ⟨h2.1.trans h1.1, h2.2.trans h1.2⟩

theorem callFree_kept (r : Ring) (p : Ptr) : Kept r (callFree r p) := by
  unfold callFree
  split <;> exact ⟨rfl, rfl⟩

theorem get_kept {r r' : Ring} {p : Ptr} (h : get r = .ok (p, r')) : Kept r r' := by
  unfold get at h
  split at h
  · obtain ⟨_, _, h⟩ := bind_eq h
    obtain ⟨_, _, h⟩ := bind_eq h
    split at h
    · cases h; exact ⟨rfl, rfl⟩
    · obtain ⟨_, _, h⟩ := bind_eq h
      split at h <;> cases h <;> exact ⟨rfl, rfl⟩
  · cases h; exact .refl _

theorem getLast_kept {r r' : Ring} {p : Ptr} (h : getLast r = .ok (p, r')) : Kept r r' := by
  unfold getLast at h
  split at h
  · obtain ⟨_, _, h⟩ := bind_eq h
    obtain ⟨_, _, h⟩ := bind_eq h
    obtain ⟨_, _, h⟩ := bind_eq h
    split at h <;> cases h <;> exact ⟨rfl, rfl⟩
  · cases h; exact .refl _

theorem clearLoop_kept (n : Nat) : ∀ {r r' : Ring}, clearLoop n r = .ok r' → Kept r r' := by
  induction n with
  | zero => intro r r' h; cases h; exact .refl _
  | succ n ih =>
    intro r r' h
    unfold clearLoop at h
    obtain ⟨⟨p, r1⟩, h1, h⟩ := bind_eq h
    obtain ⟨_, _, h⟩ := bind_eq h
    have h1 := get_kept h1
    split at h
    · exact (h1.trans (callFree_kept _ _)).trans (ih h)
    · cases h; exact h1.trans (callFree_kept _ _)

theorem clear_kept {r r' : Ring} (h : clear r = .ok r') : Kept r r' := by
  unfold clear at h
  obtain ⟨_, _, h⟩ := bind_eq h
  split at h
  · split at h
    · exact clearLoop_kept _ h
    · cases h; exact ⟨rfl, rfl⟩
  · cases h; exact .refl _

theorem dropLoop_kept (n : Nat) : ∀ {r r' : Ring}, dropLoop n r = .ok r' → Kept r r' := by
  induction n with
  | zero => intro r r' h; cases h; exact .refl _
  | succ n ih =>
    intro r r' h
    unfold dropLoop at h
    obtain ⟨_, _, h⟩ := bind_eq h
    obtain ⟨_, _, h⟩ := bind_eq h
    obtain ⟨_, _, h⟩ := bind_eq h
    have h1 := callFree_kept r
    have h2 := ih h
    exact ⟨h2.1.trans (h1 _).1, h2.2.trans (h1 _).2⟩

theorem drop_kept {r r' : Ring} {n k : Int} (h : drop r n = .ok (k, r')) : Kept r r' := by
  unfold drop at h
  split at h
  · obtain ⟨_, _, h⟩ := bind_eq h
    split at h
    · split at h
      · obtain ⟨_, h1, h⟩ := bind_eq h
        cases h
        exact clear_kept h1
      · split at h
        · obtain ⟨_, h1, h⟩ := bind_eq h
          cases h
          exact dropLoop_kept _ h1
        · obtain ⟨_, _, h⟩ := bind_eq h
          obtain ⟨_, _, h⟩ := bind_eq h
          cases h; exact ⟨rfl, rfl⟩
    · cases h; exact .refl _
  · cases h; exact .refl _

theorem dropLastLoop_kept (n : Nat) : ∀ {r r' : Ring}, dropLastLoop n r = .ok r' → Kept r r' := by
  induction n with
  | zero => intro r r' h; cases h; exact .refl _
  | succ n ih =>
    intro r r' h
    unfold dropLastLoop at h
    obtain ⟨_, _, h⟩ := bind_eq h
    obtain ⟨e, _, h⟩ := bind_eq h
    obtain ⟨p, _, h⟩ := bind_eq h
    have := callFree_kept { r with fin := e } p
    exact Kept.trans ⟨this.1, this.2⟩ (ih h)

theorem dropLast_kept {r r' : Ring} {n k : Int} (h : dropLast r n = .ok (k, r')) : Kept r r' := by
  unfold dropLast at h
  split at h
  · obtain ⟨_, _, h⟩ := bind_eq h
    split at h
    · split at h
      · obtain ⟨_, h1, h⟩ := bind_eq h
        cases h
        exact clear_kept h1
      · split at h
        · obtain ⟨_, h1, h⟩ := bind_eq h
          cases h
          exact dropLastLoop_kept _ h1
        · obtain ⟨_, _, h⟩ := bind_eq h
          obtain ⟨_, _, h⟩ := bind_eq h
          cases h; exact ⟨rfl, rfl⟩
    · cases h; exact .refl _
  · cases h; exact .refl _

theorem setMaxSize_kept {r r' : Ring} {n : Int} (h : setMaxSize r n = .ok r') : Kept r r' := by
  unfold setMaxSize at h
  dsimp only at h
  generalize (if n < 0 then -1 else n) = m at h
  split at h
  · obtain ⟨sz, _, h⟩ := bind_eq h
    split at h
    · obtain ⟨⟨_, r2⟩, h2, h⟩ := bind_eq h
      obtain ⟨r3, h3, h⟩ := bind_eq h
      cases h3
      cases h
      have := drop_kept h2
      exact ⟨this.1, this.2⟩
    · obtain ⟨r3, h3, h⟩ := bind_eq h
      cases h3
      cases h; exact ⟨rfl, rfl⟩
  · cases h; exact .refl _

theorem unrefLoop_kept (n : Nat) : ∀ {r r' : Ring} {i : Int}, unrefLoop n i r = .ok r' → Kept r r' := by
  induction n with
  | zero => intro r r' i h; cases h; exact .refl _
  | succ n ih =>
    intro r r' i h
    unfold unrefLoop at h
    obtain ⟨_, _, h⟩ := bind_eq h
    obtain ⟨_, _, h⟩ := bind_eq h
    obtain ⟨_, _, h⟩ := bind_eq h
    exact (callFree_kept _ _).trans (ih h)

theorem exec_kept {r r' : Ring} {op : Op} {o : Out} (h : exec r op = .ok (o, r')) (h1 : r'.refCount ≠ 0)
    (hop : op.moves = false) : Kept r r' := by
  have hrc : ¬ r.refCount = 0 := by
    intro e
    unfold exec at h
    rw [if_pos e] at h
    cases h
  cases op with
  | put p => cases hop
  | putFront p => cases hop
  | reserve n => cases hop
  | compact => cases hop
  | flatten => cases hop
  | ref => simp only [exec, hrc, if_false] at h; cases h; exact ⟨rfl, rfl⟩
  | unref =>
    simp only [exec, hrc, if_false] at h
    obtain ⟨r1, h2, h⟩ := bind_eq h
    cases h
    unfold unref at h2
    split at h2
    · have fin : ∀ x : Ring, (Except.ok { x with refCount := 0 } : M Ring) = .ok r' → False := by
        intro x e
        cases e
        exact h1 rfl
      split at h2
      · obtain ⟨_, _, h2⟩ := bind_eq h2
        obtain ⟨_, _, h2⟩ := bind_eq h2
        exact (fin _ h2).elim
      · rw [ok_bind] at h2
        exact (fin _ h2).elim
    · cases h2; exact ⟨rfl, rfl⟩
  | setFreeFunc f => simp only [exec, hrc, if_false] at h; cases h; exact ⟨rfl, rfl⟩
  | maxSize => simp only [exec, hrc, if_false] at h; cases h; exact ⟨rfl, rfl⟩
  | setMaxSize n =>
    simp only [exec, hrc, if_false] at h
    obtain ⟨_, h2, h⟩ := bind_eq h
    cases h
    exact setMaxSize_kept h2
  | size =>
    simp only [exec, hrc, if_false] at h
    obtain ⟨_, h2, h⟩ := bind_eq h
    cases h
    exact .refl _
  | clear =>
    simp only [exec, hrc, if_false] at h
    obtain ⟨_, h2, h⟩ := bind_eq h
    cases h
    exact clear_kept h2
  | canPut n =>
    simp only [exec, hrc, if_false] at h
    obtain ⟨_, h2, h⟩ := bind_eq h
    cases h
    exact .refl _
  | get =>
    simp only [exec, hrc, if_false] at h
    obtain ⟨⟨_, _⟩, h2, h⟩ := bind_eq h
    cases h
    exact get_kept h2
  | getLast =>
    simp only [exec, hrc, if_false] at h
    obtain ⟨⟨_, _⟩, h2, h⟩ := bind_eq h
    cases h
    exact getLast_kept h2
  | drop n =>
    simp only [exec, hrc, if_false] at h
    obtain ⟨⟨_, _⟩, h2, h⟩ := bind_eq h
    cases h
    exact drop_kept h2
  | dropLast n =>
    simp only [exec, hrc, if_false] at h
    obtain ⟨⟨_, _⟩, h2, h⟩ := bind_eq h
    cases h
    exact dropLast_kept h2
  | dataAt i =>
    simp only [exec, hrc, if_false] at h
    obtain ⟨_, h2, h⟩ := bind_eq h
    cases h
    exact .refl _

theorem run_alive {ops : List Op} : ∀ {r r' : Ring} {os : List Out}, run r ops = .ok (os, r') → r'.refCount ≠ 0 → r.refCount ≠ 0 := by
  induction ops with
  | nil => intro r r' os h h1; cases h; exact h1
  | cons op ops ih =>
    intro r r' os h h1 e
    unfold run at h
    obtain ⟨⟨o, r1⟩, h2, h⟩ := bind_eq h
    unfold exec at h2
    rw [if_pos e] at h2
    cases h2

theorem run_kept {ops : List Op} (hop : ∀ op ∈ ops, op.moves = false) :
    ∀ {r r' : Ring} {os : List Out}, run r ops = .ok (os, r') → r'.refCount ≠ 0 → Kept r r' := by
  induction ops with
  | nil => intro r r' os h _; cases h; exact .refl _
  | cons op ops ih =>
    intro r r' os h h1
    unfold run at h
    obtain ⟨⟨o, r1⟩, h2, h⟩ := bind_eq h
    obtain ⟨⟨os', r2⟩, h3, h⟩ := bind_eq h
    cases h
    have h4 := run_alive h3 h1
    exact (exec_kept h2 h4 (hop op List.mem_cons_self)).trans (ih (fun o ho => hop o (List.mem_cons_of_mem _ ho)) h3 h1)

theorem flatten_refs {r r' : Ring} {o : Option Int} {k : Int} (h : flatten r = .ok (o, k, r')) : r'.refCount = r.refCount := by
  unfold flatten at h
  obtain ⟨_, _, h⟩ := bind_eq h
  split at h
  · split at h
    · obtain ⟨_, _, h⟩ := bind_eq h
      obtain ⟨_, _, h⟩ := bind_eq h
      obtain ⟨_, _, h⟩ := bind_eq h
      obtain ⟨_, _, h⟩ := bind_eq h
      obtain ⟨_, _, h⟩ := bind_eq h
      obtain ⟨_, h1, h⟩ := bind_eq h
      cases h1
      cases h
      rfl
    · rw [ok_bind] at h
      cases h
      rfl
  · cases h
    rfl

/-- The state after a sequence of calls which doesn't fail -/
theorem mem_rel (ops : List Op) : ∀ (r : Ring) (m : Mem), (Place r m ∨ RelDead r m.buf) → m.Allowed ops → ∀ {os : List Out} {r' : Ring},
    run r ops = .ok (os, r') → Rel r' { m.buf.final ops with short := true } ∨ RelDead r' (m.buf.final ops) := by
  induction ops with
  | nil =>
    intro r m h _ os r' hr
    cases hr
    rcases h with h | h
    · exact .inl h.rel
    · exact .inr h
  | cons op ops ih =>
    intro r m h ha os r' hr
    obtain ⟨hp, ha⟩ := ha
    unfold run at hr
    obtain ⟨⟨o, r1⟩, hr1, hr⟩ := bind_eq hr
    obtain ⟨⟨os1, r2⟩, hr2, hr⟩ := bind_eq hr
    cases hr
    rcases h with h | h
    · rcases mem_step h hp with ⟨h1, h2⟩ | ⟨o', m', r3, h1, h2, h3⟩
      · rw [hr1] at h2; cases h2
      · rw [hr1] at h2
        cases h2
        rw [h1] at ha
        obtain ⟨_, hb⟩ := next_buf h1
        have := ih r1 m' h3 ha hr2
        rw [hb] at this
        exact this
    · have h1 : 0 < m.buf.refs := hp.1
      have := h.1
      omega

end Verif.Ring
