import Verif.Proof.LogFormat

/-!
# What's true of the timestamp format whatever the threads do
-/

namespace Verif.LogFormat
open Verif.C
open Verif.Log (Ftime)

/-- It's one of those which were given to `gutil_log_set_timestamp_format`, or the default one. -/
def Known (h : List Event) (f : Str) : Prop := f = Log.Spec.ascii "%Y-%m-%d %H:%M:%S " ∨ ∃ u, .setting u (some f) ∈ h

/-- Addresses are those of formats which have been allocated, and formats are those which were given. -/
def Held (n : Nat) (h : List Event) : Pc → Prop
  | .setRead f | .setOld f => Known h f
  | .setCmp f p | .setDup f p => Known h f ∧ ∀ a, p = some a → a < n
  | .setCustom a old | .setFtime a old => a < n ∧ ∀ b, old = some b → b < n
  | .setFree old | .clrFree old => ∀ b, old = some b → b < n
  | .rdFirst p | .rdFormat p => ∀ a, p = .at a → a < n
  | _ => True

structure InvAny (s : State) : Prop where
  ptr : ∀ a, s.mem.ftime = .at a → a < s.mem.heap.length
  custom : ∀ a, s.mem.custom = some a → a < s.mem.heap.length
  heap : ∀ (a : Nat) f, s.mem.heap[a]? = some (some f) → Known s.hist f
  held : ∀ t, Held s.mem.heap.length s.hist (s.pc t)
  logged : ∀ t f, .logged t (some f) ∈ s.hist → Known s.hist f

theorem known_more {h : List Event} {f : Str} (l : List Event) (k : Known h f) : Known (h ++ l) f :=
  k.imp id (fun ⟨u, hu⟩ => ⟨u, List.mem_append.2 (.inl hu)⟩)

theorem held_more {n n' : Nat} {h : List Event} {pc : Pc} (l : List Event) (hn : n ≤ n') (k : Held n h pc) : Held n' (h ++ l) pc := by
  cases pc <;> simp only [Held] at k ⊢ <;> grind [known_more]

theorem chars_any {m : Mem} {p : Ftime} (h : ∀ a, p = .at a → a < m.heap.length) : (∃ t, chars m p = .ok t) ∨ chars m p = .error .useAfterFree :=
  chars_in h

theorem chars_known {s : State} (i : InvAny s) {p : Ftime} {f : Str} (h : chars s.mem p = .ok f) : Known s.hist f := by
  cases p with
  | default => cases h; exact .inl rfl
  | «at» a =>
    refine i.heap a f ?_
    unfold chars str at h
    dsimp only at h
    split at h <;> first | cases h | skip
    assumption

theorem gfree_any {h : Heap} {p : Option Nat} (hp : ∀ a, p = some a → a < h.length) :
    (∃ h', gfree h p = .ok h' ∧ h'.length = h.length ∧ ∀ (a : Nat) f, h'[a]? = some (some f) → h[a]? = some (some f)) ∨ gfree h p = .error .doubleFree := by
  cases p with
  | none => exact .inl ⟨h, rfl, rfl, fun _ _ h => h⟩
  | some a =>
    have := List.getElem?_eq_getElem (hp a rfl)
    unfold gfree
    dsimp only
    cases hv : h[a]'(hp a rfl) with
    | none => rw [hv] at this; rw [this]; exact .inr rfl
    | some t =>
      rw [hv] at this
      rw [this]
      refine .inl ⟨_, rfl, by simp, fun b f hb => ?_⟩
      rw [List.getElem?_set] at hb
      split at hb
      · split at hb <;> cases hb
      · exact hb

/-- One step of any thread -/
theorem next_any {s : State} (i : InvAny s) {t : Nat} (ht : s.pc t ≠ .idle) :
    (∃ m pc e, next s.mem (s.pc t) = .ok (m, pc, e) ∧ s.mem.heap.length ≤ m.heap.length ∧ (∀ a, m.ftime = .at a → a < m.heap.length) ∧
      (∀ a, m.custom = some a → a < m.heap.length) ∧ (∀ (a : Nat) f, m.heap[a]? = some (some f) → Known s.hist f) ∧ Held m.heap.length s.hist pc ∧
      ∀ f, e = some (.logged (some f)) → Known s.hist f) ∨
    next s.mem (s.pc t) = .error .useAfterFree ∨ next s.mem (s.pc t) = .error .doubleFree := by
  have hh := i.held t
  cases hpc : s.pc t with
  | idle => exact absurd hpc ht
  | setRead f => rw [hpc] at hh; exact .inl ⟨_, _, _, rfl, Nat.le_refl _, i.ptr, i.custom, i.heap, ⟨hh, i.custom⟩, fun _ h => by cases h⟩
  | setCmp f p =>
    rw [hpc] at hh
    cases p with
    | none => exact .inl ⟨_, _, _, rfl, Nat.le_refl _, i.ptr, i.custom, i.heap, hh.1, fun _ h => by cases h⟩
    | some a =>
      rcases chars_any (m := s.mem) (p := .at a) (fun b hb => by cases hb; exact hh.2 a rfl) with ⟨g, hg⟩ | hg
      · left
        have hg : str s.mem.heap a = .ok g := hg
        by_cases e : cmpBytes f g ≠ 0
        · exact ⟨_, .setOld f, none, by rw [next, hg, ok_bind, if_pos e], Nat.le_refl _, i.ptr, i.custom, i.heap, hh.1, fun _ h => by cases h⟩
        · exact ⟨_, .idle, some .set, by rw [next, hg, ok_bind, if_neg e], Nat.le_refl _, i.ptr, i.custom, i.heap, trivial, fun _ h => by cases h⟩
      · have hg : str s.mem.heap a = .error .useAfterFree := hg
        exact .inr (.inl (by rw [next, hg, error_bind]))
  | setOld f => rw [hpc] at hh; exact .inl ⟨_, _, _, rfl, Nat.le_refl _, i.ptr, i.custom, i.heap, ⟨hh, i.custom⟩, fun _ h => by cases h⟩
  | setDup f old =>
    rw [hpc] at hh
    refine .inl ⟨_, _, _, rfl, by simp, fun a ha => ?_, fun a ha => ?_, fun a g hg => ?_, ⟨by simp, fun b hb => ?_⟩, fun _ h => by cases h⟩
    · have := i.ptr a ha; simp; omega
    · have := i.custom a ha; simp; omega
    · dsimp only at hg
      rw [List.getElem?_append] at hg
      split at hg
      · exact i.heap a g hg
      · rw [List.getElem?_singleton] at hg
        split at hg
        · cases hg; exact hh.1
        · cases hg
    · have := hh.2 b hb; simp; omega
  | setCustom a old =>
    rw [hpc] at hh
    exact .inl ⟨_, _, _, rfl, Nat.le_refl _, i.ptr, (fun b hb => by cases hb; exact hh.1), i.heap, hh, fun _ h => by cases h⟩
  | setFtime a old =>
    rw [hpc] at hh
    exact .inl ⟨_, _, _, rfl, Nat.le_refl _, (fun b hb => by cases hb; exact hh.1), i.custom, i.heap, hh.2, fun _ h => by cases h⟩
  | setFree old =>
    rw [hpc] at hh
    rcases gfree_any hh with ⟨h', h1, h2, h3⟩ | h1
    · refine .inl ⟨{ s.mem with heap := h' }, .idle, some .set, by rw [next, h1, ok_bind], by simp [h2], ?_, ?_, fun a f hf => i.heap a f (h3 a f hf), trivial, fun _ h => by cases h⟩
      · intro a ha; dsimp only; rw [h2]; exact i.ptr a ha
      · intro a ha; dsimp only; rw [h2]; exact i.custom a ha
    · exact .inr (.inr (by rw [next, h1, error_bind]))
  | clrTest =>
    left
    by_cases e : s.mem.custom.isSome = true
    · exact ⟨_, .clrRead, none, by rw [next, if_pos e], Nat.le_refl _, i.ptr, i.custom, i.heap, trivial, fun _ h => by cases h⟩
    · exact ⟨_, .idle, some .set, by rw [next, if_neg e], Nat.le_refl _, i.ptr, i.custom, i.heap, trivial, fun _ h => by cases h⟩
  | clrRead => exact .inl ⟨_, _, _, rfl, Nat.le_refl _, i.ptr, i.custom, i.heap, i.custom, fun _ h => by cases h⟩
  | clrFree p =>
    rw [hpc] at hh
    rcases gfree_any hh with ⟨h', h1, h2, h3⟩ | h1
    · refine .inl ⟨{ s.mem with heap := h' }, .clrCustom, none, by rw [next, h1, ok_bind], by simp [h2], ?_, ?_, fun a f hf => i.heap a f (h3 a f hf), trivial, fun _ h => by cases h⟩
      · intro a ha; dsimp only; rw [h2]; exact i.ptr a ha
      · intro a ha; dsimp only; rw [h2]; exact i.custom a ha
    · exact .inr (.inr (by rw [next, h1, error_bind]))
  | clrCustom => exact .inl ⟨_, _, _, rfl, Nat.le_refl _, i.ptr, (fun b hb => by cases hb), i.heap, trivial, fun _ h => by cases h⟩
  | clrFtime => exact .inl ⟨_, _, _, rfl, Nat.le_refl _, (fun b hb => by cases hb), i.custom, i.heap, trivial, fun _ h => by cases h⟩
  | rdPtr => exact .inl ⟨_, _, _, rfl, Nat.le_refl _, i.ptr, i.custom, i.heap, i.ptr, fun _ h => by cases h⟩
  | rdFirst p =>
    rw [hpc] at hh
    rcases chars_any hh with ⟨g, hg⟩ | hg
    · left
      by_cases e : g ≠ []
      · exact ⟨_, .rdAgain, none, by rw [next, hg, ok_bind, if_pos e], Nat.le_refl _, i.ptr, i.custom, i.heap, trivial, fun _ h => by cases h⟩
      · exact ⟨_, .idle, some (.logged none), by rw [next, hg, ok_bind, if_neg e], Nat.le_refl _, i.ptr, i.custom, i.heap, trivial, fun _ h => by cases h⟩
    · exact .inr (.inl (by rw [next, hg, error_bind]))
  | rdAgain => exact .inl ⟨_, _, _, rfl, Nat.le_refl _, i.ptr, i.custom, i.heap, i.ptr, fun _ h => by cases h⟩
  | rdFormat p =>
    rw [hpc] at hh
    rcases chars_any hh with ⟨g, hg⟩ | hg
    · refine .inl ⟨_, .idle, some (.logged (some g)), by rw [next, hg, ok_bind], Nat.le_refl _, i.ptr, i.custom, i.heap, trivial, fun f h => ?_⟩
      cases h
      exact chars_known i hg
    · exact .inr (.inl (by rw [next, hg, error_bind]))

theorem begin_any {s : State} (i : InvAny s) {t : Nat} {pc : Pc} {e : Event} (h : Held s.mem.heap.length (s.hist ++ [e]) pc) (he : ∀ u f, e ≠ .logged u f) :
    InvAny { s.goto t pc with hist := s.hist ++ [e] } := by
  refine ⟨i.ptr, i.custom, fun a f hf => known_more _ (i.heap a f hf), fun u => ?_, fun u f hf => ?_⟩
  · dsimp only
    by_cases eu : u = t
    · rw [eu, goto_same]; exact h
    · rw [goto_other s _ eu]; exact held_more _ (Nat.le_refl _) (i.held u)
  · dsimp only at hf
    rcases List.mem_append.1 hf with hf | hf
    · exact known_more _ (i.logged u f hf)
    · exact absurd (List.mem_singleton.1 hf).symm (he u _)

theorem step_any {s : State} (i : InvAny s) {a : Act} (ha : Allowed s a) :
    (∃ s', step s a = .ok s' ∧ InvAny s') ∨ step s a = .error .useAfterFree ∨ step s a = .error .doubleFree := by
  cases a with
  | set t f =>
    cases f with
    | none => exact .inl ⟨_, rfl, begin_any i trivial (fun _ _ h => by cases h)⟩
    | some f => exact .inl ⟨_, rfl, begin_any i (.inr ⟨t, by simp⟩) (fun _ _ h => by cases h)⟩
  | log t => exact .inl ⟨_, rfl, begin_any i trivial (fun _ _ h => by cases h)⟩
  | next t =>
    rcases next_any i ha with ⟨m, pc, e, h1, h2, h3, h4, h5, h6, h7⟩ | h | h
    · refine .inl ⟨{ s.goto t pc with mem := m, hist := s.hist ++ ended t e }, by rw [step, h1, ok_bind], h3, h4, fun a f hf => known_more _ (h5 a f hf), fun u => ?_, fun u f hf => ?_⟩
      · dsimp only
        by_cases eu : u = t
        · rw [eu, goto_same]; exact held_more _ (Nat.le_refl _) h6
        · rw [goto_other s _ eu]; exact held_more _ h2 (i.held u)
      · dsimp only at hf ⊢
        rcases List.mem_append.1 hf with hf | hf
        · exact known_more _ (i.logged u f hf)
        · refine known_more _ (h7 f ?_)
          rcases e with _ | (_ | x) <;> simp [ended] at hf
          rw [hf.2]
    · exact .inr (.inl (by rw [step, h, error_bind]))
    · exact .inr (.inr (by rw [step, h, error_bind]))

theorem reach_any {s : State} (h : AnyReach s) : InvAny s := by
  induction h with
  | init => exact ⟨(fun _ h => by cases h), (fun _ h => by cases h), (fun a f h => by simp [init] at h), fun _ => trivial, (fun t f h => by simp [init] at h)⟩
  | step _ ha _ hs ih =>
    rcases step_any ih ha with ⟨s', h1, h2⟩ | h1 | h1 <;> rw [h1] at hs <;> cases hs
    exact h2

end Verif.LogFormat
