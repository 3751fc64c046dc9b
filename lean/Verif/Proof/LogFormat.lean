import Verif.Model.LogFormat

/-!
# Invariants of the timestamp format which several threads use and change
-/

namespace Verif.LogFormat
open Verif.C
open Verif.Log (Ftime)

theorem cmp_zero : ∀ a b : Str, cmpBytes a b = 0 ↔ a = b := by
  intro a
  induction a with
  | nil => intro b; cases b <;> simp [cmpBytes]
  | cons x a ih =>
    intro b
    cases b with
    | nil => simp [cmpBytes]
    | cons y b =>
      rw [cmpBytes]
      by_cases e : x = y
      · rw [if_pos e, ih]
        simp [e]
      · rw [if_neg e]
        simp only [List.cons.injEq, e, false_and, iff_false]
        split <;> decide

/-! ## History -/

theorem pending_snoc {t : Nat} {h : List Event} {e : Event} : Pending t (h ++ [e]) ↔ (∃ f, e = .setting t f) ∨ (Pending t h ∧ e ≠ .set t) := by
  constructor
  · rintro ⟨f, a, b, hh, hn⟩
    rcases List.eq_nil_or_concat b with rfl | ⟨b', e', rfl⟩
    · have := List.append_inj' hh rfl
      exact .inl ⟨f, by injection this.2⟩
    · rw [List.concat_eq_append] at hh hn
      rw [← List.cons_append, ← List.append_assoc] at hh
      obtain ⟨h1, h2⟩ := List.append_inj' hh rfl
      injection h2 with h2
      subst h2
      simp only [List.mem_append, List.mem_singleton, not_or] at hn
      exact .inr ⟨⟨f, a, b', h1, hn.1⟩, fun e => hn.2 e.symm⟩
  · rintro (⟨f, rfl⟩ | ⟨⟨f, a, b, rfl, hn⟩, he⟩)
    · exact ⟨f, h, [], rfl, by simp⟩
    · exact ⟨f, a, b ++ [e], by simp, by simp [hn, Ne.symm he]⟩

theorem pending_before {t : Nat} : ∀ {b a : List Event}, (∀ u f, Event.setting u f ∉ b) → Pending t (a ++ b) → Pending t a := by
  intro b
  induction b with
  | nil => intro a _ h; simpa using h
  | cons e b ih =>
    intro a hn h
    have h := ih (a := a ++ [e]) (fun u f hm => hn u f (List.mem_cons_of_mem _ hm)) (by simpa using h)
    rw [pending_snoc] at h
    rcases h with ⟨f, rfl⟩ | ⟨h, _⟩
    · exact absurd (List.mem_cons_self) (hn t f)
    · exact h

theorem format_snoc (h : List Event) (e : Event) : formatOf (h ++ [e]) = match e with | .setting _ f => f | _ => formatOf h := by
  unfold formatOf
  rw [List.foldl_append]
  rfl

theorem format_before : ∀ {b a : List Event}, (∀ u f, Event.setting u f ∉ b) → formatOf (a ++ b) = formatOf a := by
  intro b
  induction b with
  | nil => intro a _; simp
  | cons e b ih =>
    intro a hn
    have h := ih (a := a ++ [e]) (fun u f hm => hn u f (List.mem_cons_of_mem _ hm))
    rw [format_snoc] at h
    rw [show a ++ e :: b = a ++ [e] ++ b by simp, h]
    cases e with
    | setting u f => exact absurd (List.mem_cons_self) (hn u f)
    | _ => rfl

theorem during_append {t : Nat} {h a b l : List Event} (hd : During t h a b) (hl : .logging t ∉ l) : During t (h ++ l) a (b ++ l) :=
  ⟨by rw [hd.1]; simp, by simp [hd.2, hl]⟩

theorem during_unique {t : Nat} {h a b a' b' : List Event} (h1 : During t h a b) (h2 : During t h a' b') : a = a' ∧ b = b' := by
  obtain ⟨rfl, hb⟩ := h1
  obtain ⟨e, hb'⟩ := h2
  rcases List.append_eq_append_iff.1 e with ⟨c, h3, h4⟩ | ⟨c, h3, h4⟩
  · cases c with
    | nil => simp at h3 h4; exact ⟨h3.symm, h4⟩
    | cons x c =>
      simp at h4
      exact absurd (by rw [h4.2]; simp) hb
  · cases c with
    | nil => simp at h3 h4; exact ⟨h3, h4.symm⟩
    | cons x c =>
      simp at h4
      exact absurd (by rw [h4.2]; simp) hb'

theorem overlap_append {a b : List Event} (l : List Event) (h : Overlap a b) : Overlap a (b ++ l) :=
  h.imp id (fun ⟨u, f, h⟩ => ⟨u, f, List.mem_append.2 (.inl h)⟩)

/-! ## Memory -/

/-- How many formats are allocated -/
def Mem.live (m : Mem) : Nat := m.heap.countP Option.isSome

/-- The format has been set, and nobody's changing it. -/
def Clean (m : Mem) : Option Str → Prop
  | some f => ∃ a, m.custom = some a ∧ m.ftime = .at a ∧ m.heap[a]? = some (some f) ∧ m.live = 1
  | none => m.custom = none ∧ m.ftime = .default ∧ m.live = 0

/-- There's a new format, and maybe an old one. -/
def Two (m : Mem) (f : Str) (a : Nat) (old : Option Nat) : Prop :=
  m.heap[a]? = some (some f) ∧
  match old with
  | none => m.live = 1
  | some b => b ≠ a ∧ (∃ g, m.heap[b]? = some (some g)) ∧ m.live = 2

/-- The thread is in the middle of changing the format to `new`, alone. -/
def Doing (m : Mem) (new : Option Str) : Pc → Prop
  | .setRead f | .setOld f => new = some f ∧ ∃ cur, Clean m cur
  | .setCmp f p | .setDup f p => new = some f ∧ p = m.custom ∧ ∃ cur, Clean m cur
  | .setCustom a old => ∃ f, new = some f ∧ Two m f a old
  | .setFtime a old => ∃ f, new = some f ∧ Two m f a old ∧ m.custom = some a
  | .setFree old => ∃ f a, new = some f ∧ Two m f a old ∧ m.custom = some a ∧ m.ftime = .at a
  | .clrTest => new = none ∧ ∃ cur, Clean m cur
  | .clrRead => new = none ∧ ∃ g, Clean m (some g)
  | .clrFree p => new = none ∧ p = m.custom ∧ ∃ g, Clean m (some g)
  | .clrCustom => new = none ∧ m.live = 0
  | .clrFtime => new = none ∧ m.live = 0 ∧ m.custom = none
  | _ => False

/-- The pointer is or was valid. -/
def In (m : Mem) (p : Ftime) : Prop := ∀ a, p = .at a → a < m.heap.length

/-- The thread is in `gutil_log_set_timestamp_format`. -/
def setter : Pc → Bool
  | .idle | .rdPtr | .rdFirst _ | .rdAgain | .rdFormat _ => false
  | _ => true

/-- The thread is logging something. -/
def reader : Pc → Bool
  | .rdPtr | .rdFirst _ | .rdAgain | .rdFormat _ => true
  | _ => false

/-- What's known about the thread which is logging something -/
def Reading (m : Mem) (a b : List Event) : Pc → Prop
  | .rdFirst p => In m p ∧ (Overlap a b ∨ p = m.ftime)
  | .rdAgain => Overlap a b ∨ used (formatOf a) ≠ none
  | .rdFormat p => In m p ∧ (Overlap a b ∨ p = m.ftime ∧ used (formatOf a) ≠ none)
  | _ => True

structure Inv (s : State) : Prop where
  pend : ∀ t, Pending t s.hist ↔ setter (s.pc t) = true
  clean : (∀ t, setter (s.pc t) = false) → Clean s.mem (formatOf s.hist)
  doing : ∀ t, setter (s.pc t) = true → Doing s.mem (formatOf s.hist) (s.pc t) ∧ ∀ u, u ≠ t → setter (s.pc u) = false
  ptr : In s.mem s.mem.ftime
  reads : ∀ t, reader (s.pc t) = true → ∃ a b, During t s.hist a b ∧ Reading s.mem a b (s.pc t)
  done : ∀ a b c t x, s.hist = a ++ .logging t :: (b ++ .logged t x :: c) → .logging t ∉ b → ¬ Overlap a b → x = used (formatOf a)

theorem goto_same (s : State) (t : Nat) (pc : Pc) : (s.goto t pc).pc t = pc := by simp [State.goto]

theorem goto_other (s : State) {t u : Nat} (pc : Pc) (h : u ≠ t) : (s.goto t pc).pc u = s.pc u := by simp [State.goto, h]

theorem inv_init : Inv init := by
  refine ⟨fun t => ?_, fun _ => ⟨rfl, rfl, rfl⟩, fun t h => ?_, fun a h => ?_, fun t h => ?_, fun a b c t x h => ?_⟩
  · constructor
    · rintro ⟨f, a, b, h, _⟩
      simp [init] at h
    · intro h
      cases h
  · cases h
  · cases h
  · cases h
  · simp [init] at h

theorem live_set {m : Mem} {a : Nat} {g : Str} (h : m.heap[a]? = some (some g)) : (m.heap.set a none).countP Option.isSome = m.live - 1 := by
  obtain ⟨ha, hae⟩ := List.getElem?_eq_some_iff.mp h
  rw [List.countP_set ha, hae]
  simp [Mem.live]

theorem clean_old {m : Mem} {cur : Option Str} (h : Clean m cur) (f : Str) : Two { m with heap := m.heap ++ [some f] } f m.heap.length m.custom := by
  refine ⟨by simp, ?_⟩
  cases cur with
  | none =>
    rw [h.1]
    have h1 := h.2.2
    unfold Mem.live at h1 ⊢
    dsimp only
    rw [List.countP_append, h1]
    rfl
  | some g =>
    obtain ⟨a, h1, _, h2, h3⟩ := h
    have ha := (List.getElem?_eq_some_iff.mp h2).1
    rw [h1]
    refine ⟨by omega, ⟨g, by dsimp only; rw [List.getElem?_append_left ha]; exact h2⟩, ?_⟩
    unfold Mem.live at h3 ⊢
    dsimp only
    rw [List.countP_append, h3]
    rfl

/-- The thread which is changing the format goes on. -/
theorem next_set {m : Mem} {new : Option Str} {pc : Pc} (h : Doing m new pc) (hin : In m m.ftime) :
    ∃ m' pc' e, next m pc = .ok (m', pc', e) ∧ m.heap.length ≤ m'.heap.length ∧ In m' m'.ftime ∧
      (setter pc' = true ∧ e = none ∧ Doing m' new pc' ∨ pc' = .idle ∧ e = some .set ∧ Clean m' new) := by
  cases pc with
  | idle => cases h
  | rdPtr => cases h
  | rdFirst p => cases h
  | rdAgain => cases h
  | rdFormat p => cases h
  | setRead f => exact ⟨_, _, _, rfl, Nat.le_refl _, hin, .inl ⟨rfl, rfl, h.1, rfl, h.2⟩⟩
  | setCmp f p =>
    obtain ⟨h1, h2, cur, h3⟩ := h
    cases p with
    | none => exact ⟨_, _, _, rfl, Nat.le_refl _, hin, .inl ⟨rfl, rfl, h1, cur, h3⟩⟩
    | some a =>
      cases cur with
      | none => rw [h3.1] at h2; cases h2
      | some g =>
        obtain ⟨a', h4, h5, h6, h7⟩ := h3
        rw [h4] at h2
        cases h2
        have hs : str m.heap a = .ok g := by unfold str; rw [h6]
        by_cases e : cmpBytes f g = 0
        · refine ⟨m, .idle, some .set, by rw [next, hs, ok_bind, if_neg (by rw [e]; decide)], Nat.le_refl _, hin, .inr ⟨rfl, rfl, ?_⟩⟩
          rw [h1, (cmp_zero f g).1 e]
          exact ⟨a, h4, h5, h6, h7⟩
        · exact ⟨m, .setOld f, none, by rw [next, hs, ok_bind, if_pos e], Nat.le_refl _, hin, .inl ⟨rfl, rfl, h1, some g, a, h4, h5, h6, h7⟩⟩
  | setOld f => exact ⟨_, _, _, rfl, Nat.le_refl _, hin, .inl ⟨rfl, rfl, h.1, rfl, h.2⟩⟩
  | setDup f old =>
    obtain ⟨h1, h2, cur, h3⟩ := h
    refine ⟨_, _, _, rfl, by simp, fun a ha => ?_, .inl ⟨rfl, rfl, f, h1, ?_⟩⟩
    · have := hin a ha
      simp
      omega
    · rw [h2]
      exact clean_old h3 f
  | setCustom a old =>
    obtain ⟨f, h1, h2⟩ := h
    exact ⟨_, _, _, rfl, Nat.le_refl _, hin, .inl ⟨rfl, rfl, f, h1, h2, rfl⟩⟩
  | setFtime a old =>
    obtain ⟨f, h1, h2, h3⟩ := h
    refine ⟨_, _, _, rfl, Nat.le_refl _, fun b hb => ?_, .inl ⟨rfl, rfl, f, a, h1, h2, h3, rfl⟩⟩
    cases hb
    exact (List.getElem?_eq_some_iff.mp h2.1).1
  | setFree old =>
    obtain ⟨f, a, h1, ⟨h2, h3⟩, h4, h5⟩ := h
    cases old with
    | none =>
      refine ⟨m, .idle, some .set, rfl, Nat.le_refl _, hin, .inr ⟨rfl, rfl, ?_⟩⟩
      rw [h1]
      exact ⟨a, h4, h5, h2, h3⟩
    | some b =>
      obtain ⟨h6, ⟨g, h7⟩, h8⟩ := h3
      have hf : gfree m.heap (some b) = .ok (m.heap.set b none) := by unfold gfree; dsimp only; rw [h7]
      refine ⟨{ m with heap := m.heap.set b none }, .idle, some .set, by rw [next, hf, ok_bind], by simp, fun x hx => by simpa using hin x hx, .inr ⟨rfl, rfl, ?_⟩⟩
      rw [h1]
      refine ⟨a, h4, h5, ?_, ?_⟩
      · dsimp only
        rw [List.getElem?_set, if_neg h6]
        exact h2
      · show (m.heap.set b none).countP Option.isSome = 1
        rw [live_set h7, h8]
  | clrTest =>
    obtain ⟨h1, cur, h2⟩ := h
    cases cur with
    | none =>
      refine ⟨m, .idle, some .set, by rw [next, if_neg (by rw [h2.1]; decide)], Nat.le_refl _, hin, .inr ⟨rfl, rfl, ?_⟩⟩
      rw [h1]
      exact h2
    | some g =>
      have hc : m.custom.isSome = true := by obtain ⟨a, h3, _⟩ := h2; rw [h3]; rfl
      exact ⟨m, .clrRead, none, by rw [next, if_pos hc], Nat.le_refl _, hin, .inl ⟨rfl, rfl, h1, g, h2⟩⟩
  | clrRead => exact ⟨_, _, _, rfl, Nat.le_refl _, hin, .inl ⟨rfl, rfl, h.1, rfl, h.2⟩⟩
  | clrFree p =>
    obtain ⟨h1, h2, g, a, h3, h4, h5, h6⟩ := h
    rw [h3] at h2
    subst h2
    have hf : gfree m.heap (some a) = .ok (m.heap.set a none) := by unfold gfree; dsimp only; rw [h5]
    refine ⟨{ m with heap := m.heap.set a none }, .clrCustom, none, by rw [next, hf, ok_bind], by simp, fun x hx => by simpa using hin x hx, .inl ⟨rfl, rfl, h1, ?_⟩⟩
    show (m.heap.set a none).countP Option.isSome = 0
    rw [live_set h5, h6]
  | clrCustom => exact ⟨_, _, _, rfl, Nat.le_refl _, hin, .inl ⟨rfl, rfl, h.1, h.2, rfl⟩⟩
  | clrFtime =>
    refine ⟨_, _, _, rfl, Nat.le_refl _, (fun a ha => by cases ha), .inr ⟨rfl, rfl, ?_⟩⟩
    rw [h.1]
    exact ⟨h.2.2, rfl, h.2.1⟩

/-- What the pointer points to if nobody is changing the format -/
theorem chars_clean {m : Mem} {cur : Option Str} (h : Clean m cur) : chars m m.ftime = .ok (cur.getD (Log.Spec.ascii "%Y-%m-%d %H:%M:%S ")) := by
  cases cur with
  | none => rw [h.2.1]; rfl
  | some f =>
    obtain ⟨a, _, h1, h2, _⟩ := h
    rw [h1]
    show str m.heap a = _
    unfold str
    rw [h2]
    rfl

theorem chars_in {m : Mem} {p : Ftime} (h : In m p) : (∃ t, chars m p = .ok t) ∨ chars m p = .error .useAfterFree := by
  cases p with
  | default => exact .inl ⟨_, rfl⟩
  | «at» a =>
    have := List.getElem?_eq_getElem (h a rfl)
    unfold chars str
    dsimp only
    cases hv : m.heap[a]'(h a rfl) with
    | none => rw [hv] at this; rw [this]; exact .inr rfl
    | some t => rw [hv] at this; rw [this]; exact .inl ⟨t, rfl⟩

theorem used_none {f : Option Str} : used f = none ↔ f.getD (Log.Spec.ascii "%Y-%m-%d %H:%M:%S ") = [] := by
  unfold used
  dsimp only
  split <;> simp [*]

theorem used_some {f : Option Str} (h : used f ≠ none) : used f = some (f.getD (Log.Spec.ascii "%Y-%m-%d %H:%M:%S ")) := by
  unfold used at h ⊢
  dsimp only at h ⊢
  split
  · rename_i e
    rw [if_pos e] at h
    exact absurd rfl h
  · rfl

/-- The thread which is logging something goes on, or fails if somebody's changing the format. -/
theorem next_read {m : Mem} {a b : List Event} {pc : Pc} (hr : reader pc = true) (h : Reading m a b pc) (hin : In m m.ftime) (hc : ¬ Overlap a b → Clean m (formatOf a)) :
    (next m pc = .error .useAfterFree ∧ Overlap a b) ∨
    ∃ pc' e, next m pc = .ok (m, pc', e) ∧
      (reader pc' = true ∧ e = none ∧ Reading m a b pc' ∨ ∃ x, pc' = .idle ∧ e = some (.logged x) ∧ (¬ Overlap a b → x = used (formatOf a))) := by
  cases pc with
  | rdPtr => exact .inr ⟨_, _, rfl, .inl ⟨rfl, rfl, hin, .inr rfl⟩⟩
  | rdFirst p =>
    rcases chars_in h.1 with ⟨t, ht⟩ | ht
    · right
      have key : ¬ Overlap a b → t = (formatOf a).getD (Log.Spec.ascii "%Y-%m-%d %H:%M:%S ") := by
        intro ho
        have := h.2.resolve_left ho
        rw [this, chars_clean (hc ho)] at ht
        cases ht
        rfl
      by_cases e : t = []
      · refine ⟨.idle, some (.logged none), by rw [next, ht, ok_bind, if_neg (by simpa using e)], .inr ⟨none, rfl, rfl, fun ho => ?_⟩⟩
        exact (used_none.2 (by rw [← key ho, e])).symm
      · refine ⟨.rdAgain, none, by rw [next, ht, ok_bind, if_pos e], .inl ⟨rfl, rfl, ?_⟩⟩
        rcases Classical.em (Overlap a b) with ho | ho
        · exact .inl ho
        · exact .inr (fun hu => e (by rw [key ho]; exact used_none.1 hu))
    · rcases Classical.em (Overlap a b) with ho | ho
      · exact .inl ⟨by rw [next, ht, error_bind], ho⟩
      · rw [h.2.resolve_left ho, chars_clean (hc ho)] at ht
        cases ht
  | rdAgain => exact .inr ⟨_, _, rfl, .inl ⟨rfl, rfl, hin, h.imp id (fun h => ⟨rfl, h⟩)⟩⟩
  | rdFormat p =>
    rcases chars_in h.1 with ⟨t, ht⟩ | ht
    · refine .inr ⟨.idle, some (.logged (some t)), by rw [next, ht, ok_bind], .inr ⟨some t, rfl, rfl, fun ho => ?_⟩⟩
      obtain ⟨h1, h2⟩ := h.2.resolve_left ho
      rw [h1, chars_clean (hc ho)] at ht
      cases ht
      exact (used_some h2).symm
    · rcases Classical.em (Overlap a b) with ho | ho
      · exact .inl ⟨by rw [next, ht, error_bind], ho⟩
      · rw [(h.2.resolve_left ho).1, chars_clean (hc ho)] at ht
        cases ht
  | _ => cases hr

theorem reading_more {m m' : Mem} {a b : List Event} {pc : Pc} (l : List Event) (h : Reading m a b pc) (hl : m.heap.length ≤ m'.heap.length)
    (hk : Overlap a (b ++ l) ∨ m'.ftime = m.ftime) : Reading m' a (b ++ l) pc := by
  have hi : ∀ {p}, In m p → In m' p := fun h a e => Nat.lt_of_lt_of_le (h a e) hl
  cases pc with
  | rdFirst p =>
    refine ⟨hi h.1, ?_⟩
    rcases h.2 with h2 | h2
    · exact .inl (overlap_append l h2)
    · exact hk.imp id (fun e => by rw [h2, e])
  | rdAgain => exact h.imp (overlap_append l) id
  | rdFormat p =>
    refine ⟨hi h.1, ?_⟩
    rcases h.2 with h2 | ⟨h2, h3⟩
    · exact .inl (overlap_append l h2)
    · exact hk.imp id (fun e => ⟨by rw [h2, e], h3⟩)
  | _ => trivial

/-- The history of calls which have ended is extended with something else. -/
theorem done_snoc {h : List Event} {e : Event}
    (hd : ∀ a b c t x, h = a ++ .logging t :: (b ++ .logged t x :: c) → .logging t ∉ b → ¬ Overlap a b → x = used (formatOf a))
    (he : ∀ t x a b, e = .logged t x → During t h a b → ¬ Overlap a b → x = used (formatOf a)) :
    ∀ a b c t x, h ++ [e] = a ++ .logging t :: (b ++ .logged t x :: c) → .logging t ∉ b → ¬ Overlap a b → x = used (formatOf a) := by
  intro a b c t x hh hn ho
  rcases List.eq_nil_or_concat c with rfl | ⟨c', e', rfl⟩
  · have hh : h ++ [e] = (a ++ .logging t :: b) ++ [.logged t x] := by rw [hh]; simp
    obtain ⟨h1, h2⟩ := List.append_inj' hh rfl
    injection h2 with h2
    exact he t x a b h2 ⟨h1, hn⟩ ho
  · have hh : h ++ [e] = (a ++ .logging t :: (b ++ .logged t x :: c')) ++ [e'] := by rw [hh]; simp
    exact hd a b c' t x (List.append_inj' hh rfl).1 hn ho

theorem setter_reader {pc : Pc} (h : setter pc = true) : reader pc = false := by cases pc <;> first | rfl | cases h

theorem not_setter {pc : Pc} (h : reader pc = true) : setter pc = false := by cases pc <;> first | rfl | cases h

theorem neither {pc : Pc} (h : setter pc = false) (hi : pc ≠ .idle) : reader pc = true := by
  cases pc <;> first | rfl | exact absurd rfl hi | cases h

/-- A thread begins something. -/
theorem inv_begin {s : State} (i : Inv s) {t : Nat} (hi : s.pc t = .idle) (pc : Pc) (e : Event)
    (h : (∃ f, e = .setting t f ∧ ¬ Busy s.hist ∧ setter pc = true ∧ ((∃ cur, Clean s.mem cur) → Doing s.mem f pc)) ∨ (e = .logging t ∧ pc = .rdPtr)) :
    Inv { s.goto t pc with hist := s.hist ++ [e] } := by
  have hother : ∀ u, u ≠ t → ∀ f, e ≠ .setting u f := by
    intro u hu f he
    rcases h with ⟨g, h1, _⟩ | ⟨h1, _⟩
    · rw [h1] at he; injection he with h2; exact hu h2.symm
    · rw [h1] at he; cases he
  have hset : ∀ u, e ≠ .set u := by
    intro u he
    rcases h with ⟨g, h1, _⟩ | ⟨h1, _⟩ <;> rw [h1] at he <;> cases he
  have hquiet : ¬ Busy s.hist → ∀ u, setter (s.pc u) = false := by
    intro hb u
    cases hp : setter (s.pc u) with
    | false => rfl
    | true => exact absurd ⟨u, (i.pend u).2 hp⟩ hb
  refine ⟨fun u => ?_, fun hc => ?_, fun u hu => ?_, i.ptr, fun u hu => ?_, ?_⟩
  · dsimp only
    rw [pending_snoc]
    by_cases eu : u = t
    · subst eu
      rw [goto_same]
      rcases h with ⟨f, rfl, _, h2, _⟩ | ⟨rfl, rfl⟩
      · simp [h2]
      · have : ¬ Pending u s.hist := by rw [i.pend, hi]; decide
        simp [this, setter]
    · rw [goto_other s pc eu, ← i.pend u]
      simp only [hother u eu, exists_false, false_or, ne_eq, hset u, not_false_eq_true, and_true]
  · dsimp only at hc ⊢
    have h1 := hc t
    rw [goto_same] at h1
    rcases h with ⟨f, rfl, _, h2, _⟩ | ⟨rfl, rfl⟩
    · rw [h2] at h1; cases h1
    · rw [format_snoc]
      refine i.clean (fun u => ?_)
      by_cases eu : u = t
      · rw [eu, hi]; rfl
      · have := hc u
        rw [goto_other s _ eu] at this
        exact this
  · dsimp only at hu ⊢
    rw [format_snoc]
    rcases h with ⟨f, rfl, hb, h2, h3⟩ | ⟨rfl, rfl⟩
    · by_cases eu : u = t
      · subst eu
        refine ⟨by rw [goto_same]; exact h3 ⟨_, i.clean (hquiet hb)⟩, fun v hv => ?_⟩
        rw [goto_other s _ hv]
        exact hquiet hb v
      · rw [goto_other s _ eu, hquiet hb u] at hu
        cases hu
    · by_cases eu : u = t
      · subst eu
        rw [goto_same] at hu
        cases hu
      · rw [goto_other s _ eu] at hu ⊢
        refine ⟨(i.doing u hu).1, fun v hv => ?_⟩
        by_cases ev : v = t
        · rw [ev, goto_same]; rfl
        · rw [goto_other s _ ev]
          exact (i.doing u hu).2 v hv
  · dsimp only at hu ⊢
    by_cases eu : u = t
    · subst eu
      rw [goto_same] at hu ⊢
      rcases h with ⟨f, rfl, _, h2, _⟩ | ⟨rfl, rfl⟩
      · rw [setter_reader h2] at hu; cases hu
      · exact ⟨s.hist, [], ⟨rfl, by simp⟩, trivial⟩
    · rw [goto_other s _ eu] at hu ⊢
      obtain ⟨a, b, h1, h2⟩ := i.reads u hu
      refine ⟨a, b ++ [e], during_append h1 ?_, reading_more [e] h2 (Nat.le_refl _) (.inr rfl)⟩
      simp only [List.mem_singleton]
      intro he
      rcases h with ⟨f, h3, _⟩ | ⟨h3, _⟩
      · rw [h3] at he; cases he
      · rw [h3] at he; injection he with h4; exact eu h4
  · dsimp only
    refine done_snoc i.done (fun u x a b he => ?_)
    rcases h with ⟨f, h3, _⟩ | ⟨h3, _⟩ <;> rw [h3] at he <;> cases he

theorem quiet_clean {s : State} (i : Inv s) {t : Nat} {a b : List Event} (hd : During t s.hist a b) (ho : ¬ Overlap a b) :
    (∀ u, setter (s.pc u) = false) ∧ formatOf s.hist = formatOf a := by
  have hn : ∀ u f, Event.setting u f ∉ .logging t :: b := by
    intro u f hm
    rcases List.mem_cons.1 hm with hm | hm
    · cases hm
    · exact ho (.inr ⟨u, f, hm⟩)
  refine ⟨fun u => ?_, by rw [hd.1]; exact format_before hn⟩
  cases hp : setter (s.pc u) with
  | false => rfl
  | true =>
    have := (i.pend u).2 hp
    rw [hd.1] at this
    exact absurd (.inl ⟨u, pending_before hn this⟩) ho

theorem overlap_now {s : State} (i : Inv s) {t u : Nat} {a b : List Event} (hd : During t s.hist a b) (hu : setter (s.pc u) = true) : Overlap a b := by
  rcases Classical.em (Overlap a b) with ho | ho
  · exact ho
  · rw [(quiet_clean i hd ho).1 u] at hu
    cases hu

theorem step_inv {s : State} (i : Inv s) {a : Act} (ha : Allowed s a) (hp : Serial s a) :
    (∃ s', step s a = .ok s' ∧ Inv s') ∨ ∃ t before during, a = .next t ∧ step s a = .error .useAfterFree ∧ During t s.hist before during ∧ Overlap before during := by
  cases a with
  | set t f =>
    cases f with
    | none => exact .inl ⟨_, rfl, inv_begin i ha .clrTest (.setting t none) (.inl ⟨none, rfl, hp, rfl, fun h => ⟨rfl, h⟩⟩)⟩
    | some f => exact .inl ⟨_, rfl, inv_begin i ha (.setRead f) (.setting t (some f)) (.inl ⟨some f, rfl, hp, rfl, fun h => ⟨rfl, h⟩⟩)⟩
  | log t => exact .inl ⟨_, rfl, inv_begin i ha .rdPtr (.logging t) (.inr ⟨rfl, rfl⟩)⟩
  | next t =>
    have ha : s.pc t ≠ .idle := ha
    cases hset : setter (s.pc t) with
    | true =>
      obtain ⟨h1, h2⟩ := i.doing t hset
      obtain ⟨m', pc', e, h3, h4, h5, h6⟩ := next_set h1 i.ptr
      refine .inl ⟨{ s.goto t pc' with mem := m', hist := s.hist ++ ended t e }, by rw [step, h3, ok_bind], ?_⟩
      have hpend : ∀ u, Pending u (s.hist ++ ended t e) ↔ setter ((s.goto t pc').pc u) = true := by
        intro u
        rcases h6 with ⟨h7, rfl, _⟩ | ⟨rfl, rfl, _⟩
        · rw [show s.hist ++ ended t none = s.hist by simp [ended], i.pend u]
          by_cases eu : u = t
          · subst eu; rw [goto_same, h7, hset]
          · rw [goto_other s _ eu]
        · show Pending u (s.hist ++ [.set t]) ↔ _
          rw [pending_snoc]
          by_cases eu : u = t
          · subst eu; rw [goto_same]; simp [setter]
          · rw [goto_other s _ eu, i.pend u]
            have : t ≠ u := fun h => eu h.symm
            simp [this]
      have hfmt : formatOf (s.hist ++ ended t e) = formatOf s.hist := by
        rcases h6 with ⟨_, rfl, _⟩ | ⟨_, rfl, _⟩
        · simp [ended]
        · exact format_snoc s.hist (.set t)
      refine ⟨hpend, fun hc => ?_, fun u hu => ?_, h5, fun u hu => ?_, ?_⟩
      · dsimp only at hc ⊢
        rw [hfmt]
        rcases h6 with ⟨h7, _, _⟩ | ⟨_, _, h7⟩
        · have := hc t
          rw [goto_same, h7] at this
          cases this
        · exact h7
      · dsimp only at hu ⊢
        rw [hfmt]
        by_cases eu : u = t
        · subst eu
          rw [goto_same] at hu ⊢
          rcases h6 with ⟨_, _, h7⟩ | ⟨h7, _, _⟩
          · exact ⟨h7, fun v hv => by rw [goto_other s _ hv]; exact h2 v hv⟩
          · rw [h7] at hu; cases hu
        · rw [goto_other s _ eu, h2 u eu] at hu
          cases hu
      · dsimp only at hu ⊢
        have eu : u ≠ t := by
          intro eu
          subst eu
          rw [goto_same] at hu
          rcases h6 with ⟨h7, _, _⟩ | ⟨h7, _, _⟩
          · rw [setter_reader h7] at hu; cases hu
          · rw [h7] at hu; cases hu
        rw [goto_other s _ eu] at hu ⊢
        obtain ⟨a, b, h7, h8⟩ := i.reads u hu
        refine ⟨a, b ++ ended t e, during_append h7 ?_, reading_more _ h8 h4 (.inl (overlap_append _ (overlap_now i h7 hset)))⟩
        rcases h6 with ⟨_, rfl, _⟩ | ⟨_, rfl, _⟩ <;> simp [ended]
      · dsimp only
        rcases h6 with ⟨_, rfl, _⟩ | ⟨_, rfl, _⟩
        · rw [show s.hist ++ ended t none = s.hist by simp [ended]]
          exact i.done
        · exact done_snoc i.done (fun u x a b he => by cases he)
    | false =>
      have hr := neither hset ha
      obtain ⟨a, b, h1, h2⟩ := i.reads t hr
      rcases next_read hr h2 i.ptr (fun ho => by have := quiet_clean i h1 ho; rw [← this.2]; exact i.clean this.1) with ⟨h3, h4⟩ | ⟨pc', e, h3, h4⟩
      · exact .inr ⟨t, a, b, rfl, by rw [step, h3, error_bind], h1, h4⟩
      · refine .inl ⟨{ s.goto t pc' with mem := s.mem, hist := s.hist ++ ended t e }, by rw [step, h3, ok_bind], ?_⟩
        have hs' : setter pc' = false := by
          rcases h4 with ⟨h5, _⟩ | ⟨x, rfl, _⟩
          · exact not_setter h5
          · rfl
        have hsame : ∀ u, setter ((s.goto t pc').pc u) = setter (s.pc u) := by
          intro u
          by_cases eu : u = t
          · subst eu; rw [goto_same, hs', hset]
          · rw [goto_other s _ eu]
        have hpd : ∀ u, Pending u (s.hist ++ ended t e) ↔ Pending u s.hist := by
          intro u
          rcases h4 with ⟨_, rfl, _⟩ | ⟨x, _, rfl, _⟩
          · simp [ended]
          · show Pending u (s.hist ++ [.logged t x]) ↔ _
            rw [pending_snoc]
            simp
        have hfmt : formatOf (s.hist ++ ended t e) = formatOf s.hist := by
          rcases h4 with ⟨_, rfl, _⟩ | ⟨x, _, rfl, _⟩
          · simp [ended]
          · exact format_snoc s.hist (.logged t x)
        have hnl : ∀ u, Event.logging u ∉ ended t e := by
          intro u
          rcases h4 with ⟨_, rfl, _⟩ | ⟨x, _, rfl, _⟩ <;> simp [ended]
        refine ⟨fun u => ?_, fun hc => ?_, fun u hu => ?_, i.ptr, fun u hu => ?_, ?_⟩
        · dsimp only
          rw [hpd, hsame, i.pend]
        · dsimp only at hc ⊢
          rw [hfmt]
          exact i.clean (fun u => by rw [← hsame u]; exact hc u)
        · dsimp only at hu ⊢
          rw [hsame] at hu
          rw [hfmt]
          have eu : u ≠ t := by
            intro eu
            subst eu
            rw [hset] at hu
            cases hu
          rw [goto_other s _ eu]
          exact ⟨(i.doing u hu).1, fun v hv => by rw [hsame]; exact (i.doing u hu).2 v hv⟩
        · dsimp only at hu ⊢
          by_cases eu : u = t
          · subst eu
            rw [goto_same] at hu ⊢
            refine ⟨a, b ++ ended u e, during_append h1 (hnl u), ?_⟩
            rcases h4 with ⟨_, _, h5⟩ | ⟨x, h5, _⟩
            · exact reading_more _ h5 (Nat.le_refl _) (.inr rfl)
            · rw [h5] at hu; cases hu
          · rw [goto_other s _ eu] at hu ⊢
            obtain ⟨a, b, h7, h8⟩ := i.reads u hu
            exact ⟨a, b ++ ended t e, during_append h7 (hnl u), reading_more _ h8 (Nat.le_refl _) (.inr rfl)⟩
        · dsimp only
          rcases h4 with ⟨_, rfl, _⟩ | ⟨x, _, rfl, h5⟩
          · rw [show s.hist ++ ended t none = s.hist by simp [ended]]
            exact i.done
          · refine done_snoc i.done (fun u y a' b' he hd ho => ?_)
            injection he with he1 he2
            subst he1
            subst he2
            obtain ⟨rfl, rfl⟩ := during_unique h1 hd
            exact h5 ho

theorem reach_inv {s : State} (h : Reach Serial s) : Inv s := by
  induction h with
  | init => exact inv_init
  | step _ ha hp hs ih =>
    rcases step_inv ih ha hp with ⟨s', h1, h2⟩ | ⟨t, a, b, _, h1, _⟩
    · rw [h1] at hs
      cases hs
      exact h2
    · rw [h1] at hs
      cases hs

end Verif.LogFormat
