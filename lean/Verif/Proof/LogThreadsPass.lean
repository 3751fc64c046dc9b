import Verif.Spec.LogThreadsPass
import Verif.Proof.Log
import Verif.Proof.LogThreadsAll

/-! # Which messages are logged: helpers -/

namespace Verif.LogThreads
open Verif.C
open Verif.Log (Module Proc Proc2 Out Env Ftime)
open Verif.Log.Spec (Chain NoneDisabled levelOf Passes)

/-- The decision which depends on the module `i` and its ancestors -/
def Dec (ms : List Module) (level : Int) (i : Nat) : Prop :=
  ∃ rest max, Chain ms (i :: rest) ∧ NoneDisabled ms (i :: rest) ∧ levelOf ms (i :: rest) = some max ∧ Passes level max

/-- The decision which depends on the default level -/
def Dflt (ms : List Module) (level : Int) : Prop := ∃ d : Module, ms[0]? = some d ∧ Passes level d.level

theorem dec_disabled {ms : List Module} {level : Int} {i : Nat} {m : Module} (hm : ms[i]? = some m) (hd : m.disable = true) : ¬ Dec ms level i := by
  rintro ⟨rest, max, _, h, _⟩
  have := h i (by simp) m hm
  rw [hd] at this
  cases this

theorem levelOf_cons (ms : List Module) (i j : Nat) (rest : List Nat) : levelOf ms (i :: j :: rest) = levelOf ms (j :: rest) := by
  unfold levelOf
  rw [List.getLast?_cons_cons]

theorem dec_parent {ms : List Module} {level : Int} {i p : Nat} {m : Module} (hm : ms[i]? = some m) (hd : m.disable = false) (hl : m.level = -1) (hp : m.parent = some p) :
    Dec ms level i ↔ Dec ms level p := by
  constructor
  · rintro ⟨rest, max, h1, h2, h3, h4⟩
    cases rest with
    | nil =>
      obtain ⟨m', e1, e2⟩ := h1
      rw [hm] at e1
      injection e1 with e1
      subst e1
      rcases e2 with e2 | e2
      · exact absurd hl e2
      · rw [hp] at e2; cases e2
    | cons q rest =>
      obtain ⟨⟨m', e1, _, e3⟩, h5⟩ := h1
      rw [hm] at e1
      injection e1 with e1
      subst e1
      rw [hp] at e3
      injection e3 with e3
      subst e3
      refine ⟨rest, max, h5, ?_, by rw [← levelOf_cons]; exact h3, h4⟩
      intro k hk
      exact h2 k (List.mem_cons_of_mem _ hk)
  · rintro ⟨rest, max, h1, h2, h3, h4⟩
    refine ⟨p :: rest, max, ⟨⟨m, hm, hl, hp⟩, h1⟩, ?_, by rw [levelOf_cons]; exact h3, h4⟩
    intro k hk m' hm'
    rcases List.mem_cons.mp hk with rfl | hk
    · rw [hm] at hm'
      injection hm' with hm'
      subst hm'
      exact hd
    · exact h2 k hk m' hm'

theorem dec_last {ms : List Module} {level : Int} {i : Nat} {m : Module} (hm : ms[i]? = some m) (hd : m.disable = false) (hl : m.level ≠ -1 ∨ m.parent = none) :
    Dec ms level i ↔ if m.level = -1 then Dflt ms level else Passes level m.level := by
  have hc : Chain ms [i] := ⟨m, hm, hl⟩
  have hv : levelOf ms [i] = if m.level = -1 then (ms[0]?).map Module.level else some m.level := by
    unfold levelOf
    simp [hm]
  constructor
  · rintro ⟨rest, max, h1, _, h3, h4⟩
    have := Log.chain_unique ms _ _ i h1 hc
    subst this
    rw [hv] at h3
    by_cases e : m.level = -1
    · rw [if_pos e] at h3 ⊢
      obtain ⟨d, h5, h6⟩ := Option.map_eq_some_iff.mp h3
      exact ⟨d, h5, by rw [h6]; exact h4⟩
    · rw [if_neg e] at h3 ⊢
      injection h3 with h3
      rw [h3]; exact h4
  · intro h
    have hn : NoneDisabled ms [i] := by
      intro k hk m' hm'
      have : k = i := by simpa using hk
      subst this
      rw [hm] at hm'
      injection hm' with hm'
      subst hm'
      exact hd
    by_cases e : m.level = -1
    · rw [if_pos e] at h hv
      obtain ⟨d, h5, h6⟩ := h
      exact ⟨[], d.level, hc, hn, by rw [hv, h5]; rfl, h6⟩
    · rw [if_neg e] at h hv
      exact ⟨[], m.level, hc, hn, hv, h⟩

/-- The second configuration selects the same messages as the first one. -/
def Agree (c c' : Config) : Prop :=
  c'.func2.isSome = c.func2.isSome ∧
    ∀ (i : Nat) (m' : Module), c'.modules[i]? = some m' → ∃ m, c.modules[i]? = some m ∧ m.level = m'.level ∧ m.parent = m'.parent ∧ m.disable = m'.disable

/-- Where the thread is, and what it has passed by then. -/
def Ahead (c : Config) (j : Job) : Pc → List (Nat × Proc2) → Prop
  | .idle, l => (Wanted c j → l.length = 1) ∧ (¬ Wanted c j → l = [])
  | .entry k, l => k = j ∧ l = []
  | .flags k none, l => k = j ∧ l = [] ∧ (Wanted c j ↔ Dflt c.modules j.level)
  | .flags k (some i), l => k = j ∧ l = [] ∧ (Wanted c j ↔ Dec c.modules j.level i)
  | .inherit k i, l => k = j ∧ l = [] ∧ (Wanted c j ↔ Dec c.modules j.level i) ∧ ∃ m, c.modules[i]? = some m ∧ m.disable = false
  | .hasParent k i, l => k = j ∧ l = [] ∧ (Wanted c j ↔ Dec c.modules j.level i) ∧ ∃ m, c.modules[i]? = some m ∧ m.disable = false ∧ m.level = -1
  | .parent k i, l => k = j ∧ l = [] ∧ (Wanted c j ↔ Dec c.modules j.level i) ∧ ∃ m, c.modules[i]? = some m ∧ m.disable = false ∧ m.level = -1 ∧ m.parent ≠ none
  | .own k i, l => k = j ∧ l = [] ∧ (Wanted c j ↔ Dec c.modules j.level i) ∧ ∃ m, c.modules[i]? = some m ∧ m.disable = false ∧ (m.level ≠ -1 ∨ m.parent = none)
  | .ownLevel k i, l => k = j ∧ l = [] ∧ (Wanted c j ↔ Dec c.modules j.level i) ∧ ∃ m, c.modules[i]? = some m ∧ m.disable = false ∧ m.level ≠ -1
  | .default k, l => k = j ∧ l = [] ∧ (Wanted c j ↔ Dflt c.modules j.level)
  | .hasProc _, l => l = [] ∧ Wanted c j
  | .proc _, l => l = [] ∧ Wanted c j
  | .func2 _, l => l = [] ∧ Wanted c j
  | _, l => l.length = 1 ∧ Wanted c j

/-- The functions called in a step -/
def notePassed (l : List Note) : List (Nat × Proc2) := l.filterMap (fun | .called2 i p => some (i, p) | _ => none)

theorem ahead_end {c : Config} {j : Job} {l : List (Nat × Proc2)} (h : l.length = 1 ∧ Wanted c j) : Ahead c j .idle l :=
  ⟨fun _ => h.1, fun n => absurd h.2 n⟩

theorem ahead_no {c : Config} {j : Job} (h : ¬ Wanted c j) : Ahead c j .idle [] := ⟨fun n => absurd n h, fun _ => rfl⟩

theorem compare_ahead {c : Config} {j : Job} {max : Int} (h : Wanted c j ↔ Passes j.level max) : Ahead c j (compare j max) [] := by
  unfold compare
  by_cases e : Log.passes j.level max = true
  · rw [if_pos e]
    exact ⟨rfl, h.mpr ((Log.passes_iff _ _).mp e)⟩
  · rw [if_neg e]
    exact ahead_no (fun w => e ((Log.passes_iff _ _).mpr (h.mp w)))

theorem notePassed_outs (l : List Out) : notePassed (l.map .out) = [] := by
  unfold notePassed
  rw [List.filterMap_map]
  exact List.filterMap_eq_nil_iff.mpr (fun _ _ => rfl)

theorem enter_ahead {env : Env} {c0 c : Config} {j k : Job} {p : Proc} {name : Option Str} {r : Pc × List Note} {l : List (Nat × Proc2)} (h : enter env c k p name = .ok r)
    (hl : l.length = 1 ∧ Wanted c0 j) : Ahead c0 j r.1 (l ++ notePassed r.2) := by
  unfold enter at h
  split at h
  · injection h with h; subst h
    show Ahead c0 j (.stamp ..) (l ++ [])
    rw [List.append_nil]; exact hl
  · injection h with h; subst h
    show Ahead c0 j (.stamp ..) (l ++ [])
    rw [List.append_nil]; exact hl
  · cases ho : Log.syslog env c name k.level k.msg with
    | error e => rw [ho] at h; cases h
    | ok o =>
      rw [ho, ok_bind] at h
      injection h with h; subst h
      dsimp only
      rw [notePassed_outs, List.append_nil]; exact ahead_end hl
  · injection h with h; subst h
    dsimp only
    rw [notePassed_outs, List.append_nil]; exact ahead_end hl
  · injection h with h; subst h
    show Ahead c0 j .idle (l ++ [])
    rw [List.append_nil]; exact ahead_end hl

theorem enterFunc_ahead {env : Env} {c0 c : Config} {j k : Job} {p : Proc} {name : Option Str} {r : Pc × List Note} {l : List (Nat × Proc2)}
    (h : enterFunc env c k p name = .ok r) (hl : l.length = 1 ∧ Wanted c0 j) : Ahead c0 j r.1 (l ++ notePassed r.2) := by
  unfold enterFunc at h
  cases he : enter env c k p name with
  | error e => rw [he] at h; cases h
  | ok q =>
    rw [he, ok_bind] at h
    injection h with h; subst h
    have q := enter_ahead (l := l) he hl
    exact q

theorem enter2_ahead {c0 : Config} {j k : Job} {p : Option Proc2} {r : Pc × List Note} (h : enter2 k p = .ok r) (hw : Wanted c0 j) :
    Ahead c0 j r.1 ([] ++ notePassed r.2) := by
  unfold enter2 at h
  split at h
  · cases h
  · injection h with h; subst h
    exact ⟨rfl, hw⟩
  · injection h with h; subst h
    exact ⟨rfl, hw⟩
  · injection h with h; subst h
    exact ahead_end ⟨rfl, hw⟩

theorem get_cases {c : Config} {i : Nat} {α : Type} {f : Module → M α} {r : α} (h : (c.get i >>= f) = .ok r) : ∃ m, c.modules[i]? = some m ∧ f m = .ok r := by
  cases hg : c.get i with
  | error e => rw [hg] at h; cases h
  | ok m => rw [hg, ok_bind] at h; exact ⟨m, get_some hg, h⟩

theorem next_ahead {env : Env} {c0 c : Config} (g : Agree c0 c) {j : Job} {pc : Pc} {r : Pc × List Note} {l : List (Nat × Proc2)} (h : Ahead c0 j pc l)
    (hn : next env c pc = .ok r) : Ahead c0 j r.1 (l ++ notePassed r.2) := by
  cases pc with
  | idle => cases hn
  | entry k =>
    obtain ⟨rfl, rfl⟩ := h
    injection hn with hn; subst hn
    dsimp only
    by_cases e : k.level ≠ Log.NONE ∧ c.func2.isSome = true
    · rw [if_pos e]
      have e2 : c0.func2 ≠ none := by
        intro e2
        have := g.1
        rw [e2] at this
        rw [this] at e
        exact absurd e.2 (by simp)
      cases hk : k.module with
      | none =>
        refine ⟨rfl, rfl, ?_⟩
        unfold Wanted
        rw [hk]
        exact ⟨fun h => h.2, fun h => ⟨e2, h⟩⟩
      | some i =>
        refine ⟨rfl, rfl, ?_⟩
        unfold Wanted
        rw [hk]
        exact ⟨fun h => h.2, fun h => ⟨e2, h⟩⟩
    · rw [if_neg e]
      apply ahead_no
      rintro ⟨w1, w2⟩
      have h1 : c.func2.isSome = true := by
        rw [g.1]
        cases hx : c0.func2 with
        | none => exact absurd hx w1
        | some _ => rfl
      have h2 : k.level = 0 := by
        by_cases h2 : k.level = 0
        · exact h2
        · exact absurd ⟨h2, h1⟩ e
      cases hk : k.module with
      | none =>
        rw [hk] at w2
        obtain ⟨d, _, hp⟩ := w2
        rcases hp with hp | hp <;> omega
      | some i =>
        rw [hk] at w2
        obtain ⟨_, _, _, _, _, hp⟩ := w2
        rcases hp with hp | hp <;> omega
  | flags k o =>
    cases o with
    | none =>
      obtain ⟨rfl, rfl, h⟩ := h
      injection hn with hn; subst hn
      exact ⟨rfl, rfl, h⟩
    | some i =>
      obtain ⟨rfl, rfl, h⟩ := h
      obtain ⟨m', h1, h2⟩ := get_cases hn
      obtain ⟨m, h3, h4, h5, h6⟩ := g.2 i m' h1
      injection h2 with h2; subst h2
      dsimp only
      rw [← h6]
      by_cases e : m.disable = true
      · rw [if_pos e]
        exact ahead_no (fun w => dec_disabled h3 e (h.mp w))
      · rw [if_neg e]
        exact ⟨rfl, rfl, h, m, h3, by simpa using e⟩
  | inherit k i =>
    obtain ⟨rfl, rfl, h, m, h3, hd⟩ := h
    obtain ⟨m', h1, h2⟩ := get_cases hn
    obtain ⟨m2, h4, h5, h6, h7⟩ := g.2 i m' h1
    rw [h3] at h4; injection h4 with h4; subst h4
    injection h2 with h2; subst h2
    dsimp only
    rw [← h5]
    by_cases e : m.level = Log.INHERIT
    · rw [if_pos e]
      exact ⟨rfl, rfl, h, m, h3, hd, e⟩
    · rw [if_neg e]
      exact ⟨rfl, rfl, h, m, h3, hd, .inl e⟩
  | hasParent k i =>
    obtain ⟨rfl, rfl, h, m, h3, hd, hl⟩ := h
    obtain ⟨m', h1, h2⟩ := get_cases hn
    obtain ⟨m2, h4, h5, h6, h7⟩ := g.2 i m' h1
    rw [h3] at h4; injection h4 with h4; subst h4
    injection h2 with h2; subst h2
    dsimp only
    rw [← h6]
    cases hp : m.parent with
    | none => exact ⟨rfl, rfl, h, m, h3, hd, .inr hp⟩
    | some p => exact ⟨rfl, rfl, h, m, h3, hd, hl, by rw [hp]; simp⟩
  | parent k i =>
    obtain ⟨rfl, rfl, h, m, h3, hd, hl, hq⟩ := h
    obtain ⟨m', h1, h2⟩ := get_cases hn
    obtain ⟨m2, h4, h5, h6, h7⟩ := g.2 i m' h1
    rw [h3] at h4; injection h4 with h4; subst h4
    injection h2 with h2; subst h2
    dsimp only
    rw [← h6]
    cases hp : m.parent with
    | none => exact absurd hp hq
    | some p => exact ⟨rfl, rfl, h.trans (dec_parent h3 hd hl hp)⟩
  | own k i =>
    obtain ⟨rfl, rfl, h, m, h3, hd, hl⟩ := h
    obtain ⟨m', h1, h2⟩ := get_cases hn
    obtain ⟨m2, h4, h5, h6, h7⟩ := g.2 i m' h1
    rw [h3] at h4; injection h4 with h4; subst h4
    injection h2 with h2; subst h2
    dsimp only
    rw [← h5]
    by_cases e : m.level = Log.INHERIT
    · rw [if_neg (by simp [e])]
      refine ⟨rfl, rfl, ?_⟩
      rw [h, dec_last h3 hd hl, if_pos (show m.level = -1 from e)]
    · rw [if_pos e]
      exact ⟨rfl, rfl, h, m, h3, hd, e⟩
  | ownLevel k i =>
    obtain ⟨rfl, rfl, h, m, h3, hd, hl⟩ := h
    obtain ⟨m', h1, h2⟩ := get_cases hn
    obtain ⟨m2, h4, h5, h6, h7⟩ := g.2 i m' h1
    rw [h3] at h4; injection h4 with h4; subst h4
    injection h2 with h2; subst h2
    dsimp only
    rw [← h5]
    exact compare_ahead (by rw [h, dec_last h3 hd (.inl hl), if_neg hl])
  | default k =>
    obtain ⟨rfl, rfl, h⟩ := h
    obtain ⟨m', h1, h2⟩ := get_cases hn
    obtain ⟨m2, h4, h5, h6, h7⟩ := g.2 0 m' h1
    injection h2 with h2; subst h2
    dsimp only
    rw [← h5]
    refine compare_ahead (h.trans ⟨?_, fun w => ⟨m2, h4, w⟩⟩)
    rintro ⟨d, e1, e2⟩
    rw [h4] at e1; injection e1 with e1; subst e1
    exact e2
  | hasProc k =>
    obtain ⟨rfl, h⟩ := h
    obtain ⟨m', h1, h2⟩ := get_cases hn
    injection h2 with h2; subst h2
    dsimp only
    split
    · exact ⟨rfl, h⟩
    · exact ⟨rfl, h⟩
  | proc k =>
    obtain ⟨rfl, h⟩ := h
    obtain ⟨m', h1, h2⟩ := get_cases hn
    exact enter2_ahead h2 h
  | func2 k =>
    obtain ⟨rfl, h⟩ := h
    exact enter2_ahead hn h
  | func k =>
    have h : l.length = 1 ∧ Wanted c0 j := h
    rw [next] at hn
    split at hn
    · injection hn with hn; subst hn
      show Ahead c0 j (.hideName ..) (l ++ [])
      rw [List.append_nil]; exact h
    · injection hn with hn; subst hn
      show Ahead c0 j .idle (l ++ [])
      rw [List.append_nil]; exact ahead_end h
  | hideName k p =>
    have h : l.length = 1 ∧ Wanted c0 j := h
    obtain ⟨m', h1, h2⟩ := get_cases hn
    split at h2
    · exact enterFunc_ahead h2 h
    · injection h2 with h2; subst h2
      show Ahead c0 j (.name ..) (l ++ [])
      rw [List.append_nil]; exact h
  | name k p =>
    obtain ⟨m', h1, h2⟩ := get_cases hn
    exact enterFunc_ahead h2 h
  | wrap k p =>
    obtain ⟨m', h1, h2⟩ := get_cases hn
    exact enter_ahead h2 h
  | stamp k err name =>
    have h : l.length = 1 ∧ Wanted c0 j := h
    injection hn with hn; subst hn
    dsimp only
    rw [show notePassed [] = [] from rfl, List.append_nil]
    split
    · exact h
    · exact h
  | format k err name =>
    have h : l.length = 1 ∧ Wanted c0 j := h
    injection hn with hn; subst hn
    dsimp only
    rw [show notePassed [] = [] from rfl, List.append_nil]
    exact h
  | first k err name f =>
    have h : l.length = 1 ∧ Wanted c0 j := h
    rw [next] at hn
    cases hf : chars c f with
    | error e => rw [hf] at hn; cases hn
    | ok t =>
      rw [hf, ok_bind] at hn
      injection hn with hn; subst hn
      dsimp only
      rw [show notePassed [] = [] from rfl, List.append_nil]
      split
      · exact h
      · exact h
  | again k err name =>
    have h : l.length = 1 ∧ Wanted c0 j := h
    injection hn with hn; subst hn
    dsimp only
    rw [show notePassed [] = [] from rfl, List.append_nil]
    exact h
  | strftime k err name f =>
    have h : l.length = 1 ∧ Wanted c0 j := h
    rw [next] at hn
    cases hf : chars c f with
    | error e => rw [hf] at hn; cases hn
    | ok t =>
      rw [hf, ok_bind] at hn
      cases hs : Log.stamp env t with
      | error e => rw [hs] at hn; cases hn
      | ok u =>
        rw [hs, ok_bind] at hn
        injection hn with hn; subst hn
        dsimp only
        rw [show notePassed [] = [] from rfl, List.append_nil]
        exact h
  | print k err name t =>
    have h : l.length = 1 ∧ Wanted c0 j := h
    rw [next] at hn
    cases hs : Log.format k.msg with
    | error e => rw [hs] at hn; cases hn
    | ok u =>
      rw [hs, ok_bind] at hn
      injection hn with hn; subst hn
      show Ahead c0 j .idle (l ++ [])
      rw [List.append_nil]; exact ahead_end h

/-! ### Changes -/

theorem agree_refl (c : Config) : Agree c c := ⟨rfl, fun _ m h => ⟨m, h, rfl, rfl, rfl⟩⟩

theorem agree_modify {c0 c : Config} (g : Agree c0 c) (i : Nat) (f : Module → Module) (hf : ∀ m, (f m).level = m.level ∧ (f m).parent = m.parent ∧ (f m).disable = m.disable) :
    Agree c0 (modify c i f) := by
  refine ⟨g.1, ?_⟩
  intro k m' hm
  obtain h := modify_at hm
  grind [Agree]

theorem agree_change {c0 c c' : Config} (g : Agree c0 c) {x : Setting} (hx : selects x = false) (hf : ∀ p, x = .func2 p → p.isSome = c0.func2.isSome)
    (h : change c x = .ok c') : Agree c0 c' := by
  cases x with
  | func p => injection h with h; subst h; exact ⟨g.1, g.2⟩
  | func2 p => injection h with h; subst h; exact ⟨hf p rfl, g.2⟩
  | proc i p => injection h with h; subst h; exact agree_modify g i _ (fun m => ⟨rfl, rfl, rfl⟩)
  | level i l => cases hx
  | parent i p => cases hx
  | flags i a b => cases hx
  | name i n => injection h with h; subst h; exact agree_modify g i _ (fun m => ⟨rfl, rfl, rfl⟩)
  | timestamp b => injection h with h; subst h; exact ⟨g.1, g.2⟩
  | tid b => injection h with h; subst h; exact ⟨g.1, g.2⟩
  | format f =>
    have hk : c'.modules = c.modules ∧ c'.func2 = c.func2 := by
      rw [change] at h
      unfold Log.setTimestampFormat at h
      cases f with
      | some f =>
        dsimp only at h
        cases h1 : Log.cmpCustom c f with
        | error e => rw [h1] at h; cases h
        | ok v =>
          rw [h1, ok_bind] at h
          split at h
          · cases h2 : gfree (c.heap ++ [some f]) c.custom with
            | error e => rw [h2] at h; cases h
            | ok heap => rw [h2, ok_bind] at h; injection h with h; subst h; exact ⟨rfl, rfl⟩
          · injection h with h; subst h; exact ⟨rfl, rfl⟩
      | none =>
        dsimp only at h
        split at h
        · next a _ =>
          cases h2 : gfree c.heap (some a) with
          | error e => rw [h2] at h; cases h
          | ok heap => rw [h2, ok_bind] at h; injection h with h; subst h; exact ⟨rfl, rfl⟩
        · injection h with h; subst h; exact ⟨rfl, rfl⟩
    refine ⟨by rw [hk.2]; exact g.1, ?_⟩
    rw [hk.1]
    exact g.2

theorem passed_append (t : Nat) (a b : List Event) : passed t (a ++ b) = passed t a ++ passed t b := List.filterMap_append

theorem passed_same (t : Nat) (r : Pc × List Note) : passed t (events t r) = notePassed r.2 := by
  unfold events
  rw [passed_append]
  have h2 : passed t (returned t r.1) = [] := by unfold returned; split <;> rfl
  rw [h2, List.append_nil]
  clear h2
  obtain ⟨pc, l⟩ := r
  dsimp only
  induction l with
  | nil => rfl
  | cons n l ih =>
    rw [List.map_cons, passed, List.filterMap_cons, notePassed, List.filterMap_cons]
    cases n with
    | out o => exact ih
    | called => exact ih
    | called2 i p => simp only [Note.event, if_true]; exact congrArg ((i, p) :: ·) ih

theorem passed_other {t u : Nat} (h : u ≠ t) (r : Pc × List Note) : passed t (events u r) = [] := by
  unfold passed
  rw [List.filterMap_eq_nil_iff]
  intro e he
  cases e with
  | called2 v i p =>
    rcases mem_events he with ⟨n, _, hn⟩ | he
    · cases n with
      | called2 a b => injection hn with h1; subst h1; simp [h]
      | _ => cases hn
    · cases he
  | _ => rfl

/-- Nothing which matters is changed. -/
def Unselect (c : Config) (h : List Event) : Prop := ∀ x, Event.set x ∈ h → selects x = false ∧ ∀ p, x = .func2 p → p.isSome = c.func2.isSome

theorem quiet_left {c : Config} {a b : List Event} (h : Unselect c (a ++ b)) : Unselect c a := fun x hx => h x (List.mem_append_left _ hx)

theorem path_ahead {env : Env} {s s' : State} {t : Nat} {c : Config} {j : Job} (g : Agree c s.cfg) (h0 : Ahead c j (s.pc t) []) (h : Path env s s') :
    ∃ h, s'.hist = s.hist ++ h ∧ (Unselect c h → (∀ k, Event.began t k ∉ h) → Agree c s'.cfg ∧ Ahead c j (s'.pc t) (passed t h)) := by
  induction h with
  | refl => exact ⟨[], (List.append_nil _).symm, fun _ _ => ⟨g, h0⟩⟩
  | @step s1 s2 a _ ha hs ih =>
    obtain ⟨h, e1, ih⟩ := ih
    cases a with
    | begin u k =>
      injection hs with hs
      refine ⟨h ++ [.began u k], by rw [← hs, ← List.append_assoc, ← e1], ?_⟩
      intro hq hb
      obtain ⟨h1, h2⟩ := ih (quiet_left hq) (fun k hk => hb k (List.mem_append_left _ hk))
      have e : u ≠ t := by
        intro e
        subst e
        exact hb k (by simp)
      refine ⟨by rw [← hs]; exact h1, ?_⟩
      rw [passed_append, show passed t [Event.began u k] = [] from rfl, List.append_nil, ← hs]
      show Ahead c j ((s1.goto u (.entry k)).pc t) _
      rw [goto_other s1 _ (fun h => e h.symm)]
      exact h2
    | next u =>
      obtain ⟨r, h3, h4⟩ := next_shape hs
      refine ⟨h ++ events u r, by rw [h4, ← List.append_assoc s.hist, ← e1]; rfl, ?_⟩
      intro hq hb
      obtain ⟨h1, h2⟩ := ih (quiet_left hq) (fun k hk => hb k (List.mem_append_left _ hk))
      refine ⟨by rw [h4]; exact h1, ?_⟩
      rw [passed_append, h4]
      by_cases e : u = t
      · subst e
        rw [passed_same]
        show Ahead c j ((s1.goto u r.1).pc u) _
        rw [goto_same]
        exact next_ahead h1 h2 h3
      · rw [passed_other e, List.append_nil]
        show Ahead c j ((s1.goto u r.1).pc t) _
        rw [goto_other s1 _ (fun h => e h.symm)]
        exact h2
    | set x =>
      obtain ⟨c', h3, h4⟩ := set_shape hs
      refine ⟨h ++ [.set x], by rw [h4, ← List.append_assoc, ← e1], ?_⟩
      intro hq hb
      obtain ⟨h1, h2⟩ := ih (quiet_left hq) (fun k hk => hb k (List.mem_append_left _ hk))
      obtain ⟨q1, q2⟩ := hq x (by simp)
      rw [h4]
      refine ⟨agree_change h1 q1 q2 h3, ?_⟩
      rw [passed_append, show passed t [Event.set x] = [] from rfl, List.append_nil]
      exact h2

end Verif.LogThreads
